import Verif.Model.PyOutput
import Verif.Props.Wisard
/-!
# Properties C52–C54 (and the Python part of C50): values returned by `classify` in Python

A degree is the exact fraction (numerator, denominator).
-/

namespace Wis
open Spec

/-- The label in a returned element. -/
def PyLabel.cls : PyLabel → Str
  | .plain l => l
  | .dict d => d.cls

/-! ## C50, C48 for Python -/

/-- C50 does not hold for `classify` from Python: an empty list reads outside a vector, for every model. -/
theorem C50_pyClassify_empty_ub (w : Wisard) : PyOut.pyClassify w [] = .error (.ub .outOfBounds) := rfl

theorem setClassifyOutput_cls (o : WisardOpts) (a : Str) (k : Int) (c : Scores) :
    (PyOut.setClassifyOutput o a k c).cls = a := by
  unfold PyOut.setClassifyOutput
  split <;> rfl

theorem loop_labels (w : Wisard) (k : Int) (xs : List Image) : ∀ rs, PyOut.loop w k xs = .ok rs →
    w.classify xs = .ok (rs.map PyLabel.cls) := by
  induction xs with
  | nil =>
    intro rs h
    simp only [PyOut.loop, Except.ok.injEq] at h
    subst h; rfl
  | cons x xs ih =>
    intro rs h
    simp only [PyOut.loop] at h
    obtain ⟨s, h1, h⟩ := bind_eq_ok h
    obtain ⟨ls, h2, h⟩ := bind_eq_ok h
    simp only [Except.ok.injEq] at h
    subst h
    simp only [Wisard.classify, h1, ih ls h2, Except.bind_ok, List.map_cons, setClassifyOutput_cls]

/-- C48 for Python: the classes returned by `classify` in Python are those of the C++ method. -/
theorem C48_python_same_labels (w : Wisard) (xs : List Image) (rs : List PyLabel)
    (h : PyOut.pyClassify w xs = .ok rs) : w.classify xs = .ok (rs.map PyLabel.cls) := by
  unfold PyOut.pyClassify at h
  cases xs with
  | nil => cases h
  | cons x xs =>
    simp only at h
    obtain ⟨k, _, h⟩ := bind_eq_ok h
    exact loop_labels w k _ rs h

/-! ## C52 -/

theorem loop_get (w : Wisard) (k : Int) (xs : List Image) : ∀ rs, PyOut.loop w k xs = .ok rs → ∀ (i : Nat) (r : PyLabel),
    rs[i]? = some r → ∃ x, xs[i]? = some x ∧ ∃ s, w.classify1 x = .ok s ∧
      r = PyOut.setClassifyOutput w.opts (Bleaching.getBiggestCandidate s) k s := by
  induction xs with
  | nil =>
    intro rs h i r hr
    simp only [PyOut.loop, Except.ok.injEq] at h
    subst h; simp at hr
  | cons x xs ih =>
    intro rs h i r hr
    simp only [PyOut.loop] at h
    obtain ⟨s, h1, h⟩ := bind_eq_ok h
    obtain ⟨ls, h2, h⟩ := bind_eq_ok h
    simp only [Except.ok.injEq] at h
    subst h
    cases i with
    | zero =>
      simp only [List.getElem?_cons_zero, Option.some.injEq] at hr
      exact ⟨x, by simp, s, h1, hr.symm⟩
    | succ i =>
      simp only [List.getElem?_cons_succ] at hr ⊢
      exact ih ls h2 i r hr

/-- C52: for a default-wired, trained model the `activationDegree` returned for an image is `s/R` where `R > 0` is the
number of RAMs of the winning class and `s` the number of its RAMs that are active (vote at least the
bleaching threshold `b ≥ 1`) for the image; so it lies in [0,1] and is 1 exactly when all are active. -/
theorem C52_activation_degree {A n : Nat} {o : WisardOpts} {w : Wisard} {ops : List WOp}
    (hm : o.mapping = []) (hi : o.indexes = []) (g : GoodHistory (Wisard.create A o) ops w n)
    (hne : w.discriminators ≠ []) (xs : List Image) (hxs : ∀ x ∈ xs, ValidImage n o.base x) (rs : List PyLabel)
    (h : PyOut.pyClassify w xs = .ok rs) (i : Nat) (r : PyDict) (hr : rs[i]? = some (.dict r)) (deg : Int × Int)
    (hdeg : r.activationDegree = some deg) :
    ∃ x, xs[i]? = some x ∧ ∃ d vs b, w.discriminators.find r.cls = some d ∧ d.classify x = .ok vs ∧ 1 ≤ b ∧
      deg = ((active b vs : Int), (d.getNumberOfRAMS : Int)) ∧ 0 < d.getNumberOfRAMS ∧
      0 ≤ deg.1 ∧ deg.1 ≤ deg.2 ∧ (deg.1 = deg.2 ↔ ∀ v ∈ vs, b ≤ v) := by
  obtain ⟨hA, hO, hS, hF⟩ := wrun_find g.start ops g.ran
  cases xs with
  | nil => cases h
  | cons x0 xs =>
    unfold PyOut.pyClassify at h
    simp only at h
    obtain ⟨k, hk, h⟩ := bind_eq_ok h
    obtain ⟨x, hx, s, hs, hrs⟩ := loop_get w k _ rs h i (.dict r) hr
    refine ⟨x, hx, ?_⟩
    obtain ⟨k1, k2⟩ := classify1_keys hs
    have hs' := hs
    unfold Wisard.classify1 at hs'
    obtain ⟨votes, hv, hs'⟩ := bind_eq_ok hs'
    obtain ⟨b, hb, hsb, _⟩ := C38_scores_at_least_threshold _ _ _ _ _ hs'
    have hsne : s ≠ [] := by
      intro e
      rw [e] at k1
      exact hne (by simpa [SMap.keys] using k1.symm)
    have hss : SMap.Sorted s := sorted_of_keys hS k1
    obtain ⟨win, hw1, hw2, _⟩ := C39_winner s hss hsne k2
    have hfind := SMap.find_of_mem hss hw1
    -- what was returned
    have hcls : r.cls = win.1 := by
      have := setClassifyOutput_cls w.opts (Bleaching.getBiggestCandidate s) k s
      rw [← hrs] at this
      rw [← hw2, ← this]; rfl
    have hd : deg = (win.2, k) := by
      unfold PyOut.setClassifyOutput at hrs
      rw [hw2] at hrs
      split at hrs
      · cases hrs
      · simp only [PyLabel.dict.injEq] at hrs
        rw [hrs] at hdeg
        simp only at hdeg
        cases hret : w.opts.returnActivationDegree
        · simp [hret] at hdeg
        · simp only [hret, if_true, PyOut.touch, hfind, Option.some.injEq] at hdeg
          exact hdeg.symm
    -- the winner's votes
    rcases (allvotes_ok hv).2 win.1 with ⟨e1, _⟩ | ⟨d, vs, e1, e2, e3⟩
    · rw [hsb] at hfind
      have := SMap.find_map votes (fun v => (active b v : Int)) win.1
      unfold activeAll at hfind
      rw [hfind, e1] at this
      simp at this
    · have hwin : win.2 = (active b vs : Int) := by
        rw [hsb] at hfind
        have := SMap.find_map votes (fun v => (active b v : Int)) win.1
        unfold activeAll at hfind
        rw [hfind, e2] at this
        simpa using this
      -- the number of RAMs
      have hR : k = (d.getNumberOfRAMS : Int) ∧ 0 < d.getNumberOfRAMS := by
        rcases hF win.1 with ⟨q, _⟩ | ⟨d', d0, rnd, img, rest, q1, q2, q3, q4⟩
        · rw [e1] at q; cases q
        · rw [e1] at q1
          obtain rfl : d = d' := by simpa using q1
          have himg := g.valid_ops win.1 (.train img) (by rw [q2]; simp)
          have hsz : (img.size : Int) = n := himg.1
          rw [hsz] at q3
          have := C49_number_of_rams rnd A n o win.1 hm hi d0 q3
          have hx0 : ((x0.size : Nat) : Int) = n := (hxs x0 (by simp)).1
          rw [hx0, hA, hO] at hk
          simp only [Wisard.create] at hk
          rw [this] at hk
          injection hk with hk
          have hle := run_le (opsOf win.1 ops) d0
          rw [q4] at hle
          have hlen : d.getNumberOfRAMS = d0.getNumberOfRAMS := (List.Forall₂.length_eq hle.2).symm
          refine ⟨by rw [← hk, hlen], ?_⟩
          rw [hlen]
          simp only [Wisard.create] at q3
          rw [newDiscriminator_default hm hi] at q3
          have hA2 : 2 ≤ (A : Int) ∧ (A : Int) ≤ n := by
            have h' := q3
            unfold Discriminator.create at h'
            rw [if_neg (by simp), if_neg (by simp)] at h'
            unfold Discriminator.setRAMShuffle at h'
            obtain ⟨_, ha, _⟩ := bind_eq_ok h'
            exact checkAddressSize_ok ha
          rw [((C18_default_wiring rnd A n _ rfl rfl).2 d0 q3).1]
          have hpos : 0 < n / A := Nat.div_pos (by omega) (by omega)
          split
          · have : n / A ≤ (n + A - 1) / A := Nat.div_le_div_right (by omega)
            omega
          · exact hpos
      have hlen := classify_length e3
      have hcount : active b vs ≤ vs.length := List.countP_le_length
      refine ⟨d, vs, b, by rw [hcls]; exact e1, e3, hb, ?_, hR.2, ?_, ?_, ?_⟩
      · rw [hd, hwin, hR.1]
      · rw [hd, hwin]; simp
      · rw [hd, hwin, hR.1]
        unfold Discriminator.getNumberOfRAMS
        simp only
        omega
      · rw [hd, hwin, hR.1]
        unfold Discriminator.getNumberOfRAMS active
        simp only
        rw [← hlen]
        constructor
        · intro hh v hv
          have := List.countP_eq_length.mp (Int.ofNat.inj hh) v hv
          simpa using this
        · intro hh
          rw [List.countP_eq_length.mpr (fun v hv => by simpa using hh v hv)]

/-- One image, no bleaching. -/
theorem pyClassify_one {w : Wisard} {x : Image} {v : Votes} {k : Int} (hb : w.opts.bleachingActivated = false)
    (hv : Wisard.allvotes x w.discriminators = .ok v)
    (hk : calculateNumberOfRams x.size w.addressSize w.opts.completeAddressing = .ok k) :
    PyOut.pyClassify w [x] = .ok [PyOut.setClassifyOutput w.opts
      (Bleaching.getBiggestCandidate (activeAll 1 v)) k (activeAll 1 v)] := by
  simp only [PyOut.pyClassify, PyOut.loop, Wisard.classify1, hv, hk, hb, C38_without_bleaching, Except.bind_ok]

/-- A trained model and an image returning a degree, as C52 asks (`GoodHistory` follows from C73). -/
example : ∃ w, wrun (Wisard.create 2 { bleachingActivated := false, returnActivationDegree := true })
      [.train ⟨Rnd.id, true⟩ (.vec [1, 0, 1, 1]) b!"a"] = (w, .ok ()) ∧ w.discriminators ≠ [] ∧
    ValidImage 4 2 (.vec [1, 0, 0, 0]) ∧
    PyOut.pyClassify w [.vec [1, 0, 0, 0]] = .ok [.dict ⟨b!"a", some (1, 2), none, none⟩] :=
  ⟨_, rfl, by decide, by
    refine ⟨rfl, fun i hi => ?_⟩
    simp only [Image.size, List.length_cons, List.length_nil] at hi
    (interval_cases i) <;> exact ⟨_, rfl, by decide, by decide⟩,
    (pyClassify_one (v := [(b!"a", [1, 0])]) (k := 2) rfl rfl rfl).trans rfl⟩

/-- Outside default wiring C52 fails: with `mapping` the degree can exceed 1. -/
theorem C52_mapping_exceeds_one : ∃ w,
    wrun (Wisard.create 4 { mapping := [(b!"a", [[0, 1], [2, 3]])], bleachingActivated := false, returnActivationDegree := true })
      [.train ⟨Rnd.id, true⟩ (.vec [1, 0, 1, 1]) b!"a"] = (w, .ok ()) ∧
    PyOut.pyClassify w [.vec [1, 0, 1, 1]] = .ok [.dict ⟨b!"a", some (2, 1), none, none⟩] := by
  exact ⟨_, rfl, (pyClassify_one (v := [(b!"a", [1, 1])]) (k := 1) rfl rfl rfl).trans rfl⟩

/-! ## C53 -/

theorem foldl_sum (m : Scores) (t : Int) : m.foldl (fun t e => t + e.2) t = t + (m.map (·.2)).sum := by
  induction m generalizing t with
  | nil => simp
  | cons e m ih => simp only [List.foldl_cons, ih, List.map_cons, List.sum_cons]; omega

theorem sum_nonneg_zero (m : Scores) (h0 : ∀ e ∈ m, 0 ≤ e.2) :
    0 ≤ (m.map (·.2)).sum ∧ ((m.map (·.2)).sum = 0 → ∀ e ∈ m, e.2 = 0) := by
  induction m with
  | nil => simp
  | cons e m ih =>
    obtain ⟨h1, h2⟩ := ih (fun e he => h0 e (List.mem_cons_of_mem _ he))
    have := h0 e (by simp)
    simp only [List.map_cons, List.sum_cons]
    refine ⟨by omega, fun hz e' he' => ?_⟩
    rcases List.mem_cons.mp he' with q | q
    · rw [q]; omega
    · exact h2 (by omega) e' q

/-- C53: `classesDegrees` has one entry per class, in label order, all with the same positive denominator
and non-negative numerators; the numerators sum to the denominator (the degrees sum to 1) unless all
scores are 0, when all numerators are 0. -/
theorem C53_classes_degrees (s : Scores) (h0 : ∀ e ∈ s, 0 ≤ e.2) :
    ∃ total > 0, (PyOut.getClassesDegrees s).map (·.1) = s.keys ∧
      (∀ e ∈ PyOut.getClassesDegrees s, 0 ≤ e.2.1 ∧ e.2.2 = total) ∧
      ((∃ e ∈ s, e.2 ≠ 0) → ((PyOut.getClassesDegrees s).map (·.2.1)).sum = total) ∧
      ((∀ e ∈ s, e.2 = 0) → ∀ e ∈ PyOut.getClassesDegrees s, e.2.1 = 0) := by
  obtain ⟨h1, h2⟩ := sum_nonneg_zero s h0
  have hsum : s.foldl (fun t e => t + e.2) 0 = (s.map (·.2)).sum := by rw [foldl_sum]; omega
  refine ⟨if (s.map (·.2)).sum = 0 then 1 else (s.map (·.2)).sum, by split <;> omega, ?_, ?_, ?_, ?_⟩
  · unfold PyOut.getClassesDegrees SMap.keys
    rw [List.map_map]; rfl
  · intro e he
    unfold PyOut.getClassesDegrees at he
    rw [hsum] at he
    obtain ⟨e', he', rfl⟩ := List.mem_map.mp he
    exact ⟨h0 e' he', rfl⟩
  · rintro ⟨e, he, hne⟩
    have : (s.map (·.2)).sum ≠ 0 := fun hz => hne (h2 hz e he)
    rw [if_neg this]
    unfold PyOut.getClassesDegrees
    rw [List.map_map]; rfl
  · intro hz e he
    unfold PyOut.getClassesDegrees at he
    obtain ⟨e', he', rfl⟩ := List.mem_map.mp he
    exact hz e' he'

/-- C53 for the whole call: on a model with classes, the `classesDegrees` returned for an image is the distribution
of this image's score table, and its labels are the classes of the model in label order. -/
theorem C53_python (w : Wisard) (hS : SMap.Sorted w.discriminators) (hne : w.discriminators ≠ []) (xs : List Image)
    (rs : List PyLabel) (h : PyOut.pyClassify w xs = .ok rs) (i : Nat) (r : PyDict) (hr : rs[i]? = some (.dict r))
    (degs : List (Str × (Int × Int))) (hd : r.classesDegrees = some degs) :
    ∃ x, xs[i]? = some x ∧ ∃ s, w.classify1 x = .ok s ∧ (∀ e ∈ s, 0 ≤ e.2) ∧ degs = PyOut.getClassesDegrees s ∧
      degs.map (·.1) = w.discriminators.keys := by
  cases xs with
  | nil => cases h
  | cons x0 xs =>
    unfold PyOut.pyClassify at h
    simp only at h
    obtain ⟨k, hk, h⟩ := bind_eq_ok h
    obtain ⟨x, hx, s, hs, hrs⟩ := loop_get w k _ rs h i (.dict r) hr
    obtain ⟨k1, k2⟩ := classify1_keys hs
    have hsne : s ≠ [] := by
      intro e
      rw [e] at k1
      exact hne (by simpa [SMap.keys] using k1.symm)
    have hss : SMap.Sorted s := sorted_of_keys hS k1
    obtain ⟨win, hw1, hw2, _⟩ := C39_winner s hss hsne k2
    have hfind := SMap.find_of_mem hss hw1
    have htouch : PyOut.touch s win.1 = (s, win.2) := by unfold PyOut.touch; rw [hfind]
    have hdegs : degs = PyOut.getClassesDegrees s := by
      unfold PyOut.setClassifyOutput at hrs
      rw [hw2] at hrs
      split at hrs
      · cases hrs
      · simp only [PyLabel.dict.injEq] at hrs
        rw [hrs] at hd
        simp only [htouch] at hd
        cases h3 : w.opts.returnClassesDegrees
        · simp [h3] at hd
        · cases h1 : w.opts.returnActivationDegree <;> cases h2 : w.opts.returnConfidence <;>
            simp [h1, h2, h3, htouch] at hd <;> exact hd.symm
    refine ⟨x, hx, s, hs, k2, hdegs, ?_⟩
    obtain ⟨_, _, h4, _⟩ := C53_classes_degrees s k2
    rw [hdegs, h4, k1]

example : PyOut.getClassesDegrees [(b!"a", 1), (b!"b", 3)] = [(b!"a", (1, 4)), (b!"b", (3, 4))] := rfl

/-! ## C54 -/

theorem secondLoop_spec (biggest : Int) (m : Scores) : ∀ (t : Int),
    t ≤ Bleaching.secondLoop biggest m t ∧
    (∀ e ∈ m, e.2 < biggest → e.2 ≤ Bleaching.secondLoop biggest m t) ∧
    (Bleaching.secondLoop biggest m t = t ∨ ∃ e ∈ m, e.2 < biggest ∧ Bleaching.secondLoop biggest m t = e.2) := by
  induction m with
  | nil => intro t; simp [Bleaching.secondLoop]
  | cons e m ih =>
    intro t
    obtain ⟨l, s⟩ := e
    simp only [Bleaching.secondLoop]
    by_cases h : s ≥ t ∧ s < biggest
    · rw [if_pos h]
      obtain ⟨h1, h2, h3⟩ := ih s
      refine ⟨by omega, ?_, ?_⟩
      · intro e he hlt
        rcases List.mem_cons.mp he with q | q
        · rw [q]; exact h1
        · exact h2 e q hlt
      · right
        rcases h3 with h3 | ⟨e, he, h3⟩
        · exact ⟨(l, s), by simp, h.2, h3⟩
        · exact ⟨e, List.mem_cons_of_mem _ he, h3⟩
    · rw [if_neg h]
      obtain ⟨h1, h2, h3⟩ := ih t
      refine ⟨h1, ?_, ?_⟩
      · intro e he hlt
        rcases List.mem_cons.mp he with q | q
        · rw [q] at hlt ⊢; simp only at hlt ⊢; omega
        · exact h2 e q hlt
      · rcases h3 with h3 | ⟨e, he, h3⟩
        · exact .inl h3
        · exact .inr ⟨e, List.mem_cons_of_mem _ he, h3⟩

/-- C54, proved part: if the best score is positive, the returned confidence is (best - t)/best, in [0,1],
where `t` is the largest score *strictly below* the best (0 if there is none); if only one class has the
best score, `t` is the score of the runner-up.

Missing: for a tie the property asks for 0, the code returns a positive value (next theorem); for best score
0 it divides 0 by 0. -/
theorem C54_confidence_partial (s : Scores) (w : Str × Int) (hpos : 0 < w.2) :
    ∃ t, Bleaching.getConfidence s w.2 = (w.2 - t, w.2) ∧ 0 ≤ t ∧ t < w.2 ∧
      (∀ e ∈ s, e.2 < w.2 → e.2 ≤ t) ∧ (t = 0 ∨ ∃ e ∈ s, e.2 = t) ∧
      ((∀ e ∈ s, e.1 ≠ w.1 → e.2 < w.2) → ∀ e ∈ s, e.1 ≠ w.1 → e.2 ≤ t) := by
  obtain ⟨h1, h2, h3⟩ := secondLoop_spec w.2 s 0
  refine ⟨_, rfl, h1, ?_, h2, ?_, fun hu e he hne => h2 e he (hu e he hne)⟩
  · rcases h3 with h3 | ⟨e, _, h4, h5⟩
    · omega
    · omega
  · rcases h3 with h3 | ⟨e, he, _, h5⟩
    · exact .inl h3
    · exact .inr ⟨e, he, h5.symm⟩

/-- C54 does not hold for ties: if all classes have the best score the returned confidence is 1, not 0. -/
theorem C54_tie_full_confidence (s : Scores) (b : Int) (h : ∀ e ∈ s, e.2 = b) :
    Bleaching.getConfidence s b = (b, b) := by
  unfold Bleaching.getConfidence
  obtain ⟨_, _, h3⟩ := secondLoop_spec b s 0
  rcases h3 with h3 | ⟨e, he, h4, _⟩
  · rw [h3]; simp
  · have := h e he; omega

/-- C54 for the whole call, proved part: the confidence returned for an image is `(best - t)/best`, where `best` is the
largest score of the table computed for the image, attained by the returned class, and `t` is the largest score strictly
below it (0 if there is none); `t` is the runner-up's score if only one class attains `best`. -/
theorem C54_python_partial (w : Wisard) (hS : SMap.Sorted w.discriminators) (hne : w.discriminators ≠ []) (xs : List Image)
    (rs : List PyLabel) (h : PyOut.pyClassify w xs = .ok rs) (i : Nat) (r : PyDict) (hr : rs[i]? = some (.dict r))
    (c : Int × Int) (hc : r.confidence = some c) :
    ∃ x, xs[i]? = some x ∧ ∃ s best, w.classify1 x = .ok s ∧ (r.cls, best) ∈ s ∧ (∀ e ∈ s, 0 ≤ e.2 ∧ e.2 ≤ best) ∧ c.2 = best ∧
      (0 < best → ∃ t, c.1 = best - t ∧ 0 ≤ t ∧ t < best ∧ (∀ e ∈ s, e.2 < best → e.2 ≤ t) ∧
        (t = 0 ∨ ∃ e ∈ s, e.2 = t) ∧
        ((∀ e ∈ s, e.1 ≠ r.cls → e.2 < best) → ∀ e ∈ s, e.1 ≠ r.cls → e.2 ≤ t)) := by
  cases xs with
  | nil => cases h
  | cons x0 xs =>
    unfold PyOut.pyClassify at h
    simp only at h
    obtain ⟨k, hk, h⟩ := bind_eq_ok h
    obtain ⟨x, hx, s, hs, hrs⟩ := loop_get w k _ rs h i (.dict r) hr
    obtain ⟨k1, k2⟩ := classify1_keys hs
    have hsne : s ≠ [] := by
      intro e
      rw [e] at k1
      exact hne (by simpa [SMap.keys] using k1.symm)
    have hss : SMap.Sorted s := sorted_of_keys hS k1
    obtain ⟨win, hw1, hw2, hw3, _⟩ := C39_winner s hss hsne k2
    have hfind := SMap.find_of_mem hss hw1
    have htouch : PyOut.touch s win.1 = (s, win.2) := by unfold PyOut.touch; rw [hfind]
    have hcls : r.cls = win.1 := by
      have := setClassifyOutput_cls w.opts (Bleaching.getBiggestCandidate s) k s
      rw [← hrs] at this
      rw [← hw2, ← this]; rfl
    have hconf : c = Bleaching.getConfidence s win.2 := by
      unfold PyOut.setClassifyOutput at hrs
      rw [hw2] at hrs
      split at hrs
      · cases hrs
      · simp only [PyLabel.dict.injEq] at hrs
        rw [hrs] at hc
        cases h2 : w.opts.returnConfidence
        · simp [h2] at hc
        · cases h1 : w.opts.returnActivationDegree <;>
            simp [h1, h2, htouch] at hc <;> exact hc.symm
    refine ⟨x, hx, s, win.2, hs, by rw [hcls]; exact hw1, fun e he => ⟨k2 e he, hw3 e he⟩, by rw [hconf]; rfl, fun hpos => ?_⟩
    obtain ⟨t, h1, h2⟩ := C54_confidence_partial s win hpos
    exact ⟨t, by rw [hconf, h1], by rw [hcls]; exact h2⟩

/-- C54, whole call: a model with two classes trained on the same image ties 1 : 1 per RAM and reports
confidence 1 (without bleaching); for an image that activates nothing it divides zero by zero. -/
theorem C54_python_tie : ∃ w,
    wrun (Wisard.create 2 { bleachingActivated := false, returnConfidence := true })
      [.train ⟨Rnd.id, true⟩ (.vec [1, 0, 1, 1]) b!"a", .train ⟨Rnd.id, true⟩ (.vec [1, 0, 1, 1]) b!"b"] = (w, .ok ()) ∧
    PyOut.pyClassify w [.vec [1, 0, 1, 1]] = .ok [.dict ⟨b!"b", none, some (2, 2), none⟩] ∧
    PyOut.pyClassify w [.vec [0, 1, 0, 0]] = .ok [.dict ⟨b!"b", none, some (0, 0), none⟩] := by
  exact ⟨_, rfl, (pyClassify_one (v := [(b!"a", [1, 1]), (b!"b", [1, 1])]) (k := 2) rfl rfl rfl).trans rfl,
    (pyClassify_one (v := [(b!"a", [0, 0]), (b!"b", [0, 0])]) (k := 2) rfl rfl rfl).trans rfl⟩

end Wis
