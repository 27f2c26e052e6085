import Verif.Props.ClusMade
import Verif.Props.ClusLabels
import Verif.Props.PyOutput
/-!
# C83–C86: what ClusWisard returns to Python; rejected batches; unsupervised classification; mental images
-/

namespace Wis
open Spec

/-- `s` is the table of scores at threshold `b`: one entry for each discriminator `j` of each class `l`, named
`l::j`, with the number of its RAMs whose vote for the image reaches `b`. -/
structure Spec.ScoreTable (w : ClusWisard) (img : List Int) (b : Int) (s : Scores) : Prop where
  sorted : SMap.Sorted s
  entries : ∀ k n, (k, n) ∈ s ↔ ∃ l j v, k = l ++ b!"::" ++ natStr j ∧ VoteOf w img l j v ∧ n = (active b v : Int)
  all : ∀ (l : Str) (j : Nat), j < (discs w l).length → ∃ v, VoteOf w img l j v

theorem classify1_table {w : ClusWisard} (hs : SMap.Sorted w.clusters) {img : List Int} {sb : Bool} {s : Scores}
    (h : w.classify1 img sb = .ok s) : ∃ b, 1 ≤ b ∧ ScoreTable w img b s := by
  unfold ClusWisard.classify1 at h
  obtain ⟨votes, g1, g2⟩ := bind_eq_ok h
  obtain ⟨v1, v2, v3⟩ := allvotes_spec w.clusters SMap.sorted_nil (SMap.nodup_keys hs) g1
  obtain ⟨b, hl⟩ := Bleaching.make_ok g2
  obtain ⟨l1, l2, _⟩ := Bleaching.loop_spec _ _ _ _ hl
  subst l2
  have hfind : ∀ k v, votes.find k = some v ↔ ∃ l j, k = dname l j ∧ VoteOf w img l j v := by
    intro k v
    rw [v3, votesOf_iff hs v2]
    simp [SMap.find]
  refine ⟨b, l1, Bleaching.activeAll_sorted v1 b, ?_, ?_⟩
  · intro k n
    unfold activeAll
    simp only [List.mem_map, Prod.mk.injEq, Prod.exists]
    constructor
    · rintro ⟨k', v, hm, rfl, rfl⟩
      obtain ⟨l, j, e1, e2⟩ := (hfind k' v).mp (SMap.find_of_mem v1 hm)
      exact ⟨l, j, v, e1, e2, rfl⟩
    · rintro ⟨l, j, v, e1, e2, rfl⟩
      exact ⟨k, v, SMap.mem_of_find ((hfind k v).mpr ⟨l, j, e1, e2⟩), rfl, rfl⟩
  · intro l j hj
    unfold discs at hj
    cases hf : w.clusters.find l with
    | none => rw [hf] at hj; simp at hj
    | some c =>
      rw [hf] at hj
      obtain ⟨vs, hvs⟩ := v2 _ (SMap.mem_of_find hf)
      have hlen := classifyLoop_length _ hvs
      have hj' : j < vs.length := by rw [hlen]; exact hj
      obtain ⟨d, h1, h2⟩ := (classifyLoop_get _ hvs j vs[j]).mp (by simp)
      exact ⟨vs[j], d, by unfold discs; rw [hf]; exact h1, h2⟩

/-! ## C83 -/

theorem pyOutput_cls (o : ClusOpts) (k : Int) (c : Scores) :
    (ClusWisard.pyOutput o k c).cls = beforeSep (Bleaching.getBiggestCandidate c) := by
  unfold ClusWisard.pyOutput
  simp only
  split <;> rfl

theorem pyLoop_labels (w : ClusWisard) (k : Int) (xs : List (List Int)) : ∀ rs, w.pyLoop k xs = .ok rs →
    w.classify xs = .ok (rs.map PyLabel.cls) := by
  induction xs with
  | nil =>
    intro rs h
    simp only [ClusWisard.pyLoop, Except.ok.injEq] at h
    subst h; rfl
  | cons x xs ih =>
    intro rs h
    simp only [ClusWisard.pyLoop] at h
    obtain ⟨s, h1, h⟩ := bind_eq_ok h
    obtain ⟨ls, h2, h⟩ := bind_eq_ok h
    simp only [Except.ok.injEq] at h
    subst h
    simp only [ClusWisard.classify, h1, ih ls h2, Except.bind_ok, List.map_cons, pyOutput_cls]

theorem pyLoop_get (w : ClusWisard) (k : Int) (xs : List (List Int)) : ∀ rs, w.pyLoop k xs = .ok rs → ∀ (i : Nat) (r : PyLabel),
    rs[i]? = some r → ∃ x, xs[i]? = some x ∧ ∃ s, w.classify1 x w.opts.searchBestConfidence = .ok s ∧
      r = ClusWisard.pyOutput w.opts k s := by
  induction xs with
  | nil =>
    intro rs h i r hr
    simp only [ClusWisard.pyLoop, Except.ok.injEq] at h
    subst h; simp at hr
  | cons x xs ih =>
    intro rs h i r hr
    simp only [ClusWisard.pyLoop] at h
    obtain ⟨s, h1, h⟩ := bind_eq_ok h
    obtain ⟨ls, h2, h⟩ := bind_eq_ok h
    simp only [Except.ok.injEq] at h
    subst h
    cases i with
    | zero =>
      simp only [List.getElem?_cons_zero, Option.some.injEq] at hr
      exact ⟨x, by simp, s, h1, hr.symm⟩
    | succ i =>
      simp only [List.getElem?_cons_succ] at hr ⊢
      exact ih ls h2 i r hr

/-- C83: the classes returned by `classify` in Python are those of the C++ method, one for each image. -/
theorem C83_same_labels (w : ClusWisard) (xs : List (List Int)) (rs : List PyLabel)
    (h : w.pyClassify xs = .ok rs) : w.classify xs = .ok (rs.map PyLabel.cls) := by
  unfold ClusWisard.pyClassify at h
  cases xs with
  | nil => cases h
  | cons x xs =>
    simp only at h
    obtain ⟨k, _, h⟩ := bind_eq_ok h
    exact pyLoop_labels w k _ rs h

/-- C83 does not hold for an empty list: it reads outside a vector, for every model. -/
theorem C83_empty_ub (w : ClusWisard) : w.pyClassify [] = .error (.ub .outOfBounds) := rfl

/-- C83: without `return…` options every element is a plain label; otherwise every element is a dict with exactly the
requested values. -/
theorem C83_fields (w : ClusWisard) (xs : List (List Int)) (rs : List PyLabel) (h : w.pyClassify xs = .ok rs) :
    ((w.opts.returnActivationDegree = false ∧ w.opts.returnConfidence = false ∧ w.opts.returnClassesDegrees = false) →
      ∀ r ∈ rs, ∃ l, r = .plain l) ∧
    (¬ (w.opts.returnActivationDegree = false ∧ w.opts.returnConfidence = false ∧ w.opts.returnClassesDegrees = false) →
      ∀ r ∈ rs, ∃ d, r = .dict d ∧ d.activationDegree.isSome = w.opts.returnActivationDegree ∧
        d.confidence.isSome = w.opts.returnConfidence ∧ d.classesDegrees.isSome = w.opts.returnClassesDegrees) := by
  have key : ∀ r ∈ rs, ∃ k s, r = ClusWisard.pyOutput w.opts k s := by
    intro r hr
    unfold ClusWisard.pyClassify at h
    cases xs with
    | nil => cases h
    | cons x xs =>
      simp only at h
      obtain ⟨k, _, h⟩ := bind_eq_ok h
      obtain ⟨i, hi, rfl⟩ := List.mem_iff_getElem.mp hr
      obtain ⟨_, _, s, _, h2⟩ := pyLoop_get w k _ rs h i rs[i] (by simp)
      exact ⟨k, s, h2⟩
  refine ⟨?_, ?_⟩
  · rintro ⟨h1, h2, h3⟩ r hr
    obtain ⟨k, s, rfl⟩ := key r hr
    refine ⟨beforeSep (Bleaching.getBiggestCandidate s), ?_⟩
    simp only [ClusWisard.pyOutput, h1, h2, h3]
    rfl
  · intro hn r hr
    obtain ⟨k, s, rfl⟩ := key r hr
    unfold ClusWisard.pyOutput
    simp only
    rw [if_neg (by simpa using hn)]
    refine ⟨_, rfl, ?_, ?_, ?_⟩
    · cases w.opts.returnActivationDegree <;> rfl
    · cases w.opts.returnActivationDegree <;> cases w.opts.returnConfidence <;> rfl
    · cases w.opts.returnActivationDegree <;> cases w.opts.returnConfidence <;> cases w.opts.returnClassesDegrees <;> rfl

theorem pyOutput_dict {o : ClusOpts} {k : Int} {s : Scores} {r : PyDict} (h : .dict r = ClusWisard.pyOutput o k s)
    (hs : SMap.Sorted s) {win : Str × Int} (hw : win ∈ s) (hb : Bleaching.getBiggestCandidate s = win.1) :
    r.cls = beforeSep win.1 ∧ (∀ d, r.activationDegree = some d → d = (win.2, k)) ∧
    (∀ c, r.confidence = some c → c = Bleaching.getConfidence s win.2) ∧
    (∀ g, r.classesDegrees = some g → g = ClusWisard.getClassesDegrees s) := by
  have hfind := SMap.find_of_mem hs hw
  have htouch : PyOut.touch s win.1 = (s, win.2) := by unfold PyOut.touch; rw [hfind]
  have hcls := congrArg PyLabel.cls h
  rw [pyOutput_cls, hb] at hcls
  refine ⟨hcls, ?_⟩
  unfold ClusWisard.pyOutput at h
  simp only [hb] at h
  split at h
  · cases h
  · simp only [PyLabel.dict.injEq] at h
    subst h
    simp only
    cases h1 : o.returnActivationDegree <;> cases h2 : o.returnConfidence <;> cases h3 : o.returnClassesDegrees <;>
      simp [htouch]

/-- The discriminators of all classes and their numbers of RAMs. -/
theorem rams_of_disc {f : Flt} {A : Int} {ms : Rat} {t dl : Int} {o : ClusOpts} {w0 : ClusWisard}
    (h0 : ClusWisard.create A ms t dl o = .ok w0) (ops : List COp) {l : Str} {d : Discriminator}
    (hd : some d ∈ discs (cplay f w0 ops).1 l) (hn : 0 ≤ d.entrySize) :
    calculateNumberOfRams d.entrySize A o.completeAddressing = .ok (d.getNumberOfRAMS : Int) ∧ 0 < d.getNumberOfRAMS := by
  have hw := WInv.play (f := f) h0 ops
  obtain ⟨rfl, _⟩ := create_shape h0
  unfold discs at hd
  cases hf : (cplay f (⟨A, ms, t, dl, o, [], Cluster.default⟩ : ClusWisard) ops).1.clusters.find l with
  | none => rw [hf] at hd; simp at hd
  | some c =>
    rw [hf] at hd
    rcases hw.cl l c hf with rfl | ⟨_, n, H, hr⟩
    · simp [Cluster.default] at hd
    · obtain ⟨imgs, _, _, rnd, d0, h3, h4⟩ := hr.made d hd
      have hle := play_le (imgs.map Op.train) d0
      rw [h4] at hle
      have hlen : d.getNumberOfRAMS = d0.getNumberOfRAMS := (List.Forall₂.length_eq hle.2).symm
      have hent : d.entrySize = n := by rw [hle.1]; exact (IsNew.fresh h3).entry
      rw [hent] at hn ⊢
      unfold IsNew at h3
      simp only [ClusWisard.clusterCfg] at h3
      have hA : 2 ≤ A ∧ A ≤ n := by
        have h' := h3
        unfold Discriminator.create at h'
        rw [if_neg (by simp), if_neg (by simp)] at h'
        unfold Discriminator.setRAMShuffle at h'
        obtain ⟨_, ha, _⟩ := bind_eq_ok h'
        exact checkAddressSize_ok ha
      obtain ⟨A', rfl⟩ : ∃ A' : Nat, A = A' := ⟨A.toNat, by omega⟩
      obtain ⟨n', rfl⟩ : ∃ n' : Nat, n = n' := ⟨n.toNat, by omega⟩
      have h5 := C49_number_of_rams rnd A' n' { completeAddressing := o.completeAddressing, ignoreZero := o.ignoreZero, base := o.base }
        [] rfl rfl d0 (by rw [newDiscriminator_default rfl rfl]; exact h3)
      rw [hlen]
      refine ⟨h5, ?_⟩
      rw [((C18_default_wiring rnd A' n' _ rfl rfl).2 d0 h3).1]
      have hpos : 0 < n' / A' := Nat.div_pos (by omega) (by omega)
      split
      · have : n' / A' ≤ (n' + A' - 1) / A' := Nat.div_le_div_right (by omega)
        omega
      · exact hpos

theorem entry_of_classify {d : Discriminator} {x : Image} {vs : List Int} (h : d.classify x = .ok vs) :
    d.entrySize = (x.size : Int) := by
  unfold Discriminator.classify Discriminator.checkEntrySize at h
  by_contra hne
  rw [if_pos hne] at h
  cases h

/-- C83: for every history of a ClusWisard with a trained class, the `activationDegree` returned for an image is `s/R`,
where `R > 0` is the number of RAMs of a discriminator `l::j` with the top score and `s` the number of its RAMs that are
active (vote at least the bleaching threshold `b ≥ 1`) for the image; the returned class is that discriminator's. So it
lies in [0,1] and is 1 exactly when all its RAMs are active. -/
theorem C83_activation_degree (f : Flt) {A : Int} {ms : Rat} {t dl : Int} {o : ClusOpts} {w0 : ClusWisard}
    (h0 : ClusWisard.create A ms t dl o = .ok w0) (ops : List COp) {w : ClusWisard} (hw : w = (cplay f w0 ops).1)
    (hne : ∃ l, discs w l ≠ []) (xs : List (List Int)) (rs : List PyLabel) (h : w.pyClassify xs = .ok rs)
    (i : Nat) (r : PyDict) (hr : rs[i]? = some (.dict r)) (deg : Int × Int) (hdeg : r.activationDegree = some deg) :
    ∃ x, xs[i]? = some x ∧ ∃ b l j d vs, 1 ≤ b ∧ (discs w l)[j]? = some (some d) ∧ d.classify (.vec x) = .ok vs ∧
      r.cls = beforeSep (l ++ b!"::" ++ natStr j) ∧ (∀ l' j' vs', VoteOf w x l' j' vs' → active b vs' ≤ active b vs) ∧
      deg = ((active b vs : Int), (d.getNumberOfRAMS : Int)) ∧ 0 < d.getNumberOfRAMS ∧
      0 ≤ deg.1 ∧ deg.1 ≤ deg.2 ∧ (deg.1 = deg.2 ↔ ∀ v ∈ vs, b ≤ v) := by
  have hi := WInv.play (f := f) h0 ops
  rw [← hw] at hi
  cases xs with
  | nil => cases h
  | cons x0 xs =>
    unfold ClusWisard.pyClassify at h
    simp only at h
    obtain ⟨k, hk, h⟩ := bind_eq_ok h
    obtain ⟨x, hx, s, hs, hrs⟩ := pyLoop_get w k _ rs h i (.dict r) hr
    refine ⟨x, hx, ?_⟩
    obtain ⟨b, hb, ht⟩ := classify1_table hi.sorted hs
    have hpos0 : ∀ e ∈ s, 0 ≤ e.2 := by
      rintro ⟨q, n⟩ he
      obtain ⟨_, _, _, _, _, rfl⟩ := (ht.entries q n).mp he
      simp
    have hsne : s ≠ [] := by
      obtain ⟨l, hl⟩ := hne
      obtain ⟨v, hv⟩ := ht.all l 0 (List.length_pos_iff.mpr hl)
      intro e
      have := (ht.entries _ _).mpr ⟨l, 0, v, rfl, hv, rfl⟩
      rw [e] at this
      simp at this
    obtain ⟨win, hw1, hw2, hw3, _⟩ := C39_winner s ht.sorted hsne hpos0
    obtain ⟨q1, q2, _, _⟩ := pyOutput_dict hrs ht.sorted hw1 hw2
    obtain ⟨l, j, vs, e1, ⟨d, e2, e3⟩, e4⟩ := (ht.entries win.1 win.2).mp hw1
    -- the first image was classified as well
    have hx0 : d.entrySize = (x0.length : Int) := by
      simp only [ClusWisard.pyLoop] at h
      obtain ⟨s0, hs0, _⟩ := bind_eq_ok h
      obtain ⟨_, _, ht0⟩ := classify1_table hi.sorted hs0
      obtain ⟨_, d', e5, e6⟩ := ht0.all l j (List.getElem?_eq_some_iff.mp e2).1
      rw [e2] at e5
      cases e5
      exact entry_of_classify e6
    obtain ⟨hR, hR0⟩ := rams_of_disc (f := f) h0 ops (l := l) (d := d)
      (by rw [← hw]; exact List.mem_of_getElem? e2) (by rw [hx0]; omega)
    have hwA : w.addressSize = A ∧ w.opts = o := by
      obtain ⟨rfl, _⟩ := create_shape h0
      rw [hi.const]
      exact ⟨rfl, rfl⟩
    rw [hx0, ← hwA.1, ← hwA.2, hk] at hR
    injection hR with hR
    have hd := q2 deg hdeg
    have hlen := classify_length e3
    have hcount : active b vs ≤ vs.length := List.countP_le_length
    refine ⟨b, l, j, d, vs, hb, e2, e3, by rw [q1, e1], ?_, by rw [hd, e4, hR], hR0, ?_, ?_, ?_⟩
    · intro l' j' vs' hv'
      have := hw3 _ ((ht.entries _ _).mpr ⟨l', j', vs', rfl, hv', rfl⟩)
      rw [e4] at this
      simp only at this
      exact_mod_cast this
    · rw [hd, e4]; simp
    · rw [hd, e4, hR]
      unfold Discriminator.getNumberOfRAMS
      simp only
      omega
    · rw [hd, e4, hR]
      unfold Discriminator.getNumberOfRAMS active
      simp only
      rw [← hlen]
      constructor
      · intro hh v hv
        have := List.countP_eq_length.mp (Int.ofNat.inj hh) v hv
        simpa using this
      · intro hh
        rw [List.countP_eq_length.mpr (fun v hv => by simpa using hh v hv)]

/-- C83, proved part: the `classesDegrees` returned for an image lists, in the order of the names `l::j`, one entry for
each *discriminator* `j` of each class `l`, under the class `l` (if `l` contains no `"::"`); all have the same positive
denominator, and the numerators (the numbers of active RAMs at the same threshold `b ≥ 1`) sum to it, unless they are
all 0.

Missing: the documentation promises one entry for each class, with its degree (docs/models/cluswisard.md); see
`C83_refuted`. -/
theorem C83_classes_degrees_partial {w : ClusWisard} (hS : SMap.Sorted w.clusters) (hne : ∃ l, discs w l ≠ [])
    (xs : List (List Int)) (rs : List PyLabel) (h : w.pyClassify xs = .ok rs)
    (i : Nat) (r : PyDict) (hr : rs[i]? = some (.dict r)) (degs : List (Str × (Int × Int)))
    (hd : r.classesDegrees = some degs) :
    ∃ x, xs[i]? = some x ∧ ∃ (b : Int) (s : Scores) (total : Int), 1 ≤ b ∧ ScoreTable w x b s ∧ 0 < total ∧
      degs = s.map (fun e => (beforeSep e.1, (e.2, total))) ∧
      ((∃ e ∈ s, e.2 ≠ 0) → (degs.map (·.2.1)).sum = total) ∧ (∀ e ∈ s, 0 ≤ e.2) := by
  cases xs with
  | nil => cases h
  | cons x0 xs =>
    unfold ClusWisard.pyClassify at h
    simp only at h
    obtain ⟨k, hk, h⟩ := bind_eq_ok h
    obtain ⟨x, hx, s, hs, hrs⟩ := pyLoop_get w k _ rs h i (.dict r) hr
    obtain ⟨b, hb, ht⟩ := classify1_table hS hs
    have hpos0 : ∀ e ∈ s, 0 ≤ e.2 := by
      rintro ⟨q, n⟩ he
      obtain ⟨_, _, _, _, _, rfl⟩ := (ht.entries q n).mp he
      simp
    have hsne : s ≠ [] := by
      obtain ⟨l, hl⟩ := hne
      obtain ⟨v, hv⟩ := ht.all l 0 (List.length_pos_iff.mpr hl)
      intro e
      have := (ht.entries _ _).mpr ⟨l, 0, v, rfl, hv, rfl⟩
      rw [e] at this
      simp at this
    obtain ⟨win, hw1, hw2, _⟩ := C39_winner s ht.sorted hsne hpos0
    obtain ⟨_, _, _, q⟩ := pyOutput_dict hrs ht.sorted hw1 hw2
    have hg := q degs hd
    obtain ⟨h1, h2⟩ := sum_nonneg_zero s hpos0
    have hsum : s.foldl (fun t e => t + e.2) 0 = (s.map (·.2)).sum := by rw [foldl_sum]; omega
    unfold ClusWisard.getClassesDegrees at hg
    rw [hsum] at hg
    refine ⟨x, hx, b, s, if (s.map (·.2)).sum = 0 then 1 else (s.map (·.2)).sum, hb, ht, by split <;> omega, hg, ?_, hpos0⟩
    rintro ⟨e, he, hne⟩
    have : (s.map (·.2)).sum ≠ 0 := fun hz => hne (h2 hz e he)
    rw [if_neg this, hg, List.map_map]
    rfl

/-- C83, proved part: the confidence returned for an image is `(best - t)/best`, where `best` is the largest score of
the image's table and `t` the largest score strictly below it (0 if there is none); `t` is the score of the runner-up
*discriminator* (which may belong to the same class) if only one attains `best`. Missing: ties, as in C54. -/
theorem C83_confidence_partial {w : ClusWisard} (hS : SMap.Sorted w.clusters) (hne : ∃ l, discs w l ≠ [])
    (xs : List (List Int)) (rs : List PyLabel) (h : w.pyClassify xs = .ok rs)
    (i : Nat) (r : PyDict) (hr : rs[i]? = some (.dict r)) (c : Int × Int) (hc : r.confidence = some c) :
    ∃ x, xs[i]? = some x ∧ ∃ (b : Int) (s : Scores) (best : Str × Int), 1 ≤ b ∧ ScoreTable w x b s ∧ best ∈ s ∧
      r.cls = beforeSep best.1 ∧ (∀ e ∈ s, 0 ≤ e.2 ∧ e.2 ≤ best.2) ∧ c.2 = best.2 ∧
      (0 < best.2 → ∃ t, c.1 = best.2 - t ∧ 0 ≤ t ∧ t < best.2 ∧ (∀ e ∈ s, e.2 < best.2 → e.2 ≤ t) ∧
        (t = 0 ∨ ∃ e ∈ s, e.2 = t) ∧
        ((∀ e ∈ s, e.1 ≠ best.1 → e.2 < best.2) → ∀ e ∈ s, e.1 ≠ best.1 → e.2 ≤ t)) := by
  cases xs with
  | nil => cases h
  | cons x0 xs =>
    unfold ClusWisard.pyClassify at h
    simp only at h
    obtain ⟨k, hk, h⟩ := bind_eq_ok h
    obtain ⟨x, hx, s, hs, hrs⟩ := pyLoop_get w k _ rs h i (.dict r) hr
    obtain ⟨b, hb, ht⟩ := classify1_table hS hs
    have hpos0 : ∀ e ∈ s, 0 ≤ e.2 := by
      rintro ⟨q, n⟩ he
      obtain ⟨_, _, _, _, _, rfl⟩ := (ht.entries q n).mp he
      simp
    have hsne : s ≠ [] := by
      obtain ⟨l, hl⟩ := hne
      obtain ⟨v, hv⟩ := ht.all l 0 (List.length_pos_iff.mpr hl)
      intro e
      have := (ht.entries _ _).mpr ⟨l, 0, v, rfl, hv, rfl⟩
      rw [e] at this
      simp at this
    obtain ⟨win, hw1, hw2, hw3, _⟩ := C39_winner s ht.sorted hsne hpos0
    obtain ⟨q1, _, q3, _⟩ := pyOutput_dict hrs ht.sorted hw1 hw2
    have hconf := q3 c hc
    refine ⟨x, hx, b, s, win, hb, ht, hw1, q1, fun e he => ⟨hpos0 e he, hw3 e he⟩, by rw [hconf]; rfl, fun hpos => ?_⟩
    obtain ⟨t, h1, h2⟩ := C54_confidence_partial s win hpos
    exact ⟨t, by rw [hconf, h1], h2⟩

/-- The model of the examples, returning everything. -/
def Spec.cw1 : ClusWisard :=
  { (cplay Flt.exact cw0 [op0]).1 with
    opts := { returnActivationDegree := true, returnConfidence := true, returnClassesDegrees := true } }

/-- C83 does not hold as documented: class `"a"` with two discriminators appears twice in `classesDegrees`, and the
confidence compares with the other discriminator of the same class. -/
theorem C83_refuted : cw1.pyClassify [[1, 1, 1, 1], [0, 0, 1, 1]] = .ok [
    .dict ⟨b!"a", some (2, 2), some (2, 2), some [(b!"a", (2, 2)), (b!"a", (0, 2)), (b!"b", (0, 2))]⟩,
    .dict ⟨b!"a", some (1, 2), some (1, 1), some [(b!"a", (1, 2)), (b!"a", (1, 2)), (b!"b", (0, 2))]⟩] := by
  decide +kernel

/-- Instance of the hypotheses: the model is reached by its calls. -/
example : ∃ w0 : ClusWisard, ClusWisard.create 2 (1/2) 10 3 { returnActivationDegree := true, returnConfidence := true, returnClassesDegrees := true } = .ok w0 ∧
    cw1 = (cplay Flt.exact w0 [op0]).1 ∧ discs cw1 b!"a" ≠ [] ∧ SMap.Sorted cw1.clusters :=
  ⟨⟨2, 1/2, 10, 3, { returnActivationDegree := true, returnConfidence := true, returnClassesDegrees := true }, [], Cluster.default⟩,
    by decide +kernel, by decide +kernel, by decide +kernel,
    (WInv.play (f := Flt.exact) (by decide +kernel : ClusWisard.create 2 (1/2) 10 3 {} = .ok cw0) [op0]).sorted⟩

/-! ## C84 -/

/-- C84, proved part: for a non-empty batch and a non-zero address size, different numbers of images and labels, or a
confidence above the number `k` of RAMs of a discriminator for the first image, make supervised training throw without
any change of the model; so do more labels than images, or the confidence, for semi-supervised training.

Missing: an empty batch (`C84_empty_ub`). -/
theorem C84_batch_validated_partial (f : Flt) (w : ClusWisard) (i0 : List Int) (images : List (List Int))
    (hA : w.addressSize ≠ 0) :
    ∃ k, calculateNumberOfRams i0.length w.addressSize w.opts.completeAddressing = .ok k ∧
      (∀ (env : Nat → Env) (labels : List Str), (i0 :: images).length ≠ labels.length ∨ k < w.opts.confidence →
        ∃ e, w.train f env (i0 :: images) labels = (w, .error (.throw e))) ∧
      (∀ (env : Bool → Nat → Env) (labels : LabelMap), (i0 :: images).length < labels.length ∨ k < w.opts.confidence →
        ∃ e, w.trainSemi f env (i0 :: images) labels = (w, .error (.throw e))) ∧
      (∀ (env : Nat → Env) (labels : List Str), (i0 :: images).length = labels.length → w.opts.confidence ≤ k →
        w.train f env (i0 :: images) labels = w.trainLoop f env ((i0 :: images).zip labels) 0) := by
  obtain ⟨k, hk⟩ : ∃ k, calculateNumberOfRams i0.length w.addressSize w.opts.completeAddressing = .ok k := by
    unfold calculateNumberOfRams
    rw [if_neg hA]
    simp only
    split <;> exact ⟨_, rfl⟩
  refine ⟨k, hk, ?_, ?_, ?_⟩
  · intro env labels h
    unfold ClusWisard.train ClusWisard.confidenceCheck ClusWisard.checkConfidence
    simp only [Except.bind_ok, hk]
    by_cases hc : w.opts.confidence > k
    · rw [if_pos hc]; exact ⟨_, rfl⟩
    · rw [if_neg hc]
      rcases h with h | h
      · simp only [Except.bind_ok, Wisard.checkInputSizes, if_pos h]; exact ⟨_, rfl⟩
      · omega
  · intro env labels h
    unfold ClusWisard.trainSemi ClusWisard.confidenceCheck ClusWisard.checkConfidence
    simp only [Except.bind_ok, hk]
    by_cases hc : w.opts.confidence > k
    · rw [if_pos hc]; exact ⟨_, rfl⟩
    · rw [if_neg hc]
      rcases h with h | h
      · simp only [Except.bind_ok, if_pos h]; exact ⟨_, rfl⟩
      · omega
  · intro env labels h1 h2
    unfold ClusWisard.train ClusWisard.confidenceCheck ClusWisard.checkConfidence
    simp only [Except.bind_ok, hk, if_neg (show ¬ w.opts.confidence > k by omega), Wisard.checkInputSizes,
      if_neg (show ¬ (i0 :: images).length ≠ labels.length by omega)]

/-- C84: the number of the check is the number of RAMs of every discriminator that ever exists for images of this
length. -/
theorem C84_number_of_rams (f : Flt) {A : Int} {ms : Rat} {t dl : Int} {o : ClusOpts} {w0 : ClusWisard}
    (h0 : ClusWisard.create A ms t dl o = .ok w0) (ops : List COp) {l : Str} {d : Discriminator}
    (hd : some d ∈ discs (cplay f w0 ops).1 l) {img : List Int} (hi : (img.length : Int) = d.entrySize) :
    calculateNumberOfRams img.length A o.completeAddressing = .ok (d.getNumberOfRAMS : Int) := by
  rw [hi]
  exact (rams_of_disc h0 ops hd (by omega)).1

/-- C84 does not hold for an empty batch: supervised and semi-supervised training read outside a vector, for every
model. -/
theorem C84_empty_ub (f : Flt) (w : ClusWisard) (env : Nat → Env) (env' : Bool → Nat → Env) (labels : List Str) (m : LabelMap) :
    w.train f env [] labels = (w, .error (.ub .outOfBounds)) ∧
    w.trainSemi f env' [] m = (w, .error (.ub .outOfBounds)) := ⟨rfl, rfl⟩

/-- Both reasons occur. -/
example : ([[1, 0, 1, 1]] : List (List Int)).length ≠ [b!"a", b!"b"].length ∧
    (∃ k, calculateNumberOfRams 4 2 true = .ok k ∧ k < 3) ∧ cw0.addressSize ≠ 0 := ⟨by decide, ⟨2, rfl, by omega⟩, by decide⟩

/-! ## C85 -/

/-- Discriminator number `j` of the unsupervised cluster gives the votes `vs`. -/
def Spec.UVoteOf (w : ClusWisard) (img : List Int) (j : Nat) (vs : List Int) : Prop :=
  ∃ d, w.unsupervisedCluster.discriminators[j]? = some (some d) ∧ d.classify (.vec img) = .ok vs

theorem unsupVotes_find (vs : List (List Int)) : ∀ (j : Nat) (m : Votes) (k : Str) (v : List Int),
    (ClusWisard.unsupVotes vs j m).find k = some v ↔
      (∃ i, k = natStr (j + i) ∧ vs[i]? = some v) ∨ ((∀ i, i < vs.length → k ≠ natStr (j + i)) ∧ m.find k = some v) := by
  induction vs with
  | nil => intro j m k v; simp [ClusWisard.unsupVotes]
  | cons u vs ih =>
    intro j m k v
    simp only [ClusWisard.unsupVotes]
    rw [ih]
    constructor
    · rintro (⟨i, h1, h2⟩ | ⟨h1, h2⟩)
      · exact .inl ⟨i + 1, by rw [h1]; congr 1; omega, by simpa using h2⟩
      · by_cases hk : k = natStr j
        · subst hk
          rw [SMap.find_set_self] at h2
          exact .inl ⟨0, rfl, by simpa using h2⟩
        · rw [SMap.find_set_ne _ _ hk] at h2
          refine .inr ⟨?_, h2⟩
          intro i hi
          cases i with
          | zero => exact hk
          | succ i =>
            have := h1 i (by simpa using hi)
            rwa [show j + (i + 1) = j + 1 + i by omega]
    · rintro (⟨i, h1, h2⟩ | ⟨h1, h2⟩)
      · cases i with
        | zero =>
          right
          simp only [Nat.add_zero] at h1
          subst h1
          refine ⟨?_, by rw [SMap.find_set_self]; simpa using h2⟩
          intro i _ h
          have := natStr_inj h
          omega
        | succ i => exact .inl ⟨i, by rw [h1]; congr 1; omega, by simpa using h2⟩
      · right
        refine ⟨?_, ?_⟩
        · intro i hi
          have := h1 (i + 1) (by simpa using hi)
          rwa [show j + 1 + i = j + (i + 1) by omega]
        · rw [SMap.find_set_ne _ _ (by simpa using h1 0 (by simp))]
          exact h2

theorem beforeSep_natStr (j : Nat) : beforeSep (natStr j) = natStr j := by
  rcases beforeSep_split (natStr j) with ⟨t, h, _⟩ | h
  · exfalso
    apply natStr_noColon j
    rw [h, sep_eq]
    simp
  · exact h.2

theorem unsupVotes_sorted (vs : List (List Int)) : ∀ (j : Nat) (m : Votes), SMap.Sorted m →
    SMap.Sorted (ClusWisard.unsupVotes vs j m) := by
  induction vs with
  | nil => intro j m h; exact h
  | cons v vs ih => intro j m h; exact ih _ _ (SMap.sorted_set h _ _)

/-- Two discriminators of the unsupervised cluster share the top score at threshold `b`, and it is above 1. -/
def Spec.TiedUnsup (w : ClusWisard) (img : List Int) (b : Int) : Prop :=
  ∃ j vs j' vs', UVoteOf w img j vs ∧ UVoteOf w img j' vs' ∧ j ≠ j' ∧
    1 < active b vs ∧ active b vs = active b vs' ∧ ∀ i u, UVoteOf w img i u → active b u ≤ active b vs

/-- C85: `classifyUnsupervised` gives an image the number (in decimal) of a discriminator of the unsupervised cluster
with the most RAMs whose vote reaches a threshold `b ≥ 1`; among equals it is the one whose decimal *string* is the
greatest. Without bleaching `b = 1`; with bleaching, `b` is the least threshold at which no two discriminators tie for
the top above 1 (the option `confidence` is ignored). -/
theorem C85_winner {w : ClusWisard} {img : List Int} {x : Str} (h : w.classifyUnsupervised [img] = .ok [x])
    (hne : w.unsupervisedCluster.discriminators ≠ []) :
    ∃ (b : Int) (j : Nat) (vs : List Int), 1 ≤ b ∧ UVoteOf w img j vs ∧ x = natStr j ∧
      (∀ j' vs', UVoteOf w img j' vs' → active b vs' ≤ active b vs ∧
        (active b vs' = active b vs → j' = j ∨ Str.lt (natStr j') (natStr j) = true)) ∧
      (w.opts.bleachingActivated = false → b = 1) ∧
      (w.opts.bleachingActivated = true → ¬ TiedUnsup w img b ∧ ∀ b', 1 ≤ b' → b' < b → TiedUnsup w img b') := by
  simp only [ClusWisard.classifyUnsupervised] at h
  obtain ⟨s, h1, h⟩ := bind_eq_ok h
  simp only [Except.bind_ok, Except.ok.injEq, List.cons.injEq, and_true] at h
  unfold ClusWisard.classifyUnsupervised1 at h1
  obtain ⟨vs, g1, g2⟩ := bind_eq_ok h1
  obtain ⟨b, hl⟩ := Bleaching.make_ok g2
  obtain ⟨l1, l2, l3, l4⟩ := Bleaching.loop_spec _ _ _ _ hl
  subst l2
  have v1 : SMap.Sorted (ClusWisard.unsupVotes vs 0 []) := unsupVotes_sorted vs 0 _ SMap.sorted_nil
  have hfind : ∀ k v, (ClusWisard.unsupVotes vs 0 []).find k = some v ↔ ∃ j, k = natStr j ∧ UVoteOf w img j v := by
    intro k v
    rw [unsupVotes_find]
    simp only [SMap.find, reduceCtorEq, and_false, or_false, Nat.zero_add]
    constructor
    · rintro ⟨i, h1, h2⟩; exact ⟨i, h1, (classifyLoop_get _ g1 i v).mp h2⟩
    · rintro ⟨i, h1, h2⟩; exact ⟨i, h1, (classifyLoop_get _ g1 i v).mpr h2⟩
  have hmem : ∀ b k n, (k, n) ∈ activeAll b (ClusWisard.unsupVotes vs 0 []) ↔
      ∃ j v, k = natStr j ∧ UVoteOf w img j v ∧ n = (active b v : Int) := by
    intro b k n
    unfold activeAll
    simp only [List.mem_map, Prod.mk.injEq, Prod.exists]
    constructor
    · rintro ⟨k', v, hm, rfl, rfl⟩
      obtain ⟨j, e1, e2⟩ := (hfind k' v).mp (SMap.find_of_mem v1 hm)
      exact ⟨j, v, e1, e2, rfl⟩
    · rintro ⟨j, v, e1, e2, rfl⟩
      exact ⟨k, v, SMap.mem_of_find ((hfind k v).mpr ⟨j, e1, e2⟩), rfl, rfl⟩
  have hvne : ClusWisard.unsupVotes vs 0 [] ≠ [] := by
    have hlen := classifyLoop_length _ g1
    have h0 : 0 < vs.length := by rw [hlen]; exact List.length_pos_iff.mpr hne
    intro he
    have := (unsupVotes_find vs 0 [] (natStr 0) vs[0]).mpr (.inl ⟨0, rfl, by simp⟩)
    rw [he] at this
    simp [SMap.find] at this
  obtain ⟨pre, y, post, e1, e2, e3, e4⟩ := Bleaching.biggest_spec (m := activeAll b (ClusWisard.unsupVotes vs 0 []))
    (by intro h; exact hvne (by simpa [activeAll] using h)) (Bleaching.activeAll_nonneg b _)
  obtain ⟨j, u, y1, y2, y3⟩ := (hmem b y.1 y.2).mp (by rw [e1]; simp)
  refine ⟨b, j, u, l1, y2, ?_, ?_, l3, ?_⟩
  · rw [← h, e4, y1]
    exact beforeSep_natStr j
  · intro j' vs' hv'
    have hm := (hmem b (natStr j') (active b vs')).mpr ⟨j', vs', rfl, hv', rfl⟩
    have hso := Bleaching.activeAll_sorted v1 b
    rw [e1] at hm hso
    rcases List.mem_append.mp hm with hm | hm
    · have hle := e2 _ hm
      rw [y3] at hle
      simp only at hle
      refine ⟨by exact_mod_cast hle, fun _ => .inr ?_⟩
      have := (List.pairwise_append.mp hso).2.2 _ hm y (by simp)
      rw [y1] at this
      exact this
    · rcases List.mem_cons.mp hm with hm | hm
      · have hk : natStr j' = y.1 := by rw [← hm]
        rw [y1] at hk
        obtain rfl := natStr_inj hk
        have : (active b vs' : Int) = y.2 := by rw [← hm]
        rw [y3] at this
        exact ⟨le_of_eq (by exact_mod_cast this), fun _ => .inl rfl⟩
      · have hlt := e3 _ hm
        rw [y3] at hlt
        simp only at hlt
        have hlt : active b vs' < active b u := by exact_mod_cast hlt
        exact ⟨le_of_lt hlt, fun h => absurd h (by omega)⟩
  · intro hb
    have htied : ∀ b, TiedUnsup w img b ↔ LaterRivalWithin 1 (activeAll b (ClusWisard.unsupVotes vs 0 [])) := by
      intro b
      rw [Bleaching.rival_one_iff (Bleaching.activeAll_sorted v1 b)]
      constructor
      · rintro ⟨j, vs, j', vs', q1, q2, q3, q4, q5, q6⟩
        refine ⟨(natStr j, active b vs), (natStr j', active b vs'), (hmem _ _ _).mpr ⟨j, vs, rfl, q1, rfl⟩,
          (hmem _ _ _).mpr ⟨j', vs', rfl, q2, rfl⟩, fun he => q3 (natStr_inj he), by simp only; omega, by simp only; omega, ?_⟩
        rintro ⟨k, n⟩ hm
        obtain ⟨j2, v2, _, r2, rfl⟩ := (hmem _ _ _).mp hm
        have := q6 j2 v2 r2
        simp only; omega
      · rintro ⟨⟨k, n⟩, ⟨k', n'⟩, q1, q2, q3, q4, q5, q6⟩
        obtain ⟨j, vs, rfl, r1, rfl⟩ := (hmem _ _ _).mp q1
        obtain ⟨j', vs', rfl, r2, rfl⟩ := (hmem _ _ _).mp q2
        simp only at q3 q4 q5 q6
        refine ⟨j, vs, j', vs', r1, r2, ?_, by omega, by omega, ?_⟩
        · intro he; cases he; exact q3 rfl
        · intro i u hu
          have := q6 _ ((hmem _ _ _).mpr ⟨i, u, rfl, hu, rfl⟩)
          simp only at this; omega
    obtain ⟨m1, m2⟩ := l4 hb
    exact ⟨fun h => m1 ((htied b).mp h), fun b' h1 h2 => (htied b').mpr (m2 b' h1 h2)⟩

theorem classifyUnsup_each {w : ClusWisard} (imgs : List (List Int)) : ∀ {ls : List Str},
    w.classifyUnsupervised imgs = .ok ls → List.Forall₂ (fun img l => w.classifyUnsupervised [img] = .ok [l]) imgs ls := by
  induction imgs with
  | nil => intro ls h; simp only [ClusWisard.classifyUnsupervised, Except.ok.injEq] at h; subst h; exact .nil
  | cons img imgs ih =>
    intro ls h
    simp only [ClusWisard.classifyUnsupervised] at h
    obtain ⟨s, h1, h⟩ := bind_eq_ok h
    obtain ⟨ls', h2, h⟩ := bind_eq_ok h
    simp only [Except.ok.injEq] at h
    subst h
    refine .cons ?_ (ih h2)
    simp only [ClusWisard.classifyUnsupervised, h1, Except.bind_ok]

/-- C85: images are classified one by one, and after every history each returned label is the number of an existing
discriminator of the unsupervised cluster, below `discriminatorsLimit` (an untrained cluster returns empty labels). -/
theorem C85_limit (f : Flt) {A : Int} {ms : Rat} {t dl : Int} {o : ClusOpts} {w0 : ClusWisard}
    (h0 : ClusWisard.create A ms t dl o = .ok w0) (ops : List COp) {w : ClusWisard} (hw : w = (cplay f w0 ops).1)
    {imgs : List (List Int)} {ls : List Str} (h : w.classifyUnsupervised imgs = .ok ls) :
    List.Forall₂ (fun img l => w.classifyUnsupervised [img] = .ok [l]) imgs ls ∧
    (w.unsupervisedCluster.discriminators = [] → ∀ l ∈ ls, l = []) ∧
    (w.unsupervisedCluster.discriminators ≠ [] → ∀ l ∈ ls, ∃ j : Nat, l = natStr j ∧
      j < w.unsupervisedCluster.discriminators.length ∧ (j : Int) < dl) := by
  have hall := classifyUnsup_each imgs h
  have hi := WInv.play (f := f) h0 ops
  rw [← hw] at hi
  obtain ⟨hw0, _, _, _, hdl⟩ := create_shape h0
  refine ⟨hall, ?_, ?_⟩
  · intro he l hl
    obtain ⟨img, _, hc⟩ := forall₂_mem_right hall hl
    simp only [ClusWisard.classifyUnsupervised] at hc
    obtain ⟨s, h1, hc⟩ := bind_eq_ok hc
    simp only [Except.bind_ok, Except.ok.injEq, List.cons.injEq, and_true] at hc
    unfold ClusWisard.classifyUnsupervised1 at h1
    obtain ⟨vs, g1, g2⟩ := bind_eq_ok h1
    unfold Cluster.classify at g1
    rw [he] at g1
    simp only [Cluster.classifyLoop, Except.ok.injEq] at g1
    subst g1
    obtain ⟨b, hl⟩ := Bleaching.make_ok g2
    obtain ⟨_, l2, _⟩ := Bleaching.loop_spec _ _ _ _ hl
    subst l2
    rw [← hc]
    rfl
  · intro hne l hl
    obtain ⟨img, _, hc⟩ := forall₂_mem_right hall hl
    obtain ⟨_, j, vs, _, ⟨d, hd, _⟩, hx, _⟩ := C85_winner hc hne
    have hj := (List.getElem?_eq_some_iff.mp hd).1
    refine ⟨j, hx, hj, ?_⟩
    rcases hi.un with hu | ⟨n, H, hr⟩
    · rw [hu] at hj; simp [Cluster.default] at hj
    · have := hr.inv.len (by subst hw0; exact hdl)
      subst hw0
      simp only [ClusWisard.clusterCfg] at this
      omega

/-- Eleven discriminators with one trained image each. -/
def Spec.cw11 : ClusWisard :=
  (cplay Flt.exact ⟨2, 1, 1, 11, { bleachingActivated := false }, [], Cluster.default⟩
    [.unsup (fun _ => env0) [[0, 0, 0, 0], [0, 0, 0, 1], [0, 0, 1, 0], [0, 0, 1, 1], [0, 1, 0, 0], [0, 1, 0, 1],
      [0, 1, 1, 0], [0, 1, 1, 1], [1, 0, 0, 0], [1, 0, 0, 1], [1, 0, 1, 0]]]).1

/-- C85: the order of ties is that of strings, not of numbers: discriminators 8, 9 and 10 tie for this image, and `"9"`
is returned. -/
theorem C85_tie_order : cw11.unsupervisedCluster.discriminators.length = 11 ∧
    cw11.classifyUnsupervised [[1, 0, 1, 1]] = .ok [b!"9"] ∧ UVoteOf cw11 [1, 0, 1, 1] 9 [1, 0] ∧
    UVoteOf cw11 [1, 0, 1, 1] 10 [1, 0] := by
  refine ⟨by decide +kernel, by decide +kernel, ⟨(cw11.unsupervisedCluster.discriminators[9]?.join).getD ⟨0, 0, []⟩, ?_, ?_⟩,
    ⟨(cw11.unsupervisedCluster.discriminators[10]?.join).getD ⟨0, 0, []⟩, ?_, ?_⟩⟩ <;> decide +kernel

end Wis
