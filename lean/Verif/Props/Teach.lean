import Verif.Lemmas.Teach
import Verif.Props.Semantics
/-!
# Properties C167, C168: what a training does to the answer for its own image

C167: if a Wisard answers `l` for an image, training it with this image and label keeps the answer (any options).
C168: with bleaching, every image can be taught: more trainings of it than all calls before make its label the answer.
-/

namespace Wis.Spec

/-- The calls are all trainings of the image `x` (as a list or as a `BinInput`) with label `l`. -/
def Repeats (x : Image) (l : Str) (ops : List WOp) : Prop := ∀ o ∈ ops, o.isTrain = true ∧ Same x o.img ∧ o.label = l

end Wis.Spec

namespace Wis
open Spec

theorem agree_same {n : Int} {m : List Int} {x y : Image} (hm : ∀ a ∈ m, 0 ≤ a ∧ a < n) (hx : (x.size : Int) = n) (h : Same x y) :
    Agree m x y := by
  intro a ha
  obtain ⟨h0, h1⟩ := hm a ha
  obtain ⟨i, rfl⟩ := Int.eq_ofNat_of_zero_le h0
  exact h.2 i (by omega)

/-- One more training of an agreeing image raises the vote by one. -/
theorem vote_snoc {m : List Int} {x y : Image} (h : Agree m x y) (P : List Op) : vote m (P ++ [.train y]) x = vote m P x + 1 := by
  unfold vote matching
  rw [List.filter_append, List.dropWhile_append]
  have hf : [Op.train y].filter (fun o => decide (Agree m x o.img)) = [.train y] := by
    simp only [List.filter_cons, Op.img, h, decide_true, if_true, List.filter_nil]
  rw [hf]
  split
  · rename_i he
    rw [List.isEmpty_iff] at he
    rw [he]
    rfl
  · rw [net_append]; rfl

theorem vote_bounds (m : List Int) (P : List Op) (x : Image) : -(P.length : Int) ≤ vote m P x ∧ vote m P x ≤ P.length := by
  have h3 := net_bound ((matching m x P).dropWhile (fun o => !o.isTrain))
  have h4 := (List.dropWhile_sublist (l := matching m x P) (fun o => !o.isTrain)).length_le
  have h5 : (matching m x P).length ≤ P.length := List.length_filter_le _ _
  unfold vote
  omega

theorem repeats_snoc {x : Image} {l : Str} {o : WOp} (h : o.isTrain = true ∧ Same x o.img ∧ o.label = l) :
    ∃ env y, o = .train env y l ∧ Same x y := by
  cases o with
  | leave i k => cases h.1
  | train env y k => exact ⟨env, y, by rw [show k = l from h.2.2], h.2.1⟩

/-- A history of good calls was good before, too. -/
theorem Spec.GoodHistory.before {w0 w : Wisard} {ops more : List WOp} {n : Int} (g : GoodHistory w0 (ops ++ more) w n) :
    ∃ w1, GoodHistory w0 ops w1 n := by
  have h := g.ran
  rw [wrun_append] at h
  cases h1 : wrun w0 ops with
  | mk w1 r =>
    cases r with
    | error e => rw [h1] at h; cases h
    | ok u =>
      refine ⟨w1, g.start, h1, fun o ho => g.valid o (List.mem_append_left _ ho), ?_, ?_⟩
      · intro l d hd
        obtain ⟨d', h2, h3⟩ := wrun_wiring more hd
        rw [wrun_later h1 g.ran] at h2
        rw [← h3]
        exact g.wired l d' h2
      · have := g.len
        rw [List.length_append] at this
        omega

/-- Classification succeeds and its answer is the winner of bleaching. -/
theorem Spec.GoodHistory.answer {w0 w : Wisard} {ops : List WOp} {n : Int} (g : GoodHistory w0 ops w n) {x : Image}
    (hx : ValidImage n w0.opts.base x) (hlen : ops.length ≤ 2147483645) :
    ∃ s, Bleaching.make (w.discriminators.map (fun e => (e.1, specVotes w0 ops x e.1 e.2.mapping)))
        w0.opts.bleachingActivated w0.opts.searchBestConfidence w0.opts.confidence = .ok s ∧
      w.classify [x] = .ok [Bleaching.getBiggestCandidate s] := by
  have ho := (wrun_find g.start ops g.ran).2.1
  obtain ⟨s, b, _, _, _, h2⟩ := C37_terminates
    (w.discriminators.map (fun e => (e.1, specVotes w0 ops x e.1 e.2.mapping)))
    w0.opts.bleachingActivated w0.opts.confidence 2147483645 (by omega) (by
      intro e he v hv
      obtain ⟨e', _, rfl⟩ := List.mem_map.mp he
      simp only [specVotes, List.mem_map] at hv
      obtain ⟨m, _, rfl⟩ := hv
      split
      · omega
      · have h5 := (vote_bounds m (opsOf e'.1 ops) x).2
        have h6 := opsOf_length e'.1 ops
        omega) (by omega)
  refine ⟨s, h2 _, ?_⟩
  simp only [Wisard.classify, Wisard.classify1, g.allvotes hx, ho, Except.bind_ok, h2]

theorem specTable_find (w0 w : Wisard) (ops : List WOp) (x : Image) (l : Str) :
    SMap.find (w.discriminators.map (fun e => (e.1, specVotes w0 ops x e.1 e.2.mapping))) l =
      (w.discriminators.find l).map (fun d => specVotes w0 ops x l d.mapping) :=
  find_map_key w.discriminators (fun k d => specVotes w0 ops x k d.mapping) l

theorem specTable_sorted {w : Wisard} (h : SMap.Sorted w.discriminators) (w0 : Wisard) (ops : List WOp) (x : Image) :
    SMap.Sorted (w.discriminators.map (fun e => (e.1, specVotes w0 ops x e.1 e.2.mapping))) :=
  SMap.sorted_map h (fun e => specVotes w0 ops x e.1 e.2.mapping)

/-- One training of the answer. -/
theorem reinforce_once {w0 w w' : Wisard} {ops : List WOp} {n : Int} {env : Env} {x y : Image} {l : Str}
    (g : GoodHistory w0 ops w n) (g' : GoodHistory w0 (ops ++ [.train env y l]) w' n) (hxy : Same x y)
    (hx : ValidImage n w0.opts.base x) (hlen : ops.length + 1 ≤ 2147483645) (h : w.classify [x] = .ok [l]) :
    w'.classify [x] = .ok [l] := by
  obtain ⟨s, a1, a2⟩ := g.answer hx (by omega)
  obtain ⟨s', b1, b2⟩ := g'.answer hx (by simp; omega)
  rw [h] at a2
  simp only [Except.ok.injEq, List.cons.injEq, and_true] at a2
  rw [b2]
  congr 2
  have hS := (wrun_find g.start ops g.ran).2.2.1
  have hS' := (wrun_find g'.start _ g'.ran).2.2.1
  have hstep : wrun w [.train env y l] = (w', .ok ()) := wrun_later g.ran g'.ran
  have hw' : (wstep w (.train env y l)).1 = w' := by
    unfold wrun at hstep
    cases hq : wstep w (.train env y l) with
    | mk w1 r =>
      rw [hq] at hstep
      cases r with
      | error e => cases hstep
      | ok u => simp only [wrun, Prod.mk.injEq, and_true] at hstep; exact hstep
  have hfo : ∀ k, k ≠ l → w'.discriminators.find k = w.discriminators.find k := by
    intro k hk
    rw [← hw']
    exact (wstep_other w (.train env y l)).2.2.1 k hk
  have hfl : ∃ d', w'.discriminators.find l = some d' := by
    rcases (wrun_find g'.start _ g'.ran).2.2.2 l with ⟨_, q⟩ | ⟨d, _, _, _, _, q, _⟩
    · rw [opsOf_snoc_train] at q
      simp at q
    · exact ⟨d, q⟩
  obtain ⟨d', hd'⟩ := hfl
  by_cases hne : w.discriminators = []
  · -- no class before: the only class is `l`
    have hk : ∀ k ∈ SMap.keys w'.discriminators, k = l := by
      intro k hk
      apply Classical.byContradiction
      intro hkl
      obtain ⟨d, hd⟩ := SMap.mem_keys_iff.mp hk
      rw [hfo k hkl, hne] at hd
      cases hd
    obtain ⟨b, c1, c2, _, _⟩ := C38_scores_at_least_threshold _ _ _ _ _ b1
    have hw := winner_on (specTable_sorted hS' w0 (ops ++ [.train env y l]) x) (by
      intro q
      have := congrArg (fun m => SMap.find m l) q
      simp only [specTable_find, hd'] at this
      cases this) b
    rw [← c2] at hw
    apply hk
    have := hw.1
    unfold SMap.keys at this ⊢
    rw [List.map_map] at this
    exact this
  · obtain ⟨b, c1, c2, _, _⟩ := C38_scores_at_least_threshold _ _ _ _ _ a1
    have hne' : (w.discriminators.map (fun e => (e.1, specVotes w0 ops x e.1 e.2.mapping))) ≠ [] := by simpa using hne
    have hw := winner_on (specTable_sorted hS w0 ops x) hne' b
    rw [← c2, ← a2] at hw
    have hlk : l ∈ SMap.keys w.discriminators := by
      have := hw.1
      unfold SMap.keys at this ⊢
      rw [List.map_map] at this
      exact this
    obtain ⟨d, hd⟩ := SMap.mem_keys_iff.mp hlk
    have hmap : d'.mapping = d.mapping := by
      obtain ⟨d1, q1, q2⟩ := wstep_wiring (o := .train env y l) hd
      rw [hw', hd'] at q1
      cases q1
      exact q2
    have hkeys : SMap.keys w'.discriminators = SMap.keys w.discriminators := by
      have hu : w'.discriminators.map (fun e => (e.1, ())) = w.discriminators.map (fun e => (e.1, ())) := by
        apply SMap.ext (SMap.sorted_map hS' (fun _ => ())) (SMap.sorted_map hS (fun _ => ()))
        intro k
        rw [find_map_key w'.discriminators (fun _ _ => ()) k, find_map_key w.discriminators (fun _ _ => ()) k]
        by_cases hk : k = l
        · subst hk; rw [hd, hd']; rfl
        · rw [hfo k hk]
      have := congrArg SMap.keys hu
      unfold SMap.keys at this ⊢
      rw [List.map_map, List.map_map] at this
      exact this
    refine make_reinforce (V := w.discriminators.map (fun e => (e.1, specVotes w0 ops x e.1 e.2.mapping)))
      (specTable_sorted hS w0 ops x) (specTable_sorted hS' w0 _ x) ?_ hne' ?_ (l := l)
      (vs := specVotes w0 ops x l d.mapping) (vs' := specVotes w0 (ops ++ [.train env y l]) x l d'.mapping) ?_ ?_ ?_ a1 b1 a2.symm
    · have := hkeys
      unfold SMap.keys at this ⊢
      rw [List.map_map, List.map_map]
      exact this
    · intro k hk
      rw [specTable_find, specTable_find, hfo k hk]
      unfold specVotes
      rw [opsOf_snoc_other k ops (.train env y l) hk]
    · rw [specTable_find, hd]; rfl
    · rw [specTable_find, hd']; rfl
    · unfold specVotes
      rw [hmap, opsOf_snoc_train, List.forall₂_map_left_iff, List.forall₂_map_right_iff, List.forall₂_same]
      intro m hm
      by_cases hz : w0.opts.ignoreZero = true ∧ ZeroOn m x
      · rw [if_pos hz, if_pos hz]; exact .inr ⟨rfl, by omega⟩
      · rw [if_neg hz, if_neg hz]
        exact .inl (vote_snoc (agree_same (g.wired l d hd m hm) hx.1 hxy) _)

/-! ## C167 -/

/-- C167: if the model answers `l` for the image `x`, then after training it any number of times with `x` and `l` it still
answers `l`: for any options (bleaching on or off, any confidence, `ignoreZero`, any base and wiring) and after any good
history of trainings and untrainings. -/
theorem C167_reinforcement {w0 w w' : Wisard} {ops more : List WOp} {n : Int} {x : Image} {l : Str}
    (g : GoodHistory w0 ops w n) (g' : GoodHistory w0 (ops ++ more) w' n) (hr : Repeats x l more)
    (hx : ValidImage n w0.opts.base x) (hlen : (ops ++ more).length ≤ 2147483645) (h : w.classify [x] = .ok [l]) :
    w'.classify [x] = .ok [l] := by
  induction more using List.reverseRecOn generalizing w' with
  | nil =>
    have := g'.ran
    rw [List.append_nil, g.ran] at this
    simp only [Prod.mk.injEq, and_true] at this
    rw [← this]; exact h
  | append_singleton more o ih =>
    rw [← List.append_assoc] at g' hlen
    obtain ⟨w1, g1⟩ := g'.before
    rw [List.length_append, List.length_singleton] at hlen
    have h1 := ih g1 (fun o ho => hr o (List.mem_append_left _ ho)) (by omega)
    obtain ⟨env, y, rfl, hxy⟩ := repeats_snoc (hr o (by simp))
    exact reinforce_once g1 g' hxy hx hlen h1

/-! ## C168 -/

theorem opsOf_length_label (l : Str) (ops : List WOp) :
    (opsOf l ops).length ≤ (ops.filter (fun o => decide (o.label = l))).length := by
  unfold opsOf
  refine Nat.le_trans (List.dropWhile_sublist _).length_le ?_
  induction ops with
  | nil => simp
  | cons o ops ih =>
    cases o with
    | train env i k =>
      rw [List.filter_cons, show (WOp.train env i k).label = k from rfl, List.filterMap_cons]
      by_cases hk : k = l
      · simp only [WOp.on, hk, if_true, decide_true, List.length_cons]; omega
      · simp only [WOp.on, hk, if_false, decide_false]; exact ih
    | leave i k =>
      rw [List.filter_cons, show (WOp.leave i k).label = k from rfl, List.filterMap_cons]
      by_cases hk : k = l
      · simp only [WOp.on, hk, if_true, decide_true, List.length_cons]; omega
      · simp only [WOp.on, hk, if_false, decide_false]; exact ih

theorem disjoint_labels {k l : Str} (h : k ≠ l) (ops : List WOp) :
    (ops.filter (fun o => decide (o.label = k))).length + (ops.filter (fun o => decide (o.label = l))).length ≤ ops.length := by
  induction ops with
  | nil => simp
  | cons o ops ih =>
    simp only [List.filter_cons, decide_eq_true_eq]
    by_cases h1 : o.label = k
    · have h2 : ¬ o.label = l := fun q => h (h1.symm.trans q)
      rw [if_pos h1, if_neg h2]
      simp only [List.length_cons]; omega
    · rw [if_neg h1]
      by_cases h2 : o.label = l
      · rw [if_pos h2]; simp only [List.length_cons]; omega
      · rw [if_neg h2]; simp only [List.length_cons]; omega

theorem opsOf_repeats {x : Image} {l : Str} {ops more : List WOp} (hr : Repeats x l more) :
    (∀ k, k ≠ l → opsOf k (ops ++ more) = opsOf k ops) ∧
      ∀ (n : Int) (m : List Int), (∀ a ∈ m, 0 ≤ a ∧ a < n) → (x.size : Int) = n →
        vote m (opsOf l (ops ++ more)) x = vote m (opsOf l ops) x + more.length := by
  induction more using List.reverseRecOn with
  | nil => simp
  | append_singleton more o ih =>
    obtain ⟨i1, i2⟩ := ih (fun o ho => hr o (List.mem_append_left _ ho))
    obtain ⟨env, y, rfl, hxy⟩ := repeats_snoc (hr o (by simp))
    refine ⟨?_, ?_⟩
    · intro k hk
      rw [← List.append_assoc, opsOf_snoc_other k _ (.train env y l) hk, i1 k hk]
    · intro n m hm hn
      rw [← List.append_assoc, opsOf_snoc_train, vote_snoc (agree_same hm hn hxy), i2 n m hm hn, List.length_append,
        List.length_singleton]
      omega

/-- C168: with bleaching on and zero patterns counted, every image can be taught in every state: if, after any good
history, an image is trained with label `l` more often than there were calls before, the model answers `l` for it —
provided class `l` has at least two RAMs, no class has more RAMs, and the confidence is between 1 and the number of RAMs. -/
theorem C168_teachable {w0 w : Wisard} {ops more : List WOp} {n : Int} {x : Image} {l : Str} {d : Discriminator}
    (g : GoodHistory w0 (ops ++ more) w n) (hr : Repeats x l more) (hmore : ops.length < more.length)
    (hlen : (ops ++ more).length ≤ 2147483645) (hx : ValidImage n w0.opts.base x)
    (hb : w0.opts.bleachingActivated = true) (hz : w0.opts.ignoreZero = false)
    (hd : w.discriminators.find l = some d) (h2 : 2 ≤ d.mapping.length)
    (hall : ∀ k d', w.discriminators.find k = some d' → d'.mapping.length ≤ d.mapping.length)
    (hc1 : 1 ≤ w0.opts.confidence) (hc2 : w0.opts.confidence ≤ d.mapping.length) :
    w.classify [x] = .ok [l] := by
  obtain ⟨s, a1, a2⟩ := g.answer hx hlen
  rw [a2]
  congr 2
  have hS := (wrun_find g.start _ g.ran).2.2.1
  obtain ⟨r1, r2⟩ := opsOf_repeats (ops := ops) hr
  rw [hb] at a1
  have hlenv : ∀ k (d' : Discriminator), (specVotes w0 (ops ++ more) x k d'.mapping).length = d'.mapping.length := by
    intro k d'; unfold specVotes; rw [List.length_map]
  have hA := (List.length_filter_le (fun o => decide (o.label = l)) ops)
  refine make_taught (specTable_sorted hS w0 _ x) (l := l) (vs := specVotes w0 (ops ++ more) x l d.mapping)
    (M := ((ops.length : Int) - (ops.filter (fun o => decide (o.label = l))).length)) ?_ (by omega) ?_ ?_ (by rw [hlenv]; exact h2)
    hc1 (by rw [hlenv]; exact hc2) a1
  · rw [specTable_find, hd]; rfl
  · intro v hv
    simp only [specVotes, List.mem_map, hz] at hv
    obtain ⟨m, hm, rfl⟩ := hv
    rw [if_neg (by simp), r2 n m (g.wired l d hd m hm) hx.1]
    have h5 := (vote_bounds m (opsOf l ops) x).1
    have h6 := opsOf_length_label l ops
    omega
  · intro k us hk hu
    rw [specTable_find] at hu
    cases hf : w.discriminators.find k with
    | none => rw [hf] at hu; cases hu
    | some d' =>
      rw [hf] at hu
      simp only [Option.map_some, Option.some.injEq] at hu
      subst hu
      refine ⟨by rw [hlenv, hlenv]; exact hall k d' hf, ?_⟩
      intro v hv
      simp only [specVotes, List.mem_map, hz] at hv
      obtain ⟨m, hm, rfl⟩ := hv
      rw [if_neg (by simp), r1 k hk]
      have h5 := (vote_bounds m (opsOf k ops) x).2
      have h6 := opsOf_length_label k ops
      have h7 := disjoint_labels hk ops
      omega

/-- With default wiring all classes have the same number of RAMs. -/
theorem default_rams {A n : Nat} {o : WisardOpts} (hm : o.mapping = []) (hi : o.indexes = []) {ops : List WOp} {w : Wisard}
    (g : GoodHistory (Wisard.create A o) ops w n) {l : Str} {d : Discriminator} (hd : w.discriminators.find l = some d) :
    d.mapping.length = if o.completeAddressing then (n + A - 1) / A else n / A := by
  rcases (wrun_find g.start ops g.ran).2.2.2 l with ⟨h, _⟩ | ⟨d', d0, rnd, img, rest, h1, h2, h3, h5⟩
  · rw [h] at hd; cases hd
  · rw [h1] at hd
    cases hd
    have hsz : (img.size : Int) = n := (g.valid_ops l (.train img) (by rw [h2]; simp)).1
    rw [hsz] at h3
    have hmap : d.mapping = d0.mapping := by
      have := run_le (opsOf l ops) d0
      rw [h5] at this
      exact this.mapping
    have hc : Discriminator.create rnd A n { ignoreZero := o.ignoreZero, completeAddressing := o.completeAddressing, base := o.base } = .ok d0 := by
      unfold Wisard.newDiscriminator at h3
      simp only [Wisard.create, hm, hi, SMap.find] at h3
      unfold Discriminator.create
      simp only [List.length_nil]
      exact h3
    have := ((C18_default_wiring rnd A n _ rfl rfl).2 d0 hc).1
    rw [hmap]
    simp only [Discriminator.getNumberOfRAMS] at this
    unfold Discriminator.mapping
    rw [List.length_map]
    exact_mod_cast this

/-- C168 for a Wisard with default wiring, end to end: for every sequence of valid trainings and untrainings followed by
more trainings of `x` with `l`, all calls succeed and the model answers `l` for `x`. The image must feed at least two RAMs. -/
theorem C168_default_wiring {A n : Nat} {o : WisardOpts} (hm : o.mapping = []) (hi : o.indexes = [])
    (hA : 2 ≤ A) (hAn : 2 * A ≤ n) (hn : n + A ≤ 2147483647) (hb : 2 ≤ o.base) (hp : o.base ^ A < 2 ^ 63)
    (hbl : o.bleachingActivated = true) (hz : o.ignoreZero = false) (hc1 : 1 ≤ o.confidence) (hc2 : o.confidence ≤ (n / A : Nat))
    (ops more : List WOp) (hv : ∀ op ∈ ops ++ more, ValidImage n o.base op.img) (x : Image) (l : Str) (hx : ValidImage n o.base x)
    (hr : Repeats x l more) (hmore : ops.length < more.length) (hlen : (ops ++ more).length ≤ 2147483645) :
    ∃ w, GoodHistory (Wisard.create A o) (ops ++ more) w n ∧ w.classify [x] = .ok [l] := by
  obtain ⟨w, g, _⟩ := C73_valid_calls_succeed hm hi hA (by omega) hn hb hp (ops ++ more) hv hlen
  refine ⟨w, g, ?_⟩
  have hex : ∃ d, w.discriminators.find l = some d := by
    rcases (wrun_find g.start _ g.ran).2.2.2 l with ⟨_, q⟩ | ⟨d, _, _, _, _, q, _⟩
    · cases hm' : more.getLast? with
      | none => rw [List.getLast?_eq_none_iff] at hm'; rw [hm'] at hmore; simp at hmore
      | some last =>
        obtain ⟨pre, hpre⟩ := List.getLast?_eq_some_iff.mp hm'
        obtain ⟨env, y, rfl, _⟩ := repeats_snoc (hr last (by rw [hpre]; simp))
        rw [hpre, ← List.append_assoc, opsOf_snoc_train] at q
        simp at q
    · exact ⟨d, q⟩
  obtain ⟨d, hd⟩ := hex
  have hN := default_rams hm hi g hd
  have hle : n / A ≤ d.mapping.length := by
    rw [hN]
    split
    · exact Nat.div_le_div_right (by omega)
    · exact Nat.le_refl _
  have h2A : 2 ≤ n / A := (Nat.le_div_iff_mul_le (by omega)).mpr (by omega)
  refine C168_teachable (w0 := Wisard.create A o) g hr hmore hlen hx hbl hz hd (by omega) ?_ hc1 ?_
  · intro k d' hk
    rw [default_rams hm hi g hk, hN]
  · have : (n / A : Nat) ≤ d.mapping.length := hle
    show o.confidence ≤ _
    omega

/-- C168 needs bleaching: without it, a class `k` with a greater label that was trained with `x` itself (and has no fewer
RAMs than `l`) keeps `l` from being answered for `x`, however often `x` is trained with `l`. -/
theorem C168_needs_bleaching {w0 w : Wisard} {ops : List WOp} {n : Int} (g : GoodHistory w0 ops w n)
    (t : ∀ o ∈ ops, o.isTrain = true) (hb : w0.opts.bleachingActivated = false) (hz : w0.opts.ignoreZero = false) {x : Image}
    (hx : ValidImage n w0.opts.base x) {k l : Str} (hlt : Str.lt l k = true) {dk : Discriminator}
    (hk : w.discriminators.find k = some dk) (htr : ∃ o ∈ ops, o.label = k ∧ Same x o.img)
    (hrams : ∀ dl, w.discriminators.find l = some dl → dl.mapping.length ≤ dk.mapping.length) :
    ∃ a, w.classify [x] = .ok [a] ∧ a ≠ l := by
  obtain ⟨s, a1, a2, a3, a4⟩ := C106_score_plain g t hb hx
  refine ⟨Bleaching.getBiggestCandidate s, by simp only [Wisard.classify, a1, Except.bind_ok], ?_⟩
  have hfull : s.find k = some (dk.mapping.length : Int) := by
    rw [a4, hk]
    simp only [Option.map_some, Option.some.injEq]
    have : knownBy w0.opts.ignoreZero 1 (trainedWith k ops) x dk.mapping = dk.mapping.length := by
      unfold knownBy
      rw [List.countP_eq_length]
      intro m hm
      obtain ⟨o, ho, hol, hso⟩ := htr
      have hto := t o ho
      cases o with
      | leave i q => cases hto
      | train e i q =>
        obtain rfl : q = k := hol
        refine decide_eq_true ⟨matchCount_pos.mpr ⟨i, ?_, agree_same (g.wired _ _ hk m hm) hx.1 hso⟩, by simp [hz]⟩
        rw [mem_trainedWith]
        clear * - ho
        induction ops with
        | nil => cases ho
        | cons o ops ih =>
          rcases List.mem_cons.mp ho with h | h
          · subst h; simp [trained]
          · cases o with
            | train e' i' q' => exact List.mem_cons_of_mem _ (ih h)
            | leave i' q' => exact ih h
    rw [this]
  have hne : s ≠ [] := by rintro rfl; cases hfull
  obtain ⟨p, p1, p2, p3, p4⟩ := C39_winner s a2 hne a3
  rw [p2]
  intro hp
  have hfl := SMap.find_of_mem a2 (show (p.1, p.2) ∈ s from p1)
  rw [hp, a4] at hfl
  have hkp := p3 _ (SMap.mem_of_find hfull)
  have hpl : p.2 ≤ dk.mapping.length := by
    cases hd : w.discriminators.find l with
    | none => rw [hd] at hfl; cases hfl
    | some dl =>
      rw [hd] at hfl
      simp only [Option.map_some, Option.some.injEq] at hfl
      have h1 : knownBy w0.opts.ignoreZero 1 (trainedWith l ops) x dl.mapping ≤ dl.mapping.length := List.countP_le_length
      have h2 := hrams dl hd
      omega
  simp only at hkp
  rcases p4 _ (SMap.mem_of_find hfull) (by simp only; omega) with q | q
  · simp only at q
    rw [hp] at q
    rw [q, Str.lt_irrefl] at hlt
    cases hlt
  · simp only at q
    rw [hp] at q
    rw [Str.lt_asymm hlt] at q
    cases q

/-! ## The hypotheses are met -/

/-- Trained once as "b". -/
def teachOps : List WOp := [.train ⟨Rnd.id, true⟩ (.vec [1, 0, 1, 1]) b!"b"]

/-- Trained twice as "a". -/
def teachMore : List WOp :=
  [.train ⟨Rnd.id, true⟩ (.vec [1, 0, 1, 1]) b!"a", .train ⟨Rnd.id, false⟩ (.vec [1, 0, 1, 1]) b!"a"]

theorem teach_repeats : Repeats (.vec [1, 0, 1, 1]) b!"a" teachMore := by
  intro o ho
  simp only [teachMore, List.mem_cons, List.not_mem_nil, or_false] at ho
  rcases ho with rfl | rfl <;> exact ⟨rfl, ⟨rfl, fun _ _ => rfl⟩, rfl⟩

theorem teach_valid : ∀ op ∈ teachOps ++ teachMore, ValidImage 4 2 op.img := by
  intro o ho
  simp only [teachOps, teachMore, List.cons_append, List.nil_append, List.mem_cons, List.not_mem_nil, or_false] at ho
  rcases ho with rfl | rfl | rfl <;> exact example_valid.1

/-- With bleaching the image is taught; one more training keeps the answer (C167). -/
example : ∃ w w', GoodHistory (Wisard.create 2 {}) (teachOps ++ teachMore) w 4 ∧ w.classify [.vec [1, 0, 1, 1]] = .ok [b!"a"] ∧
    GoodHistory (Wisard.create 2 {}) ((teachOps ++ teachMore) ++ teachMore) w' 4 ∧ w'.classify [.vec [1, 0, 1, 1]] = .ok [b!"a"] := by
  obtain ⟨w, g, h⟩ := C168_default_wiring (A := 2) (n := 4) (o := {}) rfl rfl (by omega) (by omega) (by omega) (by decide) (by decide) rfl rfl
    (by decide) (by decide) teachOps teachMore teach_valid (.vec [1, 0, 1, 1]) b!"a" example_valid.1 teach_repeats (by decide) (by decide)
  obtain ⟨w', g', _⟩ := C73_valid_calls_succeed (A := 2) (n := 4) (o := {}) rfl rfl (by omega) (by omega) (by omega) (by decide) (by decide)
    ((teachOps ++ teachMore) ++ teachMore) (fun o ho => by
      rcases List.mem_append.mp ho with q | q
      · exact teach_valid o q
      · exact teach_valid o (List.mem_append_right _ q)) (by decide)
  exact ⟨w, w', g, h, g', C167_reinforcement g g' teach_repeats example_valid.1 (by decide) h⟩

/-- Without bleaching it is not. -/
example : ∃ w a, GoodHistory (Wisard.create 2 { bleachingActivated := false }) (teachOps ++ teachMore) w 4 ∧
    w.classify [.vec [1, 0, 1, 1]] = .ok [a] ∧ a ≠ b!"a" := by
  obtain ⟨w, g, _⟩ := C73_valid_calls_succeed (A := 2) (n := 4) (o := { bleachingActivated := false }) rfl rfl (by omega) (by omega)
    (by omega) (show (2 : Int) ≤ 2 by decide) (show (2 : Int) ^ 2 < 2 ^ 63 by decide) (teachOps ++ teachMore) teach_valid (by decide)
  have hk : ∃ d, w.discriminators.find b!"b" = some d := by
    cases h : w.discriminators.find b!"b" with
    | some d => exact ⟨d, rfl⟩
    | none => exact absurd ((g.class_iff (by decide) b!"b").mp h) (by decide)
  obtain ⟨dk, hk⟩ := hk
  obtain ⟨a, h1, h2⟩ := C168_needs_bleaching g (by decide) rfl rfl (x := .vec [1, 0, 1, 1]) example_valid.1 (k := b!"b") (l := b!"a")
    (by decide) hk ⟨.train ⟨Rnd.id, true⟩ (.vec [1, 0, 1, 1]) b!"b", by simp [teachOps], rfl, ⟨rfl, fun _ _ => rfl⟩⟩
    (fun dl hl => by rw [default_rams rfl rfl g hl, default_rams rfl rfl g hk])
  exact ⟨w, a, g, h1, h2⟩

end Wis
