import Verif.Lemmas.WisardState
import Verif.Props.Bleaching
/-!
# Properties C44–C51, C73, C74: Wisard

`Wisard.create A o` is a new model. `GoodHistory w0 ops w n` (Spec/Wisard) says that the calls `ops` on the
new model `w0` succeeded and gave `w`, with valid images of length `n`. `w.classify1 x` is the table of
scores of one image, `w.classify xs` the list of labels returned by `classify`.
-/

namespace Wis
open Spec

/-! ## C73: valid calls succeed -/

/-- C73: with default wiring, admissible address size and base, every sequence of `train` and
`leaveOneOut` calls with valid images succeeds (for every outcome of the random choices), and then so
does every classification of valid images. -/
theorem C73_valid_calls_succeed {A n : Nat} {o : WisardOpts} (hm : o.mapping = []) (hi : o.indexes = [])
    (hA : 2 ≤ A) (hAn : A ≤ n) (hn : n + A ≤ 2147483647) (hb : 2 ≤ o.base) (hp : o.base ^ A < 2 ^ 63)
    (ops : List WOp) (hv : ∀ op ∈ ops, ValidImage n o.base op.img) (hlen : ops.length ≤ 2147483645) :
    ∃ w, GoodHistory (Wisard.create A o) ops w n ∧
      ∀ xs : List Image, (∀ x ∈ xs, ValidImage n o.base x) → ∃ ls, w.classify xs = .ok ls := by
  obtain ⟨w, g⟩ := default_good hm hi hA hAn hn hb hp ops hv (by omega)
  refine ⟨w, g, ?_⟩
  intro xs hxs
  induction xs with
  | nil => exact ⟨[], rfl⟩
  | cons x xs ih =>
    obtain ⟨ls, h1⟩ := ih (fun y hy => hxs y (List.mem_cons_of_mem _ hy))
    have hv := g.allvotes (hxs x (by simp))
    obtain ⟨s, b, _, _, _, h2⟩ := C37_terminates
      (w.discriminators.map (fun e => (e.1, specVotes (Wisard.create A o) ops x e.1 e.2.mapping)))
      w.opts.bleachingActivated w.opts.confidence 2147483645 (by omega) (by
        intro e he v hv
        obtain ⟨e', _, rfl⟩ := List.mem_map.mp he
        simp only [specVotes, List.mem_map] at hv
        obtain ⟨m, _, rfl⟩ := hv
        split
        · omega
        · have h3 := (net_bound ((matching m x (opsOf e'.1 ops)).dropWhile (fun o => !o.isTrain))).2
          have h4 := (List.dropWhile_sublist (l := matching m x (opsOf e'.1 ops)) (fun o => !o.isTrain)).length_le
          have h5 : (matching m x (opsOf e'.1 ops)).length ≤ (opsOf e'.1 ops).length := List.length_filter_le _ _
          have h6 := opsOf_length e'.1 ops
          unfold vote
          omega) (by omega)
    refine ⟨Bleaching.getBiggestCandidate s :: ls, ?_⟩
    · simp only [Wisard.classify, Wisard.classify1, hv, Except.bind_ok, h2, h1]

example : ∃ w, GoodHistory (Wisard.create 2 {}) [.train ⟨Rnd.id, true⟩ (.vec [1, 0, 1, 1]) b!"a",
    .leave [1, 0, 1, 1] b!"a", .train ⟨Rnd.id, true⟩ (.vec [0, 0, 1, 0]) b!"b"] w 4 := by
  obtain ⟨w, g, _⟩ := C73_valid_calls_succeed (A := 2) (n := 4) (o := {}) rfl rfl (by omega) (by omega) (by omega)
    (by decide) (by decide) [.train ⟨Rnd.id, true⟩ (.vec [1, 0, 1, 1]) b!"a",
    .leave [1, 0, 1, 1] b!"a", .train ⟨Rnd.id, true⟩ (.vec [0, 0, 1, 0]) b!"b"]
    (by intro op hop
        simp only [List.mem_cons, List.not_mem_nil, or_false] at hop
        rcases hop with rfl | rfl | rfl
        · exact example_valid.1
        · exact example_valid.1
        · exact example_valid.2) (by simp)
  exact ⟨w, g⟩

/-! ## C44 -/

/-- C44: if `img` was trained with label `l` (any images, any labels before and after, nothing untrained,
no `ignoreZero`), then in any vote table computed for `img` all votes of `l` are at least 1. So without
bleaching its score is its number of RAMs, no class scores above its own number of RAMs, and `l` has a
best score if no class has more RAMs than `l`. -/
theorem C44_trained_image_fully_active (w0 w : Wisard) (h0 : w0.discriminators = []) (hz : w0.opts.ignoreZero = false)
    (ops : List WOp) (ht : ∀ o ∈ ops, o.isTrain = true) (hr : wrun w0 ops = (w, .ok ()))
    (env : Env) (img : Image) (l : Str) (hmem : .train env img l ∈ ops) :
    ∃ d, w.discriminators.find l = some d ∧
      (∃ vs, d.classify img = .ok vs ∧ vs.length = d.getNumberOfRAMS ∧ ∀ v ∈ vs, 1 ≤ v) ∧
      (w.opts.bleachingActivated = false → ∀ s, w.classify1 img = .ok s →
        s.find l = some (d.getNumberOfRAMS : Int) ∧
        (∀ l' d' sc, w.discriminators.find l' = some d' → s.find l' = some sc → sc ≤ d'.getNumberOfRAMS) ∧
        ((∀ l' d', w.discriminators.find l' = some d' → d'.getNumberOfRAMS ≤ d.getNumberOfRAMS) →
          ∀ e ∈ s, e.2 ≤ (d.getNumberOfRAMS : Int))) := by
  obtain ⟨_, hO, hS, hF⟩ := wrun_find h0 ops hr
  have hin : Op.train img ∈ opsOf l ops := by
    rw [opsOf_trains ht l]
    apply List.mem_map.mpr
    refine ⟨img, List.mem_map.mpr ⟨(img, l), List.mem_filter.mpr ⟨?_, by simp⟩, rfl⟩, rfl⟩
    clear hr hF ht
    induction ops with
    | nil => simp at hmem
    | cons o ops ih =>
      rcases List.mem_cons.mp hmem with h | h
      · rw [← h]; simp [trained]
      · cases o with
        | train e i k => simp only [trained]; exact List.mem_cons_of_mem _ (ih h)
        | leave i k => simp only [trained]; exact ih h
  rcases hF l with ⟨_, h⟩ | ⟨d, d0, rnd, img0, rest, h1, h2, h3, h4⟩
  · rw [h] at hin; cases hin
  · have hf := newDiscriminator_fresh h3
    have hall : ∀ o ∈ opsOf l ops, o.isTrain = true := by
      rw [opsOf_trains ht l]
      intro o ho
      obtain ⟨i, _, rfl⟩ := List.mem_map.mp ho
      rfl
    obtain ⟨p1, p2⟩ := run_trains_state (opsOf l ops) (fun r hr k c hc => by
      rw [(hf.rams r hr).1] at hc; simp [RamT.find] at hc) hall h4
    obtain ⟨p3, p4⟩ := p2 img hin
    have hiz : ∀ r ∈ d.rams, r.ignoreZero = false := by
      intro r hr
      have hle := run_le (opsOf l ops) d0
      rw [h4] at hle
      obtain ⟨r0, hr0, hle⟩ := forall₂_mem_right hle.2 hr
      rw [hle.iz, (hf.rams r0 hr0).2.2.1, hz]
    obtain ⟨vs, v1, v2, v3⟩ := votes_pos d.rams p3 p1 hiz
    have hcl : d.classify img = .ok vs := by
      unfold Discriminator.classify Discriminator.checkEntrySize
      rw [if_neg (by rw [p4]; simp), Except.bind_ok]
      exact v1
    refine ⟨d, h1, ⟨vs, hcl, v2, v3⟩, ?_⟩
    intro hbl s hs
    unfold Wisard.classify1 at hs
    obtain ⟨votes, hv, hs⟩ := bind_eq_ok hs
    rw [hbl, C38_without_bleaching] at hs
    simp only [Except.ok.injEq] at hs
    subst hs
    obtain ⟨hk, hfind⟩ := allvotes_ok hv
    have hfa : ∀ k, SMap.find (activeAll 1 votes) k = (SMap.find votes k).map (fun v => (active 1 v : Int)) :=
      fun k => SMap.find_map votes (fun v => (active 1 v : Int)) k
    have hcap : ∀ l' d' sc, w.discriminators.find l' = some d' → SMap.find (activeAll 1 votes) l' = some sc →
        sc ≤ d'.getNumberOfRAMS := by
      intro l' d' sc hd hsc
      rcases hfind l' with ⟨_, hn⟩ | ⟨d'', vs', e1, e2, e3⟩
      · rw [hn] at hd; cases hd
      · rw [hd] at e1
        obtain rfl : d' = d'' := by simpa using e1
        rw [hfa, e2] at hsc
        simp only [Option.map_some, Option.some.injEq] at hsc
        have := classify_length e3
        have : active 1 vs' ≤ vs'.length := List.countP_le_length
        unfold Discriminator.getNumberOfRAMS
        omega
    refine ⟨?_, hcap, ?_⟩
    · rcases hfind l with ⟨_, hn⟩ | ⟨d', vs', e1, e2, e3⟩
      · rw [hn] at h1; cases h1
      · rw [h1] at e1
        obtain rfl : d = d' := by simpa using e1
        rw [hcl] at e3
        obtain rfl : vs = vs' := by simpa using e3
        rw [hfa, e2]
        simp only [Option.map_some, Option.some.injEq, Discriminator.getNumberOfRAMS, ← v2, active]
        have : vs.countP (fun v => decide (1 ≤ v)) = vs.length :=
          List.countP_eq_length.mpr (fun v hv => by simpa using v3 v hv)
        omega
    · intro hmax e he
      have hsa : SMap.Sorted (activeAll 1 votes) := Bleaching.activeAll_sorted (sorted_of_keys hS hk) 1
      have hfe := SMap.find_of_mem hsa he
      have hke : e.1 ∈ SMap.keys w.discriminators := by
        rw [← hk, ← Bleaching.activeAll_keys 1]
        exact List.mem_map.mpr ⟨e, he, rfl⟩
      obtain ⟨d', hd'⟩ := SMap.mem_keys_iff.mp hke
      have := hcap e.1 d' e.2 hd' hfe
      have := hmax e.1 d' hd'
      omega

example : ∃ w, wrun (Wisard.create 2 { bleachingActivated := false }) [.train ⟨Rnd.id, true⟩ (.vec [1, 0, 1, 1]) b!"a",
    .train ⟨Rnd.id, true⟩ (.vec [0, 0, 1, 0]) b!"b"] = (w, .ok ()) ∧
    w.classify1 (.vec [1, 0, 1, 1]) = .ok [(b!"a", 2), (b!"b", 0)] :=
  ⟨_, rfl, by rw [Wisard.classify1]; exact C38_without_bleaching [(b!"a", [1, 1]), (b!"b", [0, 0])] false 1⟩

/-! ## C45 -/

/-- C45: no call with label `l`, successful or not, changes the discriminator of another label; so votes,
mental image and number of trainings of other labels are untouched. -/
theorem C45_labels_isolated (w : Wisard) (o : WOp) (l' : Str) (h : l' ≠ o.label) :
    (wstep w o).1.discriminators.find l' = w.discriminators.find l' := (wstep_other w o).2.2.1 l' h

/-- C45: after any valid history the vote table is determined class by class: the classes are the labels
trained, and the votes of each are counted over the history of that label alone. -/
theorem C45_votes_of_own_history {w0 w : Wisard} {ops : List WOp} {n : Int} (g : GoodHistory w0 ops w n)
    {x : Image} (hx : ValidImage n w0.opts.base x) :
    Wisard.allvotes x w.discriminators =
      .ok (w.discriminators.map (fun e => (e.1, specVotes w0 ops x e.1 e.2.mapping))) ∧
    ∀ l, l ∈ w.discriminators.keys ↔ ∃ o ∈ ops, o.isTrain = true ∧ o.label = l := by
  refine ⟨g.allvotes hx, ?_⟩
  intro l
  obtain ⟨_, _, _, hF⟩ := wrun_find g.start ops g.ran
  have dw : ∀ os : List Op, os.dropWhile (fun o => !o.isTrain) = [] ↔ ∀ o ∈ os, (!o.isTrain) = true := by
    intro os
    induction os with
    | nil => simp
    | cons o os ih =>
      rw [List.dropWhile_cons]
      cases hh : !o.isTrain
      · simp only [Bool.false_eq_true, if_false, List.cons_ne_nil, false_iff]
        intro h; have := h o (by simp); rw [hh] at this; cases this
      · simp only [if_true, ih]
        constructor
        · intro h y hy
          rcases List.mem_cons.mp hy with e | e
          · rw [e]; exact hh
          · exact h y e
        · intro h y hy; exact h y (List.mem_cons_of_mem _ hy)
  have hemp : opsOf l ops = [] ↔ ¬ ∃ o ∈ ops, o.isTrain = true ∧ o.label = l := by
    unfold opsOf
    rw [dw]
    constructor
    · rintro h ⟨o, ho, h1, h2⟩
      cases o with
      | leave i k => simp [WOp.isTrain] at h1
      | train e i k =>
        simp only [WOp.label] at h2
        have := h (.train i) (List.mem_filterMap.mpr ⟨_, ho, by simp [WOp.on, h2]⟩)
        simp [Op.isTrain] at this
    · intro h o ho
      obtain ⟨wo, h1, h2⟩ := List.mem_filterMap.mp ho
      cases wo with
      | train e i k =>
        simp only [WOp.on] at h2
        split at h2
        · rename_i hk
          exact absurd ⟨_, h1, rfl, hk⟩ h
        · cases h2
      | leave i k =>
        simp only [WOp.on] at h2
        split at h2
        · simp only [Option.some.injEq] at h2; subst h2; rfl
        · cases h2
  rcases hF l with ⟨h1, h2⟩ | ⟨d, d0, rnd, img, rest, h1, h2, _⟩
  · rw [SMap.mem_keys_iff, h1]
    have := hemp.mp h2
    simp only [reduceCtorEq, exists_false, false_iff]
    exact this
  · rw [SMap.mem_keys_iff, h1]
    have : ¬ opsOf l ops = [] := by rw [h2]; simp
    rw [hemp, Classical.not_not] at this
    simp only [Option.some.injEq, exists_eq', true_iff]
    exact this

/-! ## C46 -/

/-- C46: two models that were trained with the same labelled images in any two orders, and whose classes
have the same wiring, give the same scores and hence the same labels for all valid images. -/
theorem C46_order_irrelevant {w0 w1 w2 : Wisard} {ops1 ops2 : List WOp} {n : Int}
    (g1 : GoodHistory w0 ops1 w1 n) (g2 : GoodHistory w0 ops2 w2 n)
    (t1 : ∀ o ∈ ops1, o.isTrain = true) (t2 : ∀ o ∈ ops2, o.isTrain = true)
    (hp : (trained ops1).Perm (trained ops2))
    (hwire : ∀ l d1 d2, w1.discriminators.find l = some d1 → w2.discriminators.find l = some d2 →
      d1.mapping = d2.mapping) :
    (∀ x, ValidImage n w0.opts.base x → w1.classify1 x = w2.classify1 x) ∧
    ∀ xs : List Image, (∀ x ∈ xs, ValidImage n w0.opts.base x) → w1.classify xs = w2.classify xs := by
  obtain ⟨_, hO1, hS1, hF1⟩ := wrun_find g1.start ops1 g1.ran
  obtain ⟨_, hO2, hS2, hF2⟩ := wrun_find g2.start ops2 g2.ran
  have hpl : ∀ l, (((trained ops1).filter (fun e => decide (e.2 = l))).map (·.1)).Perm
      (((trained ops2).filter (fun e => decide (e.2 = l))).map (·.1)) := fun l => (hp.filter _).map _
  have key : ∀ x, ValidImage n w0.opts.base x → w1.classify1 x = w2.classify1 x := by
    intro x hx
    unfold Wisard.classify1
    rw [g1.allvotes hx, g2.allvotes hx, hO1, hO2]
    simp only [Except.bind_ok]
    congr 1
    apply SMap.ext (SMap.sorted_map hS1 _) (SMap.sorted_map hS2 _)
    intro l
    have hfm : ∀ (ops : List WOp) (m : SMap Discriminator),
        SMap.find (m.map (fun e => (e.1, specVotes w0 ops x e.1 e.2.mapping))) l =
          (m.find l).map (fun d => specVotes w0 ops x l d.mapping) := by
      intro ops m
      induction m with
      | nil => rfl
      | cons e m ih =>
        obtain ⟨k, d⟩ := e
        simp only [List.map_cons, SMap.find]
        by_cases hk : k = l
        · simp [hk]
        · simp only [if_neg hk]; exact ih
    rw [hfm, hfm]
    rcases hF1 l with ⟨a1, a2⟩ | ⟨d1, _, _, _, _, a1, a2, _⟩
    · rcases hF2 l with ⟨b1, b2⟩ | ⟨d2, _, _, _, _, b1, b2, _⟩
      · rw [a1, b1]; rfl
      · rw [opsOf_trains t1] at a2
        rw [opsOf_trains t2] at b2
        have := hpl l
        rw [List.map_eq_nil_iff.mp a2] at this
        rw [List.nil_perm.mp this] at b2
        cases b2
    · rcases hF2 l with ⟨b1, b2⟩ | ⟨d2, _, _, _, _, b1, b2, _⟩
      · rw [opsOf_trains t1] at a2
        rw [opsOf_trains t2] at b2
        have := hpl l
        rw [List.map_eq_nil_iff.mp b2] at this
        rw [List.perm_nil.mp this] at a2
        cases a2
      · rw [a1, b1]
        simp only [Option.map_some, Option.some.injEq, specVotes]
        rw [hwire l d1 d2 a1 b1]
        apply List.map_congr_left
        intro m hm
        have hin := g2.wired l d2 b1 m hm
        have v1 : ∀ i ∈ ((trained ops1).filter (fun e => decide (e.2 = l))).map (·.1), ValidImage n w0.opts.base i := by
          intro i hi
          exact g1.valid_ops l (.train i) (by rw [opsOf_trains t1]; exact List.mem_map.mpr ⟨i, hi, rfl⟩)
        have v2 : ∀ i ∈ ((trained ops2).filter (fun e => decide (e.2 = l))).map (·.1), ValidImage n w0.opts.base i := by
          intro i hi
          exact v1 i ((hpl l).mem_iff.mpr hi)
        rw [opsOf_trains t1, opsOf_trains t2, vote_trains v1 hin, vote_trains v2 hin]
        unfold matchCount
        rw [((hpl l).filter _).length_eq]
  refine ⟨key, ?_⟩
  intro xs hxs
  induction xs with
  | nil => rfl
  | cons x xs ih =>
    simp only [Wisard.classify, key x (hxs x (by simp)), ih (fun y hy => hxs y (List.mem_cons_of_mem _ hy))]

/-- C46 when the wiring of every class is given by the option `mapping`: no further hypothesis. -/
theorem C46_order_irrelevant_mapping {w0 w1 w2 : Wisard} {ops1 ops2 : List WOp} {n : Int}
    (g1 : GoodHistory w0 ops1 w1 n) (g2 : GoodHistory w0 ops2 w2 n)
    (t1 : ∀ o ∈ ops1, o.isTrain = true) (t2 : ∀ o ∈ ops2, o.isTrain = true)
    (hp : (trained ops1).Perm (trained ops2))
    (hmap : ∀ o ∈ ops1, o.label ∈ w0.opts.mapping.keys) (xs : List Image)
    (hxs : ∀ x ∈ xs, ValidImage n w0.opts.base x) : w1.classify xs = w2.classify xs := by
  refine (C46_order_irrelevant g1 g2 t1 t2 hp ?_).2 xs hxs
  intro l d1 d2 h1 h2
  obtain ⟨_, _, _, hF1⟩ := wrun_find g1.start ops1 g1.ran
  obtain ⟨_, _, _, hF2⟩ := wrun_find g2.start ops2 g2.ran
  rcases hF1 l with ⟨a1, _⟩ | ⟨d1', e1, _, img, rest, a1, a2, a3, a4⟩
  · rw [a1] at h1; cases h1
  rcases hF2 l with ⟨b1, _⟩ | ⟨d2', e2, _, _, _, b1, b2, b3, b4⟩
  · rw [b1] at h2; cases h2
  rw [h1] at a1; rw [h2] at b1
  obtain rfl : d1 = d1' := by simpa using a1
  obtain rfl : d2 = d2' := by simpa using b1
  obtain ⟨wo, w1m, _, w3⟩ := mem_opsOf (l := l) (ops := ops1) (o := .train img) (by rw [a2]; simp)
  obtain ⟨m, hm⟩ := SMap.mem_keys_iff.mp (hmap wo w1m)
  rw [w3] at hm
  have le1 := run_le (opsOf l ops1) e1
  have le2 := run_le (opsOf l ops2) e2
  rw [a4] at le1
  rw [b4] at le2
  rw [le1.mapping, le2.mapping, newDiscriminator_mapping hm a3, newDiscriminator_mapping hm b3]

example : (trained [.train ⟨Rnd.id, true⟩ (.vec [1, 0, 1, 1]) b!"a", .train ⟨Rnd.id, true⟩ (.vec [0, 0, 1, 0]) b!"b"]).Perm
    (trained [.train ⟨Rnd.id, false⟩ (.vec [0, 0, 1, 0]) b!"b", .train ⟨Rnd.id, true⟩ (.vec [1, 0, 1, 1]) b!"a"]) :=
  List.Perm.swap _ _ _

/-! ## C47 -/

/-- C47: from any state reached by a valid history, `leaveOneOut(x, l)` directly after `train(x, l)` on a
known label succeeds and restores all scores (hence labels) and, if no image was untrained more often
than trained, all mental images. -/
theorem C47_leaveOneOut_undoes_train {w0 w : Wisard} {ops : List WOp} {n : Int} (g : GoodHistory w0 ops w n)
    (hlen : ops.length + 2 ≤ 2147483647) (env : Env) (img : List Int) (hv : ValidImage n w0.opts.base (.vec img))
    (l : Str) (hl : l ∈ w.discriminators.keys) :
    ∃ w1 w2, w.train1 env (.vec img) l = (w1, .ok ()) ∧ w1.leaveOneOut img l = (w2, .ok ()) ∧
      (∀ x, ValidImage n w0.opts.base x → w2.classify1 x = w.classify1 x) ∧
      (Legal (opsOf l ops) → ∀ it, w2.getMentalImages it = w.getMentalImages it) := by
  obtain ⟨d, hd⟩ := SMap.mem_keys_iff.mp hl
  obtain ⟨_, hO, hS, _⟩ := wrun_find g.start ops g.ran
  obtain ⟨d0, f1, f2, f3, _, f5⟩ := g.rep hd
  have hol := opsOf_length l ops
  obtain ⟨d1, t1, r1⟩ := train_rep f1 f3 f5 hv (by omega)
  obtain ⟨d2, t2, r2⟩ := untrain_rep f1 f3 r1 hv (by simp; omega)
  rw [List.append_assoc] at r2
  refine ⟨{ w with discriminators := w.discriminators.set l d1 },
    { w with discriminators := w.discriminators.set l d2 }, ?_, ?_, ?_, ?_⟩
  · simp only [Wisard.train1, hd, Wisard.trainKnown, Option.getD_some, t1]
  · simp only [Wisard.leaveOneOut, SMap.find_set_self, t2, SMap.set_set]
  · intro x hx
    have hcl : d2.classify x = d.classify x := by
      have hv2 : ∀ op ∈ opsOf l ops ++ ([Op.train (.vec img)] ++ [Op.untrain (.vec img)]),
          ValidImage n w0.opts.base op.img := by
        intro op hop
        simp only [List.mem_append, List.mem_cons, List.not_mem_nil, or_false] at hop
        rcases hop with h | h | h
        · exact g.valid_ops l op h
        · subst h; exact hv
        · subst h; exact hv
      rw [classify_rep f1 f3 r2 hv2 hx, classify_rep f1 f3 f5 (g.valid_ops l) hx]
      congr 1
      apply List.map_congr_left
      intro m _
      rw [show opsOf l ops ++ ([Op.train (.vec img)] ++ [Op.untrain (.vec img)]) =
        opsOf l ops ++ [Op.train (.vec img), Op.untrain (.vec img)] by simp, vote_undo]
    obtain ⟨a, b, e1, e2⟩ := set_replace (v' := d2) hS hd
    unfold Wisard.classify1
    simp only
    rw [e2, allvotes_replace a b hcl, ← e1]
  · intro hleg it
    have hme : d2.getMentalImage it = d.getMentalImage it :=
      mental_undo f1 f3 f5 (by simpa using r2) hleg (fun op hop => (g.valid_ops l op hop).1) hv.1 it it
    obtain ⟨a, b, e1, e2⟩ := set_replace (v' := d2) hS hd
    unfold Wisard.getMentalImages
    simp only
    rw [e2, mental_replace a b hme, ← e1]

/-- C47: `leaveOneOut` with an unknown label changes nothing and does not fail. -/
theorem C47_unknown_label_ignored (w : Wisard) (img : List Int) (l : Str) (h : l ∉ w.discriminators.keys) :
    w.leaveOneOut img l = (w, .ok ()) := by
  unfold Wisard.leaveOneOut
  rw [SMap.find_none_iff.mpr h]

/-- C47: `leaveMoreOut` is `leaveOneOut` on each pair, in order; it rejects lists of different lengths
without any change. -/
theorem C47_leaveMoreOut (w : Wisard) (images : List (List Int)) (labels : List Str) :
    (images.length ≠ labels.length → w.leaveMoreOut images labels = (w, .error (.throw .sizesDiffer))) ∧
    (images.length = labels.length →
      w.leaveMoreOut images labels = wrun w ((images.zip labels).map (fun e => .leave e.1 e.2))) := by
  unfold Wisard.leaveMoreOut Wisard.checkInputSizes
  constructor
  · intro h; rw [if_pos h]
  · intro h
    rw [if_neg (by simpa using h)]
    simp only
    have gen : ∀ (es : List (List Int × Str)) (w : Wisard),
        w.leaveLoop es = wrun w (es.map (fun e => .leave e.1 e.2)) := by
      intro es
      induction es with
      | nil => intro w; rfl
      | cons e es ih =>
        intro w
        obtain ⟨i, l⟩ := e
        simp only [Wisard.leaveLoop, List.map_cons, wrun, wstep]
        split <;> simp_all
    exact gen _ _

/-! ## C48 -/

theorem classify1_keys {w : Wisard} {x : Image} {s : Scores} (h : w.classify1 x = .ok s) :
    SMap.keys s = SMap.keys w.discriminators ∧ ∀ e ∈ s, 0 ≤ e.2 := by
  unfold Wisard.classify1 at h
  obtain ⟨votes, hv, h⟩ := bind_eq_ok h
  obtain ⟨b, _, rfl, _⟩ := C38_scores_at_least_threshold _ _ _ _ _ h
  exact ⟨by rw [Bleaching.activeAll_keys, (allvotes_ok hv).1], Bleaching.activeAll_nonneg b votes⟩

/-- C48: `classify` returns one label per image; the i-th label is the one returned for the i-th image
alone, and it is the label of a class of the model (`""` if the model has none). -/
theorem C48_one_known_label_per_image (w : Wisard) (xs : List Image) (ls : List Str) (h : w.classify xs = .ok ls) :
    ls.length = xs.length ∧ ∀ i (hi : i < xs.length) (hi' : i < ls.length),
      w.classify [xs[i]] = .ok [ls[i]] ∧
      (ls[i] ∈ w.discriminators.keys ∨ (w.discriminators = [] ∧ ls[i] = [])) := by
  induction xs generalizing ls with
  | nil =>
    simp only [Wisard.classify, Except.ok.injEq] at h
    subst h
    exact ⟨rfl, by simp⟩
  | cons x xs ih =>
    simp only [Wisard.classify] at h
    obtain ⟨s, h1, h⟩ := bind_eq_ok h
    obtain ⟨ls', h2, h⟩ := bind_eq_ok h
    simp only [Except.ok.injEq] at h
    subst h
    obtain ⟨i1, i2⟩ := ih ls' h2
    refine ⟨by simp [i1], ?_⟩
    intro i hi hi'
    cases i with
    | zero =>
      simp only [List.getElem_cons_zero]
      refine ⟨by simp only [Wisard.classify, h1, Except.bind_ok], ?_⟩
      obtain ⟨k1, k2⟩ := classify1_keys h1
      by_cases hne : s = []
      · right
        subst hne
        refine ⟨?_, rfl⟩
        simpa [SMap.keys] using k1.symm
      · left
        obtain ⟨pre, y, post, e1, _, _, e4⟩ := Bleaching.biggest_spec hne k2
        rw [e4, ← k1, e1]
        simp [SMap.keys]
    | succ i =>
      simp only [List.getElem_cons_succ]
      exact i2 i (by simpa using hi) (by simpa using hi')

/-- C48: the classes of the model are exactly the labels trained. -/
theorem C48_classes_are_trained_labels (w0 w : Wisard) (h0 : w0.discriminators = []) (ops : List WOp)
    (hr : wrun w0 ops = (w, .ok ())) (l : Str) :
    l ∈ w.discriminators.keys → ∃ o ∈ ops, o.isTrain = true ∧ o.label = l := by
  obtain ⟨_, _, _, hF⟩ := wrun_find h0 ops hr
  intro hl
  obtain ⟨d, hd⟩ := SMap.mem_keys_iff.mp hl
  rcases hF l with ⟨h1, _⟩ | ⟨d', d0, rnd, img, rest, h1, h2, _⟩
  · rw [h1] at hd; cases hd
  · have hmem : Op.train img ∈ opsOf l ops := by rw [h2]; simp
    unfold opsOf at hmem
    obtain ⟨wo, w1, w2⟩ := List.mem_filterMap.mp ((List.dropWhile_sublist _).subset hmem)
    refine ⟨wo, w1, ?_⟩
    cases wo with
    | train e i k =>
      simp only [WOp.on] at w2
      split at w2
      · rename_i hk; exact ⟨rfl, hk⟩
      · cases w2
    | leave i k =>
      simp only [WOp.on] at w2
      split at w2
      · cases w2
      · cases w2

/-! ## C42 for a whole model -/

/-- C42: the option `searchBestConfidence` does not influence the labels returned. -/
theorem C42_searchBestConfidence_no_effect_model (w : Wisard) (b : Bool) (xs : List Image) :
    Wisard.classify { w with opts := { w.opts with searchBestConfidence := b } } xs = w.classify xs := by
  induction xs with
  | nil => rfl
  | cons x xs ih =>
    simp only [Wisard.classify] at ih ⊢
    rw [ih]
    have : Wisard.classify1 { w with opts := { w.opts with searchBestConfidence := b } } x = w.classify1 x := by
      unfold Wisard.classify1 Bleaching.make Bleaching.makeWithConfidence
      simp only [ite_self]
    rw [this]

/-! ## C49 -/

/-- C49, proved part: for a non-empty batch and a non-zero address size, different numbers of images and
labels, or a confidence above the number of RAMs that the default wiring has for the first image, make
`train` throw without any change.

Missing: an empty batch (see C50), and the RAMs of classes wired by `mapping` or `indexes` are not counted
(see `C49_mapping_not_counted`). -/
theorem C49_batch_validated_partial (w : Wisard) (env : Nat → Env) (i0 : List Int) (images : List (List Int))
    (labels : List Str) (hA : w.addressSize ≠ 0)
    (h : (i0 :: images).length ≠ labels.length ∨
      ∃ k, calculateNumberOfRams i0.length w.addressSize w.opts.completeAddressing = .ok k ∧ k < w.opts.confidence) :
    ∃ e, w.train env (i0 :: images) labels = (w, .error (.throw e)) := by
  obtain ⟨k, hk⟩ : ∃ k, calculateNumberOfRams i0.length w.addressSize w.opts.completeAddressing = .ok k := by
    unfold calculateNumberOfRams
    rw [if_neg hA]
    simp only
    split <;> exact ⟨_, rfl⟩
  unfold Wisard.train Wisard.trainChecks Wisard.checkConfidence
  simp only [Except.bind_ok, hk]
  by_cases hc : w.opts.confidence > k
  · rw [if_pos hc]; exact ⟨_, rfl⟩
  · rw [if_neg hc]
    rcases h with h | ⟨k', h1, h2⟩
    · simp only [Except.bind_ok, Wisard.checkInputSizes, if_pos h]; exact ⟨_, rfl⟩
    · rw [hk] at h1
      injection h1 with h1
      omega

theorem ceil_div (n : Nat) {A : Nat} (hpos : 0 < A) :
    (n + A - 1) / A = if n % A = 0 then n / A else n / A + 1 := by
  have hdiv := Nat.div_add_mod n A
  have hlt := Nat.mod_lt n hpos
  generalize n / A = q at *
  generalize n % A = r at *
  subst hdiv
  split
  · rename_i h
    subst h
    rw [show A * q + 0 + A - 1 = A * q + (A - 1) by omega, Nat.mul_add_div hpos, Nat.div_eq_of_lt (by omega)]
    rfl
  · rw [show A * q + r + A - 1 = A * q + (r - 1 + A) by omega, Nat.mul_add_div hpos,
      Nat.add_div_right _ hpos, Nat.div_eq_of_lt (by omega)]

/-- C49: the number used by the check is the number of RAMs of every default-wired class for images of
that length. -/
theorem C49_number_of_rams (rnd : Rnd) (A n : Nat) (o : WisardOpts) (l : Str) (hm : o.mapping = []) (hi : o.indexes = [])
    (d : Discriminator) (h : Wisard.newDiscriminator rnd A o l n = .ok d) :
    calculateNumberOfRams n A o.completeAddressing = .ok (d.getNumberOfRAMS : Int) := by
  rw [newDiscriminator_default hm hi] at h
  obtain ⟨_, c2⟩ := C18_default_wiring rnd A n
    { completeAddressing := o.completeAddressing, ignoreZero := o.ignoreZero, base := o.base } rfl rfl
  obtain ⟨c3, _⟩ := c2 d h
  have hA : 2 ≤ (A : Int) := by
    have h' := h
    unfold Discriminator.create at h'
    rw [if_neg (by simp), if_neg (by simp)] at h'
    unfold Discriminator.setRAMShuffle at h'
    obtain ⟨_, ha, _⟩ := bind_eq_ok h'
    exact (checkAddressSize_ok ha).1
  unfold calculateNumberOfRams
  rw [if_neg (by omega), c3]
  simp only
  have hd : (n : Int).tdiv A = ((n / A : Nat) : Int) := by simp [Int.tdiv]
  have hr : (n : Int).tmod A = ((n % A : Nat) : Int) := by simp [Int.tmod]
  rw [hd, hr]
  have hpos : 0 < A := by omega
  cases hca : o.completeAddressing
  · simp
  · simp only [Bool.true_and, if_true]
    rw [ceil_div n hpos]
    by_cases hrem : n % A = 0
    · rw [if_neg (by simp [hrem]), if_pos hrem]
    · rw [if_pos (by simp; omega), if_neg hrem]; rfl

/-- C49 does not hold with the option `mapping`: a confidence above the number of RAMs of the (only) class
is accepted. -/
theorem C49_mapping_not_counted : ∃ w w' d, w = Wisard.create 2 { mapping := [(b!"a", [[0, 1]])], confidence := 2 } ∧
    w.train (fun _ => ⟨Rnd.id, true⟩) [[1, 0, 1, 1]] [b!"a"] = (w', .ok ()) ∧
    w'.discriminators.find b!"a" = some d ∧ d.getNumberOfRAMS = 1 :=
  ⟨_, _, _, rfl, rfl, rfl, rfl⟩

example : ∃ k, calculateNumberOfRams 4 2 true = .ok k ∧ k < 3 := ⟨2, rfl, by omega⟩

/-! ## C50 -/

/-- C50, proved part: `classify` of the C++ class on an empty list returns an empty list. Missing: `train`
on an empty batch (next theorem), and `classify` from Python (`C50_pyClassify_empty_ub`). -/
theorem C50_classify_empty_partial (w : Wisard) : w.classify [] = .ok [] := rfl

/-- C50 does not hold for training: `train` on an empty batch or data set reads outside a vector, for every
model. -/
theorem C50_train_empty_ub (w : Wisard) (env : Nat → Env) (labels : List Str) :
    w.train env [] labels = (w, .error (.ub .outOfBounds)) ∧
    w.trainDataSet env {} = (w, .error (.ub .outOfBounds)) := ⟨rfl, rfl⟩

/-! ## C51 -/

/-- C51: a batch is trained in order. Success means that every single training succeeded; failure means
that the images before the failing one were trained, and only the class of the failing image's label may
differ from that state. -/
theorem C51_failing_batch_keeps_prefix (env : Nat → Env) (es : List (Image × Str)) : ∀ (w w' : Wisard) (i : Nat) (r : Res Unit),
    w.trainLoop env es i = (w', r) →
    (r = .ok () → wrun w (es.zipIdx i |>.map (fun e => .train (env e.2) e.1.1 e.1.2)) = (w', .ok ())) ∧
    (∀ e, r = .error e → ∃ pre img l post w1, es = pre ++ (img, l) :: post ∧
      w.trainLoop env pre i = (w1, .ok ()) ∧ w1.train1 (env (i + pre.length)) img l = (w', .error e) ∧
      ∀ l', l' ≠ l → w'.discriminators.find l' = w1.discriminators.find l') := by
  induction es with
  | nil =>
    intro w w' i r h
    simp only [Wisard.trainLoop, Prod.mk.injEq] at h
    obtain ⟨rfl, rfl⟩ := h
    exact ⟨fun _ => rfl, fun e he => by cases he⟩
  | cons e es ih =>
    obtain ⟨img, l⟩ := e
    intro w w' i r h
    simp only [Wisard.trainLoop] at h
    cases ht : w.train1 (env i) img l with
    | mk w1 r1 =>
      rw [ht] at h
      cases r1 with
      | error e1 =>
        simp only [Prod.mk.injEq] at h
        obtain ⟨rfl, rfl⟩ := h
        refine ⟨fun hh => (by cases hh), fun e he => ?_⟩
        injection he with he
        subst he
        refine ⟨[], img, l, es, w, rfl, rfl, by simpa using ht, ?_⟩
        have := (train1_other w (env i) img l).2.2.1
        rw [ht] at this
        exact this
      | ok u =>
        simp only at h
        obtain ⟨i1, i2⟩ := ih w1 w' (i + 1) r h
        constructor
        · intro hr
          have := i1 hr
          simp only [List.zipIdx_cons, List.map_cons, wrun, wstep, ht]
          exact this
        · intro e he
          obtain ⟨pre, img', l', post, w2, h1, h2, h3, h4⟩ := i2 e he
          refine ⟨(img, l) :: pre, img', l', post, w2, by rw [h1]; rfl, ?_, ?_, h4⟩
          · simp only [Wisard.trainLoop, ht, h2]
          · rw [List.length_cons, show i + (pre.length + 1) = i + 1 + pre.length by omega]; exact h3

example : ∃ w', (Wisard.create 2 {}).train (fun _ => ⟨Rnd.id, true⟩) [[1, 0, 1, 1], [1, 0, 5, 1]] [b!"a", b!"b"] =
    (w', .error (.throw .valueTooBig)) ∧ w'.discriminators.keys = [b!"a", b!"b"] := ⟨_, rfl, rfl⟩

/-! ## C74: training on a data set -/

/-- C74: training on a non-empty data set whose entries all have labels is training its (image, label)
pairs in order, after the check of the confidence; there is no other check. If an entry has no label the
call throws `std::out_of_range` after having trained the entries before it. -/
theorem C74_train_dataset (w : Wisard) (env : Nat → Env) (ds : DataSet) (b0 : BinInput) (bs : List BinInput)
    (hd : ds.data = b0 :: bs) (k : Int)
    (hk : calculateNumberOfRams b0.size w.addressSize w.opts.completeAddressing = .ok k) (hc : w.opts.confidence ≤ k) :
    (∀ labels : List Str, labels.length = ds.size → (∀ i (hi : i < labels.length), ds.getLabel i = .ok labels[i]) →
      w.trainDataSet env ds = w.trainLoop env ((ds.data.map Image.bin).zip labels) 0) ∧
    (∀ (labels : List Str) (w1 : Wisard), labels.length < ds.size →
      (∀ i (hi : i < labels.length), ds.getLabel i = .ok labels[i]) →
      ds.getLabel labels.length = .error (.throw .stdOutOfRange) →
      w.trainLoop env (((ds.data.take labels.length).map Image.bin).zip labels) 0 = (w1, .ok ()) →
      w.trainDataSet env ds = (w1, .error (.throw .stdOutOfRange))) := by
  have hstart : w.trainDataSet env ds = w.trainDataLoop env ds ds.data 0 := by
    have hg : ds.get 0 = .ok b0 := by simp [DataSet.get, hd]
    unfold Wisard.trainDataSet
    simp only [hg, Except.bind_ok, hk, Wisard.checkConfidence]
    rw [if_neg (by omega)]
  have gen1 : ∀ (bs : List BinInput) (i : Nat) (labels : List Str) (w : Wisard), labels.length = bs.length →
      (∀ j (hj : j < labels.length), ds.getLabel (i + j) = .ok labels[j]) →
      w.trainDataLoop env ds bs i = w.trainLoop env ((bs.map Image.bin).zip labels) i := by
    intro bs
    induction bs with
    | nil => intro i labels w _ _; cases labels <;> rfl
    | cons b bs ih =>
      intro i labels w hl hlab
      cases labels with
      | nil => simp at hl
      | cons l labels =>
        have h0 := hlab 0 (by simp)
        simp only [Nat.add_zero, List.getElem_cons_zero] at h0
        simp only [Wisard.trainDataLoop, h0, List.map_cons, List.zip_cons_cons, Wisard.trainLoop]
        cases ht : w.train1 (env i) (.bin b) l with
        | mk w1 r =>
          cases r with
          | error e => rfl
          | ok u =>
            simp only
            apply ih (i + 1) labels w1 (by simpa using hl)
            intro j hj
            have := hlab (j + 1) (by simpa using hj)
            simp only [List.getElem_cons_succ] at this
            rw [show i + 1 + j = i + (j + 1) by omega]; exact this
  have gen2 : ∀ (bs : List BinInput) (i : Nat) (labels : List Str) (w w1 : Wisard), labels.length < bs.length →
      (∀ j (hj : j < labels.length), ds.getLabel (i + j) = .ok labels[j]) →
      ds.getLabel (i + labels.length) = .error (.throw .stdOutOfRange) →
      w.trainLoop env (((bs.take labels.length).map Image.bin).zip labels) i = (w1, .ok ()) →
      w.trainDataLoop env ds bs i = (w1, .error (.throw .stdOutOfRange)) := by
    intro bs
    induction bs with
    | nil => intro i labels w w1 h; simp at h
    | cons b bs ih =>
      intro i labels w w1 hl hlab hend hrun
      cases labels with
      | nil =>
        simp only [List.length_nil, Nat.add_zero] at hend
        simp only [List.length_nil, List.take_zero, List.map_nil, List.zip_nil_left, Wisard.trainLoop,
          Prod.mk.injEq, and_true] at hrun
        subst hrun
        simp only [Wisard.trainDataLoop, hend]
      | cons l labels =>
        have h0 := hlab 0 (by simp)
        simp only [Nat.add_zero, List.getElem_cons_zero] at h0
        simp only [List.length_cons, List.take_succ_cons, List.map_cons, List.zip_cons_cons, Wisard.trainLoop] at hrun
        simp only [Wisard.trainDataLoop, h0]
        cases ht : w.train1 (env i) (.bin b) l with
        | mk w2 r =>
          rw [ht] at hrun
          cases r with
          | error e => simp at hrun
          | ok u =>
            simp only at hrun ⊢
            apply ih (i + 1) labels w2 w1 (by simpa using hl) ?_ ?_ hrun
            · intro j hj
              have := hlab (j + 1) (by simpa using hj)
              simp only [List.getElem_cons_succ] at this
              rw [show i + 1 + j = i + (j + 1) by omega]; exact this
            · rw [List.length_cons] at hend
              rw [show i + 1 + labels.length = i + (labels.length + 1) by omega]; exact hend
  rw [hstart]
  constructor
  · intro labels hl hlab
    exact gen1 ds.data 0 labels w hl (fun j hj => by rw [Nat.zero_add]; exact hlab j hj)
  · intro labels w1 hl hlab hend hrun
    exact gen2 ds.data 0 labels w w1 hl (fun j hj => by rw [Nat.zero_add]; exact hlab j hj)
      (by rw [Nat.zero_add]; exact hend) hrun

end Wis
