import Verif.Props.Wisard
import Verif.Lemmas.WisardJson
/-!
# Properties C106–C110: what the scores of a Wisard mean

C106 gives the score of every class as a number counted over the training images only: the number of RAMs that have
seen the pattern of the image at least `b` times. C107–C110 are consequences for whole training sets: without bleaching
only the *set* of training images matters (C107), more training never lowers a knownBy (C108), a new class can take over
an image but never makes one old class win against another (C109); with or without bleaching, repeating the whole
training set changes nothing (C110).
-/

namespace Wis.Spec

/-- The images trained with label `l`, in order. -/
def trainedWith (l : Str) (ops : List WOp) : List Image :=
  ((trained ops).filter (fun e => decide (e.2 = l))).map (·.1)

/-- A RAM connected to the positions `m` of a class trained with `imgs` knows the pattern of `x`: at least `b` of the
images agree with `x` on `m` (and the pattern is not the all-zero one if that is to be ignored). -/
def SeenOften (ignoreZero : Bool) (b : Nat) (imgs : List Image) (x : Image) (m : List Int) : Prop :=
  b ≤ matchCount m imgs x ∧ ¬ (ignoreZero = true ∧ ZeroOn m x)

instance (z : Bool) (b : Nat) (imgs : List Image) (x : Image) (m : List Int) : Decidable (SeenOften z b imgs x m) := by
  unfold SeenOften; exact inferInstance

/-- Number of RAMs of the wiring that know the pattern of `x`. -/
def knownBy (ignoreZero : Bool) (b : Nat) (imgs : List Image) (x : Image) (wiring : List (List Int)) : Nat :=
  wiring.countP (fun m => decide (SeenOften ignoreZero b imgs x m))

end Wis.Spec

namespace Wis
open Spec

/-- Votes counted over the images. -/
def imgVotes (z : Bool) (imgs : List Image) (x : Image) (wiring : List (List Int)) : List Int :=
  wiring.map (fun m => if z = true ∧ ZeroOn m x then 0 else (matchCount m imgs x : Int))

theorem active_imgVotes (z : Bool) (imgs : List Image) (x : Image) (wiring : List (List Int)) (b : Nat) (hb : 1 ≤ b) :
    active b (imgVotes z imgs x wiring) = knownBy z b imgs x wiring := by
  unfold active imgVotes knownBy
  rw [List.countP_map]
  apply List.countP_congr
  intro m _
  rw [Function.comp_apply]
  by_cases h : z = true ∧ ZeroOn m x
  · rw [if_pos h]
    constructor
    · intro h'; have h' := of_decide_eq_true h'; omega
    · intro h'; have h' := of_decide_eq_true h'; exact absurd h h'.2
  · rw [if_neg h]
    constructor
    · intro h'; have h' := of_decide_eq_true h'; exact decide_eq_true ⟨by omega, h⟩
    · intro h'; have h' := (of_decide_eq_true h').1; exact decide_eq_true (by omega)

theorem find_map_key {V W : Type} (m : SMap V) (f : Str → V → W) (k : Str) :
    SMap.find (m.map (fun e => (e.1, f e.1 e.2))) k = (m.find k).map (f k) := by
  induction m with
  | nil => rfl
  | cons e m ih =>
    obtain ⟨l, d⟩ := e
    simp only [List.map_cons, SMap.find]
    by_cases hk : l = k
    · simp [hk]
    · simp only [if_neg hk]; exact ih

theorem mem_trainedWith {l : Str} {ops : List WOp} {i : Image} : i ∈ trainedWith l ops ↔ (i, l) ∈ trained ops := by
  unfold trainedWith
  rw [List.mem_map]
  constructor
  · rintro ⟨e, he, rfl⟩
    obtain ⟨h1, h2⟩ := List.mem_filter.mp he
    rw [decide_eq_true_eq] at h2
    rw [← h2]; exact h1
  · intro h
    exact ⟨(i, l), List.mem_filter.mpr ⟨h, by simp⟩, rfl⟩

theorem Spec.GoodHistory.images_valid {w0 w : Wisard} {ops : List WOp} {n : Int} (g : GoodHistory w0 ops w n)
    (t : ∀ o ∈ ops, o.isTrain = true) (l : Str) : ∀ i ∈ trainedWith l ops, ValidImage n w0.opts.base i := by
  intro i hi
  exact g.valid_ops l (.train i) (by rw [opsOf_trains t]; exact List.mem_map.mpr ⟨i, hi, rfl⟩)

/-- The vote table counted over the training images. -/
theorem Spec.GoodHistory.votes_trained {w0 w : Wisard} {ops : List WOp} {n : Int} (g : GoodHistory w0 ops w n)
    (t : ∀ o ∈ ops, o.isTrain = true) {x : Image} (hx : ValidImage n w0.opts.base x) :
    Wisard.allvotes x w.discriminators =
      .ok (w.discriminators.map (fun e => (e.1, imgVotes w0.opts.ignoreZero (trainedWith e.1 ops) x e.2.mapping))) := by
  rw [g.allvotes hx]
  congr 1
  apply List.map_congr_left
  intro e he
  have hs := (wrun_find g.start ops g.ran).2.2.1
  unfold specVotes imgVotes
  congr 1
  apply List.map_congr_left
  intro m hm
  rw [opsOf_trains t]
  have := vote_trains (g.images_valid t e.1) (g.wired e.1 e.2 (SMap.find_of_mem hs he) m hm) x
  unfold trainedWith at this ⊢
  rw [this]

theorem scores_trained {w0 : Wisard} {ops : List WOp} (x : Image) (b : Nat) (hb : 1 ≤ b) (m : SMap Discriminator) (l : Str) :
    SMap.find (activeAll b (m.map (fun e => (e.1, imgVotes w0.opts.ignoreZero (trainedWith e.1 ops) x e.2.mapping)))) l =
      (m.find l).map (fun d => (knownBy w0.opts.ignoreZero b (trainedWith l ops) x d.mapping : Int)) := by
  unfold activeAll
  rw [List.map_map]
  have := find_map_key m (fun k d => (active b (imgVotes w0.opts.ignoreZero (trainedWith k ops) x d.mapping) : Int)) l
  rw [show ((fun e : Str × List Int => (e.1, (active b e.2 : Int))) ∘
    (fun e : Str × Discriminator => (e.1, imgVotes w0.opts.ignoreZero (trainedWith e.1 ops) x e.2.mapping))) =
    (fun e => (e.1, (active b (imgVotes w0.opts.ignoreZero (trainedWith e.1 ops) x e.2.mapping) : Int))) from rfl, this]
  congr 1
  funext d
  rw [active_imgVotes _ _ _ _ b hb]

/-! ## C106 -/

/-- C106: the table of scores of a valid image has exactly the classes of the model, and there is one threshold `b`
for all of them (`b = 1` without bleaching) such that the score of every class is the number of its RAMs whose pattern
of `x` occurs in at least `b` of the images trained with this class's label. -/
theorem C106_score {w0 w : Wisard} {ops : List WOp} {n : Int} (g : GoodHistory w0 ops w n)
    (t : ∀ o ∈ ops, o.isTrain = true) {x : Image} (hx : ValidImage n w0.opts.base x) {s : Scores}
    (hs : w.classify1 x = .ok s) :
    ∃ b : Nat, 1 ≤ b ∧ (w0.opts.bleachingActivated = false → b = 1) ∧
      ∀ l, s.find l =
        (w.discriminators.find l).map (fun d => (knownBy w0.opts.ignoreZero b (trainedWith l ops) x d.mapping : Int)) := by
  unfold Wisard.classify1 at hs
  rw [g.votes_trained t hx, Except.bind_ok] at hs
  obtain ⟨b, h1, h2, h3, _⟩ := C38_scores_at_least_threshold _ _ _ _ _ hs
  have ho := (wrun_find g.start ops g.ran).2.1
  obtain ⟨k, rfl⟩ := Int.eq_ofNat_of_zero_le (show 0 ≤ b by omega)
  refine ⟨k, by omega, fun h => ?_, ?_⟩
  · have := h3 (by rw [ho]; exact h); omega
  · intro l
    rw [h2]
    exact scores_trained x k (by omega) w.discriminators l

/-- C106 without bleaching, always defined: a class's score is the number of its RAMs whose pattern of `x` occurs in
some image trained with its label. -/
theorem C106_score_plain {w0 w : Wisard} {ops : List WOp} {n : Int} (g : GoodHistory w0 ops w n)
    (t : ∀ o ∈ ops, o.isTrain = true) (hb : w0.opts.bleachingActivated = false) {x : Image}
    (hx : ValidImage n w0.opts.base x) :
    ∃ s, w.classify1 x = .ok s ∧ SMap.Sorted s ∧ (∀ e ∈ s, 0 ≤ e.2) ∧
      ∀ l, s.find l =
        (w.discriminators.find l).map (fun d => (knownBy w0.opts.ignoreZero 1 (trainedWith l ops) x d.mapping : Int)) := by
  obtain ⟨_, ho, hS, _⟩ := wrun_find g.start ops g.ran
  refine ⟨_, ?_, ?_, ?_, scores_trained x 1 (by omega) w.discriminators⟩
  · unfold Wisard.classify1
    rw [g.votes_trained t hx, Except.bind_ok, ho, hb]
    exact C38_without_bleaching _ _ _
  · exact Bleaching.activeAll_sorted (SMap.sorted_map hS _) _
  · exact Bleaching.activeAll_nonneg _ _

/-! ## C107 -/

theorem matchCount_pos {m : List Int} {imgs : List Image} {x : Image} :
    1 ≤ matchCount m imgs x ↔ ∃ i ∈ imgs, Agree m x i := by
  unfold matchCount
  rw [show (1 ≤ (imgs.filter (fun y => decide (Agree m x y))).length) ↔
    0 < (imgs.filter (fun y => decide (Agree m x y))).length from Iff.rfl, List.length_pos_iff_exists_mem]
  constructor
  · rintro ⟨i, hi⟩
    obtain ⟨h1, h2⟩ := List.mem_filter.mp hi
    exact ⟨i, h1, by simpa using h2⟩
  · rintro ⟨i, h1, h2⟩
    exact ⟨i, List.mem_filter.mpr ⟨h1, by simpa using h2⟩⟩

theorem score_mono {z : Bool} {imgs imgs' : List Image} (h : ∀ i ∈ imgs, i ∈ imgs') (x : Image) (wiring : List (List Int)) :
    knownBy z 1 imgs x wiring ≤ knownBy z 1 imgs' x wiring := by
  unfold knownBy
  apply List.countP_mono_left
  intro m _ hm
  have hm := of_decide_eq_true hm
  refine decide_eq_true ⟨?_, hm.2⟩
  obtain ⟨i, h1, h2⟩ := matchCount_pos.mp hm.1
  exact matchCount_pos.mpr ⟨i, h i h1, h2⟩

/-- The classes are the labels of the trainings. -/
theorem Spec.GoodHistory.class_iff {w0 w : Wisard} {ops : List WOp} {n : Int} (g : GoodHistory w0 ops w n)
    (t : ∀ o ∈ ops, o.isTrain = true) (l : Str) : w.discriminators.find l = none ↔ trainedWith l ops = [] := by
  obtain ⟨_, _, _, hF⟩ := wrun_find g.start ops g.ran
  rcases hF l with ⟨a1, a2⟩ | ⟨d1, _, _, img, rest, a1, a2, _⟩
  · rw [opsOf_trains t] at a2
    exact ⟨fun _ => List.map_eq_nil_iff.mp a2, fun _ => a1⟩
  · rw [opsOf_trains t] at a2
    constructor
    · intro h; rw [h] at a1; cases a1
    · intro h
      unfold trainedWith at h
      rw [h] at a2
      cases a2

/-- C107: without bleaching, two models trained with the same *set* of labelled images, in any order and with any
repetitions, and with the same wiring, give the same scores and labels. -/
theorem C107_only_the_set_matters {w0 w1 w2 : Wisard} {ops1 ops2 : List WOp} {n : Int}
    (g1 : GoodHistory w0 ops1 w1 n) (g2 : GoodHistory w0 ops2 w2 n)
    (t1 : ∀ o ∈ ops1, o.isTrain = true) (t2 : ∀ o ∈ ops2, o.isTrain = true)
    (hb : w0.opts.bleachingActivated = false) (hset : ∀ e, e ∈ trained ops1 ↔ e ∈ trained ops2)
    (hwire : ∀ l d1 d2, w1.discriminators.find l = some d1 → w2.discriminators.find l = some d2 →
      d1.mapping = d2.mapping) (xs : List Image) (hxs : ∀ x ∈ xs, ValidImage n w0.opts.base x) :
    (∀ x ∈ xs, w1.classify1 x = w2.classify1 x) ∧ w1.classify xs = w2.classify xs := by
  have hi : ∀ l i, i ∈ trainedWith l ops1 ↔ i ∈ trainedWith l ops2 := fun l i => by
    rw [mem_trainedWith, mem_trainedWith, hset]
  have key : ∀ x, ValidImage n w0.opts.base x → w1.classify1 x = w2.classify1 x := by
    intro x hx
    obtain ⟨s1, a1, a2, _, a4⟩ := C106_score_plain g1 t1 hb hx
    obtain ⟨s2, b1, b2, _, b4⟩ := C106_score_plain g2 t2 hb hx
    rw [a1, b1]
    congr 1
    apply SMap.ext a2 b2
    intro l
    rw [a4, b4]
    cases h1 : w1.discriminators.find l with
    | none =>
      have e1 := (g1.class_iff t1 l).mp h1
      have e2 : trainedWith l ops2 = [] := by
        rw [List.eq_nil_iff_forall_not_mem]
        intro i h
        have := (hi l i).mpr h
        rw [e1] at this
        cases this
      rw [(g2.class_iff t2 l).mpr e2]
      rfl
    | some d1 =>
      cases h2 : w2.discriminators.find l with
      | none =>
        have e2 := (g2.class_iff t2 l).mp h2
        have e1 : trainedWith l ops1 = [] := by
          rw [List.eq_nil_iff_forall_not_mem]
          intro i h
          have := (hi l i).mp h
          rw [e2] at this
          cases this
        rw [(g1.class_iff t1 l).mpr e1] at h1
        cases h1
      | some d2 =>
        simp only [Option.map_some, Option.some.injEq]
        rw [hwire l d1 d2 h1 h2]
        have x1 := score_mono (z := w0.opts.ignoreZero) (fun i => (hi l i).mp) x d2.mapping
        have x2 := score_mono (z := w0.opts.ignoreZero) (fun i => (hi l i).mpr) x d2.mapping
        omega
  refine ⟨fun x hx => key x (hxs x hx), ?_⟩
  clear hset hi
  induction xs with
  | nil => rfl
  | cons x xs ih =>
    simp only [Wisard.classify, key x (hxs x (by simp)), ih (fun y hy => hxs y (List.mem_cons_of_mem _ hy))]

/-! ## C108 -/

theorem wstep_wiring {w : Wisard} {o : WOp} {l : Str} {d : Discriminator} (h : w.discriminators.find l = some d) :
    ∃ d', (wstep w o).1.discriminators.find l = some d' ∧ d'.mapping = d.mapping := by
  by_cases hl : l = o.label
  · subst hl
    obtain ⟨op, _, h1, _⟩ := wstep_some h
    exact ⟨_, h1, (play_le [op] d).mapping⟩
  · exact ⟨d, by rw [(wstep_other w o).2.2.1 l hl]; exact h, rfl⟩

/-- The wiring of a class never changes. -/
theorem wrun_wiring (ops : List WOp) : ∀ {w : Wisard} {l : Str} {d : Discriminator}, w.discriminators.find l = some d →
    ∃ d', (wrun w ops).1.discriminators.find l = some d' ∧ d'.mapping = d.mapping := by
  induction ops with
  | nil => intro w l d h; exact ⟨d, h, rfl⟩
  | cons o ops ih =>
    intro w l d h
    obtain ⟨d1, h1, h2⟩ := wstep_wiring (o := o) h
    unfold wrun
    cases hw : wstep w o with
    | mk w' r =>
      rw [hw] at h1
      cases r with
      | error e => exact ⟨d1, h1, h2⟩
      | ok u =>
        obtain ⟨d2, h3, h4⟩ := ih h1
        exact ⟨d2, h3, h4.trans h2⟩

theorem trained_append (a b : List WOp) : trained (a ++ b) = trained a ++ trained b := by
  induction a with
  | nil => rfl
  | cons o a ih => cases o <;> simp [trained, ih]

theorem trained_label {i : Image} {l : Str} {ops : List WOp} (h : (i, l) ∈ trained ops) : ∃ o ∈ ops, o.label = l := by
  induction ops with
  | nil => cases h
  | cons o ops ih =>
    cases o with
    | train e im k =>
      simp only [trained] at h
      rcases List.mem_cons.mp h with h | h
      · simp only [Prod.mk.injEq] at h; exact ⟨_, List.mem_cons_self .., h.2.symm⟩
      · obtain ⟨o, h1, h2⟩ := ih h; exact ⟨o, List.mem_cons_of_mem _ h1, h2⟩
    | leave im k =>
      simp only [trained] at h
      obtain ⟨o, h1, h2⟩ := ih h
      exact ⟨o, List.mem_cons_of_mem _ h1, h2⟩

theorem trainedWith_append (l : Str) (a b : List WOp) : trainedWith l (a ++ b) = trainedWith l a ++ trainedWith l b := by
  unfold trainedWith; rw [trained_append, List.filter_append, List.map_append]

theorem wrun_later {w0 w1 w2 : Wisard} {a b : List WOp} (h1 : wrun w0 a = (w1, .ok ())) (h2 : wrun w0 (a ++ b) = (w2, .ok ())) :
    wrun w1 b = (w2, .ok ()) := by
  rw [wrun_append, h1] at h2
  exact h2

/-- C108: without bleaching, training more images (of any classes) never lowers the score of any class for any image,
and does not change the score of the classes without new images. -/
theorem C108_more_training {w0 w1 w2 : Wisard} {ops more : List WOp} {n : Int}
    (g1 : GoodHistory w0 ops w1 n) (g2 : GoodHistory w0 (ops ++ more) w2 n)
    (t : ∀ o ∈ ops ++ more, o.isTrain = true) (hb : w0.opts.bleachingActivated = false)
    {x : Image} (hx : ValidImage n w0.opts.base x) :
    ∃ s1 s2, w1.classify1 x = .ok s1 ∧ w2.classify1 x = .ok s2 ∧
      ∀ l v1, s1.find l = some v1 → ∃ v2, s2.find l = some v2 ∧ v1 ≤ v2 ∧ ((∀ o ∈ more, o.label ≠ l) → v2 = v1) := by
  have t1 : ∀ o ∈ ops, o.isTrain = true := fun o ho => t o (List.mem_append_left _ ho)
  obtain ⟨s1, a1, a2, _, a4⟩ := C106_score_plain g1 t1 hb hx
  obtain ⟨s2, b1, b2, _, b4⟩ := C106_score_plain g2 t hb hx
  refine ⟨s1, s2, a1, b1, ?_⟩
  intro l v1 h
  rw [a4] at h
  cases h1 : w1.discriminators.find l with
  | none => rw [h1] at h; cases h
  | some d1 =>
    rw [h1] at h
    simp only [Option.map_some, Option.some.injEq] at h
    obtain ⟨d2, c1, c2⟩ := wrun_wiring more h1
    rw [wrun_later g1.ran g2.ran] at c1
    rw [b4, c1]
    refine ⟨_, rfl, ?_, ?_⟩
    · have := score_mono (z := w0.opts.ignoreZero) (imgs := trainedWith l ops) (imgs' := trainedWith l (ops ++ more)) (by
        intro i hi; rw [trainedWith_append]; exact List.mem_append_left _ hi) x d2.mapping
      rw [c2] at this
      simp only [c2]
      omega
    · intro hm
      have : trainedWith l more = [] := by
        rw [List.eq_nil_iff_forall_not_mem]
        intro i hi
        rw [mem_trainedWith] at hi
        have := trained_label hi
        obtain ⟨o, h1, h2⟩ := this
        exact hm o h1 h2
      simp only [trainedWith_append, this, List.append_nil, c2]
      exact h

/-! ## C109 -/

/-- C109: without bleaching, training only labels the model did not have yet changes the answer for an image to one of
the new labels or not at all. -/
theorem C109_new_classes {w0 w1 w2 : Wisard} {ops more : List WOp} {n : Int}
    (g1 : GoodHistory w0 ops w1 n) (g2 : GoodHistory w0 (ops ++ more) w2 n)
    (t : ∀ o ∈ ops ++ more, o.isTrain = true) (hb : w0.opts.bleachingActivated = false)
    (hnew : ∀ o ∈ more, o.label ∉ w1.discriminators.keys) (hne : ops ≠ [])
    {x : Image} (hx : ValidImage n w0.opts.base x) :
    ∃ l1 l2, w1.classify [x] = .ok [l1] ∧ w2.classify [x] = .ok [l2] ∧ (l2 = l1 ∨ ∃ o ∈ more, o.label = l2) := by
  have t1 : ∀ o ∈ ops, o.isTrain = true := fun o ho => t o (List.mem_append_left _ ho)
  obtain ⟨s1, a1, a2, a3, a4⟩ := C106_score_plain g1 t1 hb hx
  obtain ⟨s2, b1, b2, b3, b4⟩ := C106_score_plain g2 t hb hx
  obtain ⟨s1', s2', c1, c2, c3⟩ := C108_more_training g1 g2 t hb hx
  rw [a1] at c1; rw [b1] at c2
  cases c1; cases c2
  refine ⟨Bleaching.getBiggestCandidate s1, Bleaching.getBiggestCandidate s2, ?_, ?_, ?_⟩
  · simp only [Wisard.classify, a1, Except.bind_ok]
  · simp only [Wisard.classify, b1, Except.bind_ok]
  have same : ∀ l v, s1.find l = some v → s2.find l = some v := by
    intro l v h
    obtain ⟨v2, h2, _, h4⟩ := c3 l v h
    have hk : l ∈ w1.discriminators.keys := by
      rw [SMap.mem_keys_iff]
      rw [a4] at h
      cases hd : w1.discriminators.find l with
      | none => rw [hd] at h; cases h
      | some d => exact ⟨d, rfl⟩
    rw [h2, h4 (fun o ho he => hnew o ho (by rw [he]; exact hk))]
  have hs1 : s1 ≠ [] := by
    obtain ⟨o, os, rfl⟩ := List.exists_cons_of_ne_nil hne
    intro h
    have hf : w1.discriminators.find o.label ≠ none := by
      rw [ne_eq, g1.class_iff t1]
      intro h
      cases o with
      | leave i l => have := t1 (.leave i l) (by simp); cases this
      | train e i l =>
        have := mem_trainedWith.mpr (show (i, l) ∈ trained (.train e i l :: os) by simp [trained])
        simp only [WOp.label] at h
        rw [h] at this
        cases this
    cases hd : w1.discriminators.find o.label with
    | none => exact hf hd
    | some d =>
      have := a4 o.label
      rw [h, hd] at this
      cases this
  have hs2 : s2 ≠ [] := by
    obtain ⟨e, es, rfl⟩ := List.exists_cons_of_ne_nil hs1
    intro h
    have := same e.1 e.2 (by obtain ⟨k, v⟩ := e; simp [SMap.find])
    rw [h] at this
    cases this
  obtain ⟨p, p1, p2, p3, p4⟩ := C39_winner s1 a2 hs1 a3
  obtain ⟨q, q1, q2, q3, q4⟩ := C39_winner s2 b2 hs2 b3
  rw [p2, q2]
  by_cases hq : ∃ o ∈ more, o.label = q.1
  · exact .inr hq
  left
  -- the winner is an old class
  have hq2 := SMap.find_of_mem b2 (show (q.1, q.2) ∈ s2 from q1)
  have hp1 := SMap.find_of_mem a2 (show (p.1, p.2) ∈ s1 from p1)
  have hold : s1.find q.1 = some q.2 := by
    have hq3 := hq2
    rw [b4] at hq3
    cases hd : w2.discriminators.find q.1 with
    | none => rw [hd] at hq3; cases hq3
    | some d =>
      have h1 : trainedWith q.1 (ops ++ more) ≠ [] := fun h => by
        rw [(g2.class_iff t q.1).mpr h] at hd; cases hd
      have h2 : trainedWith q.1 more = [] := by
        rw [List.eq_nil_iff_forall_not_mem]
        intro i hi
        rw [mem_trainedWith] at hi
        exact hq (trained_label hi)
      rw [trainedWith_append, h2, List.append_nil] at h1
      cases hd1 : w1.discriminators.find q.1 with
      | none => exact absurd ((g1.class_iff t1 q.1).mp hd1) h1
      | some d1 =>
        obtain ⟨v, hv⟩ : ∃ v, s1.find q.1 = some v := ⟨_, by rw [a4, hd1]; rfl⟩
        have := same _ _ hv
        rw [hq2] at this
        rw [hv, ← this]
  have e1 := p3 _ (SMap.mem_of_find hold)
  have e2 := q3 _ (SMap.mem_of_find (same _ _ hp1))
  simp only at e1 e2
  have he : p.2 = q.2 := by omega
  rcases p4 _ (SMap.mem_of_find hold) (by simp only; omega) with h | h
  · exact h
  · rcases q4 _ (SMap.mem_of_find (same _ _ hp1)) (by simp only; omega) with h' | h'
    · exact h'.symm
    · rw [Str.lt_asymm h] at h'; cases h'

/-! ## C110 -/

/-- All votes multiplied by `k`. -/
def scaleVotes (k : Nat) (votes : Votes) : Votes := votes.map (fun e => (e.1, e.2.map (fun v => (k : Int) * v)))

theorem ceil_iff {k : Nat} (hk : 1 ≤ k) (b v : Int) : b ≤ (k : Int) * v ↔ (b + k - 1) / k ≤ v := by
  have hk' : (0 : Int) < k := by omega
  rw [show (b + k - 1) / k ≤ v ↔ (b + k - 1) / k < v + 1 by omega, Int.ediv_lt_iff_lt_mul hk', Int.add_mul, Int.mul_comm v]
  omega

theorem active_scale {k : Nat} (hk : 1 ≤ k) (b : Int) (vs : List Int) :
    active b (vs.map (fun v => (k : Int) * v)) = active ((b + k - 1) / k) vs := by
  unfold active
  rw [List.countP_map]
  apply List.countP_congr
  intro v _
  rw [Function.comp_apply, decide_eq_true_iff, decide_eq_true_iff]
  exact ceil_iff hk b v

theorem activeAll_scale {k : Nat} (hk : 1 ≤ k) (b : Int) (votes : Votes) :
    activeAll b (scaleVotes k votes) = activeAll ((b + k - 1) / k) votes := by
  unfold activeAll scaleVotes
  rw [List.map_map]
  apply List.map_congr_left
  intro e _
  rw [Function.comp_apply, active_scale hk]

/-- Multiplying all votes by the same number changes no score. -/
theorem make_scale {k : Nat} (hk : 1 ≤ k) {votes : Votes} {M : Int} (h0 : 0 ≤ M) (hM : ∀ e ∈ votes, ∀ v ∈ e.2, v ≤ M)
    (hb : k * M ≤ 2147483645) (bl sbc : Bool) (c : Int) :
    Bleaching.make (scaleVotes k votes) bl sbc c = Bleaching.make votes bl sbc c := by
  have hkM : M ≤ k * M := by
    have := Int.mul_le_mul_of_nonneg_right (show (1 : Int) ≤ k by omega) h0
    omega
  obtain ⟨s1, _, _, _, _, h1⟩ := C37_terminates votes bl c M h0 hM (by omega)
  obtain ⟨s2, _, _, _, _, h2⟩ := C37_terminates (scaleVotes k votes) bl c (k * M) (by omega) (by
    intro e he v hv
    obtain ⟨e', he', rfl⟩ := List.mem_map.mp he
    obtain ⟨v', hv', rfl⟩ := List.mem_map.mp hv
    exact Int.mul_le_mul_of_nonneg_left (hM e' he' v' hv') (by omega)) hb
  rw [h1 sbc, h2 sbc]
  obtain ⟨b1, p1, p2, p3, p4⟩ := C38_scores_at_least_threshold _ _ _ _ _ (h1 sbc)
  obtain ⟨b2, q1, q2, q3, q4⟩ := C38_scores_at_least_threshold _ _ _ _ _ (h2 sbc)
  rw [activeAll_scale hk] at q2
  rw [q2, p2]
  congr 2
  cases bl with
  | false =>
    rw [p3 rfl, q3 rfl]
    rw [show (1 : Int) + k - 1 = k by omega]
    exact Int.ediv_self (by omega)
  | true =>
    obtain ⟨p5, p6⟩ := p4 rfl
    obtain ⟨q5, q6⟩ := q4 rfl
    rw [activeAll_scale hk] at q5
    have hc1 : 1 ≤ (b2 + k - 1) / k := by
      have := (ceil_iff hk b2 0).not.mp (by omega)
      omega
    rcases Int.lt_trichotomy ((b2 + k - 1) / k) b1 with h | h | h
    · exact absurd (p6 _ hc1 h) q5
    · exact h
    · have hlt : (k : Int) * b1 < b2 := by
        have := (ceil_iff hk b2 b1).not.mpr (by omega)
        omega
      have := q6 (k * b1) (by
        have := Int.mul_le_mul_of_nonneg_left p1 (show (0 : Int) ≤ k by omega)
        omega) hlt
      rw [activeAll_scale hk] at this
      have he : ((k : Int) * b1 + k - 1) / k = b1 := by
        have h1 := (ceil_iff hk (k * b1) b1).mp (Int.le_refl _)
        have h2 := (ceil_iff hk (k * b1) (b1 - 1)).not.mp (by rw [Int.mul_sub]; omega)
        omega
      rw [he] at this
      exact absurd this p5

theorem matchCount_repeat (m : List Int) (x : Image) (l : Str) (es : List (Image × Str)) (k : Nat) :
    matchCount m ((((List.replicate k es).flatten).filter (fun e => decide (e.2 = l))).map (·.1)) x =
      k * matchCount m ((es.filter (fun e => decide (e.2 = l))).map (·.1)) x := by
  induction k with
  | zero => simp [matchCount]
  | succ k ih =>
    rw [List.replicate_succ, List.flatten_cons, List.filter_append, List.map_append]
    unfold matchCount at ih ⊢
    rw [List.filter_append, List.length_append, ih, Nat.succ_mul, Nat.add_comm]

theorem trained_length {ops : List WOp} (t : ∀ o ∈ ops, o.isTrain = true) : (trained ops).length = ops.length := by
  induction ops with
  | nil => rfl
  | cons o ops ih =>
    have := ih (fun o ho => t o (List.mem_cons_of_mem _ ho))
    cases o with
    | train e i l => simp [trained, this]
    | leave i l => have := t (.leave i l) (by simp); cases this

/-- C110: with any options, a model trained `k` times with the whole training set (in any order) gives the same scores
and labels as one trained once, if their wiring is the same. -/
theorem C110_repetition {w0 w1 w2 : Wisard} {ops1 ops2 : List WOp} {n : Int}
    (g1 : GoodHistory w0 ops1 w1 n) (g2 : GoodHistory w0 ops2 w2 n)
    (t1 : ∀ o ∈ ops1, o.isTrain = true) (t2 : ∀ o ∈ ops2, o.isTrain = true) (k : Nat) (hk : 1 ≤ k)
    (hp : (trained ops2).Perm (List.replicate k (trained ops1)).flatten) (hlen : ops2.length ≤ 2147483645)
    (hwire : ∀ l d1 d2, w1.discriminators.find l = some d1 → w2.discriminators.find l = some d2 →
      d1.mapping = d2.mapping) (xs : List Image) (hxs : ∀ x ∈ xs, ValidImage n w0.opts.base x) :
    (∀ x ∈ xs, w2.classify1 x = w1.classify1 x) ∧ w2.classify xs = w1.classify xs := by
  obtain ⟨_, ho1, hS1, _⟩ := wrun_find g1.start ops1 g1.ran
  obtain ⟨_, ho2, hS2, _⟩ := wrun_find g2.start ops2 g2.ran
  have hlen' : ops2.length = k * ops1.length := by
    rw [← trained_length t1, ← trained_length t2, hp.length_eq, List.length_flatten, List.map_replicate,
      List.sum_replicate]
    rfl
  have hmc : ∀ m l x, matchCount m (trainedWith l ops2) x = k * matchCount m (trainedWith l ops1) x := by
    intro m l x
    rw [trainedWith, trainedWith, ← matchCount_repeat]
    have hf : ((trained ops2).filter (fun e => decide (e.2 = l))).map (·.1) |>.Perm
      (((List.replicate k (trained ops1)).flatten.filter (fun e => decide (e.2 = l))).map (·.1)) := (hp.filter _).map _
    unfold matchCount
    rw [(hf.filter _).length_eq]
  have hnil : ∀ l, trainedWith l ops2 = [] ↔ trainedWith l ops1 = [] := by
    intro l
    rw [List.eq_nil_iff_forall_not_mem, List.eq_nil_iff_forall_not_mem]
    have : ∀ i, i ∈ trainedWith l ops2 ↔ i ∈ trainedWith l ops1 := by
      intro i
      rw [mem_trainedWith, mem_trainedWith, hp.mem_iff, List.mem_flatten]
      constructor
      · rintro ⟨a, ha, h⟩
        rw [(List.mem_replicate.mp ha).2] at h; exact h
      · intro h
        exact ⟨_, List.mem_replicate.mpr ⟨by omega, rfl⟩, h⟩
    constructor
    · intro h i hi; exact h i ((this i).mpr hi)
    · intro h i hi; exact h i ((this i).mp hi)
  have key : ∀ x, ValidImage n w0.opts.base x → w2.classify1 x = w1.classify1 x := by
    intro x hx
    unfold Wisard.classify1
    rw [g1.votes_trained t1 hx, g2.votes_trained t2 hx, ho1, ho2]
    simp only [Except.bind_ok]
    have hv : w2.discriminators.map (fun e => (e.1, imgVotes w0.opts.ignoreZero (trainedWith e.1 ops2) x e.2.mapping)) =
        scaleVotes k (w1.discriminators.map (fun e => (e.1, imgVotes w0.opts.ignoreZero (trainedWith e.1 ops1) x e.2.mapping))) := by
      unfold scaleVotes
      apply SMap.ext (SMap.sorted_map hS2 _) (SMap.sorted_map (SMap.sorted_map hS1 _) _)
      intro l
      rw [find_map_key w2.discriminators (fun l d => imgVotes w0.opts.ignoreZero (trainedWith l ops2) x d.mapping),
        SMap.find_map,
        find_map_key w1.discriminators (fun l d => imgVotes w0.opts.ignoreZero (trainedWith l ops1) x d.mapping)]
      cases h1 : w1.discriminators.find l with
      | none =>
        rw [(g2.class_iff t2 l).mpr ((hnil l).mpr ((g1.class_iff t1 l).mp h1))]
        rfl
      | some d1 =>
        cases h2 : w2.discriminators.find l with
        | none =>
          rw [(g1.class_iff t1 l).mpr ((hnil l).mp ((g2.class_iff t2 l).mp h2))] at h1
          cases h1
        | some d2 =>
          simp only [Option.map_some, Option.some.injEq]
          rw [← hwire l d1 d2 h1 h2]
          unfold imgVotes
          rw [List.map_map]
          apply List.map_congr_left
          intro m _
          rw [Function.comp_apply, hmc]
          split <;> simp
    rw [hv]
    refine make_scale hk (M := ops1.length) (by omega) ?_ (by rw [hlen'] at hlen; omega) _ _ _
    intro e he v hv
    obtain ⟨e', _, rfl⟩ := List.mem_map.mp he
    obtain ⟨m, _, rfl⟩ := List.mem_map.mp hv
    have h1 : matchCount m (trainedWith e'.1 ops1) x ≤ ops1.length := by
      rw [← trained_length t1]
      unfold matchCount trainedWith
      refine Nat.le_trans (List.length_filter_le _ _) ?_
      rw [List.length_map]
      exact List.length_filter_le _ _
    split <;> omega
  refine ⟨fun x hx => key x (hxs x hx), ?_⟩
  clear hp hmc hnil
  induction xs with
  | nil => rfl
  | cons x xs ih =>
    simp only [Wisard.classify, key x (hxs x (by simp)), ih (fun y hy => hxs y (List.mem_cons_of_mem _ hy))]

/-- C110 for one model: training it again (any number of times, in any order) with the whole training set changes no
score and no label. -/
theorem C110_train_again {w0 w1 w2 : Wisard} {ops more : List WOp} {n : Int}
    (g1 : GoodHistory w0 ops w1 n) (g2 : GoodHistory w0 (ops ++ more) w2 n)
    (t : ∀ o ∈ ops ++ more, o.isTrain = true) (k : Nat)
    (hp : (trained more).Perm (List.replicate k (trained ops)).flatten) (hlen : (ops ++ more).length ≤ 2147483645)
    (xs : List Image) (hxs : ∀ x ∈ xs, ValidImage n w0.opts.base x) :
    (∀ x ∈ xs, w2.classify1 x = w1.classify1 x) ∧ w2.classify xs = w1.classify xs := by
  refine C110_repetition g1 g2 (fun o ho => t o (List.mem_append_left _ ho)) t (k + 1) (by omega) ?_ hlen ?_ xs hxs
  · rw [trained_append, List.replicate_succ, List.flatten_cons]
    exact List.Perm.append_left _ hp
  · intro l d1 d2 h1 h2
    obtain ⟨d', a1, a2⟩ := wrun_wiring more h1
    rw [wrun_later g1.ran g2.ran, h2] at a1
    cases a1
    exact a2.symm

/-! ## The hypotheses are met -/

/-- Two trainings. -/
def semOps1 : List WOp :=
  [.train ⟨Rnd.id, true⟩ (.vec [1, 0, 1, 1]) b!"a", .train ⟨Rnd.id, true⟩ (.vec [0, 0, 1, 0]) b!"b"]

/-- The same images again, one of them twice. -/
def semMore : List WOp :=
  [.train ⟨Rnd.id, true⟩ (.vec [0, 0, 1, 0]) b!"b", .train ⟨Rnd.id, true⟩ (.vec [1, 0, 1, 1]) b!"a"]

/-- A new class. -/
def semNew : List WOp := [.train ⟨Rnd.id, false⟩ (.vec [0, 0, 1, 0]) b!"c"]

theorem sem_good (bl : Bool) (ops : List WOp) (ho : ops = semOps1 ∨ ops = semOps1 ++ semMore ∨ ops = semOps1 ++ semNew) :
    ∃ w, GoodHistory (Wisard.create 2 { bleachingActivated := bl }) ops w 4 := by
  obtain ⟨w, g, _⟩ := C73_valid_calls_succeed (A := 2) (n := 4) (o := { bleachingActivated := bl }) rfl rfl (by omega)
    (by omega) (by omega) (show (2 : Int) ≤ 2 by decide) (show (2 : Int) ^ 2 < 2 ^ 63 by decide) ops
    (by
      intro op hop
      rcases ho with rfl | rfl | rfl
      all_goals
        simp only [semOps1, semMore, semNew, List.cons_append, List.nil_append, List.mem_cons, List.not_mem_nil, or_false] at hop
        rcases hop with rfl | rfl | rfl | rfl
        all_goals first | exact example_valid.1 | exact example_valid.2)
    (by rcases ho with rfl | rfl | rfl <;> simp [semOps1, semMore, semNew])
  exact ⟨w, g⟩

/-- C106–C110 apply to these histories: trained with the two images, trained again, and with a new class. -/
example (bl : Bool) : ∃ w1 w2 w3, GoodHistory (Wisard.create 2 { bleachingActivated := bl }) semOps1 w1 4 ∧
    GoodHistory (Wisard.create 2 { bleachingActivated := bl }) (semOps1 ++ semMore) w2 4 ∧
    GoodHistory (Wisard.create 2 { bleachingActivated := bl }) (semOps1 ++ semNew) w3 4 ∧
    (∀ o ∈ semOps1 ++ semMore, o.isTrain = true) ∧ (∀ o ∈ semOps1 ++ semNew, o.isTrain = true) ∧
    (trained semMore).Perm (List.replicate 1 (trained semOps1)).flatten ∧
    (∀ e, e ∈ trained semOps1 ↔ e ∈ trained (semOps1 ++ semMore)) ∧
    (∀ o ∈ semNew, o.label ∉ w1.discriminators.keys) ∧ ValidImage 4 2 (.vec [1, 0, 1, 1]) := by
  obtain ⟨w1, g1⟩ := sem_good bl semOps1 (.inl rfl)
  obtain ⟨w2, g2⟩ := sem_good bl _ (.inr (.inl rfl))
  obtain ⟨w3, g3⟩ := sem_good bl _ (.inr (.inr rfl))
  refine ⟨w1, w2, w3, g1, g2, g3, by decide, by decide, List.Perm.swap _ _ _, ?_, ?_, example_valid.1⟩
  · intro e
    rw [trained_append, List.mem_append]
    constructor
    · exact .inl
    · rintro (h | h)
      · exact h
      · simp only [semMore, semOps1, trained, List.mem_cons, List.not_mem_nil, or_false] at h ⊢
        exact h.symm
  · intro o ho
    simp only [semNew, List.mem_cons, List.not_mem_nil, or_false] at ho
    subst ho
    intro h
    obtain ⟨d, hd⟩ := SMap.mem_keys_iff.mp h
    have := (g1.class_iff (by decide) b!"c").mpr (by decide)
    simp only [WOp.label] at hd
    rw [this] at hd
    cases hd

/-- The scores of the example: all RAMs of `a`, and none of `b`, know the image. -/
example : knownBy false 1 (trainedWith b!"a" semOps1) (.vec [1, 0, 1, 1]) [[0, 1], [2, 3]] = 2 ∧
    knownBy false 1 (trainedWith b!"b" semOps1) (.vec [1, 0, 1, 1]) [[0, 1], [2, 3]] = 0 ∧
    knownBy false 2 (trainedWith b!"a" (semOps1 ++ semMore)) (.vec [1, 0, 1, 1]) [[0, 1], [2, 3]] = 2 := by
  decide

end Wis
