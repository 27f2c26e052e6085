import Verif.Spec.RamOrder
import Verif.Props.Semantics
import Verif.Props.Reproducible
import Verif.Props.Recode
import Verif.Props.RecodeClus
import Verif.Props.MentalImages
/-!
# C199: the order of the RAMs does not matter
-/

namespace Wis
open Spec

theorem loop_scores {v v' : Votes} (h : ∀ b, Bleaching.scores v b = Bleaching.scores v' b) (bl : Bool) (c : Int) (b : Int) :
    Bleaching.loop v bl c b = Bleaching.loop v' bl c b := by
  induction b using Bleaching.loop.induct (allvotes := v) (bleachingActivated := bl) (confidence := c) with
  | case1 b hbl =>
    rw [Bleaching.loop, Bleaching.loop.eq_def v']
    simp [hbl, h]
  | case2 b hbl e he =>
    rw [Bleaching.loop, Bleaching.loop.eq_def v']
    simp [hbl, he]
  | case3 b labels hbl x hx ha ih =>
    rw [Bleaching.loop, Bleaching.loop.eq_def v']
    have ha' : Bleaching.again (Bleaching.scores v' b) c = true := by rw [← h]; exact ha
    simp only [hbl, hx]
    rw [dif_pos ha, dif_pos ha']
    simpa using ih
  | case4 b labels hbl x hx ha =>
    rw [Bleaching.loop, Bleaching.loop.eq_def v']
    have ha' : ¬ Bleaching.again (Bleaching.scores v' b) c = true := by rw [← h]; exact ha
    simp only [hbl, hx]
    rw [dif_neg ha, dif_neg ha', h]

theorem make_scores {v v' : Votes} (h : ∀ b, Bleaching.scores v b = Bleaching.scores v' b) (bl sbc : Bool) (c : Int) :
    Bleaching.make v bl sbc c = Bleaching.make v' bl sbc c := by
  cases sbc <;> simp only [Bleaching.make, Bleaching.makeWithConfidence, Bleaching.makeConfidenceless, loop_scores h]

theorem agree_perm {m m' : List Int} (h : m.Perm m') (x y : Image) : Agree m x y ↔ Agree m' x y :=
  ⟨fun k a ha => k a (h.mem_iff.mpr ha), fun k a ha => k a (h.mem_iff.mp ha)⟩

theorem zero_perm {m m' : List Int} (h : m.Perm m') (x : Image) : ZeroOn m x ↔ ZeroOn m' x :=
  ⟨fun k a ha => k a (h.mem_iff.mpr ha), fun k a ha => k a (h.mem_iff.mp ha)⟩

theorem vote_perm {m m' : List Int} (h : m.Perm m') (ops : List Op) (x : Image) : vote m ops x = vote m' ops x := by
  unfold vote matching
  simp only [decide_eq_decide.mpr (agree_perm h x _)]

theorem votes_sameRams {M1 M2 : List (List Int)} (h : SameRams M1 M2) (z : Bool) (ops : List Op) (x : Image) :
    (M1.map (fun m => if z = true ∧ ZeroOn m x then 0 else vote m ops x)).Perm
      (M2.map (fun m => if z = true ∧ ZeroOn m x then 0 else vote m ops x)) := by
  obtain ⟨M, h1, h2⟩ := h
  have e : M.map (fun m => if z = true ∧ ZeroOn m x then 0 else vote m ops x) =
      M2.map (fun m => if z = true ∧ ZeroOn m x then 0 else vote m ops x) := by
    induction h2 generalizing M1 with
    | nil => rfl
    | @cons m m' M M2 hm _ ih =>
      rw [List.map_cons, List.map_cons, ih (List.Perm.refl _), vote_perm hm]
      simp only [zero_perm hm]
  rw [← e]
  exact h1.map _

theorem flatten_sameRams {M1 M2 : List (List Int)} (h : SameRams M1 M2) : M1.flatten.Perm M2.flatten := by
  obtain ⟨M, h1, h2⟩ := h
  refine h1.flatten.trans ?_
  clear h1
  induction h2 with
  | nil => rfl
  | cons hm _ ih => rw [List.flatten_cons, List.flatten_cons]; exact hm.append ih

theorem opsOf_same {ops1 ops2 : List WOp} (h : List.Forall₂ (fun a b : WOp => a.isTrain = b.isTrain ∧ a.label = b.label ∧ a.img = b.img) ops1 ops2)
    (l : Str) : opsOf l ops1 = opsOf l ops2 := by
  unfold opsOf
  congr 1
  induction h with
  | nil => rfl
  | @cons a b _ _ hab _ ih =>
    have : WOp.on l a = WOp.on l b := by
      obtain ⟨h1, h2, h3⟩ := hab
      cases a <;> cases b <;> simp_all [WOp.isTrain, WOp.label, WOp.img, WOp.on]
    rw [List.filterMap_cons, List.filterMap_cons, this, ih]

/-- **C199** for Discriminator: two Discriminators with the same RAMs, in any order and with their pixels in any order, have the same votes in
some order, after any history of trainings and untrainings. -/
theorem C199_votes {n A A' : Int} {rnd rnd' : Rnd} {o o' : Options} {d0 d0' : Discriminator} (h : Discriminator.create rnd A n o = .ok d0)
    (h' : Discriminator.create rnd' A' n o' = .ok d0') (hw : WiredInside n d0.mapping) (hw' : WiredInside n d0'.mapping)
    (hz : o'.ignoreZero = o.ignoreZero) (hrams : SameRams d0.mapping d0'.mapping)
    (ops : List Op) (hlen : ops.length ≤ 2147483647) (hv : ∀ op ∈ ops, ValidImage n o.base op.img) (hv' : ∀ op ∈ ops, ValidImage n o'.base op.img)
    (x : Image) (hx : ValidImage n o.base x) (hx' : ValidImage n o'.base x) :
    ∃ d d' vs vs', run d0 ops = (d, .ok ()) ∧ run d0' ops = (d', .ok ()) ∧ d.classify x = .ok vs ∧ d'.classify x = .ok vs' ∧
      vs.length = d0.mapping.length ∧ vs.Perm vs' := by
  obtain ⟨d, h1, _⟩ := run_created h hw ops hv hlen
  obtain ⟨d', h1', _⟩ := run_created h' hw' ops hv' hlen
  refine ⟨d, d', _, _, h1, h1', classify_created h hw hv hlen h1 hx, classify_created h' hw' hv' hlen h1' hx', by simp, ?_⟩
  rw [hz]
  exact votes_sameRams hrams _ ops x

/-- **C199** for Discriminator: and the same mental image. -/
theorem C199_mental {n A A' : Int} {rnd rnd' : Rnd} {o o' : Options} {d0 d0' : Discriminator} (h : Discriminator.create rnd A n o = .ok d0)
    (h' : Discriminator.create rnd' A' n o' = .ok d0') (hw : WiredInside n d0.mapping) (hw' : WiredInside n d0'.mapping) (hn : 0 ≤ n)
    (hrams : SameRams d0.mapping d0'.mapping) (hfit : ∀ m ∈ d0.mapping, o.base ^ m.length ≤ 2 ^ 31) (hfit' : ∀ m ∈ d0'.mapping, o'.base ^ m.length ≤ 2 ^ 31)
    (ops : List Op) (hl : Legal ops) (hlen : ops.length ≤ 2147483647) (hv : ∀ op ∈ ops, ValidImage n o.base op.img)
    (hv' : ∀ op ∈ ops, ValidImage n o'.base op.img) (hsum : ∀ i : Int, (d0.mapping.flatten.count i : Int) * ops.length ≤ 2147483647)
    (it it' : IterOrder) :
    ∃ d d' p, run d0 ops = (d, .ok ()) ∧ run d0' ops = (d', .ok ()) ∧ d.getMentalImage it = .ok p ∧ d'.getMentalImage it' = .ok p := by
  have hc : ∀ i : Int, d0'.mapping.flatten.count i = d0.mapping.flatten.count i := fun i => ((flatten_sameRams hrams).count_eq i).symm
  obtain ⟨d, p, a1, a2, a3, a4⟩ := C17_mental_image_history h hw hn hfit ops hl hv hlen hsum it
  obtain ⟨d', q, b1, b2, b3, b4⟩ := C17_mental_image_history h' hw' hn hfit' ops hl hv' hlen (by simpa only [hc] using hsum) it'
  refine ⟨d, d', p, a1, b1, a2, ?_⟩
  rw [b2]
  congr 1
  apply List.ext_getElem (by omega)
  intro i hi hi'
  rw [a4 i hi', b4 i hi, hc]

/-- **C199** for Wisard: two models with the same rules that learn the same labelled images, and whose classes have the same RAMs, in any
order and with their pixels in any order, give the same scores and answers to all images, with or without bleaching. -/
theorem C199_wisard {w01 w02 w1 w2 : Wisard} {ops1 ops2 : List WOp} {n : Int} (g1 : GoodHistory w01 ops1 w1 n) (g2 : GoodHistory w02 ops2 w2 n)
    (hr : SameRules w01.opts w02.opts) (hops : List.Forall₂ (fun a b : WOp => a.isTrain = b.isTrain ∧ a.label = b.label ∧ a.img = b.img) ops1 ops2)
    (hwire : ∀ l d1 d2, w1.discriminators.find l = some d1 → w2.discriminators.find l = some d2 → SameRams d1.mapping d2.mapping)
    {xs : List Image} (hxs : ∀ x ∈ xs, ValidImage n w01.opts.base x ∧ ValidImage n w02.opts.base x) :
    (∀ x ∈ xs, w1.classify1 x = w2.classify1 x) ∧ w1.classify xs = w2.classify xs := by
  obtain ⟨_, a2, a3, a4⟩ := wrun_find g1.start ops1 g1.ran
  obtain ⟨_, b2, b3, b4⟩ := wrun_find g2.start ops2 g2.ran
  have key : ∀ x ∈ xs, w1.classify1 x = w2.classify1 x := by
    intro x hx
    unfold Wisard.classify1
    rw [g1.allvotes (hxs x hx).1, g2.allvotes (hxs x hx).2, Except.bind_ok, Except.bind_ok, a2, b2, hr.2.1, hr.2.2.1, hr.2.2.2]
    apply make_scores
    intro b
    rw [Bleaching.scores_eq, Bleaching.scores_eq]
    unfold activeAll
    rw [List.map_map, List.map_map]
    apply SMap.ext (SMap.sorted_map a3 fun e => (active b (specVotes w01 ops1 x e.1 e.2.mapping) : Int))
      (SMap.sorted_map b3 fun e => (active b (specVotes w02 ops2 x e.1 e.2.mapping) : Int))
    intro l
    have f1 := find_map_key w1.discriminators (fun k d => (active b (specVotes w01 ops1 x k d.mapping) : Int)) l
    have f2 := find_map_key w2.discriminators (fun k d => (active b (specVotes w02 ops2 x k d.mapping) : Int)) l
    refine f1.trans (Eq.trans ?_ f2.symm)
    have ho := opsOf_same hops l
    rcases a4 l with ⟨e1, e2⟩ | ⟨d1, _, _, _, _, e1, e2, _, _⟩
    · rcases b4 l with ⟨f1, f2⟩ | ⟨d2, _, _, _, _, f1, f2, _, _⟩
      · rw [e1, f1]; rfl
      · rw [e2, f2] at ho; cases ho
    · rcases b4 l with ⟨f1, f2⟩ | ⟨d2, _, _, _, _, f1, f2, _, _⟩
      · rw [e2, f2] at ho; cases ho
      · rw [e1, f1, Option.map_some, Option.map_some]
        have := votes_sameRams (hwire l d1 d2 e1 f1) w01.opts.ignoreZero (opsOf l ops1) x
        unfold specVotes active
        rw [hr.1, ← ho, this.countP_eq]
  refine ⟨key, ?_⟩
  clear hxs
  induction xs with
  | nil => rfl
  | cons x xs ih => simp only [Wisard.classify, key x (by simp), ih fun y hy => key y (List.mem_cons_of_mem _ hy)]

/-- The hypotheses of `C199_votes` and `C199_mental` are met. -/
example : ∃ d1 d2 e1 e2, Discriminator.create Rnd.id 2 4 { mapping := [[2, 0], [1, 3]] } = .ok d1 ∧
    Discriminator.create Rnd.id 2 4 { mapping := [[3, 1], [2, 0]] } = .ok d2 ∧ SameRams d1.mapping d2.mapping ∧ WiredInside 4 d1.mapping ∧
    WiredInside 4 d2.mapping ∧ ValidImage 4 2 (.vec [1, 0, 1, 1]) ∧ Legal [.train (.vec [1, 0, 1, 1])] ∧
    run d1 [.train (.vec [1, 0, 1, 1])] = (e1, .ok ()) ∧ run d2 [.train (.vec [1, 0, 1, 1])] = (e2, .ok ()) ∧
    e1.classify (.vec [0, 0, 1, 1]) = .ok [0, 1] ∧ e2.classify (.vec [0, 0, 1, 1]) = .ok [1, 0] :=
  ⟨_, _, _, _, rfl, rfl, ⟨[[1, 3], [2, 0]], .swap _ _ _, .cons (.swap _ _ _) (.cons (.refl _) .nil)⟩, by unfold WiredInside; decide +kernel,
    by unfold WiredInside; decide +kernel, bits_valid [1, 0, 1, 1] (by decide), legal_trains [_], Prod.ext rfl (by decide +kernel),
    Prod.ext rfl (by decide +kernel), by decide +kernel, by decide +kernel⟩

/-- The hypotheses of `C199_wisard` are met, with bleaching. -/
example : ∃ w1 w2, GoodHistory (Wisard.create 2 { mapping := [(b!"a", [[2, 0], [1, 3]])] }) [.train ⟨Rnd.id, true⟩ (.vec [1, 0, 1, 1]) b!"a"] w1 4 ∧
    GoodHistory (Wisard.create 2 { mapping := [(b!"a", [[3, 1], [2, 0]])] }) [.train ⟨rotRnd, true⟩ (.vec [1, 0, 1, 1]) b!"a"] w2 4 ∧
    SameRules (Wisard.create 2 { mapping := [(b!"a", [[2, 0], [1, 3]])] }).opts (Wisard.create 2 { mapping := [(b!"a", [[3, 1], [2, 0]])] }).opts ∧
    (∀ l d1 d2, w1.discriminators.find l = some d1 → w2.discriminators.find l = some d2 → SameRams d1.mapping d2.mapping) := by
  have good : ∀ {m : List (List Int)} {e : Env} {w : Wisard}, wrun (Wisard.create 2 { mapping := [(b!"a", m)] })
      [.train e (.vec [1, 0, 1, 1]) b!"a"] = (w, .ok ()) → (∀ e ∈ w.discriminators, e.2.mapping = m) → (∀ r ∈ m, ∀ a ∈ r, 0 ≤ a ∧ a < (4 : Int)) →
      GoodHistory (Wisard.create 2 { mapping := [(b!"a", m)] }) [.train e (.vec [1, 0, 1, 1]) b!"a"] w 4 := by
    intro m e w h1 h2 h3
    refine ⟨rfl, h1, ?_, ?_, by simp⟩
    · intro o ho
      cases List.mem_singleton.mp ho
      exact bits_valid [1, 0, 1, 1] (by decide)
    · intro l d hd r hr
      rw [h2 _ (SMap.mem_of_find hd)] at hr
      exact h3 r hr
  have m1 : ∀ e ∈ (wrun (Wisard.create 2 { mapping := [(b!"a", [[2, 0], [1, 3]])] })
      [.train ⟨Rnd.id, true⟩ (.vec [1, 0, 1, 1]) b!"a"]).1.discriminators, e.2.mapping = [[2, 0], [1, 3]] := by decide +kernel
  have m2 : ∀ e ∈ (wrun (Wisard.create 2 { mapping := [(b!"a", [[3, 1], [2, 0]])] })
      [.train ⟨rotRnd, true⟩ (.vec [1, 0, 1, 1]) b!"a"]).1.discriminators, e.2.mapping = [[3, 1], [2, 0]] := by decide +kernel
  refine ⟨_, _, good (Prod.ext rfl (by decide +kernel)) m1 (by decide), good (Prod.ext rfl (by decide +kernel)) m2 (by decide),
    ⟨rfl, rfl, rfl, rfl⟩, ?_⟩
  intro l d1 d2 h1 h2
  rw [m1 _ (SMap.mem_of_find h1), m2 _ (SMap.mem_of_find h2)]
  exact ⟨[[1, 3], [2, 0]], .swap _ _ _, .cons (.swap _ _ _) (.cons (.refl _) .nil)⟩

end Wis
