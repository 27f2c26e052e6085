import Verif.Spec.Redundant
import Verif.Props.Recode
import Verif.Props.RecodeClus
/-!
# C197: pixels that say nothing new do not matter
-/

namespace Wis
open Spec

theorem agree_thinned {X : List Image} {m m' : List Int} (h1 : ∀ a ∈ m', a ∈ m) (h2 : ∀ a ∈ m, Determines X m' a) {x y : Image} (hx : x ∈ X)
    (hy : y ∈ X) : Agree m x y ↔ Agree m' x y :=
  ⟨fun h a ha => h a (h1 a ha), fun h a ha => h2 a ha x hx y hy h⟩

theorem zero_thinned {m m' : List Int} (h1 : ∀ a ∈ m', a ∈ m) {x : Image} (h3 : ZeroOn m' x → ZeroOn m x) : ZeroOn m x ↔ ZeroOn m' x :=
  ⟨fun h a ha => h a (h1 a ha), h3⟩

/-- **C197** for Wisard: two models with the same rules, trained with the same labelled images. If, among all the images ever shown, each
RAM of the second reads what the same RAM of the first reads except for pixels that the others determine, then the models give the
same answers. -/
theorem C197_wisard {w01 w02 w1 w2 : Wisard} {ops1 ops2 : List WOp} {n1 n2 : Int} (g1 : GoodHistory w01 ops1 w1 n1) (g2 : GoodHistory w02 ops2 w2 n2)
    (hr : SameRules w01.opts w02.opts) (hops : List.Forall₂ (fun a b : WOp => a.isTrain = b.isTrain ∧ a.label = b.label ∧ a.img = b.img) ops1 ops2)
    {X : List Image} (hX : ∀ o ∈ ops1, o.img ∈ X)
    (hwire : ∀ l d1 d2, w1.discriminators.find l = some d1 → w2.discriminators.find l = some d2 → Thinned w01.opts.ignoreZero X d1.mapping d2.mapping)
    {xs : List Image} (hxX : ∀ x ∈ xs, x ∈ X) (hxs : ∀ x ∈ xs, ValidImage n1 w01.opts.base x ∧ ValidImage n2 w02.opts.base x) :
    (∀ x ∈ xs, w1.classify1 x = w2.classify1 x) ∧ w1.classify xs = w2.classify xs := by
  have key : ∀ x ∈ xs, w1.classify1 x = w2.classify1 x := by
    intro x hx
    refine C161_coincidences g1 g2 hr (hops.imp fun _ _ h => ⟨h.1, h.2.1⟩) (hxs x hx).1 (hxs x hx).2 fun l d1 d2 e1 e2 => ?_
    refine (hwire l d1 d2 e1 e2).imp fun m m' h => ⟨fun hz => zero_thinned h.1 (h.2.2 hz x (hxX x hx)), fun i o1 o2 h1 h2 _ => ?_⟩
    have he : o1.img = o2.img := by
      rw [List.forall₂_iff_get] at hops
      obtain ⟨l1, rfl⟩ := List.getElem?_eq_some_iff.mp h1
      obtain ⟨l2, rfl⟩ := List.getElem?_eq_some_iff.mp h2
      exact (hops.2 i l1 l2).2.2
    rw [← he]
    exact agree_thinned h.1 h.2.1 (hxX x hx) (hX o1 (List.mem_of_getElem? h1))
  refine ⟨key, ?_⟩
  clear hxX hxs
  induction xs with
  | nil => rfl
  | cons x xs ih => simp only [Wisard.classify, key x (by simp), ih fun y hy => key y (List.mem_cons_of_mem _ hy)]

/-- **C197** for Discriminator: the votes are the same, RAM by RAM, after any history of trainings and untrainings. -/
theorem C197_votes {n A A' : Int} {rnd rnd' : Rnd} {o o' : Options} {d0 d0' : Discriminator} (h : Discriminator.create rnd A n o = .ok d0)
    (h' : Discriminator.create rnd' A' n o' = .ok d0') (hw : WiredInside n d0.mapping) (hz : o'.ignoreZero = o.ignoreZero)
    (ops : List Op) (hlen : ops.length ≤ 2147483647) (hv : ∀ op ∈ ops, ValidImage n o.base op.img) (hv' : ∀ op ∈ ops, ValidImage n o'.base op.img)
    {X : List Image} (hX : ∀ op ∈ ops, op.img ∈ X) (hthin : Thinned o.ignoreZero X d0.mapping d0'.mapping)
    (x : Image) (hxX : x ∈ X) (hx : ValidImage n o.base x) (hx' : ValidImage n o'.base x) :
    ∃ d d' vs, run d0 ops = (d, .ok ()) ∧ run d0' ops = (d', .ok ()) ∧ d.classify x = .ok vs ∧ d'.classify x = .ok vs ∧
      vs.length = d0.mapping.length := by
  have hw' : WiredInside n d0'.mapping := by
    intro m' hm' a ha
    obtain ⟨i, hi, rfl⟩ := List.mem_iff_getElem.mp hm'
    have hl := hthin.length_eq
    have := (List.forall₂_iff_get.mp hthin).2 i (by omega) hi
    exact hw _ (List.getElem_mem (by omega)) a (this.1 a ha)
  obtain ⟨d, h1, _⟩ := run_created h hw ops hv hlen
  obtain ⟨d', h1', _⟩ := run_created h' hw' ops hv' hlen
  refine ⟨d, d', _, h1, h1', classify_created h hw hv hlen h1 hx, ?_, by simp⟩
  rw [classify_created h' hw' hv' hlen h1' hx', hz]
  clear hw hw' h h' h1 h1'
  unfold Thinned at hthin
  generalize d0.mapping = M at *
  generalize d0'.mapping = M' at *
  congr 1
  induction hthin with
  | nil => rfl
  | @cons m m' _ _ hm _ ih =>
    rw [List.map_cons, List.map_cons, ih]
    congr 1
    have e1 : matching m x ops = matching m' x ops :=
      List.filter_congr fun op ho => decide_eq_decide.mpr (agree_thinned hm.1 hm.2.1 hxX (hX op ho))
    have e2 : (o.ignoreZero = true ∧ ZeroOn m x) ↔ (o.ignoreZero = true ∧ ZeroOn m' x) :=
      and_congr_right fun hz => zero_thinned hm.1 (hm.2.2 hz x hxX)
    unfold vote
    simp only [e1, e2]

/-- **C197**: pixels that are the same in all pictures may be left out. -/
theorem C197_constant {X : List Image} (C : List Int) (hC : ∀ a ∈ C, ∀ x ∈ X, ∀ y ∈ X, x.read a = y.read a) (M : List (List Int)) :
    Thinned false X M (M.map (fun m => m.filter (fun a => !C.contains a))) := by
  unfold Thinned
  rw [List.forall₂_map_right_iff, List.forall₂_same]
  refine fun m _ => ⟨fun a ha => List.mem_of_mem_filter ha, fun a ha x hx y hy h => ?_, by simp⟩
  by_cases hc : a ∈ C
  · exact hC a hc x hx y hy
  · exact h a (List.mem_filter.mpr ⟨ha, by simpa using hc⟩)

/-- **C197**: so may a pixel whose value is a function of another pixel that the RAM reads, for instance its copy or its negative. -/
theorem C197_copies {X : List Image} {a b : Int} (hab : a ≠ b) {g : Res Int → Res Int} (hg : ∀ x ∈ X, x.read b = g (x.read a)) (M : List (List Int)) :
    Thinned false X M (M.map (fun m => if a ∈ m then m.filter (fun c => !decide (c = b)) else m)) := by
  unfold Thinned
  rw [List.forall₂_map_right_iff, List.forall₂_same]
  refine fun m _ => ⟨fun c hc => ?_, fun c hc x hx y hy h => ?_, by simp⟩
  · split at hc
    · exact List.mem_of_mem_filter hc
    · exact hc
  · split at h
    · rename_i ham
      by_cases hcb : c = b
      · rw [hcb, hg x hx, hg y hy, h a (List.mem_filter.mpr ⟨ham, by simpa using hab⟩)]
      · exact h c (List.mem_filter.mpr ⟨hc, by simpa using hcb⟩)
    · exact h c hc

/-- The hypotheses of `C197_wisard` are met: pixel 3 is the negative of pixel 1 in all pictures, and the second model does not read it. -/
example : ∃ w w' d d', GoodHistory (Wisard.create 2 { mapping := [(b!"a", [[2, 0], [1, 3]])], bleachingActivated := false })
      [.train ⟨Rnd.id, true⟩ (.vec [1, 0, 1, 1]) b!"a", .train ⟨Rnd.id, true⟩ (.vec [0, 1, 1, 0]) b!"a"] w 4 ∧
    GoodHistory (Wisard.create 2 { mapping := [(b!"a", [[2, 0], [1]])], bleachingActivated := false })
      [.train ⟨rotRnd, true⟩ (.vec [1, 0, 1, 1]) b!"a", .train ⟨Rnd.id, false⟩ (.vec [0, 1, 1, 0]) b!"a"] w' 4 ∧
    w.discriminators.find b!"a" = some d ∧ w'.discriminators.find b!"a" = some d' ∧
    Thinned false [.vec [1, 0, 1, 1], .vec [0, 1, 1, 0], .vec [0, 0, 0, 1]] d.mapping d'.mapping ∧
    w.classify1 (.vec [0, 0, 0, 1]) = .ok [(b!"a", 1)] ∧ w'.classify1 (.vec [0, 0, 0, 1]) = .ok [(b!"a", 1)] := by
  refine ⟨(wrun (Wisard.create 2 { mapping := [(b!"a", [[2, 0], [1, 3]])], bleachingActivated := false })
      [.train ⟨Rnd.id, true⟩ (.vec [1, 0, 1, 1]) b!"a", .train ⟨Rnd.id, true⟩ (.vec [0, 1, 1, 0]) b!"a"]).1,
    (wrun (Wisard.create 2 { mapping := [(b!"a", [[2, 0], [1]])], bleachingActivated := false })
      [.train ⟨rotRnd, true⟩ (.vec [1, 0, 1, 1]) b!"a", .train ⟨Rnd.id, false⟩ (.vec [0, 1, 1, 0]) b!"a"]).1, _, _,
    ⟨rfl, by decide +kernel, ?_, ?_, by decide⟩, ⟨rfl, by decide +kernel, ?_, ?_, by decide⟩, rfl, rfl, ?_, by decide +kernel, by decide +kernel⟩
  · intro o ho
    rcases List.mem_cons.mp ho with rfl | ho
    · exact bits_valid [1, 0, 1, 1] (by decide)
    · cases List.mem_singleton.mp ho
      exact bits_valid [0, 1, 1, 0] (by decide)
  · have h : ∀ e ∈ (wrun (Wisard.create 2 { mapping := [(b!"a", [[2, 0], [1, 3]])], bleachingActivated := false })
      [.train ⟨Rnd.id, true⟩ (.vec [1, 0, 1, 1]) b!"a", .train ⟨Rnd.id, true⟩ (.vec [0, 1, 1, 0]) b!"a"]).1.discriminators,
      ∀ m ∈ e.2.mapping, ∀ a ∈ m, 0 ≤ a ∧ a < (4 : Int) := by decide +kernel
    exact fun l d hd m hm => h _ (SMap.mem_of_find hd) m hm
  · intro o ho
    rcases List.mem_cons.mp ho with rfl | ho
    · exact bits_valid [1, 0, 1, 1] (by decide)
    · cases List.mem_singleton.mp ho
      exact bits_valid [0, 1, 1, 0] (by decide)
  · have h : ∀ e ∈ (wrun (Wisard.create 2 { mapping := [(b!"a", [[2, 0], [1]])], bleachingActivated := false })
      [.train ⟨rotRnd, true⟩ (.vec [1, 0, 1, 1]) b!"a", .train ⟨Rnd.id, false⟩ (.vec [0, 1, 1, 0]) b!"a"]).1.discriminators,
      ∀ m ∈ e.2.mapping, ∀ a ∈ m, 0 ≤ a ∧ a < (4 : Int) := by decide +kernel
    exact fun l d hd m hm => h _ (SMap.mem_of_find hd) m hm
  · exact C197_copies (a := 1) (b := 3) (by decide) (g := fun r => if r = .ok 0 then .ok 1 else .ok 0) (by decide +kernel) [[2, 0], [1, 3]]

end Wis
