import Verif.Props.Semantics
import Verif.Props.Reproducible
import Verif.Props.RecodeClus
import Verif.Props.MentalImages
/-!
# C198: models can be put side by side
-/

namespace Wis
open Spec

/-- **C198**: put Discriminators side by side. The wiring of the third is that of the first followed by that of the second; all learn (and
forget) the same pictures. For every picture the votes of the third are those of the first followed by those of the second. -/
theorem C198_votes {n A1 A2 A3 : Int} {r1 r2 r3 : Rnd} {o1 o2 o3 : Options} {d1 d2 d3 : Discriminator}
    (c1 : Discriminator.create r1 A1 n o1 = .ok d1) (c2 : Discriminator.create r2 A2 n o2 = .ok d2) (c3 : Discriminator.create r3 A3 n o3 = .ok d3)
    (hm : d3.mapping = d1.mapping ++ d2.mapping) (hw : WiredInside n d3.mapping)
    (hz1 : o1.ignoreZero = o3.ignoreZero) (hz2 : o2.ignoreZero = o3.ignoreZero)
    (ops : List Op) (v1 : ∀ op ∈ ops, ValidImage n o1.base op.img) (v2 : ∀ op ∈ ops, ValidImage n o2.base op.img)
    (v3 : ∀ op ∈ ops, ValidImage n o3.base op.img) (hlen : ops.length ≤ 2147483647) (x : Image) (x1 : ValidImage n o1.base x)
    (x2 : ValidImage n o2.base x) (x3 : ValidImage n o3.base x) :
    ∃ e1 e2 e3 p q, run d1 ops = (e1, .ok ()) ∧ run d2 ops = (e2, .ok ()) ∧ run d3 ops = (e3, .ok ()) ∧
      e1.classify x = .ok p ∧ e2.classify x = .ok q ∧ p.length = d1.mapping.length ∧ q.length = d2.mapping.length ∧
      e3.classify x = .ok (p ++ q) := by
  have w1 : WiredInside n d1.mapping := fun m h => hw m (by rw [hm]; exact List.mem_append_left _ h)
  have w2 : WiredInside n d2.mapping := fun m h => hw m (by rw [hm]; exact List.mem_append_right _ h)
  obtain ⟨e1, a1, _⟩ := run_created c1 w1 ops v1 hlen
  obtain ⟨e2, a2, _⟩ := run_created c2 w2 ops v2 hlen
  obtain ⟨e3, a3, _⟩ := run_created c3 hw ops v3 hlen
  refine ⟨e1, e2, e3, _, _, a1, a2, a3, classify_created c1 w1 v1 hlen a1 x1, classify_created c2 w2 v2 hlen a2 x2, by simp, by simp, ?_⟩
  rw [classify_created c3 hw v3 hlen a3 x3, hm, List.map_append, hz1, hz2]

/-- **C198**: their mental images add, pixel by pixel. -/
theorem C198_mental {n A1 A2 A3 : Int} {r1 r2 r3 : Rnd} {o1 o2 o3 : Options} {d1 d2 d3 : Discriminator}
    (c1 : Discriminator.create r1 A1 n o1 = .ok d1) (c2 : Discriminator.create r2 A2 n o2 = .ok d2) (c3 : Discriminator.create r3 A3 n o3 = .ok d3)
    (hm : d3.mapping = d1.mapping ++ d2.mapping) (hw : WiredInside n d3.mapping) (hn : 0 ≤ n)
    (hb1 : o1.base = o3.base) (hb2 : o2.base = o3.base) (hfit : ∀ m ∈ d3.mapping, o3.base ^ m.length ≤ 2 ^ 31)
    (ops : List Op) (hl : Legal ops) (hv : ∀ op ∈ ops, ValidImage n o3.base op.img) (hlen : ops.length ≤ 2147483647)
    (hsum : ∀ i : Int, (d3.mapping.flatten.count i : Int) * ops.length ≤ 2147483647) (it1 it2 it3 : IterOrder) :
    ∃ e1 e2 e3 p q s, run d1 ops = (e1, .ok ()) ∧ run d2 ops = (e2, .ok ()) ∧ run d3 ops = (e3, .ok ()) ∧
      e1.getMentalImage it1 = .ok p ∧ e2.getMentalImage it2 = .ok q ∧ e3.getMentalImage it3 = .ok s ∧
      (p.length : Int) = n ∧ (q.length : Int) = n ∧ s = List.zipWith (· + ·) p q := by
  have w1 : WiredInside n d1.mapping := fun m h => hw m (by rw [hm]; exact List.mem_append_left _ h)
  have w2 : WiredInside n d2.mapping := fun m h => hw m (by rw [hm]; exact List.mem_append_right _ h)
  have hc : ∀ i : Int, d3.mapping.flatten.count i = d1.mapping.flatten.count i + d2.mapping.flatten.count i := by
    intro i
    rw [hm, List.flatten_append, List.count_append]
  have s1 : ∀ i : Int, (d1.mapping.flatten.count i : Int) * ops.length ≤ 2147483647 := by
    intro i
    have := hsum i
    rw [hc i] at this
    push_cast at this
    rw [add_mul] at this
    have : (0 : Int) ≤ (d2.mapping.flatten.count i : Int) * ops.length := Int.mul_nonneg (by omega) (by omega)
    omega
  have s2 : ∀ i : Int, (d2.mapping.flatten.count i : Int) * ops.length ≤ 2147483647 := by
    intro i
    have := hsum i
    rw [hc i] at this
    push_cast at this
    rw [add_mul] at this
    have : (0 : Int) ≤ (d1.mapping.flatten.count i : Int) * ops.length := Int.mul_nonneg (by omega) (by omega)
    omega
  obtain ⟨e1, p, a1, b1, f1, g1⟩ := C17_mental_image_history c1 w1 hn
    (by rw [hb1]; exact fun m h => hfit m (by rw [hm]; exact List.mem_append_left _ h)) ops hl (by rw [hb1]; exact hv) hlen s1 it1
  obtain ⟨e2, q, a2, b2, f2, g2⟩ := C17_mental_image_history c2 w2 hn
    (by rw [hb2]; exact fun m h => hfit m (by rw [hm]; exact List.mem_append_right _ h)) ops hl (by rw [hb2]; exact hv) hlen s2 it2
  obtain ⟨e3, s, a3, b3, f3, g3⟩ := C17_mental_image_history c3 hw hn hfit ops hl hv hlen hsum it3
  refine ⟨e1, e2, e3, p, q, s, a1, a2, a3, b1, b2, b3, f1, f2, ?_⟩
  apply List.ext_getElem
  · rw [List.length_zipWith]; omega
  intro i hi hi'
  rw [List.length_zipWith] at hi'
  rw [List.getElem_zipWith, g3 i hi, g1 i (by omega), g2 i (by omega), hc]
  push_cast
  ring

/-- **C198** for Wisard, without bleaching: three models learn the same labelled images. If the wiring of each class in the third model is
its wiring in the first followed by its wiring in the second, then the three know the same classes, and each score of the third is the
sum of the scores of the first two. -/
theorem C198_scores {w01 w02 w03 w1 w2 w3 : Wisard} {ops1 ops2 ops3 : List WOp} {n : Int} (g1 : GoodHistory w01 ops1 w1 n)
    (g2 : GoodHistory w02 ops2 w2 n) (g3 : GoodHistory w03 ops3 w3 n) (t1 : ∀ o ∈ ops1, o.isTrain = true) (t2 : ∀ o ∈ ops2, o.isTrain = true)
    (t3 : ∀ o ∈ ops3, o.isTrain = true) (h1 : trained ops1 = trained ops3) (h2 : trained ops2 = trained ops3)
    (b1 : w01.opts.bleachingActivated = false) (b2 : w02.opts.bleachingActivated = false) (b3 : w03.opts.bleachingActivated = false)
    (z1 : w01.opts.ignoreZero = w03.opts.ignoreZero) (z2 : w02.opts.ignoreZero = w03.opts.ignoreZero)
    (hwire : ∀ l d1 d2 d3, w1.discriminators.find l = some d1 → w2.discriminators.find l = some d2 → w3.discriminators.find l = some d3 →
      d3.mapping = d1.mapping ++ d2.mapping) {x : Image}
    (x1 : ValidImage n w01.opts.base x) (x2 : ValidImage n w02.opts.base x) (x3 : ValidImage n w03.opts.base x) :
    ∃ s1 s2 s3, w1.classify1 x = .ok s1 ∧ w2.classify1 x = .ok s2 ∧ w3.classify1 x = .ok s3 ∧
      ∀ l, (s1.find l = none ∧ s2.find l = none ∧ s3.find l = none) ∨
        ∃ v1 v2, s1.find l = some v1 ∧ s2.find l = some v2 ∧ s3.find l = some (v1 + v2) := by
  obtain ⟨s1, a1, _, _, f1⟩ := C106_score_plain g1 t1 b1 x1
  obtain ⟨s2, a2, _, _, f2⟩ := C106_score_plain g2 t2 b2 x2
  obtain ⟨s3, a3, _, _, f3⟩ := C106_score_plain g3 t3 b3 x3
  refine ⟨s1, s2, s3, a1, a2, a3, fun l => ?_⟩
  have i1 : trainedWith l ops1 = trainedWith l ops3 := by unfold trainedWith; rw [h1]
  have i2 : trainedWith l ops2 = trainedWith l ops3 := by unfold trainedWith; rw [h2]
  have k1 := g1.class_iff t1 l
  have k2 := g2.class_iff t2 l
  have k3 := g3.class_iff t3 l
  rw [i1] at k1
  rw [i2] at k2
  rw [f1, f2, f3, i1, i2, z1, z2]
  cases e3 : w3.discriminators.find l with
  | none => exact .inl ⟨by rw [k1.mpr (k3.mp e3)]; rfl, by rw [k2.mpr (k3.mp e3)]; rfl, rfl⟩
  | some d3 =>
    cases e1 : w1.discriminators.find l with
    | none => rw [k3.mpr (k1.mp e1)] at e3; cases e3
    | some d1 =>
      cases e2 : w2.discriminators.find l with
      | none => rw [k3.mpr (k2.mp e2)] at e3; cases e3
      | some d2 =>
        refine .inr ⟨_, _, rfl, rfl, ?_⟩
        simp only [Option.map_some, hwire l d1 d2 d3 e1 e2 e3, Option.some.injEq]
        unfold knownBy
        rw [List.countP_append]
        push_cast
        rfl

/-- The hypotheses of `C198_votes` and `C198_mental` are met. -/
example : ∃ d1 d2 d3 e3, Discriminator.create Rnd.id 2 4 { mapping := [[2, 0]] } = .ok d1 ∧ Discriminator.create Rnd.id 2 4 { mapping := [[1, 3]] } = .ok d2 ∧
    Discriminator.create Rnd.id 2 4 { mapping := [[2, 0], [1, 3]] } = .ok d3 ∧ d3.mapping = d1.mapping ++ d2.mapping ∧ WiredInside 4 d3.mapping ∧
    ValidImage 4 2 (.vec [1, 0, 1, 1]) ∧ Legal [.train (.vec [1, 0, 1, 1])] ∧ run d3 [.train (.vec [1, 0, 1, 1])] = (e3, .ok ()) ∧
    e3.classify (.vec [0, 0, 1, 1]) = .ok [0, 1] :=
  ⟨_, _, _, _, rfl, rfl, rfl, rfl, by unfold WiredInside; decide +kernel, bits_valid [1, 0, 1, 1] (by decide), legal_trains [_],
    Prod.ext rfl (by decide +kernel), by decide +kernel⟩

/-- The hypotheses of `C198_scores` are met: two models with one RAM each, and the model with both. -/
example : ∃ w1 w2 w3, GoodHistory (Wisard.create 2 { mapping := [(b!"a", [[2, 0]])], bleachingActivated := false })
      [.train ⟨Rnd.id, true⟩ (.vec [1, 0, 1, 1]) b!"a"] w1 4 ∧
    GoodHistory (Wisard.create 2 { mapping := [(b!"a", [[1, 3]])], bleachingActivated := false })
      [.train ⟨rotRnd, true⟩ (.vec [1, 0, 1, 1]) b!"a"] w2 4 ∧
    GoodHistory (Wisard.create 2 { mapping := [(b!"a", [[2, 0], [1, 3]])], bleachingActivated := false })
      [.train ⟨Rnd.id, false⟩ (.vec [1, 0, 1, 1]) b!"a"] w3 4 ∧
    (∀ l d1 d2 d3, w1.discriminators.find l = some d1 → w2.discriminators.find l = some d2 → w3.discriminators.find l = some d3 →
      d3.mapping = d1.mapping ++ d2.mapping) ∧
    w1.classify1 (.vec [1, 1, 1, 1]) = .ok [(b!"a", 1)] ∧ w2.classify1 (.vec [1, 0, 1, 1]) = .ok [(b!"a", 1)] ∧
    w3.classify1 (.vec [1, 0, 1, 1]) = .ok [(b!"a", 2)] := by
  have good : ∀ {m : List (List Int)} {e : Env} {w : Wisard}, wrun (Wisard.create 2 { mapping := [(b!"a", m)], bleachingActivated := false })
      [.train e (.vec [1, 0, 1, 1]) b!"a"] = (w, .ok ()) → (∀ e ∈ w.discriminators, e.2.mapping = m) → (∀ r ∈ m, ∀ a ∈ r, 0 ≤ a ∧ a < (4 : Int)) →
      GoodHistory (Wisard.create 2 { mapping := [(b!"a", m)], bleachingActivated := false }) [.train e (.vec [1, 0, 1, 1]) b!"a"] w 4 := by
    intro m e w h1 h2 h3
    refine ⟨rfl, h1, ?_, ?_, by simp⟩
    · intro o ho
      cases List.mem_singleton.mp ho
      exact bits_valid [1, 0, 1, 1] (by decide)
    · intro l d hd r hr
      rw [h2 _ (SMap.mem_of_find hd)] at hr
      exact h3 r hr
  have m1 : ∀ e ∈ (wrun (Wisard.create 2 { mapping := [(b!"a", [[2, 0]])], bleachingActivated := false })
      [.train ⟨Rnd.id, true⟩ (.vec [1, 0, 1, 1]) b!"a"]).1.discriminators, e.2.mapping = [[2, 0]] := by decide +kernel
  have m2 : ∀ e ∈ (wrun (Wisard.create 2 { mapping := [(b!"a", [[1, 3]])], bleachingActivated := false })
      [.train ⟨rotRnd, true⟩ (.vec [1, 0, 1, 1]) b!"a"]).1.discriminators, e.2.mapping = [[1, 3]] := by decide +kernel
  have m3 : ∀ e ∈ (wrun (Wisard.create 2 { mapping := [(b!"a", [[2, 0], [1, 3]])], bleachingActivated := false })
      [.train ⟨Rnd.id, false⟩ (.vec [1, 0, 1, 1]) b!"a"]).1.discriminators, e.2.mapping = [[2, 0], [1, 3]] := by decide +kernel
  refine ⟨_, _, _, good (Prod.ext rfl (by decide +kernel)) m1 (by decide), good (Prod.ext rfl (by decide +kernel)) m2 (by decide),
    good (Prod.ext rfl (by decide +kernel)) m3 (by decide), ?_, by decide +kernel, by decide +kernel, by decide +kernel⟩
  intro l d1 d2 d3 h1 h2 h3
  rw [m1 _ (SMap.mem_of_find h1), m2 _ (SMap.mem_of_find h2), m3 _ (SMap.mem_of_find h3)]
  rfl

end Wis
