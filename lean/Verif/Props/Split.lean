import Verif.Props.Semantics
import Verif.Props.Reproducible
import Verif.Props.RecodeClus
import Verif.Props.MentalImages
/-!
# C196: training can be split
-/

namespace Wis
open Spec

theorem legal_append {n : Int} {h1 h2 : List Op} (l1 : Legal h1) (l2 : Legal h2) (v1 : ∀ o ∈ h1, (o.img.size : Int) = n) : Legal (h1 ++ h2) := by
  intro pre img post e
  rcases List.append_eq_append_iff.mp e with ⟨as, h3, h4⟩ | ⟨bs, h3, h4⟩
  · subst h3
    rw [List.filter_append, net_append]
    have p := l2 as img post h4
    have q := (legal_pred l1 v1 (fun y => decide (Same img y)) (by
      intro a b _ hab
      rw [decide_eq_decide]
      exact ⟨fun e => e.trans hab, fun e => e.trans hab.symm⟩)).2
    omega
  · cases bs with
    | nil =>
      simp only [List.append_nil] at h3
      simp only [List.nil_append] at h4
      subst h3
      have p := l2 [] img post (by simpa using h4.symm)
      simp [net] at p
    | cons b bs =>
      simp only [List.cons_append, List.cons.injEq] at h4
      obtain ⟨rfl, h4⟩ := h4
      exact l1 pre img bs h3

/-- **C196**: training can be split. Three Discriminators wired alike, with the same `ignoreZero`; the first learns one part of a
history, the second the other, the third everything. For every picture the votes of the third are the sums of the votes of the first
two. (In each part only trained images are untrained.) -/
theorem C196_votes {n A1 A2 A3 : Int} {r1 r2 r3 : Rnd} {o1 o2 o3 : Options} {d1 d2 d3 : Discriminator}
    (c1 : Discriminator.create r1 A1 n o1 = .ok d1) (c2 : Discriminator.create r2 A2 n o2 = .ok d2) (c3 : Discriminator.create r3 A3 n o3 = .ok d3)
    (hm1 : d1.mapping = d3.mapping) (hm2 : d2.mapping = d3.mapping) (hw : WiredInside n d3.mapping)
    (hz1 : o1.ignoreZero = o3.ignoreZero) (hz2 : o2.ignoreZero = o3.ignoreZero) (hb1 : o1.base = o3.base) (hb2 : o2.base = o3.base)
    (h1 h2 : List Op) (l1 : Legal h1) (l2 : Legal h2) (v1 : ∀ op ∈ h1, ValidImage n o3.base op.img) (v2 : ∀ op ∈ h2, ValidImage n o3.base op.img)
    (hlen : h1.length + h2.length ≤ 2147483647) (x : Image) (hx : ValidImage n o3.base x) :
    ∃ e1 e2 e3 p q, run d1 h1 = (e1, .ok ()) ∧ run d2 h2 = (e2, .ok ()) ∧ run d3 (h1 ++ h2) = (e3, .ok ()) ∧
      e1.classify x = .ok p ∧ e2.classify x = .ok q ∧ p.length = d3.mapping.length ∧ q.length = d3.mapping.length ∧
      e3.classify x = .ok (List.zipWith (· + ·) p q) := by
  have v3 : ∀ op ∈ h1 ++ h2, ValidImage n o3.base op.img := by
    intro op ho
    rcases List.mem_append.mp ho with h | h
    · exact v1 op h
    · exact v2 op h
  have l3 := legal_append l1 l2 (fun o ho => (v1 o ho).1)
  obtain ⟨e1, a1, _⟩ := run_created c1 (by rw [hm1]; exact hw) h1 (by rw [hb1]; exact v1) (by omega)
  obtain ⟨e2, a2, _⟩ := run_created c2 (by rw [hm2]; exact hw) h2 (by rw [hb2]; exact v2) (by omega)
  obtain ⟨e3, a3, _⟩ := run_created c3 hw (h1 ++ h2) v3 (by rw [List.length_append]; omega)
  have k1 := classify_created c1 (by rw [hm1]; exact hw) (by rw [hb1]; exact v1) (by omega) a1 (x := x) (by rw [hb1]; exact hx)
  have k2 := classify_created c2 (by rw [hm2]; exact hw) (by rw [hb2]; exact v2) (by omega) a2 (x := x) (by rw [hb2]; exact hx)
  have k3 := classify_created c3 hw v3 (by rw [List.length_append]; omega) a3 hx
  rw [hm1, hz1] at k1
  rw [hm2, hz2] at k2
  refine ⟨e1, e2, e3, _, _, a1, a2, a3, k1, k2, by simp, by simp, ?_⟩
  rw [k3, List.zipWith_map_left, List.zipWith_map_right, List.zipWith_self]
  congr 1
  apply List.map_congr_left
  intro m hm
  split
  · rfl
  · have ha := fun a ha => hw m hm a ha
    rw [(legal_vote l1 v1 ha x).1, (legal_vote l2 v2 ha x).1, (legal_vote l3 v3 ha x).1]
    unfold matching
    rw [List.filter_append, net_append]

/-- **C196**: so are their mental images, pixel by pixel. -/
theorem C196_mental {n A1 A2 A3 : Int} {r1 r2 r3 : Rnd} {o1 o2 o3 : Options} {d1 d2 d3 : Discriminator}
    (c1 : Discriminator.create r1 A1 n o1 = .ok d1) (c2 : Discriminator.create r2 A2 n o2 = .ok d2) (c3 : Discriminator.create r3 A3 n o3 = .ok d3)
    (hm1 : d1.mapping = d3.mapping) (hm2 : d2.mapping = d3.mapping) (hw : WiredInside n d3.mapping) (hn : 0 ≤ n)
    (hb1 : o1.base = o3.base) (hb2 : o2.base = o3.base) (hfit : ∀ m ∈ d3.mapping, o3.base ^ m.length ≤ 2 ^ 31)
    (h1 h2 : List Op) (l1 : Legal h1) (l2 : Legal h2) (v1 : ∀ op ∈ h1, ValidImage n o3.base op.img) (v2 : ∀ op ∈ h2, ValidImage n o3.base op.img)
    (hlen : h1.length + h2.length ≤ 2147483647)
    (hsum : ∀ i : Int, (d3.mapping.flatten.count i : Int) * (h1.length + h2.length : Nat) ≤ 2147483647) (it1 it2 it3 : IterOrder) :
    ∃ e1 e2 e3 p q s, run d1 h1 = (e1, .ok ()) ∧ run d2 h2 = (e2, .ok ()) ∧ run d3 (h1 ++ h2) = (e3, .ok ()) ∧
      e1.getMentalImage it1 = .ok p ∧ e2.getMentalImage it2 = .ok q ∧ e3.getMentalImage it3 = .ok s ∧
      (p.length : Int) = n ∧ (q.length : Int) = n ∧ s = List.zipWith (· + ·) p q := by
  have v3 : ∀ op ∈ h1 ++ h2, ValidImage n o3.base op.img := by
    intro op ho
    rcases List.mem_append.mp ho with h | h
    · exact v1 op h
    · exact v2 op h
  have l3 := legal_append l1 l2 (fun o ho => (v1 o ho).1)
  have mono : ∀ k : Nat, k ≤ h1.length + h2.length → ∀ i : Int, (d3.mapping.flatten.count i : Int) * k ≤ 2147483647 := by
    intro k hk i
    have := hsum i
    have : (d3.mapping.flatten.count i : Int) * k ≤ (d3.mapping.flatten.count i : Int) * (h1.length + h2.length : Nat) :=
      Int.mul_le_mul_of_nonneg_left (by exact_mod_cast hk) (by omega)
    omega
  obtain ⟨e1, p, a1, b1, f1, g1⟩ := C17_mental_image_history c1 (by rw [hm1]; exact hw) hn (by rw [hm1, hb1]; exact hfit) h1 l1
    (by rw [hb1]; exact v1) (by omega) (by rw [hm1]; exact mono _ (by omega)) it1
  obtain ⟨e2, q, a2, b2, f2, g2⟩ := C17_mental_image_history c2 (by rw [hm2]; exact hw) hn (by rw [hm2, hb2]; exact hfit) h2 l2
    (by rw [hb2]; exact v2) (by omega) (by rw [hm2]; exact mono _ (by omega)) it2
  obtain ⟨e3, s, a3, b3, f3, g3⟩ := C17_mental_image_history c3 hw hn hfit (h1 ++ h2) l3 v3 (by rw [List.length_append]; omega)
    (mono _ (by rw [List.length_append])) it3
  refine ⟨e1, e2, e3, p, q, s, a1, a2, a3, b1, b2, b3, f1, f2, ?_⟩
  apply List.ext_getElem
  · rw [List.length_zipWith]; omega
  intro i hi hi'
  rw [List.length_zipWith] at hi'
  rw [List.getElem_zipWith, g3 i hi, g1 i (by omega), g2 i (by omega), hm1, hm2, List.filter_append, net_append]
  ring

/-- The hypotheses of `C196_votes` and `C196_mental` are met: one Discriminator learns a picture twice and forgets it once, one learns another
picture, and one does all of it. -/
example : ∃ d e1 e2 e3, Discriminator.create Rnd.id 2 4 { indexes := [2, 0, 1, 3] } = .ok d ∧ WiredInside 4 d.mapping ∧
    Legal [.train (.vec [1, 0, 1, 1]), .train (.vec [1, 0, 1, 1]), .untrain (.vec [1, 0, 1, 1])] ∧ Legal [.train (.vec [0, 0, 1, 1])] ∧
    ValidImage 4 2 (.vec [1, 0, 1, 1]) ∧ ValidImage 4 2 (.vec [0, 0, 1, 1]) ∧
    run d [.train (.vec [1, 0, 1, 1]), .train (.vec [1, 0, 1, 1]), .untrain (.vec [1, 0, 1, 1])] = (e1, .ok ()) ∧
    run d [.train (.vec [0, 0, 1, 1])] = (e2, .ok ()) ∧
    run d [.train (.vec [1, 0, 1, 1]), .train (.vec [1, 0, 1, 1]), .untrain (.vec [1, 0, 1, 1]), .train (.vec [0, 0, 1, 1])] = (e3, .ok ()) ∧
    e1.classify (.vec [0, 0, 1, 1]) = .ok [0, 1] ∧ e2.classify (.vec [0, 0, 1, 1]) = .ok [1, 1] ∧
    e3.classify (.vec [0, 0, 1, 1]) = .ok [1, 2] := by
  refine ⟨_, _, _, _, rfl, by unfold WiredInside; decide +kernel, ?_, legal_trains [_], bits_valid [1, 0, 1, 1] (by decide),
    bits_valid [0, 0, 1, 1] (by decide), Prod.ext rfl (by decide +kernel), Prod.ext rfl (by decide +kernel), Prod.ext rfl (by decide +kernel),
    by decide +kernel, by decide +kernel, by decide +kernel⟩
  intro pre img post e
  match pre, e with
  | [_, _], e =>
    simp only [List.cons_append, List.nil_append, List.cons.injEq, Op.untrain.injEq] at e
    obtain ⟨rfl, rfl, rfl, _⟩ := e
    decide +kernel
  | [], e => simp at e
  | [_], e => simp at e
  | _ :: _ :: _ :: _, e => simp at e

end Wis
