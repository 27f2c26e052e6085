import Verif.Props.Merge
/-!
# C200: two training sets together
-/

namespace Wis
open Spec

/-- **C200**: three Wisards without bleaching, whose classes are wired alike; the third learns the images of the first and those of the
second, in whatever order. For every picture the third knows the classes of the first and of the second, and scores each class at least
as high as each of them does, and at most as high as both together. -/
theorem C200_scores {w01 w02 w03 w1 w2 w3 : Wisard} {ops1 ops2 ops3 : List WOp} {n : Int} (g1 : GoodHistory w01 ops1 w1 n)
    (g2 : GoodHistory w02 ops2 w2 n) (g3 : GoodHistory w03 ops3 w3 n) (t1 : ∀ o ∈ ops1, o.isTrain = true) (t2 : ∀ o ∈ ops2, o.isTrain = true)
    (t3 : ∀ o ∈ ops3, o.isTrain = true) (hall : (trained ops3).Perm (trained ops1 ++ trained ops2))
    (b1 : w01.opts.bleachingActivated = false) (b2 : w02.opts.bleachingActivated = false) (b3 : w03.opts.bleachingActivated = false)
    (z1 : w01.opts.ignoreZero = w03.opts.ignoreZero) (z2 : w02.opts.ignoreZero = w03.opts.ignoreZero)
    (h1 : ∀ l d d3, w1.discriminators.find l = some d → w3.discriminators.find l = some d3 → d.mapping = d3.mapping)
    (h2 : ∀ l d d3, w2.discriminators.find l = some d → w3.discriminators.find l = some d3 → d.mapping = d3.mapping) {x : Image}
    (x1 : ValidImage n w01.opts.base x) (x2 : ValidImage n w02.opts.base x) (x3 : ValidImage n w03.opts.base x) :
    ∃ s1 s2 s3, w1.classify1 x = .ok s1 ∧ w2.classify1 x = .ok s2 ∧ w3.classify1 x = .ok s3 ∧
      ∀ l, ((s3.find l).isSome = ((s1.find l).isSome || (s2.find l).isSome)) ∧
        ∀ v3, s3.find l = some v3 → (∀ v, s1.find l = some v → v ≤ v3) ∧ (∀ v, s2.find l = some v → v ≤ v3) ∧
          v3 ≤ (s1.find l).getD 0 + (s2.find l).getD 0 := by
  obtain ⟨s1, a1, _, _, f1⟩ := C106_score_plain g1 t1 b1 x1
  obtain ⟨s2, a2, _, _, f2⟩ := C106_score_plain g2 t2 b2 x2
  obtain ⟨s3, a3, _, _, f3⟩ := C106_score_plain g3 t3 b3 x3
  refine ⟨s1, s2, s3, a1, a2, a3, fun l => ?_⟩
  have hmem : ∀ i, i ∈ trainedWith l ops3 ↔ i ∈ trainedWith l ops1 ∨ i ∈ trainedWith l ops2 := by
    intro i
    rw [mem_trainedWith, mem_trainedWith, mem_trainedWith, hall.mem_iff, List.mem_append]
  have k1 := g1.class_iff t1 l
  have k2 := g2.class_iff t2 l
  have k3 := g3.class_iff t3 l
  have hnil : trainedWith l ops3 = [] ↔ trainedWith l ops1 = [] ∧ trainedWith l ops2 = [] := by
    simp only [List.eq_nil_iff_forall_not_mem, hmem, not_or, forall_and]
  constructor
  · rw [f1, f2, f3]
    simp only [Option.isSome_map]
    rw [Bool.eq_iff_iff]
    simp only [Bool.or_eq_true, Option.isSome_iff_ne_none, ne_eq, k1, k2, k3, hnil]
    tauto
  · intro v3 hv3
    rw [f3] at hv3
    obtain ⟨d3, hd3, rfl⟩ := Option.map_eq_some_iff.mp hv3
    have p1 : ∀ v, s1.find l = some v → v = (knownBy w03.opts.ignoreZero 1 (trainedWith l ops1) x d3.mapping : Int) := by
      intro v hv
      rw [f1] at hv
      obtain ⟨d, hd, rfl⟩ := Option.map_eq_some_iff.mp hv
      rw [h1 l d d3 hd hd3, z1]
    have p2 : ∀ v, s2.find l = some v → v = (knownBy w03.opts.ignoreZero 1 (trainedWith l ops2) x d3.mapping : Int) := by
      intro v hv
      rw [f2] at hv
      obtain ⟨d, hd, rfl⟩ := Option.map_eq_some_iff.mp hv
      rw [h2 l d d3 hd hd3, z2]
    have zero : ∀ {M : List (List Int)} {z : Bool}, knownBy z 1 [] x M = 0 := by
      intro M z
      unfold knownBy
      rw [List.countP_eq_zero]
      intro m _ hm
      obtain ⟨⟨i, hi, _⟩, _⟩ := seen_iff.mp (of_decide_eq_true hm)
      cases hi
    have q1 : (s1.find l).getD 0 = (knownBy w03.opts.ignoreZero 1 (trainedWith l ops1) x d3.mapping : Int) := by
      cases hs : s1.find l with
      | some v => exact p1 v hs
      | none =>
        rw [f1, Option.map_eq_none_iff] at hs
        rw [k1.mp hs, zero]; rfl
    have q2 : (s2.find l).getD 0 = (knownBy w03.opts.ignoreZero 1 (trainedWith l ops2) x d3.mapping : Int) := by
      cases hs : s2.find l with
      | some v => exact p2 v hs
      | none =>
        rw [f2, Option.map_eq_none_iff] at hs
        rw [k2.mp hs, zero]; rfl
    refine ⟨fun v hv => ?_, fun v hv => ?_, ?_⟩
    · rw [p1 v hv]
      exact_mod_cast score_mono (fun i hi => (hmem i).mpr (.inl hi)) x d3.mapping
    · rw [p2 v hv]
      exact_mod_cast score_mono (fun i hi => (hmem i).mpr (.inr hi)) x d3.mapping
    · rw [q1, q2]
      have : knownBy w03.opts.ignoreZero 1 (trainedWith l ops3) x d3.mapping ≤
          knownBy w03.opts.ignoreZero 1 (trainedWith l ops1) x d3.mapping + knownBy w03.opts.ignoreZero 1 (trainedWith l ops2) x d3.mapping := by
        unfold knownBy
        generalize d3.mapping = M
        induction M with
        | nil => simp
        | cons m M ih =>
          rw [List.countP_cons, List.countP_cons, List.countP_cons]
          have : SeenOften w03.opts.ignoreZero 1 (trainedWith l ops3) x m →
              SeenOften w03.opts.ignoreZero 1 (trainedWith l ops1) x m ∨ SeenOften w03.opts.ignoreZero 1 (trainedWith l ops2) x m := by
            intro h
            obtain ⟨⟨i, hi, ha⟩, hz⟩ := seen_iff.mp h
            rcases (hmem i).mp hi with hi | hi
            · exact .inl (seen_iff.mpr ⟨⟨i, hi, ha⟩, hz⟩)
            · exact .inr (seen_iff.mpr ⟨⟨i, hi, ha⟩, hz⟩)
          simp only [decide_eq_true_eq]
          by_cases c3 : SeenOften w03.opts.ignoreZero 1 (trainedWith l ops3) x m
          · rcases this c3 with c | c <;> simp only [if_pos c3, if_pos c] <;> split <;> omega
          · rw [if_neg c3]; omega
      exact_mod_cast this

/-- The hypotheses of `C200_scores` are met: each part teaches one RAM of the class, both together teach both. -/
example : ∃ w1 w2 w3, GoodHistory (Wisard.create 2 { mapping := [(b!"a", [[2, 0], [1, 3]])], bleachingActivated := false })
      [.train ⟨Rnd.id, true⟩ (.vec [1, 0, 1, 1]) b!"a"] w1 4 ∧
    GoodHistory (Wisard.create 2 { mapping := [(b!"a", [[2, 0], [1, 3]])], bleachingActivated := false })
      [.train ⟨rotRnd, true⟩ (.vec [0, 0, 0, 0]) b!"a"] w2 4 ∧
    GoodHistory (Wisard.create 2 { mapping := [(b!"a", [[2, 0], [1, 3]])], bleachingActivated := false })
      [.train ⟨Rnd.id, false⟩ (.vec [0, 0, 0, 0]) b!"a", .train ⟨Rnd.id, false⟩ (.vec [1, 0, 1, 1]) b!"a"] w3 4 ∧
    w1.classify1 (.vec [1, 0, 1, 0]) = .ok [(b!"a", 1)] ∧ w2.classify1 (.vec [1, 0, 1, 0]) = .ok [(b!"a", 1)] ∧
    w3.classify1 (.vec [1, 0, 1, 0]) = .ok [(b!"a", 2)] := by
  have val : ∀ o : List Int, o = [1, 0, 1, 1] ∨ o = [0, 0, 0, 0] → ValidImage 4 2 (.vec o) := by
    rintro o (rfl | rfl)
    · exact bits_valid [1, 0, 1, 1] (by decide)
    · exact bits_valid [0, 0, 0, 0] (by decide)
  have good : ∀ {ops : List WOp} {w : Wisard}, wrun (Wisard.create 2 { mapping := [(b!"a", [[2, 0], [1, 3]])], bleachingActivated := false }) ops = (w, .ok ()) →
      (∀ e ∈ w.discriminators, e.2.mapping = [[2, 0], [1, 3]]) → (∀ o ∈ ops, o.img = .vec [1, 0, 1, 1] ∨ o.img = .vec [0, 0, 0, 0]) → ops.length ≤ 2147483647 →
      GoodHistory (Wisard.create 2 { mapping := [(b!"a", [[2, 0], [1, 3]])], bleachingActivated := false }) ops w 4 := by
    intro ops w k1 k2 k3 k4
    refine ⟨rfl, k1, ?_, ?_, k4⟩
    · intro o ho
      rcases k3 o ho with e | e <;> rw [e]
      · exact val _ (.inl rfl)
      · exact val _ (.inr rfl)
    · intro l d hd r hr
      rw [k2 _ (SMap.mem_of_find hd)] at hr
      revert r
      decide
  exact ⟨_, _, _, good (Prod.ext rfl (by decide +kernel)) (by decide +kernel) (by simp [WOp.img]) (by simp),
    good (Prod.ext rfl (by decide +kernel)) (by decide +kernel) (by simp [WOp.img]) (by simp),
    good (Prod.ext rfl (by decide +kernel)) (by decide +kernel) (by simp [WOp.img]) (by simp), by decide +kernel, by decide +kernel, by decide +kernel⟩

end Wis
