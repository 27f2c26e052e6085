import Verif.Model.Bleaching
import Verif.Spec.Bleaching
import Verif.Lemmas.SMap
import Verif.Lemmas.Discriminator
/-! Bleaching: the code's loops against counting. -/

namespace Wis
open Spec
namespace Bleaching

theorem countFrom_eq (b : Int) (vs : List Int) : ∀ n, countFrom b vs n = n + (active b vs : Int) := by
  induction vs with
  | nil => intro n; simp [countFrom, active]
  | cons v vs ih =>
    intro n
    simp only [countFrom, ih, active, List.countP_cons]
    by_cases h : b ≤ v
    · simp [h]; omega
    · simp [h]

theorem scores_eq (votes : Votes) (b : Int) : scores votes b = activeAll b votes := by
  unfold scores activeAll
  apply List.map_congr_left
  intro e _
  rw [countFrom_eq]; simp

theorem ambLoop_spec (c : Int) (m : Scores) : ∀ (b : Int) (a : Bool),
    ((ambLoop c m b a).1 = true ∧ 1 < (ambLoop c m b a).2) ↔
      ((1 < b ∧ (∀ e ∈ m, e.2 ≤ b) ∧ (a = true ∨ ∃ e ∈ m, b - e.2 < c)) ∨
       (∃ pre x post, m = pre ++ x :: post ∧ b < x.2 ∧ (∀ e ∈ pre, e.2 < x.2) ∧ (∀ e ∈ post, e.2 ≤ x.2) ∧
          1 < x.2 ∧ ∃ e ∈ post, x.2 - e.2 < c)) := by
  induction m with
  | nil => intro b a; simp [ambLoop, and_comm]
  | cons e m ih =>
    intro b a
    obtain ⟨l, s⟩ := e
    simp only [ambLoop]
    have key : (∃ pre x post, (l, s) :: m = pre ++ x :: post ∧ b < x.2 ∧ (∀ e ∈ pre, e.2 < x.2) ∧
          (∀ e ∈ post, e.2 ≤ x.2) ∧ 1 < x.2 ∧ ∃ e ∈ post, x.2 - e.2 < c) ↔
        ((b < s ∧ (∀ e ∈ m, e.2 ≤ s) ∧ 1 < s ∧ ∃ e ∈ m, s - e.2 < c) ∨
         ∃ pre x post, m = pre ++ x :: post ∧ b < x.2 ∧ s < x.2 ∧ (∀ e ∈ pre, e.2 < x.2) ∧
          (∀ e ∈ post, e.2 ≤ x.2) ∧ 1 < x.2 ∧ ∃ e ∈ post, x.2 - e.2 < c) := by
      constructor
      · rintro ⟨pre, x, post, h1, h2, h3, h4, h5, h6⟩
        cases pre with
        | nil =>
          simp only [List.nil_append, List.cons.injEq] at h1
          obtain ⟨rfl, rfl⟩ := h1
          exact .inl ⟨h2, h4, h5, h6⟩
        | cons p pre =>
          simp only [List.cons_append, List.cons.injEq] at h1
          obtain ⟨rfl, rfl⟩ := h1
          exact .inr ⟨pre, x, post, rfl, h2, h3 (l, s) (by simp), fun e he => h3 e (by simp [he]), h4, h5, h6⟩
      · rintro (⟨h1, h2, h3, h4⟩ | ⟨pre, x, post, h1, h2, h3, h4, h5, h6, h7⟩)
        · exact ⟨[], (l, s), m, rfl, h1, by simp, h2, h3, h4⟩
        · refine ⟨(l, s) :: pre, x, post, by rw [h1]; rfl, h2, ?_, h5, h6, h7⟩
          intro e he
          rcases List.mem_cons.mp he with he | he
          · rw [he]; exact h3
          · exact h4 e he
    rw [key]
    by_cases h1 : s > b
    · rw [if_pos h1, ih]
      constructor
      · rintro (⟨h2, h3, h4⟩ | ⟨pre, x, post, h2, h3, h4⟩)
        · right; left
          refine ⟨h1, h3, h2, ?_⟩
          rcases h4 with h4 | h4
          · cases h4
          · exact h4
        · right; right
          exact ⟨pre, x, post, h2, by omega, h3, h4⟩
      · rintro (⟨h2, h3, h4⟩ | ⟨h2, h3, h4, h5⟩ | ⟨pre, x, post, h2, h3, h4, h5⟩)
        · have := h3 (l, s) (by simp); simp only at this; omega
        · left; exact ⟨h4, h3, .inr h5⟩
        · right; exact ⟨pre, x, post, h2, h4, h5⟩
    · rw [if_neg h1]
      have key2 : (∃ pre x post, m = pre ++ x :: post ∧ b < x.2 ∧ s < x.2 ∧ (∀ e ∈ pre, e.2 < x.2) ∧
          (∀ e ∈ post, e.2 ≤ x.2) ∧ 1 < x.2 ∧ ∃ e ∈ post, x.2 - e.2 < c) ↔
          (∃ pre x post, m = pre ++ x :: post ∧ b < x.2 ∧ (∀ e ∈ pre, e.2 < x.2) ∧
          (∀ e ∈ post, e.2 ≤ x.2) ∧ 1 < x.2 ∧ ∃ e ∈ post, x.2 - e.2 < c) := by
        constructor
        · rintro ⟨pre, x, post, h2, h3, _, h4⟩; exact ⟨pre, x, post, h2, h3, h4⟩
        · rintro ⟨pre, x, post, h2, h3, h4⟩; exact ⟨pre, x, post, h2, h3, by omega, h4⟩
      rw [key2]
      have key3 : (b < s ∧ (∀ e ∈ m, e.2 ≤ s) ∧ 1 < s ∧ ∃ e ∈ m, s - e.2 < c) ↔ False := by
        constructor
        · rintro ⟨h, _⟩; omega
        · exact False.elim
      rw [key3, false_or]
      have all : (∀ e ∈ (l, s) :: m, e.2 ≤ b) ↔ ∀ e ∈ m, e.2 ≤ b := by
        simp only [List.mem_cons, forall_eq_or_imp]
        exact ⟨fun h => h.2, fun h => ⟨by omega, h⟩⟩
      rw [all]
      by_cases h2 : b - s < c
      · rw [if_pos h2, ih]
        constructor
        · rintro (⟨h3, h4, _⟩ | h)
          · exact .inl ⟨h3, h4, .inr ⟨(l, s), by simp, h2⟩⟩
          · exact .inr h
        · rintro (⟨h3, h4, _⟩ | h)
          · exact .inl ⟨h3, h4, .inl rfl⟩
          · exact .inr h
      · rw [if_neg h2, ih]
        constructor
        · rintro (⟨h3, h4, h5⟩ | h)
          · refine .inl ⟨h3, h4, ?_⟩
            rcases h5 with h5 | ⟨e, he, h5⟩
            · exact .inl h5
            · exact .inr ⟨e, by simp [he], h5⟩
          · exact .inr h
        · rintro (⟨h3, h4, h5⟩ | h)
          · refine .inl ⟨h3, h4, ?_⟩
            rcases h5 with h5 | ⟨e, he, h5⟩
            · exact .inl h5
            · rcases List.mem_cons.mp he with he | he
              · subst he; exact absurd h5 h2
              · exact .inr ⟨e, he, h5⟩
          · exact .inr h

theorem again_iff (s : Scores) (c : Int) : again s c = true ↔ LaterRivalWithin c s := by
  unfold again isThereAmbiguity
  simp only [Bool.and_eq_true, decide_eq_true_eq, gt_iff_lt]
  rw [ambLoop_spec]
  constructor
  · rintro (⟨h, _⟩ | ⟨pre, x, post, h1, _, h2⟩)
    · omega
    · exact ⟨pre, x, post, h1, h2⟩
  · rintro ⟨pre, x, post, h1, h2, h3, h4, h5⟩
    exact .inr ⟨pre, x, post, h1, by omega, h2, h3, h4, h5⟩

/-- Outcome of the loop started at `b0`. -/
theorem loop_spec (votes : Votes) (bl : Bool) (c : Int) (b0 : Int) {s : Scores} {b : Int}
    (h : loop votes bl c b0 = .ok (s, b)) :
    b0 ≤ b ∧ s = activeAll b votes ∧ (bl = false → b = b0) ∧
    (bl = true → ¬ LaterRivalWithin c (activeAll b votes) ∧
      ∀ b', b0 ≤ b' → b' < b → LaterRivalWithin c (activeAll b' votes)) := by
  induction b0 using loop.induct (allvotes := votes) (bleachingActivated := bl) (confidence := c) with
  | case1 b0 hbl =>
    rw [loop] at h
    simp only [hbl, if_true, Except.ok.injEq, Prod.mk.injEq] at h
    obtain ⟨rfl, rfl⟩ := h
    simp only [Bool.not_eq_true'] at hbl
    subst hbl
    exact ⟨Int.le_refl _, scores_eq _ _, fun _ => rfl, by simp⟩
  | case2 b0 hbl e he =>
    rw [loop] at h
    simp only [hbl, he] at h
    simp at h
  | case3 b0 _ hbl v hv ha ih =>
    rw [loop] at h
    have ha' : again (scores votes b0) c = true := ha
    simp only [hbl, hv, ha'] at h
    simp only [Bool.false_eq_true, if_false, dite_true] at h
    obtain ⟨h1, h2, h3, h4⟩ := ih h
    simp only [Bool.not_eq_true', Bool.not_eq_false] at hbl
    subst hbl
    refine ⟨by omega, h2, by simp, fun _ => ⟨(h4 rfl).1, ?_⟩⟩
    intro b' hb' hlt
    by_cases e : b' = b0
    · subst e
      rw [again_iff, scores_eq] at ha'
      exact ha'
    · exact (h4 rfl).2 b' (by omega) hlt
  | case4 b0 _ hbl v hv ha =>
    rw [loop] at h
    have ha' : ¬ again (scores votes b0) c = true := ha
    simp only [hbl, hv, ha'] at h
    simp only [Bool.false_eq_true, if_false, dite_false, Except.ok.injEq, Prod.mk.injEq] at h
    obtain ⟨rfl, rfl⟩ := h
    simp only [Bool.not_eq_true', Bool.not_eq_false] at hbl
    subst hbl
    rw [again_iff, scores_eq] at ha'
    exact ⟨Int.le_refl _, scores_eq _ _, by simp, fun _ => ⟨ha', fun b' h1 h2 => by omega⟩⟩

theorem rival_le {votes : Votes} {b c M : Int} (h : LaterRivalWithin c (activeAll b votes))
    (hM : ∀ e ∈ votes, ∀ v ∈ e.2, v ≤ M) : b ≤ M := by
  obtain ⟨pre, x, post, h1, _, _, h2, _⟩ := h
  have hx : x ∈ activeAll b votes := by rw [h1]; simp
  obtain ⟨e, he, rfl⟩ := List.mem_map.mp hx
  simp only [active] at h2
  have h3 : 0 < e.2.countP (fun v => decide (b ≤ v)) := by omega
  obtain ⟨v, hv, hb⟩ := List.countP_pos_iff.mp h3
  have := hM e he v hv
  simp only [decide_eq_true_eq] at hb
  omega

theorem loop_ok (votes : Votes) (bl : Bool) (c : Int) (b0 : Int) (M : Int) (hM : ∀ e ∈ votes, ∀ v ∈ e.2, v ≤ M)
    (h0 : 0 ≤ b0) (h1 : b0 ≤ 2147483646) (h2 : M ≤ 2147483645) :
    ∃ s b, loop votes bl c b0 = .ok (s, b) ∧ (b = b0 ∨ b ≤ M + 1) := by
  induction b0 using loop.induct (allvotes := votes) (bleachingActivated := bl) (confidence := c) with
  | case1 b0 hbl =>
    rw [loop]
    simp only [hbl, if_true]
    exact ⟨_, _, rfl, .inl rfl⟩
  | case2 b0 hbl e he =>
    rw [i32_ok (by omega)] at he
    cases he
  | case3 b0 _ hbl v hv ha ih =>
    have ha' : again (scores votes b0) c = true := ha
    have hle : b0 ≤ M := by
      have := again_iff (scores votes b0) c |>.mp ha'
      rw [scores_eq] at this
      exact rival_le this hM
    obtain ⟨s, b, h3, h4⟩ := ih (by omega) (by omega)
    rw [loop]
    simp only [hbl, hv, ha']
    simp only [Bool.false_eq_true, if_false, dite_true]
    refine ⟨s, b, h3, .inr ?_⟩
    omega
  | case4 b0 _ hbl v hv ha =>
    have ha' : ¬ again (scores votes b0) c = true := ha
    rw [loop]
    simp only [hbl, hv, ha']
    exact ⟨_, _, rfl, .inl rfl⟩

theorem make_ok {votes : Votes} {bl sb : Bool} {c : Int} {s : Scores} (h : make votes bl sb c = .ok s) :
    ∃ b, loop votes bl c 1 = .ok (s, b) := by
  unfold make makeWithConfidence makeConfidenceless at h
  rw [ite_self] at h
  obtain ⟨⟨s', b⟩, h1, h2⟩ := bind_eq_ok h
  simp only [Except.ok.injEq] at h2
  subst h2
  exact ⟨b, h1⟩

theorem make_of_loop {votes : Votes} {bl sb : Bool} {c : Int} {s : Scores} {b : Int}
    (h : loop votes bl c 1 = .ok (s, b)) : make votes bl sb c = .ok s := by
  unfold make makeWithConfidence makeConfidenceless
  rw [ite_self, h]
  rfl

theorem biggestLoop_spec (m : Scores) : ∀ (l : Str) (b : Int),
    ((∀ e ∈ m, e.2 < b) ∧ biggestLoop m l b = l) ∨
    ∃ pre x post, m = pre ++ x :: post ∧ b ≤ x.2 ∧ (∀ e ∈ pre, e.2 ≤ x.2) ∧ (∀ e ∈ post, e.2 < x.2) ∧
      biggestLoop m l b = x.1 := by
  induction m with
  | nil => intro l b; left; simp [biggestLoop]
  | cons e m ih =>
    intro l b
    obtain ⟨k, s⟩ := e
    simp only [biggestLoop]
    by_cases h : s ≥ b
    · rw [if_pos h]
      right
      rcases ih k s with ⟨h1, h2⟩ | ⟨pre, x, post, h1, h2, h3, h4, h5⟩
      · exact ⟨[], (k, s), m, rfl, h, by simp, h1, h2⟩
      · refine ⟨(k, s) :: pre, x, post, by rw [h1]; rfl, by omega, ?_, h4, h5⟩
        intro e he
        rcases List.mem_cons.mp he with he | he
        · rw [he]; exact h2
        · exact h3 e he
    · rw [if_neg h]
      rcases ih l b with ⟨h1, h2⟩ | ⟨pre, x, post, h1, h2, h3, h4, h5⟩
      · left
        refine ⟨?_, h2⟩
        intro e he
        rcases List.mem_cons.mp he with he | he
        · rw [he]; simp only; omega
        · exact h1 e he
      · right
        refine ⟨(k, s) :: pre, x, post, by rw [h1]; rfl, h2, ?_, h4, h5⟩
        intro e he
        rcases List.mem_cons.mp he with he | he
        · rw [he]; simp only; omega
        · exact h3 e he

/-- On non-negative scores of at least one class: the last entry of maximal score wins. -/
theorem biggest_spec {m : Scores} (hne : m ≠ []) (h0 : ∀ e ∈ m, 0 ≤ e.2) :
    ∃ pre x post, m = pre ++ x :: post ∧ (∀ e ∈ pre, e.2 ≤ x.2) ∧ (∀ e ∈ post, e.2 < x.2) ∧
      getBiggestCandidate m = x.1 := by
  rcases biggestLoop_spec m [] 0 with ⟨h1, _⟩ | ⟨pre, x, post, h1, _, h3, h4, h5⟩
  · cases m with
    | nil => exact absurd rfl hne
    | cons e m =>
      have := h1 e (by simp)
      have := h0 e (by simp)
      omega
  · exact ⟨pre, x, post, h1, h3, h4, h5⟩

theorem activeAll_nonneg (b : Int) (votes : Votes) : ∀ e ∈ activeAll b votes, 0 ≤ e.2 := by
  intro e he
  obtain ⟨e', _, rfl⟩ := List.mem_map.mp he
  simp only
  omega

theorem activeAll_keys (b : Int) (votes : Votes) : SMap.keys (activeAll b votes) = SMap.keys votes := by
  unfold activeAll SMap.keys
  rw [List.map_map]; rfl

theorem activeAll_sorted {votes : Votes} (h : SMap.Sorted votes) (b : Int) : SMap.Sorted (activeAll b votes) :=
  SMap.sorted_map h (fun e => (active b e.2 : Int))

/-- With distinct labels, ambiguity for confidence 1 is a tie above 1. -/
theorem rival_one_iff {s : Scores} (hs : SMap.Sorted s) : LaterRivalWithin 1 s ↔ TiedAbove1 s := by
  constructor
  · rintro ⟨pre, x, post, rfl, h1, h2, h3, e, he, h4⟩
    have hle := h2 e he
    have hs' := List.pairwise_append.mp hs
    have hlt := (List.pairwise_cons.mp hs'.2.1).1 e he
    refine ⟨x, e, by simp, by simp [he], Str.lt_ne hlt, h3, by omega, ?_⟩
    intro e' he'
    rcases List.mem_append.mp he' with h | h
    · exact Int.le_of_lt (h1 e' h)
    · rcases List.mem_cons.mp h with h | h
      · rw [h]
      · exact h2 e' h
  · rintro ⟨a, b, ha, hb, hab, h1, h2, h3⟩
    -- the first entry with the top score
    have key : ∀ (m : Scores), (∀ e ∈ m, e.2 ≤ a.2) → (∃ e ∈ m, e.2 = a.2) →
        ∃ pre x post, m = pre ++ x :: post ∧ (∀ e ∈ pre, e.2 < a.2) ∧ x.2 = a.2 ∧ ∀ e ∈ post, e.2 ≤ a.2 := by
      intro m
      induction m with
      | nil => rintro _ ⟨e, he, _⟩; cases he
      | cons x m ih =>
        intro hm hex
        by_cases hx : x.2 = a.2
        · exact ⟨[], x, m, rfl, by simp, hx, fun e he => hm e (by simp [he])⟩
        · obtain ⟨e, he, hea⟩ := hex
          have he' : e ∈ m := by
            rcases List.mem_cons.mp he with h | h
            · subst h; exact absurd hea hx
            · exact h
          obtain ⟨pre, y, post, h4, h5, h6, h7⟩ := ih (fun e he => hm e (by simp [he])) ⟨e, he', hea⟩
          refine ⟨x :: pre, y, post, by rw [h4]; rfl, ?_, h6, h7⟩
          intro e he
          rcases List.mem_cons.mp he with h | h
          · rw [h]; have := hm x (by simp); omega
          · exact h5 e h
    obtain ⟨pre, x, post, rfl, h5, h6, h7⟩ := key s h3 ⟨a, ha, rfl⟩
    refine ⟨pre, x, post, rfl, by rw [h6]; exact h5, by rw [h6]; exact h7, by omega, ?_⟩
    have hpost : ∀ y : Str × Int, y ∈ pre ++ x :: post → y.2 = a.2 → y = x ∨ y ∈ post := by
      intro y hy hya
      rcases List.mem_append.mp hy with h | h
      · have := h5 y h; omega
      · exact List.mem_cons.mp h
    rcases hpost a ha rfl with h | h
    · rcases hpost b hb h2.symm with h' | h'
      · exact absurd (by rw [h, h']) hab
      · exact ⟨b, h', by omega⟩
    · exact ⟨a, h, by omega⟩

end Bleaching
end Wis
