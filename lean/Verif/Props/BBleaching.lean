import Verif.Model.BBleaching
import Verif.Lemmas.Bleaching
import Mathlib.Tactic.Linarith
import Mathlib.Algebra.Order.Ring.Int
/-!
# C134: binary bleaching
-/

namespace Wis
open Spec

namespace Spec

/-- The largest vote of a table, 0 if there is none above 0. -/
def IsBiggestVote (votes : SMap (List Int)) (g : Int) : Prop :=
  (∀ e ∈ votes, ∀ v ∈ e.2, v ≤ g) ∧ 0 ≤ g ∧ (g = 0 ∨ ∃ e ∈ votes, g ∈ e.2)

/-- The threshold of round `r`: half of the largest vote, then a quarter more, an eighth more, and so on, each rounded down. -/
def halving (g : Int) : Nat → Int
  | 0 => 0
  | r + 1 => halving g r + g / 2 ^ (r + 1)

/-- Two classes (at least) have the top score, which is not 0. -/
def TopShared (s : SMap Int) : Prop := ∃ t, 0 < t ∧ (∀ e ∈ s, e.2 ≤ t) ∧ 2 ≤ s.countP (fun e => decide (e.2 = t))

end Spec

namespace BBleaching

theorem biggestIn_spec (vs : List Int) : ∀ g, g ≤ biggestIn vs g ∧ (∀ v ∈ vs, v ≤ biggestIn vs g) ∧
    (biggestIn vs g = g ∨ biggestIn vs g ∈ vs) := by
  induction vs with
  | nil => intro g; simp [biggestIn]
  | cons v vs ih =>
    intro g
    obtain ⟨h1, h2, h3⟩ := ih (if v > g then v else g)
    rw [biggestIn]
    have h4 : g ≤ (if v > g then v else g) ∧ v ≤ (if v > g then v else g) ∧ ((if v > g then v else g) = g ∨ (if v > g then v else g) = v) := by
      split <;> simp <;> omega
    refine ⟨by omega, ?_, ?_⟩
    · intro w hw
      rcases List.mem_cons.mp hw with rfl | hw
      · omega
      · exact h2 w hw
    · rcases h3 with h3 | h3
      · rw [h3]
        rcases h4.2.2 with h | h
        · exact Or.inl h
        · exact Or.inr (by rw [h]; simp)
      · exact Or.inr (by simp [h3])

theorem biggestOf_spec (m : Votes) : ∀ g, g ≤ biggestOf m g ∧ (∀ e ∈ m, ∀ v ∈ e.2, v ≤ biggestOf m g) ∧
    (biggestOf m g = g ∨ ∃ e ∈ m, biggestOf m g ∈ e.2) := by
  induction m with
  | nil => intro g; simp [biggestOf]
  | cons e m ih =>
    intro g
    obtain ⟨l, vs⟩ := e
    obtain ⟨h1, h2, h3⟩ := ih (biggestIn vs g)
    obtain ⟨k1, k2, k3⟩ := biggestIn_spec vs g
    rw [biggestOf]
    refine ⟨by omega, ?_, ?_⟩
    · intro e he v hv
      rcases List.mem_cons.mp he with rfl | he
      · have := k2 v hv; omega
      · exact h2 e he v hv
    · rcases h3 with h3 | ⟨e, he, h3⟩
      · rw [h3]
        rcases k3 with k3 | k3
        · exact Or.inl k3
        · exact Or.inr ⟨(l, vs), by simp, k3⟩
      · exact Or.inr ⟨e, by simp [he], h3⟩

theorem biggest_spec (votes : Votes) : IsBiggestVote votes (getBiggestValue votes) := by
  obtain ⟨h1, h2, h3⟩ := biggestOf_spec votes 0
  exact ⟨h2, h1, h3⟩

theorem ambLoop_spec (m : Scores) : ∀ (b : Int) (a : Bool), b ≤ (ambLoop m b a).2 ∧ (∀ e ∈ m, e.2 ≤ (ambLoop m b a).2) ∧
    ((ambLoop m b a).2 = b ∨ ∃ e ∈ m, e.2 = (ambLoop m b a).2) ∧
    ((ambLoop m b a).1 = true ↔ ((ambLoop m b a).2 = b ∧ (a = true ∨ 1 ≤ m.countP (fun e => decide (e.2 = (ambLoop m b a).2)))) ∨
      (b < (ambLoop m b a).2 ∧ 2 ≤ m.countP (fun e => decide (e.2 = (ambLoop m b a).2)))) := by
  induction m with
  | nil => intro b a; simp [ambLoop]
  | cons e m ih =>
    intro b a
    obtain ⟨l, s⟩ := e
    rw [ambLoop]
    by_cases h1 : s > b
    · rw [if_pos h1]
      obtain ⟨i1, i2, i3, i4⟩ := ih s false
      generalize ambLoop m s false = r at i1 i2 i3 i4 ⊢
      refine ⟨by omega, ?_, ?_, ?_⟩
      · intro e he
        rcases List.mem_cons.mp he with rfl | he
        · exact i1
        · exact i2 e he
      · rcases i3 with i3 | ⟨e, he, i3⟩
        · exact Or.inr ⟨(l, s), by simp, i3.symm⟩
        · exact Or.inr ⟨e, by simp [he], i3⟩
      · rw [i4, List.countP_cons]
        by_cases h : s = r.2
        · rw [if_pos (by simpa using h)]; simp only [Bool.false_eq_true, false_or]; omega
        · rw [if_neg (by simpa using h)]; simp only [Bool.false_eq_true, false_or]; omega
    · rw [if_neg h1]
      by_cases h2 : s = b
      · rw [if_pos h2]
        obtain ⟨i1, i2, i3, i4⟩ := ih b true
        generalize ambLoop m b true = r at i1 i2 i3 i4 ⊢
        refine ⟨by omega, ?_, ?_, ?_⟩
        · intro e he
          rcases List.mem_cons.mp he with rfl | he
          · simp only; omega
          · exact i2 e he
        · rcases i3 with i3 | ⟨e, he, i3⟩
          · exact Or.inl i3
          · exact Or.inr ⟨e, by simp [he], i3⟩
        · rw [i4, List.countP_cons]
          by_cases h : s = r.2
          · rw [if_pos (by simpa using h)]
            constructor
            · intro _; exact Or.inl ⟨by omega, Or.inr (by omega)⟩
            · intro _; exact Or.inl ⟨by omega, Or.inl rfl⟩
          · rw [if_neg (by simpa using h)]
            constructor
            · rintro (⟨h', _⟩ | h')
              · exact absurd (h2.trans h'.symm) h
              · exact Or.inr h'
            · rintro (⟨h', _⟩ | h')
              · exact absurd (h2.trans h'.symm) h
              · exact Or.inr h'
      · rw [if_neg h2]
        obtain ⟨i1, i2, i3, i4⟩ := ih b a
        generalize ambLoop m b a = r at i1 i2 i3 i4 ⊢
        refine ⟨by omega, ?_, ?_, ?_⟩
        · intro e he
          rcases List.mem_cons.mp he with rfl | he
          · simp only; omega
          · exact i2 e he
        · rcases i3 with i3 | ⟨e, he, i3⟩
          · exact Or.inl i3
          · exact Or.inr ⟨e, by simp [he], i3⟩
        · have hne : ¬ (s = r.2) := by clear i3 i4; omega
          rw [i4, List.countP_cons, if_neg (by simpa using hne)]
          rfl

theorem amb_iff (s : Scores) : ((isThereAmbiguity s).1 && decide ((isThereAmbiguity s).2 > 0)) = true ↔ TopShared s := by
  unfold isThereAmbiguity
  obtain ⟨h1, h2, h3, h4⟩ := ambLoop_spec s 0 false
  generalize ambLoop s 0 false = r at h1 h2 h3 h4
  rw [Bool.and_eq_true, h4, decide_eq_true_eq]
  constructor
  · rintro ⟨h | ⟨_, h⟩, h5⟩
    · omega
    · exact ⟨r.2, h5, h2, h⟩
  · rintro ⟨t, ht, hall, hc⟩
    have e : t = r.2 := by
      have : 0 < s.countP (fun e => decide (e.2 = t)) := by omega
      obtain ⟨x, hx, hxt⟩ := List.countP_pos_iff.mp this
      have a1 := h2 x hx
      have a2 : x.2 = t := by simpa using hxt
      rcases h3 with h3 | ⟨y, hy, h3⟩
      · omega
      · have := hall y hy; omega
    subst e
    exact ⟨Or.inr ⟨ht, hc⟩, ht⟩

theorem pow_pos' (r : Nat) : (0 : Int) < 2 ^ r := by positivity

theorem halving_le (g : Int) (_hg : 0 ≤ g) (r : Nat) : halving g r + g / 2 ^ r ≤ g := by
  induction r with
  | zero => simp [halving]
  | succ r ih =>
    have e : g / 2 ^ (r + 1) = g / 2 ^ r / 2 := by rw [pow_succ, Int.ediv_ediv_of_nonneg (by positivity)]
    rw [halving, e]
    omega

theorem halving_nonneg (g : Int) (hg : 0 ≤ g) (r : Nat) : 0 ≤ halving g r := by
  induction r with
  | zero => exact le_refl _
  | succ r ih =>
    have : 0 ≤ g / 2 ^ (r + 1) := Int.ediv_nonneg hg (by positivity)
    rw [halving]
    omega

theorem piece_eq {g : Int} (hg : 0 ≤ g) {r : Nat} (hr : r ≤ 30) : piece g r = .ok (g / 2 ^ r) := by
  have h1 : (2 : Int) ^ r ≤ 2 ^ 30 := by exact_mod_cast Nat.pow_le_pow_right (by omega) hr
  have h2 := pow_pos' r
  unfold piece i32
  rw [if_pos (by unfold InI32; omega), Except.bind_ok, Int.tdiv_eq_ediv_of_nonneg hg]

theorem piece_ub {g : Int} {r : Nat} (hr : 31 ≤ r) : piece g r = .error (.ub .overflow) := by
  have h1 : (2 : Int) ^ 31 ≤ 2 ^ r := by exact_mod_cast Nat.pow_le_pow_right (by omega) hr
  unfold piece i32
  rw [if_neg (by unfold InI32; omega), Except.bind_error]

/-- One round. -/
theorem loop_step (votes : Votes) {g : Int} (hg : 0 ≤ g) (hg' : g < 2147483648) {r : Nat} (hr : r + 1 ≤ 30) :
    (TopShared (activeAll (halving g r) votes) → 2 ^ (r + 1) ≤ g →
      loop votes true g (halving g r) r = loop votes true g (halving g (r + 1)) (r + 1)) ∧
    (¬ TopShared (activeAll (halving g r) votes) ∨ g < 2 ^ (r + 1) →
      loop votes true g (halving g r) r = .ok (activeAll (halving g r) votes, halving g r)) := by
  have hp := piece_eq hg hr
  have h1 := halving_le g hg (r + 1)
  have h2 := halving_nonneg g hg r
  have h3 : 0 ≤ g / 2 ^ (r + 1) := Int.ediv_nonneg hg (by positivity)
  have h4 : g / 2 ^ (r + 1) ≤ g := Int.ediv_le_self _ hg
  have h5 : g / 2 ^ (r + 1) = 0 ↔ g < 2 ^ (r + 1) := by
    constructor
    · intro h
      have := Int.emod_add_mul_ediv g (2 ^ (r + 1))
      rw [h, mul_zero, add_zero] at this
      rw [← this]
      exact Int.emod_lt_of_pos _ (pow_pos' _)
    · intro h; exact Int.ediv_eq_zero_of_lt hg h
  have h6 := halving_le g hg r
  have h7 : 0 ≤ g / 2 ^ r := Int.ediv_nonneg hg (by positivity)
  have hsum : halving g (r + 1) = halving g r + g / 2 ^ (r + 1) := rfl
  have e : loop votes true g (halving g r) r =
      (if g / 2 ^ (r + 1) = 0 then .ok (Bleaching.scores votes (halving g r), halving g r)
      else match i32 (if (isThereAmbiguity (Bleaching.scores votes (halving g r))).2 > 0 then halving g r + g / 2 ^ (r + 1)
          else halving g r - g / 2 ^ (r + 1)) with
        | .error e => .error e
        | .ok bleaching' =>
          if (isThereAmbiguity (Bleaching.scores votes (halving g r))).1 &&
              decide ((isThereAmbiguity (Bleaching.scores votes (halving g r))).2 > 0)
          then loop votes true g bleaching' (r + 1)
          else .ok (Bleaching.scores votes (halving g r), halving g r)) := by
    rw [loop]
    simp only [Bool.not_true, Bool.false_eq_true, if_false]
    split
    · rename_i h; rw [hp] at h; cases h
    · rename_i h; rw [hp] at h; cases h; rfl
  rw [e, Bleaching.scores_eq]
  have amb := amb_iff (activeAll (halving g r) votes)
  generalize isThereAmbiguity (activeAll (halving g r) votes) = am at amb
  constructor
  · intro ht hge
    rw [if_neg (by rw [h5]; omega)]
    have ha := amb.mpr ht
    simp only [if_pos ha]
    rw [Bool.and_eq_true, decide_eq_true_eq] at ha
    rw [if_pos ha.2, ← hsum]
    unfold i32
    rw [if_pos (by unfold InI32; omega)]
  · intro h
    by_cases h0 : g / 2 ^ (r + 1) = 0
    · rw [if_pos h0]
    · rw [if_neg h0]
      rw [h5] at h0
      have hn : ¬ TopShared (activeAll (halving g r) votes) := h.resolve_right h0
      simp only [if_neg (fun c => hn (amb.mp c))]
      have : InI32 (if am.2 > 0 then halving g r + g / 2 ^ (r + 1) else halving g r - g / 2 ^ (r + 1)) := by
        unfold InI32
        split <;> omega
      unfold i32
      rw [if_pos this]

theorem loop_end (votes : Votes) (g b : Int) (r : Nat) (hr : 30 ≤ r) : loop votes true g b r = .error (.ub .overflow) := by
  rw [loop]
  simp only [Bool.not_true, Bool.false_eq_true, if_false]
  split
  · rename_i h; rw [piece_ub (by omega)] at h; cases h; rfl
  · rename_i h; rw [piece_ub (by omega)] at h; cases h

/-- What the loop does from round `r` on. -/
theorem loop_spec (votes : Votes) {g : Int} (hg : 0 ≤ g) (hg' : g < 2147483648) : ∀ (k r : Nat), r + k = 30 →
    (∃ r', r ≤ r' ∧ r' + 1 ≤ 30 ∧ loop votes true g (halving g r) r = .ok (activeAll (halving g r') votes, halving g r')
      ∧ (∀ q, r ≤ q → q < r' → TopShared (activeAll (halving g q) votes) ∧ 2 ^ (q + 1) ≤ g)
      ∧ (¬ TopShared (activeAll (halving g r') votes) ∨ g < 2 ^ (r' + 1)))
    ∨ (loop votes true g (halving g r) r = .error (.ub .overflow)
      ∧ ∀ q, r ≤ q → q < 30 → TopShared (activeAll (halving g q) votes) ∧ 2 ^ (q + 1) ≤ g) := by
  intro k
  induction k with
  | zero =>
    intro r hr
    refine Or.inr ⟨loop_end votes g _ r (by omega), ?_⟩
    intro q h1 h2
    omega
  | succ k ih =>
    intro r hr
    obtain ⟨s1, s2⟩ := loop_step votes hg hg' (r := r) (by omega)
    by_cases hc : TopShared (activeAll (halving g r) votes) ∧ 2 ^ (r + 1) ≤ g
    · have hs := s1 hc.1 hc.2
      rw [hs]
      rcases ih (r + 1) (by omega) with ⟨r', a1, a2, a3, a4, a5⟩ | ⟨a1, a2⟩
      · refine Or.inl ⟨r', by omega, a2, a3, ?_, a5⟩
        intro q q1 q2
        rcases Nat.eq_or_lt_of_le q1 with rfl | q1
        · exact hc
        · exact a4 q q1 q2
      · refine Or.inr ⟨a1, ?_⟩
        intro q q1 q2
        rcases Nat.eq_or_lt_of_le q1 with rfl | q1
        · exact hc
        · exact a2 q q1 q2
    · have hc' : ¬ TopShared (activeAll (halving g r) votes) ∨ g < 2 ^ (r + 1) := by
        rcases not_and_or.mp hc with h | h
        · exact Or.inl h
        · exact Or.inr (not_le.mp h)
      exact Or.inl ⟨r, le_refl r, by omega, s2 hc', fun q q1 q2 => by omega, hc'⟩

theorem makeAt_eq (votes : Votes) (bl : Bool) (g : Int) (hb : getBiggestValue votes = g) (hg : 0 ≤ g) :
    makeAt votes bl = loop votes bl g (halving g 1) 1 := by
  unfold makeAt
  simp only [hb]
  rw [piece_eq hg (by omega), Except.bind_ok]
  simp [halving]

theorem unique {votes : Votes} {g g' : Int} (h : IsBiggestVote votes g) (h' : IsBiggestVote votes g') : g = g' := by
  obtain ⟨a1, a2, a3⟩ := h
  obtain ⟨b1, b2, b3⟩ := h'
  have c1 : g ≤ g' := by
    rcases a3 with rfl | ⟨e, he, hv⟩
    · exact b2
    · exact b1 e he g hv
  have c2 : g' ≤ g := by
    rcases b3 with rfl | ⟨e, he, hv⟩
    · exact a2
    · exact a1 e he g' hv
  omega

end BBleaching

/-- C134: for votes below 2^30 binary bleaching returns, and the scores returned are those of the threshold of some round `r` (at most 29); without
bleaching it is the first round; with bleaching all earlier rounds had a shared top score, and the last round has none or no finer
threshold exists. -/
theorem C134_make_partial (votes : Votes) (bl : Bool) (g : Int) (h : IsBiggestVote votes g) (hg : g < 2 ^ 30) :
    ∃ r, 1 ≤ r ∧ r ≤ 29 ∧ BBleaching.make votes bl = .ok (activeAll (halving g r) votes)
      ∧ (bl = false → r = 1)
      ∧ (∀ q, 1 ≤ q → q < r → TopShared (activeAll (halving g q) votes))
      ∧ (bl = true → ¬ TopShared (activeAll (halving g r) votes) ∨ g < 2 ^ (r + 1)) := by
  have hb := BBleaching.unique (BBleaching.biggest_spec votes) h
  have h0 : 0 ≤ g := h.2.1
  have hm := BBleaching.makeAt_eq votes bl g hb h0
  unfold BBleaching.make
  rw [hm]
  cases bl with
  | false =>
    refine ⟨1, le_refl 1, by omega, ?_, fun _ => rfl, fun q q1 q2 => by omega, fun c => by cases c⟩
    rw [BBleaching.loop]
    simp only [Bool.not_false, if_true, Except.bind_ok]
    rw [Bleaching.scores_eq]
  | true =>
    rcases BBleaching.loop_spec votes h0 (by omega) 29 1 (by omega) with ⟨r', a1, a2, a3, a4, a5⟩ | ⟨_, a2⟩
    · refine ⟨r', a1, by omega, ?_, (fun c => by cases c), fun q q1 q2 => (a4 q q1 q2).1, fun _ => a5⟩
      rw [a3]; rfl
    · have := (a2 29 (by omega) (by omega)).2
      omega

/-- C134: the threshold never exceeds the largest vote, so unless all votes are 0 some class keeps a score above 0. -/
theorem C134_some_score_partial (votes : Votes) (bl : Bool) (g : Int) (h : IsBiggestVote votes g) (h0 : 0 < g) (s : Scores)
    (hs : BBleaching.make votes bl = .ok s) (hg : g < 2 ^ 30) : ∃ e ∈ s, 0 < e.2 := by
  obtain ⟨r, h1, _, h2, _⟩ := C134_make_partial votes bl g h hg
  rw [h2] at hs
  cases hs
  obtain ⟨_, _, h4⟩ := h
  obtain ⟨e, he, hv⟩ := h4.resolve_left (by omega)
  refine ⟨(e.1, (active (halving g r) e.2 : Int)), List.mem_map.mpr ⟨e, he, rfl⟩, ?_⟩
  have h5 := BBleaching.halving_le g (by omega) r
  have h6 : 0 ≤ g / 2 ^ r := Int.ediv_nonneg (by omega) (by positivity)
  have : 0 < active (halving g r) e.2 := List.countP_pos_iff.mpr ⟨g, hv, by simp; omega⟩
  exact Int.natCast_pos.mpr this

/-- C134 is false of the code: when no vote is above 1 (as after training every image once), the threshold is 0 and every class, trained or not, gets the
number of its RAMs as score. -/
theorem C134_refuted (votes : Votes) (bl : Bool) (h : ∀ e ∈ votes, ∀ v ∈ e.2, 0 ≤ v ∧ v ≤ 1) :
    BBleaching.make votes bl = .ok (votes.map (fun e => (e.1, (e.2.length : Int)))) := by
  have hb := BBleaching.biggest_spec votes
  have hg : BBleaching.getBiggestValue votes ≤ 1 := by
    rcases hb.2.2 with e | ⟨e, he, hv⟩
    · omega
    · exact (h e he _ hv).2
  obtain ⟨r, h1, _, h2, _, h3, _⟩ := C134_make_partial votes bl _ hb (by omega)
  have hz : halving (BBleaching.getBiggestValue votes) r = 0 := by
    have h5 := BBleaching.halving_nonneg _ hb.2.1 r
    have : ∀ r, halving (BBleaching.getBiggestValue votes) r = 0 := by
      intro r
      induction r with
      | zero => rfl
      | succ r ih =>
        rw [halving, ih, Int.ediv_eq_zero_of_lt hb.2.1]
        · rfl
        · have : (2 : Int) ^ 1 ≤ 2 ^ (r + 1) := by exact_mod_cast Nat.pow_le_pow_right (by omega) (by omega)
          omega
    exact this r
  rw [h2, hz]
  congr 1
  apply List.map_congr_left
  intro e he
  have : active 0 e.2 = e.2.length := List.countP_eq_length.mpr (fun v hv => by simpa using (h e he v hv).1)
  rw [this]

/-- C134: with a vote of 2^30 or more and a shared top score in every round, binary bleaching converts 2^31 to `int`: undefined. -/
theorem C134_undefined (votes : Votes) (g : Int) (h : IsBiggestVote votes g) (h1 : 2 ^ 30 ≤ g) (h2 : g < 2 ^ 31)
    (ht : ∀ q, 1 ≤ q → q ≤ 29 → TopShared (activeAll (halving g q) votes)) :
    BBleaching.make votes true = .error (.ub .overflow) := by
  have hb := BBleaching.unique (BBleaching.biggest_spec votes) h
  have hm := BBleaching.makeAt_eq votes true g hb h.2.1
  unfold BBleaching.make
  rw [hm]
  rcases BBleaching.loop_spec votes h.2.1 (by omega) 29 1 (by omega) with ⟨r', a1, a2, a3, a4, a5⟩ | ⟨a1, _⟩
  · rcases a5 with a5 | a5
    · exact absurd (ht r' a1 (by omega)) a5
    · have : (2 : Int) ^ (r' + 1) ≤ 2 ^ 30 := by exact_mod_cast Nat.pow_le_pow_right (by omega) a2
      omega
  · rw [a1]; rfl

/-! ## Concrete cases -/

/-- Votes of two classes on two RAMs; the second class was never trained, but wins with BBleaching, and loses with Bleaching. -/
example : BBleaching.make [(b!"a", [1, 1]), (b!"b", [0, 0])] true = .ok [(b!"a", 2), (b!"b", 2)]
    ∧ Bleaching.getBiggestCandidate [(b!"a", 2), (b!"b", 2)] = b!"b" :=
  ⟨C134_refuted _ _ (by decide), by decide⟩

example : Bleaching.make [(b!"a", [1, 1]), (b!"b", [0, 0])] false false 1 = .ok [(b!"a", 2), (b!"b", 0)] := by
  unfold Bleaching.make Bleaching.makeConfidenceless
  rw [Bleaching.loop]
  rfl

example : IsBiggestVote [(b!"a", [7, 1]), (b!"b", [4, 4])] 7 := by
  refine ⟨by decide, by decide, Or.inr ⟨(b!"a", [7, 1]), by simp, by simp⟩⟩

example : halving 7 1 = 3 ∧ halving 7 2 = 4 ∧ halving 100 3 = 87 := by decide

/-- The hypotheses of `C134_undefined` are met by two equal classes. -/
example : BBleaching.make [(b!"a", [2147483647]), (b!"b", [2147483647])] true = .error (.ub .overflow) := by
  have hb : IsBiggestVote [(b!"a", [(2147483647 : Int)]), (b!"b", [2147483647])] 2147483647 :=
    ⟨by decide, by decide, Or.inr ⟨(b!"a", [2147483647]), by simp, by simp⟩⟩
  refine C134_undefined _ 2147483647 hb (by omega) (by omega) ?_
  intro q _ _
  have h1 := BBleaching.halving_le 2147483647 (by omega) q
  have h2 : (0 : Int) ≤ 2147483647 / 2 ^ q := Int.ediv_nonneg (by omega) (by positivity)
  have h3 : activeAll (halving 2147483647 q) [(b!"a", [(2147483647 : Int)]), (b!"b", [2147483647])] = [(b!"a", 1), (b!"b", 1)] := by
    have : halving 2147483647 q ≤ 2147483647 := by omega
    simp [activeAll, active, this]
  rw [h3]
  exact ⟨1, by decide, by decide, by decide⟩

end Wis
