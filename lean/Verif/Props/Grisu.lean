import Verif.Lemmas.GrisuText
/-!
# C148, C149: every `double` is written as a JSON number that reads back as the same `double`
-/

namespace Wis
open Spec Grisu Ieee

/-! ## `double`s -/

theorem Spec.IsDouble.isFloat {q : Rat} (h : IsDouble q) : IsFloat Ieee.double q := by
  obtain ⟨m, e, h1, h2, _, h4⟩ := h
  exact ⟨m, e, h1, h2, h4⟩

theorem Spec.IsDouble.lt {q : Rat} (h : IsDouble q) : |q| < 2 ^ 1024 := by
  obtain ⟨m, e, h1, _, h3, rfl⟩ := h
  have hP : (0 : Rat) < 2 ^ e := zpow_pos (by norm_num) _
  have hm : |(m : Rat)| < 2 ^ 53 := by exact_mod_cast h1
  have hle : (2 : Rat) ^ e ≤ 2 ^ (971 : Int) := zpow_le_zpow_right₀ (by norm_num) h3
  rw [abs_mul, abs_of_pos hP]
  calc |(m : Rat)| * 2 ^ e < 2 ^ 53 * 2 ^ e := mul_lt_mul_of_pos_right hm hP
    _ ≤ 2 ^ 53 * 2 ^ (971 : Int) := mul_le_mul_of_nonneg_left hle (by positivity)
    _ = 2 ^ 1024 := by
      rw [show ((2 : Rat) ^ (971 : Int)) = 2 ^ (971 : Nat) from zpow_natCast 2 971, ← pow_add]

theorem Spec.IsDouble.neg {q : Rat} (h : IsDouble q) : IsDouble (-q) := by
  obtain ⟨m, e, h1, h2, h3, rfl⟩ := h
  exact ⟨-m, e, by rw [abs_neg]; exact h1, h2, h3, by push_cast; ring⟩

theorem isDouble_iff {q : Rat} : IsDouble q ↔ IsFloat Ieee.double q ∧ |q| < 2 ^ 1024 := by
  refine ⟨fun h => ⟨h.isFloat, h.lt⟩, fun ⟨h, hl⟩ => ?_⟩
  have pos : ∀ q : Rat, IsFloat Ieee.double q → 0 < q → q < 2 ^ 1024 → IsDouble q := by
    intro q h h0 h1
    obtain ⟨E, F, _, hE, hF, _, rfl⟩ := fields_spec h h0 h1
    refine ⟨signif E F, place E, ?_, ?_, ?_, by push_cast; rfl⟩
    · have : signif E F < 9007199254740992 := by unfold signif; split <;> omega
      rw [abs_of_nonneg (by positivity)]
      norm_num
      exact_mod_cast this
    · unfold place; split <;> omega
    · unfold place; split <;> omega
  rcases lt_trichotomy q 0 with h0 | rfl | h0
  · have := pos (-q) (isFloat_neg h) (by linarith) (by rwa [abs_of_neg h0] at hl)
    simpa using this.neg
  · exact ⟨0, 0, by norm_num, by norm_num, by norm_num, by simp⟩
  · exact pos q h h0 (by rwa [abs_of_pos h0] at hl)

theorem isDouble_single {q : Rat} (h : IsFloat Ieee.single q) (hq : |q| < 2 ^ 128) : IsDouble q := by
  refine isDouble_iff.2 ⟨?_, lt_of_lt_of_le hq (pow_le_pow_right₀ (by norm_num) (by norm_num))⟩
  obtain ⟨m, e, h1, h2, h3⟩ := h
  have h1 : |m| < 2 ^ 24 := h1
  have h2 : -149 ≤ e := h2
  exact ⟨m, e, by show |m| < 2 ^ 53; omega, by show -1074 ≤ e; omega, h3⟩

/-- Strictly between the middles, the number is the only nearest `double`. -/
theorem only_between {E F : Nat} {c x y : Rat}
    (hc : c = 2 ^ place E / 2 ∧ ¬ (F = 0 ∧ E > 1) ∨ c = 2 ^ place E / 4 ∧ signif E F = 4503599627370496 ∧ 1 < E)
    (h1 : (signif E F : Rat) * 2 ^ place E - c < x) (h2 : x < signif E F * 2 ^ place E + 2 ^ place E / 2)
    (hy : IsFloat Ieee.double y) (hne : y ≠ signif E F * 2 ^ place E) : |x - signif E F * 2 ^ place E| < |x - y| := by
  have hP : (0 : Rat) < 2 ^ place E := zpow_pos (by norm_num) _
  rcases lt_or_gt_of_ne hne with h | h
  · have hb := gap_below hy h
    generalize (signif E F : Rat) * 2 ^ place E = q at *
    generalize (2 : Rat) ^ place E = P at *
    have hy : y < q - c ∧ y ≤ q - 2 * c := by
      rcases hc with ⟨rfl, hnc⟩ | ⟨rfl, _⟩
      · rcases hb with hb | ⟨g1, g2, _⟩
        · constructor <;> linarith
        · exact absurd ⟨g1, g2⟩ hnc
      · rcases hb with hb | ⟨_, _, hb⟩ <;> constructor <;> linarith
    rw [abs_of_pos (by linarith : 0 < x - y)]
    rcases abs_cases (x - q) with ⟨a, _⟩ | ⟨a, _⟩ <;> rw [a] <;> linarith
  · have hb := gap_above hy h
    generalize (signif E F : Rat) * 2 ^ place E = q at *
    generalize (2 : Rat) ^ place E = P at *
    have hc0 : c ≤ P / 2 := by rcases hc with ⟨rfl, _⟩ | ⟨rfl, _⟩ <;> linarith
    rw [abs_of_neg (by linarith : x - y < 0)]
    rcases abs_cases (x - q) with ⟨a, _⟩ | ⟨a, _⟩ <;> rw [a] <;> linarith

theorem digits_lt : ∀ l : List Nat, (∀ d ∈ l, d ≤ 9) → ∀ a, l.foldl (fun a d => a * 10 + d) a < (a + 1) * 10 ^ l.length
  | [], _, a => by simp
  | d :: l, h, a => by
    have h1 := digits_lt l (fun x hx => h x (List.mem_cons_of_mem _ hx)) (a * 10 + d)
    have hd := h d (List.mem_cons_self ..)
    rw [List.foldl_cons, List.length_cons]
    refine lt_of_lt_of_le h1 ?_
    rw [pow_succ, Nat.mul_comm (10 ^ l.length) 10, ← Nat.mul_assoc]
    exact Nat.mul_le_mul_right _ (by omega)

theorem dec_upper {l : List Nat} (h : Dec l) (hl : l.length ≤ 17) : val l < 10 ^ 17 := by
  have := digits_lt l h.1 0
  rw [Nat.zero_add, Nat.one_mul] at this
  exact lt_of_lt_of_le this (Nat.pow_le_pow_right (by norm_num) hl)

theorem overflowsAt_eq : overflowsAt = 9007199254740991 * 2 ^ (971 : Int) + 2 ^ (971 : Int) / 2 := by
  have h : (2 : Rat) ^ (971 : Int) = 2 ^ (970 : Nat) * 2 := by
    rw [show ((2 : Rat) ^ (971 : Int)) = 2 ^ (971 : Nat) from zpow_natCast 2 971, ← pow_succ]
  rw [h]
  unfold overflowsAt
  generalize (2 : Rat) ^ (970 : Nat) = U
  ring

theorem limit_dbl : (2 : Rat) ^ 1024 = 9007199254740991 * 2 ^ (971 : Int) + 2 ^ (971 : Int) := by
  have h : (2 : Rat) ^ 1024 = 9007199254740992 * 2 ^ (971 : Int) := by
    rw [show ((2 : Rat) ^ (971 : Int)) = 2 ^ (971 : Nat) from zpow_natCast 2 971,
      show (9007199254740992 : Rat) = 2 ^ 53 by norm_num, ← pow_add]
  rw [h]
  ring

theorem no_overflow {M u x r : Rat} (hu : 0 < u) (hM : 0 < M) (h : |x| < M + u / 2) (h1 : |x - r| ≤ |x - M|) (h2 : |x - r| ≤ |x - -M|) :
    |r| < M + u := by
  rcases abs_cases x with ⟨a, _⟩ | ⟨a, _⟩ <;> rcases abs_cases (x - r) with ⟨b, _⟩ | ⟨b, _⟩ <;>
  rcases abs_cases (x - M) with ⟨c, _⟩ | ⟨c, _⟩ <;> rcases abs_cases (x - -M) with ⟨d, _⟩ | ⟨d, _⟩ <;>
  rcases abs_cases r with ⟨e, _⟩ | ⟨e, _⟩ <;> rw [a] at h <;> rw [b, c] at h1 <;> rw [b, d] at h2 <;> rw [e] <;> linarith

/-- The text of a positive `double`. -/
theorem positive_spec {q : Rat} (hq : IsDouble q) (h0 : 0 < q) : ∃ (t : Str) (n : Nat) (x : Int), positiveChars q = some t ∧ t.length ≤ 24 ∧
    FloatToken t ∧ FloatToken (b!"-" ++ t) ∧ Denotes t (n * 10 ^ x) ∧ Denotes (b!"-" ++ t) (-(n * 10 ^ x)) ∧ n < 10 ^ 17 ∧
    (n : Rat) * 10 ^ x < overflowsAt ∧ ∀ q', IsDouble q' → q' ≠ q → |(n : Rat) * 10 ^ x - q| < |n * 10 ^ x - q'| := by
  have hl : q < 2 ^ 1024 := by have := hq.lt; rwa [abs_of_pos h0] at this
  obtain ⟨E, F, e1, hE, hF, hs, rfl⟩ := fields_spec hq.isFloat h0 hl
  obtain ⟨b, x, c, g, g1, g2, g3, g4, g5, g6, g7, g8⟩ := grisu2_spec hE hF hs
  obtain ⟨t, f1, f2, f3, f4, f5, f6⟩ := format_spec g1 g2 g3 g4 g5
  refine ⟨t, val b, x, ?_, f2, f3, f4, f5, f6, dec_upper g1 g3, ?_, fun q' h' hne => only_between g6 g7 g8 h'.isFloat hne⟩
  swap
  · refine lt_of_lt_of_le g8 ?_
    have hpl : place E ≤ 971 := by unfold place; split <;> omega
    have hs2 : signif E F ≤ 9007199254740991 := by unfold signif; split <;> omega
    have hs3 : (signif E F : Rat) ≤ 9007199254740991 := by exact_mod_cast hs2
    have hP : (0 : Rat) < 2 ^ place E := zpow_pos (by norm_num) _
    have hle : (2 : Rat) ^ place E ≤ 2 ^ (971 : Int) := zpow_le_zpow_right₀ (by norm_num) hpl
    have h3 := mul_le_mul hs3 hle hP.le (by norm_num)
    rw [overflowsAt_eq]
    generalize (2 : Rat) ^ (971 : Int) = U at *
    linarith
  unfold positiveChars computeBoundaries
  rw [e1]
  unfold need
  rw [if_pos h0]
  dsimp only
  cases hB : boundariesOf E F with
  | none => rw [hB] at g; cases g
  | some B =>
    rw [hB] at g
    change grisu2 B = some (b, x) at g
    show (do let r ← grisu2 B; if r.1.length ≤ 17 then formatBuffer (r.1.map digitChar) r.2 else none) = some t
    rw [g]
    show (if b.length ≤ 17 then formatBuffer (b.map digitChar) x else none) = some t
    rw [if_pos g3, f1]

/-- **C148**: every finite `double` is written: no assertion fails and no table is read outside its bounds; the text is a
floating point number of JSON with at most 25 characters (the buffer has 64), it denotes a number of at most 17 significant
digits that is not so large as to be read as infinite, and the `double` is nearer to that number than every other `double`. -/
theorem C148_written {q : Rat} (hq : IsDouble q) : ∃ t x, toChars q = some t ∧ FloatToken t ∧ t.length ≤ 25 ∧ Denotes t x ∧
    (∃ (m e : Int), |m| < 10 ^ 17 ∧ x = m * 10 ^ e) ∧ |x| < overflowsAt ∧ OnlyNearest x q := by
  unfold toChars
  rcases lt_trichotomy q 0 with h0 | rfl | h0
  · obtain ⟨t, n, x, h1, h2, _, h4, _, h6, h7, h7o, h8⟩ := positive_spec hq.neg (by linarith)
    rw [if_pos h0, h1]
    refine ⟨_, _, rfl, h4, ?_, h6, ⟨-(n : Int), x, ?_, ?_⟩, ?_, hq, fun q' h' hne => ?_⟩
    · rw [List.length_append]; show 1 + t.length ≤ 25; omega
    · rw [abs_neg, abs_of_nonneg (by positivity)]; exact_mod_cast h7
    · push_cast; ring
    · rw [abs_neg, abs_of_nonneg (by positivity)]; exact h7o
    · have := h8 (-q') h'.neg (fun h => hne (by linarith))
      rw [show -((n : Rat) * 10 ^ x) - q = -(n * 10 ^ x - -q) by ring, abs_neg,
        show -((n : Rat) * 10 ^ x) - q' = -(n * 10 ^ x - -q') by ring, abs_neg]
      exact this
  · rw [if_neg (lt_irrefl _), if_pos rfl]
    refine ⟨_, 0, rfl, ⟨[], b!"0", b!".0", [], rfl, .inl rfl, .inl rfl, .inr ⟨b!"0", rfl, by decide, digits_zero⟩, .inl rfl, .inl (by decide)⟩,
      by decide, ⟨[], b!"0", b!"0", [], 1, 0, rfl, .inl ⟨rfl, rfl⟩, by decide, digits_zero, digits_zero, .inl ⟨rfl, rfl⟩, ?_⟩,
      ⟨0, 0, by norm_num, by simp⟩, ?_, hq, fun q' _ hne => ?_⟩
    · rw [show natOf b!"0" = 0 from rfl]; simp
    · rw [abs_zero, overflowsAt_eq]; positivity
    · rw [sub_zero, abs_zero, zero_sub, abs_neg]; exact abs_pos.2 hne
  · obtain ⟨t, n, x, h1, h2, h3, _, h5, _, h7, h7o, h8⟩ := positive_spec hq h0
    rw [if_neg (by linarith), if_neg (by linarith), h1]
    refine ⟨_, _, rfl, h3, by omega, h5, ⟨(n : Int), x, ?_, by push_cast; rfl⟩, ?_, hq, h8⟩
    · rw [abs_of_nonneg (by positivity)]; exact_mod_cast h7
    · rw [abs_of_nonneg (by positivity)]; exact h7o

/-- The conversions of the library with a given `strtod`. -/
def libText (read : Str → Option Rat) : FloatText := ⟨fun q => (toChars q).getD [], read⟩

/-- **C149**: with every `strtod` that gives the only nearest `double`, a `double` that is written reads back as itself. -/
theorem C149_read_back {read : Str → Option Rat} (hr : ReadsNearest read) {q : Rat} (hq : IsDouble q) : FloatOk (libText read) q := by
  obtain ⟨t, x, h1, h2, _, h4, _, h5, h6⟩ := C148_written hq
  have hw : (libText read).write q = t := by show (toChars q).getD [] = t; rw [h1]; rfl
  exact ⟨by rw [hw]; exact h2, by rw [hw]; exact hr.nearest t x q h4 h5 h6⟩

/-- Whatever is read is written and read again as the same. -/
theorem C149_reread {read : Str → Option Rat} (hr : ReadsNearest read) : ∀ t q, (libText read).read t = some q → FloatOk (libText read) q :=
  fun t q h => C149_read_back hr (hr.double t q h)

/-- The texts of different `double`s differ. -/
theorem C148_distinct {p q : Rat} (hp : IsDouble p) (hq : IsDouble q) (h : toChars p = toChars q) : p = q := by
  obtain ⟨t, x, h1, _, _, h4, _, _, h6, h6'⟩ := C148_written hp
  obtain ⟨t', x', h1', _, _, h4', _, _, h7, h7'⟩ := C148_written hq
  have ht : t = t' := by rw [h1, h1'] at h; exact Option.some.inj h
  subst ht
  have hx : x = x' := by rw [← textValue_eq h4, ← textValue_eq h4']
  subst hx
  by_contra hne
  have a := h6' q h7 (fun e => hne e.symm)
  have b := h7' p h6 hne
  linarith

/-- The correctly rounding `strtod` of `Model/Grisu` satisfies what is asked. -/
theorem std_reads : ReadsNearest strtod := by
  constructor
  · intro t x q ht hx hq
    unfold strtod
    rw [textValue_eq ht]
    have hf := rnd_isFloat Ieee.double x
    have big : IsDouble (9007199254740991 * 2 ^ (971 : Int)) :=
      ⟨9007199254740991, 971, by norm_num, by norm_num, le_refl _, by push_cast; rfl⟩
    have hP : (0 : Rat) < 2 ^ (971 : Int) := zpow_pos (by norm_num) _
    have h1 := rnd_nearest Ieee.double x big.isFloat
    have h2 := rnd_nearest Ieee.double x big.neg.isFloat
    have hd : |Ieee.rnd Ieee.double x| < 2 ^ 1024 := by
      rw [overflowsAt_eq] at hx
      rw [limit_dbl]
      exact no_overflow hP (mul_pos (by norm_num) hP) hx h1 h2
    have e : Ieee.rnd Ieee.double x = q := by
      by_contra hne
      have h3 := hq.2 _ (isDouble_iff.2 ⟨hf, hd⟩) hne
      have h4 := rnd_nearest Ieee.double x hq.1.isFloat
      exact absurd h4 (not_le.2 h3)
    dsimp only
    rw [e, if_pos hq.1.lt]
  · intro t q h
    unfold strtod at h
    dsimp only at h
    split at h
    · cases h
      exact isDouble_iff.2 ⟨rnd_isFloat _ _, ‹_›⟩
    · cases h

/-! ## Cases -/

/-- 0.1, the smallest and the largest positive `double`. -/
theorem C148_examples : toChars (3602879701896397 / 2 ^ 55) = some b!"0.1" ∧ (boundariesOf 0 1).bind grisu2 = some ([5], -324) ∧
    formatBuffer b!"5" (-324) = some b!"5e-324" ∧
    (boundariesOf 2046 4503599627370495).bind grisu2 = some ([1, 7, 9, 7, 6, 9, 3, 1, 3, 4, 8, 6, 2, 3, 1, 5, 7], 292) ∧
    formatBuffer b!"17976931348623157" 292 = some b!"1.7976931348623157e+308" ∧
    toChars (-(1 / 2)) = some b!"-0.5" ∧ toChars 100 = some b!"100.0" ∧ toChars (10 ^ 22) = some b!"1e+22" := by
  refine ⟨?_, ?_, ?_, ?_, ?_, ?_, ?_, ?_⟩ <;> decide +kernel

example : IsDouble (3602879701896397 / 2 ^ 55) := ⟨3602879701896397, -55, by norm_num, by norm_num, by norm_num, by norm_num⟩
example : ∃ t x, toChars (3602879701896397 / 2 ^ 55) = some t ∧ Denotes t x ∧ OnlyNearest x (3602879701896397 / 2 ^ 55) := by
  obtain ⟨t, x, h1, _, _, h4, _, _, h6⟩ := C148_written (q := 3602879701896397 / 2 ^ 55)
    ⟨3602879701896397, -55, by norm_num, by norm_num, by norm_num, by norm_num⟩
  exact ⟨t, x, h1, h4, h6⟩

end Wis
