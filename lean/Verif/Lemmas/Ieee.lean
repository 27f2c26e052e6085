import Verif.Model.Ieee
import Mathlib.Tactic.Linarith
import Mathlib.Tactic.Ring
import Mathlib.Tactic.FieldSimp
import Mathlib.Algebra.Order.Field.Power
/-!
# Facts about IEEE rounding
-/

set_option linter.unusedSectionVars false

namespace Wis.Ieee

variable {K : Type} [Field K] [LinearOrder K] [IsStrictOrderedRing K] [FloorRing K]

/-- `y` is a number of the format: a significand of at most `p` bits times a power of two not below the smallest. -/
def IsFloat (F : Fmt) (y : K) : Prop := ∃ m e : Int, |m| < 2 ^ F.p ∧ F.emin - (F.p - 1) ≤ e ∧ y = m * (2 : K) ^ e

theorem rint_spec (x : K) : |x - rint x| < 1 / 2 ∨ |x - rint x| = 1 / 2 ∧ rint x % 2 = 0 := by
  have h1 := Int.floor_le x
  have h2 := Int.lt_floor_add_one x
  unfold rint
  split
  · rename_i h
    left
    rw [abs_of_nonneg (by linarith)]; exact h
  · rename_i h
    split
    · rename_i h'
      left
      push_cast
      rw [abs_lt]; constructor <;> linarith
    · rename_i h'
      have he : x - ⌊x⌋ = 1 / 2 := le_antisymm (not_lt.mp h') (not_lt.mp h)
      split
      · right
        rename_i h3
        exact ⟨by rw [he, abs_of_nonneg (by norm_num)], h3⟩
      · right
        rename_i h3
        refine ⟨?_, by omega⟩
        push_cast
        rw [abs_of_nonpos (by linarith)]; linarith

theorem rint_half (x : K) : |x - rint x| ≤ 1 / 2 := by
  rcases rint_spec x with h | h
  · exact h.le
  · exact h.1.le

theorem rint_unique {x : K} {n : Int} (h : |x - n| < 1 / 2 ∨ |x - n| = 1 / 2 ∧ n % 2 = 0) : rint x = n := by
  have key : |((rint x - n : Int) : K)| ≤ 1 / 2 + 1 / 2 := by
    push_cast
    have : ((rint x : K) - n) = (x - n) - (x - rint x) := by ring
    rw [this]
    refine (abs_sub _ _).trans (add_le_add ?_ (rint_half x))
    rcases h with h | h
    · exact h.le
    · exact h.1.le
  have key2 : |rint x - n| ≤ 1 := by
    have : ((|rint x - n| : Int) : K) ≤ ((1 : Int) : K) := by push_cast at key ⊢; linarith
    exact_mod_cast this
  by_contra hne
  have h1 : |rint x - n| = 1 := by
    have : 0 < |rint x - n| := abs_pos.mpr (sub_ne_zero.mpr hne)
    omega
  have hsum : (1 : K) ≤ |x - rint x| + |x - n| := by
    have h3 : ((|rint x - n| : Int) : K) = 1 := by rw [h1]; norm_num
    push_cast at h3
    have : ((rint x : K) - n) = (x - n) - (x - rint x) := by ring
    rw [this] at h3
    have := abs_sub (x - (n : K)) (x - rint x)
    linarith
  rcases rint_spec x with h2 | ⟨h2, h2'⟩
  · have : |x - n| ≤ 1 / 2 := by rcases h with h | h; exacts [h.le, h.1.le]
    linarith
  · rcases h with h | ⟨_, h'⟩
    · linarith
    · rcases abs_cases (rint x - n) with ⟨h4, _⟩ | ⟨h4, _⟩ <;> omega

theorem rint_int (n : Int) : rint (n : K) = n := rint_unique (.inl (by rw [sub_self, abs_zero]; norm_num))

theorem rint_neg (x : K) : rint (-x) = -rint x := by
  apply rint_unique
  push_cast
  have : -x - -(rint x : K) = -(x - rint x) := by ring
  rw [this, abs_neg]
  rcases rint_spec x with h | ⟨h, h'⟩
  · exact .inl h
  · exact .inr ⟨h, by omega⟩

/-- No integer is nearer. -/
theorem rint_nearest (x : K) (n : Int) : |x - rint x| ≤ |x - n| := by
  by_cases h : n = rint x
  · rw [h]
  · have h1 : (1 : Int) ≤ |rint x - n| := by
      have : 0 < |rint x - n| := abs_pos.mpr (sub_ne_zero.mpr (Ne.symm h))
      omega
    have h2 : (1 : K) ≤ |(rint x : K) - n| := by exact_mod_cast h1
    have : ((rint x : K) - n) = (x - n) - (x - rint x) := by ring
    rw [this] at h2
    have := abs_sub (x - (n : K)) (x - rint x)
    have := rint_half x
    linarith

theorem two_zpow_pos (e : Int) : (0 : K) < (2 : K) ^ e := zpow_pos (by norm_num) e

theorem two_zpow_add (a b : Int) : (2 : K) ^ (a + b) = (2 : K) ^ a * (2 : K) ^ b := zpow_add₀ (by norm_num) a b

theorem rnd_zero (F : Fmt) : rnd F (0 : K) = 0 := by
  unfold rnd
  rw [zero_div]
  have := rint_int (K := K) 0
  rw [Int.cast_zero] at this
  rw [this]; simp

theorem lastPlace_neg (F : Fmt) (x : K) : lastPlace F (-x) = lastPlace F x := by unfold lastPlace; rw [abs_neg]

theorem rnd_neg (F : Fmt) (x : K) : rnd F (-x) = -rnd F x := by
  unfold rnd
  rw [lastPlace_neg, neg_div, rint_neg]
  push_cast; ring

/-- `x` measured in last places has at most `p` bits. -/
theorem abs_lt_places (F : Fmt) (x : K) : |x| < (2 : K) ^ F.p * (2 : K) ^ lastPlace F x := by
  have h := Int.lt_zpow_succ_log_self (b := 2) (by norm_num) |x|
  refine h.trans_le ?_
  rw [← zpow_natCast, ← two_zpow_add]
  push_cast
  apply zpow_le_zpow_right₀ (by norm_num)
  unfold lastPlace
  have := le_max_left (Int.log 2 |x|) F.emin
  omega

/-- If numbers of the format lie more densely somewhere, then it is nearer to zero. -/
theorem coarse (F : Fmt) {x : K} (hx : x ≠ 0) {e : Int} (he : F.emin - (F.p - 1) ≤ e) (hlt : e < lastPlace F x) :
    (2 : K) ^ (F.p : Int) * (2 : K) ^ e ≤ (2 : K) ^ (lastPlace F x + (F.p - 1)) ∧ (2 : K) ^ (lastPlace F x + (F.p - 1)) ≤ |x| := by
  constructor
  · rw [← two_zpow_add]
    apply zpow_le_zpow_right₀ (by norm_num)
    omega
  · have hpos : 0 < |x| := abs_pos.mpr hx
    have h := Int.zpow_log_le_self (b := 2) (by norm_num) hpos
    refine le_trans ?_ h
    push_cast
    apply zpow_le_zpow_right₀ (by norm_num)
    unfold lastPlace at hlt ⊢
    rcases le_total (Int.log 2 |x|) F.emin with h1 | h1
    · rw [max_eq_right h1] at hlt; omega
    · rw [max_eq_left h1]; omega

theorem rnd_err (F : Fmt) (x : K) : |x - rnd F x| ≤ (2 : K) ^ lastPlace F x / 2 := by
  have hu := two_zpow_pos (K := K) (lastPlace F x)
  have h := rint_half (x / (2 : K) ^ lastPlace F x)
  unfold rnd
  have e : x - rint (x / (2 : K) ^ lastPlace F x) * (2 : K) ^ lastPlace F x =
      (x / (2 : K) ^ lastPlace F x - rint (x / (2 : K) ^ lastPlace F x)) * (2 : K) ^ lastPlace F x := by
    rw [sub_mul, div_mul_cancel₀ _ hu.ne']
  rw [e, abs_mul, abs_of_pos hu]
  calc _ ≤ 1 / 2 * (2 : K) ^ lastPlace F x := mul_le_mul_of_nonneg_right h hu.le
    _ = _ := by ring

/-- No multiple of the last place is nearer to `x` than the rounded number. -/
theorem rnd_nearest_mult (F : Fmt) (x : K) (n : Int) : |x - rnd F x| ≤ |x - n * (2 : K) ^ lastPlace F x| := by
  have hu := two_zpow_pos (K := K) (lastPlace F x)
  have h := rint_nearest (x / (2 : K) ^ lastPlace F x) n
  have e : ∀ k : Int, x - k * (2 : K) ^ lastPlace F x = (x / (2 : K) ^ lastPlace F x - k) * (2 : K) ^ lastPlace F x := by
    intro k
    rw [sub_mul, div_mul_cancel₀ _ hu.ne']
  unfold rnd
  rw [e, e, abs_mul, abs_mul]
  exact mul_le_mul_of_nonneg_right h (abs_nonneg _)

/-- **Rounding is to nearest**: no number of the format is nearer to `x`. -/
theorem rnd_nearest (F : Fmt) (x : K) {y : K} (hy : IsFloat F y) : |x - rnd F x| ≤ |x - y| := by
  obtain ⟨m, e, hm, he, rfl⟩ := hy
  by_cases hx : x = 0
  · rw [hx, rnd_zero, sub_zero, abs_zero]; exact abs_nonneg _
  by_cases hle : lastPlace F x ≤ e
  · have : (m : K) * (2 : K) ^ e = ((m * 2 ^ (e - lastPlace F x).toNat : Int) : K) * (2 : K) ^ lastPlace F x := by
      push_cast
      rw [mul_assoc, ← zpow_natCast, ← two_zpow_add]
      congr 2
      omega
    rw [this]
    exact rnd_nearest_mult F x _
  · obtain ⟨h1, h2⟩ := coarse F hx he (not_le.mp hle)
    have hmy : |(m : K) * (2 : K) ^ e| < (2 : K) ^ (F.p : Int) * (2 : K) ^ e := by
      rw [abs_mul, abs_of_pos (two_zpow_pos (K := K) e)]
      apply mul_lt_mul_of_pos_right _ (two_zpow_pos e)
      rw [zpow_natCast]
      exact_mod_cast hm
    have hp : (2 : K) ^ (lastPlace F x + ((F.p : Int) - 1)) = ((2 ^ (F.p - 1) : Int) : K) * (2 : K) ^ lastPlace F x := by
      rw [add_comm, two_zpow_add]
      push_cast
      rw [← zpow_natCast, Nat.cast_sub F.pos]
      norm_num
    rcases lt_or_gt_of_ne hx with hneg | hpos
    · have h3 := rnd_nearest_mult F x (-(2 ^ (F.p - 1)))
      rw [Int.cast_neg, neg_mul, ← hp] at h3
      rw [abs_of_neg hneg] at h2
      rw [abs_lt] at hmy
      refine h3.trans ?_
      rw [abs_of_nonpos (by linarith)]
      rw [abs_of_nonpos (by linarith)]
      linarith
    · have h3 := rnd_nearest_mult F x (2 ^ (F.p - 1))
      rw [← hp] at h3
      rw [abs_of_pos hpos] at h2
      rw [abs_lt] at hmy
      refine h3.trans ?_
      rw [abs_of_nonneg (by linarith)]
      rw [abs_of_nonneg (by linarith)]
      linarith

/-- The result is a number of the format. -/
theorem rnd_isFloat (F : Fmt) (x : K) : IsFloat F (rnd F x) := by
  have hlp : F.emin - (F.p - 1) ≤ lastPlace F x := by
    unfold lastPlace
    have := le_max_right (Int.log 2 |x|) F.emin
    omega
  have hu := two_zpow_pos (K := K) (lastPlace F x)
  have hq : |x / (2 : K) ^ lastPlace F x| < (2 : K) ^ F.p := by
    rw [abs_div, abs_of_pos hu, div_lt_iff₀ hu]
    exact abs_lt_places F x
  have hb : |rint (x / (2 : K) ^ lastPlace F x)| ≤ 2 ^ F.p := by
    have h1 := rint_half (x / (2 : K) ^ lastPlace F x)
    generalize x / (2 : K) ^ lastPlace F x = q at hq h1
    have h2 : |(rint q : K)| ≤ |q| + 1 / 2 := by
      have : (rint q : K) = q - (q - rint q) := by ring
      rw [this]
      exact (abs_sub _ _).trans (add_le_add le_rfl h1)
    have h3 : ((|rint q| : Int) : K) < ((2 ^ F.p + 1 : Int) : K) := by
      push_cast
      linarith
    have h4 : |rint q| < 2 ^ F.p + 1 := by exact_mod_cast h3
    omega
  rcases lt_or_eq_of_le hb with h | h
  · exact ⟨_, _, h, hlp, rfl⟩
  · have hp2 : (2 : Int) ^ F.p = 2 * 2 ^ (F.p - 1) := by
      conv_lhs => rw [← Nat.sub_add_cancel F.pos, pow_succ]
      ring
    have hpp : (0 : Int) < 2 ^ (F.p - 1) := by positivity
    unfold rnd
    rcases abs_cases (rint (x / (2 : K) ^ lastPlace F x)) with ⟨h4, _⟩ | ⟨h4, _⟩
    · refine ⟨2 ^ (F.p - 1), lastPlace F x + 1, by rw [abs_of_pos hpp]; omega, by omega, ?_⟩
      have : rint (x / (2 : K) ^ lastPlace F x) = 2 * 2 ^ (F.p - 1) := by omega
      rw [this, two_zpow_add]
      push_cast; ring
    · refine ⟨-2 ^ (F.p - 1), lastPlace F x + 1, by rw [abs_neg, abs_of_pos hpp]; omega, by omega, ?_⟩
      have : rint (x / (2 : K) ^ lastPlace F x) = -(2 * 2 ^ (F.p - 1)) := by omega
      rw [this, two_zpow_add]
      push_cast; ring

/-- Numbers of the format are not changed. -/
theorem rnd_of_isFloat {F : Fmt} {y : K} (hy : IsFloat F y) : rnd F y = y := by
  have h := rnd_nearest F y hy
  rw [sub_self, abs_zero] at h
  have := abs_nonpos_iff.mp h
  linarith

theorem rnd_mono (F : Fmt) {x y : K} (h : x ≤ y) : rnd F x ≤ rnd F y := by
  by_contra hlt
  rw [not_le] at hlt
  have h1 := rnd_nearest F x (rnd_isFloat F y)
  have h2 := rnd_nearest F y (rnd_isFloat F x)
  have hx : (rnd F x + rnd F y) / 2 ≤ x := by
    by_contra hc
    rw [not_le] at hc
    rcases abs_cases (x - rnd F x) with ⟨g1, _⟩ | ⟨g1, _⟩ <;> rcases abs_cases (x - rnd F y) with ⟨g2, _⟩ | ⟨g2, _⟩ <;> linarith
  have hy : y ≤ (rnd F x + rnd F y) / 2 := by
    by_contra hc
    rw [not_le] at hc
    rcases abs_cases (y - rnd F x) with ⟨g1, _⟩ | ⟨g1, _⟩ <;> rcases abs_cases (y - rnd F y) with ⟨g2, _⟩ | ⟨g2, _⟩ <;> linarith
  have : x = y := le_antisymm h (hy.trans hx)
  rw [this] at hlt
  exact lt_irrefl _ hlt

/-- Integers of at most `p` bits are numbers of the format. -/
theorem isFloat_int {F : Fmt} (he : F.emin ≤ F.p - 1) {n : Int} (h : |n| ≤ 2 ^ F.p) : IsFloat F (n : K) := by
  rcases lt_or_eq_of_le h with h | h
  · exact ⟨n, 0, h, by omega, by simp⟩
  · have hp2 : (2 : Int) ^ F.p = 2 * 2 ^ (F.p - 1) := by
      conv_lhs => rw [← Nat.sub_add_cancel F.pos, pow_succ]
      ring
    have hpp : (0 : Int) < 2 ^ (F.p - 1) := by positivity
    rcases abs_cases n with ⟨h4, _⟩ | ⟨h4, _⟩
    · refine ⟨2 ^ (F.p - 1), 1, by rw [abs_of_pos hpp]; omega, by omega, ?_⟩
      have : n = 2 * 2 ^ (F.p - 1) := by omega
      rw [this]
      push_cast; ring
    · refine ⟨-2 ^ (F.p - 1), 1, by rw [abs_neg, abs_of_pos hpp]; omega, by omega, ?_⟩
      have : n = -(2 * 2 ^ (F.p - 1)) := by omega
      rw [this]
      push_cast; ring

theorem rnd_int {F : Fmt} (he : F.emin ≤ F.p - 1) {n : Int} (h : |n| ≤ 2 ^ F.p) : rnd F (n : K) = n :=
  rnd_of_isFloat (isFloat_int he h)

theorem isFloat_neg {F : Fmt} {y : K} (h : IsFloat F y) : IsFloat F (-y) := by
  obtain ⟨m, e, h1, h2, rfl⟩ := h
  exact ⟨-m, e, by rw [abs_neg]; exact h1, h2, by push_cast; ring⟩

end Wis.Ieee
