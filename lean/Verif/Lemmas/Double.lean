import Verif.Model.Double
import Verif.Lemmas.Ieee
import Verif.Spec.KernelCanvas
import Verif.Lemmas.Rand
import Mathlib.Tactic.Linarith
import Mathlib.Tactic.NormNum
import Mathlib.Tactic.Positivity
/-!
# Facts about `double` arithmetic
-/

namespace Wis
open Spec

namespace Dbl

local notation "r64" => Ieee.rnd Ieee.double (K := ℝ)

theorem r64_int {n : Int} (h : |n| ≤ 2 ^ 53) : r64 n = n := Ieee.rnd_int (F := Ieee.double) (by decide) h

theorem r64_mono {x y : ℝ} (h : x ≤ y) : r64 x ≤ r64 y := Ieee.rnd_mono _ h

theorem r64_zero : r64 0 = 0 := Ieee.rnd_zero _

theorem r64_one : r64 1 = 1 := by
  have := r64_int (n := 1) (by norm_num)
  simpa using this

theorem r64_two : r64 2 = 2 := by
  have := r64_int (n := 2) (by norm_num)
  simpa using this

theorem r64_nonneg {x : ℝ} (h : 0 ≤ x) : 0 ≤ r64 x := by rw [← r64_zero]; exact r64_mono h

theorem r64_le_one {x : ℝ} (h : x ≤ 1) : r64 x ≤ 1 := by
  have := r64_mono h
  rwa [r64_one] at this

theorem r64_ge_neg_one {x : ℝ} (h : -1 ≤ x) : -1 ≤ r64 x := by
  have := r64_mono h
  rwa [Ieee.rnd_neg, r64_one] at this

theorem r64_le_two {x : ℝ} (h : x ≤ 2) : r64 x ≤ 2 := by
  have := r64_mono h
  rwa [r64_two] at this

theorem r64_ge_neg_two {x : ℝ} (h : -2 ≤ x) : -2 ≤ r64 x := by
  have := r64_mono h
  rwa [Ieee.rnd_neg, r64_two] at this

theorem two_lt_top : (2 : ℝ) < 2 ^ 1024 := by
  calc (2 : ℝ) = 2 ^ 1 := by norm_num
    _ < 2 ^ 1024 := pow_lt_pow_right₀ (by norm_num) (by norm_num)

theorem one_lt_top : (1 : ℝ) < 2 ^ 1024 := lt_trans (by norm_num) two_lt_top

theorem two53_lt_top : ((2 : ℝ) ^ 53) < 2 ^ 1024 := pow_lt_pow_right₀ (by norm_num) (by norm_num)

theorem ofReal_fin {x : ℝ} (h : |r64 x| < 2 ^ 1024) : ofReal x = .fin (r64 x) := by
  unfold ofReal
  rw [if_pos h]

theorem ofReal_small {x : ℝ} (h : |r64 x| ≤ 2) : ofReal x = .fin (r64 x) := ofReal_fin (lt_of_le_of_lt h two_lt_top)

theorem ofReal_int {n : Int} (h : |n| ≤ 2 ^ 53) : ofReal (n : ℝ) = .fin n := by
  have h1 := r64_int h
  rw [ofReal_fin, h1]
  rw [h1]
  refine lt_of_le_of_lt ?_ two53_lt_top
  exact_mod_cast h

theorem ofReal_nonneg {x : ℝ} (h : 0 ≤ x) : (∃ y, 0 ≤ y ∧ ofReal x = .fin y) ∨ ofReal x = .inf false := by
  unfold ofReal
  split
  · exact .inl ⟨_, r64_nonneg h, rfl⟩
  · right
    rw [decide_eq_false (by linarith)]

theorem ofReal_ne_nan (x : ℝ) : ofReal x ≠ .nan := by
  unfold ofReal
  split <;> simp

/-- A `double` that exists. -/
def Valid : Dbl → Prop
  | .fin x => Ieee.IsFloat Ieee.double x ∧ |x| < 2 ^ 1024
  | _ => True

theorem ofReal_valid (x : ℝ) : Valid (ofReal x) := by
  unfold ofReal
  split
  · rename_i h; exact ⟨Ieee.rnd_isFloat _ x, h⟩
  · trivial

theorem zero_valid : Valid (.fin 0) := by
  have := ofReal_valid 0
  rwa [ofReal_small (by rw [r64_zero]; norm_num), r64_zero] at this

theorem neg_valid {a : Dbl} (h : Valid a) : Valid (neg a) := by
  cases a with
  | fin x => exact ⟨Ieee.isFloat_neg h.1, by rw [abs_neg]; exact h.2⟩
  | inf s => trivial
  | nan => trivial

theorem add_valid (a b : Dbl) : Valid (add a b) := by
  unfold add
  split <;> try trivial
  · exact ofReal_valid _
  · split <;> trivial

theorem mul_valid (a b : Dbl) : Valid (mul a b) := by
  unfold mul
  split <;> try trivial
  · exact ofReal_valid _
  · split <;> trivial
  · split <;> trivial

theorem div_valid (a b : Dbl) : Valid (div a b) := by
  unfold div
  split <;> try trivial
  · split
    · split <;> trivial
    · exact ofReal_valid _
  · exact zero_valid

theorem sqrt_valid (a : Dbl) : Valid (sqrt a) := by
  unfold sqrt
  split <;> try trivial
  split
  · trivial
  · exact ofReal_valid _

theorem isFloat_of_rnd {x : ℝ} (h : r64 x = x) : Ieee.IsFloat Ieee.double x := by rw [← h]; exact Ieee.rnd_isFloat _ x

theorem tanh_valid (t : Tanh) (a : Dbl) : Valid (tanh t a) := by
  cases a with
  | fin x =>
    refine ⟨isFloat_of_rnd (t.isFloat x), lt_of_le_of_lt (abs_le.mpr (t.bound x)) one_lt_top⟩
  | inf s =>
    refine ⟨isFloat_of_rnd ?_, ?_⟩
    · split
      · rw [Ieee.rnd_neg, r64_one]
      · exact r64_one
    · split
      · rw [abs_neg, abs_one]; exact one_lt_top
      · rw [abs_one]; exact one_lt_top
  | nan => trivial

/-- A number between -1 and 1. -/
def Unit (a : Dbl) : Prop := ∃ x : ℝ, a = .fin x ∧ -1 ≤ x ∧ x ≤ 1

/-- A number that is not negative, maybe infinite. -/
def Pos (a : Dbl) : Prop := (∃ x : ℝ, 0 ≤ x ∧ a = .fin x) ∨ a = .inf false

theorem sub_unit {a b : Dbl} (ha : Unit a) (hb : Unit b) : ∃ x : ℝ, sub a b = .fin x := by
  obtain ⟨x, rfl, h1, h2⟩ := ha
  obtain ⟨y, rfl, h3, h4⟩ := hb
  refine ⟨_, ofReal_small (abs_le.mpr ⟨r64_ge_neg_two ?_, r64_le_two ?_⟩)⟩ <;> linarith

theorem add_pos {a b : Dbl} (ha : Pos a) (hb : Pos b) : Pos (add a b) := by
  rcases ha with ⟨x, hx, rfl⟩ | rfl <;> rcases hb with ⟨y, hy, rfl⟩ | rfl
  · rcases ofReal_nonneg (add_nonneg hx hy) with ⟨z, hz, h⟩ | h
    · exact .inl ⟨z, hz, h⟩
    · exact .inr h
  all_goals exact .inr rfl

theorem sq_pos {a : Dbl} (h : a ≠ .nan) : Pos (mul a a) := by
  cases a with
  | fin x =>
    rcases ofReal_nonneg (mul_self_nonneg x) with ⟨z, hz, h⟩ | h
    · exact .inl ⟨z, hz, h⟩
    · exact .inr h
  | inf s => right; cases s <;> rfl
  | nan => exact absurd rfl h

theorem sqrt_pos {a : Dbl} (h : Pos a) : Pos (sqrt a) := by
  rcases h with ⟨x, hx, rfl⟩ | rfl
  · have h1 : sqrt (.fin x) = ofReal (Real.sqrt x) := if_neg (not_lt.mpr hx)
    rw [h1]
    rcases ofReal_nonneg (Real.sqrt_nonneg x) with ⟨z, hz, h⟩ | h
    · exact .inl ⟨z, hz, h⟩
    · exact .inr h
  · exact .inr rfl

theorem lt_trans_pos {a b c : Dbl} (ha : Pos a) (hb : Pos b) (hc : Pos c) (h1 : lt a b = true) (h2 : lt b c = true) : lt a c = true := by
  rcases ha with ⟨x, hx, rfl⟩ | rfl <;> rcases hb with ⟨y, hy, rfl⟩ | rfl <;> rcases hc with ⟨z, hz, rfl⟩ | rfl <;>
    simp_all [lt]
  linarith

theorem incomp_pos {a b c : Dbl} (ha : Pos a) (hb : Pos b) (hc : Pos c) (h1 : lt a b = false) (h2 : lt b c = false) : lt a c = false := by
  rcases ha with ⟨x, hx, rfl⟩ | rfl <;> rcases hb with ⟨y, hy, rfl⟩ | rfl <;> rcases hc with ⟨z, hz, rfl⟩ | rfl <;>
    simp_all [lt]
  linarith

/-- IEEE doubles satisfy the laws used for KernelCanvas. -/
noncomputable def laws (t : Tanh) : FLaws (ops t) where
  Pt := Unit
  Kn := Unit
  Num a := a ≠ nan
  Sq := Pos
  NaN a := a = nan
  tanh x := by
    cases x with
    | fin x => exact .inl ⟨_, rfl, t.bound x⟩
    | inf s => exact .inl ⟨_, rfl, by cases s <;> norm_num, by cases s <;> norm_num⟩
    | nan => exact .inr rfl
  sub ha hb := by
    obtain ⟨x, h⟩ := sub_unit ha hb
    show Dbl.sub _ _ ≠ nan
    rw [h]; simp
  sub_nan := by rintro _ k rfl; rfl
  sq h := sq_pos h
  sq_nan := by rintro _ rfl; rfl
  zero := .inl ⟨0, le_rfl, rfl⟩
  add := add_pos
  nan_add := by rintro _ b rfl; rfl
  add_nan := by
    rintro a _ rfl
    cases a <;> rfl
  sqrt := sqrt_pos
  sqrt_nan := by rintro _ rfl; rfl
  irrefl := by
    rintro _ (⟨x, _, rfl⟩ | rfl)
    · simp [ops, lt]
    · rfl
  trans := lt_trans_pos
  incomp := incomp_pos
  nan_lt := by rintro _ b rfl; rfl
  lt_nan := by
    rintro a _ rfl
    cases a <;> rfl

/-! ## Random coordinates -/

theorem ops_ofNat (t : Tanh) {n : Nat} (h : n ≤ 2 ^ 53) : (ops t).ofNat n = .fin n := by
  have h1 := ofReal_int (n := (n : Int)) (by rw [abs_of_nonneg (by omega)]; exact_mod_cast h)
  rw [Int.cast_natCast] at h1
  exact h1

/-- `randdouble(-1, 1)` is between -1 and 1. -/
theorem randdouble_unit (t : Tanh) {r : Nat} (hr : r ≤ 2147483647) :
    Unit (KernelCanvas.randdouble (ops t) r (.fin (-1)) (.fin 1)) := by
  have h1 : (ops t).sub (.fin 1) (.fin (-1)) = .fin 2 := by
    show ofReal (1 + -(-1)) = _
    have := ofReal_int (n := 2) (by norm_num)
    rw [show (1 : ℝ) + -(-1) = ((2 : Int) : ℝ) by norm_num, this]
    norm_num
  have hq : (0 : ℝ) ≤ (r : ℝ) / 2147483647 ∧ (r : ℝ) / 2147483647 ≤ 1 := by
    refine ⟨by positivity, ?_⟩
    rw [div_le_one (by norm_num)]
    exact_mod_cast hr
  have q0 := r64_nonneg hq.1
  have q1 := r64_le_one hq.2
  have h2 : (ops t).div ((ops t).ofNat r) ((ops t).ofNat 2147483647) = .fin (r64 ((r : ℝ) / 2147483647)) := by
    rw [ops_ofNat t (by omega), ops_ofNat t (by norm_num)]
    have h3 : div (.fin (r : ℝ)) (.fin ((2147483647 : Nat) : ℝ)) = ofReal ((r : ℝ) / ((2147483647 : Nat) : ℝ)) := if_neg (by norm_num)
    have h4 : ((2147483647 : Nat) : ℝ) = 2147483647 := by norm_num
    rw [h4] at h3
    rw [h4]
    refine h3.trans (ofReal_small (abs_le.mpr ⟨?_, ?_⟩)) <;> linarith
  unfold KernelCanvas.randdouble
  rw [h1, h2]
  generalize r64 ((r : ℝ) / 2147483647) = q at q0 q1
  have p0 := r64_nonneg (show (0 : ℝ) ≤ q * 2 by linarith)
  have p1 := r64_le_two (show q * 2 ≤ 2 by linarith)
  have h3 : (ops t).mul (.fin q) (.fin 2) = .fin (r64 (q * 2)) := ofReal_small (abs_le.mpr ⟨by linarith, p1⟩)
  rw [h3]
  generalize r64 (q * 2) = p at p0 p1
  have s0 := r64_ge_neg_one (show (-1 : ℝ) ≤ p + -1 by linarith)
  have s1 := r64_le_one (show p + -1 ≤ 1 by linarith)
  exact ⟨_, ofReal_small (abs_le.mpr ⟨by linarith, by linarith⟩), s0, s1⟩

end Dbl
end Wis
