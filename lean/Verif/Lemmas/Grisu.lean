import Verif.Model.Grisu
import Verif.Lemmas.Ieee
import Mathlib.Tactic.Linarith
import Mathlib.Tactic.NormNum
import Mathlib.Tactic.Positivity
import Mathlib.Tactic.Ring
/-!
# Facts about Grisu2
-/

namespace Wis.Grisu

theorem need_pos {α : Type} {p : Prop} [Decidable p] (h : p) (k : Option α) : need p k = k := if_pos h

theorem u64_lt {n : Nat} (h : n < 18446744073709551616) : u64 n = n := Nat.mod_eq_of_lt h

theorem mul_lt32 {a b : Nat} (ha : a < 4294967296) (hb : b < 4294967296) : a * b ≤ 18446744065119617025 := by
  have : a * b ≤ 4294967295 * 4294967295 := Nat.mul_le_mul (by omega) (by omega)
  omega

/-- The product is rounded to nearest. -/
theorem mul_f {x y : DiyFp} (hx : x.f < 18446744073709551616) (hy : y.f < 18446744073709551616) :
    (mul x y).f = (x.f * y.f + 9223372036854775808) / 18446744073709551616 := by
  have hxy : x.f * y.f = (x.f % 4294967296) * (y.f % 4294967296) +
      4294967296 * ((x.f % 4294967296) * (y.f / 4294967296) + (x.f / 4294967296) * (y.f % 4294967296)) +
      18446744073709551616 * ((x.f / 4294967296) * (y.f / 4294967296)) := by
    have h1 := Nat.mod_add_div x.f 4294967296
    have h2 := Nat.mod_add_div y.f 4294967296
    generalize x.f % 4294967296 = a at *
    generalize x.f / 4294967296 = b at *
    generalize y.f % 4294967296 = c at *
    generalize y.f / 4294967296 = d at *
    rw [← h1, ← h2]
    ring
  have e0 : x.f % 4294967296 < 4294967296 := by omega
  have e1 : x.f / 4294967296 < 4294967296 := by omega
  have e2 : y.f % 4294967296 < 4294967296 := by omega
  have e3 : y.f / 4294967296 < 4294967296 := by omega
  have b0 := mul_lt32 e0 e2
  have b1 := mul_lt32 e0 e3
  have b2 := mul_lt32 e1 e2
  have b3 := mul_lt32 e1 e3
  unfold mul
  dsimp only
  rw [hxy]
  generalize (x.f % 4294967296) * (y.f % 4294967296) = p0 at *
  generalize (x.f % 4294967296) * (y.f / 4294967296) = p1 at *
  generalize (x.f / 4294967296) * (y.f % 4294967296) = p2 at *
  generalize (x.f / 4294967296) * (y.f / 4294967296) = p3 at *
  have hlt : x.f * y.f < 18446744073709551616 * 18446744073709551616 := Nat.mul_lt_mul'' hx hy
  have hle : x.f * y.f ≤ 18446744073709551615 * 18446744073709551615 := Nat.mul_le_mul (by omega) (by omega)
  rw [hxy] at hle
  unfold u64
  omega

theorem mul_e (x y : DiyFp) : (mul x y).e = x.e + y.e + 64 := rfl

theorem normLoop_eq : ∀ (s n : Nat) (x : DiyFp), s < n → 9223372036854775808 ≤ x.f * 2 ^ s → x.f * 2 ^ s < 18446744073709551616 →
    normLoop n x = some ⟨x.f * 2 ^ s, x.e - s⟩
  | 0, n + 1, x, _, h1, h2 => by
    rw [Nat.pow_zero, Nat.mul_one] at h1 h2 ⊢
    rw [normLoop, if_neg (by omega)]
    simp
  | s + 1, n + 1, x, hs, h1, h2 => by
    have h3 : x.f * 2 ^ (s + 1) = x.f * 2 * 2 ^ s := by rw [pow_succ]; ring
    rw [h3] at h1 h2 ⊢
    have h4 : x.f * 2 ≤ x.f * 2 * 2 ^ s := Nat.le_mul_of_pos_right _ (by positivity)
    have h5 : x.f * 2 < 18446744073709551616 := by omega
    rw [normLoop, if_pos (by omega), u64_lt h5, normLoop_eq s n ⟨x.f * 2, x.e - 1⟩ (by omega) h1 h2]
    simp only [Option.some.injEq, DiyFp.mk.injEq, true_and]
    push_cast
    ring

theorem normalize_eq {x : DiyFp} {s : Nat} (hs : s < 64) (h1 : 9223372036854775808 ≤ x.f * 2 ^ s)
    (h2 : x.f * 2 ^ s < 18446744073709551616) : normalize x = some ⟨x.f * 2 ^ s, x.e - s⟩ := by
  unfold normalize
  rw [need_pos (by intro h; rw [h] at h1; omega), normLoop_eq s 64 x hs h1 h2]

theorem normalizeTo_eq {x : DiyFp} {s : Nat} {t : Int} (ht : t = x.e - s) (h2 : x.f * 2 ^ s < 18446744073709551616) :
    normalizeTo x t = some ⟨x.f * 2 ^ s, t⟩ := by
  have h : (x.e - t).toNat = s := by omega
  unfold normalizeTo
  dsimp only
  rw [h, need_pos (by omega), u64_lt h2, need_pos (Nat.mul_div_cancel _ (by positivity))]

/-- The number of places a significand is shifted. -/
theorem shift_exists {f : Nat} (h0 : 0 < f) (h : f < 9007199254740992) : ∃ s, s < 64 ∧ 11 ≤ s ∧ 9223372036854775808 ≤ f * 2 ^ s ∧
    f * 2 ^ s < 18446744073709551616 := by
  have hl : Nat.log 2 f < 53 := Nat.log_lt_of_lt_pow (by omega) (by norm_num; exact h)
  have h1 : 2 ^ Nat.log 2 f ≤ f := Nat.pow_log_le_self 2 (by omega)
  have h2 : f < 2 ^ (Nat.log 2 f + 1) := Nat.lt_pow_succ_log_self (by omega) f
  refine ⟨63 - Nat.log 2 f, by omega, by omega, ?_, ?_⟩
  · calc 9223372036854775808 = 2 ^ Nat.log 2 f * 2 ^ (63 - Nat.log 2 f) := by
          rw [← pow_add, show Nat.log 2 f + (63 - Nat.log 2 f) = 63 by omega]; norm_num
      _ ≤ _ := Nat.mul_le_mul_right _ h1
  · calc f * 2 ^ (63 - Nat.log 2 f) < 2 ^ (Nat.log 2 f + 1) * 2 ^ (63 - Nat.log 2 f) := Nat.mul_lt_mul_of_pos_right h2 (by positivity)
      _ = 18446744073709551616 := by
          rw [← pow_add, show Nat.log 2 f + 1 + (63 - Nat.log 2 f) = 64 by omega]; norm_num

/-- The significand and exponent of the last place of a `double` with fields `E` and `F`. -/
def signif (E F : Nat) : Nat := if E = 0 then F else F + 4503599627370496
/-- See `signif`. -/
def place (E : Nat) : Int := if E = 0 then -1074 else (E : Int) - 1075

/-- The normalised number and its boundaries: half a unit of the last place up, half or a quarter down. -/
theorem boundaries_eq {E F : Nat} (hF : F < 4503599627370496) (h0 : 0 < signif E F) : ∃ s h g : Nat,
    11 ≤ s ∧ s < 64 ∧ 2 * h = 2 ^ s ∧ 1024 ≤ h ∧
    (g = h ∧ ¬ (F = 0 ∧ E > 1) ∨ 2 * g = h ∧ signif E F = 4503599627370496 ∧ 1 < E) ∧
    9223372036854775808 ≤ signif E F * (2 * h) ∧ signif E F * (2 * h) + h < 18446744073709551616 ∧
    boundariesOf E F = some ⟨⟨signif E F * (2 * h), place E - s⟩, ⟨signif E F * (2 * h) - g, place E - s⟩,
      ⟨signif E F * (2 * h) + h, place E - s⟩⟩ := by
  have hf : signif E F < 9007199254740992 := by unfold signif; split <;> omega
  obtain ⟨s, hs, hs11, h1, h2⟩ := shift_exists h0 hf
  obtain ⟨t, rfl⟩ : ∃ t, s = t + 2 := ⟨s - 2, by omega⟩
  have hv : (if E = 0 then (⟨F, -1074⟩ : DiyFp) else ⟨F + 4503599627370496, (E : Int) - 1075⟩) = ⟨signif E F, place E⟩ := by
    unfold signif place; split <;> rfl
  have ht9 : 2 ^ 9 ≤ 2 ^ t := Nat.pow_le_pow_right (by omega) (by omega)
  have hp : signif E F * 2 ^ (t + 2) = signif E F * (2 * (2 * 2 ^ t)) := by rw [pow_succ, pow_succ]; ring
  have hp1 : (2 * signif E F + 1) * 2 ^ (t + 1) = signif E F * (2 * (2 * 2 ^ t)) + 2 * 2 ^ t := by rw [pow_succ]; ring
  rw [hp] at h1 h2
  have hlt : signif E F * (2 * (2 * 2 ^ t)) + 2 * 2 ^ t < 18446744073709551616 := by
    -- both are multiples of `2^t`, and so is the bound
    have h3 : (18446744073709551616 : Nat) = 2 ^ (62 - t) * (4 * 2 ^ t) := by
      rw [show 4 * 2 ^ t = 2 ^ (t + 2) by rw [pow_succ, pow_succ]; ring, ← pow_add, show 62 - t + (t + 2) = 64 by omega]; norm_num
    have h4 : signif E F * (2 * (2 * 2 ^ t)) = signif E F * (4 * 2 ^ t) := by ring
    have h5 : signif E F * (4 * 2 ^ t) < 2 ^ (62 - t) * (4 * 2 ^ t) := by rw [← h3, ← h4]; exact h2
    have h6 : signif E F < 2 ^ (62 - t) := Nat.lt_of_mul_lt_mul_right h5
    have h7 : (signif E F + 1) * (4 * 2 ^ t) ≤ 2 ^ (62 - t) * (4 * 2 ^ t) := Nat.mul_le_mul_right _ h6
    rw [← h3] at h7
    rw [h4]
    have h8 : (signif E F + 1) * (4 * 2 ^ t) = signif E F * (4 * 2 ^ t) + 4 * 2 ^ t := by ring
    omega
  by_cases hc : F = 0 ∧ E > 1
  · refine ⟨t + 2, 2 * 2 ^ t, 2 ^ t, hs11, hs, by rw [pow_succ, pow_succ]; ring, by omega, .inr ⟨rfl, ?_, hc.2⟩, h1, hlt, ?_⟩
    · unfold signif; rw [if_neg (by omega), hc.1]
    · unfold boundariesOf
      dsimp only
      rw [hv, if_pos hc]
      dsimp only
      rw [normalize_eq (s := t + 1) (by omega) (by dsimp only; rw [hp1]; omega) (by dsimp only; rw [hp1]; omega)]
      have hm : (4 * signif E F - 1) * 2 ^ t = signif E F * (2 * (2 * 2 ^ t)) - 2 ^ t := by
        rw [Nat.sub_mul, Nat.one_mul]; congr 1; ring
      dsimp only [bind, Option.bind]
      rw [normalizeTo_eq (s := t) (by dsimp only; push_cast; ring) (by dsimp only; rw [hm]; omega)]
      dsimp only [bind, Option.bind]
      rw [normalize_eq (s := t + 2) (by omega) (by dsimp only; rw [hp]; omega) (by dsimp only; rw [hp]; omega)]
      dsimp only
      rw [hp, hm, hp1, show place E - 1 - ((t + 1 : Nat) : Int) = place E - ((t + 2 : Nat) : Int) by push_cast; ring]
  · refine ⟨t + 2, 2 * 2 ^ t, 2 * 2 ^ t, hs11, hs, by rw [pow_succ, pow_succ]; ring, by omega, (.inl ⟨rfl, hc⟩), h1, hlt, ?_⟩
    unfold boundariesOf
    dsimp only
    rw [hv, if_neg hc]
    dsimp only
    rw [normalize_eq (s := t + 1) (by omega) (by dsimp only; rw [hp1]; omega) (by dsimp only; rw [hp1]; omega)]
    have hm : (2 * signif E F - 1) * 2 ^ (t + 1) = signif E F * (2 * (2 * 2 ^ t)) - 2 * 2 ^ t := by
      rw [Nat.sub_mul, Nat.one_mul, pow_succ, Nat.mul_comm (2 ^ t) 2]; congr 1; ring
    dsimp only [bind, Option.bind]
    rw [normalizeTo_eq (s := t + 1) rfl (by dsimp only; rw [hm]; omega)]
    dsimp only [bind, Option.bind]
    rw [normalize_eq (s := t + 2) (by omega) (by dsimp only; rw [hp]; omega) (by dsimp only; rw [hp]; omega)]
    dsimp only
    rw [hp, hm, hp1, show place E - 1 - ((t + 1 : Nat) : Int) = place E - ((t + 2 : Nat) : Int) by push_cast; ring]

end Wis.Grisu
