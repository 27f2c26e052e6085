import Verif.Lemmas.GrisuMain
/-!
# Reading the digits back: whatever lies strictly between the middles to the neighbours is rounded to the number
-/

namespace Wis.Grisu
open Ieee

/-- A `double` that lies above the one with these fields is at least one last place above. -/
theorem gap_above {E F : Nat} {y : Rat} (hy : IsFloat Ieee.double y) (h : (signif E F : Rat) * 2 ^ place E < y) :
    (signif E F : Rat) * 2 ^ place E + 2 ^ place E ≤ y := by
  obtain ⟨m, e, hm, he, rfl⟩ := hy
  have he : -1074 ≤ e := he
  have hm : |m| < 2 ^ 53 := hm
  have hP : (0 : Rat) < 2 ^ place E := zpow_pos (by norm_num) _
  by_cases hle : place E ≤ e
  · obtain ⟨j, hj⟩ : ∃ j : Nat, e = place E + j := ⟨(e - place E).toNat, by omega⟩
    rw [hj, zpow_add₀ (by norm_num), zpow_natCast] at h ⊢
    have e1 : (m : Rat) * (2 ^ place E * 2 ^ j) = ((m * 2 ^ j : Int) : Rat) * 2 ^ place E := by push_cast; ring
    rw [e1] at h ⊢
    have h2 : (signif E F : Rat) < ((m * 2 ^ j : Int) : Rat) := lt_of_mul_lt_mul_right h hP.le
    have h3 : (signif E F : Int) < m * 2 ^ j := by exact_mod_cast h2
    have h4 : (signif E F : Int) + 1 ≤ m * 2 ^ j := h3
    have h5 : (signif E F : Rat) + 1 ≤ ((m * 2 ^ j : Int) : Rat) := by exact_mod_cast h4
    have := mul_le_mul_of_nonneg_right h5 hP.le
    linarith
  · exfalso
    have hE : E ≠ 0 := by intro h0; rw [h0] at hle; unfold place at hle; simp at hle; omega
    have hs : 4503599627370496 ≤ signif E F := by unfold signif; rw [if_neg hE]; omega
    have h1 : (2 : Rat) ^ e ≤ 2 ^ (place E - 1) := zpow_le_zpow_right₀ (by norm_num) (by omega)
    have h2 : (2 : Rat) ^ (place E - 1) = 2 ^ place E / 2 := by rw [zpow_sub₀ (by norm_num), zpow_one]
    have h3 : (m : Rat) ≤ 9007199254740992 := by
      have : m ≤ 9007199254740992 := by have := le_abs_self m; omega
      exact_mod_cast this
    have hE0 : (0 : Rat) < 2 ^ e := zpow_pos (by norm_num) _
    have h4 : (m : Rat) * 2 ^ e ≤ 9007199254740992 * 2 ^ e := mul_le_mul_of_nonneg_right h3 hE0.le
    have h5 : (4503599627370496 : Rat) ≤ signif E F := by exact_mod_cast hs
    have h6 := mul_le_mul_of_nonneg_right h5 hP.le
    rw [h2] at h1
    linarith

/-- A `double` that lies below is one last place below, or half of one below a power of two. -/
theorem gap_below {E F : Nat} {y : Rat} (hy : IsFloat Ieee.double y) (h : y < (signif E F : Rat) * 2 ^ place E) :
    y ≤ (signif E F : Rat) * 2 ^ place E - 2 ^ place E ∨
    F = 0 ∧ E > 1 ∧ y ≤ (signif E F : Rat) * 2 ^ place E - 2 ^ place E / 2 := by
  obtain ⟨m, e, hm, he, rfl⟩ := hy
  have he : -1074 ≤ e := he
  have hm : |m| < 2 ^ 53 := hm
  have hP : (0 : Rat) < 2 ^ place E := zpow_pos (by norm_num) _
  by_cases hle : place E ≤ e
  · left
    obtain ⟨j, hj⟩ : ∃ j : Nat, e = place E + j := ⟨(e - place E).toNat, by omega⟩
    rw [hj, zpow_add₀ (by norm_num), zpow_natCast] at h ⊢
    have e1 : (m : Rat) * (2 ^ place E * 2 ^ j) = ((m * 2 ^ j : Int) : Rat) * 2 ^ place E := by push_cast; ring
    rw [e1] at h ⊢
    have h2 : ((m * 2 ^ j : Int) : Rat) < (signif E F : Rat) := lt_of_mul_lt_mul_right h hP.le
    have h3 : m * 2 ^ j < (signif E F : Int) := by exact_mod_cast h2
    have h4 : m * 2 ^ j + 1 ≤ (signif E F : Int) := h3
    have h5 : ((m * 2 ^ j : Int) : Rat) + 1 ≤ (signif E F : Rat) := by exact_mod_cast h4
    have := mul_le_mul_of_nonneg_right h5 hP.le
    linarith
  · have hE : E ≠ 0 := by intro h0; rw [h0] at hle; unfold place at hle; simp at hle; omega
    have hpl : place E = (E : Int) - 1075 := by unfold place; rw [if_neg hE]
    have hs : signif E F = F + 4503599627370496 := by unfold signif; rw [if_neg hE]
    have h1 : (2 : Rat) ^ e ≤ 2 ^ (place E - 1) := zpow_le_zpow_right₀ (by norm_num) (by omega)
    have h2 : (2 : Rat) ^ (place E - 1) = 2 ^ place E / 2 := by rw [zpow_sub₀ (by norm_num), zpow_one]
    have h3 : (m : Rat) ≤ 9007199254740991 := by
      have : m ≤ 9007199254740991 := by have := le_abs_self m; omega
      exact_mod_cast this
    have hE0 : (0 : Rat) < 2 ^ e := zpow_pos (by norm_num) _
    have h4 : (m : Rat) * 2 ^ e ≤ 9007199254740991 * 2 ^ e := mul_le_mul_of_nonneg_right h3 hE0.le
    rw [h2] at h1
    by_cases hF : F = 0
    · right
      refine ⟨hF, by omega, ?_⟩
      rw [hs, hF]
      push_cast
      linarith
    · left
      have h5 : (4503599627370497 : Rat) ≤ signif E F := by
        have : 4503599627370497 ≤ signif E F := by omega
        exact_mod_cast this
      have h6 := mul_le_mul_of_nonneg_right h5 hP.le
      linarith

theorem isFloat_fields {E F : Nat} (hF : F < 4503599627370496) :
    IsFloat Ieee.double ((signif E F : Rat) * 2 ^ place E) := by
  refine ⟨signif E F, place E, ?_, ?_, by push_cast; rfl⟩
  · have : signif E F < 9007199254740992 := by unfold signif; split <;> omega
    show |((signif E F : Nat) : Int)| < 2 ^ 53
    rw [abs_of_nonneg (by positivity)]
    norm_num
    exact_mod_cast this
  · show -1022 - (53 - 1) ≤ place E
    unfold place
    split <;> omega

/-- Strictly between the middles, rounding gives the number back. -/
theorem rnd_between {E F : Nat} (hF : F < 4503599627370496) {c x : Rat}
    (hc : c = 2 ^ place E / 2 ∧ ¬ (F = 0 ∧ E > 1) ∨ c = 2 ^ place E / 4 ∧ signif E F = 4503599627370496 ∧ 1 < E)
    (h1 : (signif E F : Rat) * 2 ^ place E - c < x) (h2 : x < signif E F * 2 ^ place E + 2 ^ place E / 2) :
    Ieee.rnd Ieee.double x = signif E F * 2 ^ place E := by
  have hP : (0 : Rat) < 2 ^ place E := zpow_pos (by norm_num) _
  have hn := rnd_nearest Ieee.double x (isFloat_fields (E := E) hF)
  have hf := rnd_isFloat Ieee.double x
  generalize Ieee.rnd Ieee.double x = y at *
  rcases lt_trichotomy y ((signif E F : Rat) * 2 ^ place E) with h | h | h
  · exfalso
    have hb := gap_below hf h
    generalize (signif E F : Rat) * 2 ^ place E = q at *
    generalize (2 : Rat) ^ place E = P at *
    have hy : y < q - c ∧ y ≤ q - 2 * c := by
      rcases hc with ⟨rfl, hnc⟩ | ⟨rfl, _⟩
      · rcases hb with hb | ⟨g1, g2, _⟩
        · constructor <;> linarith
        · exact absurd ⟨g1, g2⟩ hnc
      · rcases hb with hb | ⟨_, _, hb⟩ <;> constructor <;> linarith
    rw [abs_of_pos (by linarith : 0 < x - y)] at hn
    rcases abs_cases (x - q) with ⟨a, _⟩ | ⟨a, _⟩ <;> rw [a] at hn <;> linarith
  · exact h
  · exfalso
    have hb := gap_above hf h
    generalize (signif E F : Rat) * 2 ^ place E = q at *
    generalize (2 : Rat) ^ place E = P at *
    rw [abs_of_neg (by linarith : x - y < 0)] at hn
    have hc0 : c ≤ P / 2 := by rcases hc with ⟨rfl, _⟩ | ⟨rfl, _⟩ <;> linarith
    rcases abs_cases (x - q) with ⟨a, _⟩ | ⟨a, _⟩ <;> rw [a] at hn <;> linarith

/-- The fields of a positive `double`. -/
theorem fields_spec {q : Rat} (hq : IsFloat Ieee.double q) (h0 : 0 < q) (h1 : q < 2 ^ 1024) : ∃ E F, fields q = (E, F) ∧ E ≤ 2046 ∧
    F < 4503599627370496 ∧ 0 < signif E F ∧ q = signif E F * 2 ^ place E := by
  have hr := rnd_of_isFloat hq
  have hlt := abs_lt_places Ieee.double q
  rw [abs_of_pos h0] at hlt
  have hlog : Ieee.lastPlace Ieee.double q = max (Int.log 2 q) (-1022) - 52 := by
    unfold lastPlace; rw [abs_of_pos h0]; rfl
  have hP : (0 : Rat) < 2 ^ Ieee.lastPlace Ieee.double q := zpow_pos (by norm_num) _
  unfold rnd at hr
  unfold fields
  dsimp only
  generalize hp : Ieee.lastPlace Ieee.double q = p at *
  generalize hn : rint (q / (2 : Rat) ^ p) = n at *
  have hdiv : q / (2 : Rat) ^ p = n := by rw [← hr]; field_simp
  have hn0 : 0 < n := by
    have : (0 : Rat) < n := by rw [← hdiv]; positivity
    exact_mod_cast this
  have hn1 : n < 9007199254740992 := by
    have : (n : Rat) < 2 ^ 53 := by rw [← hdiv, div_lt_iff₀ hP]; exact hlt
    have : (n : Rat) < 9007199254740992 := by norm_num at this; exact this
    exact_mod_cast this
  have hpow := Int.zpow_log_le_self (b := 2) (by norm_num) h0
  have hpow : (2 : Rat) ^ Int.log 2 q ≤ q := by exact_mod_cast hpow
  have hlogu : Int.log 2 q < 1024 := by
    have : (2 : Rat) ^ Int.log 2 q < 2 ^ (1024 : Int) := lt_of_le_of_lt hpow (by exact_mod_cast h1)
    exact (zpow_lt_zpow_iff_right₀ (by norm_num)).1 this
  rw [hdiv, Int.floor_intCast]
  by_cases hs : n.toNat < 4503599627370496
  · rw [if_pos hs]
    refine ⟨0, n.toNat, rfl, by omega, hs, by unfold signif; simp; omega, ?_⟩
    have hlow : p = -1074 := by
      by_contra hne
      have hpe : p = Int.log 2 q - 52 := by omega
      have : (2 : Rat) ^ Int.log 2 q = 2 ^ p * 4503599627370496 := by
        rw [show Int.log 2 q = p + 52 by omega, zpow_add₀ (by norm_num)]; norm_num
      rw [this, ← hr] at hpow
      have h3 : (4503599627370496 : Rat) ≤ n := by
        have : (4503599627370496 : Rat) * 2 ^ p ≤ n * 2 ^ p := by linarith
        exact le_of_mul_le_mul_right this hP
      have : (4503599627370496 : Int) ≤ n := by exact_mod_cast h3
      omega
    have hcast : ((n.toNat : Nat) : Rat) = n := by exact_mod_cast (Int.toNat_of_nonneg hn0.le)
    show q = ((n.toNat : Nat) : Rat) * 2 ^ (-1074 : Int)
    rw [hcast, ← hlow, hr]
  · rw [if_neg hs]
    refine ⟨(p + 1075).toNat, n.toNat - 4503599627370496, rfl, by omega, by omega, ?_, ?_⟩
    · unfold signif; split <;> omega
    · have hE : (p + 1075).toNat ≠ 0 := by omega
      have hpl : place (p + 1075).toNat = p := by unfold place; rw [if_neg hE]; omega
      have hsg : signif (p + 1075).toNat (n.toNat - 4503599627370496) = n.toNat := by unfold signif; rw [if_neg hE]; omega
      have hcast : ((n.toNat : Nat) : Rat) = n := by exact_mod_cast (Int.toNat_of_nonneg hn0.le)
      rw [hpl, hsg, hcast, hr]

end Wis.Grisu
