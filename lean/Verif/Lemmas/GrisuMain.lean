import Verif.Lemmas.GrisuDigits
/-!
# Grisu2: the digits lie strictly between the boundaries
-/

namespace Wis.Grisu

theorem DiyFp.eta (x : DiyFp) : x = ⟨x.f, x.e⟩ := rfl

theorem half_place {h s : Nat} (hs : 2 * h = 2 ^ s) (p : Int) : (2 : Rat) ^ p = 2 * h * 2 ^ (p - s) := by
  have hs3 : (2 : Rat) * h = 2 ^ s := by exact_mod_cast hs
  rw [hs3, ← zpow_natCast, ← zpow_add₀ (by norm_num), show (s : Int) + (p - s) = p by ring]

theorem scaled_eq {v m p : DiyFp} {fc : Nat} {ec k : Int} :
    scaled ⟨v, m, p⟩ (fc, ec, k) = digitGen (-k) ⟨u64 ((mul m ⟨fc, ec⟩).f + 1), (mul m ⟨fc, ec⟩).e⟩ (mul v ⟨fc, ec⟩)
      ⟨u64Pred (mul p ⟨fc, ec⟩).f, (mul p ⟨fc, ec⟩).e⟩ := rfl

/-- The scaled boundaries in whole numbers: the interval is not empty, and not too short for 17 digits. -/
theorem scaled_bounds {V h g fc W Wp Wm : Nat} (hV : 9223372036854775808 ≤ V) (hVh : V + h < 18446744073709551616) (hg : 512 ≤ g)
    (hh : 1024 ≤ h) (hgV : g ≤ V) (hratio : V + h ≤ 9007199254740992 * (g + h)) (hc1 : 9223372036854775808 ≤ fc)
    (hc2 : fc < 18446744073709551616)
    (hW : W = (V * fc + 9223372036854775808) / 18446744073709551616)
    (hWp : Wp = ((V + h) * fc + 9223372036854775808) / 18446744073709551616)
    (hWm : Wm = ((V - g) * fc + 9223372036854775808) / 18446744073709551616) :
    Wp < 18446744073709551616 ∧ 4611686018427387904 ≤ Wp ∧ Wm + 1 ≤ W ∧ W ≤ Wp - 1 ∧ Wm + 1 < Wp - 1 ∧
      Wp - 1 ≤ 10000000000000000 * (Wp - 1 - (Wm + 1)) := by
  have e1 : V * fc = (V - g) * fc + g * fc := by rw [← Nat.add_mul]; congr 1; omega
  have e2 : (V + h) * fc = (V - g) * fc + g * fc + h * fc := by rw [Nat.add_mul, e1]
  have b1 : 512 * 9223372036854775808 ≤ g * fc := Nat.mul_le_mul hg hc1
  have b2 : 1024 * 9223372036854775808 ≤ h * fc := Nat.mul_le_mul hh hc1
  have b3 : (V + h) * fc ≤ 18446744073709551615 * 18446744073709551615 := Nat.mul_le_mul (by omega) (by omega)
  have b4 : 9223372036854775808 * 9223372036854775808 ≤ (V + h) * fc := Nat.mul_le_mul (by omega) hc1
  have b5 : (V + h) * fc ≤ 9007199254740992 * (g * fc + h * fc) := by
    calc (V + h) * fc ≤ 9007199254740992 * (g + h) * fc := Nat.mul_le_mul_right _ hratio
      _ = _ := by ring
  rw [e2] at hWp b3 b4 b5
  rw [e1] at hW
  generalize (V - g) * fc = a at *
  generalize g * fc = P at *
  generalize h * fc = Q at *
  omega

/-- For every positive `double` Grisu2 finds at most 17 digits whose value lies strictly between the middles to the
neighbours. -/
theorem grisu2_spec {E F : Nat} (hE : E ≤ 2046) (hF : F < 4503599627370496) (h0 : 0 < signif E F) : ∃ (b : List Nat) (x : Int) (c : Rat),
    ((boundariesOf E F).bind grisu2) = some (b, x) ∧ Dec b ∧ b ≠ [] ∧ b.length ≤ 17 ∧ -350 ≤ x ∧ x ≤ 350 ∧
    (c = 2 ^ place E / 2 ∧ ¬ (F = 0 ∧ E > 1) ∨ c = 2 ^ place E / 4 ∧ signif E F = 4503599627370496 ∧ 1 < E) ∧
    (signif E F : Rat) * 2 ^ place E - c < val b * 10 ^ x ∧ (val b : Rat) * 10 ^ x < signif E F * 2 ^ place E + 2 ^ place E / 2 := by
  obtain ⟨s, h, g, s1, s2, s3, s4, s5, s6, s7, s8⟩ := boundaries_eq hF h0
  have hf : signif E F < 9007199254740992 := by unfold signif; split <;> omega
  have hpl : -1074 ≤ place E ∧ place E ≤ 971 := by unfold place; split <;> omega
  have hgV : g ≤ signif E F * (2 * h) := by omega
  have hratio : signif E F * (2 * h) + h ≤ 9007199254740992 * (g + h) := by
    rcases s5 with ⟨rfl, hnc⟩ | ⟨hg2, hfe, _⟩
    · have : signif E F * (2 * g) ≤ 9007199254740991 * (2 * g) := Nat.mul_le_mul_right _ (by omega)
      omega
    · rw [hfe]; omega
  rw [s8]
  dsimp only [Option.bind]
  unfold grisu2
  dsimp only
  rw [need_pos rfl, need_pos rfl]
  obtain ⟨fc, ec, k, c1, c2, c3, c4, c5, c6, c7, c8, c9⟩ := cached_ok (e := place E - s) (by omega) (by omega)
  rw [c1, Option.bind_some, scaled_eq]
  generalize hW : (mul ⟨signif E F * (2 * h), place E - s⟩ ⟨fc, ec⟩).f = W
  generalize hWp : (mul ⟨signif E F * (2 * h) + h, place E - s⟩ ⟨fc, ec⟩).f = Wp
  generalize hWm : (mul ⟨signif E F * (2 * h) - g, place E - s⟩ ⟨fc, ec⟩).f = Wm
  have hw : mul ⟨signif E F * (2 * h), place E - s⟩ ⟨fc, ec⟩ = ⟨W, ec + (place E - s) + 64⟩ := by
    rw [DiyFp.eta (mul _ _), hW, mul_e]
    dsimp only
    rw [show place E - s + ec + 64 = ec + (place E - s) + 64 by ring]
  have q1 := mul_f (x := ⟨signif E F * (2 * h), place E - s⟩) (y := ⟨fc, ec⟩) (show signif E F * (2 * h) < 18446744073709551616 by omega) c3
  have q2 := mul_f (x := ⟨signif E F * (2 * h) + h, place E - s⟩) (y := ⟨fc, ec⟩) s7 c3
  have q3 := mul_f (x := ⟨signif E F * (2 * h) - g, place E - s⟩) (y := ⟨fc, ec⟩)
    (show signif E F * (2 * h) - g < 18446744073709551616 by omega) c3
  rw [hW] at q1
  rw [hWp] at q2
  rw [hWm] at q3
  dsimp only at q1 q2 q3
  obtain ⟨t1, t2, t3, t4, t5, t6⟩ := scaled_bounds s6 s7 (by omega) s4 hgV hratio c2 c3 q1 q2 q3
  have hsh : 2 ^ (-(ec + (place E - s) + 64)).toNat ≤ 1152921504606846976 :=
    le_trans (Nat.pow_le_pow_right (by omega) (by omega : _ ≤ 60)) (by norm_num)
  obtain ⟨b, x, d1, d2, d3, d4, d5, d6, d7, d8⟩ := digitGen_spec (E := ec + (place E - s) + 64) (lo := Wm + 1) (w := W) (M := Wp - 1) (-k) c4 c5
    (by omega) (by omega) (by omega) t3 t4 (by omega) t6
  have em : (mul ⟨signif E F * (2 * h) - g, place E - s⟩ ⟨fc, ec⟩).e = ec + (place E - s) + 64 := by rw [mul_e]; ring
  have ep : (mul ⟨signif E F * (2 * h) + h, place E - s⟩ ⟨fc, ec⟩).e = ec + (place E - s) + 64 := by rw [mul_e]; ring
  have u1 : u64 (Wm + 1) = Wm + 1 := u64_lt (by omega)
  have u2 : u64Pred Wp = Wp - 1 := by unfold u64Pred; omega
  rw [em, ep, hw, u1, u2, d1]
  refine ⟨b, -k + x, g * 2 ^ (place E - s), rfl, d2, d3, d4, by omega, by omega, ?_, ?_⟩
  · have hz := half_place s3 (place E)
    rcases s5 with ⟨rfl, hnc⟩ | ⟨hg2, hfe, hE1⟩
    · left; exact ⟨by rw [hz]; ring, hnc⟩
    · right
      have hg2' : (2 : Rat) * g = h := by exact_mod_cast hg2
      exact ⟨by rw [hz, ← hg2']; ring, hfe, hE1⟩
  · have hz := half_place s3 (place E)
    have hlo : (signif E F : Rat) * 2 ^ place E - g * 2 ^ (place E - s) = ((signif E F * (2 * h) - g : Nat) : Rat) * 2 ^ (place E - s) := by
      rw [Nat.cast_sub hgV, hz]; push_cast; ring
    have hhi : (signif E F : Rat) * 2 ^ place E + 2 ^ place E / 2 = ((signif E F * (2 * h) + h : Nat) : Rat) * 2 ^ (place E - s) := by
      rw [hz]; push_cast; ring
    rw [hlo, hhi]
    have n1 := (scaled_near (x := signif E F * (2 * h) + h) (by omega) q2 c8 c9).1
    have n2 := (scaled_near (x := signif E F * (2 * h) - g) (by omega) q3 c8 c9).2
    have hT : (0 : Rat) < 10 ^ k := zpow_pos (by norm_num) _
    have hX : (0 : Rat) < 2 ^ ec := zpow_pos (by norm_num) _
    have hY : (0 : Rat) < 2 ^ (place E - s) := zpow_pos (by norm_num) _
    have hsplit : (2 : Rat) ^ (ec + (place E - s) + 64) = 2 ^ ec * 2 ^ (place E - s) * 18446744073709551616 := by
      rw [zpow_add₀ (by norm_num), zpow_add₀ (by norm_num)]; norm_num
    have hten : (10 : Rat) ^ (-k + x) = 10 ^ x / 10 ^ k := by rw [zpow_add₀ (by norm_num), zpow_neg]; field_simp
    rw [hsplit] at d7 d8
    rw [hten, mul_div_assoc', lt_div_iff₀ hT, div_lt_iff₀ hT]
    have hpos : (0 : Rat) < 2 ^ ec * 2 ^ (place E - s) * 18446744073709551616 := by positivity
    have hWp1 : ((Wp - 1 : Nat) : Rat) = Wp - 1 := by rw [Nat.cast_sub (by omega)]; norm_num
    constructor
    · have := mul_lt_mul_of_pos_right n2 hpos
      have e : ((signif E F * (2 * h) - g : Nat) : Rat) * (10 ^ k / 2 ^ ec) / 18446744073709551616 *
          (2 ^ ec * 2 ^ (place E - s) * 18446744073709551616) = ((signif E F * (2 * h) - g : Nat) : Rat) * 2 ^ (place E - s) * 10 ^ k := by
        field_simp
      rw [e] at this
      push_cast at d7
      linarith
    · have := mul_lt_mul_of_pos_right n1 hpos
      have e : ((signif E F * (2 * h) + h : Nat) : Rat) * (10 ^ k / 2 ^ ec) / 18446744073709551616 *
          (2 ^ ec * 2 ^ (place E - s) * 18446744073709551616) = ((signif E F * (2 * h) + h : Nat) : Rat) * 2 ^ (place E - s) * 10 ^ k := by
        field_simp
      rw [e] at this
      rw [hWp1] at d8
      linarith

end Wis.Grisu
