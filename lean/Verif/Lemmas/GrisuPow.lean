import Verif.Lemmas.Grisu
/-!
# The table of powers of ten
-/

namespace Wis.Grisu

/-- The entry is the power of ten rounded to 64 bits, in whole numbers. -/
def EntryOk (c : Nat × Int × Int) : Prop :=
  9223372036854775808 ≤ c.1 ∧ c.1 < 18446744073709551616 ∧ -300 ≤ c.2.2 ∧ c.2.2 ≤ 324 ∧
  2 * 10 ^ c.2.2.toNat * 2 ^ (-c.2.1).toNat ≤ (2 * c.1 + 1) * 2 ^ c.2.1.toNat * 10 ^ (-c.2.2).toNat ∧
  (2 * c.1 - 1) * 2 ^ c.2.1.toNat * 10 ^ (-c.2.2).toNat ≤ 2 * 10 ^ c.2.2.toNat * 2 ^ (-c.2.1).toNat

instance (c) : Decidable (EntryOk c) := by unfold EntryOk; infer_instance

theorem table_ok : ∀ c ∈ cachedPowers, EntryOk c := by decide +kernel

/-- An exponent for which the table has a good entry. -/
def ExpOk (e : Int) : Bool := match cachedPower e with
  | none => false
  | some _ => true

theorem exps_ok : ∀ i : Fin 2098, ExpOk ((i.val : Int) - 1137) = true := by decide +kernel

theorem need_some {α : Type} {p : Prop} [Decidable p] {k : Option α} {a : α} (h : need p k = some a) : p ∧ k = some a := by
  unfold need at h
  split at h
  · exact ⟨‹_›, h⟩
  · cases h

theorem zpow_toNat {a : Rat} (ha : a ≠ 0) (k : Int) : a ^ k * a ^ (-k).toNat = a ^ k.toNat := by
  rw [← zpow_natCast, ← zpow_natCast, ← zpow_add₀ ha]
  congr 1
  omega

/-- For every exponent of a normalised `double` there is an entry that brings it into range, and it is a power of ten rounded
to 64 bits. -/
theorem cached_ok {e : Int} (h1 : -1137 ≤ e) (h2 : e ≤ 960) : ∃ (fc : Nat) (ec k : Int), cachedPower e = some (fc, ec, k) ∧
    9223372036854775808 ≤ fc ∧ fc < 18446744073709551616 ∧ -60 ≤ ec + e + 64 ∧ ec + e + 64 ≤ -32 ∧ -300 ≤ k ∧ k ≤ 324 ∧
    (fc : Rat) - 1 / 2 ≤ 10 ^ k / 2 ^ ec ∧ (10 : Rat) ^ k / 2 ^ ec ≤ fc + 1 / 2 := by
  have h := exps_ok ⟨(e + 1137).toNat, by omega⟩
  rw [show ((⟨(e + 1137).toNat, by omega⟩ : Fin 2098).val : Int) - 1137 = e by simp only; omega] at h
  unfold ExpOk at h
  split at h
  · cases h
  · rename_i c hc
    have hcc := hc
    unfold cachedPower at hc
    obtain ⟨_, hc⟩ := need_some hc
    obtain ⟨_, hc⟩ := need_some hc
    dsimp only at hc
    obtain ⟨_, hc⟩ := need_some hc
    split at hc
    · cases hc
    · rename_i c' hg
      obtain ⟨g1, hc⟩ := need_some hc
      obtain ⟨g2, hc⟩ := need_some hc
      obtain rfl : c' = c := by injection hc
      obtain ⟨t1, t2, t3, t4, t5, t6⟩ := table_ok c' (List.mem_of_getElem? hg)
      obtain ⟨fc, ec, k⟩ := c'
      dsimp only at *
      have hT := zpow_toNat (a := 10) (by norm_num) k
      have hE := zpow_toNat (a := 2) (by norm_num) ec
      have u5 : (2 : Rat) * 10 ^ k.toNat * 2 ^ (-ec).toNat ≤ (2 * fc + 1) * 2 ^ ec.toNat * 10 ^ (-k).toNat := by exact_mod_cast t5
      have u6 : ((2 : Rat) * fc - 1) * 2 ^ ec.toNat * 10 ^ (-k).toNat ≤ 2 * 10 ^ k.toNat * 2 ^ (-ec).toNat := by
        have : ((2 * fc - 1 : Nat) : Rat) = 2 * fc - 1 := by rw [Nat.cast_sub (by omega)]; push_cast; ring
        rw [← this]
        exact_mod_cast t6
      rw [← hT, ← hE] at u5 u6
      have p1 : (0 : Rat) < 10 ^ (-k).toNat := by positivity
      have p2 : (0 : Rat) < 2 ^ (-ec).toNat := by positivity
      have p3 : (0 : Rat) < 2 ^ ec := zpow_pos (by norm_num) _
      refine ⟨fc, ec, k, hcc, t1, t2, g1, g2, t3, t4, ?_⟩
      generalize (10 : Rat) ^ k = T at *
      generalize (2 : Rat) ^ ec = X at *
      generalize (10 : Rat) ^ (-k).toNat = A at *
      generalize (2 : Rat) ^ (-ec).toNat = B at *
      have v5 : T ≤ (fc + 1 / 2) * X := by
        have : (A * B) * (2 * T) ≤ (A * B) * ((2 * fc + 1) * X) := by linarith
        have := le_of_mul_le_mul_left this (mul_pos p1 p2)
        linarith
      have v6 : (fc - 1 / 2) * X ≤ T := by
        have : (A * B) * ((2 * fc - 1) * X) ≤ (A * B) * (2 * T) := by linarith
        have := le_of_mul_le_mul_left this (mul_pos p1 p2)
        linarith
      exact ⟨(le_div_iff₀ p3).2 v6, (div_le_iff₀ p3).2 v5⟩

/-- The scaled numbers are less than one unit away from the exact ones. -/
theorem scaled_near {x fc W : Nat} {th : Rat} (hx : x < 18446744073709551616)
    (hW : W = (x * fc + 9223372036854775808) / 18446744073709551616) (h1 : (fc : Rat) - 1 / 2 ≤ th) (h2 : th ≤ fc + 1 / 2) :
    (W : Rat) - 1 < x * th / 18446744073709551616 ∧ x * th / 18446744073709551616 < W + 1 := by
  have a1 : 18446744073709551616 * W ≤ x * fc + 9223372036854775808 := by rw [hW]; exact Nat.mul_div_le _ _
  have a2 : x * fc + 9223372036854775808 < 18446744073709551616 * W + 18446744073709551616 := by omega
  have b1 : (18446744073709551616 : Rat) * W ≤ x * fc + 9223372036854775808 := by exact_mod_cast a1
  have b2 : (x : Rat) * fc + 9223372036854775808 < 18446744073709551616 * W + 18446744073709551616 := by exact_mod_cast a2
  have hx0 : (0 : Rat) ≤ x := by positivity
  have hx1 : (x : Rat) < 18446744073709551616 := by exact_mod_cast hx
  have c1 := mul_le_mul_of_nonneg_left h1 hx0
  have c2 := mul_le_mul_of_nonneg_left h2 hx0
  constructor
  · rw [lt_div_iff₀ (by norm_num)]; linarith
  · rw [div_lt_iff₀ (by norm_num)]; linarith

end Wis.Grisu
