import Verif.Model.Ram
import Verif.Lemmas.Base64
import Mathlib.Tactic.Ring
/-! `ipow` and `checkLimitAddressSize`. -/

namespace Wis

theorem one_le_pow' {b : Int} (hb : 1 ≤ b) (n : Nat) : 1 ≤ b ^ n := by
  induction n with
  | zero => simp
  | succ n ih => rw [Int.pow_succ]; exact Int.le_trans (by omega) (Int.mul_le_mul ih hb (by omega) (by omega))

theorem pow_le_pow' {b : Int} (hb : 1 ≤ b) {m n : Nat} (h : m ≤ n) : b ^ m ≤ b ^ n := by
  obtain ⟨k, rfl⟩ := Nat.exists_eq_add_of_le h
  rw [Int.pow_add]
  have h1 := one_le_pow' hb m
  have h2 := one_le_pow' hb k
  exact Int.le_trans (by omega) (Int.mul_le_mul (Int.le_refl _) h2 (by omega) (by omega))

theorem i64_ok {x : Int} (h0 : 0 ≤ x) (h : x < 2 ^ 63) : i64 x = .ok x := by
  unfold i64; rw [if_pos (by omega)]

theorem i64_ub {x : Int} (h : 2 ^ 63 ≤ x) : i64 x = .error (.ub .overflow) := by
  unfold i64; rw [if_neg (by omega)]

theorem ipowLoop_eq (exp : Nat) : ∀ (base result : Int), 1 ≤ base → 1 ≤ result → result < 2 ^ 63 →
    ipowLoop base result exp =
      if result * base ^ exp < 2 ^ 63 then .ok (result * base ^ exp) else .error (.ub .overflow) := by
  induction exp using Nat.strongRecOn with
  | _ exp ih =>
    intro base result hb hr hlt
    have hp := one_le_pow' hb exp
    rw [ipowLoop]
    -- the value after the optional multiplication
    by_cases hodd : exp % 2 = 1
    · rw [if_pos hodd]
      have hrb : 1 ≤ result * base := Int.le_trans (by omega) (Int.mul_le_mul hr hb (by omega) (by omega))
      have hsplit : result * base ^ exp = result * base * base ^ (exp - 1) := by
        have : exp = (exp - 1) + 1 := by omega
        conv => lhs; rw [this, Int.pow_succ]
        ring
      have hp1 := one_le_pow' hb (exp - 1)
      by_cases hov : result * base < 2 ^ 63
      · rw [i64_ok (by omega) hov]
        simp only [Except.bind_ok]
        by_cases h0 : exp / 2 = 0
        · rw [dif_pos h0]
          have : exp = 1 := by omega
          subst this
          simp only [Int.pow_one]
          rw [if_pos hov]
        · rw [dif_neg h0]
          by_cases hsq : base * base < 2 ^ 63
          · have hbb : 1 ≤ base * base := Int.le_trans (by omega) (Int.mul_le_mul hb hb (by omega) (by omega))
            rw [i64_ok (by omega) hsq]
            simp only [Except.bind_ok]
            rw [ih (exp / 2) (by omega) _ _ hbb hrb hov]
            have : result * base * (base * base) ^ (exp / 2) = result * base ^ exp := by
              rw [hsplit]
              congr 1
              have h2 : exp - 1 = 2 * (exp / 2) := by omega
              rw [h2, Int.pow_mul]
              congr 1
              ring
            rw [this]
          · rw [i64_ub (by omega)]
            simp only [Except.bind_error]
            rw [if_neg]
            intro hc
            have h2 : base ^ 2 ≤ base ^ exp := pow_le_pow' hb (by omega)
            have h3 : base ^ 2 = base * base := by ring
            have h4 : base ^ exp ≤ result * base ^ exp := by
              have := Int.mul_le_mul hr (Int.le_refl (base ^ exp)) (by omega) (by omega)
              omega
            omega
      · rw [i64_ub (by omega)]
        simp only [Except.bind_error]
        rw [if_neg]
        intro hc
        have := Int.mul_le_mul (Int.le_refl (result * base)) hp1 (by omega) (by omega)
        omega
    · rw [if_neg hodd]
      simp only [Except.bind_ok]
      by_cases h0 : exp / 2 = 0
      · rw [dif_pos h0]
        have : exp = 0 := by omega
        subst this
        simp; omega
      · rw [dif_neg h0]
        by_cases hsq : base * base < 2 ^ 63
        · have hbb : 1 ≤ base * base := Int.le_trans (by omega) (Int.mul_le_mul hb hb (by omega) (by omega))
          rw [i64_ok (by omega) hsq]
          simp only [Except.bind_ok]
          rw [ih (exp / 2) (by omega) _ _ hbb hr hlt]
          have : result * (base * base) ^ (exp / 2) = result * base ^ exp := by
            congr 1
            have h2 : exp = 2 * (exp / 2) := by omega
            conv => rhs; rw [h2, Int.pow_mul]
            congr 1
            ring
          rw [this]
        · rw [i64_ub (by omega)]
          simp only [Except.bind_error]
          rw [if_neg]
          intro hc
          have h2 : base ^ 2 ≤ base ^ exp := pow_le_pow' hb (by omega)
          have h3 : base ^ 2 = base * base := by ring
          have h4 : base ^ exp ≤ result * base ^ exp := by
            have := Int.mul_le_mul hr (Int.le_refl (base ^ exp)) (by omega) (by omega)
            omega
          omega

theorem ipow_eq {base : Int} (hb : 1 ≤ base) (n : Nat) :
    ipow base n = if base ^ n < 2 ^ 63 then .ok (base ^ n) else .error (.ub .overflow) := by
  unfold ipow
  rw [ipowLoop_eq n base 1 hb (by omega) (by omega)]
  simp

theorem not_gt_limit (x : Addr) : ¬ x > BitVec.ofInt 64 (-1) := by
  have : BitVec.ofInt 64 (-1) = BitVec.allOnes 64 := by decide
  rw [this]
  intro h
  have h1 : (BitVec.allOnes 64).toNat < x.toNat := h
  have := x.isLt
  simp at h1
  omega

theorem checkLimit_eq {base : Int} (hb : 2 ≤ base) (n : Nat) :
    Ram.checkLimitAddressSize n base =
      if base = 2 then (if n > 64 then .error (.throw .limit64) else .ok ())
      else if base ^ n < 2 ^ 63 then .ok () else .error (.ub .overflow) := by
  unfold Ram.checkLimitAddressSize
  by_cases h2 : base = 2
  · simp [h2]
  · simp only [h2, if_false]
    rw [ipow_eq (by omega)]
    split
    · simp only [Except.bind_ok]
      rw [if_neg (not_gt_limit _)]
    · simp only [Except.bind_error]

/-- Accepted address sizes fit 64 bits. -/
theorem checkLimit_fits {base : Int} (hb : 2 ≤ base) {n : Nat}
    (h : Ram.checkLimitAddressSize n base = .ok ()) : base ^ n ≤ 2 ^ 64 := by
  rw [checkLimit_eq hb] at h
  split at h
  · rename_i h2
    subst h2
    split at h
    · simp at h
    · exact pow_le_pow' (by omega) (by omega)
  · split at h
    · omega
    · simp at h

end Wis

namespace Wis

/-- Admissible sizes pass the limit check. -/
theorem checkLimit_of_lt {base : Int} (hb : 2 ≤ base) {n : Nat} (h : base ^ n < 2 ^ 63) :
    Ram.checkLimitAddressSize n base = .ok () := by
  rw [checkLimit_eq hb]
  by_cases h2 : base = 2
  · rw [if_pos h2, if_neg]
    intro h'
    rw [h2] at h
    have := pow_le_pow' (b := 2) (by omega) (show 64 ≤ n by omega)
    omega
  · rw [if_neg h2, if_pos h]

end Wis
