import Verif.Lemmas.GrisuPow
/-!
# The digits
-/

namespace Wis.Grisu

/-- The number written by digits. -/
def val (l : List Nat) : Nat := l.foldl (fun a d => a * 10 + d) 0

theorem val_append (l : List Nat) (d : Nat) : val (l ++ [d]) = val l * 10 + d := by
  unfold val; rw [List.foldl_append]; rfl

/-- Decimal digits, the first one not 0. -/
def Dec (l : List Nat) : Prop := (∀ d ∈ l, d ≤ 9) ∧ l.head? ≠ some 0

theorem Dec.append {l : List Nat} {d : Nat} (h : Dec l) (hd : d ≤ 9) (h0 : l = [] → d ≠ 0) : Dec (l ++ [d]) := by
  refine ⟨fun x hx => ?_, ?_⟩
  · rcases List.mem_append.1 hx with hx | hx
    · exact h.1 x hx
    · rw [List.mem_singleton.1 hx]; exact hd
  · cases l with
    | nil => simpa using h0 rfl
    | cons a l => exact h.2

theorem val_lower : ∀ (l : List Nat) (a : Nat), a * 10 ^ l.length ≤ l.foldl (fun a d => a * 10 + d) a
  | [], a => by simp
  | d :: l, a => by
    rw [List.foldl_cons, List.length_cons]
    refine le_trans ?_ (val_lower l (a * 10 + d))
    rw [pow_succ, Nat.mul_comm (10 ^ l.length) 10, ← Nat.mul_assoc]
    exact Nat.mul_le_mul_right _ (by omega)

theorem Dec.lower {l : List Nat} (h : Dec l) (hl : l ≠ []) : 10 ^ (l.length - 1) ≤ val l := by
  cases l with
  | nil => exact absurd rfl hl
  | cons d l =>
    have hd : d ≠ 0 := fun h0 => h.2 (by rw [h0]; rfl)
    have := val_lower l d
    unfold val
    rw [List.foldl_cons, Nat.zero_mul, Nat.zero_add, List.length_cons, Nat.add_sub_cancel]
    refine le_trans ?_ this
    exact Nat.le_mul_of_pos_left _ (by omega)

/-- The last digit stays positive, and the number does not fall below the interval. -/
theorem roundLoop_spec {dist delta ten : Nat} (hb : delta < 18446744073709551616) : ∀ (d rest : Nat), rest ≤ delta →
    delta < rest + d * ten → ∃ d', roundLoop dist delta ten d rest = some d' ∧ 1 ≤ d' ∧ d' ≤ d ∧ rest + (d - d') * ten ≤ delta
  | 0, rest, h1, h2 => by omega
  | d + 1, rest, h1, h2 => by
    rw [roundLoop]
    split
    · rename_i hc
      have h3 : rest + ten ≤ delta := by omega
      rw [u64_lt (by omega)]
      obtain ⟨d', e1, e2, e3, e4⟩ := roundLoop_spec (dist := dist) (ten := ten) hb d (rest + ten) h3 (by rw [Nat.add_mul, Nat.one_mul] at h2; omega)
      refine ⟨d', e1, e2, by omega, ?_⟩
      rw [show d + 1 - d' = (d - d') + 1 by omega, Nat.succ_mul]
      omega
    · exact ⟨d + 1, rfl, by omega, le_refl _, by simpa using h1⟩

/-- Rounding takes whole units from the number, and the rest stays within the interval. -/
theorem round_spec {dist delta ten rest d : Nat} {buf : List Nat} (hb : delta < 18446744073709551616) (hd : dist ≤ delta)
    (hten : 0 < ten) (h1 : rest ≤ delta) (h2 : delta < rest + d * ten) : ∃ d', round (buf ++ [d]) dist delta rest ten = some (buf ++ [d']) ∧
    1 ≤ d' ∧ d' ≤ d ∧ rest + (d - d') * ten ≤ delta := by
  obtain ⟨d', e1, e2⟩ := roundLoop_spec (dist := dist) hb d rest h1 h2
  refine ⟨d', ?_, e2⟩
  unfold round
  rw [need_pos (by simp), need_pos hd, need_pos h1, need_pos hten]
  simp [e1]

/-- The digits `b` times `10^n`, in units of `one`, lie in the interval `[M - delta, M]`, which is shorter than the last but
one digit. -/
structure Inside (M delta one : Nat) (b : List Nat) (n : Nat) : Prop where
  dec : Dec b
  ne : b ≠ []
  le : val b * 10 ^ n * one ≤ M
  ge : M ≤ val b * 10 ^ n * one + delta
  short : delta < 10 ^ (n + 1) * one

/-- The integral part. -/
theorem loop1_spec {sh p2 delta dist M : Nat} (hM : M < 18446744073709551616) (hp2 : p2 < 2 ^ sh)
    (hdist : dist ≤ delta) (hdM : delta < M) : ∀ (n p1 : Nat) (buf : List Nat), Dec buf →
    (buf = [] → n ≠ 0 ∧ 10 ^ (n - 1) ≤ p1) → p1 < 10 ^ n → M = (val buf * 10 ^ n + p1) * 2 ^ sh + p2 → delta < p1 * 2 ^ sh + p2 →
    (∃ b k, k < n ∧ loop1 sh p2 delta dist n (10 ^ (n - 1)) p1 buf = some (.inl (b, k)) ∧ Inside M delta (2 ^ sh) b k) ∨
    (∃ b, loop1 sh p2 delta dist n (10 ^ (n - 1)) p1 buf = some (.inr b) ∧ Dec b ∧ b ≠ [] ∧ M = val b * 2 ^ sh + p2 ∧ delta < p2)
  | 0, p1, buf, hd, h0, hp1, hMe, hR => by
    have h0' : p1 = 0 := by simpa using hp1
    subst h0'
    refine .inr ⟨buf, rfl, hd, ?_, by simpa using hMe, by simpa using hR⟩
    intro hb
    exact (h0 hb).1 rfl
  | n + 1, p1, buf, hd, h0, hp1, hMe, hR => by
    have hpos : 0 < 10 ^ n := by positivity
    have h1pos : 0 < 2 ^ sh := by positivity
    have hd9 : p1 / 10 ^ n ≤ 9 := by
      have : p1 / 10 ^ n < 10 := by rw [Nat.div_lt_iff_lt_mul hpos]; rw [pow_succ] at hp1; omega
      omega
    have hsplit : p1 = p1 / 10 ^ n * 10 ^ n + p1 % 10 ^ n := by
      have := Nat.div_add_mod p1 (10 ^ n)
      rw [Nat.mul_comm] at this
      omega
    have hr : p1 % 10 ^ n < 10 ^ n := Nat.mod_lt _ hpos
    have hMe' : M = (val (buf ++ [p1 / 10 ^ n]) * 10 ^ n + p1 % 10 ^ n) * 2 ^ sh + p2 := by
      rw [val_append, hMe]
      congr 2
      calc val buf * 10 ^ (n + 1) + p1 = val buf * 10 ^ (n + 1) + (p1 / 10 ^ n * 10 ^ n + p1 % 10 ^ n) := by rw [← hsplit]
        _ = _ := by rw [pow_succ]; ring
    have hRe : p1 * 2 ^ sh + p2 = p1 % 10 ^ n * 2 ^ sh + p2 + p1 / 10 ^ n * (10 ^ n * 2 ^ sh) := by
      calc p1 * 2 ^ sh + p2 = (p1 / 10 ^ n * 10 ^ n + p1 % 10 ^ n) * 2 ^ sh + p2 := by rw [← hsplit]
        _ = _ := by ring
    have hdn : buf = [] → p1 / 10 ^ n ≠ 0 := by
      intro hb h
      have := (h0 hb).2
      rw [Nat.add_sub_cancel] at this
      rw [h, Nat.zero_mul, Nat.zero_add] at hsplit
      omega
    have hrest : p1 % 10 ^ n * 2 ^ sh + p2 < 18446744073709551616 := by
      have : M = val (buf ++ [p1 / 10 ^ n]) * 10 ^ n * 2 ^ sh + (p1 % 10 ^ n * 2 ^ sh + p2) := by rw [hMe']; ring
      omega
    have hpe : (10 : Nat) ^ (n + 1 - 1) = 10 ^ n := rfl
    rw [hpe]
    rw [loop1, need_pos (by omega), need_pos hd9]
    generalize p1 / 10 ^ n = d at *
    generalize p1 % 10 ^ n = r at *
    dsimp only
    rw [u64_lt (n := r * 2 ^ sh) (by omega), u64_lt hrest]
    split
    · rename_i hle
      have hdpos : d ≠ 0 := by
        intro h
        rw [h, Nat.zero_mul, Nat.add_zero] at hRe
        omega
      have hten : 10 ^ n * 2 ^ sh < 18446744073709551616 := by
        have : 10 ^ n * 2 ^ sh ≤ d * (10 ^ n * 2 ^ sh) := Nat.le_mul_of_pos_left _ (by omega)
        have h3 : p1 * 2 ^ sh + p2 ≤ M := by
          rw [hMe]
          have : p1 * 2 ^ sh ≤ (val buf * 10 ^ (n + 1) + p1) * 2 ^ sh := Nat.mul_le_mul_right _ (by omega)
          omega
        omega
      rw [u64_lt hten]
      obtain ⟨d', e1, e2, e3, e4⟩ := round_spec (buf := buf) (d := d) (ten := 10 ^ n * 2 ^ sh) (by omega : delta < _) hdist
        (by positivity) hle (by omega)
      refine .inl ⟨buf ++ [d'], n, by omega, by rw [e1]; rfl, hd.append (by omega) (fun _ => by omega), by simp, ?_, ?_, ?_⟩
      · rw [hMe', val_append, val_append]
        have : (val buf * 10 + d') * 10 ^ n ≤ (val buf * 10 + d) * 10 ^ n + r :=
          le_trans (Nat.mul_le_mul_right _ (by omega : val buf * 10 + d' ≤ val buf * 10 + d)) (by omega)
        exact le_trans (Nat.mul_le_mul_right _ this) (by omega)
      · have : M = val (buf ++ [d']) * 10 ^ n * 2 ^ sh + (r * 2 ^ sh + p2 + (d - d') * (10 ^ n * 2 ^ sh)) := by
          rw [hMe', val_append, val_append]
          obtain ⟨j, hj⟩ : ∃ j, d = d' + j := ⟨d - d', by omega⟩
          rw [hj, Nat.add_sub_cancel_left]
          ring
        omega
      · refine lt_of_lt_of_le hR ?_
        have : p1 + 1 ≤ 10 ^ (n + 1) := hp1
        calc p1 * 2 ^ sh + p2 ≤ (p1 + 1) * 2 ^ sh := by rw [Nat.succ_mul]; omega
          _ ≤ _ := Nat.mul_le_mul_right _ this
    · rename_i hgt
      have hrec := loop1_spec hM hp2 hdist hdM n (r) (buf ++ [d]) (hd.append hd9 hdn) (by simp) hr hMe' (by omega)
      cases n with
      | zero =>
        rcases hrec with ⟨b, k, hk, _⟩ | ⟨b, hb, hrest'⟩
        · omega
        · refine .inr ⟨b, ?_, hrest'⟩
          rw [← hb]
          rfl
      | succ n =>
        have h10 : 10 ^ (n + 1) / 10 = 10 ^ n := by rw [pow_succ]; exact Nat.mul_div_cancel _ (by omega)
        rw [h10]
        rw [Nat.add_sub_cancel] at hrec
        rcases hrec with ⟨b, k, hk, h1, h2⟩ | ⟨b, h1, h2⟩
        · exact .inl ⟨b, k, by omega, h1, h2⟩
        · exact .inr ⟨b, h1, h2⟩

/-- The fractional part. -/
theorem loop2_spec {sh delta dist M : Nat} (hsh : sh ≤ 60) (hdelta : 0 < delta) (hdist : dist ≤ delta) : ∀ (fuel m p2 : Nat) (buf : List Nat),
    fuel + m = 20 → Dec buf → buf ≠ [] → p2 < 2 ^ sh → M * 10 ^ m = val buf * 2 ^ sh + p2 → delta * 10 ^ m < p2 →
    ∃ b k, 1 ≤ k ∧ k ≤ 20 ∧ loop2 sh fuel p2 (delta * 10 ^ m) (dist * 10 ^ m) m buf = some (b, k) ∧
      Dec b ∧ b ≠ [] ∧ val b * 2 ^ sh ≤ M * 10 ^ k ∧ M * 10 ^ k ≤ val b * 2 ^ sh + delta * 10 ^ k ∧ delta * 10 ^ k < 10 * 2 ^ sh
  | 0, m, p2, buf, hf, _, _, hp2, _, hlt => by
    have hm : m = 20 := by omega
    have h1 : 2 ^ sh ≤ 2 ^ 60 := Nat.pow_le_pow_right (by omega) hsh
    have h2 : 1 * 10 ^ m ≤ delta * 10 ^ m := Nat.mul_le_mul_right _ hdelta
    rw [hm] at h2 hlt
    norm_num at h1 h2
    omega
  | fuel + 1, m, p2, buf, hf, hd, hne, hp2, hMe, hlt => by
    have h1 : 2 ^ sh ≤ 1152921504606846976 := le_trans (Nat.pow_le_pow_right (by omega) hsh) (by norm_num)
    have hpos : 0 < 2 ^ sh := by positivity
    have hdd : dist * 10 ^ m ≤ delta * 10 ^ m := Nat.mul_le_mul_right _ hdist
    have hd9 : p2 * 10 / 2 ^ sh ≤ 9 := by
      have : p2 * 10 / 2 ^ sh < 10 := by rw [Nat.div_lt_iff_lt_mul hpos]; omega
      omega
    have hsplit : p2 * 10 = p2 * 10 / 2 ^ sh * 2 ^ sh + p2 * 10 % 2 ^ sh := by
      have := Nat.div_add_mod (p2 * 10) (2 ^ sh)
      rw [Nat.mul_comm] at this
      omega
    have hr : p2 * 10 % 2 ^ sh < 2 ^ sh := Nat.mod_lt _ hpos
    have hMe' : M * 10 ^ (m + 1) = val (buf ++ [p2 * 10 / 2 ^ sh]) * 2 ^ sh + p2 * 10 % 2 ^ sh := by
      calc M * 10 ^ (m + 1) = (M * 10 ^ m) * 10 := by rw [pow_succ]; ring
        _ = val buf * 10 * 2 ^ sh + p2 * 10 := by rw [hMe]; ring
        _ = val buf * 10 * 2 ^ sh + (p2 * 10 / 2 ^ sh * 2 ^ sh + p2 * 10 % 2 ^ sh) := by rw [← hsplit]
        _ = _ := by rw [val_append]; ring
    have e1 : delta * 10 ^ (m + 1) = delta * 10 ^ m * 10 := by rw [pow_succ]; ring
    have e2 : dist * 10 ^ (m + 1) = dist * 10 ^ m * 10 := by rw [pow_succ]; ring
    rw [loop2, need_pos (by omega)]
    dsimp only
    rw [u64_lt (n := p2 * 10) (by omega), need_pos hd9, u64_lt (n := delta * 10 ^ m * 10) (by omega),
      u64_lt (n := dist * 10 ^ m * 10) (by omega), ← e1, ← e2]
    generalize p2 * 10 / 2 ^ sh = d at *
    generalize p2 * 10 % 2 ^ sh = r at *
    split
    · rename_i hle
      obtain ⟨d', r1, r2, r3, r4⟩ := round_spec (buf := buf) (d := d) (ten := 2 ^ sh) (delta := delta * 10 ^ (m + 1))
        (dist := dist * 10 ^ (m + 1)) (by omega) (by omega) hpos hle (by omega)
      refine ⟨buf ++ [d'], m + 1, by omega, by omega, by rw [r1]; rfl, hd.append (by omega) (fun h => absurd h hne), by simp, ?_, ?_,
        by omega⟩
      · rw [hMe', val_append, val_append]
        exact le_trans (Nat.mul_le_mul_right _ (by omega)) (by omega : (val buf * 10 + d) * 2 ^ sh ≤ _)
      · have : M * 10 ^ (m + 1) = val (buf ++ [d']) * 2 ^ sh + (r + (d - d') * 2 ^ sh) := by
          rw [hMe', val_append, val_append]
          obtain ⟨j, hj⟩ : ∃ j, d = d' + j := ⟨d - d', by omega⟩
          rw [hj, Nat.add_sub_cancel_left]
          ring
        omega
    · rename_i hgt
      exact loop2_spec hsh hdelta hdist fuel (m + 1) (r) (buf ++ [d]) (by omega)
        (hd.append hd9 (fun h => absurd h hne)) (by simp) hr hMe' (by omega)

theorem pow10_spec {n : Nat} (h0 : 0 < n) (h : n < 4294967296) : ∃ k, findLargestPow10 n = (k, 10 ^ (k - 1)) ∧ k ≠ 0 ∧ k ≤ 10 ∧
    10 ^ (k - 1) ≤ n ∧ n < 10 ^ k := by
  unfold findLargestPow10
  by_cases g9 : n ≥ 1000000000
  · exact ⟨10, by rw [if_pos g9]; rfl, by omega, by omega, by norm_num; omega, by norm_num; omega⟩
  rw [if_neg g9]
  by_cases g8 : n ≥ 100000000
  · exact ⟨9, by rw [if_pos g8]; rfl, by omega, by omega, by norm_num; omega, by norm_num; omega⟩
  rw [if_neg g8]
  by_cases g7 : n ≥ 10000000
  · exact ⟨8, by rw [if_pos g7]; rfl, by omega, by omega, by norm_num; omega, by norm_num; omega⟩
  rw [if_neg g7]
  by_cases g6 : n ≥ 1000000
  · exact ⟨7, by rw [if_pos g6]; rfl, by omega, by omega, by norm_num; omega, by norm_num; omega⟩
  rw [if_neg g6]
  by_cases g5 : n ≥ 100000
  · exact ⟨6, by rw [if_pos g5]; rfl, by omega, by omega, by norm_num; omega, by norm_num; omega⟩
  rw [if_neg g5]
  by_cases g4 : n ≥ 10000
  · exact ⟨5, by rw [if_pos g4]; rfl, by omega, by omega, by norm_num; omega, by norm_num; omega⟩
  rw [if_neg g4]
  by_cases g3 : n ≥ 1000
  · exact ⟨4, by rw [if_pos g3]; rfl, by omega, by omega, by norm_num; omega, by norm_num; omega⟩
  rw [if_neg g3]
  by_cases g2 : n ≥ 100
  · exact ⟨3, by rw [if_pos g2]; rfl, by omega, by omega, by norm_num; omega, by norm_num; omega⟩
  rw [if_neg g2]
  by_cases g1 : n ≥ 10
  · exact ⟨2, by rw [if_pos g1]; rfl, by omega, by omega, by norm_num; omega, by norm_num; omega⟩
  rw [if_neg g1]
  exact ⟨1, rfl, by omega, by omega, by norm_num; omega, by norm_num; omega⟩

/-- The digits: at most 17, and their value lies in the interval. -/
theorem digitGen_spec {E : Int} {lo w M : Nat} (dec : Int) (h1 : -60 ≤ E) (h2 : E ≤ -32) (hM : M < 18446744073709551616)
    (hp : 2 ^ (-E).toNat ≤ M) (hlo : 0 < lo) (hlw : lo ≤ w) (hwM : w ≤ M) (hlM : lo < M) (hlen : M ≤ 10000000000000000 * (M - lo)) :
    ∃ (b : List Nat) (x : Int), digitGen dec ⟨lo, E⟩ ⟨w, E⟩ ⟨M, E⟩ = some (b, dec + x) ∧ Dec b ∧ b ≠ [] ∧ b.length ≤ 17 ∧
      -20 ≤ x ∧ x ≤ 10 ∧ (lo : Rat) * 2 ^ E ≤ val b * 10 ^ x ∧ (val b : Rat) * 10 ^ x ≤ M * 2 ^ E := by
  obtain ⟨sh, hsh⟩ : ∃ sh : Nat, E = -(sh : Int) := ⟨(-E).toNat, by omega⟩
  have hshe : (-E).toNat = sh := by omega
  rw [hshe] at hp
  have hpos : 0 < 2 ^ sh := by positivity
  have hpq : (0 : Rat) < 2 ^ sh := by positivity
  have hE : (2 : Rat) ^ E = 1 / 2 ^ sh := by rw [hsh, zpow_neg, zpow_natCast, one_div]
  have hq1 : 0 < M / 2 ^ sh := Nat.div_pos hp hpos
  have hq2 : M / 2 ^ sh < 4294967296 := by
    rw [Nat.div_lt_iff_lt_mul hpos]
    have : 2 ^ 32 ≤ 2 ^ sh := Nat.pow_le_pow_right (by omega) (by omega)
    norm_num at this
    omega
  obtain ⟨k, k1, k2, k3, k4, k5⟩ := pow10_spec hq1 hq2
  have hMe : M = (val [] * 10 ^ k + M / 2 ^ sh) * 2 ^ sh + M % 2 ^ sh := by
    have := Nat.div_add_mod M (2 ^ sh)
    rw [show val [] = 0 from rfl, Nat.zero_mul, Nat.zero_add, Nat.mul_comm]
    exact this.symm
  have hR : M - lo < M / 2 ^ sh * 2 ^ sh + M % 2 ^ sh := by
    rw [show val [] = 0 from rfl, Nat.zero_mul, Nat.zero_add] at hMe
    omega
  unfold digitGen sub
  dsimp only
  rw [need_pos rfl, need_pos (by omega : M ≥ lo), need_pos rfl, need_pos hwM]
  dsimp only [bind, Option.bind]
  rw [need_pos h1, need_pos h2, hshe, Nat.mod_eq_of_lt hq2, need_pos hq1, k1]
  dsimp only
  rcases loop1_spec (sh := sh) (p2 := M % 2 ^ sh) (delta := M - lo) (dist := M - w) hM (Nat.mod_lt _ hpos) (by omega) (by omega) k (M / 2 ^ sh)
      [] ⟨by simp, by simp⟩ (fun _ => ⟨k2, k4⟩) k5 hMe hR with ⟨b, n, hn, e1, ⟨i1, i2, i3, i4, i5⟩⟩ | ⟨b, e1, i1, i2, i3, i4⟩
  · rw [e1]
    refine ⟨b, n, rfl, i1, i2, ?_, by omega, by omega, ?_, ?_⟩
    · have hl := i1.lower i2
      have c1 : 10 ^ (b.length - 1) * 10 ^ n * 2 ^ sh ≤ M := le_trans (Nat.mul_le_mul_right _ (Nat.mul_le_mul_right _ hl)) i3
      have c2 : 10 ^ (b.length - 1) * (10 ^ n * 2 ^ sh) < 10 ^ 17 * (10 ^ n * 2 ^ sh) := by
        calc 10 ^ (b.length - 1) * (10 ^ n * 2 ^ sh) = 10 ^ (b.length - 1) * 10 ^ n * 2 ^ sh := by ring
          _ ≤ 10000000000000000 * (M - lo) := le_trans c1 hlen
          _ < 10000000000000000 * (10 ^ (n + 1) * 2 ^ sh) := Nat.mul_lt_mul_of_pos_left i5 (by norm_num)
          _ = 10 ^ 17 * (10 ^ n * 2 ^ sh) := by rw [pow_succ]; ring
      have c3 := Nat.lt_of_mul_lt_mul_right c2
      have := (Nat.pow_lt_pow_iff_right (by norm_num : 1 < 10)).1 c3
      omega
    · rw [hE, zpow_natCast, mul_one_div, div_le_iff₀ hpq]
      have : lo ≤ val b * 10 ^ n * 2 ^ sh := by omega
      exact_mod_cast this
    · rw [hE, zpow_natCast, mul_one_div, le_div_iff₀ hpq]
      exact_mod_cast i3
  · rw [e1]
    dsimp only
    rw [need_pos i4]
    obtain ⟨b', m, m1, m2, e2, j1, j2, j3, j4, j5⟩ := loop2_spec (sh := sh) (delta := M - lo) (dist := M - w) (M := M) (by omega)
      (by omega) (by omega) 20 0 (M % 2 ^ sh) b (by omega) i1 i2 (Nat.mod_lt _ hpos) (by rw [pow_zero, Nat.mul_one]; exact i3)
      (by rw [pow_zero, Nat.mul_one]; exact i4)
    rw [pow_zero, Nat.mul_one, Nat.mul_one] at e2
    rw [e2]
    have hmq : (0 : Rat) < 10 ^ m := by positivity
    have hz : (10 : Rat) ^ (-(m : Int)) = 1 / 10 ^ m := by rw [zpow_neg, zpow_natCast, one_div]
    refine ⟨b', -(m : Int), by rw [← sub_eq_add_neg], j1, j2, ?_, by omega, by omega, ?_, ?_⟩
    · have hl := j1.lower j2
      have c1 : 10 ^ (b'.length - 1) * 2 ^ sh ≤ M * 10 ^ m := le_trans (Nat.mul_le_mul_right _ hl) j3
      have c2 : 10 ^ (b'.length - 1) * 2 ^ sh < 10 ^ 17 * 2 ^ sh := by
        calc 10 ^ (b'.length - 1) * 2 ^ sh ≤ M * 10 ^ m := c1
          _ ≤ 10000000000000000 * (M - lo) * 10 ^ m := Nat.mul_le_mul_right _ hlen
          _ = 10000000000000000 * ((M - lo) * 10 ^ m) := by ring
          _ < 10000000000000000 * (10 * 2 ^ sh) := Nat.mul_lt_mul_of_pos_left j5 (by norm_num)
          _ = 10 ^ 17 * 2 ^ sh := by ring
      have c3 := Nat.lt_of_mul_lt_mul_right c2
      have := (Nat.pow_lt_pow_iff_right (by norm_num : 1 < 10)).1 c3
      omega
    · rw [hE, hz, mul_one_div, mul_one_div, div_le_div_iff₀ hpq hmq]
      have e : M * 10 ^ m = lo * 10 ^ m + (M - lo) * 10 ^ m := by rw [← Nat.add_mul]; congr 1; omega
      have : lo * 10 ^ m ≤ val b' * 2 ^ sh := by omega
      exact_mod_cast this
    · rw [hE, hz, mul_one_div, mul_one_div, div_le_div_iff₀ hmq hpq]
      exact_mod_cast j3

end Wis.Grisu
