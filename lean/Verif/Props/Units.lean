import Verif.Props.Order
/-!
# C186: the units of the coordinates

Plan: away from the ends of the range of `double`, multiplication by a power of two commutes with the rounding of every operation of the
normalisation, and the last operation before `tanh` is a quotient in which the power cancels.
-/

namespace Wis
open Spec KernelCanvas

namespace Spec

/-- A number times `2^k`. -/
noncomputable def times (k : Int) : Dbl → Dbl
  | .fin x => .fin ((2 : ℝ) ^ k * x)
  | a => a

/-- A sequence in other units: coordinate `j` of every point is multiplied by `2^(k j)`. -/
noncomputable def rescale (k : Nat → Int) (seq : List (List Dbl)) : List (List Dbl) := seq.map (fun row => row.mapIdx (fun j a => times (k j) a))

/-- An integer multiple of 2^-300 of absolute value at most 2^480. -/
def Plain (a : Dbl) : Prop := ∃ n : Int, a = .fin (n * (2 : ℝ) ^ (-300 : Int)) ∧ |(n * (2 : ℝ) ^ (-300 : Int) : ℝ)| ≤ 2 ^ 480

end Spec

namespace Dbl

local notation "r64" => Ieee.rnd Ieee.double (K := ℝ)

theorem log_scale {x : ℝ} (hx : 0 < x) (k : Int) : Int.log 2 ((2 : ℝ) ^ k * x) = k + Int.log 2 x := by
  have hk : (0 : ℝ) < (2 : ℝ) ^ k := zpow_pos (by norm_num) k
  have key : ∀ z : Int, z ≤ Int.log 2 ((2 : ℝ) ^ k * x) ↔ z ≤ k + Int.log 2 x := by
    intro z
    have h1 := Int.zpow_le_iff_le_log (b := 2) (by norm_num) (x := z) (mul_pos hk hx)
    have h2 := Int.zpow_le_iff_le_log (b := 2) (by norm_num) (x := z - k) hx
    rw [← h1, show z ≤ k + Int.log 2 x ↔ z - k ≤ Int.log 2 x by omega, ← h2]
    push_cast
    rw [show (2 : ℝ) ^ z = (2 : ℝ) ^ k * (2 : ℝ) ^ (z - k) by rw [← zpow_add₀ (by norm_num)]; congr 1; omega]
    exact mul_le_mul_iff_right₀ hk
  exact le_antisymm ((key _).mp le_rfl) ((key _).mpr le_rfl)

/-- Zero or normal. -/
def Normal (x : ℝ) : Prop := x = 0 ∨ (2 : ℝ) ^ (-1022 : Int) ≤ |x|

theorem normal_place {x : ℝ} (h0 : x ≠ 0) (h : Normal x) : Ieee.lastPlace Ieee.double x = Int.log 2 |x| - 52 := by
  have h1 := h.resolve_left h0
  have h2 : (-1022 : Int) ≤ Int.log 2 |x| := (Int.zpow_le_iff_le_log (b := 2) (by norm_num) (abs_pos.mpr h0)).mp (by exact_mod_cast h1)
  unfold Ieee.lastPlace
  simp only [Ieee.double]
  rw [max_eq_left h2]
  norm_num

theorem rnd_scale {x : ℝ} {k : Int} (h : Normal x) (h' : Normal ((2 : ℝ) ^ k * x)) : r64 ((2 : ℝ) ^ k * x) = (2 : ℝ) ^ k * r64 x := by
  by_cases h0 : x = 0
  · rw [h0, mul_zero, r64_zero, mul_zero]
  have hk : (0 : ℝ) < (2 : ℝ) ^ k := zpow_pos (by norm_num) k
  have e1 := normal_place h0 h
  have e2 := normal_place (mul_ne_zero hk.ne' h0) h'
  rw [abs_mul, abs_of_pos hk, log_scale (abs_pos.mpr h0)] at e2
  unfold Ieee.rnd
  rw [e1, e2, show k + Int.log 2 |x| - 52 = k + (Int.log 2 |x| - 52) by omega, zpow_add₀ (by norm_num), mul_div_mul_left _ _ hk.ne']
  ring

/-- A multiple of 2^-A. -/
def Grid (A : Int) (x : ℝ) : Prop := ∃ n : Int, x = n * (2 : ℝ) ^ (-A)

theorem grid_mono {A B : Int} (h : A ≤ B) {x : ℝ} (hx : Grid A x) : Grid B x := by
  obtain ⟨n, rfl⟩ := hx
  obtain ⟨m, hm⟩ := Int.eq_ofNat_of_zero_le (show 0 ≤ B - A by omega)
  refine ⟨n * 2 ^ m, ?_⟩
  rw [show -A = (m : Int) + -B by omega, zpow_add₀ (by norm_num), zpow_natCast]
  push_cast
  ring

theorem grid_zero (A : Int) : Grid A 0 := ⟨0, by simp⟩

theorem grid_neg {A : Int} {x : ℝ} (h : Grid A x) : Grid A (-x) := by
  obtain ⟨n, rfl⟩ := h
  exact ⟨-n, by push_cast; ring⟩

theorem grid_add {A : Int} {x y : ℝ} (h : Grid A x) (h' : Grid A y) : Grid A (x + y) := by
  obtain ⟨n, rfl⟩ := h
  obtain ⟨m, rfl⟩ := h'
  exact ⟨n + m, by push_cast; ring⟩

theorem grid_mul {A B : Int} {x y : ℝ} (h : Grid A x) (h' : Grid B y) : Grid (A + B) (x * y) := by
  obtain ⟨n, rfl⟩ := h
  obtain ⟨m, rfl⟩ := h'
  refine ⟨n * m, ?_⟩
  rw [show -(A + B) = -A + -B by omega, zpow_add₀ (by norm_num)]
  push_cast
  ring

theorem grid_least {A : Int} {x : ℝ} (h : Grid A x) : x = 0 ∨ (2 : ℝ) ^ (-A) ≤ |x| := by
  obtain ⟨n, rfl⟩ := h
  by_cases h0 : n = 0
  · left; rw [h0]; simp
  · right
    have hu : (0 : ℝ) < (2 : ℝ) ^ (-A) := zpow_pos (by norm_num) _
    rw [abs_mul, abs_of_pos hu]
    have : (1 : ℝ) ≤ |(n : ℝ)| := by exact_mod_cast Int.one_le_abs h0
    nlinarith

theorem grid_normal {A : Int} (hA : A ≤ 1022) {x : ℝ} (h : Grid A x) : Normal x := by
  rcases grid_least h with h | h
  · exact .inl h
  · exact .inr (le_trans (zpow_le_zpow_right₀ (by norm_num) (by omega)) h)

theorem grid_rnd_place {A : Int} {x : ℝ} (h : -A ≤ Ieee.lastPlace Ieee.double x) : Grid A (r64 x) :=
  grid_mono (A := -Ieee.lastPlace Ieee.double x) (by omega) ⟨_, by rw [neg_neg]; rfl⟩

/-- Rounding keeps multiples. -/
theorem grid_rnd {A : Int} {x : ℝ} (h : Grid A x) : Grid A (r64 x) := by
  by_cases hp : -A ≤ Ieee.lastPlace Ieee.double x
  · exact grid_rnd_place hp
  · obtain ⟨m, hm⟩ := grid_mono (B := -Ieee.lastPlace Ieee.double x) (by omega) h
    rw [neg_neg] at hm
    have : r64 x = x := by
      have hu : (0 : ℝ) < (2 : ℝ) ^ Ieee.lastPlace Ieee.double x := zpow_pos (by norm_num) _
      unfold Ieee.rnd
      generalize (2 : ℝ) ^ Ieee.lastPlace Ieee.double x = u at hm hu
      rw [hm, mul_div_assoc, div_self hu.ne', mul_one, Ieee.rint_int]
    rw [this]
    exact h

/-- A result of absolute value at least 2^-E is a multiple of 2^-(E + 52). -/
theorem grid_rnd_large {E : Int} {x : ℝ} (h : x = 0 ∨ (2 : ℝ) ^ (-E) ≤ |x|) : Grid (E + 52) (r64 x) := by
  rcases h with rfl | h
  · rw [r64_zero]; exact grid_zero _
  · apply grid_rnd_place
    have h0 : 0 < |x| := lt_of_lt_of_le (zpow_pos (by norm_num) _) h
    have h2 := (Int.zpow_le_iff_le_log (b := 2) (by norm_num) h0).mp (by exact_mod_cast h)
    have h3 := le_max_left (Int.log 2 |x|) Ieee.double.emin
    have h4 : ((Ieee.double.p : Nat) : Int) = 53 := rfl
    unfold Ieee.lastPlace
    omega

/-- `a` and `b` are finite multiples of 2^-A, and `b` is `2^k` times `a`. -/
def Scaled (A k : Int) (a b : Dbl) : Prop := ∃ x : ℝ, a = .fin x ∧ b = .fin ((2 : ℝ) ^ k * x) ∧ Grid A x ∧ Grid A ((2 : ℝ) ^ k * x)

theorem ofReal_eq_fin {x y : ℝ} (h : ofReal x = .fin y) : y = r64 x := by
  unfold ofReal at h
  split at h
  · injection h with h; exact h.symm
  · cases h

theorem ofReal_scaled {z : ℝ} {k : Int} (h : Normal z) (h' : Normal ((2 : ℝ) ^ k * z)) {B B' : ℝ} (hB : Within B (ofReal z))
    (hB' : Within B' (ofReal ((2 : ℝ) ^ k * z))) : ofReal z = .fin (r64 z) ∧ ofReal ((2 : ℝ) ^ k * z) = .fin ((2 : ℝ) ^ k * r64 z) := by
  obtain ⟨x, hx, _⟩ := hB
  obtain ⟨y, hy, _⟩ := hB'
  rw [hx, hy, ofReal_eq_fin hx, ofReal_eq_fin hy, rnd_scale h h']
  exact ⟨rfl, rfl⟩

theorem scaled_of {A k : Int} {z : ℝ} (hA : A ≤ 1022) (h : Grid A z) (h' : Grid A ((2 : ℝ) ^ k * z)) {B B' : ℝ} (hB : Within B (ofReal z))
    (hB' : Within B' (ofReal ((2 : ℝ) ^ k * z))) : Scaled A k (ofReal z) (ofReal ((2 : ℝ) ^ k * z)) := by
  have hn := grid_normal hA h
  have hn' := grid_normal hA h'
  obtain ⟨e, e'⟩ := ofReal_scaled hn hn' hB hB'
  exact ⟨_, e, e', grid_rnd h, by rw [← rnd_scale hn hn']; exact grid_rnd h'⟩

theorem scaled_add {t : Tanh} {A k : Int} (hA : A ≤ 1022) {a b a' b' : Dbl} (ha : Scaled A k a a') (hb : Scaled A k b b') {B B' : ℝ}
    (hB : Within B ((ops t).add a b)) (hB' : Within B' ((ops t).add a' b')) : Scaled A k ((ops t).add a b) ((ops t).add a' b') := by
  obtain ⟨x, rfl, rfl, h1, h2⟩ := ha
  obtain ⟨y, rfl, rfl, h3, h4⟩ := hb
  have e : (2 : ℝ) ^ k * x + (2 : ℝ) ^ k * y = (2 : ℝ) ^ k * (x + y) := by ring
  have e1 : (ops t).add (.fin x) (.fin y) = ofReal (x + y) := rfl
  have e2 : (ops t).add (.fin ((2 : ℝ) ^ k * x)) (.fin ((2 : ℝ) ^ k * y)) = ofReal ((2 : ℝ) ^ k * (x + y)) := congrArg ofReal e
  rw [e1] at hB ⊢
  rw [e2] at hB' ⊢
  exact scaled_of hA (grid_add h1 h3) (e ▸ grid_add h2 h4) hB hB'

theorem scaled_neg {A k : Int} {a a' : Dbl} (ha : Scaled A k a a') : Scaled A k (neg a) (neg a') := by
  obtain ⟨x, rfl, rfl, h1, h2⟩ := ha
  exact ⟨-x, rfl, by rw [mul_neg]; rfl, grid_neg h1, by rw [mul_neg]; exact grid_neg h2⟩

theorem scaled_sub {t : Tanh} {A k : Int} (hA : A ≤ 1022) {a b a' b' : Dbl} (ha : Scaled A k a a') (hb : Scaled A k b b') {B B' : ℝ}
    (hB : Within B ((ops t).sub a b)) (hB' : Within B' ((ops t).sub a' b')) : Scaled A k ((ops t).sub a b) ((ops t).sub a' b') :=
  scaled_add (t := t) hA ha (scaled_neg hb) hB hB'

theorem scaled_sq {t : Tanh} {A k : Int} (hA : A + A ≤ 1022) {a a' : Dbl} (ha : Scaled A k a a') {B B' : ℝ}
    (hB : Within B ((ops t).mul a a)) (hB' : Within B' ((ops t).mul a' a')) : Scaled (A + A) (k + k) ((ops t).mul a a) ((ops t).mul a' a') := by
  obtain ⟨x, rfl, rfl, h1, h2⟩ := ha
  have e : ((2 : ℝ) ^ k * x) * ((2 : ℝ) ^ k * x) = (2 : ℝ) ^ (k + k) * (x * x) := by rw [zpow_add₀ (by norm_num)]; ring
  have e1 : (ops t).mul (.fin x) (.fin x) = ofReal (x * x) := rfl
  have e2 : (ops t).mul (.fin ((2 : ℝ) ^ k * x)) (.fin ((2 : ℝ) ^ k * x)) = ofReal ((2 : ℝ) ^ (k + k) * (x * x)) := congrArg ofReal e
  rw [e1] at hB ⊢
  rw [e2] at hB' ⊢
  exact scaled_of hA (grid_mul h1 h1) (e ▸ grid_mul h2 h2) hB hB'

theorem div_least {A : Int} {x : ℝ} (h : Grid A x) {n : Nat} (hn : n ≠ 0) (hn' : n < 2 ^ 53) : x / n = 0 ∨ (2 : ℝ) ^ (-(A + 53)) ≤ |x / n| := by
  have hp : (0 : ℝ) < (n : ℝ) := by exact_mod_cast Nat.pos_of_ne_zero hn
  have hle : (n : ℝ) ≤ (2 : ℝ) ^ (53 : Int) := by
    rw [show (2 : ℝ) ^ (53 : Int) = ((2 ^ 53 : Nat) : ℝ) by norm_num]
    exact_mod_cast hn'.le
  rcases grid_least h with h | h
  · left; rw [h, zero_div]
  · right
    rw [abs_div, abs_of_pos hp, le_div_iff₀ hp]
    calc (2 : ℝ) ^ (-(A + 53)) * n ≤ (2 : ℝ) ^ (-(A + 53)) * (2 : ℝ) ^ (53 : Int) := mul_le_mul_of_nonneg_left hle (by positivity)
      _ = (2 : ℝ) ^ (-A) := by rw [← zpow_add₀ (by norm_num)]; congr 1; omega
      _ ≤ |x| := h

theorem scaled_div {A k : Int} (hA : A + 53 ≤ 1022) {n : Nat} (hn : n ≠ 0) (hn' : n < 2 ^ 53) {a a' : Dbl} (ha : Scaled A k a a') {B B' : ℝ}
    (hB : Within B (div a (.fin n))) (hB' : Within B' (div a' (.fin n))) : Scaled (A + 105) k (div a (.fin n)) (div a' (.fin n)) := by
  obtain ⟨x, rfl, rfl, h1, h2⟩ := ha
  have hp : (n : ℝ) ≠ 0 := by exact_mod_cast hn
  have e1 : div (.fin x) (.fin (n : ℝ)) = ofReal (x / n) := if_neg hp
  have e2 : div (.fin ((2 : ℝ) ^ k * x)) (.fin (n : ℝ)) = ofReal ((2 : ℝ) ^ k * (x / n)) := by
    rw [← mul_div_assoc]; exact if_neg hp
  have l1 := div_least h1 hn hn'
  have l2 := div_least h2 hn hn'
  rw [mul_div_assoc] at l2
  have norm : ∀ z : ℝ, (z = 0 ∨ (2 : ℝ) ^ (-(A + 53)) ≤ |z|) → Normal z := fun z hz => by
    rcases hz with h | h
    · exact .inl h
    · exact .inr (le_trans (zpow_le_zpow_right₀ (by norm_num) (by omega)) h)
  rw [e1] at hB ⊢
  rw [e2] at hB' ⊢
  obtain ⟨f1, f2⟩ := ofReal_scaled (norm _ l1) (norm _ l2) hB hB'
  refine ⟨_, f1, f2, ?_, ?_⟩
  · have := grid_rnd_large l1
    rwa [show A + 53 + 52 = A + 105 by omega] at this
  · rw [← rnd_scale (norm _ l1) (norm _ l2)]
    have := grid_rnd_large l2
    rwa [show A + 53 + 52 = A + 105 by omega] at this

theorem scaled_sqrt {A k : Int} (hA : A ≤ 2044) {a a' : Dbl} (ha : Scaled A (k + k) a a') {d d' : ℝ} (hd : sqrt a = .fin d) (hd' : sqrt a' = .fin d') :
    d' = (2 : ℝ) ^ k * d := by
  obtain ⟨x, rfl, rfl, h1, h2⟩ := ha
  have hk : (0 : ℝ) < (2 : ℝ) ^ k := zpow_pos (by norm_num) k
  have hx : 0 ≤ x := by
    by_contra hc
    have : sqrt (.fin x) = .nan := if_pos (not_le.mp hc)
    rw [this] at hd
    cases hd
  have e : Real.sqrt ((2 : ℝ) ^ (k + k) * x) = (2 : ℝ) ^ k * Real.sqrt x := by
    rw [zpow_add₀ (by norm_num), Real.sqrt_mul (by positivity), Real.sqrt_mul_self hk.le]
  have e1 : sqrt (.fin x) = ofReal (Real.sqrt x) := if_neg (not_lt.mpr hx)
  have e2 : sqrt (.fin ((2 : ℝ) ^ (k + k) * x)) = ofReal ((2 : ℝ) ^ k * Real.sqrt x) := by
    rw [← e]
    exact if_neg (not_lt.mpr (by positivity))
  have norm : ∀ z : ℝ, Grid A z → Normal (Real.sqrt z) := by
    intro z hz
    rcases grid_least hz with h | h
    · left; rw [h, Real.sqrt_zero]
    · by_cases hz0 : 0 ≤ z
      · right
        rw [abs_of_nonneg hz0] at h
        rw [abs_of_nonneg (Real.sqrt_nonneg z)]
        apply Real.le_sqrt_of_sq_le
        rw [sq, ← zpow_add₀ (by norm_num)]
        exact le_trans (zpow_le_zpow_right₀ (by norm_num) (by omega)) h
      · left; exact Real.sqrt_eq_zero_of_nonpos (not_le.mp hz0).le
  rw [e1] at hd
  rw [e2] at hd'
  rw [ofReal_eq_fin hd, ofReal_eq_fin hd', rnd_scale (norm x h1) (by rw [← e]; exact norm _ h2)]

/-- Sums of scaled numbers. -/
theorem scaled_sum {t : Tanh} {A k e : Int} (hA : A ≤ 1022) (he : -1074 ≤ e) (he' : e ≤ 971) (g g' : List Dbl → Dbl) (h : List Dbl → List Dbl)
    (rows : List (List Dbl)) (hg : ∀ r ∈ rows, Scaled A k (g r) (g' (h r)) ∧ Within ((2 : ℝ) ^ e) (g r) ∧ Within ((2 : ℝ) ^ e) (g' (h r))) :
    ∀ (i : Nat) (s s' : Dbl), i + rows.length < 2 ^ 53 → Within (i * (2 : ℝ) ^ e) s → Within (i * (2 : ℝ) ^ e) s' → Scaled A k s s' →
      Scaled A k (rows.foldl (fun s r => (ops t).add s (g r)) s) ((rows.map h).foldl (fun s r => (ops t).add s (g' r)) s') := by
  induction rows with
  | nil => intro i s s' _ _ _ hs; exact hs
  | cons r rs ih =>
    intro i s s' hn hw hw' hs
    rw [List.length_cons] at hn
    obtain ⟨h1, h2, h3⟩ := hg r (by simp)
    have w1 := sum_within (t := t) he he' [r] g (fun q hq => by rw [List.mem_singleton.mp hq]; exact h2) i s (by simp; omega) hw
    have w2 := sum_within (t := t) he he' [h r] g' (fun q hq => by rw [List.mem_singleton.mp hq]; exact h3) i s' (by simp; omega) hw'
    exact ih (fun q hq => hg q (by simp [hq])) (i + 1) _ _ (by omega) w1 w2 (scaled_add hA hs h1 w1 w2)

/-- Normalised coordinates do not depend on the unit. -/
theorem units_norm {t : Tanh} {k : Int} {j : Nat} (h : List Dbl → List Dbl) {seq : List (List Dbl)} (hs : seq.length < 2 ^ 53)
    (hm : Moderate t seq j) (hm' : Moderate t (seq.map h) j)
    (hx : ∀ row ∈ seq, Scaled 300 k (coordOf (ops t) row j) (coordOf (ops t) (h row) j)) {row : List Dbl} (hr : row ∈ seq) :
    normCoord (ops t) seq row j = normCoord (ops t) (seq.map h) (h row) j := by
  have hne : seq ≠ [] := List.ne_nil_of_mem hr
  have hne' : seq.map h ≠ [] := by simpa using hne
  have hs' : (seq.map h).length < 2 ^ 53 := by simpa using hs
  have hlen : seq.length ≠ 0 := by have := List.length_pos_iff.mpr hne; omega
  have hrow' : ∀ q ∈ seq, h q ∈ seq.map h := fun q hq => List.mem_map_of_mem hq
  have z : ∀ e : Int, Within ((0 : Nat) * (2 : ℝ) ^ e) (.fin 0) := fun e => ⟨0, rfl, by simp⟩
  have sz : ∀ A k : Int, Scaled A k (.fin 0) (.fin 0) := fun A k => ⟨0, rfl, by simp, grid_zero _, by rw [mul_zero]; exact grid_zero _⟩
  have wm := mean_within hm hne hs
  have wm' := mean_within hm' hne' hs'
  -- the means
  have sm : Scaled 405 k (colMean (ops t) seq j) (colMean (ops t) (seq.map h) j) := by
    have h1 := scaled_sum (t := t) (A := 300) (k := k) (e := 480) (by norm_num) (by norm_num) (by norm_num) (fun r => coordOf (ops t) r j)
      (fun r => coordOf (ops t) r j) h seq (fun r hr => ⟨hx r hr, hm r hr, hm' _ (hrow' r hr)⟩) 0 (.fin 0) (.fin 0) (by omega) (z _) (z _) (sz _ _)
    unfold colMean at wm wm' ⊢
    rw [size_fin t (by omega)] at wm ⊢
    rw [size_fin t (by omega), List.length_map] at wm' ⊢
    exact scaled_div (A := 300) (by norm_num) hlen hs h1 wm wm'
  have sd : ∀ r ∈ seq, Scaled 405 k ((ops t).sub (colMean (ops t) seq j) (coordOf (ops t) r j))
      ((ops t).sub (colMean (ops t) (seq.map h) j) (coordOf (ops t) (h r) j)) := fun r hr => by
    obtain ⟨x, e1, e2, g1, g2⟩ := hx r hr
    exact scaled_sub (by norm_num) sm ⟨x, e1, e2, grid_mono (by norm_num) g1, grid_mono (by norm_num) g2⟩ (diff_within (t := t) wm (hm r hr))
      (diff_within (t := t) wm' (hm' _ (hrow' r hr)))
  have sq : ∀ r ∈ seq, Scaled 810 (k + k)
      ((ops t).mul ((ops t).sub (colMean (ops t) seq j) (coordOf (ops t) r j)) ((ops t).sub (colMean (ops t) seq j) (coordOf (ops t) r j)))
      ((ops t).mul ((ops t).sub (colMean (ops t) (seq.map h) j) (coordOf (ops t) (h r) j)) ((ops t).sub (colMean (ops t) (seq.map h) j) (coordOf (ops t) (h r) j))) :=
    fun r hr => scaled_sq (A := 405) (by norm_num) (sd r hr) (sq_within (diff_within (t := t) wm (hm r hr))) (sq_within (diff_within (t := t) wm' (hm' _ (hrow' r hr))))
  obtain ⟨d, _, hd⟩ := std_finite hm hne hs
  obtain ⟨d', _, hd'⟩ := std_finite hm' hne' hs'
  have hdd : d' = (2 : ℝ) ^ k * d := by
    have h1 := scaled_sum (t := t) (A := 810) (k := k + k) (e := 962) (by norm_num) (by norm_num) (by norm_num)
      (fun r => (ops t).mul ((ops t).sub (colMean (ops t) seq j) (coordOf (ops t) r j)) ((ops t).sub (colMean (ops t) seq j) (coordOf (ops t) r j)))
      (fun r => (ops t).mul ((ops t).sub (colMean (ops t) (seq.map h) j) (coordOf (ops t) r j)) ((ops t).sub (colMean (ops t) (seq.map h) j) (coordOf (ops t) r j)))
      h seq (fun r hr => ⟨sq r hr, sq_within (diff_within (t := t) wm (hm r hr)), sq_within (diff_within (t := t) wm' (hm' _ (hrow' r hr)))⟩)
      0 (.fin 0) (.fin 0) (by omega) (z _) (z _) (sz _ _)
    have w1 := sum_within (t := t) (e := 962) (by norm_num) (by norm_num) seq
      (fun r => (ops t).mul ((ops t).sub (colMean (ops t) seq j) (coordOf (ops t) r j)) ((ops t).sub (colMean (ops t) seq j) (coordOf (ops t) r j)))
      (fun r hr => sq_within (diff_within (t := t) wm (hm r hr))) 0 (.fin 0) (by omega) (z _)
    have w2 := sum_within (t := t) (e := 962) (by norm_num) (by norm_num) (seq.map h)
      (fun r => (ops t).mul ((ops t).sub (colMean (ops t) (seq.map h) j) (coordOf (ops t) r j)) ((ops t).sub (colMean (ops t) (seq.map h) j) (coordOf (ops t) r j)))
      (fun r hr => sq_within (diff_within (t := t) wm' (hm' _ hr))) 0 (.fin 0) (by omega) (z _)
    rw [Nat.zero_add] at w1 w2
    rw [List.length_map] at w2
    have v1 := div_size_within (by norm_num) (by norm_num) hlen w1
    have v2 := div_size_within (by norm_num) (by norm_num) hlen w2
    have h2 := scaled_div (A := 810) (by norm_num) hlen hs h1 v1 v2
    unfold colStd at hd hd'
    rw [size_fin t (by omega)] at hd
    rw [size_fin t (by omega), List.length_map] at hd'
    exact scaled_sqrt (by norm_num) h2 hd hd'
  obtain ⟨x, e1, e2, _, _⟩ := sd row hr
  have hk : (2 : ℝ) ^ k ≠ 0 := (zpow_pos (by norm_num) k).ne'
  unfold normCoord
  rw [e1, e2, hd, hd', hdd]
  congr 1
  by_cases hd0 : d = 0
  · have hlt : decide ((2 : ℝ) ^ k * x < 0) = decide (x < 0) := by
      have hk' : (0 : ℝ) < (2 : ℝ) ^ k := zpow_pos (by norm_num) k
      rw [decide_eq_decide]
      constructor
      · intro h; by_contra hc; exact absurd h (not_lt.mpr (mul_nonneg hk'.le (not_lt.mp hc)))
      · intro h; exact mul_neg_of_pos_of_neg hk' h
    rw [hd0, mul_zero]
    have h1 : div (.fin x) (.fin 0) = if x = 0 then .nan else .inf (decide (x < 0)) := if_pos rfl
    have h2 : div (.fin ((2 : ℝ) ^ k * x)) (.fin 0) = if (2 : ℝ) ^ k * x = 0 then .nan else .inf (decide ((2 : ℝ) ^ k * x < 0)) := if_pos rfl
    rw [show (ops t).div _ _ = _ from h1, show (ops t).div _ _ = _ from h2, hlt]
    by_cases hx0 : x = 0
    · rw [if_pos hx0, if_pos (by rw [hx0, mul_zero])]
    · rw [if_neg hx0, if_neg (mul_ne_zero hk hx0)]
  · have h1 : div (.fin x) (.fin d) = ofReal (x / d) := if_neg hd0
    have h2 : div (.fin ((2 : ℝ) ^ k * x)) (.fin ((2 : ℝ) ^ k * d)) = ofReal ((2 : ℝ) ^ k * x / ((2 : ℝ) ^ k * d)) := if_neg (mul_ne_zero hk hd0)
    rw [mul_div_mul_left _ _ hk] at h2
    exact h1.trans h2.symm

end Dbl

open Dbl

/-- **C186**, what holds: for a KernelCanvas of Python in IEEE arithmetic (at most 2^24 kernels, without `useDirection` or of dimension 1), if the coordinates of a sequence of
fewer than 2^53 points are changed to other units, the j-th by a factor 2^(k j) of any sign of the exponent, and before and after the change they
are multiples of 2^-300 within 2^480, then the normalised points are the same and so is the output of `transform`, with the same sort. Missing: numbers near the
ends of the range of `double` (`C186_refuted`). -/
theorem C186_units_partial (t : Tanh) (g : CRand) (hg : ∀ s, (g.rand s).1 ≤ 2147483647) (now : Nat) (s : g.S) (dim N bits : Int) (deg : Rat) (ud : Bool)
    (c : KernelCanvas (ops t)) (hc : (KernelCanvas.createG Flt.single (ops t) g now s (.fin (-1)) (.fin 1) dim N bits deg ud).1 = .ok c)
    (hN : N ≤ 2 ^ 24) (hsize : N * bits ≤ 2147483647) (hd : ud = false ∨ dim = 1)
    (k : Nat → Int) (seq : List (List Dbl)) (hseq : AllDim c seq) (hlen : seq.length < 2 ^ 53)
    (hx : ∀ row ∈ seq, ∀ a ∈ row, Plain a) (hx' : ∀ row ∈ rescale k seq, ∀ a ∈ row, Plain a) :
    (∀ row ∈ seq, normPoint (ops t) c seq row = normPoint (ops t) c (rescale k seq) (row.mapIdx (fun j a => times (k j) a))) ∧
    ∀ sorter : Nat → Sorter (Nat × Dbl), c.transform sorter (rescale k seq) = c.transform sorter seq := by
  obtain ⟨rand, hu, h⟩ := createG_unit t g hg Flt.single now s dim N bits deg ud
  rw [h] at hc
  obtain ⟨g1, g2, _, _, _, _, hdim, _⟩ := create_inv hc
  have R := ready (laws t) hc hu (single_kernels g1 hN) hsize hd
  have hseq' : AllDim c (rescale k seq) := by
    intro r hr
    obtain ⟨row, hrow, rfl⟩ := List.mem_map.mp hr
    rw [List.length_mapIdx]
    exact hseq row hrow
  have hco : ∀ (q : List (List Dbl)), AllDim c q → (∀ row ∈ q, ∀ a ∈ row, Plain a) → ∀ r ∈ q, ∀ j : Nat, (j : Int) < c.dim →
      ∃ a, r[j]? = some a ∧ coordOf (ops t) r j = a ∧ Plain a := by
    intro q hq hp r hr j hj
    have := hq r hr
    refine ⟨r[j]'(by omega), List.getElem?_eq_getElem (by omega), ?_, hp r hr _ (List.getElem_mem _)⟩
    unfold coordOf
    rw [List.getD_eq_getElem?_getD, List.getElem?_eq_getElem (by omega)]
    rfl
  have hmod : ∀ (q : List (List Dbl)), AllDim c q → (∀ row ∈ q, ∀ a ∈ row, Plain a) → ∀ j : Nat, (j : Int) < c.dim → Moderate t q j := by
    intro q hq hp j hj r hr
    obtain ⟨a, _, e, n, rfl, hb⟩ := hco q hq hp r hr j hj
    rw [e]
    exact ⟨_, rfl, by exact_mod_cast hb⟩
  have key : ∀ row ∈ seq, ∀ j : Nat, (j : Int) < c.dim →
      normCoord (ops t) seq row j = normCoord (ops t) (rescale k seq) (row.mapIdx (fun j a => times (k j) a)) j := by
    intro row hrow j hj
    refine units_norm (k := k j) (fun row => row.mapIdx (fun j a => times (k j) a)) hlen (hmod seq hseq hx j hj) (hmod _ hseq' hx' j hj) (fun r hr => ?_) hrow
    obtain ⟨a, ha, e, n, rfl, _⟩ := hco seq hseq hx r hr j hj
    obtain ⟨b, hb, e', m, hm, _⟩ := hco _ hseq' hx' _ (List.mem_map_of_mem hr) j hj
    rw [List.getElem?_mapIdx, ha] at hb
    have hb' : times (k j) (.fin (n * (2 : ℝ) ^ (-300 : Int))) = b := Option.some.inj hb
    rw [e, e', ← hb']
    refine ⟨_, rfl, rfl, ⟨n, rfl⟩, ⟨m, ?_⟩⟩
    rw [hm] at hb'
    injection hb' with hb'
  have hpt : ∀ row ∈ seq, normPoint (ops t) c seq row = normPoint (ops t) c (rescale k seq) (row.mapIdx (fun j a => times (k j) a)) := by
    intro row hrow
    unfold normPoint
    split
    · rw [key row hrow 0 (by have := R.dim; omega)]
    · apply List.map_congr_left
      intro j hj
      exact key row hrow j (by have := List.mem_range.mp hj; omega)
  refine ⟨hpt, fun sorter => ?_⟩
  refine (transform_congr R hseq hseq' (by simp [rescale]) (fun i row row' hi hi' K hK => ?_) sorter).symm
  have : row' = row.mapIdx (fun j a => times (k j) a) := by
    unfold rescale at hi'
    rw [List.getElem?_map, hi] at hi'
    exact (Option.some.inj hi').symm
  rw [this, hpt row (List.mem_of_getElem? hi)]

/-- **C186 is false** near the ends of the range: of two kernels, the second nearer to `tanh 0` and the first nearer to `tanh (-1)`, the four points
2^1023, -2^1023, 2^1023, -2^1023 activate only the second, because their deviation overflows, and the same points in the unit 2^1023, which are 1, -1, 1, -1, activate the
first. -/
theorem C186_refuted (t : Tanh) (a b : Dbl) (ha : Dbl.Unit a) (hb : Dbl.Unit b)
    (h0 : lt (euclid (ops t) [.fin (t.f 0)] [b]) (euclid (ops t) [.fin (t.f 0)] [a]) = true)
    (h1 : lt (euclid (ops t) [.fin (t.f (-1))] [a]) (euclid (ops t) [.fin (t.f (-1))] [b]) = true) :
    rescale (fun _ => -1023) bigAlternate = [[.fin 1], [.fin (-1)], [.fin 1], [.fin (-1)]] ∧
    ∃ c : KernelCanvas (ops t), KernelCanvas.create Flt.single (ops t) (fun i _ => if i = 0 then a else b) 1 2 1 (1 / 2) false = .ok c ∧ AllDim c bigAlternate ∧
      ∀ sorter : Nat → Sorter (Nat × Dbl), c.transform sorter (rescale (fun _ => -1023) bigAlternate) ≠ c.transform sorter bigAlternate := by
  have hbig : (2 : ℝ) ^ (-1023 : Int) * big = 1 := by
    unfold big
    rw [← zpow_add₀ (by norm_num)]
    norm_num
  have hre : rescale (fun _ => -1023) bigAlternate = [[.fin 1], [.fin (-1)], [.fin 1], [.fin (-1)]] := by
    unfold rescale bigAlternate
    simp only [List.map_cons, List.map_nil, List.mapIdx_cons, List.mapIdx_nil, times, mul_neg, hbig]
  have hall : ∀ K : List (List Dbl), AllDim (⟨1, 1, false, 1, 0, K⟩ : KernelCanvas (ops t)) bigAlternate := by
    intro K r hr
    unfold bigAlternate at hr
    fin_cases hr <;> rfl
  refine ⟨hre, _, two_canvas t a b, hall _, fun sorter => ?_⟩
  rw [hre, alternate_out t a b ha hb 1 (by norm_num) (fun k' h1 h2 K K' h3 h4 => by
    obtain rfl : k' = 0 := by omega
    cases h3; cases h4
    exact h0) sorter]
  have R := ready (laws t) (two_canvas t a b) (fun i _ => by
    show Dbl.Unit (if i = 0 then a else b)
    split
    · exact ha
    · exact hb) (single_kernels (by norm_num) (by norm_num)) (by norm_num) (.inl rfl)
  have hall' : AllDim (⟨1, 1, false, 1, 0, [[a], [b]]⟩ : KernelCanvas (ops t)) [[.fin 1], [.fin (-1)], [.fin 1], [.fin (-1)]] := by
    intro r hr
    fin_cases hr <;> rfl
  obtain ⟨S, hS, h⟩ := transform_ok R hall' sorter
  have n := hS 0 _ rfl
  -- the first point is normalised to tanh (-1)
  have i0 : ((0 : Int) : ℝ) = 0 := by norm_num
  have a01 := int_add t (a := 0) (b := 1) (by norm_num)
  have a1n := int_add t (a := 1) (b := -1) (by norm_num)
  have a11 := int_add t (a := 1) (b := 1) (by norm_num)
  have a21 := int_add t (a := 2) (b := 1) (by norm_num)
  have a31 := int_add t (a := 3) (b := 1) (by norm_num)
  have d04 := int_div t (a := 0) (b := 4) (c := 0) (by norm_num) (by norm_num) (by norm_num)
  have d44 := int_div t (a := 4) (b := 4) (c := 1) (by norm_num) (by norm_num) (by norm_num)
  have dn1 := int_div t (a := -1) (b := 1) (c := -1) (by norm_num) (by norm_num) (by norm_num)
  have s01 := int_sub t (a := 0) (b := 1) (by norm_num)
  have s0n := int_sub t (a := 0) (b := -1) (by norm_num)
  have m1 := int_mul t (a := 1) (b := 1) (by norm_num)
  have mn := int_mul t (a := -1) (b := -1) (by norm_num)
  have q1 := int_sqrt t (c := 1) (by norm_num) (by norm_num)
  norm_num at a01 a1n a11 a21 a31 d04 d44 dn1 s01 s0n m1 mn q1
  have hm : colMean (ops t) [[.fin 1], [.fin (-1)], [.fin 1], [.fin (-1)]] 0 = .fin 0 := by
    show Dbl.div (Dbl.add (Dbl.add (Dbl.add (Dbl.add (.fin 0) (.fin 1)) (.fin (-1))) (.fin 1)) (.fin (-1))) (ofReal ((0 + 1 + 1 + 1 + 1 : Nat) : ℝ)) = _
    rw [four, show Dbl.add (.fin 0) (.fin 1) = .fin 1 from a01, show Dbl.add (.fin 1) (.fin (-1)) = .fin 0 from a1n,
      show Dbl.add (.fin 0) (.fin 1) = .fin 1 from a01, show Dbl.add (.fin 1) (.fin (-1)) = .fin 0 from a1n]
    exact d04
  have hs : colStd (ops t) [[.fin 1], [.fin (-1)], [.fin 1], [.fin (-1)]] 0 = .fin 1 := by
    unfold colStd
    rw [hm]
    show Dbl.sqrt (Dbl.div (Dbl.add (Dbl.add (Dbl.add (Dbl.add (.fin 0) (Dbl.mul (Dbl.sub (.fin 0) (.fin 1)) (Dbl.sub (.fin 0) (.fin 1))))
      (Dbl.mul (Dbl.sub (.fin 0) (.fin (-1))) (Dbl.sub (.fin 0) (.fin (-1))))) (Dbl.mul (Dbl.sub (.fin 0) (.fin 1)) (Dbl.sub (.fin 0) (.fin 1))))
      (Dbl.mul (Dbl.sub (.fin 0) (.fin (-1))) (Dbl.sub (.fin 0) (.fin (-1))))) (ofReal ((0 + 1 + 1 + 1 + 1 : Nat) : ℝ))) = _
    rw [four, show Dbl.sub (.fin 0) (.fin 1) = .fin (-1) from s01, show Dbl.sub (.fin 0) (.fin (-1)) = .fin 1 from s0n,
      show Dbl.mul (.fin (-1)) (.fin (-1)) = .fin 1 from mn, show Dbl.mul (.fin 1) (.fin 1) = .fin 1 from m1,
      show Dbl.add (.fin 0) (.fin 1) = .fin 1 from a01, show Dbl.add (.fin 1) (.fin 1) = .fin 2 from a11,
      show Dbl.add (.fin 2) (.fin 1) = .fin 3 from a21, show Dbl.add (.fin 3) (.fin 1) = .fin 4 from a31,
      show Dbl.div (.fin 4) (.fin 4) = .fin 1 from d44]
    exact q1
  have hp : normPoint (ops t) (⟨1, 1, false, 1, 0, [[a], [b]]⟩ : KernelCanvas (ops t)) [[.fin 1], [.fin (-1)], [.fin 1], [.fin (-1)]] [.fin 1] = [.fin (t.f (-1))] := by
    show [normCoord (ops t) _ [.fin 1] 0] = _
    unfold normCoord
    rw [hm, hs]
    show [tanh t (Dbl.div (Dbl.sub (.fin 0) (.fin 1)) (.fin 1))] = _
    rw [show Dbl.sub (.fin 0) (.fin 1) = .fin (-1) from s01, show Dbl.div (.fin (-1)) (.fin 1) = .fin (-1) from dn1]
    rfl
  rw [hp] at n
  obtain ⟨m, hm'⟩ := List.length_eq_one_iff.mp (show (S 0).length = 1 from n.number)
  have hm2 : m < 2 := n.exist m (by rw [hm']; simp)
  have hm0 : m = 0 := by
    by_contra hne
    obtain rfl : m = 1 := by omega
    have h3 := n.nearest 1 (by rw [hm']; simp) 0 (by rw [hm']; simp) _ _ rfl rfl
    rw [show (ops t).lt _ _ = _ from h1] at h3
    cases h3
  rw [h]
  intro he
  have he : canvas 1 2 (fun q => (List.range 4).any (fun j => (S j).contains q)) = [0, 1] := Except.ok.inj he
  have hc : ∀ act : Nat → Bool, canvas 1 2 act = [if act 0 then 1 else 0, if act 1 then 1 else 0] := fun act => rfl
  rw [hc] at he
  have : ((List.range 4).any (fun j => (S j).contains 0)) = true := List.any_eq_true.mpr ⟨0, by simp, by rw [hm', hm0]; simp⟩
  rw [this] at he
  cases he

/-! ## The hypotheses can be met -/

theorem plain_int {n : Int} (h : |n| ≤ 2 ^ 100) : Plain (.fin n) := by
  have e : (n : ℝ) = ((n * 2 ^ 300 : Int) : ℝ) * (2 : ℝ) ^ (-300 : Int) := by
    push_cast
    rw [mul_assoc, show (2 : ℝ) ^ 300 = (2 : ℝ) ^ (300 : Int) by norm_cast, ← zpow_add₀ (by norm_num)]
    norm_num
  refine ⟨n * 2 ^ 300, congrArg Dbl.fin e, ?_⟩
  rw [← e]
  have : |(n : ℝ)| ≤ 2 ^ 100 := by exact_mod_cast h
  exact this.trans (pow_le_pow_right₀ (by norm_num) (by norm_num))

/-- C186: metres to multiples of 1/1024 of a metre in the first coordinate, the second unchanged. -/
example : ∃ c, (KernelCanvas.createG Flt.single (ops exTanh) exRand 1700000000 (0 : Nat) (.fin (-1)) (.fin 1) 2 256 3 (7/100) false).1 = .ok c ∧
    ∀ sorter : Nat → Sorter (Nat × Dbl), c.transform sorter [[.fin 3072, .fin 5], [.fin (-1024), .fin 7], [.fin 2048, .fin 7]] =
      c.transform sorter [[.fin 3, .fin 5], [.fin (-1), .fin 7], [.fin 2, .fin 7]] := by
  obtain ⟨c, hc, hd⟩ := ex_canvas 2 256 3 (7/100) (by norm_num) (by norm_num) (by norm_num) (by norm_num) (by norm_num) (by norm_num)
  have hre : rescale (fun j => if j = 0 then 10 else 0) [[.fin 3, .fin 5], [.fin (-1), .fin 7], [.fin 2, .fin 7]] =
      [[.fin 3072, .fin 5], [.fin (-1024), .fin 7], [.fin 2048, .fin 7]] := by
    simp only [rescale, List.map_cons, List.map_nil, List.mapIdx_cons, List.mapIdx_nil, times]
    norm_num
  have p : ∀ n : Int, |n| ≤ 10000 → Plain (.fin n) := fun n hn => plain_int (hn.trans (by norm_num))
  have p5 := p 5 (by norm_num)
  have p7 := p 7 (by norm_num)
  have h := (C186_units_partial exTanh exRand exRand_max 1700000000 (0 : Nat) 2 256 3 (7/100) false c hc (by norm_num) (by norm_num) (.inl rfl)
    (fun j => if j = 0 then 10 else 0) [[.fin 3, .fin 5], [.fin (-1), .fin 7], [.fin 2, .fin 7]] (fun r hr => by rw [hd]; fin_cases hr <;> rfl) (by norm_num)
    (by
      have p3 := p 3 (by norm_num)
      have p1 := p (-1) (by norm_num)
      have p2 := p 2 (by norm_num)
      push_cast at p1 p2 p3 p5 p7
      intro r hr a ha
      fin_cases hr <;> fin_cases ha <;> assumption)
    (by
      have p3 := p 3072 (by norm_num)
      have p1 := p (-1024) (by norm_num)
      have p2 := p 2048 (by norm_num)
      push_cast at p1 p2 p3 p5 p7
      rw [hre]
      intro r hr a ha
      fin_cases hr <;> fin_cases ha <;> assumption)).2
  rw [hre] at h
  exact ⟨c, hc, h⟩

/-- C186_refuted: the kernels -1 and 0. -/
example : Dbl.Unit (.fin (-1)) ∧ Dbl.Unit (.fin 0) ∧
    lt (euclid (ops signTanh) [.fin (signTanh.f 0)] [.fin 0]) (euclid (ops signTanh) [.fin (signTanh.f 0)] [.fin (-1)]) = true ∧
    lt (euclid (ops signTanh) [.fin (signTanh.f (-1))] [.fin (-1)]) (euclid (ops signTanh) [.fin (signTanh.f (-1))] [.fin 0]) = true := by
  have f0 : signTanh.f 0 = 0 := by
    show (if (0 : ℝ) < 0 then (1 : ℝ) else if (0 : ℝ) < 0 then -1 else 0) = 0
    norm_num
  have fn : signTanh.f (-1) = -1 := by
    show (if (0 : ℝ) < -1 then (1 : ℝ) else if (-1 : ℝ) < 0 then -1 else 0) = -1
    norm_num
  have e0 := int_dist signTanh (a := 0) (b := 0) (by norm_num)
  have e1 := int_dist signTanh (a := 0) (b := -1) (by norm_num)
  have e2 := int_dist signTanh (a := -1) (b := -1) (by norm_num)
  have e3 := int_dist signTanh (a := -1) (b := 0) (by norm_num)
  norm_num at e0 e1 e2 e3
  refine ⟨⟨-1, rfl, by norm_num, by norm_num⟩, ⟨0, rfl, by norm_num, by norm_num⟩, ?_, ?_⟩
  · rw [f0, e0, e1]
    exact decide_eq_true (by norm_num)
  · rw [fn, e2, e3]
    exact decide_eq_true (by norm_num)

end Wis
