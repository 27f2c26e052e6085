import Verif.Lemmas.Double
import Verif.Props.KernelCanvas
import Verif.Model.PyFloat
import Mathlib.Analysis.Complex.Trigonometric
/-!
# KernelCanvas in IEEE arithmetic: C129, C130

`double` and `float` are those of IEEE 754 (`Model/Double.lean`, `Model/Ieee.lean`), the kernels are drawn by `rand()`, of which it is only
known that it gives numbers from 0 to `RAND_MAX`.
-/

namespace Wis
open Spec KernelCanvas

namespace Dbl

theorem kernelG_unit (t : Tanh) (g : CRand) (hg : ∀ s, (g.rand s).1 ≤ 2147483647) (n : Nat) : ∀ s : g.S, ∃ rand : Nat → Dbl, (∀ d, Unit (rand d)) ∧
    (KernelCanvas.kernelG g (ops t) (.fin (-1)) (.fin 1) n s).1 = (List.range n).map rand := by
  induction n with
  | zero => intro s; exact ⟨fun _ => .fin 0, fun _ => ⟨0, rfl, by norm_num, by norm_num⟩, rfl⟩
  | succ n ih =>
    intro s
    obtain ⟨rand, hu, h⟩ := ih (g.rand s).2
    refine ⟨fun i => match i with | 0 => KernelCanvas.randdouble (ops t) (g.rand s).1 (.fin (-1)) (.fin 1) | i + 1 => rand i, ?_, ?_⟩
    · intro d
      cases d with
      | zero => exact randdouble_unit t (hg s)
      | succ d => exact hu d
    · rw [List.range_succ_eq_map, List.map_cons, List.map_map]
      simp only [KernelCanvas.kernelG]
      exact congrArg _ h

theorem kernelsG_unit (t : Tanh) (g : CRand) (hg : ∀ s, (g.rand s).1 ≤ 2147483647) (dim n : Nat) : ∀ s : g.S, ∃ rand : Nat → Nat → Dbl,
    (∀ i d, Unit (rand i d)) ∧
    (KernelCanvas.kernelsG g (ops t) (.fin (-1)) (.fin 1) dim n s).1 = (List.range n).map (fun i => (List.range dim).map (rand i)) := by
  induction n with
  | zero => intro s; exact ⟨fun _ _ => .fin 0, fun _ _ => ⟨0, rfl, by norm_num, by norm_num⟩, rfl⟩
  | succ n ih =>
    intro s
    obtain ⟨r0, hu0, h0⟩ := kernelG_unit t g hg dim s
    obtain ⟨rand, hu, h⟩ := ih (KernelCanvas.kernelG g (ops t) (.fin (-1)) (.fin 1) dim s).2
    refine ⟨fun i => match i with | 0 => r0 | i + 1 => rand i, ?_, ?_⟩
    · intro i d
      cases i with
      | zero => exact hu0 d
      | succ i => exact hu i d
    · rw [List.range_succ_eq_map, List.map_cons, List.map_map]
      simp only [KernelCanvas.kernelsG, h, h0]
      rfl

/-- A canvas made by the constructor of Python is one with coordinates between -1 and 1. -/
theorem createG_unit (t : Tanh) (g : CRand) (hg : ∀ s, (g.rand s).1 ≤ 2147483647) (f : Flt) (now : Nat) (s : g.S) (dim k b : Int) (deg : Rat) (ud : Bool) :
    ∃ rand : Nat → Nat → Dbl, (∀ i d, Unit (rand i d)) ∧
      (KernelCanvas.createG f (ops t) g now s (.fin (-1)) (.fin 1) dim k b deg ud).1 = KernelCanvas.create f (ops t) rand dim k b deg ud := by
  have h0 : ∀ i d : Nat, Unit ((fun _ _ => .fin 0 : Nat → Nat → Dbl) i d) := fun _ _ => ⟨0, rfl, by norm_num, by norm_num⟩
  unfold KernelCanvas.createG KernelCanvas.create
  cases KernelCanvas.checkInputs k dim b deg with
  | error e => exact ⟨_, h0, rfl⟩
  | ok _ =>
    simp only [Except.bind_ok]
    cases i32 (roundHalfUp (f.rnd (deg * f.rnd k))) with
    | error e => exact ⟨_, h0, rfl⟩
    | ok toActivate =>
    simp only [Except.bind_ok]
    generalize (if ud = true then (do
        let a ← i32 (2 * (dim - 1))
        i32 (dim + a)) else (Except.ok 0 : Res Int)) = amp
    cases amp with
    | error e => exact ⟨_, h0, rfl⟩
    | ok a =>
      simp only [Except.bind_ok]
      generalize (if ud = true then i32 (a * 3) else (Except.ok dim : Res Int)) = cur
      cases cur with
      | error e => exact ⟨_, h0, rfl⟩
      | ok c =>
        obtain ⟨rand, hu, h⟩ := kernelsG_unit t g hg c.toNat k.toNat (g.srand now)
        refine ⟨rand, hu, ?_⟩
        simp only [Except.bind_ok]
        rw [h]

theorem single_kernels {N : Int} (h0 : 1 ≤ N) (hN : N ≤ 2 ^ 24) : Flt.single.rnd N = N :=
  Ieee.rnd_int (F := Ieee.single) (by decide) (by rw [abs_of_nonneg (by omega)]; exact hN)

end Dbl

open Dbl

/-- **C129**. A KernelCanvas of Python in IEEE arithmetic, with at most 2^24 kernels: its coordinates are numbers between -1 and 1; and for
every sequence of points of its dimension (of any doubles, infinite ones and NaN included) `transform` succeeds, each point activates
`round(activationDegree * numberOfKernels)` kernels nearest to its normalised form, whose coordinates are between -1 and 1 or NaN,
and the output shows exactly the kernels activated by some point. -/
theorem C129_ieee (t : Tanh) (g : CRand) (hg : ∀ s, (g.rand s).1 ≤ 2147483647) (now : Nat) (s : g.S) (dim N bits : Int) (deg : Rat) (ud : Bool)
    (c : KernelCanvas (ops t)) (hc : (KernelCanvas.createG Flt.single (ops t) g now s (.fin (-1)) (.fin 1) dim N bits deg ud).1 = .ok c)
    (hN : N ≤ 2 ^ 24) (hsize : N * bits ≤ 2147483647) (hd : ud = false ∨ dim = 1) :
    (c.kernels.length : Int) = N ∧ (∀ K ∈ c.kernels, ∀ x ∈ K, ∃ r : ℝ, x = .fin r ∧ -1 ≤ r ∧ r ≤ 1) ∧
    ∀ (sorter : Nat → Sorter (Nat × Dbl)) (seq : List (List Dbl)), AllDim c seq →
      (∀ row ∈ seq, ∀ x ∈ normPoint (ops t) c seq row, x = .nan ∨ ∃ r : ℝ, x = .fin r ∧ -1 ≤ r ∧ r ≤ 1) ∧
      ∃ S : Nat → List Nat,
        (∀ i row, seq[i]? = some row → Nearest (ops t) c.kernels (normPoint (ops t) c seq row) (roundHalfUp (r32 (deg * N))).toNat (S i)) ∧
        ∃ out, c.transform sorter seq = .ok out ∧ Pattern bits.toNat (fun k => (List.range seq.length).any (fun i => (S i).contains k)) N.toNat out := by
  obtain ⟨rand, hu, h⟩ := createG_unit t g hg Flt.single now s dim N bits deg ud
  rw [h] at hc
  obtain ⟨g1, _, _, _, _, _, _, _, _, hl, _, hK⟩ := create_inv hc
  refine ⟨hl, ?_, ?_⟩
  · intro K hK' x hx
    obtain ⟨i, d, rfl⟩ := (hK K hK').2 x hx
    exact hu i d
  · intro sorter seq hseq
    refine ⟨?_, C69_nearest Flt.single (ops t) (laws t) rand dim N bits deg ud c hc hu (single_kernels g1 hN) hsize hd sorter seq hseq⟩
    intro row _ x hx
    rcases normPoint_vals (laws t) c seq row x hx with h | h
    · exact .inr h
    · exact .inl h

/-- **C81 is false** of IEEE floats with 16777219 kernels. -/
theorem C81_refuted_single (o : FOps) (rand : Nat → Nat → o.F) (dim bits : Int) (ud : Bool) (c : KernelCanvas o)
    (hc : KernelCanvas.create Flt.single o rand dim 16777219 bits 1 ud = .ok c)
    (sorter : Nat → Sorter (Nat × o.F)) (seq : List (List o.F)) (hseq : AllDim c seq) (hne : seq ≠ []) :
    ∃ u, c.transform sorter seq = .error (.ub u) := by
  refine C81_refuted Flt.single o rand dim 16777219 bits ud c hc ?_ sorter seq hseq hne
  have h : r32 (r32 16777219) = 16777220 := by decide +kernel
  have h2 : Flt.single.rnd (Flt.single.rnd ((16777219 : Int) : Rat)) = r32 (r32 16777219) := by norm_num; rfl
  rw [h2, h]
  norm_num

theorem r32_kernels_top : r32 (r32 2147483583) = 2147483520 := by decide +kernel

/-- **C82** with IEEE floats, what holds: up to 2147483583 kernels and, with `useDirection`, dimensions up to 238609294. -/
theorem C82_create_single_partial (o : FOps) (rand : Nat → Nat → o.F) (dim N bits : Int) (deg : Rat) (ud : Bool)
    (h1 : 1 ≤ N) (hN : N ≤ 2147483583) (h2 : 1 ≤ dim) (h3 : 1 ≤ bits) (h4 : 0 ≤ deg) (h5 : deg ≤ 1) (h6 : ud = true → dim ≤ 238609294) :
    ∃ c, KernelCanvas.create Flt.single o rand dim N bits deg ud = .ok c ∧ (c.kernels.length : Int) = N ∧ c.dim = dim ∧ c.bitsByKernel = bits := by
  refine C82_create_partial Flt.single o rand dim N bits deg ud h1 h2 h3 h4 h5 ?_ (fun h => by have := h6 h; omega)
  have h : Flt.single.rnd (Flt.single.rnd N) ≤ r32 (r32 2147483583) :=
    Flt.single.mono (Flt.single.mono (by exact_mod_cast hN))
  rw [r32_kernels_top] at h
  exact h.trans (by norm_num)

/-- **C82 is false** of IEEE floats from 2147483584 kernels on. -/
theorem C82_refuted_single (o : FOps) (rand : Nat → Nat → o.F) (dim N bits : Int) (ud : Bool) (hN : 2147483584 ≤ N) (h2 : 1 ≤ dim) (h3 : 1 ≤ bits) :
    KernelCanvas.create Flt.single o rand dim N bits 1 ud = .error (.ub .overflow) := by
  refine C82_refuted Flt.single o rand dim N bits ud (by omega) h2 h3 ?_
  have h : r32 (r32 2147483584) = 2147483648 := by decide +kernel
  have h' : r32 (r32 2147483584) ≤ Flt.single.rnd (Flt.single.rnd N) :=
    Flt.single.mono (Flt.single.mono (by exact_mod_cast hN))
  rw [h] at h'
  exact_mod_cast h'

/-! ## Constant columns -/

namespace KernelCanvas

/-- Equal distances give equal outputs. -/
theorem transformLoop_congr {o : FOps} {L : FLaws o} {c : KernelCanvas o} (R : Ready L c) {seq seq' : List (List o.F)} (hr : AllDim c seq) (hr' : AllDim c seq')
    (hl : seq.length = seq'.length) (he : ∀ (i : Nat) (row row' : List o.F), seq[i]? = some row → seq'[i]? = some row' → ∀ K ∈ c.kernels,
      euclid o (normPoint o c seq row) K = euclid o (normPoint o c seq' row') K)
    (sorter : Nat → Sorter (Nat × o.F)) : ∀ (k i : Nat) (out : List Int) (point point' : List o.F) (pi pi' : List Int), i + k = seq.length →
      Buffers c point pi → Buffers c point' pi' →
      c.transformLoop sorter seq ((List.range c.dim.toNat).map (colMean o seq)) ((List.range c.dim.toNat).map (colStd o seq)) k i out point pi =
      c.transformLoop sorter seq' ((List.range c.dim.toNat).map (colMean o seq')) ((List.range c.dim.toNat).map (colStd o seq')) k i out point' pi' := by
  intro k
  induction k with
  | zero => intros; rfl
  | succ k ih =>
    intro i out point point' pi pi' hn hB hB'
    have hi : seq[i]? = some (seq[i]'(by omega)) := List.getElem?_eq_getElem (by omega)
    have hi' : seq'[i]? = some (seq'[i]'(by omega)) := List.getElem?_eq_getElem (by omega)
    generalize seq[i]'(by omega) = row at hi
    generalize seq'[i]'(by omega) = row' at hi'
    have hrow := hr row (List.mem_of_getElem? hi)
    have hrow' := hr' row' (List.mem_of_getElem? hi')
    obtain ⟨p1, q1, h1, hB1, d1⟩ := step_ok R (fun r h => by have := hr r h; omega) hi hB
    obtain ⟨p2, q2, h2, hB2, d2⟩ := step_ok R (fun r h => by have := hr' r h; omega) hi' hB'
    have e1 := distancesLoop_ok c (p := normPoint o c seq row) c.kernels 0 d1
    have e2 := distancesLoop_ok c (p := normPoint o c seq row) c.kernels 0 (point := p2) (pi := q2)
      (fun K hK => by rw [d2 K hK, he i row row' hi hi' K hK])
    simp only [transformLoop, vget_nat hi, vget_nat hi', checkDimension, hrow, hrow', h1, h2, e1, e2, bind, Except.bind]
    simp only [ne_eq, not_true_eq_false, if_false]
    generalize c.activateKernels (sorter i) out _ = a
    cases a with
    | error e => rfl
    | ok out' => exact ih (i + 1) out' p1 p2 q1 q2 (by omega) hB1 hB2

theorem transform_congr {o : FOps} {L : FLaws o} {c : KernelCanvas o} (R : Ready L c) {seq seq' : List (List o.F)} (hr : AllDim c seq) (hr' : AllDim c seq')
    (hl : seq.length = seq'.length) (he : ∀ (i : Nat) (row row' : List o.F), seq[i]? = some row → seq'[i]? = some row' → ∀ K ∈ c.kernels,
      euclid o (normPoint o c seq row) K = euclid o (normPoint o c seq' row') K)
    (sorter : Nat → Sorter (Nat × o.F)) : c.transform sorter seq = c.transform sorter seq' := by
  obtain ⟨k0, h0, hB⟩ := start_buffers R
  have h1 : ∀ r ∈ seq, c.dim ≤ r.length := fun r h => by have := hr r h; omega
  have h2 : ∀ r ∈ seq', c.dim ≤ r.length := fun r h => by have := hr' r h; omega
  unfold transform
  rw [multDimMean_ok o seq h1, multDimMean_ok o seq' h2]
  simp only [bind, Except.bind, multDimStd_ok o seq h1, multDimStd_ok o seq' h2, h0, ← hl]
  exact transformLoop_congr R hr hr' hl he sorter _ _ _ _ _ _ _ (by omega) hB hB

end KernelCanvas

namespace Dbl

theorem ofReal_exact {x : ℝ} (h : Ieee.IsFloat Ieee.double x) (hx : |x| < 2 ^ 1024) : ofReal x = .fin x := by
  have h1 := Ieee.rnd_of_isFloat h
  rw [ofReal_fin (by rw [h1]; exact hx), h1]

theorem ofReal_zero : ofReal 0 = .fin 0 := ofReal_exact zero_valid.1 zero_valid.2

/-- The column of a coordinate that is `x` in every point, where the multiples of `x` up to the length of the sequence are doubles. -/
structure Constant (t : Tanh) (seq : List (List Dbl)) (j : Nat) (x : ℝ) : Prop where
  col : ∀ row ∈ seq, coordOf (ops t) row j = .fin x
  multiples : ∀ k : Nat, k ≤ seq.length → Valid (.fin (k * x))
  some : seq ≠ []
  short : seq.length ≤ 2 ^ 53

theorem const_sum {t : Tanh} {j : Nat} {x : ℝ} {n : Nat} (hx : ∀ k : Nat, k ≤ n → Valid (.fin (k * x))) (rows : List (List Dbl)) :
    ∀ i : Nat, i + rows.length = n → (∀ row ∈ rows, coordOf (ops t) row j = .fin x) →
      rows.foldl (fun s r => (ops t).add s (coordOf (ops t) r j)) (.fin (i * x)) = .fin (n * x) := by
  induction rows with
  | nil => intro i hn _; rw [List.foldl_nil, ← hn]; simp
  | cons r rs ih =>
    intro i hn hc
    simp only [List.length_cons] at hn
    rw [List.foldl_cons, hc r (by simp)]
    have h := hx (i + 1) (by omega)
    have h1 : (ops t).add (.fin (i * x)) (.fin x) = .fin ((i + 1 : Nat) * x) := by
      show ofReal _ = _
      rw [show (i : ℝ) * x + x = ((i + 1 : Nat) : ℝ) * x by push_cast; ring]
      exact ofReal_exact h.1 h.2
    rw [h1]
    exact ih (i + 1) (by omega) (fun row hr => hc row (by simp [hr]))

theorem size_fin (t : Tanh) {seq : List (List Dbl)} (h : seq.length ≤ 2 ^ 53) : (ops t).ofNat seq.length = .fin seq.length := ops_ofNat t h

theorem const_mean {t : Tanh} {seq : List (List Dbl)} {j : Nat} {x : ℝ} (h : Constant t seq j x) : colMean (ops t) seq j = .fin x := by
  have h1 := const_sum (t := t) (j := j) h.multiples seq 0 (by omega) h.col
  have hn : (seq.length : ℝ) ≠ 0 := by
    have := List.length_pos_iff.mpr h.some
    positivity
  rw [Nat.cast_zero, zero_mul] at h1
  have hx := h.multiples 1 (List.length_pos_iff.mpr h.some)
  rw [Nat.cast_one, one_mul] at hx
  unfold colMean
  rw [show (ops t).zero = .fin 0 from rfl, h1, size_fin t h.short]
  have h2 : div (.fin ((seq.length : ℝ) * x)) (.fin (seq.length : ℝ)) = ofReal ((seq.length : ℝ) * x / seq.length) := if_neg hn
  rw [mul_div_cancel_left₀ x hn, ofReal_exact hx.1 hx.2] at h2
  exact h2

theorem zero_sum {t : Tanh} (rows : List (List Dbl)) (f : List Dbl → Dbl) (hf : ∀ r ∈ rows, f r = .fin 0) :
    rows.foldl (fun s r => (ops t).add s ((ops t).mul (f r) (f r))) (.fin 0) = .fin 0 := by
  induction rows with
  | nil => rfl
  | cons r rs ih =>
    rw [List.foldl_cons, hf r (by simp)]
    have h1 : (ops t).mul (.fin 0) (.fin 0) = .fin 0 := by
      show ofReal (0 * 0) = _
      rw [mul_zero, ofReal_zero]
    have h2 : (ops t).add (.fin 0) (.fin 0) = .fin 0 := by
      show ofReal (0 + 0) = _
      rw [add_zero, ofReal_zero]
    rw [h1, h2]
    exact ih (fun r hr => hf r (by simp [hr]))

theorem sub_self_fin (t : Tanh) (x : ℝ) : (ops t).sub (.fin x) (.fin x) = .fin 0 := by
  show ofReal (x + -x) = _
  rw [add_neg_cancel, ofReal_zero]

theorem const_std {t : Tanh} {seq : List (List Dbl)} {j : Nat} {x : ℝ} (h : Constant t seq j x) : colStd (ops t) seq j = .fin 0 := by
  have hn : (seq.length : ℝ) ≠ 0 := by
    have := List.length_pos_iff.mpr h.some
    positivity
  unfold colStd
  rw [const_mean h]
  rw [show (ops t).zero = .fin 0 from rfl, zero_sum (t := t) seq (fun r => (ops t).sub (.fin x) (coordOf (ops t) r j))
    (fun r hr => by simp only; rw [h.col r hr]; exact sub_self_fin t x), size_fin t h.short]
  have h2 : div (.fin 0) (.fin (seq.length : ℝ)) = ofReal (0 / seq.length) := if_neg hn
  rw [zero_div, ofReal_zero] at h2
  have h3 : (ops t).div (.fin 0) (.fin (seq.length : ℝ)) = .fin 0 := h2
  rw [h3]
  show Dbl.sqrt (.fin 0) = _
  have h4 : Dbl.sqrt (.fin 0) = ofReal (Real.sqrt 0) := if_neg (lt_irrefl _)
  rw [h4, Real.sqrt_zero, ofReal_zero]

theorem const_norm {t : Tanh} {seq : List (List Dbl)} {j : Nat} {x : ℝ} (h : Constant t seq j x) {row : List Dbl} (hr : row ∈ seq) :
    normCoord (ops t) seq row j = .nan := by
  unfold normCoord
  rw [const_mean h, const_std h, h.col row hr, sub_self_fin]
  have : div (.fin 0) (.fin 0) = .nan := (if_pos rfl).trans (if_pos rfl)
  show tanh t (div (.fin 0) (.fin 0)) = _
  rw [this]
  rfl

/-- One NaN makes every distance NaN. -/
theorem euclid_nan {t : Tanh} {p K : List Dbl} (h : p.length = K.length) (hp : .nan ∈ p) : euclid (ops t) p K = .nan := by
  obtain ⟨i, hi, hx⟩ := List.getElem_of_mem hp
  refine (laws t).sqrt_nan (fold_nan (laws t) _ _ (Or.inr ⟨(p[i], K[i]'(by omega)), ?_, hx⟩))
  rw [List.mem_iff_getElem]
  exact ⟨i, by rw [List.length_zip]; omega, by simp⟩

/-- All distances of the sequence are NaN. -/
def NoDistance (t : Tanh) (c : KernelCanvas (ops t)) (seq : List (List Dbl)) : Prop :=
  ∀ row ∈ seq, ∀ K ∈ c.kernels, euclid (ops t) (normPoint (ops t) c seq row) K = .nan

theorem nan_point {t : Tanh} {c : KernelCanvas (ops t)} (R : Ready (laws t) c) {seq : List (List Dbl)} {row : List Dbl} {j : Nat} (hj : (j : Int) < c.dim)
    (hn : normCoord (ops t) seq row j = .nan) : ∀ K ∈ c.kernels, euclid (ops t) (normPoint (ops t) c seq row) K = .nan := by
  intro K hK
  refine euclid_nan (normPoint_length R seq row K hK).symm ?_
  unfold normPoint
  rcases R.mode with ⟨hd, _⟩ | ⟨hd, h1, _, _⟩
  · rw [if_neg (by simp [hd])]
    exact List.mem_map.mpr ⟨j, by simp; omega, hn⟩
  · rw [if_pos hd]
    obtain rfl : j = 0 := by omega
    rw [hn]
    exact List.mem_replicate.mpr ⟨by decide, rfl⟩

theorem noDistance_congr {t : Tanh} {c : KernelCanvas (ops t)} (R : Ready (laws t) c) {seq seq' : List (List Dbl)} (hr : AllDim c seq) (hr' : AllDim c seq')
    (hl : seq.length = seq'.length) (h : NoDistance t c seq) (h' : NoDistance t c seq') (sorter : Nat → Sorter (Nat × Dbl)) :
    c.transform sorter seq = c.transform sorter seq' :=
  KernelCanvas.transform_congr R hr hr' hl (fun _ row row' hi hi' K hK => by
    rw [h row (List.mem_of_getElem? hi) K hK, h' row' (List.mem_of_getElem? hi') K hK]) sorter

theorem constant_int {t : Tanh} {seq : List (List Dbl)} {j : Nat} {v : Int} (hc : ∀ row ∈ seq, coordOf (ops t) row j = .fin v)
    (hv : seq.length * |v| ≤ 2 ^ 53) (hne : seq ≠ []) (hs : seq.length ≤ 2 ^ 53) : Constant t seq j v := by
  refine ⟨hc, fun k hk => ?_, hne, hs⟩
  have hle : |(k : Int) * v| ≤ 2 ^ 53 := by
    rw [abs_mul, abs_of_nonneg (by omega : (0 : Int) ≤ k)]
    have : (k : Int) * |v| ≤ seq.length * |v| := mul_le_mul_of_nonneg_right (by exact_mod_cast hk) (abs_nonneg v)
    omega
  have h := ofReal_valid (((k : Int) * v : Int) : ℝ)
  rw [ofReal_int hle] at h
  push_cast at h
  exact h

/-- The only point of a sequence is normalised to NaN in every coordinate. -/
theorem single_norm {t : Tanh} {row : List Dbl} {j : Nat} (h : Valid (coordOf (ops t) row j)) : normCoord (ops t) [row] row j = .nan := by
  rcases hx : coordOf (ops t) row j with x | s | _
  · rw [hx] at h
    refine const_norm (x := x) ⟨?_, ?_, by simp, by simp⟩ (by simp)
    · intro r hr
      rw [List.mem_singleton.mp hr]
      exact hx
    · intro k hk
      have hk : k = 0 ∨ k = 1 := by simp at hk; omega
      rcases hk with rfl | rfl
      · rw [Nat.cast_zero, zero_mul]; exact zero_valid
      · rw [Nat.cast_one, one_mul]; exact h
  · have h1 : colMean (ops t) [row] j = .inf s := by
      unfold colMean
      rw [List.foldl_cons, List.foldl_nil, hx, size_fin t (by simp)]
      show Dbl.div (.inf s) (.fin ((1 : Nat) : ℝ)) = _
      have : decide (((1 : Nat) : ℝ) < 0) = false := decide_eq_false (by norm_num)
      simp only [Dbl.div, this]
      cases s <;> rfl
    unfold normCoord
    rw [h1, hx]
    cases s <;> rfl
  · unfold normCoord
    rw [hx]
    have h1 : Dbl.sub (colMean (ops t) [row] j) .nan = .nan := by
      generalize colMean (ops t) [row] j = a
      cases a <;> rfl
    show tanh t (Dbl.div (Dbl.sub _ .nan) _) = _
    rw [h1]
    rfl

/-! ## Columns that are not constant -/

theorem isFloat_scaled {n : Nat} {e : Int} (hn : n < 2 ^ 53) (he : -1074 ≤ e) : Ieee.IsFloat Ieee.double ((n : ℝ) * (2 : ℝ) ^ e) :=
  ⟨n, e, by rw [abs_of_nonneg (by omega)]; exact_mod_cast hn, by simpa [Ieee.double] using he, by norm_num⟩

/-- Rounding does not exceed a bound that is a double. -/
theorem rnd_abs_le {x B : ℝ} (hB : Ieee.IsFloat Ieee.double B) (h : |x| ≤ B) : |Ieee.rnd Ieee.double x| ≤ B := by
  rw [abs_le] at h ⊢
  have h1 := r64_mono h.1
  have h2 := r64_mono h.2
  rw [Ieee.rnd_neg, Ieee.rnd_of_isFloat hB] at h1
  rw [Ieee.rnd_of_isFloat hB] at h2
  exact ⟨h1, h2⟩

/-- A finite number of absolute value at most `B`. -/
def Within (B : ℝ) (a : Dbl) : Prop := ∃ x : ℝ, a = .fin x ∧ |x| ≤ B

theorem ofReal_within {x B : ℝ} (hB : Ieee.IsFloat Ieee.double B) (hT : B < 2 ^ 1024) (h : |x| ≤ B) : Within B (ofReal x) := by
  have h1 := rnd_abs_le hB h
  exact ⟨_, ofReal_fin (lt_of_le_of_lt h1 hT), h1⟩

theorem scaled_lt_top {n : Nat} {e : Int} (hn : n < 2 ^ 53) (he : e ≤ 971) : (n : ℝ) * (2 : ℝ) ^ e < 2 ^ 1024 := by
  have h1 : (n : ℝ) < (2 : ℝ) ^ (53 : Int) := by
    have : ((2 : ℝ) ^ (53 : Int)) = ((2 ^ 53 : Nat) : ℝ) := by norm_num
    rw [this]
    exact_mod_cast hn
  have h2 : (2 : ℝ) ^ e ≤ (2 : ℝ) ^ (971 : Int) := zpow_le_zpow_right₀ (by norm_num) he
  have h3 : (0 : ℝ) < (2 : ℝ) ^ e := zpow_pos (by norm_num) e
  calc (n : ℝ) * (2 : ℝ) ^ e < (2 : ℝ) ^ (53 : Int) * (2 : ℝ) ^ e := mul_lt_mul_of_pos_right h1 h3
    _ ≤ (2 : ℝ) ^ (53 : Int) * (2 : ℝ) ^ (971 : Int) := mul_le_mul_of_nonneg_left h2 (by positivity)
    _ = (2 : ℝ) ^ ((53 : Int) + 971) := (zpow_add₀ (by norm_num) _ _).symm
    _ = 2 ^ 1024 := by
      rw [show ((53 : Int) + 971) = ((1024 : Nat) : Int) by norm_num, zpow_natCast]

/-- A sum of `n` numbers within 2^e is within n * 2^e. -/
theorem sum_within {t : Tanh} {e : Int} (he : -1074 ≤ e) (he' : e ≤ 971) (rows : List (List Dbl)) (f : List Dbl → Dbl)
    (hf : ∀ r ∈ rows, Within ((2 : ℝ) ^ e) (f r)) : ∀ (i : Nat) (s : Dbl), i + rows.length < 2 ^ 53 → Within (i * (2 : ℝ) ^ e) s →
      Within ((i + rows.length : Nat) * (2 : ℝ) ^ e) (rows.foldl (fun s r => (ops t).add s (f r)) s) := by
  induction rows with
  | nil => intro i s _ hs; simpa using hs
  | cons r rs ih =>
    intro i s hn hs
    rw [List.length_cons] at hn
    obtain ⟨x, rfl, hx⟩ := hs
    obtain ⟨y, hy, hyb⟩ := hf r (by simp)
    have h1 : Within ((i + 1 : Nat) * (2 : ℝ) ^ e) ((ops t).add (.fin x) (f r)) := by
      rw [hy]
      refine ofReal_within (isFloat_scaled (by omega) he) (scaled_lt_top (by omega) he') ?_
      calc |x + y| ≤ |x| + |y| := abs_add_le x y
        _ ≤ i * (2 : ℝ) ^ e + (2 : ℝ) ^ e := add_le_add hx hyb
        _ = ((i + 1 : Nat) : ℝ) * (2 : ℝ) ^ e := by push_cast; ring
    have h2 := ih (fun r hr => hf r (by simp [hr])) (i + 1) _ (by omega) h1
    rw [List.foldl_cons, List.length_cons, show i + (rs.length + 1) = i + 1 + rs.length by omega]
    exact h2

/-- Column `j` is of finite numbers within 2^480. -/
def Moderate (t : Tanh) (seq : List (List Dbl)) (j : Nat) : Prop := ∀ row ∈ seq, Within ((2 : ℝ) ^ (480 : Int)) (coordOf (ops t) row j)

theorem div_size_within {e : Int} (he : -1074 ≤ e) (he' : e ≤ 971) {n : Nat} (hn : n ≠ 0) {a : Dbl} (ha : Within (n * (2 : ℝ) ^ e) a) :
    Within ((2 : ℝ) ^ e) (Dbl.div a (.fin n)) := by
  obtain ⟨x, rfl, hx⟩ := ha
  have hn' : (0 : ℝ) < (n : ℝ) := by exact_mod_cast Nat.pos_of_ne_zero hn
  have h1 : Dbl.div (.fin x) (.fin (n : ℝ)) = ofReal (x / n) := if_neg hn'.ne'
  rw [h1]
  have hf := isFloat_scaled (n := 1) (e := e) (by norm_num) he
  have ht := scaled_lt_top (n := 1) (e := e) (by norm_num) he'
  rw [Nat.cast_one, one_mul] at hf ht
  refine ofReal_within hf ht ?_
  rw [abs_div, abs_of_pos hn', div_le_iff₀ hn', mul_comm]
  exact hx

theorem mean_within {t : Tanh} {seq : List (List Dbl)} {j : Nat} (h : Moderate t seq j) (hne : seq ≠ []) (hs : seq.length < 2 ^ 53) :
    Within ((2 : ℝ) ^ (480 : Int)) (colMean (ops t) seq j) := by
  have h1 := sum_within (t := t) (e := 480) (by norm_num) (by norm_num) seq (fun r => coordOf (ops t) r j) h 0 (.fin 0) (by omega)
    ⟨0, rfl, by simp⟩
  rw [Nat.zero_add] at h1
  unfold colMean
  rw [size_fin t (by omega)]
  exact div_size_within (by norm_num) (by norm_num) (by have := List.length_pos_iff.mpr hne; omega) h1

theorem diff_within {t : Tanh} {a b : Dbl} (ha : Within ((2 : ℝ) ^ (480 : Int)) a) (hb : Within ((2 : ℝ) ^ (480 : Int)) b) :
    Within ((2 : ℝ) ^ (481 : Int)) ((ops t).sub a b) := by
  obtain ⟨x, rfl, hx⟩ := ha
  obtain ⟨y, rfl, hy⟩ := hb
  have hf := isFloat_scaled (n := 1) (e := 481) (by norm_num) (by norm_num)
  have ht := scaled_lt_top (n := 1) (e := 481) (by norm_num) (by norm_num)
  rw [Nat.cast_one, one_mul] at hf ht
  refine ofReal_within hf ht ?_
  calc |x + -y| ≤ |x| + |-y| := abs_add_le _ _
    _ = |x| + |y| := by rw [abs_neg]
    _ ≤ (2 : ℝ) ^ (480 : Int) + (2 : ℝ) ^ (480 : Int) := add_le_add hx hy
    _ = (2 : ℝ) ^ (481 : Int) := by
      rw [show (481 : Int) = 480 + 1 by norm_num, zpow_add₀ (by norm_num), zpow_one]; ring

theorem sq_within {t : Tanh} {a : Dbl} (ha : Within ((2 : ℝ) ^ (481 : Int)) a) : Within ((2 : ℝ) ^ (962 : Int)) ((ops t).mul a a) := by
  obtain ⟨x, rfl, hx⟩ := ha
  have hf := isFloat_scaled (n := 1) (e := 962) (by norm_num) (by norm_num)
  have ht := scaled_lt_top (n := 1) (e := 962) (by norm_num) (by norm_num)
  rw [Nat.cast_one, one_mul] at hf ht
  refine ofReal_within hf ht ?_
  rw [abs_mul, show (962 : Int) = 481 + 481 by norm_num, zpow_add₀ (by norm_num)]
  exact mul_le_mul hx hx (abs_nonneg x) (by positivity)

theorem std_finite {t : Tanh} {seq : List (List Dbl)} {j : Nat} (h : Moderate t seq j) (hne : seq ≠ []) (hs : seq.length < 2 ^ 53) :
    ∃ d : ℝ, 0 ≤ d ∧ colStd (ops t) seq j = .fin d := by
  have hm := mean_within h hne hs
  have h1 := sum_within (t := t) (e := 962) (by norm_num) (by norm_num) seq
    (fun r => (ops t).mul ((ops t).sub (colMean (ops t) seq j) (coordOf (ops t) r j)) ((ops t).sub (colMean (ops t) seq j) (coordOf (ops t) r j)))
    (fun r hr => sq_within (diff_within (t := t) hm (h r hr))) 0 (.fin 0) (by omega) ⟨0, rfl, by simp⟩
  rw [Nat.zero_add] at h1
  have h2 := div_size_within (by norm_num) (by norm_num) (by have := List.length_pos_iff.mpr hne; omega) h1
  obtain ⟨x, hx, hb⟩ := h2
  -- the sum of the squares is not negative
  have hp : ∀ (rows : List (List Dbl)) (s : Dbl), (∀ r ∈ rows, r ∈ seq) → Pos s → Pos (rows.foldl (fun s r => (ops t).add s ((ops t).mul ((ops t).sub (colMean (ops t) seq j) (coordOf (ops t) r j))
      ((ops t).sub (colMean (ops t) seq j) (coordOf (ops t) r j)))) s) := by
    intro rows
    induction rows with
    | nil => intro s _ hs; exact hs
    | cons r rs ih =>
      intro s hr hs
      refine ih _ (fun r h => hr r (by simp [h])) (add_pos hs (sq_pos ?_))
      obtain ⟨y, hy, _⟩ := diff_within (t := t) hm (h r (hr r (by simp)))
      exact fun e => by rw [hy] at e; cases e
  have hpos := hp seq (.fin 0) (fun _ h => h) (.inl ⟨0, le_rfl, rfl⟩)
  have hx0 : 0 ≤ x := by
    obtain ⟨y, hy, _⟩ := h1
    rw [hy] at hx hpos
    rcases hpos with ⟨z, hz, e⟩ | e
    · cases e
      have hn' : (0 : ℝ) < (seq.length : ℝ) := by exact_mod_cast List.length_pos_iff.mpr hne
      have h3 : Dbl.div (.fin y) (.fin (seq.length : ℝ)) = ofReal (y / seq.length) := if_neg hn'.ne'
      rw [h3] at hx
      rcases ofReal_nonneg (div_nonneg hz hn'.le) with ⟨w, hw, e⟩ | e
      · rw [e] at hx; cases hx; exact hw
      · rw [e] at hx; cases hx
    · cases e
  unfold colStd
  rw [size_fin t (by omega)]
  show ∃ d, 0 ≤ d ∧ Dbl.sqrt (Dbl.div _ _) = _
  rw [show Dbl.div _ _ = _ from hx]
  have h4 : Dbl.sqrt (.fin x) = ofReal (Real.sqrt x) := if_neg (not_lt.mpr hx0)
  rw [h4]
  have hf := isFloat_scaled (n := 1) (e := 962) (by norm_num) (by norm_num)
  have ht := scaled_lt_top (n := 1) (e := 962) (by norm_num) (by norm_num)
  rw [Nat.cast_one, one_mul] at hf ht
  have h5 : |Real.sqrt x| ≤ (2 : ℝ) ^ (962 : Int) := by
    rw [abs_of_nonneg (Real.sqrt_nonneg x), Real.sqrt_le_left (by positivity)]
    rw [abs_of_nonneg hx0] at hb
    refine hb.trans ?_
    have h6 : (1 : ℝ) ≤ (2 : ℝ) ^ (962 : Int) := one_le_zpow₀ (by norm_num) (by norm_num)
    generalize (2 : ℝ) ^ (962 : Int) = B at h6
    nlinarith
  obtain ⟨d, hd, _⟩ := ofReal_within hf ht h5
  rcases ofReal_nonneg (Real.sqrt_nonneg x) with ⟨w, hw, e⟩ | e
  · exact ⟨w, hw, e⟩
  · rw [e] at hd; cases hd

theorem multiple_of_least {x : ℝ} (h : Ieee.IsFloat Ieee.double x) : ∃ m : Int, x = m * (2 : ℝ) ^ (-1074 : Int) := by
  obtain ⟨m, e, _, he, rfl⟩ := h
  have he : -1074 ≤ e := by simpa [Ieee.double] using he
  obtain ⟨k, hk⟩ := Int.eq_ofNat_of_zero_le (show 0 ≤ e + 1074 by omega)
  refine ⟨m * 2 ^ k, ?_⟩
  rw [show e = (k : Int) + -1074 by omega, zpow_add₀ (by norm_num), zpow_natCast]
  push_cast
  ring

/-- The difference of different doubles is not zero (gradual underflow). -/
theorem sub_ne_zero {t : Tanh} {m x : ℝ} (h : m ≠ x) (hm : Valid (.fin m)) (hx : Valid (.fin x)) : (ops t).sub (.fin m) (.fin x) ≠ .fin 0 := by
  obtain ⟨a, ha⟩ := multiple_of_least hm.1
  obtain ⟨b, hb⟩ := multiple_of_least hx.1
  have hu : (0 : ℝ) < (2 : ℝ) ^ (-1074 : Int) := zpow_pos (by norm_num) _
  have hf := isFloat_scaled (n := 1) (e := -1074) (by norm_num) (by norm_num)
  rw [Nat.cast_one, one_mul] at hf
  have hd : m + -x = (a - b : Int) * (2 : ℝ) ^ (-1074 : Int) := by rw [ha, hb]; push_cast; ring
  have hab : a ≠ b := fun e => h (by rw [ha, hb, e])
  generalize hw : (2 : ℝ) ^ (-1074 : Int) = w at hu hf hd
  have key : ∀ y : ℝ, w ≤ |y| → Ieee.rnd Ieee.double y ≠ 0 := by
    intro y hy h0
    rcases abs_cases y with ⟨e, _⟩ | ⟨e, _⟩
    · rw [e] at hy
      have := r64_mono hy
      rw [h0, Ieee.rnd_of_isFloat hf] at this
      linarith
    · rw [e] at hy
      have := r64_mono hy
      rw [Ieee.rnd_neg, h0, neg_zero, Ieee.rnd_of_isFloat hf] at this
      linarith
  have hy : w ≤ |m + -x| := by
    rw [hd, abs_mul, abs_of_pos hu]
    have : (1 : ℝ) ≤ |((a - b : Int) : ℝ)| := by
      have h1 : 1 ≤ |a - b| := Int.one_le_abs (_root_.sub_ne_zero.mpr hab)
      exact_mod_cast h1
    nlinarith
  have h1 := key _ hy
  intro h2
  have h2 : ofReal (m + -x) = .fin 0 := h2
  unfold ofReal at h2
  split at h2
  · injection h2 with h2; exact h1 h2
  · cases h2

/-- When a coordinate of a normalised point is NaN. -/
theorem norm_nan_iff {t : Tanh} {seq : List (List Dbl)} {j : Nat} (h : Moderate t seq j) (hv : ∀ row ∈ seq, Valid (coordOf (ops t) row j))
    (hs : seq.length < 2 ^ 53) {row : List Dbl} (hr : row ∈ seq) :
    normCoord (ops t) seq row j = .nan ↔ colStd (ops t) seq j = .fin 0 ∧ colMean (ops t) seq j = coordOf (ops t) row j := by
  have hne : seq ≠ [] := List.ne_nil_of_mem hr
  obtain ⟨d, hd, hstd⟩ := std_finite h hne hs
  obtain ⟨x, hx, hxb⟩ := h row hr
  obtain ⟨m, hm, hmb⟩ := mean_within h hne hs
  have hvx := hv row hr
  have hvm : Valid (colMean (ops t) seq j) := div_valid _ _
  rw [hx] at hvx
  rw [hm] at hvm
  have hdiff := diff_within (t := t) ⟨m, rfl, hmb⟩ ⟨x, rfl, hxb⟩
  obtain ⟨z, hz, _⟩ := hdiff
  unfold normCoord
  rw [hstd, hx, hm, hz]
  have h1 : ∀ a : Dbl, tanh t a = .nan ↔ a = .nan := by
    intro a
    cases a <;> simp [tanh]
  show tanh t (Dbl.div (.fin z) (.fin d)) = _ ↔ _
  rw [h1]
  by_cases hd0 : d = 0
  · subst hd0
    have h2 : Dbl.div (.fin z) (.fin 0) = if z = 0 then .nan else .inf (decide (z < 0)) := if_pos rfl
    rw [h2]
    by_cases hmx : m = x
    · subst hmx
      rw [sub_self_fin] at hz
      injection hz with hz
      rw [if_pos hz.symm]
      simp
    · have h3 := Dbl.sub_ne_zero (t := t) hmx hvm hvx
      rw [hz] at h3
      rw [if_neg (fun e => h3 (by rw [e]))]
      simp [hmx]
  · have h2 : Dbl.div (.fin z) (.fin d) = ofReal (z / d) := if_neg hd0
    rw [h2]
    simp [hd0, ofReal_ne_nan]

end Dbl

/-- **C130 is false** of constant columns. If in each of two sequences of the same length some coordinate is the same integer in all points
(in absolute value at most 2^53 divided by the length), the outputs are the same, whatever the other coordinates: all distances
are NaN. -/
theorem C130_refuted (t : Tanh) (g : CRand) (hg : ∀ s, (g.rand s).1 ≤ 2147483647) (now : Nat) (s : g.S) (dim N bits : Int) (deg : Rat) (ud : Bool)
    (c : KernelCanvas (ops t)) (hc : (KernelCanvas.createG Flt.single (ops t) g now s (.fin (-1)) (.fin 1) dim N bits deg ud).1 = .ok c)
    (hN : N ≤ 2 ^ 24) (hsize : N * bits ≤ 2147483647) (hd : ud = false ∨ dim = 1)
    (seq seq' : List (List Dbl)) (hseq : AllDim c seq) (hseq' : AllDim c seq') (hl : seq.length = seq'.length) (hlen : seq.length ≤ 2 ^ 53)
    (j j' : Nat) (v v' : Int) (hj : (j : Int) < dim) (hj' : (j' : Int) < dim) (hv : seq.length * |v| ≤ 2 ^ 53) (hv' : seq.length * |v'| ≤ 2 ^ 53)
    (hcol : ∀ row ∈ seq, coordOf (ops t) row j = .fin v) (hcol' : ∀ row ∈ seq', coordOf (ops t) row j' = .fin v') :
    NoDistance t c seq ∧ NoDistance t c seq' ∧ ∀ sorter : Nat → Sorter (Nat × Dbl), c.transform sorter seq = c.transform sorter seq' := by
  obtain ⟨rand, hu, h⟩ := createG_unit t g hg Flt.single now s dim N bits deg ud
  rw [h] at hc
  obtain ⟨g1, _, _, _, _, _, hdim, _⟩ := create_inv hc
  have R := ready (laws t) hc hu (single_kernels g1 hN) hsize hd
  have key : ∀ (q : List (List Dbl)) (i : Nat) (w : Int), q.length ≤ 2 ^ 53 → (i : Int) < dim → q.length * |w| ≤ 2 ^ 53 →
      (∀ row ∈ q, coordOf (ops t) row i = .fin w) → NoDistance t c q := by
    intro q i w h1 h2 h3 h4 row hr
    exact nan_point R (by omega) (const_norm (constant_int h4 h3 (List.ne_nil_of_mem hr) h1) hr)
  have h1 := key seq j v hlen hj hv hcol
  have h2 := key seq' j' v' (hl ▸ hlen) hj' (hl ▸ hv') hcol'
  exact ⟨h1, h2, noDistance_congr R hseq hseq' hl h1 h2⟩

/-- **C130 is false** of single points: all sequences of one point have the same output. -/
theorem C130_refuted_single (t : Tanh) (g : CRand) (hg : ∀ s, (g.rand s).1 ≤ 2147483647) (now : Nat) (s : g.S) (dim N bits : Int) (deg : Rat) (ud : Bool)
    (c : KernelCanvas (ops t)) (hc : (KernelCanvas.createG Flt.single (ops t) g now s (.fin (-1)) (.fin 1) dim N bits deg ud).1 = .ok c)
    (hN : N ≤ 2 ^ 24) (hsize : N * bits ≤ 2147483647) (hd : ud = false ∨ dim = 1)
    (row row' : List Dbl) (hl : (row.length : Int) = dim) (hl' : (row'.length : Int) = dim) (hv : ∀ x ∈ row, Valid x) (hv' : ∀ x ∈ row', Valid x)
    (sorter : Nat → Sorter (Nat × Dbl)) : c.transform sorter [row] = c.transform sorter [row'] := by
  obtain ⟨rand, hu, h⟩ := createG_unit t g hg Flt.single now s dim N bits deg ud
  rw [h] at hc
  obtain ⟨g1, g2, _, _, _, _, hdim, _⟩ := create_inv hc
  have R := ready (laws t) hc hu (single_kernels g1 hN) hsize hd
  have key : ∀ r : List Dbl, (r.length : Int) = dim → (∀ x ∈ r, Valid x) → NoDistance t c [r] := by
    intro r h1 h2 q hq
    rw [List.mem_singleton.mp hq]
    refine nan_point R (j := 0) (by omega) (single_norm (h2 _ ?_))
    cases r with
    | nil => simp at h1; omega
    | cons x xs => exact List.mem_cons_self
  refine noDistance_congr (seq := [row]) (seq' := [row']) R ?_ ?_ rfl (key row hl hv) (key row' hl' hv') sorter
  · intro r hr; rw [List.mem_singleton.mp hr, hdim, hl]
  · intro r hr; rw [List.mem_singleton.mp hr, hdim, hl']

/-- **C130**, what holds: for sequences of finite doubles within 2^480 (fewer than 2^53 of them), a point has numbers as distances to
all kernels unless, in some coordinate, the computed deviation is 0 and the point equals the mean; then all of its distances are NaN.
Missing: the constant columns (`C130_refuted`, `C130_refuted_single`). -/
theorem C130_numbers_partial (t : Tanh) (g : CRand) (hg : ∀ s, (g.rand s).1 ≤ 2147483647) (now : Nat) (s : g.S) (dim N bits : Int) (deg : Rat) (ud : Bool)
    (c : KernelCanvas (ops t)) (hc : (KernelCanvas.createG Flt.single (ops t) g now s (.fin (-1)) (.fin 1) dim N bits deg ud).1 = .ok c)
    (hN : N ≤ 2 ^ 24) (hsize : N * bits ≤ 2147483647) (hd : ud = false ∨ dim = 1)
    (seq : List (List Dbl)) (hseq : AllDim c seq) (hlen : seq.length < 2 ^ 53)
    (hx : ∀ row ∈ seq, ∀ a ∈ row, ∃ x : ℝ, a = .fin x ∧ |x| ≤ 2 ^ 480 ∧ Ieee.IsFloat Ieee.double x)
    (row : List Dbl) (hr : row ∈ seq) (K : List Dbl) (hK : K ∈ c.kernels) :
    (euclid (ops t) (normPoint (ops t) c seq row) K = .nan ↔
      ∃ j : Nat, (j : Int) < dim ∧ colStd (ops t) seq j = .fin 0 ∧ colMean (ops t) seq j = coordOf (ops t) row j) ∧
    (euclid (ops t) (normPoint (ops t) c seq row) K ≠ .nan → Pos (euclid (ops t) (normPoint (ops t) c seq row) K)) := by
  obtain ⟨rand, hu, h⟩ := createG_unit t g hg Flt.single now s dim N bits deg ud
  rw [h] at hc
  obtain ⟨g1, g2, _, _, _, _, hdim, _⟩ := create_inv hc
  have R := ready (laws t) hc hu (single_kernels g1 hN) hsize hd
  have hco : ∀ r ∈ seq, ∀ j : Nat, (j : Int) < dim → coordOf (ops t) r j ∈ r := by
    intro r hr j hj
    have := hseq r hr
    unfold coordOf
    rw [List.getD_eq_getElem?_getD, List.getElem?_eq_getElem (by omega)]
    exact List.getElem_mem _
  have hmod : ∀ j : Nat, (j : Int) < dim → Moderate t seq j := by
    intro j hj r hr
    obtain ⟨x, h1, h2, _⟩ := hx r hr _ (hco r hr j hj)
    exact ⟨x, h1, by exact_mod_cast h2⟩
  have hval : ∀ j : Nat, (j : Int) < dim → ∀ r ∈ seq, Valid (coordOf (ops t) r j) := by
    intro j hj r hr
    obtain ⟨x, h1, h2, h3⟩ := hx r hr _ (hco r hr j hj)
    rw [h1]
    exact ⟨h3, lt_of_le_of_lt h2 (pow_lt_pow_right₀ (by norm_num) (by norm_num))⟩
  have hmem : ∀ x, x ∈ normPoint (ops t) c seq row ↔ ∃ j : Nat, (j : Int) < dim ∧ normCoord (ops t) seq row j = x := by
    intro x
    unfold normPoint
    rcases R.mode with ⟨hd, _⟩ | ⟨hd, h1, _, _⟩
    · rw [if_neg (by simp [hd]), List.mem_map]
      constructor
      · rintro ⟨j, hj, e⟩; exact ⟨j, by have := List.mem_range.mp hj; omega, e⟩
      · rintro ⟨j, hj, e⟩; exact ⟨j, by rw [List.mem_range]; omega, e⟩
    · rw [if_pos hd, List.mem_replicate]
      constructor
      · rintro ⟨_, e⟩; exact ⟨0, by omega, e.symm⟩
      · rintro ⟨j, hj, e⟩
        obtain rfl : j = 0 := by omega
        exact ⟨by decide, e.symm⟩
  have hcase : (.nan ∈ normPoint (ops t) c seq row ∧ euclid (ops t) (normPoint (ops t) c seq row) K = .nan) ∨
      (.nan ∉ normPoint (ops t) c seq row ∧ Pos (euclid (ops t) (normPoint (ops t) c seq row) K)) := by
    by_cases hn : .nan ∈ normPoint (ops t) c seq row
    · exact .inl ⟨hn, euclid_nan (normPoint_length R seq row K hK).symm hn⟩
    · right
      refine ⟨hn, (laws t).sqrt (fold_sq (laws t) _ ?_ _ (laws t).zero)⟩
      intro e he
      obtain ⟨h1, h2⟩ := List.of_mem_zip (a := e.1) (b := e.2) he
      refine ⟨(normPoint_vals (laws t) c seq row _ h1).resolve_right (fun h0 => hn ?_), R.kn K hK _ h2⟩
      have h0 : e.1 = .nan := h0
      rw [← h0]; exact h1
  have hiff : .nan ∈ normPoint (ops t) c seq row ↔
      ∃ j : Nat, (j : Int) < dim ∧ colStd (ops t) seq j = .fin 0 ∧ colMean (ops t) seq j = coordOf (ops t) row j := by
    rw [hmem]
    constructor
    · rintro ⟨j, hj, e⟩; exact ⟨j, hj, (norm_nan_iff (hmod j hj) (hval j hj) hlen hr).mp e⟩
    · rintro ⟨j, hj, e⟩; exact ⟨j, hj, (norm_nan_iff (hmod j hj) (hval j hj) hlen hr).mpr e⟩
  rcases hcase with ⟨h1, h2⟩ | ⟨h1, h2⟩
  · exact ⟨⟨fun _ => hiff.mp h1, fun _ => h2⟩, fun h => absurd h2 h⟩
  · refine ⟨⟨fun e => ?_, fun e => absurd (hiff.mpr e) h1⟩, fun _ => h2⟩
    rcases h2 with ⟨x, _, hx⟩ | hx <;> rw [hx] at e <;> cases e

/-! ## The hypotheses can be met -/

/-- The correctly rounded hyperbolic tangent. -/
noncomputable def exTanh : Tanh where
  f x := Ieee.rnd Ieee.double (Real.tanh x)
  isFloat _ := Ieee.rnd_of_isFloat (Ieee.rnd_isFloat _ _)
  bound x := ⟨r64_ge_neg_one (Real.neg_one_lt_tanh x).le, r64_le_one (Real.tanh_lt_one x).le⟩

/-- The generator of the C standard's example, with 31 bits. -/
def exRand : CRand := stdRand Nat (fun s => s) (fun s => ((s * 1103515245 + 12345) % 2147483648, (s * 1103515245 + 12345) % 2147483648))

theorem exRand_max (s : exRand.S) : (exRand.rand s).1 ≤ 2147483647 := by
  have h : ∀ n : Nat, n % 2147483648 ≤ 2147483647 := fun n => by omega
  exact h _

/-- Canvases exist. -/
theorem ex_canvas (dim N bits : Int) (deg : Rat) (h1 : 1 ≤ N) (hN : N ≤ 2 ^ 24) (h2 : 1 ≤ dim) (h3 : 1 ≤ bits) (h4 : 0 ≤ deg) (h5 : deg ≤ 1) :
    ∃ c, (KernelCanvas.createG Flt.single (ops exTanh) exRand 1700000000 (0 : Nat) (.fin (-1)) (.fin 1) dim N bits deg false).1 = .ok c ∧ c.dim = dim := by
  obtain ⟨rand, _, h⟩ := createG_unit exTanh exRand exRand_max Flt.single 1700000000 (0 : Nat) dim N bits deg false
  obtain ⟨c, hc, _, hd, _⟩ := C82_create_single_partial (ops exTanh) rand dim N bits deg false h1 (by omega) h2 h3 h4 h5 (by simp)
  exact ⟨c, h.trans hc, hd⟩

/-- C129: a canvas of 256 kernels and a sequence with an infinite coordinate and a NaN. -/
example : ∃ c, (KernelCanvas.createG Flt.single (ops exTanh) exRand 1700000000 (0 : Nat) (.fin (-1)) (.fin 1) 2 256 3 (7/100) false).1 = .ok c ∧
    AllDim c [[.fin 1, .inf true], [.nan, .fin 3]] := by
  obtain ⟨c, hc, hd⟩ := ex_canvas 2 256 3 (7/100) (by norm_num) (by norm_num) (by norm_num) (by norm_num) (by norm_num) (by norm_num)
  refine ⟨c, hc, fun r hr => ?_⟩
  rw [hd]
  fin_cases hr <;> rfl

/-- C130: two sequences that differ in the first coordinate, with the second constant. -/
example : ∃ c, (KernelCanvas.createG Flt.single (ops exTanh) exRand 1700000000 (0 : Nat) (.fin (-1)) (.fin 1) 2 256 3 (7/100) false).1 = .ok c ∧
    ∀ sorter : Nat → Sorter (Nat × Dbl), c.transform sorter [[.fin 1, .fin 0], [.fin 2, .fin 0]] = c.transform sorter [[.fin 7, .fin 5], [.fin (-3), .fin 5]] := by
  obtain ⟨c, hc, hd⟩ := ex_canvas 2 256 3 (7/100) (by norm_num) (by norm_num) (by norm_num) (by norm_num) (by norm_num) (by norm_num)
  refine ⟨c, hc, (C130_refuted exTanh exRand exRand_max 1700000000 (0 : Nat) 2 256 3 (7/100) false c hc (by norm_num) (by norm_num) (.inl rfl)
    [[.fin 1, .fin 0], [.fin 2, .fin 0]] [[.fin 7, .fin 5], [.fin (-3), .fin 5]] ?_ ?_ rfl (by norm_num) 1 1 0 5 (by norm_num) (by norm_num) (by norm_num) (by norm_num) ?_ ?_).2.2⟩
  · intro r hr; rw [hd]; fin_cases hr <;> rfl
  · intro r hr; rw [hd]; fin_cases hr <;> rfl
  · intro r hr
    fin_cases hr <;> simp [coordOf]
  · intro r hr
    fin_cases hr <;> simp [coordOf]

end Wis
