import Verif.Lemmas.KernelCanvas
import Mathlib.Tactic.Linarith
import Mathlib.Tactic.NormNum
import Mathlib.Tactic.FinCases
import Mathlib.Data.List.Perm.Subperm
/-!
# KernelCanvas: C68 – C71, C81

`double` arithmetic is any structure satisfying `FLaws`, which IEEE arithmetic does; `std::sort` is any valid sort, which
may be a different one in every round.
-/

namespace Wis
open Spec

namespace KernelCanvas

theorem vget_zero {α : Type} {v : List α} {x : α} (h : v[0]? = some x) : vget v 0 = .ok x := vget_nat (i := 0) h

/-- What a successful construction gives. -/
theorem create_inv {f : Flt} {o : FOps} {rand : Nat → Nat → o.F} {dim N bits : Int} {deg : Rat} {ud : Bool} {c : KernelCanvas o}
    (h : create f o rand dim N bits deg ud = .ok c) :
    1 ≤ N ∧ 1 ≤ dim ∧ 1 ≤ bits ∧ 0 ≤ deg ∧ deg ≤ 1 ∧ c.bitsByKernel = bits ∧ c.dim = dim ∧ c.useDirection = ud ∧
      c.toActivate = roundHalfUp (f.rnd (deg * f.rnd N)) ∧ (c.kernels.length : Int) = N ∧ (ud = true → c.amplifyDim = 3 * dim - 2) ∧
      ∀ K ∈ c.kernels, (K.length : Int) = (if ud then 9 * dim - 6 else dim) ∧ ∀ x ∈ K, ∃ i d, x = rand i d := by
  unfold create at h
  obtain ⟨_, h1, h⟩ := bind_eq_ok h
  obtain ⟨T, h0, h⟩ := bind_eq_ok h
  obtain ⟨A, h2, h⟩ := bind_eq_ok h
  obtain ⟨D, h3, h⟩ := bind_eq_ok h
  obtain rfl : T = roundHalfUp (f.rnd (deg * f.rnd N)) := by
    unfold i32 at h0
    split at h0
    · cases h0; rfl
    · cases h0
  unfold checkInputs at h1
  split at h1; · cases h1
  split at h1; · cases h1
  split at h1; · cases h1
  split at h1; · cases h1
  rename_i g1 g2 g3 g4
  rw [not_or, not_lt, not_lt] at g4
  have hA : (ud = true → A = 3 * dim - 2) ∧ D = if ud then 9 * dim - 6 else dim := by
    cases ud with
    | false =>
      rw [if_neg (by simp)] at h2 h3
      cases h2; cases h3
      exact ⟨by simp, rfl⟩
    | true =>
      rw [if_pos rfl] at h2 h3
      obtain ⟨a, h4, h2⟩ := bind_eq_ok h2
      unfold i32 at h2 h3 h4
      split at h2
      · split at h3
        · split at h4
          · cases h2; cases h3; cases h4
            exact ⟨fun _ => by omega, by simp; omega⟩
          · cases h4
        · cases h3
      · cases h2
  cases h
  refine ⟨by omega, by omega, by omega, g4.2, g4.1, rfl, rfl, rfl, rfl, by simp; omega, hA.1, ?_⟩
  intro K hK
  obtain ⟨i, _, rfl⟩ := List.mem_map.mp hK
  refine ⟨?_, ?_⟩
  · rw [List.length_map, List.length_range, hA.2]
    split <;> omega
  · intro x hx
    obtain ⟨d, _, rfl⟩ := List.mem_map.mp hx
    exact ⟨i, d, rfl⟩

theorem roundHalfUp_le {q : Rat} {n : Int} (h : q ≤ n) : roundHalfUp q ≤ n := by
  unfold roundHalfUp
  by_contra hc
  have h1 : n + 1 ≤ (q + 1 / 2).floor := by omega
  rw [Rat.le_floor_iff] at h1
  have h2 : ((n + 1 : Int) : Rat) = (n : Rat) + 1 := by push_cast; rfl
  rw [h2] at h1
  linarith

theorem ready {f : Flt} {o : FOps} (L : FLaws o) {rand : Nat → Nat → o.F} {dim N bits : Int} {deg : Rat} {ud : Bool} {c : KernelCanvas o}
    (hc : create f o rand dim N bits deg ud = .ok c) (hk : ∀ i d, L.Kn (rand i d)) (hN : f.rnd N = N) (hsize : N * bits ≤ 2147483647)
    (hd : ud = false ∨ dim = 1) : Ready L c := by
  obtain ⟨g1, g2, g3, g4, g5, hb, hdim, hud, ha, hl, hamp, hK⟩ := create_inv hc
  have hact : c.toActivate ≤ N := by
    rw [ha]
    apply roundHalfUp_le
    calc f.rnd (deg * f.rnd N) ≤ f.rnd N := by
          apply f.mono
          rw [hN]
          have h1 : (0 : Rat) ≤ (N : Rat) := by exact_mod_cast (by omega : (0 : Int) ≤ N)
          nlinarith
      _ = N := hN
  refine ⟨by omega, by omega, by omega, ?_, by omega, ?_, ?_⟩
  · have : ((c.kernels.length * c.bitsByKernel.toNat : Nat) : Int) = N * bits := by
      push_cast
      rw [hl, hb, Int.toNat_of_nonneg (by omega)]
    omega
  · intro K hK' x hx
    obtain ⟨i, d, rfl⟩ := (hK K hK').2 x hx
    exact hk i d
  · cases ud with
    | false => exact Or.inl ⟨hud, fun K h => by have := (hK K h).1; simp at this; omega⟩
    | true =>
      have hd1 : dim = 1 := by simpa using hd
      have := hamp rfl
      exact Or.inr ⟨hud, by omega, by omega, fun K h => by have := (hK K h).1; simp at this; omega⟩

end KernelCanvas

open KernelCanvas

/-- **C69**. For every canvas without `useDirection` (or of dimension 1), every sequence of points of its dimension and
every valid sort: each point activates `round(activationDegree * numberOfKernels)` kernels nearest to its normalised form,
and the output shows exactly the kernels activated by some point. -/
theorem C69_nearest (f : Flt) (o : FOps) (L : FLaws o) (rand : Nat → Nat → o.F) (dim N bits : Int) (deg : Rat) (ud : Bool) (c : KernelCanvas o)
    (hc : KernelCanvas.create f o rand dim N bits deg ud = .ok c) (hk : ∀ i d, L.Kn (rand i d)) (hN : f.rnd N = N)
    (hsize : N * bits ≤ 2147483647) (hd : ud = false ∨ dim = 1) (sorter : Nat → Sorter (Nat × o.F)) (seq : List (List o.F)) (hseq : AllDim c seq) :
    ∃ S : Nat → List Nat, (∀ i row, seq[i]? = some row → Nearest o c.kernels (normPoint o c seq row) (roundHalfUp (f.rnd (deg * N))).toNat (S i)) ∧
      ∃ out, c.transform sorter seq = .ok out ∧ Pattern bits.toNat (fun k => (List.range seq.length).any (fun i => (S i).contains k)) N.toNat out := by
  obtain ⟨_, _, _, _, _, hb, _, _, ha, hl, _, _⟩ := create_inv hc
  obtain ⟨S, hS, h⟩ := transform_ok (ready L hc hk hN hsize hd) hseq sorter
  rw [ha, hN] at hS
  refine ⟨S, hS, _, h, ?_⟩
  have : N.toNat = c.kernels.length := by omega
  rw [this, ← hb]
  exact canvas_pattern _

theorem filter_range_le {N a n : Nat} {act : Nat → Bool} {S : Nat → List Nat} (h : ∀ q, act q = (List.range n).any (fun i => (S i).contains q))
    (hS : ∀ i, i < n → (S i).length = a) : ((List.range N).filter act).length ≤ a * n := by
  have h1 : ((List.range n).flatMap S).length = a * n := by
    clear h
    induction n with
    | zero => simp
    | succ n ih =>
      rw [List.range_succ, List.flatMap_append, List.length_append, ih (fun i hi => hS i (by omega)), Nat.mul_succ]
      simp [hS n (by omega)]
  rw [← h1]
  apply List.Subperm.length_le
  apply List.subperm_of_subset (List.nodup_range.filter _)
  intro q hq
  rw [List.mem_filter, h, List.any_eq_true] at hq
  obtain ⟨i, hi, hc⟩ := hq.2
  exact List.mem_flatMap.mpr ⟨i, hi, by simpa using hc⟩

/-- **C68**. The output has `numberOfKernels * bitsByKernel` entries, all 0 or 1, the bits of a kernel being equal; if the
sequence is not empty at least `a = round(activationDegree * numberOfKernels)` kernels are active, and at most `a` times the
length of the sequence. -/
theorem C68_shape (f : Flt) (o : FOps) (L : FLaws o) (rand : Nat → Nat → o.F) (dim N bits : Int) (deg : Rat) (ud : Bool) (c : KernelCanvas o)
    (hc : KernelCanvas.create f o rand dim N bits deg ud = .ok c) (hk : ∀ i d, L.Kn (rand i d)) (hN : f.rnd N = N)
    (hsize : N * bits ≤ 2147483647) (hd : ud = false ∨ dim = 1) (sorter : Nat → Sorter (Nat × o.F)) (seq : List (List o.F)) (hseq : AllDim c seq) :
    ∃ out, c.transform sorter seq = .ok out ∧ (out.length : Int) = N * bits ∧ (∀ x ∈ out, x = 0 ∨ x = 1) ∧
      ∃ act : Nat → Bool, (∀ k b : Nat, k < N → b < bits → out[k * bits.toNat + b]? = some (if act k then 1 else 0)) ∧
        (seq ≠ [] → (roundHalfUp (f.rnd (deg * N))).toNat ≤ ((List.range N.toNat).filter act).length) ∧
        ((List.range N.toNat).filter act).length ≤ (roundHalfUp (f.rnd (deg * N))).toNat * seq.length := by
  obtain ⟨g1, g2, g3, _, _, hb, _, _, ha, hl, _, _⟩ := create_inv hc
  obtain ⟨S, hS, h⟩ := transform_ok (ready L hc hk hN hsize hd) hseq sorter
  rw [ha, hN] at hS
  have hn : N.toNat = c.kernels.length := by omega
  have hpat := canvas_pattern (bits := c.bitsByKernel.toNat) (N := c.kernels.length) (fun q => (List.range seq.length).any (fun j => (S j).contains q))
  refine ⟨_, h, ?_, ?_, fun q => (List.range seq.length).any (fun j => (S j).contains q), ?_, ?_, ?_⟩
  · rw [hpat.1, hb]; push_cast; rw [hl, Int.toNat_of_nonneg (by omega)]
  · intro x hx
    obtain ⟨p, _, rfl⟩ := List.mem_map.mp hx
    split
    · exact Or.inr rfl
    · exact Or.inl rfl
  · intro k b h1 h2
    rw [← hb]
    exact hpat.2 k b (by omega) (by omega)
  · intro hne
    cases seq with
    | nil => exact absurd rfl hne
    | cons r rs =>
      have h0 := hS 0 r rfl
      rw [← h0.number]
      apply List.Subperm.length_le
      apply List.subperm_of_subset h0.nodup
      intro q hq
      rw [List.mem_filter, List.mem_range, List.any_eq_true]
      exact ⟨by have := h0.exist q hq; omega, 0, by simp, by simpa using hq⟩
  · exact filter_range_le (fun _ => rfl) (fun i hi => (hS i _ (List.getElem?_eq_getElem hi)).number)

/-- The empty sequence gives an empty canvas. -/
theorem C68_empty (f : Flt) (o : FOps) (rand : Nat → Nat → o.F) (dim N bits : Int) (deg : Rat) (ud : Bool) (c : KernelCanvas o)
    (hc : KernelCanvas.create f o rand dim N bits deg ud = .ok c) (sorter : Nat → Sorter (Nat × o.F)) :
    c.transform sorter [] = .ok (List.replicate (N * bits).toNat 0) := by
  obtain ⟨g1, g2, g3, _, _, hb, _, _, ha, hl, _, _⟩ := create_inv hc
  unfold KernelCanvas.transform
  rw [multDimMean_ok o [] (by simp)]
  simp only [bind, Except.bind, multDimStd_ok o [] (by simp), vget_zero (List.getElem?_eq_getElem (by omega : 0 < c.kernels.length)),
    List.length_nil, transformLoop, Except.ok.injEq]
  rw [show (N * bits).toNat = c.kernels.length * c.bitsByKernel.toNat by
    rw [hb, ← hl, ← Int.toNat_of_nonneg (by omega : 0 ≤ bits)]; norm_cast]

/-- **C70 is false**. With `useDirection` in dimension 2 or more, `transform` of *every* non-empty sequence of points of the
right dimension has undefined behaviour, whatever the arithmetic and the sort. -/
theorem C70_refuted (f : Flt) (o : FOps) (rand : Nat → Nat → o.F) (dim N bits : Int) (deg : Rat) (c : KernelCanvas o)
    (hc : KernelCanvas.create f o rand dim N bits deg true = .ok c) (hdim : 2 ≤ dim)
    (sorter : Nat → Sorter (Nat × o.F)) (seq : List (List o.F)) (hseq : AllDim c seq) (hne : seq ≠ []) :
    ∃ u, c.transform sorter seq = .error (.ub u) := by
  obtain ⟨g1, g2, g3, _, _, hb, hdim', hud, _, hl, hamp, hK⟩ := create_inv hc
  have hamp := hamp rfl
  have hr' : ∀ r ∈ seq, c.dim ≤ r.length := fun r h => by have := hseq r h; omega
  have h0 := List.getElem?_eq_getElem (by omega : 0 < c.kernels.length)
  have hk0 := (hK _ (List.mem_of_getElem? h0)).1
  rw [if_pos rfl] at hk0
  unfold KernelCanvas.transform
  rw [multDimMean_ok o seq hr']
  simp only [bind, Except.bind, multDimStd_ok o seq hr', vget_zero h0]
  apply (transformLoop_noThrow c sorter hseq _ _ _ _ _ _ _).ub
  intro out h
  have hp0 : (List.replicate (c.kernels[0]'(by omega)).length o.zero).length = (c.kernels[0]'(by omega)).length := List.length_replicate
  generalize List.replicate (c.kernels[0]'(by omega)).length o.zero = p0 at h hp0
  have s1 : switchIndexes [2, 1, 0] = .ok (0, [0, 2, 2]) := rfl
  have s2 : switchIndexes [0, 2, 2] = .ok (2, [2, 0, 0]) := rfl
  have hv : vget ([0, 2, 2] : List Int) 1 = .ok 2 := rfl
  match seq, hne with
  | [r], _ =>
    simp only [List.length_cons, List.length_nil, Nat.zero_add, transformLoop] at h
    obtain ⟨_, _, h⟩ := bind_eq_ok h
    obtain ⟨_, _, h⟩ := bind_eq_ok h
    obtain ⟨⟨p1, pi1⟩, h1, h⟩ := bind_eq_ok h
    obtain ⟨l1, ix, i1, hs, hi1, hbd⟩ := calculatePoint_direction hud h1
    rw [s1] at hs
    simp only at hs hi1
    cases hs
    rw [hv] at hi1
    cases hi1
    have := (hbd (by omega)).2 rfl
    rw [hamp] at this
    omega
  | r :: r2 :: rs, _ =>
    simp only [List.length_cons, transformLoop] at h
    obtain ⟨_, _, h⟩ := bind_eq_ok h
    obtain ⟨_, _, h⟩ := bind_eq_ok h
    obtain ⟨⟨p1, pi1⟩, h1, h⟩ := bind_eq_ok h
    obtain ⟨l1, ix, i1, hs, _, _⟩ := calculatePoint_direction hud h1
    rw [s1] at hs
    simp only at hs l1
    cases hs
    obtain ⟨_, _, h⟩ := bind_eq_ok h
    obtain ⟨_, _, h⟩ := bind_eq_ok h
    obtain ⟨_, _, h⟩ := bind_eq_ok h
    obtain ⟨_, _, h⟩ := bind_eq_ok h
    obtain ⟨⟨p2, pi2⟩, h2, h⟩ := bind_eq_ok h
    obtain ⟨l2, ix, i1, hs, _, hbd⟩ := calculatePoint_direction hud h2
    simp only at hs l2 hbd
    rw [s2] at hs
    cases hs
    have := (hbd (by omega)).1
    rw [hamp] at this
    omega

/-- **C70**, what holds: with `useDirection` in dimension 1 `transform` succeeds on every sequence of points of dimension 1.
Missing: dimension 2 and above, where it is false (`C70_refuted`). -/
theorem C70_dim_one_partial (f : Flt) (o : FOps) (L : FLaws o) (rand : Nat → Nat → o.F) (N bits : Int) (deg : Rat) (c : KernelCanvas o)
    (hc : KernelCanvas.create f o rand 1 N bits deg true = .ok c) (hk : ∀ i d, L.Kn (rand i d)) (hN : f.rnd N = N)
    (hsize : N * bits ≤ 2147483647) (sorter : Nat → Sorter (Nat × o.F)) (seq : List (List o.F)) (hseq : ∀ r ∈ seq, r.length = 1) :
    ∃ out, c.transform sorter seq = .ok out := by
  have hd := (create_inv hc).2.2.2.2.2.2.1
  obtain ⟨S, _, h⟩ := transform_ok (ready L hc hk hN hsize (Or.inr rfl)) (seq := seq) (fun r hr => by rw [hd, hseq r hr]; rfl) sorter
  exact ⟨_, h⟩

/-- **C71 is false** for short points: if some point has too few coordinates, `transform` reads outside it before
checking. -/
theorem C71_refuted (f : Flt) (o : FOps) (rand : Nat → Nat → o.F) (dim N bits : Int) (deg : Rat) (ud : Bool) (c : KernelCanvas o)
    (hc : KernelCanvas.create f o rand dim N bits deg ud = .ok c) (sorter : Nat → Sorter (Nat × o.F)) (seq : List (List o.F))
    (hseq : ∃ r ∈ seq, (r.length : Int) < dim) : c.transform sorter seq = .error (.ub .outOfBounds) := by
  have hd := (create_inv hc).2.2.2.2.2.2.1
  unfold KernelCanvas.transform
  rw [multDimMean_short o seq (by rw [hd]; exact hseq)]
  rfl

/-- **C71**, what holds: if no point is too short and some point is too long, `transform` throws. Missing: short points, where
it is false (`C71_refuted`), and `useDirection` above dimension 1, where only the first point decides (`C71_direction`). -/
theorem C71_too_long_partial (f : Flt) (o : FOps) (L : FLaws o) (rand : Nat → Nat → o.F) (dim N bits : Int) (deg : Rat) (ud : Bool) (c : KernelCanvas o)
    (hc : KernelCanvas.create f o rand dim N bits deg ud = .ok c) (hk : ∀ i d, L.Kn (rand i d)) (hN : f.rnd N = N)
    (hsize : N * bits ≤ 2147483647) (hd : ud = false ∨ dim = 1) (sorter : Nat → Sorter (Nat × o.F)) (seq : List (List o.F))
    (hseq : ∀ r ∈ seq, dim ≤ r.length) (hlong : ∃ r ∈ seq, dim < r.length) : c.transform sorter seq = .error (.throw .dimension) := by
  have hdim := (create_inv hc).2.2.2.2.2.2.1
  have R := ready L hc hk hN hsize hd
  obtain ⟨k0, h0, hB⟩ := start_buffers R
  have hr' : ∀ r ∈ seq, c.dim ≤ r.length := fun r h => by have := hseq r h; omega
  obtain ⟨r, hr, hl⟩ := hlong
  obtain ⟨j, hj, rfl⟩ := List.getElem_of_mem hr
  have h := transformLoop_long R hr' sorter seq.length 0 (fun _ => false) _ _ (by omega) hB
    ⟨j, _, by omega, List.getElem?_eq_getElem hj, by omega⟩
  unfold KernelCanvas.transform
  rw [multDimMean_ok o seq hr']
  simp only [bind, Except.bind, multDimStd_ok o seq hr', h0, canvas_empty, h]

/-- If the first point is too long (and none too short) `transform` throws, also with `useDirection`. -/
theorem C71_direction (f : Flt) (o : FOps) (rand : Nat → Nat → o.F) (dim N bits : Int) (deg : Rat) (ud : Bool) (c : KernelCanvas o)
    (hc : KernelCanvas.create f o rand dim N bits deg ud = .ok c) (sorter : Nat → Sorter (Nat × o.F)) (r : List o.F) (rs : List (List o.F))
    (hr : dim < r.length) (hseq : ∀ r ∈ rs, dim ≤ r.length) : c.transform sorter (r :: rs) = .error (.throw .dimension) := by
  obtain ⟨g1, _, _, _, _, _, hdim, _, _, hl, _, _⟩ := create_inv hc
  have hr' : ∀ q ∈ r :: rs, c.dim ≤ q.length := by
    intro q hq
    rcases List.mem_cons.mp hq with rfl | hq
    · omega
    · have := hseq q hq; omega
  unfold KernelCanvas.transform
  rw [multDimMean_ok o (r :: rs) hr']
  simp only [bind, Except.bind, multDimStd_ok o (r :: rs) hr', vget_zero (List.getElem?_eq_getElem (by omega : 0 < c.kernels.length)),
    List.length_cons, transformLoop, checkDimension]
  rw [vget_nat (v := r :: rs) (i := 0) (x := r) rfl]
  simp only
  rw [if_pos (by omega)]

/-! ## C82: construction -/

theorem roundHalfUp_nonneg {q : Rat} (h : 0 ≤ q) : 0 ≤ roundHalfUp q := by
  unfold roundHalfUp
  rw [Rat.le_floor_iff]
  push_cast
  linarith

theorem degree_le {f : Flt} {N : Int} {deg : Rat} (h1 : 1 ≤ N) (h4 : 0 ≤ deg) (h5 : deg ≤ 1) :
    0 ≤ f.rnd (deg * f.rnd N) ∧ f.rnd (deg * f.rnd N) ≤ f.rnd (f.rnd N) := by
  have h0 : (0 : Rat) ≤ f.rnd N := by
    rw [← f.zero]
    exact f.mono (by exact_mod_cast (by omega : (0 : Int) ≤ N))
  refine ⟨?_, f.mono (by nlinarith)⟩
  conv_lhs => rw [← f.zero]
  exact f.mono (mul_nonneg h4 h0)

/-- **C82**, what holds: construction succeeds when the numbers are positive, the degree is between 0 and 1, the number of kernels
rounded to a `float` is an `int` and, with `useDirection`, so is the amplified dimension; there are then `numberOfKernels` kernels. Missing:
2147483584 kernels and more (`C82_refuted`), dimensions above 238609294 with `useDirection` (`C82_refuted_direction`). -/
theorem C82_create_partial (f : Flt) (o : FOps) (rand : Nat → Nat → o.F) (dim N bits : Int) (deg : Rat) (ud : Bool)
    (h1 : 1 ≤ N) (h2 : 1 ≤ dim) (h3 : 1 ≤ bits) (h4 : 0 ≤ deg) (h5 : deg ≤ 1) (h7 : f.rnd (f.rnd N) ≤ (2147483647 : Int))
    (h6 : ud = true → 9 * dim - 6 ≤ 2147483647) :
    ∃ c, KernelCanvas.create f o rand dim N bits deg ud = .ok c ∧ (c.kernels.length : Int) = N ∧ c.dim = dim ∧ c.bitsByKernel = bits := by
  have hfit : i32 (roundHalfUp (f.rnd (deg * f.rnd N))) = .ok (roundHalfUp (f.rnd (deg * f.rnd N))) := by
    obtain ⟨g1, g2⟩ := degree_le (f := f) h1 h4 h5
    have := roundHalfUp_nonneg g1
    have := roundHalfUp_le (g2.trans h7)
    exact i32_ok (by omega)
  have : ∃ c, KernelCanvas.create f o rand dim N bits deg ud = .ok c := by
    unfold KernelCanvas.create checkInputs
    rw [if_neg (by omega), if_neg (by omega), if_neg (by omega), if_neg (by rw [not_or, not_lt, not_lt]; exact ⟨h5, h4⟩)]
    rw [hfit]
    cases ud with
    | false => exact ⟨_, rfl⟩
    | true =>
      have := h6 rfl
      simp only [if_true, bind, Except.bind, i32_ok (x := 2 * (dim - 1)) (by omega), i32_ok (x := dim + 2 * (dim - 1)) (by omega),
        i32_ok (x := (dim + 2 * (dim - 1)) * 3) (by omega)]
      exact ⟨_, rfl⟩
  obtain ⟨c, hc⟩ := this
  obtain ⟨_, _, _, _, _, hb, hd, _, _, hl, _, _⟩ := create_inv hc
  exact ⟨c, hc, hl, hd, hb⟩

/-- **C82 is false** of numbers of kernels that a `float` rounds beyond the `int`s: with activation degree 1 the number of kernels to activate
is the result of an invalid conversion. -/
theorem C82_refuted (f : Flt) (o : FOps) (rand : Nat → Nat → o.F) (dim N bits : Int) (ud : Bool)
    (h1 : 1 ≤ N) (h2 : 1 ≤ dim) (h3 : 1 ≤ bits) (h7 : (2147483648 : Int) ≤ f.rnd (f.rnd N)) :
    KernelCanvas.create f o rand dim N bits 1 ud = .error (.ub .overflow) := by
  unfold KernelCanvas.create checkInputs
  rw [if_neg (by omega), if_neg (by omega), if_neg (by omega), if_neg (by norm_num), one_mul]
  have : 2147483648 ≤ roundHalfUp (f.rnd (f.rnd N)) := by
    unfold roundHalfUp
    rw [Rat.le_floor_iff]
    push_cast at h7 ⊢
    linarith
  unfold i32
  rw [if_neg (by unfold InI32; omega)]
  rfl

/-- **C82 is false** of large dimensions with `useDirection`. -/
theorem C82_refuted_direction (f : Flt) (o : FOps) (rand : Nat → Nat → o.F) (dim N bits : Int) (deg : Rat)
    (h1 : 1 ≤ N) (h2 : 238609295 ≤ dim) (h3 : 1 ≤ bits) (h4 : 0 ≤ deg) (h5 : deg ≤ 1) :
    KernelCanvas.create f o rand dim N bits deg true = .error (.ub .overflow) := by
  unfold KernelCanvas.create checkInputs
  rw [if_neg (by omega), if_neg (by omega), if_neg (by omega), if_neg (by rw [not_or, not_lt, not_lt]; exact ⟨h5, h4⟩)]
  simp only [Except.bind_ok, if_true]
  unfold i32
  split
  · simp only [Except.bind_ok]
    split
    · simp only [Except.bind_ok]
      split
      · simp only [Except.bind_ok]
        rw [if_neg (by unfold InI32; omega)]
        rfl
      · rfl
    · rfl
  · rfl

/-- **C82**. All other numbers are rejected with an exception. -/
theorem C82_reject (f : Flt) (o : FOps) (rand : Nat → Nat → o.F) (dim N bits : Int) (deg : Rat) (ud : Bool)
    (h : N < 1 ∨ dim < 1 ∨ bits < 1 ∨ deg < 0 ∨ 1 < deg) : ∃ t, KernelCanvas.create f o rand dim N bits deg ud = .error (.throw t) := by
  unfold KernelCanvas.create checkInputs
  split; · exact ⟨_, rfl⟩
  split; · exact ⟨_, rfl⟩
  split; · exact ⟨_, rfl⟩
  split; · exact ⟨_, rfl⟩
  rename_i g1 g2 g3 g4
  rw [not_or] at g4
  rcases h with h | h | h | h | h
  · exact absurd h g1
  · exact absurd h g2
  · exact absurd h g3
  · exact absurd h g4.2
  · exact absurd h g4.1

/-! ## C81: activation degree 1 -/

/-- **C81**, what holds: with `activationDegree = 1` every kernel is active after every non-empty sequence, provided the number of
kernels is a `float`. Missing: other numbers of kernels (`C81_refuted`). -/
theorem C81_all_active_partial (f : Flt) (o : FOps) (L : FLaws o) (rand : Nat → Nat → o.F) (dim N bits : Int) (ud : Bool) (c : KernelCanvas o)
    (hc : KernelCanvas.create f o rand dim N bits 1 ud = .ok c) (hk : ∀ i d, L.Kn (rand i d)) (hN : f.rnd N = N)
    (hsize : N * bits ≤ 2147483647) (hd : ud = false ∨ dim = 1) (sorter : Nat → Sorter (Nat × o.F)) (seq : List (List o.F)) (hseq : AllDim c seq)
    (hne : seq ≠ []) : c.transform sorter seq = .ok (List.replicate (N * bits).toNat 1) := by
  obtain ⟨g1, g2, g3, _, _, hb, _, _, ha, hl, _, _⟩ := create_inv hc
  obtain ⟨S, hS, h⟩ := transform_ok (ready L hc hk hN hsize hd) hseq sorter
  rw [ha, hN, one_mul, hN] at hS
  have hround : roundHalfUp (N : Rat) = N := by
    apply le_antisymm (roundHalfUp_le le_rfl)
    unfold roundHalfUp
    rw [Rat.le_floor_iff]
    norm_num
  rw [hround] at hS
  rw [h, Except.ok.injEq, show (N * bits).toNat = c.kernels.length * c.bitsByKernel.toNat by
    rw [hb, ← hl, ← Int.toNat_of_nonneg (by omega : 0 ≤ bits)]; norm_cast]
  cases seq with
  | nil => exact absurd rfl hne
  | cons r rs =>
    have h0 := hS 0 r rfl
    have hall : ∀ q, q < c.kernels.length → q ∈ S 0 := by
      intro q hq
      have hp : (List.range c.kernels.length).Perm (S 0) := by
        apply List.Perm.symm
        apply (List.subperm_of_subset h0.nodup (fun k hk => List.mem_range.mpr (h0.exist k hk))).perm_of_length_le
        rw [h0.number, List.length_range]
        omega
      exact hp.mem_iff.mp (List.mem_range.mpr hq)
    unfold canvas
    apply List.ext_getElem
    · simp
    · intro p h1 h2
      simp only [List.getElem_map, List.getElem_range, List.getElem_replicate]
      rw [if_pos]
      rw [List.any_eq_true]
      refine ⟨0, by simp, ?_⟩
      rw [List.contains_iff_mem]
      apply hall
      rw [List.length_replicate] at h2
      exact Nat.div_lt_of_lt_mul (by rw [Nat.mul_comm]; exact h2)

theorem activateLoop_len {o : FOps} {bits : Int} {ds : List (Nat × o.F)} : ∀ {k i out out'}, activateLoop o bits ds k i out = .ok out' →
    k = 0 ∨ i + k ≤ ds.length := by
  intro k
  induction k with
  | zero => intro i out out' _; exact Or.inl rfl
  | succ k ih =>
    intro i out out' h
    simp only [activateLoop] at h
    obtain ⟨_, h1, h⟩ := bind_eq_ok h
    obtain ⟨_, _, h⟩ := bind_eq_ok h
    obtain ⟨_, _, h⟩ := bind_eq_ok h
    obtain ⟨_, _, h⟩ := bind_eq_ok h
    have := vget_bound h1
    rcases ih h with h | h <;> right <;> omega

theorem distancesLoop_len {o : FOps} {c : KernelCanvas o} {p : List o.F} {ix : List Int} {ks : List (List o.F)} : ∀ {i ds},
    c.distancesLoop p ix ks i = .ok ds → ds.length = ks.length := by
  induction ks with
  | nil => intro i ds h; cases h; rfl
  | cons K ks ih =>
    intro i ds h
    simp only [distancesLoop] at h
    obtain ⟨_, _, h⟩ := bind_eq_ok h
    obtain ⟨_, h1, h⟩ := bind_eq_ok h
    cases h
    simp [ih h1]

/-- **C81 is false** when `float` rounds the number of kernels up (the first such number is 16777219): every non-empty sequence
makes `transform` read outside its distances. -/
theorem C81_refuted (f : Flt) (o : FOps) (rand : Nat → Nat → o.F) (dim N bits : Int) (ud : Bool) (c : KernelCanvas o)
    (hc : KernelCanvas.create f o rand dim N bits 1 ud = .ok c) (hN : (N : Rat) + 1 ≤ f.rnd (f.rnd N))
    (sorter : Nat → Sorter (Nat × o.F)) (seq : List (List o.F)) (hseq : AllDim c seq) (hne : seq ≠ []) :
    ∃ u, c.transform sorter seq = .error (.ub u) := by
  obtain ⟨g1, g2, g3, _, _, hb, hdim', hud, ha, hl, hamp, hK⟩ := create_inv hc
  have hr' : ∀ r ∈ seq, c.dim ≤ r.length := fun r h => by have := hseq r h; omega
  unfold KernelCanvas.transform
  rw [multDimMean_ok o seq hr']
  simp only [bind, Except.bind, multDimStd_ok o seq hr', vget_zero (List.getElem?_eq_getElem (by omega : 0 < c.kernels.length))]
  apply (transformLoop_noThrow c sorter hseq _ _ _ _ _ _ _).ub
  intro out h
  have hbig : N + 1 ≤ c.toActivate := by
    rw [ha, one_mul]
    unfold roundHalfUp
    rw [Rat.le_floor_iff]
    push_cast
    linarith
  cases seq with
  | nil => exact absurd rfl hne
  | cons r rs =>
    simp only [List.length_cons, transformLoop] at h
    obtain ⟨_, _, h⟩ := bind_eq_ok h
    obtain ⟨_, _, h⟩ := bind_eq_ok h
    obtain ⟨⟨p1, pi1⟩, _, h⟩ := bind_eq_ok h
    obtain ⟨ds, h1, h⟩ := bind_eq_ok h
    obtain ⟨o1, h2, h⟩ := bind_eq_ok h
    have l1 := distancesLoop_len h1
    unfold activateKernels at h2
    split at h2
    · have l2 := activateLoop_len h2
      rw [((sorter 0).perm _ _).length_eq] at l2
      omega
    · cases h2

/-! ## The hypotheses can be met -/

/-- Exact fractions with an extra "not a number"; `tanh` and `sqrt` are the identity. -/
def exFOps : FOps where
  F := Option Rat
  zero := some 0
  add a b := a.bind (fun x => b.map (fun y => x + y))
  sub a b := a.bind (fun x => b.map (fun y => x - y))
  mul a b := a.bind (fun x => b.map (fun y => x * y))
  div a b := a.bind (fun x => b.bind (fun y => if y = 0 then none else some (x / y)))
  tanh a := a
  sqrt a := a
  ofNat n := some n
  lt a b := match a, b with
    | some x, some y => decide (x < y)
    | _, _ => false

/-- They satisfy the laws. -/
def exFLaws : FLaws exFOps where
  Pt x := ∃ q : Rat, x = some q
  Kn x := ∃ q : Rat, x = some q
  Num x := ∃ q : Rat, x = some q
  Sq x := ∃ q : Rat, x = some q ∧ 0 ≤ q
  NaN x := x = (none : Option Rat)
  tanh x := by
    cases x with
    | none => exact Or.inr rfl
    | some q => exact Or.inl ⟨q, rfl⟩
  sub := by rintro _ _ ⟨p, rfl⟩ ⟨k, rfl⟩; exact ⟨p - k, rfl⟩
  sub_nan := by rintro _ k rfl; rfl
  sq := by rintro _ ⟨q, rfl⟩; exact ⟨q * q, rfl, mul_self_nonneg q⟩
  sq_nan := by rintro _ rfl; rfl
  zero := ⟨0, rfl, le_rfl⟩
  add := by rintro _ _ ⟨p, rfl, hp⟩ ⟨q, rfl, hq⟩; exact ⟨p + q, rfl, by linarith⟩
  nan_add := by rintro _ b rfl; rfl
  add_nan := by rintro a _ rfl; cases a <;> rfl
  sqrt := fun h => h
  sqrt_nan := fun h => h
  irrefl := by rintro _ ⟨q, rfl, _⟩; simp [exFOps]
  trans := by
    rintro _ _ _ ⟨a, rfl, _⟩ ⟨b, rfl, _⟩ ⟨c, rfl, _⟩ h1 h2
    simp only [exFOps, decide_eq_true_eq] at *
    linarith
  incomp := by
    rintro _ _ _ ⟨a, rfl, _⟩ ⟨b, rfl, _⟩ ⟨c, rfl, _⟩ h1 h2
    simp only [exFOps, decide_eq_false_iff_not, not_lt] at *
    linarith
  nan_lt := by rintro _ b rfl; rfl
  lt_nan := by rintro a _ rfl; cases a <;> rfl

/-- A valid sort exists: merge sort. -/
def exSorter (α : Type) : Sorter α where
  sort lt l := if strictWeakOn lt l then (l.attach.mergeSort (fun a b => !lt b.1 a.1)).map (·.1) else l
  perm lt l := by
    split
    · exact ((List.mergeSort_perm _ _).map _).trans (by simp)
    · exact List.Perm.refl l
  sorted lt l h := by
    rw [if_pos h, List.pairwise_map]
    unfold strictWeakOn at h
    rw [Bool.and_eq_true, List.all_eq_true, List.all_eq_true] at h
    have key : ∀ a b c : {x // x ∈ l}, (!lt a.1 a.1) = true ∧
        ((!(lt a.1 b.1 && lt b.1 c.1) || lt a.1 c.1) && (!(!lt a.1 b.1 && !lt b.1 a.1 && !lt b.1 c.1 && !lt c.1 b.1) || (!lt a.1 c.1 && !lt c.1 a.1))) = true := by
      intro a b c
      have h2 := h.2 a.1 a.2
      rw [List.all_eq_true] at h2
      have h3 := h2 b.1 b.2
      rw [List.all_eq_true] at h3
      exact ⟨h.1 a.1 a.2, h3 c.1 c.2⟩
    have hs := List.pairwise_mergeSort (le := fun a b : {x // x ∈ l} => !lt b.1 a.1) (fun a b c h1 h2 => by
      have k3 := (key c a b).2
      have k1 := (key a b c).2
      have k2 := (key c b a).2
      have k4 := (key b c a).2
      have k5 := (key b a c).2
      have k6 := (key a c b).2
      clear key h
      cases h4 : lt b.1 a.1 <;> cases h5 : lt c.1 b.1 <;> cases h6 : lt c.1 a.1 <;> cases h7 : lt a.1 b.1 <;> cases h8 : lt b.1 c.1 <;>
        simp_all) (fun a b => by
      have k1 := key a b a
      revert k1
      generalize lt a.1 b.1 = x1
      generalize lt b.1 a.1 = x2
      generalize lt a.1 a.1 = x3
      generalize lt b.1 b.1 = x4
      revert x1 x2 x3 x4
      decide) l.attach
    exact hs.imp (fun h => by simpa using h)

/-- A canvas of 3 kernels of dimension 2, and a sequence of two points. -/
example : ∃ c, KernelCanvas.create Flt.exact exFOps (fun i d => some ((i : Rat) / 2 - d)) 2 3 2 (1/3) false = .ok c ∧
    (∀ i d, exFLaws.Kn (some ((i : Rat) / 2 - d) : Option Rat)) ∧ Flt.exact.rnd (3 : Int) = (3 : Int) ∧ AllDim c ([[some 1, some 2], [some 3, none]] : List (List (Option Rat))) := by
  obtain ⟨c, hc, _, hd, _⟩ := C82_create_partial Flt.exact exFOps (fun i d => some ((i : Rat) / 2 - d)) 2 3 2 (1/3) false (by omega) (by omega) (by omega)
    (by norm_num) (by norm_num) (by norm_num [Flt.exact]) (by simp)
  refine ⟨c, hc, fun i d => ⟨_, rfl⟩, rfl, ?_⟩
  intro r hr
  rw [hd]
  fin_cases hr <;> rfl

/-- With `useDirection` in dimension 2. -/
example : ∃ c, KernelCanvas.create Flt.exact exFOps (fun i d => some ((i : Rat) / 2 - d)) 2 3 2 (1/3) true = .ok c ∧
    AllDim c ([[some 1, some 2]] : List (List (Option Rat))) := by
  obtain ⟨c, hc, _, hd, _⟩ := C82_create_partial Flt.exact exFOps (fun i d => some ((i : Rat) / 2 - d)) 2 3 2 (1/3) true (by omega) (by omega) (by omega)
    (by norm_num) (by norm_num) (by norm_num [Flt.exact]) (by omega)
  refine ⟨c, hc, ?_⟩
  intro r hr
  rw [hd]
  fin_cases hr; rfl

/-- `float` numbers near 2^24 as far as C81 needs them: 16777219 is rounded up to 16777220. -/
def exFlt24 : Flt where
  rnd x := if 16777219 ≤ x ∧ x ≤ 16777220 then 16777220 else x
  mono := by
    intro x y h
    split <;> split
    · exact le_rfl
    · rename_i h1 h2
      rw [not_and_or, not_le, not_le] at h2
      rcases h2 with h2 | h2 <;> linarith
    · rename_i h1 h2
      rw [not_and_or, not_le, not_le] at h1
      rcases h1 with h1 | h1 <;> linarith
    · exact h
  zero := by norm_num
  one := by norm_num

example : ((16777219 : Int) : Rat) + 1 ≤ exFlt24.rnd (exFlt24.rnd (16777219 : Int)) := by
  simp only [exFlt24]
  norm_num

end Wis
