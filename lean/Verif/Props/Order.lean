import Verif.Props.Double
/-!
# C184: the order of the points of a sequence

Plan: without ties, the nearest kernels of a point are determined, so that a permutation of the sequence activates the same kernels if the
means and deviations are the same; they are when addition may be reordered. In IEEE arithmetic the first two points may be
exchanged; a sum that overflows in one order and not in the other gives the counterexample.
-/

namespace Wis
open Spec KernelCanvas

namespace KernelCanvas

/-- No two kernels are at the same distance of a point. -/
def Distinct {o : FOps} (c : KernelCanvas o) (p : List o.F) : Prop :=
  ∀ (k k' : Nat) (K K' : List o.F), c.kernels[k]? = some K → c.kernels[k']? = some K' → k ≠ k' →
    o.lt (euclid o p K) (euclid o p K') = true ∨ o.lt (euclid o p K') (euclid o p K) = true

theorem nearest_unique {o : FOps} {c : KernelCanvas o} {p : List o.F} {a : Nat} {S S' : List Nat} (hd : Distinct c p)
    (h : Nearest o c.kernels p a S) (h' : Nearest o c.kernels p a S') : ∀ k ∈ S, k ∈ S' := by
  intro k hk
  by_contra hk'
  have hex : ∃ k' ∈ S', k' ∉ S := by
    by_contra hno
    have hsub : S' ⊆ S := fun x hx => by
      by_contra hx'
      exact hno ⟨x, hx, hx'⟩
    have h1 := List.subperm_of_subset h'.nodup hsub
    have h2 : S.Perm S' := (h1.perm_of_length_le (by rw [h.number, h'.number])).symm
    exact hk' (h2.mem_iff.mp hk)
  obtain ⟨k', hk1, hk2⟩ := hex
  have e := List.getElem?_eq_getElem (h.exist k hk)
  have e' := List.getElem?_eq_getElem (h'.exist k' hk1)
  have h1 := h.nearest k hk k' hk2 _ _ e e'
  have h2 := h'.nearest k' hk1 k hk' _ _ e' e
  rcases hd k k' _ _ e e' (fun hh => hk2 (hh ▸ hk)) with h3 | h3
  · rw [h3] at h2; cases h2
  · rw [h3] at h1; cases h1

theorem normPoint_congr {o : FOps} {L : FLaws o} {c : KernelCanvas o} (R : Ready L c) {seq seq' : List (List o.F)}
    (hm : ∀ j : Nat, (j : Int) < c.dim → colMean o seq j = colMean o seq' j) (hs : ∀ j : Nat, (j : Int) < c.dim → colStd o seq j = colStd o seq' j)
    (row : List o.F) : normPoint o c seq row = normPoint o c seq' row := by
  have h : ∀ j : Nat, (j : Int) < c.dim → normCoord o seq row j = normCoord o seq' row j := fun j hj => by
    unfold normCoord
    rw [hm j hj, hs j hj]
  unfold normPoint
  split
  · rw [h 0 (by have := R.dim; omega)]
  · apply List.map_congr_left
    intro j hj
    exact h j (by have := List.mem_range.mp hj; omega)

theorem order_ok {o : FOps} {L : FLaws o} {c : KernelCanvas o} (R : Ready L c) {seq seq' : List (List o.F)} (hseq : AllDim c seq)
    (hp : seq.Perm seq') (hm : ∀ j : Nat, (j : Int) < c.dim → colMean o seq j = colMean o seq' j)
    (hs : ∀ j : Nat, (j : Int) < c.dim → colStd o seq j = colStd o seq' j) (hd : ∀ row ∈ seq, Distinct c (normPoint o c seq row))
    (sorter sorter' : Nat → Sorter (Nat × o.F)) : c.transform sorter seq = c.transform sorter' seq' := by
  have hseq' : AllDim c seq' := fun r hr => hseq r (hp.mem_iff.mpr hr)
  obtain ⟨S, hS, h⟩ := transform_ok R hseq sorter
  obtain ⟨S', hS', h'⟩ := transform_ok R hseq' sorter'
  rw [h, h']
  congr 2
  funext q
  rw [Bool.eq_iff_iff, List.any_eq_true, List.any_eq_true]
  constructor
  · rintro ⟨j, hj, hq⟩
    rw [List.mem_range] at hj
    have e := List.getElem?_eq_getElem hj
    obtain ⟨j', hj', he⟩ := List.getElem_of_mem (hp.mem_iff.mp (List.getElem_mem hj))
    have e' := List.getElem?_eq_getElem hj'
    have n := hS j _ e
    have n' := hS' j' _ e'
    rw [he, ← normPoint_congr R hm hs] at n'
    refine ⟨j', List.mem_range.mpr hj', ?_⟩
    simp only [List.contains_iff_mem] at hq ⊢
    exact nearest_unique (hd _ (List.getElem_mem hj)) n n' q hq
  · rintro ⟨j', hj', hq⟩
    rw [List.mem_range] at hj'
    have e' := List.getElem?_eq_getElem hj'
    obtain ⟨j, hj, he⟩ := List.getElem_of_mem (hp.mem_iff.mpr (List.getElem_mem hj'))
    have e := List.getElem?_eq_getElem hj
    have n := hS j _ e
    have n' := hS' j' _ e'
    rw [← he, ← normPoint_congr R hm hs] at n'
    refine ⟨j, List.mem_range.mpr hj, ?_⟩
    simp only [List.contains_iff_mem] at hq ⊢
    exact nearest_unique (hd _ (List.getElem_mem hj)) n' n q hq

theorem fold_perm {o : FOps} (hadd : ∀ s a b : o.F, o.add (o.add s a) b = o.add (o.add s b) a) (f : List o.F → o.F) {l l' : List (List o.F)}
    (h : l.Perm l') (z : o.F) : l.foldl (fun s r => o.add s (f r)) z = l'.foldl (fun s r => o.add s (f r)) z := by
  induction h generalizing z with
  | nil => rfl
  | cons x _ ih => exact ih _
  | swap x y l => simp only [List.foldl_cons, hadd z (f y) (f x)]
  | trans _ _ ih1 ih2 => exact (ih1 z).trans (ih2 z)

/-- The kernels a sort picks for a normalised point. -/
def picked {o : FOps} (sorter : Sorter (Nat × o.F)) (a : Nat) (ds : List (Nat × o.F)) : List Nat :=
  ((sorter.sort (fun x y : Nat × o.F => o.lt x.2 y.2) ds).take a).map (·.1)

/-- The distances of a normalised point to the kernels. -/
def dists {o : FOps} (c : KernelCanvas o) (p : List o.F) : List (Nat × o.F) := (c.kernels.zipIdx 0).map (fun e => (e.2, euclid o p e.1))

theorem round_picked {o : FOps} {L : FLaws o} {c : KernelCanvas o} (R : Ready L c) {seq : List (List o.F)} {row : List o.F}
    {point : List o.F} {pi : List Int} (hd : ∀ K ∈ c.kernels, c.distance point pi K = .ok (euclid o (normPoint o c seq row) K))
    (sorter : Sorter (Nat × o.F)) (act : Nat → Bool) :
    c.distancesLoop point pi c.kernels 0 = .ok (dists c (normPoint o c seq row)) ∧
      c.activateKernels sorter (canvas c.bitsByKernel.toNat c.kernels.length act) (dists c (normPoint o c seq row)) =
        .ok (canvas c.bitsByKernel.toNat c.kernels.length (fun q => act q || (picked sorter c.toActivate.toNat (dists c (normPoint o c seq row))).contains q)) := by
  have h1 := distancesLoop_ok c (p := normPoint o c seq row) c.kernels 0 hd
  refine ⟨h1, ?_⟩
  have hsw : strictWeakOn (fun a b : Nat × o.F => o.lt a.2 b.2) (dists c (normPoint o c seq row)) = true := by
    apply strictWeak_of_cases L
    rcases euclid_cases L (normPoint o c seq row) (normPoint_vals L c seq row) c.kernels
      (fun K hK => ⟨normPoint_length R seq row K hK, R.kn K hK⟩) with h | h
    · left
      intro e he
      obtain ⟨K, hK, h2⟩ := mem_dists.mp he
      rw [h2]
      exact h K (List.mem_of_getElem? hK)
    · right
      intro e he
      obtain ⟨K, hK, h2⟩ := mem_dists.mp he
      rw [h2]
      exact h K (List.mem_of_getElem? hK)
  have hperm := sorter.perm (fun a b : Nat × o.F => o.lt a.2 b.2) (dists c (normPoint o c seq row))
  unfold activateKernels
  rw [if_pos hsw]
  have hb := R.bits
  have he : ((c.bitsByKernel.toNat : Nat) : Int) = c.bitsByKernel := by omega
  have := activateLoop_ok (o := o) (bits := c.bitsByKernel.toNat) (N := c.kernels.length) (by omega) R.size
    (sorter.sort (fun a b : Nat × o.F => o.lt a.2 b.2) (dists c (normPoint o c seq row))) (fun e he => by
      obtain ⟨K, hK, _⟩ := mem_dists.mp (hperm.mem_iff.mp he)
      exact (List.getElem?_eq_some_iff.mp hK).1) c.toActivate.toNat 0 act (by
        rw [hperm.length_eq]
        simpa [dists] using R.act)
  rw [he, List.drop_zero] at this
  exact this

theorem loop_picked {o : FOps} {L : FLaws o} {c : KernelCanvas o} (R : Ready L c) {seq : List (List o.F)} (hr : AllDim c seq)
    (sorter : Nat → Sorter (Nat × o.F)) : ∀ (rest : List (List o.F)) (i : Nat) (act : Nat → Bool) (point : List o.F) (pi : List Int),
    seq.drop i = rest → Buffers c point pi →
      c.transformLoop sorter seq ((List.range c.dim.toNat).map (colMean o seq)) ((List.range c.dim.toNat).map (colStd o seq)) rest.length i
        (canvas c.bitsByKernel.toNat c.kernels.length act) point pi =
        .ok (canvas c.bitsByKernel.toNat c.kernels.length (fun q => act q ||
          (rest.zipIdx i).any (fun e => (picked (sorter e.2) c.toActivate.toNat (dists c (normPoint o c seq e.1))).contains q))) := by
  intro rest
  induction rest with
  | nil =>
    intro i act point pi hn hB
    simp [transformLoop]
  | cons row rest ih =>
    intro i act point pi hn hB
    have hi : seq[i]? = some row := by
      have := congrArg (fun l => l[0]?) hn
      simpa using this
    have hrow := hr row (List.mem_of_getElem? hi)
    have hn' : seq.drop (i + 1) = rest := by
      have := congrArg List.tail hn
      simpa [List.tail_drop] using this
    obtain ⟨point', pi', h1, hB', h2⟩ := step_ok R (fun r h => by have := hr r h; omega) hi hB
    obtain ⟨h3, h4⟩ := round_picked R h2 (sorter i) act
    simp only [List.length_cons, transformLoop, vget_nat hi, checkDimension, hrow, h1, h3, h4, bind, Except.bind]
    simp only [ne_eq, not_true_eq_false, if_false]
    rw [ih (i + 1) _ point' pi' hn' hB']
    congr 2
    funext q
    rw [List.zipIdx_cons, List.any_cons, Bool.or_assoc]

/-- The output, for a given sort. -/
theorem transform_picked {o : FOps} {L : FLaws o} {c : KernelCanvas o} (R : Ready L c) {seq : List (List o.F)} (hr : AllDim c seq)
    (sorter : Nat → Sorter (Nat × o.F)) :
    c.transform sorter seq = .ok (canvas c.bitsByKernel.toNat c.kernels.length (fun q =>
      (seq.zipIdx 0).any (fun e => (picked (sorter e.2) c.toActivate.toNat (dists c (normPoint o c seq e.1))).contains q))) := by
  obtain ⟨k0, h0, hB⟩ := start_buffers R
  have hr' : ∀ r ∈ seq, c.dim ≤ r.length := fun r h => by have := hr r h; omega
  have h := loop_picked R hr sorter seq 0 (fun _ => false) _ _ (by simp) hB
  unfold transform
  rw [multDimMean_ok o seq hr']
  simp only [bind, Except.bind, multDimStd_ok o seq hr', h0, canvas_empty, h]
  congr 2

end KernelCanvas

open KernelCanvas

/-- **C184**, what holds of every arithmetic: for a canvas without `useDirection` (or of dimension 1) and two sequences with the same points in
different order, if the computed means and deviations of the coordinates are the same and no point has two kernels at the same
distance, then `transform` gives the same output, whatever the sort. Missing: the condition on the means and deviations, without which it is
false in IEEE arithmetic (`C184_refuted`), and ties, which the sort decides. -/
theorem C184_order_partial (f : Flt) (o : FOps) (L : FLaws o) (rand : Nat → Nat → o.F) (dim N bits : Int) (deg : Rat) (ud : Bool) (c : KernelCanvas o)
    (hc : KernelCanvas.create f o rand dim N bits deg ud = .ok c) (hk : ∀ i d, L.Kn (rand i d)) (hN : f.rnd N = N)
    (hsize : N * bits ≤ 2147483647) (hd : ud = false ∨ dim = 1) (seq seq' : List (List o.F)) (hseq : AllDim c seq) (hp : seq.Perm seq')
    (hm : ∀ j : Nat, (j : Int) < dim → colMean o seq j = colMean o seq' j) (hs : ∀ j : Nat, (j : Int) < dim → colStd o seq j = colStd o seq' j)
    (hties : ∀ row ∈ seq, Distinct c (normPoint o c seq row)) (sorter sorter' : Nat → Sorter (Nat × o.F)) :
    c.transform sorter seq = c.transform sorter' seq' := by
  have hdim := (create_inv hc).2.2.2.2.2.2.1
  exact order_ok (ready L hc hk hN hsize hd) hseq hp (fun j hj => hm j (hdim ▸ hj)) (fun j hj => hs j (hdim ▸ hj)) hties sorter sorter'

/-- **C184** in an arithmetic in which sums may be reordered, such as exact arithmetic: the order of the points does not matter. -/
theorem C184_exact (f : Flt) (o : FOps) (L : FLaws o) (hadd : ∀ s a b : o.F, o.add (o.add s a) b = o.add (o.add s b) a)
    (rand : Nat → Nat → o.F) (dim N bits : Int) (deg : Rat) (ud : Bool) (c : KernelCanvas o)
    (hc : KernelCanvas.create f o rand dim N bits deg ud = .ok c) (hk : ∀ i d, L.Kn (rand i d)) (hN : f.rnd N = N)
    (hsize : N * bits ≤ 2147483647) (hd : ud = false ∨ dim = 1) (seq seq' : List (List o.F)) (hseq : AllDim c seq) (hp : seq.Perm seq')
    (hties : ∀ row ∈ seq, Distinct c (normPoint o c seq row)) (sorter sorter' : Nat → Sorter (Nat × o.F)) :
    c.transform sorter seq = c.transform sorter' seq' := by
  have hm : ∀ j, colMean o seq j = colMean o seq' j := fun j => by
    unfold colMean
    rw [fold_perm hadd _ hp, hp.length_eq]
  refine C184_order_partial f o L rand dim N bits deg ud c hc hk hN hsize hd seq seq' hseq hp (fun j _ => hm j) (fun j _ => ?_) hties sorter sorter'
  unfold colStd
  rw [hm j, hp.length_eq, fold_perm hadd _ hp]

/-! ## IEEE arithmetic -/

namespace Dbl

theorem add_comm (a b : Dbl) : add a b = add b a := by
  rcases a with x | s | _ <;> rcases b with y | u | _ <;> try rfl
  · show ofReal _ = ofReal _
    rw [_root_.add_comm]
  · show (if s = u then Dbl.inf s else .nan) = (if u = s then Dbl.inf u else .nan)
    by_cases h : s = u
    · rw [if_pos h, if_pos h.symm, h]
    · rw [if_neg h, if_neg (Ne.symm h)]

theorem zero_add {a : Dbl} (h : Valid a) : add (.fin 0) a = a := by
  rcases a with x | s | _
  · show ofReal _ = _
    rw [_root_.zero_add]
    exact ofReal_exact h.1 h.2
  · rfl
  · rfl

end Dbl

open Dbl

/-- **C184** in IEEE arithmetic: the first two points of a sequence may be exchanged. -/
theorem C184_first_two (t : Tanh) (g : CRand) (hg : ∀ s, (g.rand s).1 ≤ 2147483647) (now : Nat) (s : g.S) (dim N bits : Int) (deg : Rat) (ud : Bool)
    (c : KernelCanvas (ops t)) (hc : (KernelCanvas.createG Flt.single (ops t) g now s (.fin (-1)) (.fin 1) dim N bits deg ud).1 = .ok c)
    (hN : N ≤ 2 ^ 24) (hsize : N * bits ≤ 2147483647) (hd : ud = false ∨ dim = 1)
    (p q : List Dbl) (rest : List (List Dbl)) (hp : ∀ x ∈ p, Valid x) (hq : ∀ x ∈ q, Valid x) (hseq : AllDim c (p :: q :: rest))
    (hties : ∀ row ∈ p :: q :: rest, Distinct c (normPoint (ops t) c (p :: q :: rest) row)) (sorter sorter' : Nat → Sorter (Nat × Dbl)) :
    c.transform sorter (p :: q :: rest) = c.transform sorter' (q :: p :: rest) := by
  obtain ⟨rand, hu, h⟩ := createG_unit t g hg Flt.single now s dim N bits deg ud
  rw [h] at hc
  obtain ⟨g1, _, _, _, _, _, hdim, _⟩ := create_inv hc
  have hval : ∀ (r : List Dbl) (j : Nat), (∀ x ∈ r, Valid x) → Valid (coordOf (ops t) r j) := fun r j hr => by
    unfold coordOf
    rw [List.getD_eq_getElem?_getD]
    cases e : r[j]? with
    | none => exact zero_valid
    | some x => exact hr x (List.mem_of_getElem? e)
  have hm : ∀ j, colMean (ops t) (p :: q :: rest) j = colMean (ops t) (q :: p :: rest) j := fun j => by
    unfold colMean
    simp only [List.foldl_cons, List.length_cons]
    rw [Dbl.zero_add (hval p j hp), Dbl.zero_add (hval q j hq), Dbl.add_comm]
  refine C184_order_partial Flt.single (ops t) (laws t) rand dim N bits deg ud c hc hu (single_kernels g1 hN) hsize hd _ _ hseq
    (List.Perm.swap q p rest) (fun j _ => hm j) (fun j _ => ?_) hties sorter sorter'
  unfold colStd
  rw [hm j]
  simp only [List.foldl_cons, List.length_cons]
  rw [Dbl.zero_add (mul_valid _ _), Dbl.zero_add (mul_valid _ _), Dbl.add_comm]

/-- A large double. -/
noncomputable def big : ℝ := (2 : ℝ) ^ (1023 : Int)

/-- Four points whose sum overflows. -/
noncomputable def bigFirst : List (List Dbl) := [[.fin big], [.fin big], [.fin (-big)], [.fin (-big)]]

/-- The same points in an order in which their sum does not overflow. -/
noncomputable def bigAlternate : List (List Dbl) := [[.fin big], [.fin (-big)], [.fin big], [.fin (-big)]]

namespace Dbl

theorem big_valid : Valid (.fin big) := by
  have hf := isFloat_scaled (n := 1) (e := 1023) (by norm_num) (by norm_num)
  rw [Nat.cast_one, one_mul] at hf
  refine ⟨hf, ?_⟩
  unfold big
  rw [abs_of_pos (by positivity), show (1023 : Int) = ((1023 : Nat) : Int) by norm_num, zpow_natCast]
  exact pow_lt_pow_right₀ (by norm_num) (by norm_num)

theorem big_pos : 0 < big := by unfold big; positivity

/-- From 2^1024 on the result is infinite. -/
theorem ofReal_top {x : ℝ} (h : (2 : ℝ) ^ 1024 ≤ x) : ofReal x = .inf false := by
  have hf := isFloat_scaled (n := 1) (e := 1024) (by norm_num) (by norm_num)
  rw [Nat.cast_one, one_mul, show (1024 : Int) = ((1024 : Nat) : Int) by norm_num, zpow_natCast] at hf
  have h1 := r64_mono h
  rw [Ieee.rnd_of_isFloat hf] at h1
  have h0 : (0 : ℝ) < (2 : ℝ) ^ 1024 := by positivity
  unfold ofReal
  rw [if_neg (by rw [abs_of_nonneg (h0.le.trans h1)]; exact not_lt.mpr h1), decide_eq_false (not_lt.mpr (h0.le.trans h))]

theorem big_add : add (.fin big) (.fin big) = .inf false := by
  apply ofReal_top
  unfold big
  rw [show (1023 : Int) = ((1023 : Nat) : Int) by norm_num, zpow_natCast]
  rw [show (1024 : Nat) = 1023 + 1 from rfl, pow_succ]
  exact (mul_two _).le

theorem big_sq : mul (.fin big) (.fin big) = .inf false := by
  apply ofReal_top
  unfold big
  rw [show (1023 : Int) = ((1023 : Nat) : Int) by norm_num, zpow_natCast, ← pow_add]
  exact pow_le_pow_right₀ (by norm_num) (by norm_num)

theorem big_neg_sq : mul (.fin (-big)) (.fin (-big)) = .inf false := by
  have h : ofReal (big * big) = .inf false := big_sq
  show ofReal (-big * -big) = _
  rwa [neg_mul_neg]

theorem four : ofReal ((0 + 1 + 1 + 1 + 1 : Nat) : ℝ) = .fin 4 := by
  have := ofReal_int (n := 4) (by norm_num)
  exact_mod_cast this

theorem div_four (s : Bool) : div (.inf s) (.fin 4) = .inf s := by
  show Dbl.inf (s != decide ((4 : ℝ) < 0)) = _
  rw [decide_eq_false (by norm_num)]
  cases s <;> rfl

theorem bigFirst_mean (t : Tanh) : colMean (ops t) bigFirst 0 = .inf false := by
  unfold colMean bigFirst
  simp only [List.foldl_cons, List.foldl_nil, List.length_cons, List.length_nil, coordOf, List.getD_cons_zero]
  rw [four, zero_add big_valid, big_add]
  exact div_four false

theorem bigFirst_norm (t : Tanh) {row : List Dbl} (h : row ∈ bigFirst) : normCoord (ops t) bigFirst row 0 = .nan := by
  have hs : colStd (ops t) bigFirst 0 = .inf false := by
    unfold colStd
    rw [bigFirst_mean t]
    unfold bigFirst
    simp only [List.foldl_cons, List.foldl_nil, List.length_cons, List.length_nil, coordOf, List.getD_cons_zero]
    rw [four]
    show Dbl.sqrt (div (.inf false) (.fin 4)) = _
    rw [div_four]
    rfl
  unfold normCoord
  rw [bigFirst_mean t, hs]
  unfold bigFirst at h
  fin_cases h <;> rfl

theorem cancel : add (.fin big) (.fin (-big)) = .fin 0 := by
  show ofReal _ = _
  rw [add_neg_cancel, ofReal_zero]

theorem bigAlternate_mean (t : Tanh) : colMean (ops t) bigAlternate 0 = .fin 0 := by
  unfold colMean bigAlternate
  simp only [List.foldl_cons, List.foldl_nil, List.length_cons, List.length_nil, coordOf, List.getD_cons_zero]
  rw [four, zero_add big_valid, cancel, zero_add big_valid, cancel]
  have h : div (.fin 0) (.fin 4) = ofReal (0 / 4) := if_neg (by norm_num)
  rw [zero_div, ofReal_zero] at h
  exact h

theorem bigAlternate_norm (t : Tanh) {row : List Dbl} (h : row ∈ bigAlternate) : normCoord (ops t) bigAlternate row 0 = .fin (t.f 0) := by
  have s1 : sub (.fin 0) (.fin big) = .fin (-big) := zero_add (neg_valid big_valid)
  have s2 : sub (.fin 0) (.fin (-big)) = .fin big := by
    show add (.fin 0) (.fin (- -big)) = _
    rw [neg_neg]
    exact zero_add big_valid
  have hs : colStd (ops t) bigAlternate 0 = .inf false := by
    unfold colStd
    rw [bigAlternate_mean t]
    unfold bigAlternate
    simp only [List.foldl_cons, List.foldl_nil, List.length_cons, List.length_nil, coordOf, List.getD_cons_zero]
    rw [four, s1, s2, big_sq, big_neg_sq]
    show Dbl.sqrt (div (.inf false) (.fin 4)) = _
    rw [div_four]
    rfl
  unfold normCoord
  rw [bigAlternate_mean t, hs]
  unfold bigAlternate at h
  fin_cases h
  · show tanh t (div (sub (.fin 0) (.fin big)) _) = _
    rw [s1]; rfl
  · show tanh t (div (sub (.fin 0) (.fin (-big))) _) = _
    rw [s2]; rfl
  · show tanh t (div (sub (.fin 0) (.fin big)) _) = _
    rw [s1]; rfl
  · show tanh t (div (sub (.fin 0) (.fin (-big))) _) = _
    rw [s2]; rfl

end Dbl

open KernelCanvas in
/-- A canvas of two kernels of one coordinate. -/
theorem two_canvas (t : Tanh) (a b : Dbl) :
    KernelCanvas.create Flt.single (ops t) (fun i _ => if i = 0 then a else b) 1 2 1 (1 / 2) false = .ok ⟨1, 1, false, 1, 0, [[a], [b]]⟩ := by
  have h2 : Flt.single.rnd ((2 : Int) : Rat) = (2 : Int) := single_kernels (by norm_num) (by norm_num)
  have h1 : Flt.single.rnd ((1 : Int) : Rat) = (1 : Int) := single_kernels (by norm_num) (by norm_num)
  have h3 : Flt.single.rnd (1 / 2 * Flt.single.rnd ((2 : Int) : Rat)) = (1 : Int) := by
    rw [h2, show (1 / 2 : Rat) * ((2 : Int) : Rat) = ((1 : Int) : Rat) by norm_num, h1]
  have h4 : i32 (roundHalfUp ((1 : Int) : Rat)) = .ok 1 := by decide +kernel
  unfold KernelCanvas.create checkInputs
  rw [if_neg (by norm_num), if_neg (by norm_num), if_neg (by norm_num), if_neg (by norm_num), h3, h4]
  rfl

theorem bigOrders : bigFirst.Perm bigAlternate := by
  unfold bigFirst bigAlternate
  exact (List.Perm.swap _ _ _).cons _

theorem any_congr_mem {α : Type} {l : List α} {f g : α → Bool} (h : ∀ e ∈ l, f e = g e) : l.any f = l.any g := by
  induction l with
  | nil => rfl
  | cons x xs ih => rw [List.any_cons, List.any_cons, h x (by simp), ih (fun e he => h e (by simp [he]))]

/-- Of two kernels, the nearer one is activated by `bigAlternate`. -/
theorem alternate_out (t : Tanh) (a b : Dbl) (ha : Dbl.Unit a) (hb : Dbl.Unit b) (k : Nat) (hk : k < 2)
    (hlt : ∀ k' : Nat, k' < 2 → k' ≠ k → ∀ K K', [[a], [b]][k]? = some K → [[a], [b]][k']? = some K' →
      lt (euclid (ops t) [.fin (t.f 0)] K) (euclid (ops t) [.fin (t.f 0)] K') = true) (sorter : Nat → Sorter (Nat × Dbl)) :
    (⟨1, 1, false, 1, 0, [[a], [b]]⟩ : KernelCanvas (ops t)).transform sorter bigAlternate = .ok [if k = 0 then 1 else 0, if k = 1 then 1 else 0] := by
  have R := ready (laws t) (two_canvas t a b) (fun i _ => by
    show Dbl.Unit (if i = 0 then a else b)
    split
    · exact ha
    · exact hb) (single_kernels (by norm_num) (by norm_num)) (by norm_num) (.inl rfl)
  have hall : AllDim (⟨1, 1, false, 1, 0, [[a], [b]]⟩ : KernelCanvas (ops t)) bigAlternate := by
    intro r hr
    unfold bigAlternate at hr
    fin_cases hr <;> rfl
  obtain ⟨S, hS, h⟩ := transform_ok R hall sorter
  have hS' : ∀ i, i < 4 → ∀ q, (S i).contains q = decide (q = k) := by
    intro i hi q
    have e : bigAlternate[i]? = some (bigAlternate[i]'(by simpa [bigAlternate] using hi)) := List.getElem?_eq_getElem _
    have n := hS i _ e
    have hp : normPoint (ops t) (⟨1, 1, false, 1, 0, [[a], [b]]⟩ : KernelCanvas (ops t)) bigAlternate (bigAlternate[i]'(by simpa [bigAlternate] using hi)) =
        [.fin (t.f 0)] := by
      have := bigAlternate_norm t (List.mem_of_getElem? e)
      show [normCoord (ops t) bigAlternate _ 0] = _
      rw [this]
    rw [hp] at n
    obtain ⟨m, hm⟩ := List.length_eq_one_iff.mp (show (S i).length = 1 from n.number)
    have hm2 : m < 2 := n.exist m (by rw [hm]; simp)
    have hmk : m = k := by
      by_contra hne
      have h1 := List.getElem?_eq_getElem (l := [[a], [b]]) (i := k) (by simpa using hk)
      have h2 := List.getElem?_eq_getElem (l := [[a], [b]]) (i := m) (by simpa using hm2)
      have h3 := n.nearest m (by rw [hm]; simp) k (by rw [hm]; simpa using fun e => hne e.symm) _ _ h2 h1
      have h4 := hlt m hm2 hne _ _ h1 h2
      rw [show (ops t).lt _ _ = _ from h4] at h3
      cases h3
    rw [hm, hmk]
    by_cases hq : q = k <;> simp [hq]
  rw [h]
  have hany : ∀ q, (List.range bigAlternate.length).any (fun j => (S j).contains q) = decide (q = k) := by
    intro q
    show (List.range 4).any _ = _
    simp only [List.range, List.range.loop, List.any_cons, List.any_nil, hS' 0 (by norm_num), hS' 1 (by norm_num), hS' 2 (by norm_num), hS' 3 (by norm_num)]
    cases decide (q = k) <;> rfl
  simp only [hany]
  have hc : ∀ act : Nat → Bool, canvas 1 2 act = [if act 0 then 1 else 0, if act 1 then 1 else 0] := fun act => rfl
  show Except.ok (canvas 1 2 (fun q => decide (q = k))) = _
  rw [hc]
  obtain rfl | rfl : k = 0 ∨ k = 1 := by omega
  · rfl
  · rfl

/-- **C184 is false** in IEEE arithmetic. Whatever the sort: of two kernels one of which is nearer to the point `tanh 0`, on the canvas with
these kernels or on the canvas with the kernels exchanged, the four points 2^1023, 2^1023, -2^1023, -2^1023, given in this order and given alternately,
have different outputs. -/
theorem C184_refuted (t : Tanh) (a b : Dbl) (ha : Dbl.Unit a) (hb : Dbl.Unit b)
    (hlt : lt (euclid (ops t) [.fin (t.f 0)] [b]) (euclid (ops t) [.fin (t.f 0)] [a]) = true) :
    bigFirst.Perm bigAlternate ∧ ∃ c c' : KernelCanvas (ops t),
      KernelCanvas.create Flt.single (ops t) (fun i _ => if i = 0 then a else b) 1 2 1 (1 / 2) false = .ok c ∧
      KernelCanvas.create Flt.single (ops t) (fun i _ => if i = 0 then b else a) 1 2 1 (1 / 2) false = .ok c' ∧ AllDim c bigFirst ∧ AllDim c' bigFirst ∧
      ∀ sorter : Nat → Sorter (Nat × Dbl),
        c.transform sorter bigFirst ≠ c.transform sorter bigAlternate ∨ c'.transform sorter bigFirst ≠ c'.transform sorter bigAlternate := by
  have hall : ∀ K : List (List Dbl), AllDim (⟨1, 1, false, 1, 0, K⟩ : KernelCanvas (ops t)) bigFirst := by
    intro K r hr
    unfold bigFirst at hr
    fin_cases hr <;> rfl
  refine ⟨bigOrders, _, _, two_canvas t a b, two_canvas t b a, hall _, hall _, fun sorter => ?_⟩
  have e1 := alternate_out t a b ha hb 1 (by norm_num) (fun k' h1 h2 K K' h3 h4 => by
    obtain rfl : k' = 0 := by omega
    cases h3; cases h4
    exact hlt) sorter
  have e2 := alternate_out t b a hb ha 0 (by norm_num) (fun k' h1 h2 K K' h3 h4 => by
    obtain rfl : k' = 1 := by omega
    cases h3; cases h4
    exact hlt) sorter
  rw [e1, e2]
  have key : ∀ x y : Dbl, Dbl.Unit x → Dbl.Unit y → (⟨1, 1, false, 1, 0, [[x], [y]]⟩ : KernelCanvas (ops t)).transform sorter bigFirst =
      .ok (canvas 1 2 (fun q => (bigFirst.zipIdx 0).any (fun e => (picked (o := ops t) (sorter e.2) 1 [(0, .nan), (1, .nan)]).contains q))) := by
    intro x y hx hy
    have R := ready (laws t) (two_canvas t x y) (fun i _ => by
      show Dbl.Unit (if i = 0 then x else y)
      split
      · exact hx
      · exact hy) (single_kernels (by norm_num) (by norm_num)) (by norm_num) (.inl rfl)
    rw [transform_picked R (hall _) sorter]
    congr 2
    funext q
    refine any_congr_mem (fun e he => ?_)
    have hr : e.1 ∈ bigFirst := List.fst_mem_of_mem_zipIdx he
    have hn := nan_point R (j := 0) (by norm_num) (bigFirst_norm t hr)
    have h1 := hn [x] (by simp)
    have h2 := hn [y] (by simp)
    show (picked (o := ops t) (sorter e.2) 1 [(0, euclid (ops t) (normPoint (ops t) _ bigFirst e.1) [x]),
      (1, euclid (ops t) (normPoint (ops t) _ bigFirst e.1) [y])]).contains q = _
    rw [h1, h2]
  rw [key a b ha hb, key b a hb ha]
  generalize canvas 1 2 _ = out
  by_cases h : (Except.ok out : Res (List Int)) = .ok [0, 1]
  · right
    rw [h]
    intro h'
    cases h'
  · exact .inl h

/-! ## The hypotheses can be met -/

namespace Dbl

theorem int_add (t : Tanh) {a b : Int} (h : |a + b| ≤ 2 ^ 53) : (ops t).add (.fin a) (.fin b) = .fin ((a + b : Int) : ℝ) := by
  show ofReal _ = _
  rw [← Int.cast_add]
  exact ofReal_int h

theorem int_sub (t : Tanh) {a b : Int} (h : |a - b| ≤ 2 ^ 53) : (ops t).sub (.fin a) (.fin b) = .fin ((a - b : Int) : ℝ) := by
  show ofReal ((a : ℝ) + -(b : ℝ)) = _
  rw [← sub_eq_add_neg, ← Int.cast_sub]
  exact ofReal_int h

theorem int_mul (t : Tanh) {a b : Int} (h : |a * b| ≤ 2 ^ 53) : (ops t).mul (.fin a) (.fin b) = .fin ((a * b : Int) : ℝ) := by
  show ofReal _ = _
  rw [← Int.cast_mul]
  exact ofReal_int h

theorem int_div (t : Tanh) {a b c : Int} (hb : b ≠ 0) (hc : a = c * b) (h : |c| ≤ 2 ^ 53) : (ops t).div (.fin a) (.fin b) = .fin ((c : Int) : ℝ) := by
  have hb' : (b : ℝ) ≠ 0 := by exact_mod_cast hb
  have h1 : div (.fin (a : ℝ)) (.fin (b : ℝ)) = ofReal ((a : ℝ) / b) := if_neg hb'
  have h2 : (a : ℝ) / b = c := by rw [hc, Int.cast_mul, mul_div_cancel_right₀ _ hb']
  rw [h2, ofReal_int h] at h1
  exact h1

theorem int_sqrt (t : Tanh) {c : Int} (h0 : 0 ≤ c) (h : c ≤ 2 ^ 53) : (ops t).sqrt (.fin ((c * c : Int) : ℝ)) = .fin c := by
  have hc : (0 : ℝ) ≤ (c : ℝ) := by exact_mod_cast h0
  have h1 : sqrt (.fin ((c * c : Int) : ℝ)) = ofReal (Real.sqrt ((c * c : Int) : ℝ)) := if_neg (by rw [Int.cast_mul, not_lt]; positivity)
  rw [Int.cast_mul, Real.sqrt_mul_self hc, ofReal_int (by rw [abs_of_nonneg h0]; exact h)] at h1
  rw [Int.cast_mul]
  exact h1

theorem int_dist (t : Tanh) {a b : Int} (h : |a - b| ≤ 2 ^ 20) : euclid (ops t) [.fin a] [.fin b] = .fin ((|a - b| : Int) : ℝ) := by
  have h2 : (a - b) * (a - b) = |a - b| * |a - b| := (abs_mul_abs_self _).symm
  have h3 : |a - b| * |a - b| ≤ 2 ^ 53 := by nlinarith [abs_nonneg (a - b)]
  show (ops t).sqrt ((ops t).add (.fin 0) ((ops t).mul ((ops t).sub (.fin a) (.fin b)) ((ops t).sub (.fin a) (.fin b)))) = _
  have h4 := abs_nonneg (a - b)
  generalize |a - b| = c at h h2 h3 h4
  have e1 : (ops t).mul ((ops t).sub (.fin a) (.fin b)) ((ops t).sub (.fin a) (.fin b)) = .fin ((c * c : Int) : ℝ) := by
    rw [int_sub t, int_mul t, h2]
    · rw [h2, abs_of_nonneg (by positivity)]; exact h3
    · rw [← abs_mul_abs_self] at h2
      have : |a - b| = c := by nlinarith [abs_nonneg (a - b)]
      omega
  rw [e1]
  have e2 := int_add t (a := 0) (b := c * c) (by rw [_root_.zero_add, abs_of_nonneg (by positivity)]; exact h3)
  rw [Int.cast_zero, _root_.zero_add] at e2
  rw [e2]
  exact int_sqrt t h4 (by omega)

end Dbl

/-- A hyperbolic tangent that knows only the signs. -/
noncomputable def signTanh : Tanh where
  f x := if 0 < x then 1 else if x < 0 then -1 else 0
  isFloat x := by
    split
    · exact r64_one
    · split
      · rw [Ieee.rnd_neg, show Ieee.rnd Ieee.double (1 : ℝ) = 1 from r64_one]
      · exact r64_zero
  bound x := by
    split
    · norm_num
    · split <;> norm_num

/-- A generator whose first number is the smallest and whose other numbers are the largest. -/
def edgeRand : CRand := stdRand Nat (fun _ => 0) (fun s => (if s = 0 then 0 else 2147483647, s + 1))

theorem edgeRand_max (s : edgeRand.S) : (edgeRand.rand s).1 ≤ 2147483647 := by
  have h : ∀ n : Nat, (if n = 0 then 0 else 2147483647) ≤ 2147483647 := fun n => by split <;> omega
  exact h s

/-- The canvas of the kernels -1 and 1. -/
theorem edge_canvas : (KernelCanvas.createG Flt.single (ops signTanh) edgeRand 1700000000 (0 : Nat) (.fin (-1)) (.fin 1) 1 2 1 (1 / 2) false).1 =
    .ok ⟨1, 1, false, 1, 0, [[.fin (-1)], [.fin 1]]⟩ := by
  have i0 : ((0 : Int) : ℝ) = 0 := by norm_num
  have i1 : ((1 : Int) : ℝ) = 1 := by norm_num
  have i1' : ((-1 : Int) : ℝ) = -1 := by norm_num
  have i2 : ((2 : Int) : ℝ) = 2 := by norm_num
  have im : ((2147483647 : Int) : ℝ) = ((2147483647 : Nat) : ℝ) := by norm_num
  have s : (ops signTanh).sub (.fin 1) (.fin (-1)) = .fin 2 := by
    have := int_sub signTanh (a := 1) (b := -1) (by norm_num)
    rw [i1, i1', show ((1 - -1 : Int) : ℝ) = 2 by norm_num] at this
    exact this
  have k0 : KernelCanvas.randdouble (ops signTanh) 0 (.fin (-1)) (.fin 1) = .fin (-1) := by
    unfold KernelCanvas.randdouble
    rw [s, ops_ofNat signTanh (by norm_num), ops_ofNat signTanh (by norm_num)]
    have h1 := int_div signTanh (a := 0) (b := 2147483647) (c := 0) (by norm_num) (by norm_num) (by norm_num)
    have h2 := int_mul signTanh (a := 0) (b := 2) (by norm_num)
    have h3 := int_add signTanh (a := 0) (b := -1) (by norm_num)
    rw [i0, im] at h1
    rw [i0, i2, show ((0 * 2 : Int) : ℝ) = 0 by norm_num] at h2
    rw [i0, i1', show ((0 + -1 : Int) : ℝ) = -1 by norm_num] at h3
    rw [Nat.cast_zero, h1, h2, h3]
  have k1 : KernelCanvas.randdouble (ops signTanh) 2147483647 (.fin (-1)) (.fin 1) = .fin 1 := by
    unfold KernelCanvas.randdouble
    rw [s, ops_ofNat signTanh (by norm_num)]
    have h1 := int_div signTanh (a := 2147483647) (b := 2147483647) (c := 1) (by norm_num) (by norm_num) (by norm_num)
    have h2 := int_mul signTanh (a := 1) (b := 2) (by norm_num)
    have h3 := int_add signTanh (a := 2) (b := -1) (by norm_num)
    rw [i1, im] at h1
    rw [i1, i2, show ((1 * 2 : Int) : ℝ) = 2 by norm_num] at h2
    rw [i2, i1', show ((2 + -1 : Int) : ℝ) = 1 by norm_num] at h3
    rw [h1, h2, h3]
  have h2 : Flt.single.rnd ((2 : Int) : Rat) = (2 : Int) := single_kernels (by norm_num) (by norm_num)
  have h1 : Flt.single.rnd ((1 : Int) : Rat) = (1 : Int) := single_kernels (by norm_num) (by norm_num)
  have h3 : Flt.single.rnd (1 / 2 * Flt.single.rnd ((2 : Int) : Rat)) = (1 : Int) := by
    rw [h2, show (1 / 2 : Rat) * ((2 : Int) : Rat) = ((1 : Int) : Rat) by norm_num, h1]
  have h4 : i32 (roundHalfUp ((1 : Int) : Rat)) = .ok 1 := by decide +kernel
  have h5 : KernelCanvas.checkInputs 2 1 1 (1 / 2) = .ok () := by
    unfold KernelCanvas.checkInputs
    rw [if_neg (by norm_num), if_neg (by norm_num), if_neg (by norm_num), if_neg (by norm_num)]
  unfold KernelCanvas.createG
  rw [h5]
  dsimp only
  rw [h3, h4]
  show Except.ok (⟨1, 1, false, 1, 0, [[KernelCanvas.randdouble (ops signTanh) 0 (.fin (-1)) (.fin 1)],
    [KernelCanvas.randdouble (ops signTanh) 2147483647 (.fin (-1)) (.fin 1)]]⟩ : KernelCanvas (ops signTanh)) = _
  rw [k0, k1]

/-- C184_first_two: the points 0 and 2. -/
example : ∀ row ∈ ([[.fin 0], [.fin 2]] : List (List Dbl)),
    Distinct (⟨1, 1, false, 1, 0, [[.fin (-1)], [.fin 1]]⟩ : KernelCanvas (ops signTanh)) (normPoint (ops signTanh) ⟨1, 1, false, 1, 0, [[.fin (-1)], [.fin 1]]⟩ [[.fin 0], [.fin 2]] row) := by
  have i0 : ((0 : Int) : ℝ) = 0 := by norm_num
  have i1 : ((1 : Int) : ℝ) = 1 := by norm_num
  have i1' : ((-1 : Int) : ℝ) = -1 := by norm_num
  have i2 : ((2 : Int) : ℝ) = 2 := by norm_num
  have n2 : (ops signTanh).ofNat 2 = .fin 2 := by
    have := ops_ofNat signTanh (n := 2) (by norm_num)
    rw [this]
    norm_num
  have a02 := int_add signTanh (a := 0) (b := 2) (by norm_num)
  have a00 := int_add signTanh (a := 0) (b := 0) (by norm_num)
  have a01 := int_add signTanh (a := 0) (b := 1) (by norm_num)
  have a11 := int_add signTanh (a := 1) (b := 1) (by norm_num)
  have d22 := int_div signTanh (a := 2) (b := 2) (c := 1) (by norm_num) (by norm_num) (by norm_num)
  have d11 := int_div signTanh (a := 1) (b := 1) (c := 1) (by norm_num) (by norm_num) (by norm_num)
  have dn1 := int_div signTanh (a := -1) (b := 1) (c := -1) (by norm_num) (by norm_num) (by norm_num)
  have s10 := int_sub signTanh (a := 1) (b := 0) (by norm_num)
  have s12 := int_sub signTanh (a := 1) (b := 2) (by norm_num)
  have m1 := int_mul signTanh (a := 1) (b := 1) (by norm_num)
  have mn := int_mul signTanh (a := -1) (b := -1) (by norm_num)
  have q1 := int_sqrt signTanh (c := 1) (by norm_num) (by norm_num)
  norm_num at a02 a00 a01 a11 d22 d11 dn1 s10 s12 m1 mn q1
  have hm : colMean (ops signTanh) [[.fin 0], [.fin 2]] 0 = .fin 1 := by
    show (ops signTanh).div ((ops signTanh).add ((ops signTanh).add (.fin 0) (.fin 0)) (.fin 2)) ((ops signTanh).ofNat 2) = _
    rw [n2]
    rw [show (ops signTanh).add (.fin 0) (.fin 0) = .fin 0 from a00, show (ops signTanh).add (.fin 0) (.fin 2) = .fin 2 from a02]
    exact d22
  have hs : colStd (ops signTanh) [[.fin 0], [.fin 2]] 0 = .fin 1 := by
    unfold colStd
    rw [hm]
    show (ops signTanh).sqrt ((ops signTanh).div ((ops signTanh).add ((ops signTanh).add (.fin 0) ((ops signTanh).mul ((ops signTanh).sub (.fin 1) (.fin 0))
      ((ops signTanh).sub (.fin 1) (.fin 0)))) ((ops signTanh).mul ((ops signTanh).sub (.fin 1) (.fin 2)) ((ops signTanh).sub (.fin 1) (.fin 2))))
      ((ops signTanh).ofNat 2)) = _
    rw [n2, show (ops signTanh).sub (.fin 1) (.fin 0) = .fin 1 from s10, show (ops signTanh).sub (.fin 1) (.fin 2) = .fin (-1) from s12,
      show (ops signTanh).mul (.fin 1) (.fin 1) = .fin 1 from m1, show (ops signTanh).mul (.fin (-1)) (.fin (-1)) = .fin 1 from mn,
      show (ops signTanh).add (.fin 0) (.fin 1) = .fin 1 from a01, show (ops signTanh).add (.fin 1) (.fin 1) = .fin 2 from a11,
      show (ops signTanh).div (.fin 2) (.fin 2) = .fin 1 from d22]
    exact q1
  have f1 : signTanh.f 1 = 1 := if_pos (by norm_num)
  have fn : signTanh.f (-1) = -1 := by
    show (if (0 : ℝ) < -1 then (1 : ℝ) else if (-1 : ℝ) < 0 then -1 else 0) = -1
    norm_num
  have e11 := int_dist signTanh (a := 1) (b := 1) (by norm_num)
  have e1n := int_dist signTanh (a := 1) (b := -1) (by norm_num)
  have en1 := int_dist signTanh (a := -1) (b := 1) (by norm_num)
  have enn := int_dist signTanh (a := -1) (b := -1) (by norm_num)
  norm_num at e11 e1n en1 enn
  have key : ∀ x : ℝ, x = 1 ∨ x = -1 → Distinct (⟨1, 1, false, 1, 0, [[.fin (-1)], [.fin 1]]⟩ : KernelCanvas (ops signTanh)) [.fin x] := by
    intro x hx k k' K K' hK hK' hne
    have hk : k < 2 := (List.getElem?_eq_some_iff.mp hK).1
    have hk' : k' < 2 := (List.getElem?_eq_some_iff.mp hK').1
    have h02 : lt (.fin 0) (.fin 2) = true := decide_eq_true (by norm_num)
    obtain ⟨rfl, rfl⟩ | ⟨rfl, rfl⟩ : (k = 0 ∧ k' = 1) ∨ (k = 1 ∧ k' = 0) := by omega
    · cases hK; cases hK'
      rcases hx with rfl | rfl
      · right; rw [e11, e1n]; exact h02
      · left; rw [en1, enn]; exact h02
    · cases hK; cases hK'
      rcases hx with rfl | rfl
      · left; rw [e11, e1n]; exact h02
      · right; rw [en1, enn]; exact h02
  intro row hr
  show Distinct _ [normCoord (ops signTanh) [[.fin 0], [.fin 2]] row 0]
  unfold normCoord
  rw [hm, hs]
  fin_cases hr
  · show Distinct (o := ops signTanh) _ [tanh signTanh ((ops signTanh).div ((ops signTanh).sub (.fin 1) (.fin 0)) (.fin 1))]
    rw [show (ops signTanh).sub (.fin 1) (.fin 0) = .fin 1 from s10, show (ops signTanh).div (.fin 1) (.fin 1) = .fin 1 from d11]
    exact key _ (.inl f1)
  · show Distinct (o := ops signTanh) _ [tanh signTanh ((ops signTanh).div ((ops signTanh).sub (.fin 1) (.fin 2)) (.fin 1))]
    rw [show (ops signTanh).sub (.fin 1) (.fin 2) = .fin (-1) from s12, show (ops signTanh).div (.fin (-1)) (.fin 1) = .fin (-1) from dn1]
    exact key _ (.inr fn)

/-- C184_refuted: the kernels 1 and 0. -/
example : lt (euclid (ops signTanh) [.fin (signTanh.f 0)] [.fin 0]) (euclid (ops signTanh) [.fin (signTanh.f 0)] [.fin 1]) = true := by
  have f0 : signTanh.f 0 = 0 := by
    show (if (0 : ℝ) < 0 then (1 : ℝ) else if (0 : ℝ) < 0 then -1 else 0) = 0
    norm_num
  have e0 := int_dist signTanh (a := 0) (b := 0) (by norm_num)
  have e1 := int_dist signTanh (a := 0) (b := 1) (by norm_num)
  norm_num at e0 e1
  rw [f0, e0, e1]
  exact decide_eq_true (by norm_num)

/-- C184_exact: the addition of `exFOps` may be reordered. -/
example : ∀ s a b : exFOps.F, exFOps.add (exFOps.add s a) b = exFOps.add (exFOps.add s b) a := by
  intro s a b
  rcases s with _ | s <;> rcases a with _ | a <;> rcases b with _ | b <;> first | rfl | exact congrArg some (add_right_comm s a b)

end Wis
