import Verif.Lemmas.Mental
import Mathlib.Data.List.Nodup
import Mathlib.Data.List.Perm.Subperm
/-! Helper lemmas: wiring established by the constructors. -/

namespace Wis
open Spec

theorem chunks_flatten (is : List Int) (A : Nat) (k : Nat) (hk : k * A ≤ is.length) :
    ((List.range k).map (fun j => (is.take ((j + 1) * A)).drop (j * A))).flatten = is.take (k * A) := by
  induction k with
  | zero => simp
  | succ k ih =>
    rw [List.range_succ, List.map_append, List.flatten_append, ih (by
      have : (k + 1) * A = k * A + A := by ring
      omega)]
    simp only [List.map_cons, List.map_nil, List.flatten_cons, List.flatten_nil, List.append_nil]
    have h1 : is.take (k * A) = (is.take ((k + 1) * A)).take (k * A) := by
      rw [List.take_take, Nat.min_eq_left (by
        have : (k + 1) * A = k * A + A := by ring
        omega)]
    rw [h1, List.take_append_drop]

theorem ramsFrom_mapping {is : List Int} {A : Nat} {iz : Bool} {base : Int} (hb : 2 ≤ base) {k : Nat}
    {rs : List Ram} (h : Discriminator.ramsFrom is A iz base k 0 = .ok rs) :
    rs.map (·.addresses) = (List.range k).map (fun j => (is.take ((j + 1) * A)).drop (j * A)) ∧
      k * A ≤ is.length := by
  obtain ⟨_, h2, h3, h4⟩ := ramsFrom_ok hb k h
  constructor
  · apply List.ext_getElem
    · simp [h2]
    · intro j h1 h2'
      simp only [List.getElem_map, List.getElem_range]
      have := h4 j (by simpa using h1)
      simpa using this
  · rcases Nat.eq_zero_or_pos k with hk | hk
    · subst hk; simp
    · simpa using h3 hk

theorem ramsFrom_succeeds {is : List Int} {A : Nat} {iz : Bool} {base : Int}
    (hl : Ram.checkLimitAddressSize A base = .ok ()) (k : Nat) : ∀ (i : Nat), (i + k) * A ≤ is.length →
    ∃ rs, Discriminator.ramsFrom is A iz base k i = .ok rs := by
  induction k with
  | zero => intro i _; exact ⟨[], rfl⟩
  | succ k ih =>
    intro i hi
    have hle : (i + 1) * A ≤ is.length :=
      Nat.le_trans (Nat.mul_le_mul_right A (by omega)) hi
    obtain ⟨rs, hrs⟩ := ih (i + 1) (by rwa [show i + 1 + k = i + (k + 1) by omega])
    refine ⟨{ addresses := (is.take ((i + 1) * A)).drop (i * A), positions := [], ignoreZero := iz, base := base } :: rs, ?_⟩
    simp only [Discriminator.ramsFrom, subVector, hle, if_true, Except.bind_ok]
    have hlen : ((is.take ((i + 1) * A)).drop (i * A)).length = A := by
      have : (i + 1) * A = i * A + A := by ring
      simp; omega
    unfold Ram.create
    rw [hlen, hl]
    simp only [Except.bind_ok, hrs]

theorem fillers_ok (rnd : Rnd) {n : Int} (hn : 1 ≤ n) (k : Nat) : ∀ (i : Nat),
    ∃ l, Discriminator.fillers rnd n k i = .ok l ∧ l.length = k ∧ ∀ a ∈ l, 0 ≤ a ∧ a < n := by
  induction k with
  | zero => intro i; exact ⟨[], rfl, rfl, by simp⟩
  | succ k ih =>
    intro i
    obtain ⟨l, h1, h2, h3⟩ := ih (i + 1)
    refine ⟨(0 + (rnd.rand i : Int).tmod n) :: l, ?_, by simp [h2], ?_⟩
    · simp only [Discriminator.fillers, randint]
      rw [if_neg (by omega)]
      simp only [Except.bind_ok, h1, show n - 1 - 0 + 1 = n by omega]
    · intro a ha
      rcases List.mem_cons.mp ha with h | h
      · subst h
        rw [Int.tmod_eq_emod_of_nonneg (by omega)]
        have h1 := Int.emod_nonneg (rnd.rand i : Int) (show n ≠ 0 by omega)
        have h2 := Int.emod_lt_of_pos (rnd.rand i : Int) (show 0 < n by omega)
        omega
      · exact h3 a h

/-- The index list before shuffling. -/
theorem range_int_mem {n : Nat} {a : Int} : a ∈ (List.range n).map Int.ofNat ↔ 0 ≤ a ∧ a < n := by
  simp only [List.mem_map, List.mem_range]
  constructor
  · rintro ⟨k, h, rfl⟩
    simp; omega
  · intro h
    exact ⟨a.toNat, by omega, by simp; omega⟩

theorem range_int_nodup (n : Nat) : ((List.range n).map Int.ofNat).Nodup :=
  List.Nodup.map (fun a b h => Int.ofNat.inj h) List.nodup_range

theorem div_aux {N A q r : Nat} (hA : 2 ≤ A) (h : N = A * q + r) (hr : r < A) : N / A = q := by
  rw [h, Nat.mul_add_div (by omega), Nat.div_eq_of_lt hr, Nat.add_zero]

structure ShuffleWiring (n A : Nat) (complete : Bool) (mapping : List (List Int)) : Prop where
  number : mapping.length = if complete then (n + A - 1) / A else n / A
  size : ∀ m ∈ mapping, m.length = A
  inside : WiredInside n mapping
  covers : complete = true → ∀ i : Nat, i < n → (i : Int) ∈ mapping.flatten
  once : complete = false → mapping.flatten.Nodup

theorem shuffle_wiring {rnd : Rnd} {n A : Nat} {iz complete : Bool} {base : Int} {d : Discriminator}
    (h : Discriminator.setRAMShuffle rnd n A iz complete base = .ok d) :
    ShuffleWiring n A complete d.mapping := by
  unfold Discriminator.setRAMShuffle at h
  obtain ⟨_, hA, h⟩ := bind_eq_ok h
  obtain ⟨_, hb, h⟩ := bind_eq_ok h
  obtain ⟨sz, hsz, h⟩ := bind_eq_ok h
  obtain ⟨extra, hex, h⟩ := bind_eq_ok h
  obtain ⟨rs, hrs, h⟩ := bind_eq_ok h
  simp only [Except.ok.injEq] at h
  subst h
  have hb := checkBase_ok hb
  obtain ⟨hA2, hAn⟩ := checkAddressSize_ok hA
  have hA2 : 2 ≤ A := by omega
  have hAn : A ≤ n := by omega
  obtain ⟨l, hl1, hl2, hl3⟩ := fillers_ok rnd (n := n) (by omega) (sz - n).toNat 0
  rw [hex] at hl1
  have := Except.ok.inj hl1
  subst this
  have hdiv : (n : Int).tdiv A = ((n / A : Nat) : Int) := by
    rw [Int.tdiv_eq_ediv_of_nonneg (by omega)]; rfl
  have hmod : (n : Int).tmod A = ((n % A : Nat) : Int) := by
    rw [Int.tmod_eq_emod_of_nonneg (by omega)]; rfl
  rw [hdiv, hmod] at hrs
  rw [hmod] at hsz
  obtain ⟨hm, hk⟩ := ramsFrom_mapping hb hrs
  unfold Discriminator.mapping
  simp only [Int.toNat_natCast] at hm hk
  rw [hm]
  generalize hgrow : (complete && decide (((n % A : Nat) : Int) > 0)) = grow at *
  have hlen : (rnd.shuffle ((List.range n).map Int.ofNat ++ extra)).length = n + extra.length := by
    rw [(rnd.perm _).length_eq]; simp
  rw [hlen] at hk
  have hmem : ∀ a, a ∈ rnd.shuffle ((List.range n).map Int.ofNat ++ extra) → 0 ≤ a ∧ a < (n : Int) := by
    intro a ha
    have := (rnd.perm _).mem_iff.mp ha
    rcases List.mem_append.mp this with h | h
    · exact range_int_mem.mp h
    · exact hl3 a h
  have hAmod := Nat.div_add_mod n A
  have hAlt : n % A < A := Nat.mod_lt _ (by omega)
  -- number of RAMs as a natural number
  have hnum : (if grow = true then ((n / A : Nat) : Int) + 1 else ((n / A : Nat) : Int)).toNat =
      if grow then n / A + 1 else n / A := by
    cases grow
    · exact Int.toNat_natCast _
    · exact Int.toNat_natCast (n / A + 1)
  rw [hnum] at hk
  rw [hnum]
  refine ⟨?_, ?_, ?_, ?_, ?_⟩
  · simp only [List.length_map, List.length_range]
    cases complete with
    | false =>
      have : grow = false := by rw [← hgrow]; simp
      simp [this]
    | true =>
      simp only [Bool.true_and] at hgrow
      by_cases hr : n % A = 0
      · have : grow = false := by rw [← hgrow]; simp [hr]
        simp only [this, Bool.false_eq_true, if_false, if_true]
        exact (div_aux hA2 (q := n / A) (r := A - 1) (by omega) (by omega)).symm
      · have : grow = true := by
          rw [← hgrow]; simp; omega
        simp only [this, if_true]
        exact (div_aux hA2 (q := n / A + 1) (r := n % A - 1) (by
          have : A * (n / A + 1) = A * (n / A) + A := by ring
          omega) (by omega)).symm
  · intro m hm
    obtain ⟨j, hj, rfl⟩ := List.mem_map.mp hm
    have hj : j < if grow then n / A + 1 else n / A := by simpa using hj
    have h1 : (j + 1) * A ≤ (if grow then n / A + 1 else n / A) * A := Nat.mul_le_mul_right A (by omega)
    have h2 : (j + 1) * A = j * A + A := by ring
    simp only [List.length_drop, List.length_take, hlen]
    omega
  · intro m hm a ha
    obtain ⟨j, hj, rfl⟩ := List.mem_map.mp hm
    exact hmem a (List.mem_of_mem_take (List.mem_of_mem_drop ha))
  · intro hc i hi
    rw [chunks_flatten _ _ _ (by rw [hlen]; exact hk)]
    have hfull : (rnd.shuffle ((List.range n).map Int.ofNat ++ extra)).length ≤
        (if grow then n / A + 1 else n / A) * A := by
      rw [hlen, hl2]
      simp only [hc, Bool.true_and] at hgrow
      by_cases hr : n % A = 0
      · have hg : grow = false := by rw [← hgrow]; simp [hr]
        simp only [hg, Bool.false_eq_true, if_false, Except.ok.injEq] at hsz
        rw [← hsz]
        simp only [hg, Bool.false_eq_true, if_false]
        have : n / A * A = A * (n / A) := Nat.mul_comm _ _
        omega
      · have hg : grow = true := by rw [← hgrow]; simp; omega
        simp only [hg, if_true] at hsz
        unfold i32 at hsz
        split at hsz
        · simp only [Except.ok.injEq] at hsz
          rw [← hsz]
          simp only [hg, if_true]
          have : (n / A + 1) * A = A * (n / A) + A := by ring
          omega
        · simp at hsz
    rw [List.take_of_length_le hfull]
    apply (rnd.perm _).mem_iff.mpr
    exact List.mem_append_left _ (range_int_mem.mpr ⟨by omega, by omega⟩)
  · intro hc
    rw [chunks_flatten _ _ _ (by rw [hlen]; exact hk)]
    have hg : grow = false := by rw [← hgrow]; simp [hc]
    simp only [hg, Bool.false_eq_true, if_false, Except.ok.injEq] at hsz
    have he : extra = [] := by
      apply List.eq_nil_of_length_eq_zero
      rw [hl2, ← hsz]; omega
    apply List.Nodup.sublist (List.take_sublist _ _)
    apply (rnd.perm _).nodup_iff.mpr
    rw [he, List.append_nil]
    exact range_int_nodup n

theorem shuffle_succeeds (rnd : Rnd) {n A : Nat} {iz complete : Bool} {base : Int} (hA : 2 ≤ A) (hAn : A ≤ n)
    (hn : n + A ≤ 2147483647) (hb : 2 ≤ base) (hl : Ram.checkLimitAddressSize A base = .ok ()) :
    ∃ d, Discriminator.setRAMShuffle rnd n A iz complete base = .ok d := by
  unfold Discriminator.setRAMShuffle
  have h1 : Discriminator.checkAddressSize n A = .ok () := by
    unfold Discriminator.checkAddressSize
    rw [if_neg (by omega), if_neg (by omega), if_neg (by omega)]
  have h2 : Discriminator.checkBase base = .ok () := by
    unfold Discriminator.checkBase; rw [if_neg (by omega)]
  have hdiv : (n : Int).tdiv A = ((n / A : Nat) : Int) := by
    rw [Int.tdiv_eq_ediv_of_nonneg (by omega)]; rfl
  have hmod : (n : Int).tmod A = ((n % A : Nat) : Int) := by
    rw [Int.tmod_eq_emod_of_nonneg (by omega)]; rfl
  rw [h1, h2, hdiv, hmod]
  simp only [Except.bind_ok]
  have hAmod := Nat.div_add_mod n A
  have hAlt : n % A < A := Nat.mod_lt _ (by omega)
  generalize (complete && decide (((n % A : Nat) : Int) > 0)) = grow at *
  have hsz : ∃ sz : Nat, (if grow = true then i32 ((n : Int) + ((A : Int) - ((n % A : Nat) : Int))) else .ok (n : Int)) = .ok (sz : Int) ∧
      n ≤ sz ∧ (if grow then n / A + 1 else n / A) * A ≤ sz := by
    cases grow with
    | false =>
      refine ⟨n, rfl, Nat.le_refl _, ?_⟩
      have : n / A * A = A * (n / A) := Nat.mul_comm _ _
      simp only [Bool.false_eq_true, if_false]
      omega
    | true =>
      refine ⟨n + (A - n % A), ?_, by omega, ?_⟩
      · rw [if_pos rfl, i32_ok (by omega)]
        congr 1
        omega
      · have : (n / A + 1) * A = A * (n / A) + A := by ring
        simp only [if_true]
        omega
  obtain ⟨sz, e1, e2, e3⟩ := hsz
  rw [e1]
  simp only [Except.bind_ok]
  obtain ⟨l, hl1, hl2, hl3⟩ := fillers_ok rnd (n := n) (by omega) ((sz : Int) - n).toNat 0
  rw [hl1]
  simp only [Except.bind_ok, Int.toNat_natCast]
  have hnum : (if grow = true then ((n / A : Nat) : Int) + 1 else ((n / A : Nat) : Int)).toNat =
      if grow then n / A + 1 else n / A := by
    cases grow
    · exact Int.toNat_natCast _
    · exact Int.toNat_natCast (n / A + 1)
  rw [hnum]
  obtain ⟨rs, hrs⟩ := ramsFrom_succeeds (is := rnd.shuffle ((List.range n).map Int.ofNat ++ l)) (iz := iz) hl
    (if grow then n / A + 1 else n / A) 0 (by
      rw [(rnd.perm _).length_eq]
      simp only [List.length_append, List.length_map, List.length_range, hl2, Nat.zero_add]
      omega)
  rw [hrs]
  exact ⟨_, rfl⟩

/-! ## List of indexes -/

theorem checkIndexesLoop_ok_iff (n : Int) (is : List Int) : ∀ (seen : List Int),
    Discriminator.checkIndexesLoop n is seen = .ok () ↔
      (∀ i ∈ is, i < n) ∧ is.Nodup ∧ ∀ i ∈ is, i ∉ seen := by
  induction is with
  | nil => intro seen; simp [Discriminator.checkIndexesLoop]
  | cons i is ih =>
    intro seen
    simp only [Discriminator.checkIndexesLoop]
    by_cases h1 : i ≥ n
    · rw [if_pos h1]
      simp only [reduceCtorEq, List.forall_mem_cons, false_iff]
      intro h
      have := h.1.1
      omega
    · rw [if_neg h1]
      by_cases h2 : seen.contains i = true
      · rw [if_pos h2]
        simp only [reduceCtorEq, List.forall_mem_cons, false_iff]
        intro h
        exact h.2.2.1 (by simpa using h2)
      · rw [if_neg h2, ih]
        have h2 : i ∉ seen := by simpa using h2
        rw [List.forall_mem_cons, List.forall_mem_cons, List.nodup_cons]
        simp only [List.mem_cons, not_or]
        constructor
        · rintro ⟨a, b, c⟩
          exact ⟨⟨by omega, a⟩, ⟨fun h => (c i h).1 rfl, b⟩, h2, fun x hx => (c x hx).2⟩
        · rintro ⟨⟨_, a⟩, ⟨b, c⟩, d, e⟩
          exact ⟨a, c, fun x hx => ⟨fun e' => b (e' ▸ hx), e x hx⟩⟩

theorem checkListOfIndexes_ok_iff (is : List Int) (n : Int) :
    Discriminator.checkListOfIndexes is n = .ok () ↔
      (is.length : Int) = n ∧ (∀ i ∈ is, i < n) ∧ is.Nodup := by
  unfold Discriminator.checkListOfIndexes
  by_cases h : (is.length : Int) ≠ n
  · rw [if_pos h]
    simp only [reduceCtorEq, false_iff]
    exact fun hh => h hh.1
  · rw [if_neg h, checkIndexesLoop_ok_iff]
    have h : (is.length : Int) = n := by simpa using h
    simp [h]

theorem setRAMByIndex_ok {is : List Int} {n A : Nat} {iz : Bool} {base : Int} {d : Discriminator}
    (h : Discriminator.setRAMByIndex is n A iz base = .ok d) :
    2 ≤ A ∧ A ≤ n ∧ is.length = n ∧ (∀ i ∈ is, i < (n : Int)) ∧ is.Nodup ∧
    d.mapping = (List.range (n / A)).map (fun r => (is.take ((r + 1) * A)).drop (r * A)) := by
  unfold Discriminator.setRAMByIndex at h
  obtain ⟨_, hA, h⟩ := bind_eq_ok h
  obtain ⟨_, hb, h⟩ := bind_eq_ok h
  obtain ⟨_, hc, h⟩ := bind_eq_ok h
  obtain ⟨rs, hrs, h⟩ := bind_eq_ok h
  simp only [Except.ok.injEq] at h
  subst h
  have hb := checkBase_ok hb
  obtain ⟨hA2, hAn⟩ := checkAddressSize_ok hA
  obtain ⟨h1, h2, h3⟩ := (checkListOfIndexes_ok_iff is n).mp hc
  have hdiv : (n : Int).tdiv A = ((n / A : Nat) : Int) := by
    rw [Int.tdiv_eq_ediv_of_nonneg (by omega)]; rfl
  rw [hdiv] at hrs
  simp only [Int.toNat_natCast] at hrs
  refine ⟨by omega, by omega, by omega, h2, h3, ?_⟩
  exact (ramsFrom_mapping hb hrs).1

theorem setRAMByIndex_succeeds {is : List Int} {n A : Nat} {iz : Bool} {base : Int} (hA : 2 ≤ A) (hAn : A ≤ n)
    (hb : 2 ≤ base) (hl : Ram.checkLimitAddressSize A base = .ok ()) (h1 : is.length = n)
    (h2 : ∀ i ∈ is, i < (n : Int)) (h3 : is.Nodup) :
    ∃ d, Discriminator.setRAMByIndex is n A iz base = .ok d := by
  unfold Discriminator.setRAMByIndex
  have e1 : Discriminator.checkAddressSize n A = .ok () := by
    unfold Discriminator.checkAddressSize
    rw [if_neg (by omega), if_neg (by omega), if_neg (by omega)]
  have e2 : Discriminator.checkBase base = .ok () := by
    unfold Discriminator.checkBase; rw [if_neg (by omega)]
  have e3 := (checkListOfIndexes_ok_iff is n).mpr ⟨by omega, h2, h3⟩
  have hdiv : (n : Int).tdiv A = ((n / A : Nat) : Int) := by
    rw [Int.tdiv_eq_ediv_of_nonneg (by omega)]; rfl
  rw [e1, e2, e3, hdiv]
  simp only [Except.bind_ok, Int.toNat_natCast]
  obtain ⟨rs, hrs⟩ := ramsFrom_succeeds (is := is) (iz := iz) hl (n / A) 0 (by
    have := Nat.div_mul_le_self n A
    simp; omega)
  rw [hrs]
  exact ⟨_, rfl⟩

theorem ramsOfMapping_succeeds {iz : Bool} {base : Int} (ms : List (List Int))
    (h : ∀ m ∈ ms, Ram.checkLimitAddressSize m.length base = .ok ()) :
    ∃ rs, Discriminator.ramsOfMapping iz base ms = .ok rs := by
  induction ms with
  | nil => exact ⟨[], rfl⟩
  | cons m ms ih =>
    obtain ⟨rs, hrs⟩ := ih (fun m hm => h m (List.mem_cons_of_mem _ hm))
    simp only [Discriminator.ramsOfMapping, Ram.create]
    rw [h m (by simp)]
    simp only [Except.bind_ok, hrs]
    exact ⟨_, rfl⟩

/-- A permutation of `0..n-1` is a duplicate-free list of `n` numbers in that range. -/
theorem perm_range_of {is : List Int} {n : Nat} (h1 : is.length = n) (h2 : ∀ i ∈ is, 0 ≤ i ∧ i < (n : Int))
    (h3 : is.Nodup) : is.Perm ((List.range n).map Int.ofNat) := by
  have hsub : is.Subperm ((List.range n).map Int.ofNat) :=
    List.subperm_of_subset h3 (fun a ha => range_int_mem.mpr (h2 a ha))
  exact hsub.perm_of_length_le (by simp [h1])

end Wis
