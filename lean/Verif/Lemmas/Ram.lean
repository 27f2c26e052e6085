import Verif.Spec.History
import Verif.Lemmas.Ipow
import Mathlib.Algebra.Order.BigOperators.Group.List
/-! Helper lemmas for RAM addressing and contents. -/

namespace Wis
open Spec

/-! ## Positional numbers -/

/-- Value of a digit list, least significant digit first. -/
def dval (base : Int) : List Int → Int
  | [] => 0
  | v :: vs => v + base * dval base vs

theorem dval_bound {base : Int} (hb : 1 ≤ base) (vs : List Int) (h : ∀ v ∈ vs, 0 ≤ v ∧ v < base) :
    0 ≤ dval base vs ∧ dval base vs < base ^ vs.length := by
  induction vs with
  | nil => simp [dval]
  | cons v vs ih =>
    obtain ⟨h1, h2⟩ := ih (fun x hx => h x (List.mem_cons_of_mem _ hx))
    obtain ⟨h3, h4⟩ := h v (by simp)
    simp only [dval, List.length_cons, Int.pow_succ]
    have h5 : 0 ≤ base * dval base vs := Int.mul_nonneg (by omega) h1
    have h6 : base * (dval base vs + 1) ≤ base * base ^ vs.length :=
      Int.mul_le_mul_of_nonneg_left (by omega) (by omega)
    have h7 : base * (dval base vs + 1) = base * dval base vs + base := by ring
    have h8 : base * base ^ vs.length = base ^ vs.length * base := Int.mul_comm _ _
    omega

theorem dval_emod {base : Int} {v : Int} (h : 0 ≤ v ∧ v < base) (vs : List Int) :
    dval base (v :: vs) % base = v ∧ dval base (v :: vs) / base = dval base vs := by
  simp only [dval]
  constructor
  · rw [Int.add_mul_emod_self_left, Int.emod_eq_of_lt h.1 h.2]
  · rw [Int.add_mul_ediv_left _ _ (by omega), Int.ediv_eq_zero_of_lt h.1 h.2]; omega

theorem dval_inj {base : Int} (vs : List Int) : ∀ (ws : List Int), vs.length = ws.length →
    (∀ v ∈ vs, 0 ≤ v ∧ v < base) → (∀ v ∈ ws, 0 ≤ v ∧ v < base) → dval base vs = dval base ws →
    vs = ws := by
  induction vs with
  | nil => intro ws hl _ _ _; cases ws with | nil => rfl | cons _ _ => simp at hl
  | cons v vs ih =>
    intro ws hl hv hw h
    cases ws with
    | nil => simp at hl
    | cons w ws =>
      obtain ⟨a1, a2⟩ := dval_emod (hv v (by simp)) vs
      obtain ⟨b1, b2⟩ := dval_emod (hw w (by simp)) ws
      rw [h] at a1 a2
      have e1 : v = w := by rw [← a1, b1]
      have e2 : dval base vs = dval base ws := by rw [← a2, b2]
      rw [e1, ih ws (by simpa using hl) (fun x hx => hv x (List.mem_cons_of_mem _ hx))
        (fun x hx => hw x (List.mem_cons_of_mem _ hx)) e2]

theorem toNat_ofInt {z : Int} (h0 : 0 ≤ z) (h1 : z < 2 ^ 64) : ((BitVec.ofInt 64 z).toNat : Int) = z := by
  rw [BitVec.toNat_ofInt]
  have : z % ((2 ^ 64 : Nat) : Int) = z := Int.emod_eq_of_lt h0 (by simpa using h1)
  omega

/-! ## Reading and indexing -/

theorem indexLoop_ok (img : Image) (base : Int) (as : List Int) : ∀ (vs : List Int) (index p : Addr),
    as.map img.read = vs.map Except.ok → (∀ v ∈ vs, v < base) →
    Ram.indexLoop img base as index p = .ok (index + p * BitVec.ofInt 64 (dval base vs)) := by
  induction as with
  | nil =>
    intro vs index p h _
    cases vs with
    | nil => simp [Ram.indexLoop, dval]
    | cons _ _ => simp at h
  | cons a as ih =>
    intro vs index p h hv
    cases vs with
    | nil => simp at h
    | cons v vs =>
      simp only [List.map_cons, List.cons.injEq] at h
      simp only [Ram.indexLoop]
      rw [h.1]
      simp only [Except.bind_ok]
      have := hv v (by simp)
      rw [if_neg (by omega), ih vs _ _ h.2 (fun x hx => hv x (List.mem_cons_of_mem _ hx))]
      simp only [dval, BitVec.ofInt_add, BitVec.ofInt_mul, BitVec.mul_add]
      rw [BitVec.mul_comm (BitVec.ofInt 64 v) p, BitVec.mul_assoc, BitVec.add_assoc]

/-- The values read by a RAM wired to `as`. -/
def readVals (img : Image) (as : List Int) : List Int :=
  as.map (fun a => match img.read a with | .ok v => v | .error _ => 0)

theorem read_of_valid {n base : Int} {img : Image} (hv : ValidImage n base img) {a : Int}
    (ha : 0 ≤ a ∧ a < n) : ∃ v, img.read a = .ok v ∧ 0 ≤ v ∧ v < base := by
  have h1 := hv.1
  obtain ⟨v, h⟩ := hv.2 a.toNat (by omega)
  rw [Int.toNat_of_nonneg ha.1] at h
  exact ⟨v, h⟩

theorem readVals_spec {n base : Int} {img : Image} (hv : ValidImage n base img) {as : List Int}
    (ha : ∀ a ∈ as, 0 ≤ a ∧ a < n) :
    as.map img.read = (readVals img as).map Except.ok ∧ ∀ v ∈ readVals img as, 0 ≤ v ∧ v < base := by
  unfold readVals
  constructor
  · rw [List.map_map]
    apply List.map_congr_left
    intro a h
    obtain ⟨v, h1, _⟩ := read_of_valid hv (ha a h)
    simp [h1]
  · intro v hm
    simp only [List.mem_map] at hm
    obtain ⟨a, h, rfl⟩ := hm
    obtain ⟨v, h1, h2⟩ := read_of_valid hv (ha a h)
    simpa [h1] using h2

/-- The address computed for a valid image. -/
def key (base : Int) (as : List Int) (img : Image) : Addr := BitVec.ofInt 64 (dval base (readVals img as))

theorem getIndex_valid {n : Int} {r : Ram} {img : Image} (hv : ValidImage n r.base img)
    (ha : ∀ a ∈ r.addresses, 0 ≤ a ∧ a < n) : r.getIndex img = .ok (key r.base r.addresses img) := by
  obtain ⟨h1, h2⟩ := readVals_spec hv ha
  unfold Ram.getIndex key
  rw [indexLoop_ok img r.base r.addresses _ 0 1 h1 (fun v h => (h2 v h).2)]
  simp

theorem readVals_eq_iff {n base : Int} {x y : Image} (hx : ValidImage n base x) (hy : ValidImage n base y)
    {as : List Int} (ha : ∀ a ∈ as, 0 ≤ a ∧ a < n) : readVals x as = readVals y as ↔ Agree as x y := by
  unfold readVals Agree
  rw [List.map_inj_left]
  constructor
  · intro h a hm
    obtain ⟨v, h1, _⟩ := read_of_valid hx (ha a hm)
    obtain ⟨w, h2, _⟩ := read_of_valid hy (ha a hm)
    have := h a hm
    simp only [h1, h2] at this
    rw [h1, h2, this]
  · intro h a hm
    rw [h a hm]

/-- No two different patterns share an address. -/
theorem key_eq_iff {n base : Int} (hb : 1 ≤ base) {x y : Image} (hx : ValidImage n base x)
    (hy : ValidImage n base y) {as : List Int} (ha : ∀ a ∈ as, 0 ≤ a ∧ a < n)
    (hfit : base ^ as.length ≤ 2 ^ 64) : key base as x = key base as y ↔ Agree as x y := by
  rw [← readVals_eq_iff hx hy ha]
  constructor
  · intro h
    obtain ⟨_, h1⟩ := readVals_spec hx ha
    obtain ⟨_, h2⟩ := readVals_spec hy ha
    obtain ⟨a1, a2⟩ := dval_bound hb _ h1
    obtain ⟨b1, b2⟩ := dval_bound hb _ h2
    have l1 : (readVals x as).length = as.length := by simp [readVals]
    have l2 : (readVals y as).length = as.length := by simp [readVals]
    rw [l1] at a2
    rw [l2] at b2
    apply dval_inj _ _ (by rw [l1, l2]) h1 h2
    unfold key at h
    have e1 := toNat_ofInt a1 (by omega)
    have e2 := toNat_ofInt b1 (by omega)
    rw [← e1, ← e2, h]
  · intro h
    unfold key
    rw [h]

theorem dval_eq_zero {base : Int} (hb : 1 ≤ base) (vs : List Int) (h : ∀ v ∈ vs, 0 ≤ v ∧ v < base) :
    dval base vs = 0 ↔ ∀ v ∈ vs, v = 0 := by
  induction vs with
  | nil => simp [dval]
  | cons v vs ih =>
    have ih := ih (fun x hx => h x (List.mem_cons_of_mem _ hx))
    have h1 := (dval_bound hb vs (fun x hx => h x (List.mem_cons_of_mem _ hx))).1
    have h2 := h v (by simp)
    simp only [dval, List.forall_mem_cons]
    rw [← ih]
    have h3 : 0 ≤ base * dval base vs := Int.mul_nonneg (by omega) h1
    constructor
    · intro he
      refine ⟨by omega, ?_⟩
      have : base * dval base vs = 0 := by omega
      rcases Int.mul_eq_zero.mp this with h | h
      · omega
      · exact h
    · rintro ⟨e1, e2⟩
      rw [e1, e2]; simp

theorem key_eq_zero_iff {n base : Int} (hb : 1 ≤ base) {x : Image} (hx : ValidImage n base x)
    {as : List Int} (ha : ∀ a ∈ as, 0 ≤ a ∧ a < n) (hfit : base ^ as.length ≤ 2 ^ 64) :
    key base as x = 0 ↔ ZeroOn as x := by
  obtain ⟨_, h1⟩ := readVals_spec hx ha
  obtain ⟨a1, a2⟩ := dval_bound hb _ h1
  have l1 : (readVals x as).length = as.length := by simp [readVals]
  rw [l1] at a2
  have e1 := toNat_ofInt a1 (by omega)
  have : key base as x = 0 ↔ dval base (readVals x as) = 0 := by
    unfold key
    constructor
    · intro h
      rw [h] at e1
      simpa using e1.symm
    · intro h; rw [h]; rfl
  rw [this, dval_eq_zero hb _ h1]
  unfold readVals ZeroOn
  simp only [List.mem_map, forall_exists_index, and_imp, forall_apply_eq_imp_iff₂]
  constructor
  · intro h a hm
    obtain ⟨v, h2, _⟩ := read_of_valid hx (ha a hm)
    have := h a hm
    simp only [h2] at this
    rw [h2, this]
  · intro h a hm
    rw [h a hm]

/-! ## Contents -/

namespace RamT

/-- keys -/
def keys (m : RamT) : List Addr := m.map (·.1)

theorem find_set (m : RamT) (k k' : Addr) (c : Int) :
    (m.set k c).find k' = if k' = k then some c else m.find k' := by
  induction m with
  | nil =>
    simp only [set, find]
    by_cases h : k = k' <;> simp [h, eq_comm]
  | cons e m ih =>
    obtain ⟨a, b⟩ := e
    simp only [set]
    by_cases h : a = k
    · subst h
      simp only [if_true, find]
      by_cases h2 : a = k'
      · simp [h2]
      · rw [if_neg h2, if_neg h2, if_neg (fun e => h2 e.symm)]
    · simp only [h, if_false, find, ih]
      by_cases h2 : a = k'
      · subst h2
        simp [h]
      · simp [h2]

theorem keys_set (m : RamT) (k : Addr) (c : Int) :
    (m.set k c).keys = if k ∈ m.keys then m.keys else m.keys ++ [k] := by
  induction m with
  | nil => simp [set, keys]
  | cons e m ih =>
    obtain ⟨a, b⟩ := e
    simp only [set]
    by_cases h : a = k
    · subst h; simp [keys]
    · simp only [h, if_false]
      simp only [keys, List.map_cons, List.mem_cons] at ih ⊢
      rw [ih]
      have : ¬ k = a := fun e => h e.symm
      simp only [this, false_or]
      split
      · rename_i h1; simp [h1]
      · rename_i h1; simp [h1]

theorem mem_keys_of_find {m : RamT} {k : Addr} {c : Int} (h : m.find k = some c) : (k, c) ∈ m := by
  induction m with
  | nil => simp [find] at h
  | cons e m ih =>
    obtain ⟨a, b⟩ := e
    simp only [find] at h
    split at h
    · rename_i ha
      simp only [Option.some.injEq] at h
      subst ha; subst h; simp
    · exact List.mem_cons_of_mem _ (ih h)

theorem find_none_iff (m : RamT) (k : Addr) : m.find k = none ↔ k ∉ m.keys := by
  induction m with
  | nil => simp [find, keys]
  | cons e m ih =>
    obtain ⟨a, b⟩ := e
    simp only [find, keys, List.map_cons, List.mem_cons, not_or] at ih ⊢
    by_cases h : a = k
    · subst h; simp
    · simp only [h, if_false, ih]
      constructor
      · intro h2; exact ⟨fun e => h e.symm, h2⟩
      · exact fun h2 => h2.2

theorem find_of_mem {m : RamT} (hn : m.keys.Nodup) {k : Addr} {c : Int} (h : (k, c) ∈ m) :
    m.find k = some c := by
  induction m with
  | nil => simp at h
  | cons e m ih =>
    obtain ⟨a, b⟩ := e
    simp only [keys, List.map_cons, List.nodup_cons] at hn
    rcases List.mem_cons.mp h with h | h
    · cases h; simp [find]
    · simp only [find]
      by_cases ha : a = k
      · subst ha
        exact absurd (List.mem_map.mpr ⟨_, h, rfl⟩) hn.1
      · rw [if_neg ha]; exact ih hn.2 h

theorem nodup_set {m : RamT} (h : m.keys.Nodup) (k : Addr) (c : Int) : (m.set k c).keys.Nodup := by
  rw [keys_set]
  split
  · exact h
  · rename_i hk
    rw [List.nodup_append]
    refine ⟨h, by simp, ?_⟩
    intro a ha b hb
    simp only [List.mem_singleton] at hb
    subst hb
    intro e; subst e; exact hk ha

theorem find_perm {m m' : RamT} (hp : m.Perm m') (hn : m.keys.Nodup) (k : Addr) :
    m.find k = m'.find k := by
  have hn' : m'.keys.Nodup := (hp.map (fun e : Addr × Int => e.1)).nodup_iff.mp hn
  cases h : m.find k with
  | none =>
    rw [find_none_iff] at h
    symm
    rw [find_none_iff]
    intro hm
    exact h ((hp.map (fun e : Addr × Int => e.1)).mem_iff.mpr hm)
  | some c =>
    have := mem_keys_of_find h
    exact (find_of_mem hn' (hp.mem_iff.mp this)).symm

/-- Sum of the counters whose address satisfies `P`. -/
def wsum (P : Addr → Bool) (m : RamT) : Int := (m.map (fun e => if P e.1 then e.2 else 0)).sum

theorem wsum_set (P : Addr → Bool) (m : RamT) (k : Addr) (c : Int) :
    wsum P (m.set k c) = wsum P m + if P k then c - (m.find k).getD 0 else 0 := by
  induction m with
  | nil => simp [set, wsum, find]
  | cons e m ih =>
    obtain ⟨a, b⟩ := e
    simp only [set]
    by_cases h : a = k
    · subst h
      simp only [if_true, wsum, List.map_cons, List.sum_cons, find, Option.getD_some]
      split <;> omega
    · simp only [h, if_false, wsum, List.map_cons, List.sum_cons, find] at ih ⊢
      rw [ih]; omega

theorem wsum_perm (P : Addr → Bool) {m m' : RamT} (h : m.Perm m') : wsum P m = wsum P m' :=
  (h.map _).sum_eq

end RamT
end Wis
