import Verif.Spec.LoadJson
import Verif.Props.JsonDoc
import Mathlib.Data.Rat.Floor
/-!
# C114, C115: what the constructors read from a JSON document
-/

namespace Wis
open Spec

/-! ## Members -/

theorem find_first (m : List (Str × Json)) (k : Str) : SMap.find m k = (m.find? (fun e => decide (e.1 = k))).map (·.2) := by
  induction m with
  | nil => rfl
  | cons e m ih =>
    obtain ⟨k', v⟩ := e
    rw [SMap.find, List.find?_cons]
    by_cases hk : k' = k
    · subst hk; simp
    · simp only [decide_eq_false hk]
      rw [if_neg hk]
      exact ih

theorem key_obj (m : List (Str × Json)) (k : Str) : (Json.obj m).key k = .ok (valueOf m k) := by
  rw [valueOf, ← find_first]; rfl

theorem valueOf_find (m : List (Str × Json)) (k : Str) : valueOf m k = (SMap.find m k).getD .null := by rw [valueOf, ← find_first]

theorem valueOf_set (m : List (Str × Json)) (k : Str) (v : Json) (k' : Str) :
    valueOf (SMap.set m k v) k' = if k' = k then v else valueOf m k' := by
  rw [valueOf_find, valueOf_find]
  split
  · rename_i h; subst h; rw [SMap.find_set_self]; rfl
  · rename_i h; rw [SMap.find_set_ne _ _ h]

theorem valueOf_cons (m : List (Str × Json)) (k : Str) (v : Json) (k' : Str) :
    valueOf ((k, v) :: m) k' = if k' = k then v else valueOf m k' := by
  rw [valueOf_find, valueOf_find, SMap.find]
  by_cases h : k = k'
  · subst h; simp
  · rw [if_neg h, if_neg (fun e => h e.symm)]

/-! ## Values -/

theorem asBool_iff {j : Json} {b : Bool} : j.asBool = .ok b ↔ IsBool j b := by
  constructor
  · intro h
    cases j <;> cases h
    exact .bool _
  · rintro ⟨⟩; rfl

theorem toInt_mod {i v : Int} (hv : InI32 v) : (BitVec.ofInt 32 i).toInt = v ↔ (4294967296 : Int) ∣ i - v := by
  obtain ⟨h1, h2⟩ := hv
  rw [BitVec.toInt_ofInt]
  constructor
  · intro h
    have := Int.bmod_emod (x := i) (m := 2 ^ 32)
    rw [h] at this
    exact Int.dvd_of_emod_eq_zero (by rw [Int.sub_emod]; simp only [Nat.reducePow, Nat.cast_ofNat] at this; rw [this]; simp)
  · rintro ⟨k, hk⟩
    have : i = v + 4294967296 * k := by omega
    subst this
    unfold Int.bmod
    simp only [Nat.reducePow, Nat.cast_ofNat]
    omega

theorem toInt_range (i : Int) : InI32 (BitVec.ofInt 32 i).toInt := by
  have h1 := BitVec.toInt_lt (x := BitVec.ofInt 32 i)
  have h2 := BitVec.le_toInt (x := BitVec.ofInt 32 i)
  unfold InI32
  omega

theorem trunc_iff (q : Rat) (v : Int) : q.num.tdiv q.den = v ↔
    (0 ≤ q → (v : Rat) ≤ q ∧ q < v + 1) ∧ (q < 0 → q ≤ v ∧ (v : Rat) - 1 < q) := by
  have hd : (0 : Int) < q.den := Int.natCast_pos.mpr q.den_pos
  by_cases h : 0 ≤ q
  · have hn : 0 ≤ q.num := Rat.num_nonneg.mpr h
    rw [Int.tdiv_eq_ediv_of_nonneg hn, ← Rat.floor_def']
    constructor
    · intro e
      refine ⟨fun _ => ?_, fun h' => absurd h (not_le.mpr h')⟩
      exact (Int.floor_eq_iff (a := q)).mp e
    · intro ⟨e, _⟩
      exact (Int.floor_eq_iff (a := q)).mpr (e h)
  · have h' : q < 0 := not_le.mp h
    have e1 : q.num.tdiv q.den = -((-q).num.tdiv (-q).den) := by
      rw [Rat.neg_num, Rat.neg_den, Int.neg_tdiv, neg_neg]
    have hn : 0 ≤ (-q).num := Rat.num_nonneg.mpr (by linarith)
    rw [e1, Int.tdiv_eq_ediv_of_nonneg hn, ← Rat.floor_def']
    have e2 : (-⌊-q⌋ = v) ↔ ⌊-q⌋ = -v := by omega
    constructor
    · intro e
      refine ⟨fun hq => absurd hq h, fun _ => ?_⟩
      have := (Int.floor_eq_iff (a := -q)).mp (e2.mp e)
      push_cast at this
      constructor <;> linarith
    · intro ⟨_, e⟩
      refine e2.mpr ((Int.floor_eq_iff (a := -q)).mpr ?_)
      have := e h'
      push_cast
      constructor <;> linarith

theorem asInt_iff {j : Json} {v : Int} : j.asInt = .ok v ↔ IsInt j v := by
  constructor
  · intro h
    cases j with
    | int i =>
      simp only [Json.asInt, Json.narrow, Except.ok.injEq] at h
      subst h
      exact .int (toInt_range i) ((toInt_mod (toInt_range i)).mp rfl)
    | bool b => cases h; exact .bool b
    | real q =>
      simp only [Json.asInt, i32] at h
      split at h
      · cases h
        rename_i h
        exact .real h ((trunc_iff q _).mp rfl).1 ((trunc_iff q _).mp rfl).2
      · cases h
    | _ => cases h
  · intro h
    cases h with
    | int h1 h2 => simp only [Json.asInt, Json.narrow, (toInt_mod h1).mpr h2]
    | bool b => rfl
    | real h1 h2 h3 =>
      simp only [Json.asInt, i32, (trunc_iff _ _).mpr ⟨h2, h3⟩]
      rw [if_pos h1]

theorem asUInt_iff {j : Json} {v : Nat} : j.asUInt = .ok v ↔ IsUInt j v := by
  have hmod : ∀ (i : Int) (v : Nat), v < 4294967296 → ((BitVec.ofInt 32 i).toNat = v ↔ (4294967296 : Int) ∣ i - v) := by
    intro i v hv
    rw [BitVec.toNat_ofInt]
    simp only [Nat.reducePow, Nat.cast_ofNat]
    omega
  constructor
  · intro h
    cases j with
    | int i =>
      simp only [Json.asUInt, Except.ok.injEq] at h
      subst h
      have : (BitVec.ofInt 32 i).toNat < 4294967296 := (BitVec.ofInt 32 i).isLt
      exact .int this ((hmod i _ this).mp rfl)
    | bool b => cases h; exact .bool b
    | real q =>
      simp only [Json.asUInt] at h
      split at h
      · rename_i h0
        cases h
        obtain ⟨a1, a2⟩ := h0
        have e : (((q.num.tdiv q.den).toNat : Nat) : Int) = q.num.tdiv q.den := by omega
        have ht := (trunc_iff q (q.num.tdiv q.den)).mp rfl
        rw [← e] at ht
        refine .real (by omega) (by intro hq; have := ht.1 hq; rwa [Int.cast_natCast] at this) ?_
        intro hq
        have h2 := ht.2 hq
        have hn : q.num < 0 := Rat.num_neg.mpr hq
        have h3 : q.num.tdiv q.den ≤ 0 := by
          have h5 := Int.tdiv_nonneg (a := -q.num) (b := q.den) (by omega) (by omega)
          rw [Int.neg_tdiv] at h5
          omega
        have h4 : (q.num.tdiv q.den).toNat = 0 := by omega
        rw [h4] at h2 ⊢
        refine ⟨rfl, ?_⟩
        have := h2.2
        push_cast at this
        linarith
      · cases h
    | _ => cases h
  · intro h
    cases h with
    | int h1 h2 => simp only [Json.asUInt, (hmod _ _ h1).mpr h2]
    | bool b => rfl
    | @real q v h1 h2 h3 =>
      have ht : q.num.tdiv q.den = ((v : Nat) : Int) := (trunc_iff _ _).mpr ⟨by simpa using h2, by
        intro hq
        obtain ⟨rfl, h⟩ := h3 hq
        push_cast
        constructor <;> linarith⟩
      simp only [Json.asUInt, ht]
      rw [if_pos ⟨by omega, by omega⟩]
      simp

theorem asReal_iff {j : Json} {q : Rat} : j.asReal = .ok q ↔ IsFloating j q := by
  constructor
  · intro h
    cases j <;> cases h
    · exact .bool _
    · exact .int _
    · exact .real _
  · rintro ⟨⟩ <;> rfl

theorem intsOf_iff : ∀ {l : List Json} {v : List Int}, Json.intsOf l = .ok v ↔ List.Forall₂ IsInt l v := by
  intro l
  induction l with
  | nil =>
    intro v
    constructor
    · intro h; cases h; exact .nil
    · intro h; cases h; rfl
  | cons j l ih =>
    intro v
    constructor
    · intro h
      rw [Json.intsOf] at h
      obtain ⟨i, h1, h⟩ := bind_eq_ok h
      obtain ⟨is, h2, h⟩ := bind_eq_ok h
      cases h
      exact .cons (asInt_iff.mp h1) (ih.mp h2)
    · intro h
      cases h with
      | cons h1 h2 => rw [Json.intsOf, asInt_iff.mpr h1, Except.bind_ok, ih.mpr h2]; rfl

theorem asInts_iff {j : Json} {v : List Int} : j.asInts = .ok v ↔ IsInts j v := by
  constructor
  · intro h
    cases j with
    | arr l => exact .arr (intsOf_iff.mp h)
    | _ => cases h
  · rintro ⟨h⟩; exact intsOf_iff.mpr h

theorem intssOf_iff : ∀ {l : List Json} {v : List (List Int)}, Json.intssOf l = .ok v ↔ List.Forall₂ IsInts l v := by
  intro l
  induction l with
  | nil =>
    intro v
    constructor
    · intro h; cases h; exact .nil
    · intro h; cases h; rfl
  | cons j l ih =>
    intro v
    constructor
    · intro h
      rw [Json.intssOf] at h
      obtain ⟨i, h1, h⟩ := bind_eq_ok h
      obtain ⟨is, h2, h⟩ := bind_eq_ok h
      cases h
      exact .cons (asInts_iff.mp h1) (ih.mp h2)
    · intro h
      cases h with
      | cons h1 h2 => rw [Json.intssOf, asInts_iff.mpr h1, Except.bind_ok, ih.mpr h2]; rfl

theorem asIntss_iff {j : Json} {v : List (List Int)} : j.asIntss = .ok v ↔ IsIntss j v := by
  constructor
  · intro h
    cases j with
    | arr l => exact .arr (intssOf_iff.mp h)
    | _ => cases h
  · rintro ⟨h⟩; exact intssOf_iff.mpr h

theorem mappingOf_iff : ∀ {l : List (Str × Json)} {v : SMap (List (List Int))}, Json.mappingOf l = .ok v ↔
    List.Forall₂ (fun e x => x.1 = e.1 ∧ IsIntss e.2 x.2) l v := by
  intro l
  induction l with
  | nil =>
    intro v
    constructor
    · intro h; cases h; exact .nil
    · intro h; cases h; rfl
  | cons j l ih =>
    intro v
    obtain ⟨k, j⟩ := j
    constructor
    · intro h
      rw [Json.mappingOf] at h
      obtain ⟨i, h1, h⟩ := bind_eq_ok h
      obtain ⟨is, h2, h⟩ := bind_eq_ok h
      cases h
      exact .cons ⟨rfl, asIntss_iff.mp h1⟩ (ih.mp h2)
    · intro h
      cases h with
      | @cons _ b _ _ h1 h2 =>
        obtain ⟨k', x⟩ := b
        obtain ⟨rfl, h1⟩ := h1
        rw [Json.mappingOf, asIntss_iff.mpr h1, Except.bind_ok, ih.mpr h2]; rfl

theorem asMapping_iff {j : Json} {v : SMap (List (List Int))} : j.asMapping = .ok v ↔ IsMapping j v := by
  constructor
  · intro h
    cases j with
    | obj l => exact .obj (mappingOf_iff.mp h)
    | _ => cases h
  · rintro ⟨h⟩; exact mappingOf_iff.mpr h

theorem isNull_iff {j : Json} : j.isNull = true ↔ j = .null := by cases j <;> simp [Json.isNull]

theorem opt_iff {α : Type} {m : List (Str × Json)} {k : Str} {d x : α} {get : Json → Res α} {is : Json → α → Prop}
    (h : ∀ {j x}, get j = .ok x ↔ is j x) : (Json.obj m).opt k d get = .ok x ↔ Reads m k is d x := by
  unfold Json.opt Reads
  rw [key_obj, Except.bind_ok]
  by_cases hn : valueOf m k = .null
  · rw [if_pos (isNull_iff.mpr hn)]
    constructor
    · intro e; cases e; exact Or.inl ⟨hn, rfl⟩
    · rintro (⟨_, rfl⟩ | ⟨e, _⟩)
      · rfl
      · exact absurd hn e
  · rw [if_neg (fun e => hn (isNull_iff.mp e)), h]
    constructor
    · intro e; exact Or.inr ⟨hn, e⟩
    · rintro (⟨e, _⟩ | ⟨_, e⟩)
      · exact absurd e hn
      · exact e

/-! ## Options -/

theorem wisardOpts_iff {m : List (Str × Json)} {o : WisardOpts} : Wisard.optsOfJson (.obj m) = .ok o ↔ WisardReads m o := by
  constructor
  · intro h
    unfold Wisard.optsOfJson at h
    obtain ⟨x1, h1, h⟩ := bind_eq_ok h
    obtain ⟨x2, h2, h⟩ := bind_eq_ok h
    obtain ⟨x3, h3, h⟩ := bind_eq_ok h
    obtain ⟨x4, h4, h⟩ := bind_eq_ok h
    obtain ⟨x5, h5, h⟩ := bind_eq_ok h
    obtain ⟨x6, h6, h⟩ := bind_eq_ok h
    obtain ⟨x7, h7, h⟩ := bind_eq_ok h
    obtain ⟨x8, h8, h⟩ := bind_eq_ok h
    obtain ⟨x9, h9, h⟩ := bind_eq_ok h
    obtain ⟨x10, h10, h⟩ := bind_eq_ok h
    obtain ⟨x11, h11, h⟩ := bind_eq_ok h
    obtain ⟨x12, h12, h⟩ := bind_eq_ok h
    cases h
    exact ⟨(opt_iff asBool_iff).mp h1, (opt_iff asBool_iff).mp h2, (opt_iff asBool_iff).mp h3, (opt_iff asBool_iff).mp h4,
      (opt_iff asMapping_iff).mp h5, (opt_iff asInts_iff).mp h6, (opt_iff asInt_iff).mp h7, (opt_iff asInt_iff).mp h8,
      (opt_iff asBool_iff).mp h9, (opt_iff asBool_iff).mp h10, (opt_iff asBool_iff).mp h11, (opt_iff asBool_iff).mp h12⟩
  · rintro ⟨h1, h2, h3, h4, h5, h6, h7, h8, h9, h10, h11, h12⟩
    unfold Wisard.optsOfJson
    rw [(opt_iff asBool_iff).mpr h1, Except.bind_ok, (opt_iff asBool_iff).mpr h2, Except.bind_ok, (opt_iff asBool_iff).mpr h3,
      Except.bind_ok, (opt_iff asBool_iff).mpr h4, Except.bind_ok, (opt_iff asMapping_iff).mpr h5, Except.bind_ok,
      (opt_iff asInts_iff).mpr h6, Except.bind_ok, (opt_iff asInt_iff).mpr h7, Except.bind_ok, (opt_iff asInt_iff).mpr h8,
      Except.bind_ok, (opt_iff asBool_iff).mpr h9, Except.bind_ok, (opt_iff asBool_iff).mpr h10, Except.bind_ok,
      (opt_iff asBool_iff).mpr h11, Except.bind_ok, (opt_iff asBool_iff).mpr h12, Except.bind_ok]

theorem clusOpts_iff {m : List (Str × Json)} {o : ClusOpts} : ClusWisard.optsOfJson (.obj m) = .ok o ↔ ClusReads m o := by
  constructor
  · intro h
    unfold ClusWisard.optsOfJson at h
    obtain ⟨x1, h1, h⟩ := bind_eq_ok h
    obtain ⟨x2, h2, h⟩ := bind_eq_ok h
    obtain ⟨x3, h3, h⟩ := bind_eq_ok h
    obtain ⟨x4, h4, h⟩ := bind_eq_ok h
    obtain ⟨x7, h7, h⟩ := bind_eq_ok h
    obtain ⟨x8, h8, h⟩ := bind_eq_ok h
    obtain ⟨x9, h9, h⟩ := bind_eq_ok h
    obtain ⟨x10, h10, h⟩ := bind_eq_ok h
    obtain ⟨x11, h11, h⟩ := bind_eq_ok h
    obtain ⟨x12, h12, h⟩ := bind_eq_ok h
    cases h
    exact ⟨(opt_iff asBool_iff).mp h1, (opt_iff asBool_iff).mp h2, (opt_iff asBool_iff).mp h3, (opt_iff asBool_iff).mp h4,
      (opt_iff asInt_iff).mp h7, (opt_iff asInt_iff).mp h8,
      (opt_iff asBool_iff).mp h9, (opt_iff asBool_iff).mp h10, (opt_iff asBool_iff).mp h11, (opt_iff asBool_iff).mp h12⟩
  · rintro ⟨h1, h2, h3, h4, h7, h8, h9, h10, h11, h12⟩
    unfold ClusWisard.optsOfJson
    rw [(opt_iff asBool_iff).mpr h1, Except.bind_ok, (opt_iff asBool_iff).mpr h2, Except.bind_ok, (opt_iff asBool_iff).mpr h3,
      Except.bind_ok, (opt_iff asBool_iff).mpr h4, Except.bind_ok, (opt_iff asInt_iff).mpr h7, Except.bind_ok, (opt_iff asInt_iff).mpr h8,
      Except.bind_ok, (opt_iff asBool_iff).mpr h9, Except.bind_ok, (opt_iff asBool_iff).mpr h10, Except.bind_ok,
      (opt_iff asBool_iff).mpr h11, Except.bind_ok, (opt_iff asBool_iff).mpr h12, Except.bind_ok]

/-! ## Pieces -/

theorem pieces_exist (s : Str) : ∃ parts, Pieces s parts := by
  induction s with
  | nil => exact ⟨[[]], by simp, by simp, rfl⟩
  | cons b s ih =>
    obtain ⟨parts, h1, h2, h3⟩ := ih
    cases parts with
    | nil => exact absurd rfl h1
    | cons p ps =>
      by_cases hb : b = c!"."
      · refine ⟨[] :: p :: ps, by simp, ?_, ?_⟩
        · intro x hx
          rcases List.mem_cons.mp hx with rfl | hx
          · simp
          · exact h2 x hx
        · rw [h3, hb]
          simp [List.intercalate]
      · refine ⟨(b :: p) :: ps, by simp, ?_, ?_⟩
        · intro x hx
          rcases List.mem_cons.mp hx with rfl | hx
          · intro hm
            rcases List.mem_cons.mp hm with e | hm
            · exact hb e.symm
            · exact h2 p (by simp) hm
          · exact h2 x (List.mem_cons_of_mem _ hx)
        · rw [h3]
          cases ps <;> simp [List.intercalate]

theorem intercalate_one (p : Str) : List.intercalate b!"." [p] = p := by simp [List.intercalate]

theorem intercalate_more (p q : Str) (ps : List Str) :
    List.intercalate b!"." (p :: q :: ps) = p ++ c!"." :: List.intercalate b!"." (q :: ps) := by simp [List.intercalate]

theorem getline_last {p : Str} (h : c!"." ∉ p) : getline p = (p, none) := by
  induction p with
  | nil => rfl
  | cons b p ih =>
    have hb : b ≠ c!"." := fun e => h (by simp [e])
    rw [getline, if_neg hb, ih (fun hm => h (by simp [hm]))]

theorem getline_part {p : Str} (h : c!"." ∉ p) (r : Str) : getline (p ++ c!"." :: r) = (p, some r) := by
  induction p with
  | nil => rw [List.nil_append, getline, if_pos rfl]
  | cons b p ih =>
    have hb : b ≠ c!"." := fun e => h (by simp [e])
    rw [List.cons_append, getline, if_neg hb, ih (fun hm => h (by simp [hm]))]

theorem findFrom_none {p : Str} (h : c!"." ∉ p) : Str.findFrom p c!"." 0 = none := by
  unfold Str.findFrom
  have : (p.drop 0).findIdx? (· == c!".") = none := by
    rw [List.findIdx?_eq_none_iff]
    intro x hx
    have : x ≠ c!"." := fun e => h (by rw [← e]; exact hx)
    simpa using this
  rw [this]

theorem findFrom_part {p : Str} (h : c!"." ∉ p) (r : Str) : Str.findFrom (p ++ c!"." :: r) c!"." 0 = some p.length := by
  unfold Str.findFrom
  have : ((p ++ c!"." :: r).drop 0).findIdx? (· == c!".") = some p.length := by
    rw [List.drop_zero, List.findIdx?_append]
    have e : p.findIdx? (· == c!".") = none := by
      rw [List.findIdx?_eq_none_iff]
      intro x hx
      have : x ≠ c!"." := fun e => h (by rw [← e]; exact hx)
      simpa using this
    rw [e, List.findIdx?_cons]
    simp
  rw [this]
  simp

/-! ## One RAM -/

theorem ramDoc_keys (a iz b : Json) (seg : Str) :
    let c := (Json.ofList [(b!"addresses", a), (b!"data", .str seg)]).mergePatch (Json.ofList [(b!"ignoreZero", iz), (b!"base", b)])
    c.key b!"addresses" = .ok a ∧ c.key b!"data" = .ok (.str seg) ∧
      (∃ z, c.key b!"ignoreZero" = .ok z ∧ ∀ x, IsBool z x ↔ IsBool iz x) ∧
      (∃ z, c.key b!"base" = .ok z ∧ ∀ x, IsInt z x ↔ IsInt b x) := by
  intro c
  have nb : ∀ x, ¬ IsBool .null x := fun x h => by cases h
  have ni : ∀ x, ¬ IsInt .null x := fun x h => by cases h
  have ob : ∀ m x, ¬ IsBool (.obj m) x := fun m x h => by cases h
  have oi : ∀ m x, ¬ IsInt (.obj m) x := fun m x h => by cases h
  have e : c = .obj (Json.mergeMembers [(b!"addresses", a), (b!"data", .str seg)] [(b!"base", b), (b!"ignoreZero", iz)]) := rfl
  cases b <;> cases iz <;>
    refine ⟨rfl, rfl, ⟨_, rfl, fun x => ?_⟩, ⟨_, rfl, fun x => ?_⟩⟩ <;> first
      | exact Iff.rfl
      | exact ⟨fun h => absurd h (ob _ x), fun h => absurd h (ob _ x)⟩
      | exact ⟨fun h => absurd h (oi _ x), fun h => absurd h (oi _ x)⟩

theorem ramOfData_iff {fs : Fs} {a iz b : Json} {seg : Str} {r : Ram} :
    Discriminator.ramOfData fs (Json.ofList [(b!"ignoreZero", iz), (b!"base", b)]) a seg = .ok r ↔ RamReads fs a iz b seg r := by
  obtain ⟨k1, k2, ⟨z, k3, k3'⟩, ⟨y, k4, k4'⟩⟩ := ramDoc_keys a iz b seg
  unfold Discriminator.ramOfData Ram.ofJson
  simp only [k1, k2, k3, k4, Except.bind_ok]
  constructor
  · intro h
    obtain ⟨x1, h1, h⟩ := bind_eq_ok h
    obtain ⟨x2, h2, h⟩ := bind_eq_ok h
    obtain ⟨x3, h3, h⟩ := bind_eq_ok h
    obtain ⟨x4, h4, h⟩ := bind_eq_ok h
    simp only [Json.asStr, Except.bind_ok] at h
    obtain ⟨x6, h6, h⟩ := bind_eq_ok h
    cases h
    exact ⟨asInts_iff.mp h3, (k3' _).mp (asBool_iff.mp h1), (k4' _).mp (asInt_iff.mp h2),
      ⟨_, by unfold Ram.create; rw [h4]; rfl⟩, ⟨x6, h6, rfl⟩⟩
  · rintro ⟨h1, h2, h3, ⟨r0, h4⟩, ⟨h, h5, h6⟩⟩
    rw [asBool_iff.mpr ((k3' _).mpr h2), Except.bind_ok, asInt_iff.mpr ((k4' _).mpr h3), Except.bind_ok, asInts_iff.mpr h1,
      Except.bind_ok]
    unfold Ram.create at h4
    obtain ⟨_, h4, _⟩ := bind_eq_ok h4
    rw [h4, Except.bind_ok]
    simp only [Json.asStr, Except.bind_ok, h5]
    rw [← h6]

/-! ## A discriminator -/

theorem fileRams_iff {fs : Fs} {iz b : Json} : ∀ {l : List Json} {parts : List Str} {rs : List Ram}, parts ≠ [] →
    (∀ p ∈ parts, c!"." ∉ p) →
    (Discriminator.fileRams fs (Json.ofList [(b!"ignoreZero", iz), (b!"base", b)]) l (some (List.intercalate b!"." parts)) = .ok rs ↔
      List.Forall₂ (fun (p : Json × Str) r => RamReads fs p.1 iz b p.2 r) (l.zip parts) rs) := by
  intro l
  induction l with
  | nil =>
    intro parts rs _ _
    rw [List.zip_nil_left, Discriminator.fileRams]
    constructor
    · intro h; cases h; exact .nil
    · intro h; cases h; rfl
  | cons a l ih =>
    intro parts rs hne hdot
    cases parts with
    | nil => exact absurd rfl hne
    | cons p ps =>
      have hp := hdot p (by simp)
      rw [Discriminator.fileRams, List.zip_cons_cons]
      cases ps with
      | nil =>
        rw [intercalate_one, getline_last hp, List.zip_nil_right]
        simp only
        have e : Discriminator.fileRams fs (Json.ofList [(b!"ignoreZero", iz), (b!"base", b)]) l none = .ok [] := by
          cases l <;> rfl
        rw [e]
        constructor
        · intro h
          obtain ⟨r, h1, h⟩ := bind_eq_ok h
          cases h
          exact .cons (ramOfData_iff.mp h1) .nil
        · intro h
          cases h with
          | cons h1 h2 => cases h2; rw [ramOfData_iff.mpr h1]; rfl
      | cons q ps =>
        rw [intercalate_more, getline_part hp]
        simp only
        have ih := @ih (q :: ps)
        constructor
        · intro h
          obtain ⟨r, h1, h⟩ := bind_eq_ok h
          obtain ⟨rs', h2, h⟩ := bind_eq_ok h
          cases h
          exact .cons (ramOfData_iff.mp h1) ((ih (by simp) (fun x hx => hdot x (List.mem_cons_of_mem _ hx))).mp h2)
        · intro h
          cases h with
          | cons h1 h2 =>
            rw [ramOfData_iff.mpr h1, Except.bind_ok,
              (ih (by simp) (fun x hx => hdot x (List.mem_cons_of_mem _ hx))).mpr h2]
            rfl

theorem textRams_iff {fs : Fs} {iz b : Json} {parts : List Str} (hne : parts ≠ []) (hdot : ∀ p ∈ parts, c!"." ∉ p) :
    ∀ {l : List Json} {i : Nat} {rs : List Ram},
    (Discriminator.textRams fs (Json.ofList [(b!"ignoreZero", iz), (b!"base", b)]) (List.intercalate b!"." parts) l
        (List.intercalate b!"." (parts.drop (i % parts.length))) = .ok rs ↔
      List.Forall₂ (fun (p : Json × Nat) r => RamReads fs p.1 iz b (parts.getD (p.2 % parts.length) []) r) (l.zipIdx i) rs) := by
  have hpos : 0 < parts.length := List.length_pos_iff.mpr hne
  intro l
  induction l with
  | nil =>
    intro i rs
    rw [List.zipIdx_nil, Discriminator.textRams]
    constructor
    · intro h; cases h; exact .nil
    · intro h; cases h; rfl
  | cons a l ih =>
    intro i rs
    rw [List.zipIdx_cons]
    have hk : i % parts.length < parts.length := Nat.mod_lt _ hpos
    have hdrop := List.drop_eq_getElem_cons hk
    have hget : parts.getD (i % parts.length) [] = parts[i % parts.length] := by simp [List.getD, hk]
    have hp := hdot _ (List.getElem_mem hk)
    have hnext : Discriminator.textRams fs (Json.ofList [(b!"ignoreZero", iz), (b!"base", b)]) (List.intercalate b!"." parts) (a :: l)
        (List.intercalate b!"." (parts.drop (i % parts.length))) = (do
          let r ← Discriminator.ramOfData fs (Json.ofList [(b!"ignoreZero", iz), (b!"base", b)]) a parts[i % parts.length]
          let rs ← Discriminator.textRams fs (Json.ofList [(b!"ignoreZero", iz), (b!"base", b)]) (List.intercalate b!"." parts) l
            (List.intercalate b!"." (parts.drop ((i + 1) % parts.length)))
          .ok (r :: rs)) := by
      rw [Discriminator.textRams]
      by_cases hlast : i % parts.length + 1 = parts.length
      · have e0 : parts.drop (i % parts.length + 1) = [] := by rw [hlast]; simp
        have e1 : (i + 1) % parts.length = 0 := by rw [← Nat.mod_add_mod, hlast, Nat.mod_self]
        rw [hdrop, e0, intercalate_one, findFrom_none hp, e1, List.drop_zero]
      · have e1 : (i + 1) % parts.length = i % parts.length + 1 := by
          rw [← Nat.mod_add_mod, Nat.mod_eq_of_lt (by omega)]
        have hk1 : i % parts.length + 1 < parts.length := by omega
        have e2 := List.drop_eq_getElem_cons hk1
        rw [hdrop, e1, e2, intercalate_more, findFrom_part hp]
        simp
    rw [hnext]
    constructor
    · intro h
      obtain ⟨r, h1, h⟩ := bind_eq_ok h
      obtain ⟨rs', h2, h⟩ := bind_eq_ok h
      cases h
      refine .cons ?_ (ih.mp h2)
      simp only [hget]
      exact ramOfData_iff.mp h1
    · intro h
      cases h with
      | cons h1 h2 =>
        simp only [hget] at h1
        rw [ramOfData_iff.mpr h1, Except.bind_ok, ih.mpr h2]
        rfl

theorem elements_eq (j : Json) : j.elems = elementsOf j := by cases j <;> rfl

theorem endsWith_iff {s : Str} {b : Bool} : endsWith s ramdataSufix = .ok b ↔ 6 ≤ s.length ∧ (b = true ↔ b!".wdpkg" <:+ s) := by
  have hl : ramdataSufix.length = 6 := rfl
  unfold endsWith
  rw [hl]
  by_cases h : s.length < 6
  · rw [if_pos h]
    constructor
    · intro e; cases e
    · intro e; omega
  · rw [if_neg h]
    have key : (s.drop (s.length - 6) == ramdataSufix) = true ↔ b!".wdpkg" <:+ s := by
      rw [beq_iff_eq]
      constructor
      · intro e
        have : b!".wdpkg" = s.drop (s.length - 6) := e.symm
        rw [this]
        exact List.drop_suffix _ _
      · intro e
        have := List.suffix_iff_eq_drop.mp e
        exact this.symm
    constructor
    · intro e
      cases e
      exact ⟨by omega, key⟩
    · intro ⟨_, e⟩
      congr 1
      rw [← Bool.coe_iff_coe] 
      exact key.trans e.symm

/-- C114: a discriminator is loaded exactly if the document describes it. -/
theorem C114_discriminator (fs : Fs) (m : List (Str × Json)) (d : Discriminator) :
    Discriminator.ofJson fs (.obj m) = .ok d ↔ DiscReads fs m d := by
  unfold Discriminator.ofJson Discriminator.setRAMsData
  simp only [key_obj, Except.bind_ok, elements_eq]
  constructor
  · intro h
    obtain ⟨es, h1, h⟩ := bind_eq_ok h
    obtain ⟨ct, h2, h⟩ := bind_eq_ok h
    obtain ⟨data, h3, h⟩ := bind_eq_ok h
    obtain ⟨rams, h4, h⟩ := bind_eq_ok h
    obtain ⟨isf, h5, h6⟩ := bind_eq_ok h4
    cases h
    obtain ⟨h7, h8⟩ := endsWith_iff.mp h5
    refine ⟨asInt_iff.mp h1, asInt_iff.mp h2, data, ?_, h7, ?_⟩
    · revert h3
      cases valueOf m b!"data" <;> intro h3 <;> cases h3
      rfl
    · cases isf with
      | true =>
        left
        refine ⟨h8.mp rfl, ?_⟩
        rw [if_pos rfl] at h6
        cases hf : fs data with
        | none => rw [hf] at h6; cases h6; exact Or.inl ⟨rfl, rfl⟩
        | some text =>
          rw [hf] at h6
          obtain ⟨parts, p1, p2, rfl⟩ := pieces_exist text
          exact Or.inr ⟨_, parts, rfl, ⟨p1, p2, rfl⟩, (fileRams_iff p1 p2).mp h6⟩
      | false =>
        right
        refine ⟨fun e => Bool.false_ne_true (h8.mpr e), ?_⟩
        rw [if_neg Bool.false_ne_true] at h6
        split at h6
        · cases h6
        · rename_i hlen
          obtain ⟨parts, p1, p2, rfl⟩ := pieces_exist data
          refine ⟨by omega, parts, ⟨p1, p2, rfl⟩, (textRams_iff p1 p2 (i := 0)).mp ?_⟩
          rw [Nat.zero_mod, List.drop_zero]
          exact h6
  · rintro ⟨h1, h2, data, h3, h7, h⟩
    rw [asInt_iff.mpr h1, Except.bind_ok, asInt_iff.mpr h2, Except.bind_ok, h3]
    simp only [Json.asStr, Except.bind_ok]
    rcases h with ⟨h8, h⟩ | ⟨h8, hlen, parts, ⟨p1, p2, rfl⟩, h⟩
    · rw [(endsWith_iff (b := true)).mpr ⟨h7, by simp [h8]⟩, Except.bind_ok, if_pos rfl]
      rcases h with ⟨hf, h⟩ | ⟨text, parts, hf, ⟨p1, p2, rfl⟩, h⟩
      · rw [hf]
        simp only [Except.bind_ok]
        rw [← h]
      · rw [hf]
        simp only
        rw [(fileRams_iff p1 p2).mpr h]
        rfl
    · rw [(endsWith_iff (b := false)).mpr ⟨h7, by simp [h8]⟩, Except.bind_ok, if_neg Bool.false_ne_true, if_neg (by omega)]
      have := (textRams_iff p1 p2 (i := 0)).mpr h
      rw [Nat.zero_mod, List.drop_zero] at this
      rw [this]
      rfl

/-! ## Models -/

theorem DiscReads.congr {fs : Fs} {m m' : List (Str × Json)} (h : ∀ k, valueOf m k = valueOf m' k) {d : Discriminator} :
    DiscReads fs m d ↔ DiscReads fs m' d := by unfold DiscReads; simp only [h]

theorem Reads.congr {α : Type} {m m' : List (Str × Json)} {k : Str} (h : valueOf m k = valueOf m' k) {is : Json → α → Prop}
    {d x : α} : Reads m k is d x ↔ Reads m' k is d x := by unfold Reads; rw [h]

theorem ClusterReads.congr {fs : Fs} {m m' : List (Str × Json)} (h : ∀ k, valueOf m k = valueOf m' k) {c : Cluster} :
    ClusterReads fs m c ↔ ClusterReads fs m' c := by unfold ClusterReads Reads; simp only [h]

theorem members_eq (j : Json) : (match j with | .obj m => m | _ => []) = membersOf j := by cases j <;> rfl

theorem dConfig_merge (j : Json) (iz : Bool) (b : Int) :
    ∃ m, j.mergePatch (Json.ofList [(b!"ignoreZero", .bool iz), (b!"base", .int b)]) = .obj m ∧
      ∀ k, valueOf m k = valueOf (override (override (membersOf j) b!"ignoreZero" (.bool iz)) b!"base" (.int b)) k := by
  refine ⟨SMap.set (SMap.set (membersOf j) b!"base" (.int b)) b!"ignoreZero" (.bool iz), ?_, ?_⟩
  · cases j <;> rfl
  · intro k
    unfold override
    simp only [valueOf_set, valueOf_cons]
    by_cases h1 : k = b!"ignoreZero"
    · subst h1
      rw [if_pos rfl, if_neg (by decide), if_pos rfl]
    · rw [if_neg h1, if_neg h1]

theorem classesOfJson_iff {fs : Fs} {iz : Bool} {b : Int} : ∀ {items : List (Str × Json)} {acc m : SMap Discriminator},
    SMap.Sorted items → SMap.Sorted acc → (∀ a ∈ acc, ∀ e ∈ items, Str.lt a.1 e.1 = true) →
    (Wisard.classesOfJson fs (Json.ofList [(b!"ignoreZero", .bool iz), (b!"base", .int b)]) items acc = .ok m ↔
      ∃ ds, m = acc ++ ds ∧ List.Forall₂ (fun (e : Str × Json) (c : Str × Discriminator) => c.1 = e.1 ∧
        DiscReads fs (override (override (membersOf e.2) b!"ignoreZero" (.bool iz)) b!"base" (.int b)) c.2) items ds) := by
  intro items
  induction items with
  | nil =>
    intro acc m _ _ _
    rw [Wisard.classesOfJson]
    constructor
    · intro h; cases h; exact ⟨[], by simp, .nil⟩
    · rintro ⟨ds, rfl, h⟩; cases h; simp
  | cons e items ih =>
    intro acc m hs ha hlt
    obtain ⟨k, j⟩ := e
    obtain ⟨mm, e1, e2⟩ := dConfig_merge j iz b
    rw [Wisard.classesOfJson, e1]
    obtain ⟨s1, s2⟩ := SMap.sorted_cons.mp hs
    have hset : ∀ d, SMap.set acc k d = acc ++ [(k, d)] := fun d =>
      SMap.set_last (fun a h => hlt a h (k, j) (by simp))
    have hacc : ∀ d, SMap.Sorted (acc ++ [(k, d)]) := fun d => by rw [← hset d]; exact SMap.sorted_set ha k d
    have hlt' : ∀ d : Discriminator, ∀ a ∈ acc ++ [(k, d)], ∀ e ∈ items, Str.lt a.1 e.1 = true := by
      intro d a hm e he
      rcases List.mem_append.mp hm with hm | hm
      · exact hlt a hm e (by simp [he])
      · rw [List.mem_singleton.mp hm]; exact s1 e he
    constructor
    · intro h
      obtain ⟨d, h1, h⟩ := bind_eq_ok h
      rw [hset] at h
      obtain ⟨ds, rfl, h2⟩ := (ih s2 (hacc d) (hlt' d)).mp h
      exact ⟨(k, d) :: ds, by simp, .cons ⟨rfl, (DiscReads.congr e2).mp ((C114_discriminator fs mm d).mp h1)⟩ h2⟩
    · rintro ⟨ds, rfl, h⟩
      cases h with
      | @cons _ c _ ds h1 h2 =>
        obtain ⟨k', d⟩ := c
        obtain ⟨rfl, h1⟩ := h1
        rw [(C114_discriminator fs mm d).mpr ((DiscReads.congr e2).mpr h1), Except.bind_ok, hset]
        exact (ih s2 (hacc d) (hlt' d)).mpr ⟨ds, by simp, h2⟩

theorem items_iff {j : Json} {l : List (Str × Json)} : j.items = .ok l ↔ NamedParts j l := by
  constructor
  · intro h
    cases j with
    | null => cases h; exact .null
    | arr a => cases a <;> cases h; exact .empty
    | obj _ => cases h; exact .obj _
    | _ => cases h
  · rintro ⟨⟩ <;> rfl

/-- C114: a Wisard is loaded exactly if the document describes it. -/
theorem C114_wisard (fs : Fs) (m : List (Str × Json)) (w : Wisard)
    (hs : ∀ items, valueOf m b!"classes" = .obj items → SMap.Sorted items) :
    Wisard.ofJson fs (.obj m) = .ok w ↔ WisardDoc fs m w := by
  have hsort : ∀ items, NamedParts (valueOf m b!"classes") items → SMap.Sorted items := by
    intro items h
    generalize hv : valueOf m b!"classes" = v at h
    cases h with
    | null => exact SMap.sorted_nil
    | empty => exact SMap.sorted_nil
    | obj _ => exact hs _ hv
  unfold Wisard.ofJson
  simp only [key_obj, Except.bind_ok]
  constructor
  · intro h
    obtain ⟨o, h1, h⟩ := bind_eq_ok h
    obtain ⟨A, h2, h⟩ := bind_eq_ok h
    obtain ⟨items, h3, h⟩ := bind_eq_ok h
    obtain ⟨ds, h4, h⟩ := bind_eq_ok h
    cases h
    have h3' := items_iff.mp h3
    obtain ⟨ds', e, h5⟩ := (classesOfJson_iff (hsort _ h3') SMap.sorted_nil (by simp)).mp h4
    rw [List.nil_append] at e
    subst e
    exact ⟨wisardOpts_iff.mp h1, asInt_iff.mp h2, items, h3', h5⟩
  · rintro ⟨h1, h2, items, h3, h4⟩
    rw [wisardOpts_iff.mpr h1, Except.bind_ok, asInt_iff.mpr h2, Except.bind_ok, items_iff.mpr h3, Except.bind_ok,
      (classesOfJson_iff (hsort _ h3) SMap.sorted_nil (by simp)).mpr ⟨_, rfl, h4⟩]
    rfl

theorem discsOfJson_iff {fs : Fs} {iz : Bool} {b : Int} : ∀ {l : List Json} {acc m : List (Option Discriminator)},
    (Cluster.discsOfJson fs (Json.ofList [(b!"ignoreZero", .bool iz), (b!"base", .int b)]) l acc = .ok m ↔
      ∃ ds, m = acc ++ ds ∧ List.Forall₂ (fun j o => ∃ d, o = some d ∧
        DiscReads fs (override (override (membersOf j) b!"ignoreZero" (.bool iz)) b!"base" (.int b)) d) l ds) := by
  intro l
  induction l with
  | nil =>
    intro acc m
    rw [Cluster.discsOfJson]
    constructor
    · intro h; cases h; exact ⟨[], by simp, .nil⟩
    · rintro ⟨ds, rfl, h⟩; cases h; simp
  | cons j l ih =>
    intro acc m
    obtain ⟨mm, e1, e2⟩ := dConfig_merge j iz b
    rw [Cluster.discsOfJson, e1]
    constructor
    · intro h
      obtain ⟨d, h1, h⟩ := bind_eq_ok h
      obtain ⟨ds, rfl, h2⟩ := ih.mp h
      exact ⟨some d :: ds, by simp, .cons ⟨d, rfl, (DiscReads.congr e2).mp ((C114_discriminator fs mm d).mp h1)⟩ h2⟩
    · rintro ⟨ds, rfl, h⟩
      cases h with
      | @cons _ c _ ds h1 h2 =>
        obtain ⟨d, rfl, h1⟩ := h1
        rw [(C114_discriminator fs mm d).mpr ((DiscReads.congr e2).mpr h1), Except.bind_ok]
        exact ih.mpr ⟨ds, by simp, h2⟩

theorem cluster_iff {fs : Fs} {m : List (Str × Json)} {cl : Cluster} : Cluster.ofJson fs (.obj m) = .ok cl ↔ ClusterReads fs m cl := by
  unfold Cluster.ofJson
  simp only [key_obj, Except.bind_ok, elements_eq]
  constructor
  · intro h
    obtain ⟨x1, h1, h⟩ := bind_eq_ok h
    obtain ⟨x2, h2, h⟩ := bind_eq_ok h
    obtain ⟨x3, h3, h⟩ := bind_eq_ok h
    obtain ⟨x4, h4, h⟩ := bind_eq_ok h
    obtain ⟨x5, h5, h⟩ := bind_eq_ok h
    obtain ⟨x6, h6, h⟩ := bind_eq_ok h
    obtain ⟨x7, h7, h⟩ := bind_eq_ok h
    obtain ⟨x8, h8, h⟩ := bind_eq_ok h
    obtain ⟨ds, h9, h⟩ := bind_eq_ok h
    cases h
    obtain ⟨ds', e, h10⟩ := discsOfJson_iff.mp h9
    rw [List.nil_append] at e
    subst e
    exact ⟨_, rfl, (opt_iff asInt_iff).mp h1, (opt_iff asInt_iff).mp h2, (opt_iff asReal_iff).mp h3, (opt_iff asInt_iff).mp h4,
      (opt_iff asUInt_iff).mp h5, (opt_iff asBool_iff).mp h6, (opt_iff asBool_iff).mp h7, (opt_iff asInt_iff).mp h8, h10⟩
  · obtain ⟨cfg, ds⟩ := cl
    rintro ⟨c, hc, h1, h2, h3, h4, h5, h6, h7, h8, h9⟩
    simp only at hc h9
    subst hc
    rw [(opt_iff asInt_iff).mpr h1, Except.bind_ok, (opt_iff asInt_iff).mpr h2, Except.bind_ok, (opt_iff asReal_iff).mpr h3,
      Except.bind_ok, (opt_iff asInt_iff).mpr h4, Except.bind_ok, (opt_iff asUInt_iff).mpr h5, Except.bind_ok,
      (opt_iff asBool_iff).mpr h6, Except.bind_ok, (opt_iff asBool_iff).mpr h7, Except.bind_ok, (opt_iff asInt_iff).mpr h8,
      Except.bind_ok, discsOfJson_iff.mpr ⟨_, rfl, h9⟩]
    rfl

theorem clusterConfig_merge (w : ClusWisard) (j : Json) :
    ∃ m, j.mergePatch (ClusWisard.clusterConfig w.addressSize w.minScore w.threshold w.discriminatorsLimit w.opts) = .obj m ∧
      ∀ k, valueOf m k = valueOf (clusterMembers w j) k := by
  refine ⟨SMap.set (SMap.set (SMap.set (SMap.set (SMap.set (SMap.set (SMap.set (membersOf j)
    b!"addressSize" (.int w.addressSize)) b!"base" (.int w.opts.base)) b!"completeAddressing" (.bool w.opts.completeAddressing))
    b!"discriminatorsLimit" (.int w.discriminatorsLimit)) b!"ignoreZero" (.bool w.opts.ignoreZero))
    b!"minScore" (.real w.minScore)) b!"threshold" (.int w.threshold), ?_, ?_⟩
  · cases j <;> rfl
  · intro k
    unfold clusterMembers
    simp only [List.cons_append, List.nil_append, valueOf_set, valueOf_cons]
    by_cases h1 : k = b!"addressSize"
    · subst h1; rfl
    by_cases h2 : k = b!"minScore"
    · subst h2; rfl
    by_cases h3 : k = b!"threshold"
    · subst h3; rfl
    by_cases h4 : k = b!"discriminatorsLimit"
    · subst h4; rfl
    by_cases h5 : k = b!"completeAddressing"
    · subst h5; rfl
    by_cases h6 : k = b!"ignoreZero"
    · subst h6; rfl
    by_cases h7 : k = b!"base"
    · subst h7; rfl
    simp only [if_neg h1, if_neg h2, if_neg h3, if_neg h4, if_neg h5, if_neg h6, if_neg h7]

theorem clustersOfJson_iff {fs : Fs} {w : ClusWisard} : ∀ {items : List (Str × Json)} {acc m : SMap Cluster},
    SMap.Sorted items → SMap.Sorted acc → (∀ a ∈ acc, ∀ e ∈ items, Str.lt a.1 e.1 = true) →
    (ClusWisard.clustersOfJson fs (ClusWisard.clusterConfig w.addressSize w.minScore w.threshold w.discriminatorsLimit w.opts)
        items acc = .ok m ↔
      ∃ ds, m = acc ++ ds ∧ List.Forall₂ (fun (e : Str × Json) (c : Str × Cluster) => c.1 = e.1 ∧
        ClusterReads fs (clusterMembers w e.2) c.2) items ds) := by
  intro items
  induction items with
  | nil =>
    intro acc m _ _ _
    rw [ClusWisard.clustersOfJson]
    constructor
    · intro h; cases h; exact ⟨[], by simp, .nil⟩
    · rintro ⟨ds, rfl, h⟩; cases h; simp
  | cons e items ih =>
    intro acc m hs ha hlt
    obtain ⟨k, j⟩ := e
    obtain ⟨mm, e1, e2⟩ := clusterConfig_merge w j
    rw [ClusWisard.clustersOfJson, e1]
    obtain ⟨s1, s2⟩ := SMap.sorted_cons.mp hs
    have hset : ∀ d, SMap.set acc k d = acc ++ [(k, d)] := fun d =>
      SMap.set_last (fun a h => hlt a h (k, j) (by simp))
    have hacc : ∀ d, SMap.Sorted (acc ++ [(k, d)]) := fun d => by rw [← hset d]; exact SMap.sorted_set ha k d
    have hlt' : ∀ d : Cluster, ∀ a ∈ acc ++ [(k, d)], ∀ e ∈ items, Str.lt a.1 e.1 = true := by
      intro d a hm e he
      rcases List.mem_append.mp hm with hm | hm
      · exact hlt a hm e (by simp [he])
      · rw [List.mem_singleton.mp hm]; exact s1 e he
    constructor
    · intro h
      obtain ⟨d, h1, h⟩ := bind_eq_ok h
      rw [hset] at h
      obtain ⟨ds, rfl, h2⟩ := (ih s2 (hacc d) (hlt' d)).mp h
      exact ⟨(k, d) :: ds, by simp, .cons ⟨rfl, (ClusterReads.congr e2).mp (cluster_iff.mp h1)⟩ h2⟩
    · rintro ⟨ds, rfl, h⟩
      cases h with
      | @cons _ c _ ds h1 h2 =>
        obtain ⟨k', d⟩ := c
        obtain ⟨rfl, h1⟩ := h1
        rw [cluster_iff.mpr ((ClusterReads.congr e2).mpr h1), Except.bind_ok, hset]
        exact (ih s2 (hacc d) (hlt' d)).mpr ⟨ds, by simp, h2⟩

/-- C114: a ClusWisard is loaded exactly if the document describes it. -/
theorem C114_clusWisard (fs : Fs) (m : List (Str × Json)) (w : ClusWisard)
    (hs : ∀ items, valueOf m b!"clusters" = .obj items → SMap.Sorted items) :
    ClusWisard.ofJson fs (.obj m) = .ok w ↔ ClusDoc fs m w := by
  have hsort : ∀ items, NamedParts (valueOf m b!"clusters") items → SMap.Sorted items := by
    intro items h
    generalize hv : valueOf m b!"clusters" = v at h
    cases h with
    | null => exact SMap.sorted_nil
    | empty => exact SMap.sorted_nil
    | obj _ => exact hs _ hv
  unfold ClusWisard.ofJson
  simp only [key_obj, Except.bind_ok]
  constructor
  · intro h
    obtain ⟨o, h1, h⟩ := bind_eq_ok h
    obtain ⟨A, h2, h⟩ := bind_eq_ok h
    obtain ⟨ms, h3, h⟩ := bind_eq_ok h
    obtain ⟨t, h4, h⟩ := bind_eq_ok h
    obtain ⟨dl, h5, h⟩ := bind_eq_ok h
    obtain ⟨items, h6, h⟩ := bind_eq_ok h
    obtain ⟨cs, h7, h⟩ := bind_eq_ok h
    obtain ⟨u, h8, h⟩ := bind_eq_ok h
    cases h
    have h6' := items_iff.mp h6
    obtain ⟨ds', e, h9⟩ := (clustersOfJson_iff (w := ⟨A, ms, t, dl, o, cs, u⟩) (hsort _ h6') SMap.sorted_nil (by simp)).mp h7
    rw [List.nil_append] at e
    subst e
    refine ⟨clusOpts_iff.mp h1, asInt_iff.mp h2, asReal_iff.mp h3, asInt_iff.mp h4, asInt_iff.mp h5, ⟨items, h6', h9⟩, ?_⟩
    by_cases hn : valueOf m b!"unsupervisedCluster" = .null
    · rw [if_pos (isNull_iff.mpr hn)] at h8
      cases h8
      exact Or.inl ⟨hn, rfl⟩
    · rw [if_neg (fun e => hn (isNull_iff.mp e))] at h8
      obtain ⟨mm, e1, e2⟩ := clusterConfig_merge ⟨A, ms, t, dl, o, cs, u⟩ (valueOf m b!"unsupervisedCluster")
      rw [e1] at h8
      exact Or.inr ⟨hn, (ClusterReads.congr e2).mp (cluster_iff.mp h8)⟩
  · obtain ⟨A, ms, t, dl, o, cs, u⟩ := w
    rintro ⟨h1, h2, h3, h4, h5, ⟨items, h6, h7⟩, h8⟩
    have hu : (if (valueOf m b!"unsupervisedCluster").isNull then (.ok Cluster.default : Res Cluster)
        else Cluster.ofJson fs ((valueOf m b!"unsupervisedCluster").mergePatch (ClusWisard.clusterConfig A ms t dl o))) = .ok u := by
      rcases h8 with ⟨hn, h8⟩ | ⟨hn, h8⟩
      · rw [if_pos (isNull_iff.mpr hn)]
        simp only at h8
        rw [h8]
      · rw [if_neg (fun e => hn (isNull_iff.mp e))]
        obtain ⟨mm, e1, e2⟩ := clusterConfig_merge ⟨A, ms, t, dl, o, cs, u⟩ (valueOf m b!"unsupervisedCluster")
        simp only at e1
        rw [e1]
        exact cluster_iff.mpr ((ClusterReads.congr e2).mpr h8)
    rw [clusOpts_iff.mpr h1, Except.bind_ok, asInt_iff.mpr h2, Except.bind_ok, asReal_iff.mpr h3, Except.bind_ok,
      asInt_iff.mpr h4, Except.bind_ok, asInt_iff.mpr h5, Except.bind_ok, items_iff.mpr h6, Except.bind_ok,
      (clustersOfJson_iff (w := ⟨A, ms, t, dl, o, cs, u⟩) (hsort _ h6) SMap.sorted_nil (by simp)).mpr ⟨_, rfl, h7⟩, Except.bind_ok]
    simp only
    rw [hu]
    rfl

/-- C114: a document that is not an object is refused by all constructors. -/
theorem C114_not_an_object (fs : Fs) {j : Json} (h : ∀ m, j ≠ .obj m) :
    Discriminator.ofJson fs j = .error (.throw .jsonType) ∧ Wisard.ofJson fs j = .error (.throw .jsonType) ∧
      ClusWisard.ofJson fs j = .error (.throw .jsonType) := by
  cases j with
  | obj m => exact absurd rfl (h m)
  | _ => exact ⟨rfl, rfl, rfl⟩

/-! ## C115: members without meaning -/

/-- C115: nothing but the six named members of a discriminator matters. -/
theorem C115_discriminator (fs : Fs) {m m' : List (Str × Json)} (h : AgreeOn discNames m m') :
    Discriminator.ofJson fs (.obj m) = Discriminator.ofJson fs (.obj m') := by
  unfold Discriminator.ofJson
  simp only [key_obj, Except.bind_ok]
  rw [h b!"entrySize" (by decide), h b!"count" (by decide), h b!"data" (by decide), h b!"mapping" (by decide),
    h b!"ignoreZero" (by decide), h b!"base" (by decide)]

theorem class_same (fs : Fs) {j j' : Json} (iz : Bool) (b : Int) (h : SameClass j j') :
    Discriminator.ofJson fs (j.mergePatch (Json.ofList [(b!"ignoreZero", .bool iz), (b!"base", .int b)])) =
      Discriminator.ofJson fs (j'.mergePatch (Json.ofList [(b!"ignoreZero", .bool iz), (b!"base", .int b)])) := by
  obtain ⟨mm, e1, e2⟩ := dConfig_merge j iz b
  obtain ⟨mm', e1', e2'⟩ := dConfig_merge j' iz b
  rw [e1, e1']
  apply C115_discriminator
  intro k hk
  rw [e2, e2']
  unfold override
  simp only [valueOf_cons]
  by_cases h1 : k = b!"base"
  · rw [if_pos h1, if_pos h1]
  · rw [if_neg h1, if_neg h1]
    by_cases h2 : k = b!"ignoreZero"
    · rw [if_pos h2, if_pos h2]
    · rw [if_neg h2, if_neg h2]
      refine h k ?_
      simp only [discNames, List.mem_append, List.mem_cons, List.not_mem_nil, or_false] at hk
      rcases hk with hk | hk | hk
      · exact hk
      · exact absurd hk h2
      · exact absurd hk h1

theorem classes_same (fs : Fs) (iz : Bool) (b : Int) {l l' : List (Str × Json)}
    (h : List.Forall₂ (fun e e' => e.1 = e'.1 ∧ SameClass e.2 e'.2) l l') : ∀ acc : SMap Discriminator,
    Wisard.classesOfJson fs (Json.ofList [(b!"ignoreZero", .bool iz), (b!"base", .int b)]) l acc =
      Wisard.classesOfJson fs (Json.ofList [(b!"ignoreZero", .bool iz), (b!"base", .int b)]) l' acc := by
  induction h with
  | nil => intro acc; rfl
  | @cons e e' l l' h1 _ ih =>
    intro acc
    obtain ⟨k, j⟩ := e
    obtain ⟨k', j'⟩ := e'
    obtain ⟨rfl, h1⟩ := h1
    rw [Wisard.classesOfJson, Wisard.classesOfJson, class_same fs iz b h1]
    simp only [ih]

/-- C115: nothing but the named members of a Wisard and its classes matters. -/
theorem C115_wisard (fs : Fs) {m m' : List (Str × Json)} (h : SameWisard m m') :
    Wisard.ofJson fs (.obj m) = Wisard.ofJson fs (.obj m') := by
  obtain ⟨h1, h2⟩ := h
  have ho : Wisard.optsOfJson (.obj m) = Wisard.optsOfJson (.obj m') := by
    unfold Wisard.optsOfJson Json.opt
    simp only [key_obj, Except.bind_ok]
    rw [h1 b!"bleachingActivated" (by decide), h1 b!"verbose" (by decide), h1 b!"ignoreZero" (by decide),
      h1 b!"completeAddressing" (by decide), h1 b!"mapping" (by decide), h1 b!"indexes" (by decide), h1 b!"base" (by decide),
      h1 b!"confidence" (by decide), h1 b!"searchBestConfidence" (by decide), h1 b!"returnConfidence" (by decide),
      h1 b!"returnActivationDegree" (by decide), h1 b!"returnClassesDegrees" (by decide)]
  unfold Wisard.ofJson
  simp only [key_obj, Except.bind_ok]
  rw [ho, h1 b!"addressSize" (by decide)]
  rcases h2 with h2 | ⟨l, l', e, e', h2⟩
  · rw [h2]
  · rw [e, e']
    simp only [Json.items, Except.bind_ok]
    simp only [classes_same fs _ _ h2]

theorem cluster_same (fs : Fs) (w : ClusWisard) {j j' : Json} (h : SameCluster j j') :
    Cluster.ofJson fs (j.mergePatch (ClusWisard.clusterConfig w.addressSize w.minScore w.threshold w.discriminatorsLimit w.opts)) =
      Cluster.ofJson fs (j'.mergePatch (ClusWisard.clusterConfig w.addressSize w.minScore w.threshold w.discriminatorsLimit w.opts)) := by
  obtain ⟨mm, e1, e2⟩ := clusterConfig_merge w j
  obtain ⟨mm', e1', e2'⟩ := clusterConfig_merge w j'
  rw [e1, e1']
  have hv : ∀ k ∈ [b!"addressSize", b!"entrySize", b!"minScore", b!"discriminatorsLimit", b!"threshold", b!"ignoreZero",
      b!"completeAddressing", b!"base"], valueOf mm k = valueOf mm' k := by
    intro k hk
    rw [e2, e2']
    unfold clusterMembers
    simp only [List.cons_append, List.nil_append, valueOf_cons]
    simp only [List.mem_cons, List.not_mem_nil, or_false] at hk
    rcases hk with rfl | rfl | rfl | rfl | rfl | rfl | rfl | rfl
    case inr.inl => exact h.1 b!"entrySize" (by decide)
    all_goals rfl
  have hd : List.Forall₂ SameClass (elementsOf (valueOf mm b!"discriminators")) (elementsOf (valueOf mm' b!"discriminators")) := by
    rw [e2, e2']
    exact h.2
  have hloop : ∀ (iz : Bool) (b : Int) (acc : List (Option Discriminator)),
      Cluster.discsOfJson fs (Json.ofList [(b!"ignoreZero", .bool iz), (b!"base", .int b)]) (elementsOf (valueOf mm b!"discriminators")) acc =
        Cluster.discsOfJson fs (Json.ofList [(b!"ignoreZero", .bool iz), (b!"base", .int b)]) (elementsOf (valueOf mm' b!"discriminators")) acc := by
    intro iz b
    generalize elementsOf (valueOf mm b!"discriminators") = l at hd
    generalize elementsOf (valueOf mm' b!"discriminators") = l' at hd
    induction hd with
    | nil => intro acc; rfl
    | @cons j j' l l' h1 _ ih =>
      intro acc
      rw [Cluster.discsOfJson, Cluster.discsOfJson, class_same fs iz b h1]
      simp only [ih]
  unfold Cluster.ofJson Json.opt
  simp only [key_obj, Except.bind_ok, elements_eq]
  rw [hv b!"addressSize" (by decide), hv b!"entrySize" (by decide), hv b!"minScore" (by decide),
    hv b!"discriminatorsLimit" (by decide), hv b!"threshold" (by decide), hv b!"ignoreZero" (by decide),
    hv b!"completeAddressing" (by decide), hv b!"base" (by decide)]
  simp only [hloop]

theorem clusters_same (fs : Fs) (w : ClusWisard) {l l' : List (Str × Json)}
    (h : List.Forall₂ (fun e e' => e.1 = e'.1 ∧ SameCluster e.2 e'.2) l l') : ∀ acc : SMap Cluster,
    ClusWisard.clustersOfJson fs (ClusWisard.clusterConfig w.addressSize w.minScore w.threshold w.discriminatorsLimit w.opts) l acc =
      ClusWisard.clustersOfJson fs (ClusWisard.clusterConfig w.addressSize w.minScore w.threshold w.discriminatorsLimit w.opts) l' acc := by
  induction h with
  | nil => intro acc; rfl
  | @cons e e' l l' h1 _ ih =>
    intro acc
    obtain ⟨k, j⟩ := e
    obtain ⟨k', j'⟩ := e'
    obtain ⟨rfl, h1⟩ := h1
    rw [ClusWisard.clustersOfJson, ClusWisard.clustersOfJson, cluster_same fs w h1]
    simp only [ih]

/-- C115: nothing but the named members of a ClusWisard and its clusters matters. -/
theorem C115_clusWisard (fs : Fs) {m m' : List (Str × Json)} (h : SameClus m m') :
    ClusWisard.ofJson fs (.obj m) = ClusWisard.ofJson fs (.obj m') := by
  obtain ⟨h1, h2, h3, h4⟩ := h
  have ho : ClusWisard.optsOfJson (.obj m) = ClusWisard.optsOfJson (.obj m') := by
    unfold ClusWisard.optsOfJson Json.opt
    simp only [key_obj, Except.bind_ok]
    rw [h1 b!"bleachingActivated" (by decide), h1 b!"verbose" (by decide), h1 b!"ignoreZero" (by decide),
      h1 b!"completeAddressing" (by decide), h1 b!"base" (by decide),
      h1 b!"confidence" (by decide), h1 b!"searchBestConfidence" (by decide), h1 b!"returnConfidence" (by decide),
      h1 b!"returnActivationDegree" (by decide), h1 b!"returnClassesDegrees" (by decide)]
  have hn : (valueOf m b!"unsupervisedCluster").isNull = (valueOf m' b!"unsupervisedCluster").isNull := by
    rw [← Bool.coe_iff_coe, isNull_iff, isNull_iff]
    exact h3
  have hc : ∀ (A : Int) (ms : Rat) (t dl : Int) (o : ClusOpts) (acc : SMap Cluster),
      ((valueOf m b!"clusters").items >>= fun l => ClusWisard.clustersOfJson fs (ClusWisard.clusterConfig A ms t dl o) l acc) =
        ((valueOf m' b!"clusters").items >>= fun l => ClusWisard.clustersOfJson fs (ClusWisard.clusterConfig A ms t dl o) l acc) := by
    intro A ms t dl o acc
    rcases h2 with h2 | ⟨l, l', e, e', h2⟩
    · rw [h2]
    · rw [e, e']
      simp only [Json.items, Except.bind_ok]
      exact clusters_same fs ⟨A, ms, t, dl, o, [], Cluster.default⟩ h2 acc
  have hu : ∀ (A : Int) (ms : Rat) (t dl : Int) (o : ClusOpts),
      Cluster.ofJson fs ((valueOf m b!"unsupervisedCluster").mergePatch (ClusWisard.clusterConfig A ms t dl o)) =
        Cluster.ofJson fs ((valueOf m' b!"unsupervisedCluster").mergePatch (ClusWisard.clusterConfig A ms t dl o)) :=
    fun A ms t dl o => cluster_same fs ⟨A, ms, t, dl, o, [], Cluster.default⟩ h4
  unfold ClusWisard.ofJson
  simp only [key_obj, Except.bind_ok]
  rw [ho, h1 b!"addressSize" (by decide), h1 b!"minScore" (by decide), h1 b!"threshold" (by decide),
    h1 b!"discriminatorsLimit" (by decide)]
  simp only [hn, hu, ← bind_assoc, hc]

/-- C115: adding (or changing) a member with another name, for example the version, changes nothing. -/
theorem C115_unknown_member (fs : Fs) (m : List (Str × Json)) (k : Str) (v : Json) :
    (k ∉ discNames → Discriminator.ofJson fs (.obj (SMap.set m k v)) = Discriminator.ofJson fs (.obj m)) ∧
    (k ∉ b!"classes" :: wisardNames → Wisard.ofJson fs (.obj (SMap.set m k v)) = Wisard.ofJson fs (.obj m)) ∧
    (k ∉ b!"clusters" :: b!"unsupervisedCluster" :: clusNames →
      ClusWisard.ofJson fs (.obj (SMap.set m k v)) = ClusWisard.ofJson fs (.obj m)) := by
  have hv : ∀ k', k' ≠ k → valueOf (SMap.set m k v) k' = valueOf m k' := fun k' h => by rw [valueOf_set, if_neg h]
  refine ⟨fun h => ?_, fun h => ?_, fun h => ?_⟩
  · exact C115_discriminator fs (fun k' hk => hv k' (fun e => h (e ▸ hk)))
  · refine C115_wisard fs ⟨fun k' hk => hv k' (fun e => h (e ▸ List.mem_cons_of_mem _ hk)), Or.inl (hv _ (fun e => h (by simp [← e])))⟩
  · have e := hv b!"unsupervisedCluster" (fun e => h (by rw [← e]; simp))
    refine C115_clusWisard fs ⟨fun k' hk => hv k' (fun e => h (e ▸ List.mem_cons_of_mem _ (List.mem_cons_of_mem _ hk))),
      Or.inl (hv _ (fun e => h (by simp [← e]))), by rw [e], ?_⟩
    rw [e]
    refine ⟨fun _ _ => rfl, List.forall₂_same.mpr fun _ _ _ _ => rfl⟩

/-- C115 for texts: two documents whose meaningful members agree give the same model, however they are written. -/
theorem C115_text (ft : FloatText) (fs : Fs) {t t' : Str} {m m' : List (Str × Json)} (h : DocText ft t (.obj m))
    (h' : DocText ft t' (.obj m')) :
    (AgreeOn discNames m m' → Discriminator.ofText ft fs t = Discriminator.ofText ft fs t') ∧
    (SameWisard m m' → Wisard.ofText ft fs t = Wisard.ofText ft fs t') ∧
    (SameClus m m' → ClusWisard.ofText ft fs t = ClusWisard.ofText ft fs t') := by
  have e := C98_json_accepted ft h
  have e' := C98_json_accepted ft h'
  refine ⟨fun h => ?_, fun h => ?_, fun h => ?_⟩
  · unfold Discriminator.ofText
    rw [e, e', Except.bind_ok, Except.bind_ok, C115_discriminator fs h]
  · unfold Wisard.ofText
    rw [e, e', Except.bind_ok, Except.bind_ok, C115_wisard fs h]
  · unfold ClusWisard.ofText
    rw [e, e', Except.bind_ok, Except.bind_ok, C115_clusWisard fs h]

/-! ## Concrete documents -/

section Examples

/-- A document written by hand: members in another order, one without meaning, a number written as a floating one. -/
def exDoc : List (Str × Json) :=
  [(b!"count", .int 3), (b!"note", .str b!"mine"), (b!"ignoreZero", .bool false), (b!"base", .int 2), (b!"entrySize", .int 4),
    (b!"data", .str b!"AwAAAAAAAAAHAAAAAAAAAAAAAAABAAAA.AQAAAAAAAAACAAAA"),
    (b!"mapping", .arr [.arr [.int 3, .int 0], .arr [.int 1, .real 2]])]

/-- The discriminator it describes. -/
def exRead : Discriminator :=
  { entrySize := 4, count := 3,
    rams := [{ addresses := [3, 0], positions := [(3, 7), (0, 1)], ignoreZero := false, base := 2 },
             { addresses := [1, 2], positions := [(1, 2)], ignoreZero := false, base := 2 }] }

set_option maxRecDepth 4000 in
theorem exDoc_read : Discriminator.ofJson (fun _ => none) (.obj exDoc) = .ok exRead := by decide +kernel

/-- C114: the right side of the equivalence has instances, and something else is not described. -/
example : DiscReads (fun _ => none) exDoc exRead ∧ ¬ DiscReads (fun _ => none) exDoc { exRead with count := 2 } := by
  rw [← C114_discriminator, ← C114_discriminator, exDoc_read]
  exact ⟨rfl, by decide +kernel⟩

/-- C115: the same document without the unknown member and in another order. -/
def exDoc' : List (Str × Json) :=
  [(b!"mapping", .arr [.arr [.int 3, .int 0], .arr [.int 1, .real 2]]), (b!"base", .int 2), (b!"count", .int 3),
    (b!"ignoreZero", .bool false), (b!"entrySize", .int 4),
    (b!"data", .str b!"AwAAAAAAAAAHAAAAAAAAAAAAAAABAAAA.AQAAAAAAAAACAAAA")]

theorem exDoc_agree : AgreeOn discNames exDoc exDoc' := by
  intro k hk
  simp only [discNames, partNames, List.cons_append, List.nil_append, List.mem_cons, List.not_mem_nil, or_false] at hk
  rcases hk with rfl | rfl | rfl | rfl | rfl | rfl <;> rfl

example : Discriminator.ofJson (fun _ => none) (.obj exDoc') = .ok exRead := by
  rw [← C115_discriminator _ exDoc_agree, exDoc_read]

/-- A Wisard whose only class is that discriminator; its `ignoreZero` is not the one of the class. -/
def exWDoc : List (Str × Json) :=
  [(b!"addressSize", .int 2), (b!"classes", .obj [(b!"a", .obj exDoc)]), (b!"ignoreZero", .bool true), (b!"verbose", .null)]

def exWRead : Wisard :=
  { addressSize := 2, opts := { ignoreZero := true },
    discriminators := [(b!"a", { exRead with rams := exRead.rams.map fun r => { r with ignoreZero := true } })] }

set_option maxRecDepth 4000 in
theorem exWDoc_read : Wisard.ofJson (fun _ => none) (.obj exWDoc) = .ok exWRead := by decide +kernel

example : (∀ items, valueOf exWDoc b!"classes" = .obj items → SMap.Sorted items) ∧ WisardDoc (fun _ => none) exWDoc exWRead := by
  have hs : ∀ items, valueOf exWDoc b!"classes" = .obj items → SMap.Sorted items := by
    intro items h
    have e : valueOf exWDoc b!"classes" = .obj [(b!"a", .obj exDoc)] := rfl
    rw [e] at h
    cases h
    exact List.pairwise_singleton _ _
  exact ⟨hs, (C114_wisard _ _ _ hs).mp exWDoc_read⟩

/-- A ClusWisard with one cluster of one discriminator, and the same document with members without meaning. -/
def exCDoc : List (Str × Json) :=
  [(b!"addressSize", .int 2), (b!"minScore", .real (1/2)), (b!"threshold", .int 10), (b!"discriminatorsLimit", .int 3),
    (b!"clusters", .obj [(b!"a", .obj [(b!"discriminators", .arr [.obj exDoc]), (b!"entrySize", .int 4)])])]

def exCDoc' : List (Str × Json) :=
  [(b!"version", .str b!"0"), (b!"addressSize", .int 2), (b!"minScore", .real (1/2)), (b!"threshold", .int 10),
    (b!"discriminatorsLimit", .int 3),
    (b!"clusters", .obj [(b!"a", .obj [(b!"base", .int 7), (b!"discriminators", .arr [.obj exDoc']), (b!"entrySize", .int 4)])])]

def exCRead : ClusWisard :=
  { addressSize := 2, minScore := 1/2, threshold := 10, discriminatorsLimit := 3, opts := {}, unsupervisedCluster := Cluster.default,
    clusters := [(b!"a", { cfg := some ⟨2, 4, 1/2, 10, 3, true, false, 2⟩, discriminators := [some exRead] })] }

set_option maxRecDepth 4000 in
theorem exCDoc_read : ClusWisard.ofJson (fun _ => none) (.obj exCDoc) = .ok exCRead := by decide +kernel

example : (∀ items, valueOf exCDoc b!"clusters" = .obj items → SMap.Sorted items) ∧ ClusDoc (fun _ => none) exCDoc exCRead := by
  have hs : ∀ items, valueOf exCDoc b!"clusters" = .obj items → SMap.Sorted items := by
    intro items h
    have e : valueOf exCDoc b!"clusters" = .obj [(b!"a", .obj [(b!"discriminators", .arr [.obj exDoc]), (b!"entrySize", .int 4)])] := rfl
    rw [e] at h
    cases h
    exact List.pairwise_singleton _ _
  exact ⟨hs, (C114_clusWisard _ _ _ hs).mp exCDoc_read⟩

example : ClusWisard.ofJson (fun _ => none) (.obj exCDoc') = .ok exCRead := by
  rw [← exCDoc_read]
  refine (C115_clusWisard _ ⟨?_, Or.inr ⟨_, _, rfl, rfl, ?_⟩, ?_, ?_, ?_⟩).symm
  · intro k hk
    simp only [clusNames, List.mem_cons, List.not_mem_nil, or_false] at hk
    rcases hk with rfl | rfl | rfl | rfl | rfl | rfl | rfl | rfl | rfl | rfl | rfl | rfl | rfl | rfl <;> rfl
  · refine .cons ⟨rfl, fun k hk => ?_, .cons (fun k hk => exDoc_agree k ?_) .nil⟩ .nil
    · simp only [clusterNames, List.mem_cons, List.not_mem_nil, or_false] at hk
      subst hk
      rfl
    · exact List.mem_append_left _ hk
  · exact ⟨fun _ => rfl, fun _ => rfl⟩
  · exact fun _ _ => rfl
  · exact .nil

end Examples

end Wis
