import Verif.Spec.PyObjects
import Verif.Props.BindLabels
import Verif.Props.Data
/-!
# C145 for the remaining calls; C155, C156: iteration and indexes from Python
-/

namespace Wis
open Spec PyBind

theorem dispatch_one {L : PyLib} {ts : List CTy} (h : ∀ t ∈ ts, strict t = true) {xs : List PyVal} {vs : List CVal} :
    dispatch L [ts] xs = some vs ↔ loadArgs L false ts xs = .ok vs := by
  rw [dispatch_strict (by simpa using h), firstOf_cons]
  constructor
  · rintro (h | ⟨_, h⟩)
    · exact h
    · cases h
  · exact .inl

theorem reaches_of {α : Type} {L : PyLib} {sigs : List (List CTy)} (g : Option (List CVal) → PyRes α) (hg : g none = .raised .typeError)
    {Q : List PyVal → List CVal → Prop} (hQ : ∀ args v, dispatch L sigs args = some v ↔ Q args v) {P : List PyVal → PyRes α → Prop}
    (hP : ∀ args r, P args r ↔ ∃ v, Q args v ∧ r = g (some v)) : Behaves (fun args => g (dispatch L sigs args)) P := by
  intro args
  constructor
  · intro r hr
    obtain ⟨v, hv, rfl⟩ := (hP args r).mp hr
    simp only [(hQ args v).mpr hv]
  · intro hn
    cases hd : dispatch L sigs args with
    | none => simp only [hd, hg]
    | some v => exact absurd ((hP args _).mpr ⟨v, (hQ args v).mp hd, rfl⟩) (hn _)

theorem noArg_args {L : PyLib} (args : List PyVal) (v : List CVal) : dispatch L noArgSigs args = some v ↔ args = [] ∧ v = [] := by
  rw [noArgSigs, dispatch_one (by simp), loadArgs_nil]

theorem index_args {L : PyLib} (args : List PyVal) (v : List CVal) :
    dispatch L indexSigs args = some v ↔ ∃ x n, args = [x] ∧ PyIndex x n ∧ v = [.int (n : Int)] := by
  rw [indexSigs, dispatch_one (by decide), loadArgs1]
  simp only [load_size]
  constructor
  · rintro ⟨x, _, rfl, rfl, i, ⟨h1, h2, h3⟩, rfl⟩
    obtain ⟨n, rfl⟩ := Int.eq_ofNat_of_zero_le h2
    exact ⟨x, n, rfl, ⟨h1, h3⟩, rfl⟩
  · rintro ⟨x, n, rfl, ⟨h1, h3⟩, rfl⟩
    exact ⟨x, _, rfl, rfl, n, ⟨h1, by omega, h3⟩, rfl⟩

theorem bitSet_args {L : PyLib} (args : List PyVal) (v : List CVal) :
    dispatch L bitSetSigs args = some v ↔ ∃ x y n i, args = [x, y] ∧ PyIndex x n ∧ PyI32 y i ∧ v = [.int (n : Int), .int i] := by
  rw [bitSetSigs, dispatch_one (by decide), loadArgs2]
  simp only [load_size, load_int]
  constructor
  · rintro ⟨x, y, _, _, rfl, rfl, ⟨i, ⟨h1, h2, h3⟩, rfl⟩, k, hk, rfl⟩
    obtain ⟨n, rfl⟩ := Int.eq_ofNat_of_zero_le h2
    exact ⟨x, y, n, k, rfl, ⟨h1, h3⟩, hk, rfl⟩
  · rintro ⟨x, y, n, i, rfl, ⟨h1, h3⟩, hk, rfl⟩
    exact ⟨x, y, _, _, rfl, rfl, ⟨n, ⟨h1, by omega, h3⟩, rfl⟩, i, hk, rfl⟩

theorem dataSetCtor_args {L : PyLib} (args : List PyVal) (v : List CVal) :
    dispatch L dataSetSigs args = some v ↔ (args = [] ∧ v = []) ∨ ∃ x s, args = [x] ∧ PyText x s ∧ v = [.str s] := by
  rw [dispatch_strict (by decide)]
  simp only [dataSetSigs, firstOf_cons, loadArgs_nil, loadArgs1, load_str]
  constructor
  · rintro (h | ⟨_, ⟨x, _, rfl, rfl, s, h, rfl⟩ | ⟨_, h⟩⟩)
    · exact .inl h
    · exact .inr ⟨x, s, rfl, h, rfl⟩
    · cases h
  · rintro (h | ⟨x, s, rfl, h, rfl⟩)
    · exact .inl h
    · exact .inr ⟨rfl, .inl ⟨x, _, rfl, rfl, s, h, rfl⟩⟩

theorem dataGet_args {L : PyLib} (args : List PyVal) (v : List CVal) :
    dispatch L dataGetSigs args = some v ↔ ∃ x i, args = [x] ∧ PyI32 x i ∧ v = [.int i] := by
  rw [dataGetSigs, dispatch_one (by decide), loadArgs1]
  simp only [load_int]
  constructor
  · rintro ⟨x, _, rfl, rfl, i, h, rfl⟩; exact ⟨x, i, rfl, h, rfl⟩
  · rintro ⟨x, i, rfl, h, rfl⟩; exact ⟨x, _, rfl, rfl, i, h, rfl⟩

theorem text_args {L : PyLib} (args : List PyVal) (v : List CVal) :
    dispatch L textSigs args = some v ↔ ∃ x s, args = [x] ∧ PyText x s ∧ v = [.str s] := by
  rw [textSigs, dispatch_one (by decide), loadArgs1]
  simp only [load_str]
  constructor
  · rintro ⟨x, _, rfl, rfl, i, h, rfl⟩; exact ⟨x, i, rfl, h, rfl⟩
  · rintro ⟨x, i, rfl, h, rfl⟩; exact ⟨x, _, rfl, rfl, i, h, rfl⟩

theorem canvas_args {L : PyLib} (args : List PyVal) (v : List CVal) :
    dispatch L canvasSigs args = some v ↔ ∃ x y d n, args = [x, y] ∧ PyI32 x d ∧ PyI32 y n ∧ v = [.int d, .int n] := by
  rw [canvasSigs, dispatch_one (by decide), loadArgs2]
  simp only [load_int]
  constructor
  · rintro ⟨x, y, _, _, rfl, rfl, ⟨i, h, rfl⟩, k, hk, rfl⟩; exact ⟨x, y, i, k, rfl, h, hk, rfl⟩
  · rintro ⟨x, y, i, k, rfl, h, hk, rfl⟩; exact ⟨x, y, _, _, rfl, rfl, ⟨i, h, rfl⟩, k, hk, rfl⟩

theorem synth_args {L : PyLib} (args : List PyVal) (v : List CVal) :
    dispatch L synthSigs args = some v ↔ ∃ x i, args = [x] ∧ PyImage x i ∧ v = [.ints i] := by
  rw [synthSigs, dispatch_one (by decide), loadArgs1]
  simp only [load_ints]
  constructor
  · rintro ⟨x, _, rfl, rfl, i, h, rfl⟩; exact ⟨x, i, rfl, h, rfl⟩
  · rintro ⟨x, i, rfl, h, rfl⟩; exact ⟨x, _, rfl, rfl, i, h, rfl⟩

theorem handleData_args {L : PyLib} (args : List PyVal) (v : List CVal) :
    dispatch L handleDataSigs args = some v ↔ (args = [] ∧ v = []) ∨ ∃ x i, args = [x] ∧ PyI32 x i ∧ v = [.int i] := by
  rw [dispatch_strict (by decide)]
  simp only [handleDataSigs, firstOf_cons, loadArgs_nil, loadArgs1, load_int]
  constructor
  · rintro (h | ⟨_, ⟨x, _, rfl, rfl, s, h, rfl⟩ | ⟨_, h⟩⟩)
    · exact .inl h
    · exact .inr ⟨x, s, rfl, h, rfl⟩
    · cases h
  · rintro (h | ⟨x, s, rfl, h, rfl⟩)
    · exact .inl h
    · exact .inr ⟨rfl, .inl ⟨x, _, rfl, rfl, s, h, rfl⟩⟩

theorem load_ramData {L : PyLib} {c : Bool} {x : PyVal} {v : CVal} : load L c .ramData x = .ok v ↔ ∃ d, x = .ramData d ∧ v = .ramData d := by
  cases x <;> simp [load, eq_comm]

theorem handleCompare_args {L : PyLib} (args : List PyVal) (v : List CVal) :
    dispatch L handleCompareSigs args = some v ↔ ∃ o, args = [.ramData o] ∧ v = [.ramData o] := by
  rw [handleCompareSigs, dispatch_one (by decide), loadArgs1]
  simp only [load_ramData]
  constructor
  · rintro ⟨x, _, rfl, rfl, i, rfl, rfl⟩; exact ⟨i, rfl, rfl⟩
  · rintro ⟨i, rfl, rfl⟩; exact ⟨_, _, rfl, rfl, i, rfl, rfl⟩

/-! ### Lists of points -/

theorem double_ok {L : PyLib} {x : PyVal} {q : Rat} : loadDouble L true x = .ok q ↔ PyDouble L x q := by
  constructor
  · intro h
    cases x with
    | float q' => cases h; exact .float _
    | int i =>
      simp only [loadDouble, if_true] at h
      cases hd : L.toDouble i with
      | none => rw [hd] at h; cases h
      | some q' => rw [hd] at h; cases h; exact .int (.int i) hd
    | bool b =>
      simp only [loadDouble, if_true] at h
      cases hd : L.toDouble (if b then 1 else 0) with
      | none => rw [hd] at h; cases h
      | some q' =>
        rw [hd] at h; cases h
        cases b
        · exact .int .false hd
        · exact .int .true hd
    | _ => cases h
  · intro h
    cases h with
    | float q => rfl
    | int hi hd =>
      cases hi <;> simp [loadDouble, hd]

/-- If a conversion succeeds with implicit conversions, then it gives the same value or nothing without. -/
def Milder {α : Type} (a b : Load α) : Prop := ∀ v, b = .ok v → a = .ok v ∨ a = .no

theorem milder_double {L : PyLib} (x : PyVal) : Milder (loadDouble L false x) (loadDouble L true x) := by
  intro v h
  cases x with
  | float q => exact .inl h
  | int i => exact .inr rfl
  | bool b => exact .inr rfl
  | _ => cases h

theorem milder_all {α : Type} {f g : PyVal → Load α} (h : ∀ x, Milder (f x) (g x)) (xs : List PyVal) : Milder (allOf f xs) (allOf g xs) := by
  induction xs with
  | nil => intro v hv; exact .inl hv
  | cons x xs ih =>
    intro v hv
    simp only [allOf, Load.map_ok, Load.both_ok] at hv
    obtain ⟨p, ⟨h1, h2⟩, rfl⟩ := hv
    simp only [allOf]
    rcases h x _ h1 with e | e <;> rw [e]
    · rcases ih _ h2 with e' | e' <;> rw [e']
      · exact .inl rfl
      · exact .inr rfl
    · exact .inr rfl

theorem milder_list {L : PyLib} {α : Type} {f g : PyVal → Load α} (h : ∀ x, Milder (f x) (g x)) (x : PyVal) :
    Milder (loadList L f x) (loadList L g x) := by
  intro v hv
  cases x with
  | list vs => exact milder_all h vs v hv
  | binInput b =>
    simp only [loadList] at hv
    split at hv <;> cases hv
  | _ => cases hv

theorem points_ok {L : PyLib} {x : PyVal} {rows : List (List Rat)} :
    loadList L (loadList L (loadDouble L true)) x = .ok rows ↔ PyPoints L x rows := by
  rw [loadList_ok]
  simp only [loadList_ok, double_ok]
  exact Iff.rfl

theorem transform_args {L : PyLib} (args : List PyVal) (v : List CVal) :
    dispatch L transformSigs args = some v ↔ ∃ x rows, args = [x] ∧ PyPoints L x rows ∧ v = [.doubless rows] := by
  have key : ∀ c, firstOf L c transformSigs args = .ok v ↔
      ∃ x rows, args = [x] ∧ loadList L (loadList L (loadDouble L c)) x = .ok rows ∧ v = [.doubless rows] := by
    intro c
    rw [transformSigs, firstOf_cons]
    simp only [loadArgs1, load, Load.map_ok]
    constructor
    · rintro (⟨x, _, rfl, rfl, r, h, rfl⟩ | ⟨_, h⟩)
      · exact ⟨x, r, rfl, h, rfl⟩
      · cases h
    · rintro ⟨x, r, rfl, h, rfl⟩
      exact .inl ⟨x, _, rfl, rfl, r, h, rfl⟩
  have hm : ∀ x, Milder (loadList L (loadList L (loadDouble L false)) x) (loadList L (loadList L (loadDouble L true)) x) :=
    fun x => milder_list (fun y => milder_list milder_double y) x
  have hup : ∀ x r, loadList L (loadList L (loadDouble L false)) x = .ok r → loadList L (loadList L (loadDouble L true)) x = .ok r := by
    intro x r h
    rw [loadList_ok] at h ⊢
    obtain ⟨xs, rfl, h⟩ := h
    refine ⟨xs, rfl, h.imp ?_⟩
    intro y row hy
    rw [loadList_ok] at hy ⊢
    obtain ⟨ys, rfl, hy⟩ := hy
    refine ⟨ys, rfl, hy.imp ?_⟩
    intro z q hz
    cases z with
    | float => exact hz
    | _ => cases hz
  rw [dispatch_iff, key, key]
  simp only [← points_ok]
  constructor
  · rintro (⟨x, r, rfl, h, rfl⟩ | ⟨_, x, r, rfl, h, rfl⟩)
    · exact ⟨x, r, rfl, hup x r h, rfl⟩
    · exact ⟨x, r, rfl, h, rfl⟩
  · rintro ⟨x, r, rfl, h, rfl⟩
    rcases hm x r h with e | e
    · exact .inl ⟨x, r, rfl, e, rfl⟩
    · refine .inr ⟨?_, x, r, rfl, h, rfl⟩
      simp only [transformSigs, firstOf, loadArgs, load, e, Load.map, Load.both]

/-! ### The calls -/

/-- **C145** for `BinInput.get` and `b[i]`. -/
theorem C145_binInput_get (L : PyLib) (b : BinInput) :
    Behaves (b.pyGet L) fun args r => ∃ x n, args = [x] ∧ PyIndex x n ∧ r = .of (some (b.get n)) :=
  reaches_of (fun o => .of (match o with | some [.int i] => some (b.get i.toNat) | _ => none)) rfl index_args fun args r => by
    constructor
    · rintro ⟨x, n, rfl, h, rfl⟩; exact ⟨_, ⟨x, n, rfl, h, rfl⟩, rfl⟩
    · rintro ⟨_, ⟨x, n, rfl, h, rfl⟩, rfl⟩; exact ⟨x, n, rfl, h, rfl⟩

/-- **C145** for `BinInput.set`; a call that raises `TypeError` changes nothing. -/
theorem C145_binInput_set (L : PyLib) (b : BinInput) :
    (Behaves (fun args => (b.pySet L args).2) fun args r => ∃ x y n i, args = [x, y] ∧ PyIndex x n ∧ PyI32 y i ∧ r = .of (some (b.set n i).2)) ∧
    ∀ args, (∃ x y n i, args = [x, y] ∧ PyIndex x n ∧ PyI32 y i ∧ (b.pySet L args).1 = (b.set n i).1) ∨
      ((b.pySet L args).2 = .raised .typeError ∧ (b.pySet L args).1 = b) := by
  constructor
  · refine reaches_of (fun o => (match o with
      | some [.int i, .int v] => ((b.set i.toNat v).1, .of (some (b.set i.toNat v).2))
      | _ => (b, .of none) : BinInput × PyRes Unit).2) rfl bitSet_args fun args r => ?_
    constructor
    · rintro ⟨x, y, n, i, rfl, h, h', rfl⟩; exact ⟨_, ⟨x, y, n, i, rfl, h, h', rfl⟩, rfl⟩
    · rintro ⟨_, ⟨x, y, n, i, rfl, h, h', rfl⟩, rfl⟩; exact ⟨x, y, n, i, rfl, h, h', rfl⟩
  · intro args
    cases hd : dispatch L bitSetSigs args with
    | none => right; unfold BinInput.pySet; rw [hd]; exact ⟨rfl, rfl⟩
    | some v =>
      obtain ⟨x, y, n, i, rfl, h, h', rfl⟩ := (bitSet_args args v).mp hd
      left
      refine ⟨x, y, n, i, rfl, h, h', ?_⟩
      simp only [BinInput.pySet, hd, Int.toNat_natCast]

/-- **C145** for `BinInput.size` and `BinInput.data`. -/
theorem C145_binInput_data (L : PyLib) (b : BinInput) :
    (Behaves (b.pySize L) fun args r => args = [] ∧ r = .ok b.size) ∧
    Behaves (b.pyData L) fun args r => args = [] ∧ r = (PyRes.of (some b.data)).text := by
  constructor
  · refine reaches_of (fun o => .of (match o with | some [] => some (.ok b.size) | _ => none)) rfl noArg_args fun args r => ?_
    constructor
    · rintro ⟨rfl, rfl⟩; exact ⟨_, ⟨rfl, rfl⟩, rfl⟩
    · rintro ⟨_, ⟨rfl, rfl⟩, rfl⟩; exact ⟨rfl, rfl⟩
  · refine reaches_of (fun o => (PyRes.of (match o with | some [] => some b.data | _ => none)).text) rfl noArg_args fun args r => ?_
    constructor
    · rintro ⟨rfl, rfl⟩; exact ⟨_, ⟨rfl, rfl⟩, rfl⟩
    · rintro ⟨_, ⟨rfl, rfl⟩, rfl⟩; exact ⟨rfl, rfl⟩

/-- **C145** for `DataSet(...)`. -/
theorem C145_dataSet_new (L : PyLib) (fs : Fs) :
    Behaves (DataSet.py L fs) fun args r => (args = [] ∧ r = .ok {}) ∨ ∃ x f, args = [x] ∧ PyText x f ∧ r = .of (some (DataSet.load fs f)) :=
  reaches_of (fun o => .of (match o with | some [] => some (.ok {}) | some [.str f] => some (DataSet.load fs f) | _ => none)) rfl
    dataSetCtor_args fun args r => by
    constructor
    · rintro (⟨rfl, rfl⟩ | ⟨x, f, rfl, h, rfl⟩)
      · exact ⟨_, .inl ⟨rfl, rfl⟩, rfl⟩
      · exact ⟨_, .inr ⟨x, f, rfl, h, rfl⟩, rfl⟩
    · rintro ⟨_, ⟨rfl, rfl⟩ | ⟨x, f, rfl, h, rfl⟩, rfl⟩
      · exact .inl ⟨rfl, rfl⟩
      · exact .inr ⟨x, f, rfl, h, rfl⟩

/-- **C145** for `DataSet.get`. -/
theorem C145_dataSet_get (L : PyLib) (d : DataSet) :
    Behaves (d.pyGet L) fun args r => ∃ x i, args = [x] ∧ PyI32 x i ∧ r = .of (some (d.get i)) :=
  reaches_of (fun o => .of (match o with | some [.int i] => some (d.get i) | _ => none)) rfl dataGet_args fun args r => by
    constructor
    · rintro ⟨x, n, rfl, h, rfl⟩; exact ⟨_, ⟨x, n, rfl, h, rfl⟩, rfl⟩
    · rintro ⟨_, ⟨x, n, rfl, h, rfl⟩, rfl⟩; exact ⟨x, n, rfl, h, rfl⟩

/-- **C145** for `DataSet.getLabel`. -/
theorem C145_dataSet_getLabel (L : PyLib) (d : DataSet) :
    Behaves (d.pyGetLabel L) fun args r => ∃ x n, args = [x] ∧ PyIndex x n ∧ r = (PyRes.of (some (d.getLabelAt n))).text :=
  reaches_of (fun o => (PyRes.of (match o with | some [.int i] => some (d.getLabelAt i.toNat) | _ => none)).text) rfl index_args fun args r => by
    constructor
    · rintro ⟨x, n, rfl, h, rfl⟩; exact ⟨_, ⟨x, n, rfl, h, rfl⟩, rfl⟩
    · rintro ⟨_, ⟨x, n, rfl, h, rfl⟩, rfl⟩; exact ⟨x, n, rfl, h, rfl⟩

/-- **C145** for `DataSet.save`, and `DataSet.size`. -/
theorem C145_dataSet_save (L : PyLib) (d : DataSet) (fs : Fs) :
    (Behaves (d.pySave L fs) fun args r => ∃ x p, args = [x] ∧ PyText x p ∧ r = .of (some (d.save fs p))) ∧
    Behaves (d.pySize L) fun args r => args = [] ∧ r = .ok d.size := by
  constructor
  · refine reaches_of (fun o => .of (match o with | some [.str p] => some (d.save fs p) | _ => none)) rfl text_args fun args r => ?_
    constructor
    · rintro ⟨x, n, rfl, h, rfl⟩; exact ⟨_, ⟨x, n, rfl, h, rfl⟩, rfl⟩
    · rintro ⟨_, ⟨x, n, rfl, h, rfl⟩, rfl⟩; exact ⟨x, n, rfl, h, rfl⟩
  · refine reaches_of (fun o => .of (match o with | some [] => some (.ok d.size) | _ => none)) rfl noArg_args fun args r => ?_
    constructor
    · rintro ⟨rfl, rfl⟩; exact ⟨_, ⟨rfl, rfl⟩, rfl⟩
    · rintro ⟨_, ⟨rfl, rfl⟩, rfl⟩; exact ⟨rfl, rfl⟩

/-- **C145** for `KernelCanvas(...)`: exactly two positional arguments. -/
theorem C145_kernelCanvas (L : PyLib) (f : Flt) (o : FOps) (rand : Nat → Nat → o.F) (kws : List (Str × PyVal)) :
    Behaves (fun args => KernelCanvas.py L f o rand args kws) fun args r =>
      ∃ x y dim n, args = [x, y] ∧ PyI32 x dim ∧ PyI32 y n ∧ r = .of (some (KernelCanvas.ofKwargs (casts L) f o rand dim n kws)) :=
  reaches_of (fun v => .of (match v with
    | some [.int dim, .int n] => some (KernelCanvas.ofKwargs (casts L) f o rand dim n kws)
    | _ => none)) rfl canvas_args fun args r => by
    constructor
    · rintro ⟨x, y, n, i, rfl, h, h', rfl⟩; exact ⟨_, ⟨x, y, n, i, rfl, h, h', rfl⟩, rfl⟩
    · rintro ⟨_, ⟨x, y, n, i, rfl, h, h', rfl⟩, rfl⟩; exact ⟨x, y, n, i, rfl, h, h', rfl⟩

/-- **C145** for `KernelCanvas.transform`: a list of points, with integers allowed among the floats. -/
theorem C145_kernelCanvas_transform (L : PyLib) {o : FOps} (num : Rat → o.F) (c : KernelCanvas o) (sorter : Nat → Sorter (Nat × o.F)) :
    Behaves (c.pyTransform L num sorter) fun args r =>
      ∃ x rows, args = [x] ∧ PyPoints L x rows ∧ r = .of (some (c.transform sorter (rows.map fun row => row.map num))) :=
  reaches_of (fun v => .of (match v with
    | some [.doubless rows] => some (c.transform sorter (rows.map (·.map num)))
    | _ => none)) rfl transform_args fun args r => by
    constructor
    · rintro ⟨x, n, rfl, h, rfl⟩; exact ⟨_, ⟨x, n, rfl, h, rfl⟩, rfl⟩
    · rintro ⟨_, ⟨x, n, rfl, h, rfl⟩, rfl⟩; exact ⟨x, n, rfl, h, rfl⟩

/-- **C145** for `Synthesizer(...)` and `make()`. -/
theorem C145_synthesizer (L : PyLib) (rnd : Nat → Rnd) (s : Synthesizer) (rand : Nat) :
    (Behaves (Synthesizer.py L rnd) fun args r => ∃ x v, args = [x] ∧ PyImage x v ∧ r = .of (some (Synthesizer.create rnd v))) ∧
    Behaves (s.pyMake L rand) fun args r => args = [] ∧ r = .of (some (s.make rand)) := by
  constructor
  · refine reaches_of (fun o => .of (match o with | some [.ints v] => some (Synthesizer.create rnd v) | _ => none)) rfl synth_args fun args r => ?_
    constructor
    · rintro ⟨x, n, rfl, h, rfl⟩; exact ⟨_, ⟨x, n, rfl, h, rfl⟩, rfl⟩
    · rintro ⟨_, ⟨x, n, rfl, h, rfl⟩, rfl⟩; exact ⟨x, n, rfl, h, rfl⟩
  · refine reaches_of (fun o => .of (match o with | some [] => some (s.make rand) | _ => none)) rfl noArg_args fun args r => ?_
    constructor
    · rintro ⟨rfl, rfl⟩; exact ⟨_, ⟨rfl, rfl⟩, rfl⟩
    · rintro ⟨_, ⟨rfl, rfl⟩, rfl⟩; exact ⟨rfl, rfl⟩

/-- **C145** for `RAMDataHandle(...)` and `compare`. -/
theorem C145_handle_new (L : PyLib) (fs : Fs) (h : RamData) :
    (Behaves (RamData.py L fs) fun args r => ∃ x t, args = [x] ∧ PyText x t ∧ r = .of (some (RamData.ofText fs t))) ∧
    Behaves (h.pyCompare L) fun args r => ∃ o, args = [.ramData o] ∧ r = .ok (h.compare o) := by
  constructor
  · refine reaches_of (fun o => .of (match o with | some [.str t] => some (RamData.ofText fs t) | _ => none)) rfl text_args fun args r => ?_
    constructor
    · rintro ⟨x, n, rfl, h, rfl⟩; exact ⟨_, ⟨x, n, rfl, h, rfl⟩, rfl⟩
    · rintro ⟨_, ⟨x, n, rfl, h, rfl⟩, rfl⟩; exact ⟨x, n, rfl, h, rfl⟩
  · refine reaches_of (fun o => .of (match o with | some [.ramData o] => some (.ok (h.compare o)) | _ => none)) rfl handleCompare_args fun args r => ?_
    constructor
    · rintro ⟨o, rfl, rfl⟩; exact ⟨_, ⟨o, rfl, rfl⟩, rfl⟩
    · rintro ⟨_, ⟨o, rfl, rfl⟩, rfl⟩; exact ⟨o, rfl, rfl⟩

/-- **C145** for `RAMDataHandle.data`: all RAMs, or the one asked for. -/
theorem C145_handle_data (L : PyLib) (it : IterOrder) (fuel : Nat) (h : RamData) :
    h.pyData L it fuel [] = ((h.data it fuel).1, (h.data it fuel).2.map fun r => (PyRes.of (some r)).text) ∧
    (∀ x i, PyI32 x i → h.pyData L it fuel [x] = ((h.dataOf it i).1, some (PyRes.of (some (h.dataOf it i).2)).text)) ∧
    ∀ args, args ≠ [] → (∀ x i, args = [x] → ¬ PyI32 x i) → h.pyData L it fuel args = (h, some (.raised .typeError)) := by
  refine ⟨?_, fun x i hx => ?_, fun args h0 h1 => ?_⟩
  · rw [RamData.pyData, (handleData_args [] []).mpr (.inl ⟨rfl, rfl⟩)]
  · rw [RamData.pyData, (handleData_args [x] [.int i]).mpr (.inr ⟨x, i, rfl, hx, rfl⟩)]
  · cases hd : dispatch L handleDataSigs args with
    | none => simp only [RamData.pyData, hd]; rfl
    | some v =>
      rcases (handleData_args args v).mp hd with ⟨h, _⟩ | ⟨x, i, h, h', _⟩
      · exact absurd h h0
      · exact absurd h' (h1 x i h)

/-- **C145** for `jsonConfig()` and `getMentalImages()` of the models. -/
theorem C145_noArgs (L : PyLib) (ft : FloatText) (it : IterOrder) (d : Discriminator) (w : Wisard) (c : ClusWisard) :
    (Behaves (d.pyJsonConfig L ft) fun args r => args = [] ∧ r = (PyRes.of (some (d.jsonConfigText ft))).text) ∧
    (Behaves (w.pyJsonConfig L ft) fun args r => args = [] ∧ r = (PyRes.of (some (w.jsonConfigText ft))).text) ∧
    (Behaves (c.pyJsonConfig L ft) fun args r => args = [] ∧ r = (PyRes.of (some (c.jsonConfigText ft))).text) ∧
    (Behaves (w.pyMentalImages L it) fun args r => args = [] ∧ r = (PyRes.of (some (w.getMentalImages it))).convert toDict) ∧
    Behaves (c.pyMentalImages L it) fun args r => args = [] ∧ r = (PyRes.of (some (c.getMentalImages it))).convert toDict := by
  refine ⟨?_, ?_, ?_, ?_, ?_⟩
  · refine reaches_of (fun o => (PyRes.of (match o with | some [] => some (d.jsonConfigText ft) | _ => none)).text) rfl noArg_args fun args r => ?_
    constructor
    · rintro ⟨rfl, rfl⟩; exact ⟨_, ⟨rfl, rfl⟩, rfl⟩
    · rintro ⟨_, ⟨rfl, rfl⟩, rfl⟩; exact ⟨rfl, rfl⟩
  · refine reaches_of (fun o => (PyRes.of (match o with | some [] => some (w.jsonConfigText ft) | _ => none)).text) rfl noArg_args fun args r => ?_
    constructor
    · rintro ⟨rfl, rfl⟩; exact ⟨_, ⟨rfl, rfl⟩, rfl⟩
    · rintro ⟨_, ⟨rfl, rfl⟩, rfl⟩; exact ⟨rfl, rfl⟩
  · refine reaches_of (fun o => (PyRes.of (match o with | some [] => some (c.jsonConfigText ft) | _ => none)).text) rfl noArg_args fun args r => ?_
    constructor
    · rintro ⟨rfl, rfl⟩; exact ⟨_, ⟨rfl, rfl⟩, rfl⟩
    · rintro ⟨_, ⟨rfl, rfl⟩, rfl⟩; exact ⟨rfl, rfl⟩
  · refine reaches_of (fun o => (PyRes.of (match o with | some [] => some (w.getMentalImages it) | _ => none)).convert toDict) rfl noArg_args
      fun args r => ?_
    constructor
    · rintro ⟨rfl, rfl⟩; exact ⟨_, ⟨rfl, rfl⟩, rfl⟩
    · rintro ⟨_, ⟨rfl, rfl⟩, rfl⟩; exact ⟨rfl, rfl⟩
  · refine reaches_of (fun o => (PyRes.of (match o with | some [] => some (c.getMentalImages it) | _ => none)).convert toDict) rfl noArg_args
      fun args r => ?_
    constructor
    · rintro ⟨rfl, rfl⟩; exact ⟨_, ⟨rfl, rfl⟩, rfl⟩
    · rintro ⟨_, ⟨rfl, rfl⟩, rfl⟩; exact ⟨rfl, rfl⟩

/-! ## C155: iterating over a BinInput -/

theorem size_lt (b : BinInput) : b.size < 18446744073709551616 := by
  unfold BinInput.size; exact BitVec.isLt _

theorem pyGet_index (L : PyLib) (b : BinInput) {i : Nat} (h : i ≤ b.size) : b.pyGet L [.int i] = .of (some (b.get i)) :=
  (C145_binInput_get L b [.int i]).1 _ ⟨_, i, rfl, ⟨.int _, by have := size_lt b; omega⟩, rfl⟩

theorem iter_loop (L : PyLib) (b : BinInput) (bits : List Int) (hs : b.size = bits.length)
    (hb : ∀ i (h : i < bits.length), b.get i = .ok bits[i]) : ∀ fuel i, i ≤ bits.length →
    b.iterLoop L fuel i = if fuel ≤ bits.length - i then ((bits.drop i).take fuel, none) else (bits.drop i, some (.raised .runtimeError)) := by
  intro fuel
  induction fuel with
  | zero => intro i _; simp [BinInput.iterLoop]
  | succ n ih =>
    intro i hi
    simp only [BinInput.iterLoop]
    rw [pyGet_index L b (by omega)]
    by_cases hlt : i < bits.length
    · rw [hb i hlt]
      simp only [PyRes.of]
      rw [ih (i + 1) (by omega), List.drop_eq_getElem_cons hlt]
      by_cases hn : n ≤ bits.length - (i + 1)
      · rw [if_pos hn, if_pos (by omega), List.take_succ_cons]
      · rw [if_neg hn, if_neg (by omega)]
    · obtain rfl : i = bits.length := by omega
      rw [BinInput.get_out (by omega)]
      simp only [PyRes.of, Exn.toPython]
      rw [if_neg (by omega)]; simp

/-- **C155** (partial): the values that an iteration over a BinInput hands out are its bits, in order. Missing: the iteration
does not end, see `C155_refuted`. -/
theorem C155_values_partial (L : PyLib) (hL : L.getitemIsSequence = true) (b : BinInput) (bits : List Int) (hs : b.size = bits.length)
    (hb : ∀ i (h : i < bits.length), b.get i = .ok bits[i]) (fuel : Nat) :
    (b.pyIter L fuel).1 = bits.take fuel := by
  rw [BinInput.pyIter, if_pos hL, iter_loop L b bits hs hb fuel 0 (by omega)]
  split
  · simp
  · rw [List.take_of_length_le (by omega)]; simp

theorem built_bits {b : BinInput} (hb : b.Built) : ∃ bits : List Int, b.size = bits.length ∧ ∀ i (h : i < bits.length), b.get i = .ok bits[i] := by
  have h1 : ∀ i < b.size, ∃ v : Int, b.get i = .ok v := fun i hi => by
    obtain ⟨v, hv, _⟩ := C06_set_any_value b hb i i 0 hi hi
    exact ⟨v, hv⟩
  refine ⟨(List.range b.size).map fun i => match b.get i with | .ok v => v | .error _ => 0, by simp, ?_⟩
  intro i hi
  obtain ⟨v, hv⟩ := h1 i (by simpa using hi)
  simp [hv]

/-- **C155** is false: no iteration over a BinInput ends normally. After the last bit `b[i]` raises `RuntimeError`, which
Python does not take for the end, so `list(b)` and `for x in b` always raise. -/
theorem C155_refuted (L : PyLib) (b : BinInput) (hb : b.Built) :
    (∀ fuel, (b.pyIter L fuel).2 ≠ some .finished) ∧
    ∀ fuel, b.size < fuel → (b.pyIter L fuel).2 = some (.raised (if L.getitemIsSequence then .runtimeError else .typeError)) := by
  obtain ⟨bits, h1, h2⟩ := built_bits hb
  constructor
  · intro fuel
    unfold BinInput.pyIter
    split
    · rw [iter_loop L b bits h1 h2 fuel 0 (by omega)]
      split <;> simp
    · simp
  · intro fuel hf
    unfold BinInput.pyIter
    split
    · rw [iter_loop L b bits h1 h2 fuel 0 (by omega), if_neg (by omega)]
    · rfl

/-! ## C156: indexes out of range -/

/-- **C156** (partial): reading or writing a BinInput outside its size raises an exception (`RuntimeError`; `TypeError` for numbers
that no `size_t` holds) and changes nothing; asking a DataSet for the label of an entry raises `IndexError` if the last 32 bits of
the number are not the index of an entry, `TypeError` for numbers that no `size_t` holds. Missing: `DataSet.get`, and the numbers
that `getLabel` takes for the index of an entry, see the refutations. -/
theorem C156_reported_partial (L : PyLib) (b : BinInput) (x : PyVal) (i : Int) (hx : PyInt x i) :
    (i < 0 ∨ b.size ≤ i → b.pyGet L [x] = .raised (if 0 ≤ i ∧ i ≤ 18446744073709551615 then .runtimeError else .typeError)) ∧
    (i < 0 ∨ b.size ≤ i → ∀ y v, PyI32 y v → (b.pySet L [x, y]).1 = b ∧
      (b.pySet L [x, y]).2 = .raised (if 0 ≤ i ∧ i ≤ 18446744073709551615 then .runtimeError else .typeError)) ∧
    ∀ (hist : List (BinInput × Str)), i < 0 ∨ 18446744073709551615 < i ∨ (hist.length : Int) ≤ i % 4294967296 →
      (hist.foldl (fun d e => DataSet.add d e.1 e.2) {}).pyGetLabel L [x] =
        .raised (if 0 ≤ i ∧ i ≤ 18446744073709551615 then .indexError else .typeError) := by
  have uniq : ∀ {n : Nat}, PyIndex x n → i = n := by
    intro n h
    have h := h.1
    cases hx <;> (generalize hz : (n : Int) = z at h; cases h; rfl)
  refine ⟨fun h => ?_, fun h y v hy => ?_, fun hist h => ?_⟩
  · by_cases hr : 0 ≤ i ∧ i ≤ 18446744073709551615
    · rw [if_pos hr]
      obtain ⟨n, rfl⟩ := Int.eq_ofNat_of_zero_le hr.1
      rw [(C145_binInput_get L b [x]).1 _ ⟨x, n, rfl, ⟨hx, hr.2⟩, rfl⟩, BinInput.get_out (by omega)]
      rfl
    · rw [if_neg hr]
      refine (C145_binInput_get L b [x]).2 ?_
      rintro r ⟨x', n, he, hn, _⟩
      cases he
      have := uniq hn
      have := hn.2
      omega
  · by_cases hr : 0 ≤ i ∧ i ≤ 18446744073709551615
    · rw [if_pos hr]
      obtain ⟨n, rfl⟩ := Int.eq_ofNat_of_zero_le hr.1
      have hd := (bitSet_args (L := L) [x, y] _).mpr ⟨x, y, n, v, rfl, ⟨hx, hr.2⟩, hy, rfl⟩
      have ho : b.set n v = (b, .error (.throw .indexOutOfRange)) := by unfold BinInput.set; rw [if_pos (by omega)]
      unfold BinInput.pySet
      rw [hd]
      simp only [Int.toNat_natCast, ho]
      exact ⟨trivial, rfl⟩
    · rw [if_neg hr]
      rcases (C145_binInput_set L b).2 [x, y] with ⟨x', y', n, k, he, hn, _⟩ | ⟨h1, h2⟩
      · cases he
        have := uniq hn
        have := hn.2
        omega
      · exact ⟨h2, h1⟩
  · by_cases hr : 0 ≤ i ∧ i ≤ 18446744073709551615
    · rw [if_pos hr]
      obtain ⟨n, rfl⟩ := Int.eq_ofNat_of_zero_le hr.1
      have hn : hist.length ≤ n % 4294967296 := by omega
      rw [(C145_dataSet_getLabel L _ [x]).1 _ ⟨x, n, rfl, ⟨hx, hr.2⟩, rfl⟩]
      have he : (hist.foldl (fun d e => DataSet.add d e.1 e.2) {}).getLabelAt n = .error (.throw .stdOutOfRange) := by
        by_cases hb : n % 4294967296 < 2147483648
        · have h1 := ((C08_dataset_append_only hist).2.2 (n % 4294967296) hn).2 hb
          unfold DataSet.getLabelAt at h1 ⊢
          rw [Nat.mod_mod] at h1
          exact h1
        · unfold DataSet.getLabelAt
          rw [if_neg hb]
      rw [he]
      rfl
    · rw [if_neg hr]
      refine (C145_dataSet_getLabel L _ [x]).2 ?_
      rintro r ⟨x', n, he, hn, _⟩
      cases he
      have := uniq hn
      have := hn.2
      omega

/-- **C156** is false (1): `DataSet.get` with an index outside the data set is undefined behaviour. -/
theorem C156_get_undefined (L : PyLib) (d : DataSet) (x : PyVal) (i : Int) (hx : PyI32 x i) (h : i < 0 ∨ d.size ≤ i) :
    d.pyGet L [x] = .ub .outOfBounds := by
  rw [(C145_dataSet_get L d [x]).1 _ ⟨x, i, rfl, hx, rfl⟩]
  unfold DataSet.get
  by_cases h0 : i < 0
  · rw [if_pos h0]; rfl
  · rw [if_neg h0]
    have : d.data[i.toNat]? = none := by
      rw [List.getElem?_eq_none_iff]
      simp only [DataSet.size] at h
      omega
    rw [this]; rfl

/-- **C156** is false (2): `getLabel(n + 2^32)` returns the label of entry `n`, and so does every index that agrees with `n`
in its last 32 bits. -/
theorem C156_label_wraps (L : PyLib) (d : DataSet) (n k : Nat) (h : n + 4294967296 * k ≤ 18446744073709551615) :
    d.pyGetLabel L [.int (n + 4294967296 * k : Nat)] = d.pyGetLabel L [.int n] := by
  rw [(C145_dataSet_getLabel L d [_]).1 _ ⟨_, n + 4294967296 * k, rfl, ⟨.int _, by omega⟩, rfl⟩,
    (C145_dataSet_getLabel L d [_]).1 _ ⟨_, n, rfl, ⟨.int _, by omega⟩, rfl⟩]
  unfold DataSet.getLabelAt
  rw [Nat.add_mul_mod_self_left]

/-- An entry with the label "é". -/
example (L : PyLib) : ∃ d : DataSet, d.size = 1 ∧ d.pyGetLabel L [.int 4294967296] = .ok [233] := by
  refine ⟨DataSet.add {} (BinInput.ofSize 3) [0xC3, 0xA9], rfl, ?_⟩
  have h := C156_label_wraps L (DataSet.add {} (BinInput.ofSize 3) [0xC3, 0xA9]) 0 1 (by decide)
  rw [show ((0 + 4294967296 * 1 : Nat) : Int) = 4294967296 from rfl] at h
  rw [h, (C145_dataSet_getLabel L _ [_]).1 _ ⟨_, 0, rfl, ⟨.int _, by decide⟩, rfl⟩]
  rfl

example : (BinInput.ofSize 9).Built := .zeros 9 (by decide)

end Wis
