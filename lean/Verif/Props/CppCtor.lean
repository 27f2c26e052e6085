import Verif.Model.CppCtor
import Verif.Props.Kwargs
import Verif.Props.LoadJson
/-!
# C132, C133: the constructors of the C++ interface build what the Python constructors build
-/

namespace Wis

open Spec

namespace Spec

/-- The member `name` of a JSON object and the keyword argument `name` say the same: both are absent (a JSON null counts as
absent), or both are given and mean the same value. -/
def SameOption {V α : Type} (m : List (Str × Json)) (kws : List (Str × V)) (name : Str) (cast : V → Option α)
    (is : Json → α → Prop) : Prop :=
  (∃ v x, (name, v) ∈ kws ∧ cast v = some x ∧ valueOf m name ≠ .null ∧ is (valueOf m name) x)
  ∨ ((∀ v, (name, v) ∉ kws) ∧ valueOf m name = .null)

variable {V : Type} (c : PyCasts V) (m : List (Str × Json)) (kws : List (Str × V))

/-- The same options for a `Wisard`. -/
structure SameWisardOptions : Prop where
  bleachingActivated : SameOption m kws b!"bleachingActivated" c.bool IsBool
  verbose : SameOption m kws b!"verbose" c.bool IsBool
  ignoreZero : SameOption m kws b!"ignoreZero" c.bool IsBool
  completeAddressing : SameOption m kws b!"completeAddressing" c.bool IsBool
  mapping : SameOption m kws b!"mapping" c.mapping IsMapping
  indexes : SameOption m kws b!"indexes" c.ints IsInts
  base : SameOption m kws b!"base" c.int IsInt
  searchBestConfidence : SameOption m kws b!"searchBestConfidence" c.bool IsBool
  returnConfidence : SameOption m kws b!"returnConfidence" c.bool IsBool
  returnActivationDegree : SameOption m kws b!"returnActivationDegree" c.bool IsBool
  returnClassesDegrees : SameOption m kws b!"returnClassesDegrees" c.bool IsBool
  confidence : SameOption m kws b!"confidence" c.int IsInt

/-- The same options for a `ClusWisard`. -/
structure SameClusOptions : Prop where
  bleachingActivated : SameOption m kws b!"bleachingActivated" c.bool IsBool
  verbose : SameOption m kws b!"verbose" c.bool IsBool
  ignoreZero : SameOption m kws b!"ignoreZero" c.bool IsBool
  completeAddressing : SameOption m kws b!"completeAddressing" c.bool IsBool
  base : SameOption m kws b!"base" c.int IsInt
  searchBestConfidence : SameOption m kws b!"searchBestConfidence" c.bool IsBool
  returnConfidence : SameOption m kws b!"returnConfidence" c.bool IsBool
  returnActivationDegree : SameOption m kws b!"returnActivationDegree" c.bool IsBool
  returnClassesDegrees : SameOption m kws b!"returnClassesDegrees" c.bool IsBool
  confidence : SameOption m kws b!"confidence" c.int IsInt

/-- The same options for a `Discriminator`. -/
structure SameDiscOptions : Prop where
  ignoreZero : SameOption m kws b!"ignoreZero" c.bool IsBool
  completeAddressing : SameOption m kws b!"completeAddressing" c.bool IsBool
  base : SameOption m kws b!"base" c.int IsInt
  indexes : SameOption m kws b!"indexes" c.ints IsInts
  mapping : SameOption m kws b!"mapping" c.intss IsIntss

/-- The same options for a `KernelCanvas`. -/
structure SameCanvasOptions : Prop where
  bitsByKernel : SameOption m kws b!"bitsByKernel" c.int IsInt
  activationDegree : SameOption m kws b!"activationDegree" c.float IsFloating
  useDirection : SameOption m kws b!"useDirection" c.bool IsBool

end Spec

section
variable {V α : Type} {m : List (Str × Json)} {kws : List (Str × V)} {n : Str} {cast : V → Option α} {is : Json → α → Prop}

theorem distinct_inj (hd : Distinct kws) {v w : V} (hv : (n, v) ∈ kws) (hw : (n, w) ∈ kws) : v = w := by
  induction kws with
  | nil => simp at hv
  | cons e kws ih =>
    unfold Distinct at hd
    simp only [List.map_cons, List.nodup_cons] at hd
    rcases List.mem_cons.mp hv with rfl | hv' <;> rcases List.mem_cons.mp hw with hw' | hw'
    · cases hw'; rfl
    · exact absurd (List.mem_map_of_mem (f := (·.1)) hw') hd.1
    · subst hw'; exact absurd (List.mem_map_of_mem (f := (·.1)) hv') hd.1
    · exact ih hd.2 hv' hw'

theorem Spec.SameOption.typeOk (hd : Distinct kws) (h : SameOption m kws n cast is) : TypeOk kws n cast := by
  intro v hv
  rcases h with ⟨w, x, hw, hx, _⟩ | ⟨hn, _⟩
  · rw [distinct_inj hd hv hw]; exact ⟨x, hx⟩
  · exact absurd hv (hn v)

theorem Spec.SameOption.reads {d x : α} (hd : Distinct kws) (h : SameOption m kws n cast is) (ho : OptionIs kws n cast d x) :
    Reads m n is d x := by
  rcases h with ⟨w, y, hw, hy, hn, hi⟩ | ⟨hn, hm⟩
  · rcases ho with ⟨v, hv, hx⟩ | ⟨hno, _⟩
    · rw [distinct_inj hd hv hw, hy] at hx
      cases hx
      exact Or.inr ⟨hn, hi⟩
    · exact absurd hw (hno w)
  · rcases ho with ⟨v, hv, _⟩ | ⟨_, rfl⟩
    · exact absurd hv (hn v)
    · exact Or.inl ⟨hm, rfl⟩

end

variable {V : Type} (c : PyCasts V)

/-- C132 for `Wisard`: with the same options, the C++ constructor and the Python constructor make the same model. -/
theorem C132_wisard (A : Int) (m : List (Str × Json)) (kws : List (Str × V)) (hd : Distinct kws) (h : SameWisardOptions c m kws) :
    ∃ w, Wisard.ofOptions A (.obj m) = .ok w ∧ Wisard.ofKwargs c A kws = .ok w := by
  obtain ⟨h1, h2, h3, h4, h5, h6, h7, h8, h9, h10, h11, h12⟩ := h
  obtain ⟨o, ho⟩ := (kwLoop_ok (wisardKw_pure c) (o := {})).mpr ((wisardKw_types c kws).mpr
    ⟨h1.typeOk hd, h2.typeOk hd, h3.typeOk hd, h4.typeOk hd, h5.typeOk hd, h6.typeOk hd, h7.typeOk hd, h8.typeOk hd, h9.typeOk hd,
      h10.typeOk hd, h11.typeOk hd, h12.typeOk hd⟩)
  obtain ⟨a1, a2, a3, a4, a5, a6, a7, a8, a9, a10, a11, a12⟩ := wisardKw_are c hd ho
  have hj : Wisard.optsOfJson (.obj m) = .ok o := wisardOpts_iff.mpr
    ⟨h1.reads hd a1, h2.reads hd a2, h3.reads hd a3, h4.reads hd a4, h5.reads hd a5, h6.reads hd a6, h7.reads hd a7, h12.reads hd a12,
      h8.reads hd a8, h9.reads hd a9, h10.reads hd a10, h11.reads hd a11⟩
  refine ⟨Wisard.create A o, ?_, ?_⟩
  · unfold Wisard.ofOptions; rw [hj]; rfl
  · unfold Wisard.ofKwargs; rw [ho]; rfl

/-- C132 for `ClusWisard`: with the same options, the two constructors make the same model or throw the same exception. -/
theorem C132_clusWisard (A : Int) (s : Rat) (t l : Int) (m : List (Str × Json)) (kws : List (Str × V)) (hd : Distinct kws)
    (h : SameClusOptions c m kws) :
    ClusWisard.ofOptions A s t l (.obj m) = ClusWisard.ofKwargs c A s t l kws := by
  obtain ⟨h1, h2, h3, h4, h5, h6, h7, h8, h9, h10⟩ := h
  obtain ⟨o, ho⟩ := (kwLoop_ok (clusKw_pure c) (o := {})).mpr ((clusKw_types c kws).mpr
    ⟨h1.typeOk hd, h2.typeOk hd, h3.typeOk hd, h4.typeOk hd, h5.typeOk hd, h6.typeOk hd, h7.typeOk hd, h8.typeOk hd, h9.typeOk hd,
      h10.typeOk hd⟩)
  obtain ⟨a1, a2, a3, a4, a5, a6, a7, a8, a9, a10⟩ := clusKw_are c hd ho
  have hj : ClusWisard.optsOfJson (.obj m) = .ok o := clusOpts_iff.mpr
    ⟨h1.reads hd a1, h2.reads hd a2, h3.reads hd a3, h4.reads hd a4, h5.reads hd a5, h10.reads hd a10, h6.reads hd a6, h7.reads hd a7,
      h8.reads hd a8, h9.reads hd a9⟩
  unfold ClusWisard.ofOptions ClusWisard.ofKwargs
  rw [hj, Except.bind_ok, ho]
  unfold ClusWisard.create
  cases ClusWisard.checkConfigInputs s t l with
  | error e => simp only [Except.bind_error]
  | ok _ => simp only [Except.bind_ok]

theorem discOpts_iff {m : List (Str × Json)} {o : Options} : Discriminator.optsOfJson (.obj m) = .ok o ↔
    (Reads m b!"ignoreZero" IsBool false o.ignoreZero ∧ Reads m b!"completeAddressing" IsBool true o.completeAddressing
      ∧ Reads m b!"indexes" IsInts [] o.indexes ∧ Reads m b!"mapping" IsIntss [] o.mapping ∧ Reads m b!"base" IsInt 2 o.base) := by
  constructor
  · intro h
    unfold Discriminator.optsOfJson at h
    obtain ⟨x1, h1, h⟩ := bind_eq_ok h
    obtain ⟨x2, h2, h⟩ := bind_eq_ok h
    obtain ⟨x3, h3, h⟩ := bind_eq_ok h
    obtain ⟨x4, h4, h⟩ := bind_eq_ok h
    obtain ⟨x5, h5, h⟩ := bind_eq_ok h
    cases h
    exact ⟨(opt_iff asBool_iff).mp h1, (opt_iff asBool_iff).mp h2, (opt_iff asInts_iff).mp h3, (opt_iff asIntss_iff).mp h4,
      (opt_iff asInt_iff).mp h5⟩
  · rintro ⟨h1, h2, h3, h4, h5⟩
    unfold Discriminator.optsOfJson
    rw [(opt_iff asBool_iff).mpr h1, Except.bind_ok, (opt_iff asBool_iff).mpr h2, Except.bind_ok, (opt_iff asInts_iff).mpr h3,
      Except.bind_ok, (opt_iff asIntss_iff).mpr h4, Except.bind_ok, (opt_iff asInt_iff).mpr h5, Except.bind_ok]

/-- C132 for `Discriminator`: with the same options and the same random numbers, the two constructors have the same outcome. -/
theorem C132_discriminator (rnd : Rnd) (A E : Int) (m : List (Str × Json)) (kws : List (Str × V)) (hd : Distinct kws)
    (h : SameDiscOptions c m kws) :
    Discriminator.ofOptions rnd A E (.obj m) = Discriminator.ofKwargs c rnd A E kws := by
  obtain ⟨h1, h2, h3, h4, h5⟩ := h
  obtain ⟨o, ho⟩ := (kwLoop_ok (discKw_pure c) (o := {})).mpr ((discKw_types c kws).mpr
    ⟨h1.typeOk hd, h2.typeOk hd, h3.typeOk hd, h4.typeOk hd, h5.typeOk hd⟩)
  obtain ⟨a1, a2, a3, a4, a5⟩ := discKw_are c hd ho
  have hj : Discriminator.optsOfJson (.obj m) = .ok o := discOpts_iff.mpr
    ⟨h1.reads hd a1, h2.reads hd a2, h4.reads hd a4, h5.reads hd a5, h3.reads hd a3⟩
  unfold Discriminator.ofOptions Discriminator.ofKwargs
  rw [hj, Except.bind_ok, ho, Except.bind_ok]

/-- C132 without options: `Wisard(addressSize)` and so on. -/
theorem C132_no_options (rnd : Rnd) (A E : Int) (s : Rat) (t l : Int) :
    Wisard.ofOptions A .null = Wisard.ofKwargs c A [] ∧ ClusWisard.ofOptions A s t l .null = ClusWisard.ofKwargs c A s t l []
    ∧ Discriminator.ofOptions rnd A E .null = Discriminator.ofKwargs c rnd A E [] := by
  refine ⟨rfl, ?_, rfl⟩
  have hj : ClusWisard.optsOfJson .null = .ok {} := rfl
  unfold ClusWisard.ofOptions ClusWisard.ofKwargs
  rw [hj, Except.bind_ok]
  unfold ClusWisard.create
  cases ClusWisard.checkConfigInputs s t l with
  | error e => simp only [Except.bind_error]
  | ok _ => rfl

/-- C133 is false of the code: no arguments make the C++ constructor of `KernelCanvas` return a canvas; with options of the right types it
reads a member that has no value, whatever the dimension given. -/
theorem C133_refuted (f : Flt) (o : FOps) (rand : Nat → Nat → o.F) (dim numberOfKernels : Int) :
    (∀ options kc, KernelCanvas.ofOptions f o rand dim numberOfKernels options ≠ .ok kc)
    ∧ (∀ (m : List (Str × Json)) (kws : List (Str × V)), Distinct kws → SameCanvasOptions c m kws →
        KernelCanvas.ofOptions f o rand dim numberOfKernels (.obj m) = .error (.ub .uninitialised))
    ∧ KernelCanvas.ofOptions f o rand dim numberOfKernels .null = .error (.ub .uninitialised) := by
  refine ⟨?_, ?_, rfl⟩
  · intro options kc h
    obtain ⟨k, _, h⟩ := bind_eq_ok h
    cases h
  · intro m kws hd ⟨h1, h2, h3⟩
    obtain ⟨k, ho⟩ := (kwLoop_ok (canvasKw_pure c) (o := ⟨3, f.rnd (7/100), false⟩)).mpr ((canvasKw_types c kws).mpr
      ⟨h1.typeOk hd, h2.typeOk hd, h3.typeOk hd⟩)
    obtain ⟨a1, a2, a3⟩ := canvasKw_are c f hd ho
    unfold KernelCanvas.ofOptions KernelCanvas.optsOfJson
    rw [(opt_iff asInt_iff).mpr (h1.reads hd a1), Except.bind_ok, (opt_iff asReal_iff).mpr (h2.reads hd a2), Except.bind_ok,
      (opt_iff asBool_iff).mpr (h3.reads hd a3), Except.bind_ok, Except.bind_ok]
    rfl

/-- C133, the part that holds: the options themselves are read as Python reads them, and were the member set to the dimension
given, the canvas would be the one of Python. -/
theorem C133_options_partial (f : Flt) (o : FOps) (rand : Nat → Nat → o.F) (dim numberOfKernels : Int) (m : List (Str × Json))
    (kws : List (Str × V)) (hd : Distinct kws) (h : SameCanvasOptions c m kws) :
    ∃ k, KernelCanvas.optsOfJson f (.obj m) = .ok k ∧ CanvasOptionsAre c kws f k.bitsByKernel k.activationDegree k.useDirection
      ∧ KernelCanvas.setup f o rand (some dim) numberOfKernels k.bitsByKernel k.activationDegree k.useDirection
        = KernelCanvas.ofKwargs c f o rand dim numberOfKernels kws := by
  obtain ⟨h1, h2, h3⟩ := h
  obtain ⟨k, ho⟩ := (kwLoop_ok (canvasKw_pure c) (o := ⟨3, f.rnd (7/100), false⟩)).mpr ((canvasKw_types c kws).mpr
    ⟨h1.typeOk hd, h2.typeOk hd, h3.typeOk hd⟩)
  have ha := canvasKw_are c f hd ho
  obtain ⟨a1, a2, a3⟩ := ha
  refine ⟨k, ?_, ⟨a1, a2, a3⟩, ?_⟩
  · unfold KernelCanvas.optsOfJson
    rw [(opt_iff asInt_iff).mpr (h1.reads hd a1), Except.bind_ok, (opt_iff asReal_iff).mpr (h2.reads hd a2), Except.bind_ok,
      (opt_iff asBool_iff).mpr (h3.reads hd a3), Except.bind_ok]
  · unfold KernelCanvas.ofKwargs
    rw [ho, Except.bind_ok]
    rfl

/-! ## A concrete case -/

/-- Python values: here the JSON values themselves, converted strictly. -/
def jsonCasts : PyCasts Json where
  bool | .bool b => some b | _ => none
  int | .int i => if InI32 i then some i else none | _ => none
  float | .real q => some q | .int i => some i | _ => none
  ints | .arr [.int i] => if InI32 i then some [i] else none | _ => none
  intss _ := none
  mapping _ := none

/-- The case: `Wisard(3, {"base": 3, "indexes": [5], "verbose": true})` and `Wisard(3, verbose=True, base=3, indexes=[5])`. -/
def ctorMembers : List (Str × Json) := [(b!"base", .int 3), (b!"indexes", .arr [.int 5]), (b!"verbose", .bool true)]

def ctorKws : List (Str × Json) := [(b!"verbose", .bool true), (b!"base", .int 3), (b!"indexes", .arr [.int 5])]

theorem ctorSame : SameWisardOptions jsonCasts ctorMembers ctorKws where
  bleachingActivated := Or.inr ⟨by intro v; simp [ctorKws], rfl⟩
  verbose := Or.inl ⟨.bool true, true, by simp [ctorKws], rfl, (by intro h; cases h), .bool true⟩
  ignoreZero := Or.inr ⟨by intro v; simp [ctorKws], rfl⟩
  completeAddressing := Or.inr ⟨by intro v; simp [ctorKws], rfl⟩
  mapping := Or.inr ⟨by intro v; simp [ctorKws], rfl⟩
  indexes := Or.inl ⟨.arr [.int 5], [5], by simp [ctorKws], rfl, (by intro h; cases h),
    .arr (.cons (.int (by unfold InI32; omega) (by omega)) .nil)⟩
  base := Or.inl ⟨.int 3, 3, by simp [ctorKws], rfl, (by intro h; cases h), .int (by unfold InI32; omega) (by omega)⟩
  searchBestConfidence := Or.inr ⟨by intro v; simp [ctorKws], rfl⟩
  returnConfidence := Or.inr ⟨by intro v; simp [ctorKws], rfl⟩
  returnActivationDegree := Or.inr ⟨by intro v; simp [ctorKws], rfl⟩
  returnClassesDegrees := Or.inr ⟨by intro v; simp [ctorKws], rfl⟩
  confidence := Or.inr ⟨by intro v; simp [ctorKws], rfl⟩

example : ∃ w, Wisard.ofOptions 3 (.obj ctorMembers) = .ok w ∧ Wisard.ofKwargs jsonCasts 3 ctorKws = .ok w :=
  C132_wisard jsonCasts 3 ctorMembers ctorKws (by unfold Distinct; decide) ctorSame

example : SameClusOptions jsonCasts ctorMembers ctorKws :=
  ⟨ctorSame.bleachingActivated, ctorSame.verbose, ctorSame.ignoreZero, ctorSame.completeAddressing, ctorSame.base, ctorSame.searchBestConfidence,
    ctorSame.returnConfidence, ctorSame.returnActivationDegree, ctorSame.returnClassesDegrees, ctorSame.confidence⟩

example : SameDiscOptions jsonCasts ctorMembers ctorKws :=
  ⟨ctorSame.ignoreZero, ctorSame.completeAddressing, ctorSame.base, ctorSame.indexes, Or.inr ⟨by intro v; simp [ctorKws], rfl⟩⟩

example : SameCanvasOptions jsonCasts [(b!"bitsByKernel", .int 2)] [(b!"bitsByKernel", .int 2)] where
  bitsByKernel := Or.inl ⟨.int 2, 2, by simp, rfl, (by intro h; cases h), .int (by unfold InI32; omega) (by omega)⟩
  activationDegree := Or.inr ⟨by intro v; simp, rfl⟩
  useDirection := Or.inr ⟨by intro v; simp, rfl⟩

end Wis
