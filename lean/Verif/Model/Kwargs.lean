import Verif.Model.ClusWisard
import Verif.Model.KernelCanvas
/-!
# Python keyword arguments: the constructors of `/repo/src/wrappers/*.cc`

`py::kwargs` is a Python dict: a list of pairs in iteration order, with distinct keys. What pybind11's `cast<T>()` accepts
is a parameter (`PyCasts`): it returns a value or throws `cast_error`. Every loop goes through the arguments and compares
each name with the names of all options, in the order of the source.
-/

namespace Wis

/-- `arg.second.cast<T>()` for the types used, on Python values of type `V`.
discriminatorwrapper.cc:14-29, wisardwrapper.cc:7-43, cluswisardwrapper.cc:8-38, kernelcanvaswrapper.cc:10-19. -/
structure PyCasts (V : Type) where
  bool : V → Option Bool
  int : V → Option Int
  float : V → Option Rat
  ints : V → Option (List Int)
  intss : V → Option (List (List Int))
  mapping : V → Option (SMap (List (List Int)))

/-- One `if(std::string(py::str(arg.first)).compare(name) == 0) field = arg.second.cast<T>();`.
discriminatorwrapper.cc:14-29, wisardwrapper.cc:7-43, cluswisardwrapper.cc:8-38, kernelcanvaswrapper.cc:10-19. -/
structure KwOpt (V σ : Type) where
  name : Str
  apply : V → σ → Option σ

/-- The body of the loop, for the argument `(k, v)`: all comparisons in order.
discriminatorwrapper.cc:14-29, wisardwrapper.cc:7-43, cluswisardwrapper.cc:8-38, kernelcanvaswrapper.cc:10-19. -/
def kwStep {V σ : Type} : List (KwOpt V σ) → Str → V → σ → Res σ
  | [], _, _, o => .ok o
  | r :: rs, k, v, o =>
    if k = r.name then
      match r.apply v o with
      | some o' => kwStep rs k v o'
      | none => .error (.throw .pyCast)
    else kwStep rs k v o

/-- `for(auto arg: kwargs){…}`.
discriminatorwrapper.cc:14-29, wisardwrapper.cc:7-43, cluswisardwrapper.cc:8-38, kernelcanvaswrapper.cc:10-19. -/
def kwLoop {V σ : Type} (t : List (KwOpt V σ)) : List (Str × V) → σ → Res σ
  | [], o => .ok o
  | (k, v) :: kws, o => do
    let o' ← kwStep t k v o
    kwLoop t kws o'

variable {V : Type} (c : PyCasts V)

/-- wisardwrapper.cc:7-43. -/
def wisardKw : List (KwOpt V WisardOpts) := [
  ⟨b!"bleachingActivated", fun v o => (c.bool v).map fun x => { o with bleachingActivated := x }⟩,
  ⟨b!"verbose", fun v o => (c.bool v).map fun x => { o with verbose := x }⟩,
  ⟨b!"ignoreZero", fun v o => (c.bool v).map fun x => { o with ignoreZero := x }⟩,
  ⟨b!"completeAddressing", fun v o => (c.bool v).map fun x => { o with completeAddressing := x }⟩,
  ⟨b!"mapping", fun v o => (c.mapping v).map fun x => { o with mapping := x }⟩,
  ⟨b!"indexes", fun v o => (c.ints v).map fun x => { o with indexes := x }⟩,
  ⟨b!"base", fun v o => (c.int v).map fun x => { o with base := x }⟩,
  ⟨b!"searchBestConfidence", fun v o => (c.bool v).map fun x => { o with searchBestConfidence := x }⟩,
  ⟨b!"returnConfidence", fun v o => (c.bool v).map fun x => { o with returnConfidence := x }⟩,
  ⟨b!"returnActivationDegree", fun v o => (c.bool v).map fun x => { o with returnActivationDegree := x }⟩,
  ⟨b!"returnClassesDegrees", fun v o => (c.bool v).map fun x => { o with returnClassesDegrees := x }⟩,
  ⟨b!"confidence", fun v o => (c.int v).map fun x => { o with confidence := x }⟩]

/-- `WisardWrapper(addressSize, kwargs)`, wisardwrapper.cc:5-44, after `Wisard(addressSize)`, wisard.cc:4. -/
def Wisard.ofKwargs (addressSize : Int) (kws : List (Str × V)) : Res Wisard := do
  let o ← kwLoop (wisardKw c) kws {}
  .ok (Wisard.create addressSize o)

/-- cluswisardwrapper.cc:8-38. -/
def clusKw : List (KwOpt V ClusOpts) := [
  ⟨b!"bleachingActivated", fun v o => (c.bool v).map fun x => { o with bleachingActivated := x }⟩,
  ⟨b!"verbose", fun v o => (c.bool v).map fun x => { o with verbose := x }⟩,
  ⟨b!"ignoreZero", fun v o => (c.bool v).map fun x => { o with ignoreZero := x }⟩,
  ⟨b!"completeAddressing", fun v o => (c.bool v).map fun x => { o with completeAddressing := x }⟩,
  ⟨b!"base", fun v o => (c.int v).map fun x => { o with base := x }⟩,
  ⟨b!"searchBestConfidence", fun v o => (c.bool v).map fun x => { o with searchBestConfidence := x }⟩,
  ⟨b!"returnConfidence", fun v o => (c.bool v).map fun x => { o with returnConfidence := x }⟩,
  ⟨b!"returnActivationDegree", fun v o => (c.bool v).map fun x => { o with returnActivationDegree := x }⟩,
  ⟨b!"returnClassesDegrees", fun v o => (c.bool v).map fun x => { o with returnClassesDegrees := x }⟩,
  ⟨b!"confidence", fun v o => (c.int v).map fun x => { o with confidence := x }⟩]

/-- `ClusWisardWrapper(addressSize, minScore, threshold, discriminatorsLimit, kwargs)`, cluswisardwrapper.cc:5-39: first
`ClusWisard(…)` with default options, cluswisard.cc:4-10, which checks its arguments. -/
def ClusWisard.ofKwargs (addressSize : Int) (minScore : Rat) (threshold discriminatorsLimit : Int) (kws : List (Str × V)) :
    Res ClusWisard := do
  let w ← ClusWisard.create addressSize minScore threshold discriminatorsLimit {}
  let o ← kwLoop (clusKw c) kws {}
  .ok { w with opts := o }

/-- discriminatorwrapper.cc:14-29. -/
def discKw : List (KwOpt V Options) := [
  ⟨b!"ignoreZero", fun v o => (c.bool v).map fun x => { o with ignoreZero := x }⟩,
  ⟨b!"completeAddressing", fun v o => (c.bool v).map fun x => { o with completeAddressing := x }⟩,
  ⟨b!"base", fun v o => (c.int v).map fun x => { o with base := x }⟩,
  ⟨b!"indexes", fun v o => (c.ints v).map fun x => { o with indexes := x }⟩,
  ⟨b!"mapping", fun v o => (c.intss v).map fun x => { o with mapping := x }⟩]

/-- `DiscriminatorWrapper(addressSize, entrySize, kwargs)`, discriminatorwrapper.cc:5-43. -/
def Discriminator.ofKwargs (rnd : Rnd) (addressSize entrySize : Int) (kws : List (Str × V)) : Res Discriminator := do
  let o ← kwLoop (discKw c) kws {}
  Discriminator.create rnd addressSize entrySize o

/-- Local variables of kernelcanvaswrapper.cc:6-8 with their defaults; `0.07` becomes the nearest `float`. -/
structure CanvasOpts where
  bitsByKernel : Int
  activationDegree : Rat
  useDirection : Bool

/-- kernelcanvaswrapper.cc:10-19. -/
def canvasKw : List (KwOpt V CanvasOpts) := [
  ⟨b!"bitsByKernel", fun v o => (c.int v).map fun x => { o with bitsByKernel := x }⟩,
  ⟨b!"activationDegree", fun v o => (c.float v).map fun x => { o with activationDegree := x }⟩,
  ⟨b!"useDirection", fun v o => (c.bool v).map fun x => { o with useDirection := x }⟩]

/-- `KernelCanvasWrapper(dim, numberOfKernels, kwargs)`, kernelcanvaswrapper.cc:4-22. -/
def KernelCanvas.ofKwargs (f : Flt) (o : FOps) (rand : Nat → Nat → o.F) (dim numberOfKernels : Int) (kws : List (Str × V)) :
    Res (KernelCanvas o) := do
  let k ← kwLoop (canvasKw c) kws ⟨3, f.rnd (7/100), false⟩
  KernelCanvas.create f o rand dim numberOfKernels k.bitsByKernel k.activationDegree k.useDirection

end Wis
