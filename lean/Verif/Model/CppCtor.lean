import Verif.Model.WisardJson
import Verif.Model.ClusWisardJson
import Verif.Model.Kwargs
/-!
# The constructors of the C++ interface that take their options as JSON

`wisardpkg.hpp` is used from C++ with a JSON value of options where Python has keyword arguments. Giving no options is the
value `{}`, which is null. The random generator is not seeded here: what it returns is a parameter, as in the other constructors.
-/

namespace Wis

/-- `Wisard(addressSize, options)`, wisard.cc:4-44. -/
def Wisard.ofOptions (addressSize : Int) (options : Json) : Res Wisard := do
  let o ← Wisard.optsOfJson options
  .ok (Wisard.create addressSize o)

/-- `ClusWisard(addressSize, minScore, threshold, discriminatorsLimit, options)`, cluswisard.cc:4-44: the arguments are checked
after the options are read. -/
def ClusWisard.ofOptions (addressSize : Int) (minScore : Rat) (threshold discriminatorsLimit : Int) (options : Json) :
    Res ClusWisard := do
  let o ← ClusWisard.optsOfJson options
  ClusWisard.create addressSize minScore threshold discriminatorsLimit o

/-- The options read by `Discriminator(addressSize, entrySize, options)`, discriminator.cc:21-36. -/
def Discriminator.optsOfJson (options : Json) : Res Options := do
  let ignoreZero ← options.opt b!"ignoreZero" false Json.asBool
  let completeAddressing ← options.opt b!"completeAddressing" true Json.asBool
  let indexes ← options.opt b!"indexes" [] Json.asInts
  let mapping ← options.opt b!"mapping" [] Json.asIntss
  let base ← options.opt b!"base" 2 Json.asInt
  .ok { ignoreZero := ignoreZero, completeAddressing := completeAddressing, indexes := indexes, mapping := mapping, base := base }

/-- `Discriminator(addressSize, entrySize, options)`, discriminator.cc:18-50; the tests of line 38-49 are those of `create`. -/
def Discriminator.ofOptions (rnd : Rnd) (addressSize entrySize : Int) (options : Json) : Res Discriminator := do
  let o ← Discriminator.optsOfJson options
  Discriminator.create rnd addressSize entrySize o

/-- The options read by `KernelCanvas(dim, numberOfKernels, options)`, kernelcanvas.cc:5-14. -/
def KernelCanvas.optsOfJson (f : Flt) (options : Json) : Res CanvasOpts := do
  let bitsByKernel ← options.opt b!"bitsByKernel" 3 Json.asInt
  let activationDegree ← options.opt b!"activationDegree" (f.rnd (7/100)) Json.asReal
  let useDirection ← options.opt b!"useDirection" false Json.asBool
  .ok ⟨bitsByKernel, activationDegree, useDirection⟩

/-- `setupKernelCanvas(numberOfKernels, activationDegree)`, kernelcanvas.cc:56-75, of an object whose member `dim` is `dim`
(`none`: never given a value). -/
def KernelCanvas.setup (f : Flt) (o : FOps) (rand : Nat → Nat → o.F) (dim : Option Int) (numberOfKernels bitsByKernel : Int)
    (activationDegree : Rat) (useDirection : Bool) : Res (KernelCanvas o) :=
  match dim with
  | none => .error (.ub .uninitialised)
  | some d => KernelCanvas.create f o rand d numberOfKernels bitsByKernel activationDegree useDirection

/-- `KernelCanvas(dim, numberOfKernels, options)`, kernelcanvas.cc:4-17: the parameter `dim` hides the member, which is
never set. -/
def KernelCanvas.ofOptions (f : Flt) (o : FOps) (rand : Nat → Nat → o.F) (_dim numberOfKernels : Int) (options : Json) :
    Res (KernelCanvas o) := do
  let k ← KernelCanvas.optsOfJson f options
  KernelCanvas.setup f o rand none numberOfKernels k.bitsByKernel k.activationDegree k.useDirection

end Wis
