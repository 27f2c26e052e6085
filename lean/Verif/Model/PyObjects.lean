import Verif.Model.Bind
import Verif.Model.PrettyText
import Verif.Model.Synthesizer
/-!
# The remaining calls of `/repo/src/wisard_bind.cc`, and what Python sees of their outcome

Continues Model/Bind: methods with one signature, the constructors of the auxiliary classes, the conversion of results, the
Python exception that stands for a C++ exception, and Python's iteration over a `BinInput`.
-/

namespace Wis

open PyBind

/-- The Python exceptions that occur. For the bindings wisard_bind.cc:3-105. -/
inductive PyExc where
  | typeError
  | runtimeError
  | indexError
  | valueError
  | unicodeDecodeError
  deriving DecidableEq, Repr

/-- The Python exception for a C++ exception (pybind11, "Exceptions: built-in C++ to Python exception translation"):
`std::out_of_range` is `IndexError`, `std::length_error` is `ValueError`, every other `std::exception` is `RuntimeError`. The
classes of exceptions.cc:1-9 and of json.hpp derive from `std::exception` directly. -/
def Exn.toPython : Exn → PyExc
  | .stdOutOfRange => .indexError
  | .stdLengthError => .valueError
  | _ => .runtimeError

/-- Outcome of a call from Python. For the bindings wisard_bind.cc:3-105. -/
inductive PyRes (α : Type) where
  | ok (a : α)
  | raised (e : PyExc)
  | ub (u : UB)

namespace PyRes

/-- Outcome of a call that pybind11 hands to C++ (`none`: the arguments fit no overload, `TypeError`).
For the bindings wisard_bind.cc:3-105. -/
def of {α : Type} : Option (Res α) → PyRes α
  | none => .raised .typeError
  | some (.ok a) => .ok a
  | some (.error (.throw e)) => .raised e.toPython
  | some (.error (.ub u)) => .ub u

/-- Conversion of a result that may fail with `UnicodeDecodeError`. For the bindings wisard_bind.cc:3-105. -/
def convert {α β : Type} (f : α → Option β) : PyRes α → PyRes β
  | .ok a => match f a with
    | some b => .ok b
    | none => .raised .unicodeDecodeError
  | .raised e => .raised e
  | .ub u => .ub u

/-- A `std::string` result as `str`. For the bindings wisard_bind.cc:3-105. -/
def text (r : PyRes Str) : PyRes (List Nat) := r.convert decode

end PyRes

namespace PyBind

/-- `BinInput.get` and `__getitem__`, `DataSet.getLabel`, wisard_bind.cc:11-12, 26. -/
def indexSigs : List (List CTy) := [[.size]]
/-- `BinInput.set`, wisard_bind.cc:13. -/
def bitSetSigs : List (List CTy) := [[.size, .int]]
/-- Methods without arguments: `size`, `BinInput.data`, `make`, `jsonConfig`, `getMentalImages`, `getsizeof`.
wisard_bind.cc:14, 15, 27, 40, 49, 63, 64, 67, 78, 81, 82, 85, 97-99, 102. -/
def noArgSigs : List (List CTy) := [[]]
/-- `DataSet(...)`, wisard_bind.cc:19-20. -/
def dataSetSigs : List (List CTy) := [[], [.str]]
/-- `DataSet.get`, wisard_bind.cc:25. -/
def dataGetSigs : List (List CTy) := [[.int]]
/-- `DataSet.save` and `RAMDataHandle(...)`, wisard_bind.cc:28, 45. -/
def textSigs : List (List CTy) := [[.str]]
/-- `KernelCanvas(...)`, wisard_bind.cc:33, besides keyword arguments. -/
def canvasSigs : List (List CTy) := [[.int, .int]]
/-- `KernelCanvas.transform`, wisard_bind.cc:34. -/
def transformSigs : List (List CTy) := [[.doubless]]
/-- `Synthesizer(...)`, wisard_bind.cc:39. -/
def synthSigs : List (List CTy) := [[.ints]]
/-- `RAMDataHandle.data`, wisard_bind.cc:49-50. -/
def handleDataSigs : List (List CTy) := [[], [.int]]
/-- `RAMDataHandle.compare`, wisard_bind.cc:51. -/
def handleCompareSigs : List (List CTy) := [[.ramData]]

end PyBind

/-! ## BinInput -/

/-- `b.get(...)` and `b[...]`, wisard_bind.cc:11-12. -/
def BinInput.pyGet (L : PyLib) (b : BinInput) (args : List PyVal) : PyRes Int :=
  .of (match dispatch L indexSigs args with
    | some [.int i] => some (b.get i.toNat)
    | _ => none)

/-- `b.set(...)`, wisard_bind.cc:13: the new state and the outcome. -/
def BinInput.pySet (L : PyLib) (b : BinInput) (args : List PyVal) : BinInput × PyRes Unit :=
  match dispatch L bitSetSigs args with
  | some [.int i, .int v] => ((b.set i.toNat v).1, .of (some (b.set i.toNat v).2))
  | _ => (b, .of none)

/-- `b.size()`, wisard_bind.cc:14. -/
def BinInput.pySize (L : PyLib) (b : BinInput) (args : List PyVal) : PyRes Nat :=
  .of (match dispatch L noArgSigs args with
    | some [] => some (.ok b.size)
    | _ => none)

/-- `b.data()`, wisard_bind.cc:15. -/
def BinInput.pyData (L : PyLib) (b : BinInput) (args : List PyVal) : PyRes (List Nat) :=
  (PyRes.of (match dispatch L noArgSigs args with
    | some [] => some b.data
    | _ => none)).text

/-- How an iteration ends. For the bindings wisard_bind.cc:3-105. -/
inductive IterEnd where
  | finished
  | raised (e : PyExc)
  | ub (u : UB)
  deriving DecidableEq, Repr

/-- Python's iteration over an object with `__getitem__` and without `__iter__` (as in `for x in b`, `list(b)`), from index `i`
on: `b[i]`, `b[i+1]`, ... until `IndexError` ends it; every other exception goes to the caller. At most `fuel` values are asked
for; the second component is `none` if the iteration has not ended by then. wisard_bind.cc:11. -/
def BinInput.iterLoop (L : PyLib) (b : BinInput) : Nat → Nat → List Int × Option IterEnd
  | 0, _ => ([], none)
  | fuel + 1, i =>
    match b.pyGet L [.int i] with
    | .ok v =>
      let (vs, e) := iterLoop L b fuel (i + 1)
      (v :: vs, e)
    | .raised .indexError => ([], some .finished)
    | .raised e => ([], some (.raised e))
    | .ub u => ([], some (.ub u))

/-- `iter(b)` and the first `fuel` steps: an object that is no sequence for Python cannot be iterated at all.
wisard_bind.cc:11. -/
def BinInput.pyIter (L : PyLib) (b : BinInput) (fuel : Nat) : List Int × Option IterEnd :=
  if L.getitemIsSequence then b.iterLoop L fuel 0 else ([], some (.raised .typeError))

/-! ## DataSet -/

/-- `DataSet(...)`, wisard_bind.cc:19-20. -/
def DataSet.py (L : PyLib) (fs : Fs) (args : List PyVal) : PyRes DataSet :=
  .of (match dispatch L dataSetSigs args with
    | some [] => some (.ok {})
    | some [.str f] => some (DataSet.load fs f)
    | _ => none)

/-- One call of `d.add(...)`, wisard_bind.cc:21-24: the new state and the outcome. -/
def DataSet.pyAddCall (L : PyLib) (d : DataSet) (args : List PyVal) : DataSet × PyRes Unit :=
  match d.pyAdd L args with
  | some (.ok d') => (d', .ok ())
  | r => (d, .of (r.map fun r => r.map fun _ => ()))

/-- Several calls of `d.add(...)`, one after the other: the final state and all outcomes. wisard_bind.cc:21-24. -/
def DataSet.pyAdds (L : PyLib) (d : DataSet) : List (List PyVal) → DataSet × List (PyRes Unit)
  | [] => (d, [])
  | args :: calls =>
    let (d1, r) := d.pyAddCall L args
    let (d2, rs) := d1.pyAdds L calls
    (d2, r :: rs)

/-- `d.get(...)`, wisard_bind.cc:25. -/
def DataSet.pyGet (L : PyLib) (d : DataSet) (args : List PyVal) : PyRes BinInput :=
  .of (match dispatch L dataGetSigs args with
    | some [.int i] => some (d.get i)
    | _ => none)

/-- `d.getLabel(...)`, wisard_bind.cc:26. -/
def DataSet.pyGetLabel (L : PyLib) (d : DataSet) (args : List PyVal) : PyRes (List Nat) :=
  (PyRes.of (match dispatch L indexSigs args with
    | some [.int i] => some (d.getLabelAt i.toNat)
    | _ => none)).text

/-- `d.size()`, wisard_bind.cc:27. -/
def DataSet.pySize (L : PyLib) (d : DataSet) (args : List PyVal) : PyRes Nat :=
  .of (match dispatch L noArgSigs args with
    | some [] => some (.ok d.size)
    | _ => none)

/-- `d.save(...)`, wisard_bind.cc:28. -/
def DataSet.pySave (L : PyLib) (d : DataSet) (fs : Fs) (args : List PyVal) : PyRes (DataSet × Fs) :=
  .of (match dispatch L textSigs args with
    | some [.str p] => some (d.save fs p)
    | _ => none)

/-! ## KernelCanvas and Synthesizer -/

/-- `KernelCanvas(...)`, wisard_bind.cc:33. -/
def KernelCanvas.py (L : PyLib) (f : Flt) (o : FOps) (rand : Nat → Nat → o.F) (args : List PyVal) (kws : List (Str × PyVal)) :
    PyRes (KernelCanvas o) :=
  .of (match dispatch L canvasSigs args with
    | some [.int dim, .int n] => some (KernelCanvas.ofKwargs (casts L) f o rand dim n kws)
    | _ => none)

/-- `c.transform(...)`, wisard_bind.cc:34; `num` is the double that a (finite) Python `float` holds. -/
def KernelCanvas.pyTransform (L : PyLib) {o : FOps} (num : Rat → o.F) (c : KernelCanvas o) (sorter : Nat → Sorter (Nat × o.F))
    (args : List PyVal) : PyRes (List Int) :=
  .of (match dispatch L transformSigs args with
    | some [.doubless rows] => some (c.transform sorter (rows.map (·.map num)))
    | _ => none)

/-- `Synthesizer(...)`, wisard_bind.cc:39. -/
def Synthesizer.py (L : PyLib) (rnd : Nat → Rnd) (args : List PyVal) : PyRes Synthesizer :=
  .of (match dispatch L synthSigs args with
    | some [.ints v] => some (Synthesizer.create rnd v)
    | _ => none)

/-- `s.make()`, wisard_bind.cc:40. -/
def Synthesizer.pyMake (L : PyLib) (s : Synthesizer) (rand : Nat) (args : List PyVal) : PyRes (List Int) :=
  .of (match dispatch L noArgSigs args with
    | some [] => some (s.make rand)
    | _ => none)

/-! ## RAMDataHandle -/

/-- `RAMDataHandle(...)`, wisard_bind.cc:45. -/
def RamData.py (L : PyLib) (fs : Fs) (args : List PyVal) : PyRes RamData :=
  .of (match dispatch L textSigs args with
    | some [.str t] => some (RamData.ofText fs t)
    | _ => none)

/-- `h.data(...)`, wisard_bind.cc:49-50: all RAMs or one; the outcome is `none` if the loop is not finished after `fuel`
rounds. -/
def RamData.pyData (L : PyLib) (it : IterOrder) (fuel : Nat) (h : RamData) (args : List PyVal) : RamData × Option (PyRes (List Nat)) :=
  match dispatch L handleDataSigs args with
  | some [] => ((h.data it fuel).1, (h.data it fuel).2.map fun r => (PyRes.of (some r)).text)
  | some [.int r] => ((h.dataOf it r).1, some (PyRes.of (some (h.dataOf it r).2)).text)
  | _ => (h, some (.of none))

/-- `h.compare(...)`, wisard_bind.cc:51. -/
def RamData.pyCompare (L : PyLib) (h : RamData) (args : List PyVal) : PyRes Bool :=
  .of (match dispatch L handleCompareSigs args with
    | some [.ramData o] => some (.ok (h.compare o))
    | _ => none)

/-! ## Texts and mental images of the models -/

/-- One call of `d.train(...)`, wisard_bind.cc:58-60: the new state and the outcome. -/
def Discriminator.pyTrainCall (L : PyLib) (d : Discriminator) (args : List PyVal) : Discriminator × PyRes Unit :=
  match d.pyTrain L args with
  | some (d', r) => (d', .of (some r))
  | none => (d, .of none)

/-- Several calls of `d.train(...)`, one after the other, also after exceptions: the final state and all outcomes.
wisard_bind.cc:58-60. -/
def Discriminator.pyTrains (L : PyLib) (d : Discriminator) : List (List PyVal) → Discriminator × List (PyRes Unit)
  | [] => (d, [])
  | args :: calls =>
    let (d1, r) := d.pyTrainCall L args
    let (d2, rs) := d1.pyTrains L calls
    (d2, r :: rs)

/-- `d.json(...)`, wisard_bind.cc:64-66. -/
def Discriminator.pyJson (L : PyLib) (it : IterOrder) (ft : FloatText) (fs : Fs) (random : Str) (d : Discriminator) (args : List PyVal) :
    PyRes (Fs × List Nat) :=
  (PyRes.of (match jsonArgs L args with
    | some (huge, path) => some (d.jsonText it ft fs huge path random)
    | none => none)).convert fun p => (decode p.2).map fun cs => (p.1, cs)

/-- `d.jsonConfig()`, wisard_bind.cc:63. -/
def Discriminator.pyJsonConfig (L : PyLib) (ft : FloatText) (d : Discriminator) (args : List PyVal) : PyRes (List Nat) :=
  (PyRes.of (match dispatch L noArgSigs args with
    | some [] => some (d.jsonConfigText ft)
    | _ => none)).text

/-- `w.jsonConfig()`, wisard_bind.cc:81. -/
def Wisard.pyJsonConfig (L : PyLib) (ft : FloatText) (w : Wisard) (args : List PyVal) : PyRes (List Nat) :=
  (PyRes.of (match dispatch L noArgSigs args with
    | some [] => some (w.jsonConfigText ft)
    | _ => none)).text

/-- `w.jsonConfig()`, wisard_bind.cc:98. -/
def ClusWisard.pyJsonConfig (L : PyLib) (ft : FloatText) (w : ClusWisard) (args : List PyVal) : PyRes (List Nat) :=
  (PyRes.of (match dispatch L noArgSigs args with
    | some [] => some (w.jsonConfigText ft)
    | _ => none)).text

/-- A `std::map<std::string, T>` as a `dict`: every key becomes a `str`. Used for wisard_bind.cc:48, 78, 97. -/
def PyBind.toDict {α : Type} (m : SMap α) : Option (List (List Nat × α)) := m.mapM fun e => (decode e.1).map fun k => (k, e.2)

/-- `w.getMentalImages()`, wisard_bind.cc:78. -/
def Wisard.pyMentalImages (L : PyLib) (it : IterOrder) (w : Wisard) (args : List PyVal) : PyRes (List (List Nat × List Int)) :=
  (PyRes.of (match dispatch L noArgSigs args with
    | some [] => some (w.getMentalImages it)
    | _ => none)).convert toDict

/-- `w.getMentalImages()`, wisard_bind.cc:97. -/
def ClusWisard.pyMentalImages (L : PyLib) (it : IterOrder) (w : ClusWisard) (args : List PyVal) :
    PyRes (List (List Nat × List (List Int))) :=
  (PyRes.of (match dispatch L noArgSigs args with
    | some [] => some (w.getMentalImages it)
    | _ => none)).convert toDict

end Wis
