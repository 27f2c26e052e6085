import Verif.Model.DataSet
/-!
# Data sets in memory: the references that `get` returns

`DataSet::get` and `operator[]` (dataset.cc:43-49) return `const BinInput&`, a reference into the array of the member
`std::vector<BinInput> data` (dataset.cc:72). `add` is a `push_back` (dataset.cc:32, 40): when the array is full, a larger one is
allocated, the inputs are copied and the old array is given back. `Model/DataSet.lean` keeps the inputs in a list and has no
references; here are the arrays, and a C++ program with several data sets, inputs and references. Not in this model: `save` and loading
from a file (they neither keep nor return references).
-/

namespace Wis

/-- The implementation of `std::vector`: the capacity after `push_back` on a full array of `n` inputs, and of a copy of `n` inputs. The
C++ standard only requires that the inputs have room. For `data`, dataset.cc:72. -/
structure VecImpl where
  grow : Nat → Nat
  grow_gt : ∀ n, n < grow n
  copied : Nat → Nat
  copied_ge : ∀ n, n ≤ copied n

/-- `class DataSet`, dataset.cc:72-73: the number of the array of `data`, its capacity, and the labels. (The null pointer of a new
vector is an array without room here.) -/
structure HDataSet where
  buf : Nat
  cap : Nat
  labels : List (Nat × Str)
  deriving DecidableEq, Repr

/-- Memory: the arrays allocated so far (`none`: given back), and the variables of the program: data sets (`none`: destroyed), inputs, and
references (number of the array and position). Objects of dataset.cc:1-74 and bininput.cc:1-61. -/
structure DMem where
  bufs : List (Option (List BinInput)) := []
  sets : List (Option HDataSet) := []
  inputs : List BinInput := []
  refs : List (Nat × Nat) := []
  deriving DecidableEq, Repr

/-- An argument `const BinInput&`: an input of the program, or what an earlier `get` returned. dataset.cc:26-33, 43-49. -/
inductive InputArg where
  | obj (v : Nat)
  | ref (r : Nat)
  deriving DecidableEq, Repr

/-- The statements of a C++ program; variables are numbered in the order of their declaration.
dataset.cc:3, 26-49, 51-57 and bininput.cc:1-61. -/
inductive DCall where
  /-- `DataSet d;` -/
  | newSet
  /-- `BinInput v(…);` -/
  | newInput (b : BinInput)
  /-- `v.set(i, x);` -/
  | setPixel (v i : Nat) (x : Int)
  /-- `d.add(a, label);` -/
  | add (d : Nat) (a : InputArg) (label : Str)
  /-- `const BinInput& r = d.get(i);` -/
  | get (d : Nat) (i : Int)
  /-- `BinInput v = d.get(i);`, also `d.get(i)` in Python: pybind11 copies what a returned `const T&` refers to. -/
  | getCopy (d : Nat) (i : Int)
  /-- `BinInput v = a;` -/
  | copyInput (a : InputArg)
  /-- `a.get(i)` -/
  | pixel (a : InputArg) (i : Nat)
  /-- `d.size()` -/
  | size (d : Nat)
  /-- `d.getLabel(i)` -/
  | label (d i : Nat)
  /-- `DataSet e = d;` -/
  | copySet (d : Nat)
  /-- The end of the life of `d`. -/
  | drop (d : Nat)

/-- What a statement returns. dataset.cc:26-57. -/
inductive DAns where
  | nothing
  | int (x : Int)
  | nat (n : Nat)
  | text (s : Str)
  deriving DecidableEq, Repr

namespace DMem

/-- The inputs of a data set; one that does not exist (any more) must not be used. dataset.cc:72. -/
def dataOf (m : DMem) (d : Nat) : Res (HDataSet × List BinInput) :=
  match m.sets[d]? with
  | some (some h) =>
    match m.bufs[h.buf]? with
    | some (some xs) => .ok (h, xs)
    | _ => .error (.ub .outOfBounds)
  | _ => .error (.ub .uninitialised)

/-- Reading an argument; reading an array that was given back is undefined behaviour. dataset.cc:43-49. -/
def deref (m : DMem) : InputArg → Res BinInput
  | .obj v =>
    match m.inputs[v]? with
    | some b => .ok b
    | none => .error (.ub .uninitialised)
  | .ref r =>
    match m.refs[r]? with
    | none => .error (.ub .uninitialised)
    | some (buf, i) =>
      match m.bufs[buf]? with
      | some (some xs) =>
        match xs[i]? with
        | some b => .ok b
        | none => .error (.ub .outOfBounds)
      | _ => .error (.ub .outOfBounds)

/-- `data.push_back(input)`, dataset.cc:32, 40. The new input is constructed before the old array is given back, so that the argument may
be an element of the same vector (C++ standard, [sequence.reqmts]). -/
def pushBack (im : VecImpl) (m : DMem) (d : Nat) (h : HDataSet) (xs : List BinInput) (x : BinInput) (labels : List (Nat × Str)) : DMem :=
  if xs.length < h.cap then
    { m with bufs := m.bufs.set h.buf (some (xs ++ [x])), sets := m.sets.set d (some { h with labels := labels }) }
  else
    { m with bufs := m.bufs.set h.buf none ++ [some (xs ++ [x])], sets := m.sets.set d (some ⟨m.bufs.length, im.grow xs.length, labels⟩) }

/-- The element an `operator[]` of a vector refers to, dataset.cc:48: unchecked. -/
def element (xs : List BinInput) (i : Int) : Res BinInput :=
  if i < 0 then .error (.ub .outOfBounds)
  else match xs[i.toNat]? with
    | some b => .ok b
    | none => .error (.ub .outOfBounds)

/-- One statement. dataset.cc:3, 26-57. -/
def step (im : VecImpl) (m : DMem) : DCall → DMem × Res DAns
  | .newSet => ({ m with bufs := m.bufs ++ [some []], sets := m.sets ++ [some ⟨m.bufs.length, 0, []⟩] }, .ok .nothing)
  | .newInput b => ({ m with inputs := m.inputs ++ [b] }, .ok .nothing)
  | .setPixel v i x =>
    match m.inputs[v]? with
    | none => (m, .error (.ub .uninitialised))
    | some b => ({ m with inputs := m.inputs.set v (b.set i x).1 }, (b.set i x).2.map fun _ => .nothing)
  | .add d a label =>
    match m.dataOf d with
    | .error e => (m, .error e)
    | .ok (h, xs) =>
      match m.deref a with
      | .error e => (m, .error e)
      | .ok x => (m.pushBack im d h xs x (if label.length > 0 then DataSet.setLabel h.labels xs.length label else h.labels), .ok .nothing)
  | .get d i =>
    match m.dataOf d with
    | .error e => (m, .error e)
    | .ok (h, xs) =>
      match element xs i with
      | .error e => (m, .error e)
      | .ok _ => ({ m with refs := m.refs ++ [(h.buf, i.toNat)] }, .ok .nothing)
  | .getCopy d i =>
    match m.dataOf d with
    | .error e => (m, .error e)
    | .ok (_, xs) =>
      match element xs i with
      | .error e => (m, .error e)
      | .ok b => ({ m with inputs := m.inputs ++ [b] }, .ok .nothing)
  | .copyInput a =>
    match m.deref a with
    | .error e => (m, .error e)
    | .ok b => ({ m with inputs := m.inputs ++ [b] }, .ok .nothing)
  | .pixel a i =>
    match m.deref a with
    | .error e => (m, .error e)
    | .ok b => (m, (b.get i).map .int)
  | .size d =>
    match m.dataOf d with
    | .error e => (m, .error e)
    | .ok (_, xs) => (m, .ok (.nat xs.length))
  | .label d i =>
    match m.dataOf d with
    | .error e => (m, .error e)
    | .ok (h, xs) => (m, ((DataSet.mk xs h.labels).getLabelAt i).map .text)
  | .copySet d =>
    match m.dataOf d with
    | .error e => (m, .error e)
    | .ok (h, xs) =>
      ({ m with bufs := m.bufs ++ [some xs], sets := m.sets ++ [some ⟨m.bufs.length, im.copied xs.length, h.labels⟩] }, .ok .nothing)
  | .drop d =>
    match m.dataOf d with
    | .error e => (m, .error e)
    | .ok (h, _) => ({ m with bufs := m.bufs.set h.buf none, sets := m.sets.set d none }, .ok .nothing)

/-- A program: exceptions are caught and the program goes on; undefined behaviour ends it. Calls of dataset.cc:3-57. -/
def run (im : VecImpl) : DMem → List DCall → List (Res DAns)
  | _, [] => []
  | m, c :: cs =>
    match (m.step im c).2 with
    | .error (.ub u) => [.error (.ub u)]
    | r => r :: run im (m.step im c).1 cs

end DMem
end Wis
