import Verif.Model.DataRefs
/-!
# What a program with data sets, inputs and references should do

Data sets and inputs are values; a reference stands for an input of a data set.
-/

namespace Wis.Spec

/-- The variables: data sets (`none`: destroyed), inputs, and references: the data set, the position, and whether the data set has been left
alone since. -/
structure DWorld where
  sets : List (Option DataSet) := []
  inputs : List BinInput := []
  refs : List (Nat × Nat × Bool) := []
  deriving DecidableEq, Repr

namespace DWorld

/-- The data set in a variable. -/
def setOf (w : DWorld) (d : Nat) : Res DataSet :=
  match w.sets[d]? with
  | some (some D) => .ok D
  | _ => .error (.ub .uninitialised)

/-- The input an argument stands for. -/
def value (w : DWorld) : InputArg → Res BinInput
  | .obj v =>
    match w.inputs[v]? with
    | some b => .ok b
    | none => .error (.ub .uninitialised)
  | .ref r =>
    match w.refs[r]? with
    | none => .error (.ub .uninitialised)
    | some (d, i, _) =>
      match w.setOf d with
      | .error e => .error e
      | .ok D => D.get i

/-- The references to inputs of `d` after a change of `d`. -/
def outdate (d : Nat) (refs : List (Nat × Nat × Bool)) : List (Nat × Nat × Bool) :=
  refs.map fun r => (r.1, r.2.1, r.2.2 && decide (r.1 ≠ d))

/-- One statement. -/
def step (w : DWorld) : DCall → DWorld × Res DAns
  | .newSet => ({ w with sets := w.sets ++ [some {}] }, .ok .nothing)
  | .newInput b => ({ w with inputs := w.inputs ++ [b] }, .ok .nothing)
  | .setPixel v i x =>
    match w.inputs[v]? with
    | none => (w, .error (.ub .uninitialised))
    | some b => ({ w with inputs := w.inputs.set v (b.set i x).1 }, (b.set i x).2.map fun _ => .nothing)
  | .add d a label =>
    match w.setOf d, w.value a with
    | .error e, _ => (w, .error e)
    | _, .error e => (w, .error e)
    | .ok D, .ok x => ({ w with sets := w.sets.set d (some (D.add x label)), refs := outdate d w.refs }, .ok .nothing)
  | .get d i =>
    match (w.setOf d).bind (·.get i) with
    | .error e => (w, .error e)
    | .ok _ => ({ w with refs := w.refs ++ [(d, i.toNat, true)] }, .ok .nothing)
  | .getCopy d i =>
    match (w.setOf d).bind (·.get i) with
    | .error e => (w, .error e)
    | .ok b => ({ w with inputs := w.inputs ++ [b] }, .ok .nothing)
  | .copyInput a =>
    match w.value a with
    | .error e => (w, .error e)
    | .ok b => ({ w with inputs := w.inputs ++ [b] }, .ok .nothing)
  | .pixel a i => (w, (w.value a).bind fun b => (b.get i).map .int)
  | .size d => (w, (w.setOf d).map fun D => .nat D.size)
  | .label d i => (w, (w.setOf d).bind fun D => (D.getLabelAt i).map .text)
  | .copySet d =>
    match w.setOf d with
    | .error e => (w, .error e)
    | .ok D => ({ w with sets := w.sets ++ [some D] }, .ok .nothing)
  | .drop d =>
    match w.setOf d with
    | .error e => (w, .error e)
    | .ok _ => ({ w with sets := w.sets.set d none, refs := outdate d w.refs }, .ok .nothing)

/-- A program (see `DMem.run`). -/
def run : DWorld → List DCall → List (Res DAns)
  | _, [] => []
  | w, c :: cs =>
    match (w.step c).2 with
    | .error (.ub u) => [.error (.ub u)]
    | r => r :: run (w.step c).1 cs

/-- The argument is not a reference into a data set that was changed or destroyed since the reference was made. -/
def current (w : DWorld) : InputArg → Prop
  | .obj _ => True
  | .ref r => ∀ d i ok, w.refs[r]? = some (d, i, ok) → ok = true

/-- No statement uses an outdated reference. -/
def Careful : DWorld → List DCall → Prop
  | _, [] => True
  | w, c :: cs =>
    (match c with
      | .add _ a _ => w.current a
      | .copyInput a => w.current a
      | .pixel a _ => w.current a
      | _ => True) ∧ Careful (w.step c).1 cs

end DWorld

/-- The statements that exist in Python: there are no references, and objects live as long as they have a name. -/
def InPython : DCall → Prop
  | .add _ (.obj _) _ => True
  | .pixel (.obj _) _ => True
  | .newSet => True
  | .newInput _ => True
  | .setPixel _ _ _ => True
  | .getCopy _ _ => True
  | .size _ => True
  | .label _ _ => True
  | _ => False

end Wis.Spec
