import Verif.Model.RandClus
import Verif.Spec.ClusWisard
/-!
# A ClusWisard in a process
-/

namespace Wis.Spec

/-- The calls that may change a ClusWisard, without the environment's choices. -/
inductive CCall where
  | train (images : List (List Int)) (labels : List Str)
  | semi (images : List (List Int)) (labels : LabelMap)
  | unsup (images : List (List Int))
  | mental (it : IterOrder) (label : Str)

/-- One step of a process that uses a ClusWisard: a call on it, or anything else (another model created, trained or saved), of
which only the state it leaves the generator in matters. -/
inductive CGOp (S : Type) where
  | call (c : CCall)
  | other (s : S)

/-- One call, with the generator in state `s`. -/
def cgstep (f : Flt) (g : CRand) (lhsFirst : Bool) (w : ClusWisard) (s : g.S) : CCall → (ClusWisard × Res Unit) × g.S
  | .train images labels => ClusWisard.trainG f g lhsFirst s w images labels
  | .semi images labels => ClusWisard.trainSemiG f g lhsFirst s w images labels
  | .unsup images => ClusWisard.trainUnsupervisedG f g lhsFirst s w images
  | .mental it l => (((w.getMentalImage it l).1, (w.getMentalImage it l).2.map (fun _ => ())), s)

/-- Perform the steps, starting with the generator in state `s`; failing calls do not end the process. -/
def cgplay (f : Flt) (g : CRand) (lhsFirst : Bool) (w : ClusWisard) (s : g.S) : List (CGOp g.S) → ClusWisard × List (Res Unit)
  | [] => (w, [])
  | .other s' :: ops => cgplay f g lhsFirst w s' ops
  | .call c :: ops =>
    let p := cgstep f g lhsFirst w s c
    let (w', rs) := cgplay f g lhsFirst p.1.1 p.2 ops
    (w', p.1.2 :: rs)

/-- The calls on the ClusWisard, without what the rest of the process does. -/
def ccalls {S : Type} : List (CGOp S) → List CCall
  | [] => []
  | .other _ :: ops => ccalls ops
  | .call c :: ops => c :: ccalls ops

/-- A call without the environment's choices. -/
def COp.call : COp → CCall
  | .train _ images labels => .train images labels
  | .semi _ images labels => .semi images labels
  | .unsup _ images => .unsup images
  | .mental it l => .mental it l

end Wis.Spec
