import Verif.Model.ClusHeap
import Verif.Spec.ClusWisard
/-!
# Specification: models that share nothing

The same process in which every ClusWisard simply *is* the value of Model/ClusWisard.lean, and a copy is a copy of that
value.
-/

namespace Wis.Spec

/-- What a C++ program does with its ClusWisard objects. -/
inductive POp where
  | new (addressSize : Int) (minScore : Rat) (threshold discriminatorsLimit : Int) (opts : ClusOpts)
  | load (fs : Fs) (c : Json)
  | call (k : Nat) (op : COp)
  | copy (k : Nat)
  | destroy (k : Nat)

/-- Not a copy. -/
def POp.NoCopy : POp → Prop
  | .copy _ => False
  | _ => True

/-- One call of a ClusWisard whose discriminators are in the heap. -/
def hstep (f : Flt) (h : Heap) (w : HClusWisard) : COp → Heap × HClusWisard × Res Unit
  | .train env images labels => w.train f h env images labels
  | .semi env images labels => w.trainSemi f h env images labels
  | .unsup env images => w.trainUnsupervised f h env images
  | .mental it l => (h, (w.getMentalImage h it l).1, (w.getMentalImage h it l).2.map (fun _ => ()))

/-- One step of a program, in memory. -/
def pstep (f : Flt) (s : Proc) : POp → Proc × Res Unit
  | .new a m t d o => s.new a m t d o
  | .load fs c => s.load fs c
  | .call k op =>
    match s.models[k]? with
    | some (some w) => (⟨(hstep f s.heap w op).1, s.models.set k (some (hstep f s.heap w op).2.1)⟩, (hstep f s.heap w op).2.2)
    | _ => (s, .error (.ub .outOfBounds))
  | .copy k => s.copy k
  | .destroy k => s.destroy k

/-- All steps of a program, with all results. -/
def pplay (f : Flt) (s : Proc) : List POp → Proc × List (Res Unit)
  | [] => (s, [])
  | o :: ops => ((pplay f (pstep f s o).1 ops).1, (pstep f s o).2 :: (pplay f (pstep f s o).1 ops).2)

/-- One step of a program whose objects share nothing. -/
def vstep (f : Flt) (s : List (Option ClusWisard)) : POp → List (Option ClusWisard) × Res Unit
  | .new a m t d o =>
    match ClusWisard.create a m t d o with
    | .ok w => (s ++ [some w], .ok ())
    | .error e => (s, .error e)
  | .load fs c =>
    match ClusWisard.ofJson fs c with
    | .ok w => (s ++ [some w], .ok ())
    | .error e => (s, .error e)
  | .call k op =>
    match s[k]? with
    | some (some w) => (s.set k (some (cstep f w op).1), (cstep f w op).2)
    | _ => (s, .error (.ub .outOfBounds))
  | .copy k =>
    match s[k]? with
    | some (some w) => (s ++ [some w], .ok ())
    | _ => (s, .error (.ub .outOfBounds))
  | .destroy k =>
    match s[k]? with
    | some (some _) => (s.set k none, .ok ())
    | _ => (s, .error (.ub .outOfBounds))

/-- All steps of a program whose objects share nothing. -/
def vplay (f : Flt) (s : List (Option ClusWisard)) : List POp → List (Option ClusWisard) × List (Res Unit)
  | [] => (s, [])
  | o :: ops => ((vplay f (vstep f s o).1 ops).1, (vstep f s o).2 :: (vplay f (vstep f s o).1 ops).2)

/-- What a program sees of its objects: their values, read through the pointers. -/
def seen (s : Proc) : List (Option ClusWisard) := s.models.map (·.map (·.view s.heap))

end Wis.Spec
