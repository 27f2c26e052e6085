import Verif.Model.ClusWisard
import Verif.Spec.ClusWisard
/-! Specification for C173: a Wisard and a ClusWisard that get the same calls. -/

namespace Wis.Spec

/-- A call `train(images, labels)`, with what the environment (random numbers, order of evaluation) does during it. -/
structure TrainCall where
  env : Nat → Env
  images : List (List Int)
  labels : List Str

/-- The calls one after the other on a Wisard, up to the first that fails. -/
def wTrainAll (w : Wisard) : List TrainCall → Wisard × Res Unit
  | [] => (w, .ok ())
  | t :: ts =>
    match w.train t.env t.images t.labels with
    | (w', .ok ()) => wTrainAll w' ts
    | (w', .error e) => (w', .error e)

/-- The calls one after the other on a ClusWisard, up to the first that fails. -/
def cTrainAll (f : Flt) (c : ClusWisard) : List TrainCall → ClusWisard × Res Unit
  | [] => (c, .ok ())
  | t :: ts =>
    match c.train f t.env t.images t.labels with
    | (c', .ok ()) => cTrainAll f c' ts
    | (c', .error e) => (c', .error e)

/-- The options of a Wisard and of a ClusWisard say the same, and the Wisard chooses its wiring by shuffling, as a ClusWisard does. -/
structure SameOptions (o : WisardOpts) (p : ClusOpts) : Prop where
  mapping : o.mapping = []
  indexes : o.indexes = []
  bleaching : p.bleachingActivated = o.bleachingActivated
  ignoreZero : p.ignoreZero = o.ignoreZero
  complete : p.completeAddressing = o.completeAddressing
  base : p.base = o.base
  search : p.searchBestConfidence = o.searchBestConfidence
  confidence : p.confidence = o.confidence
  ret1 : p.returnConfidence = o.returnConfidence
  ret2 : p.returnActivationDegree = o.returnActivationDegree
  ret3 : p.returnClassesDegrees = o.returnClassesDegrees

/-- Labels that a ClusWisard orders as a Wisard does: where one label begins another, it goes on with a byte above `':'`
(a letter, not a digit). -/
def OrderSafe (ls : List Str) : Prop := ∀ a ∈ ls, ∀ b ∈ ls, ∀ (c : Byte) (r : Str), b = a ++ c :: r → 58 < c.toNat

/-- The name under which ClusWisard's score tables list the only discriminator of a class. -/
def firstName (l : Str) : Str := l ++ b!"::0"

end Wis.Spec
