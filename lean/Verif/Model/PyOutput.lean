import Verif.Model.Wisard
/-!
# Model of `/repo/src/wrappers/wisardwrapper.cc` (values returned to Python by `classify`)

Degrees are `float` quotients of two small integers in the code; the model keeps the exact fraction
(numerator, denominator). Rounding, and the accumulation of `total` in `float` (exact up to 2^24), are in
`Model/PyFloat.lean`. A denominator 0 stands for the IEEE result of a division by zero.
-/

namespace Wis

/-- The dict returned for one image when one of the `return…` options is set. wisardwrapper.cc:46-68. -/
structure PyDict where
  cls : Str
  activationDegree : Option (Int × Int)
  confidence : Option (Int × Int)
  classesDegrees : Option (List (Str × (Int × Int)))
  deriving DecidableEq, Repr

/-- One element of the list returned by `classify`. wisardwrapper.cc:46-68. -/
inductive PyLabel where
  | plain (l : Str)
  | dict (d : PyDict)
  deriving DecidableEq, Repr

namespace PyOut

/-- `candidates[aClass]`: `operator[]` inserts 0 for a missing key. wisardwrapper.cc:52, 57. -/
def touch (candidates : Scores) (k : Str) : Scores × Int :=
  match candidates.find k with
  | some v => (candidates, v)
  | none => (candidates.set k 0, 0)

/-- `getClassesDegrees`, wisardwrapper.cc:79-90. -/
def getClassesDegrees (candidates : Scores) : List (Str × (Int × Int)) :=
  let total := candidates.foldl (fun t e => t + e.2) 0
  let total := if total = 0 then 1 else total
  candidates.map (fun e => (e.1, (e.2, total)))

/-- `setClassifyOutput`, wisardwrapper.cc:46-68. -/
def setClassifyOutput (o : WisardOpts) (aClass : Str) (numberOfRAMS : Int) (candidates : Scores) : PyLabel :=
  if !o.returnActivationDegree && !o.returnConfidence && !o.returnClassesDegrees then .plain aClass
  else
    let (c1, act) :=
      if o.returnActivationDegree then
        let (c, v) := touch candidates aClass
        (c, some (v, numberOfRAMS))
      else (candidates, none)
    let (c2, conf) :=
      if o.returnConfidence then
        let (c, v) := touch c1 aClass
        (c, some (Bleaching.getConfidence c v))
      else (c1, none)
    let degs := if o.returnClassesDegrees then some (getClassesDegrees c2) else none
    .dict ⟨aClass, act, conf, degs⟩

/-- Loop of `_pyClassify`, wisardwrapper.cc:97-102. -/
def loop (w : Wisard) (numberOfRAMS : Int) : List Image → Res (List PyLabel)
  | [] => .ok []
  | img :: imgs => do
    let candidates ← w.classify1 img
    let ls ← loop w numberOfRAMS imgs
    .ok (setClassifyOutput w.opts (Bleaching.getBiggestCandidate candidates) numberOfRAMS candidates :: ls)

/-- `_pyClassify`, wisardwrapper.cc:92-105: `images[0]` of an empty list (or data set) is UB. -/
def pyClassify (w : Wisard) (images : List Image) : Res (List PyLabel) :=
  match images with
  | [] => .error (.ub .outOfBounds)
  | i0 :: _ => do
    let numberOfRAMS ← calculateNumberOfRams i0.size w.addressSize w.opts.completeAddressing
    loop w numberOfRAMS images

end PyOut
end Wis
