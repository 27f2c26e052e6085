import Verif.Model.ClusWisard
import Verif.Lemmas.Ieee
/-!
# The `float` numbers returned to Python by `classify`

`Model/PyOutput.lean` and `Model/ClusWisard.lean` return exact fractions. Here the same functions of
`/repo/src/common/bleaching.cc`, `/repo/src/wrappers/wisardwrapper.cc` and `/repo/src/wrappers/cluswisardwrapper.cc` compute in `float`:
every operation rounds its exact result to the nearest `float`, ties to even. Overflow is not modelled: the numbers that occur are at most
2^31 in size times the number of classes. Signed zeros are not distinguished.
-/

namespace Wis

/-- `float` with rounding to nearest. For cluster.cc:51-62, 144-161, wisardwrapper.cc:46-68, 79-90. -/
def Flt.single : Flt where
  rnd := Ieee.rnd Ieee.single
  mono := fun h => Ieee.rnd_mono _ h
  zero := Ieee.rnd_zero _
  one := by
    have := Ieee.rnd_int (K := Rat) (F := Ieee.single) (by decide) (n := 1) (by decide)
    simpa using this

/-- Rounding to `float`. For wisardwrapper.cc:46-68, 79-90. -/
def r32 (x : Rat) : Rat := Ieee.rnd Ieee.single x

/-- A `float`: a number, an infinity or not a number. As in wisardwrapper.cc:52, 57, 80. -/
inductive F32 where
  | fin (x : Rat)
  | inf (neg : Bool)
  | nan
  deriving DecidableEq, Repr

/-- Division of `float` numbers. wisardwrapper.cc:52, 86, bleaching.cc:59. -/
def F32.div (a b : Rat) : F32 :=
  if b = 0 then (if a = 0 then .nan else .inf (a < 0)) else .fin (r32 (a / b))

/-- The dict returned for one image, with `float` numbers. wisardwrapper.cc:46-68. -/
structure PyDictF where
  cls : Str
  activationDegree : Option F32
  confidence : Option F32
  classesDegrees : Option (List (Str × F32))
  deriving DecidableEq, Repr

/-- One element of the list returned by `classify`. wisardwrapper.cc:46-68. -/
inductive PyLabelF where
  | plain (l : Str)
  | dict (d : PyDictF)
  deriving DecidableEq, Repr

namespace PyOut

/-- Loop of `getConfidence`, bleaching.cc:53-58: `secondBiggest` is a `float`; `i->second >= secondBiggest` converts the `int`,
`i->second < biggest` compares integers. -/
def secondLoopF (biggest : Int) : Scores → Rat → Rat
  | [], second => second
  | (_, s) :: m, second => secondLoopF biggest m (if r32 s ≥ second ∧ s < biggest then r32 s else second)

/-- `getConfidence`, bleaching.cc:52-60. -/
def getConfidenceF (candidates : Scores) (biggest : Int) : F32 :=
  F32.div (r32 (r32 biggest - secondLoopF biggest candidates 0)) (r32 biggest)

/-- `total` of `getClassesDegrees`, wisardwrapper.cc:80, 83-84. -/
def totalF (candidates : Scores) : Rat :=
  let total := candidates.foldl (fun t e => r32 (t + r32 e.2)) 0
  if total = 0 then 1 else total

/-- `getClassesDegrees`, wisardwrapper.cc:79-90. -/
def getClassesDegreesF (candidates : Scores) : List (Str × F32) :=
  candidates.map (fun e => (e.1, F32.div (r32 e.2) (totalF candidates)))

/-- `setClassifyOutput`, wisardwrapper.cc:46-68; the argument `numberOfRAMS` is converted to `float`, line 94. -/
def setClassifyOutputF (o : WisardOpts) (aClass : Str) (numberOfRAMS : Int) (candidates : Scores) : PyLabelF :=
  if !o.returnActivationDegree && !o.returnConfidence && !o.returnClassesDegrees then .plain aClass
  else
    let (c1, act) :=
      if o.returnActivationDegree then
        let (c, v) := touch candidates aClass
        (c, some (F32.div (r32 v) (r32 numberOfRAMS)))
      else (candidates, none)
    let (c2, conf) :=
      if o.returnConfidence then
        let (c, v) := touch c1 aClass
        (c, some (getConfidenceF c v))
      else (c1, none)
    let degs := if o.returnClassesDegrees then some (getClassesDegreesF c2) else none
    .dict ⟨aClass, act, conf, degs⟩

/-- Loop of `_pyClassify`, wisardwrapper.cc:97-102. -/
def loopF (w : Wisard) (numberOfRAMS : Int) : List Image → Res (List PyLabelF)
  | [] => .ok []
  | img :: imgs => do
    let candidates ← w.classify1 img
    let ls ← loopF w numberOfRAMS imgs
    .ok (setClassifyOutputF w.opts (Bleaching.getBiggestCandidate candidates) numberOfRAMS candidates :: ls)

/-- `_pyClassify`, wisardwrapper.cc:92-105. -/
def pyClassifyF (w : Wisard) (images : List Image) : Res (List PyLabelF) :=
  match images with
  | [] => .error (.ub .outOfBounds)
  | i0 :: _ => do
    let numberOfRAMS ← calculateNumberOfRams i0.size w.addressSize w.opts.completeAddressing
    loopF w numberOfRAMS images

end PyOut

namespace ClusWisard

/-- `getClassesDegrees`, cluswisardwrapper.cc:81-93. -/
def getClassesDegreesF (candidates : Scores) : List (Str × F32) :=
  candidates.map (fun e => (beforeSep e.1, F32.div (r32 e.2) (PyOut.totalF candidates)))

/-- One round of the loop of `pyClassify`, cluswisardwrapper.cc:48-71. -/
def pyOutputF (o : ClusOpts) (numberOfRAMS : Int) (candidates : Scores) : PyLabelF :=
  let label := Bleaching.getBiggestCandidate candidates
  let aClass := beforeSep label
  if !o.returnActivationDegree && !o.returnConfidence && !o.returnClassesDegrees then .plain aClass
  else
    let (c1, act) :=
      if o.returnActivationDegree then
        let (c, v) := PyOut.touch candidates label
        (c, some (F32.div (r32 v) (r32 numberOfRAMS)))
      else (candidates, none)
    let (c2, conf) :=
      if o.returnConfidence then
        let (c, v) := PyOut.touch c1 label
        (c, some (PyOut.getConfidenceF c v))
      else (c1, none)
    let degs := if o.returnClassesDegrees then some (getClassesDegreesF c2) else none
    .dict ⟨aClass, act, conf, degs⟩

/-- Loop of `pyClassify`, cluswisardwrapper.cc:45-75. -/
def pyLoopF (w : ClusWisard) (numberOfRAMS : Int) : List (List Int) → Res (List PyLabelF)
  | [] => .ok []
  | img :: imgs => do
    let candidates ← w.classify1 img w.opts.searchBestConfidence
    let ls ← w.pyLoopF numberOfRAMS imgs
    .ok (pyOutputF w.opts numberOfRAMS candidates :: ls)

/-- `pyClassify(images)`, cluswisardwrapper.cc:41-78. -/
def pyClassifyF (w : ClusWisard) (images : List (List Int)) : Res (List PyLabelF) :=
  match images with
  | [] => .error (.ub .outOfBounds)
  | i0 :: _ => do
    let numberOfRAMS ← calculateNumberOfRams i0.length w.addressSize w.opts.completeAddressing
    w.pyLoopF numberOfRAMS images

end ClusWisard
end Wis
