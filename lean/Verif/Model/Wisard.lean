import Verif.Model.Discriminator
import Verif.Model.Bleaching
import Verif.Model.DataSet
/-!
# Model of `/repo/src/models/wisard/wisard.cc` (training, classification, mental images)

The `verbose` option is kept but what it makes the calls print is not modelled. The JSON part is in `Model/WisardJson.lean`, the Python return values in
`Model/PyOutput.lean`.
-/

namespace Wis

/-- Choices made by the environment during one call that may create a discriminator: the random wiring,
and whether `discriminators[label]` is evaluated before the right-hand side of
`discriminators[label] = Discriminator(...)` (unspecified before C++17; setup.py compiles with C++11/14).
wisard.cc:227, 231, 235. -/
structure Env where
  rnd : Rnd
  lhsFirst : Bool

/-- Members of `class Wisard` other than `addressSize` and `discriminators`, wisard.cc:252-263,
with the defaults of wisard.cc:9-43 (JSON options) = wisardwrapper.cc:7-43 (Python keyword arguments). -/
structure WisardOpts where
  bleachingActivated : Bool := true
  verbose : Bool := false
  mapping : SMap (List (List Int)) := []
  indexes : List Int := []
  ignoreZero : Bool := false
  completeAddressing : Bool := true
  base : Int := 2
  searchBestConfidence : Bool := false
  returnConfidence : Bool := false
  returnActivationDegree : Bool := false
  returnClassesDegrees : Bool := false
  confidence : Int := 1
  deriving DecidableEq, Repr

/-- `class Wisard`, wisard.cc:251-264. -/
structure Wisard where
  addressSize : Int
  opts : WisardOpts
  discriminators : SMap Discriminator
  deriving DecidableEq, Repr

namespace Wisard

/-- `Wisard(addressSize, options)`, wisard.cc:5-44, wisardwrapper.cc:5-44: no validation. -/
def create (addressSize : Int) (opts : WisardOpts) : Wisard := ⟨addressSize, opts, []⟩

/-- The right-hand sides of `makeDiscriminator`, wisard.cc:227, 231, 235, i.e. the constructors
discriminator.cc:52-62. -/
def newDiscriminator (rnd : Rnd) (addressSize : Int) (o : WisardOpts) (label : Str) (entrySize : Int) :
    Res Discriminator :=
  match o.mapping.find label with
  | some m => Discriminator.setRAMByMapping m entrySize o.ignoreZero o.base
  | none =>
    if o.indexes.length ≠ 0 then
      Discriminator.setRAMByIndex o.indexes entrySize addressSize o.ignoreZero o.base
    else Discriminator.setRAMShuffle rnd entrySize addressSize o.ignoreZero o.completeAddressing o.base

/-- `makeDiscriminator`, wisard.cc:223-237. If the constructor throws after `discriminators[label]` was
evaluated, a default-constructed discriminator stays in the map. -/
def makeDiscriminator (w : Wisard) (env : Env) (label : Str) (entrySize : Int) : Wisard × Res Unit :=
  match newDiscriminator env.rnd w.addressSize w.opts label entrySize with
  | .ok d => ({ w with discriminators := w.discriminators.set label d }, .ok ())
  | .error e =>
    if env.lhsFirst then
      ({ w with discriminators := w.discriminators.set label Discriminator.default }, .error e)
    else (w, .error e)

/-- `discriminators[label].train(image)`, wisard.cc:153: `operator[]` inserts a default discriminator for
an unknown label (cannot happen after line 151). -/
def trainKnown (w : Wisard) (img : Image) (label : Str) : Wisard × Res Unit :=
  let d := (w.discriminators.find label).getD Discriminator.default
  let (d', r) := d.train img
  ({ w with discriminators := w.discriminators.set label d' }, r)

/-- `train<T>(image, label)`, wisard.cc:148-154. -/
def train1 (w : Wisard) (env : Env) (img : Image) (label : Str) : Wisard × Res Unit :=
  match w.discriminators.find label with
  | some _ => w.trainKnown img label
  | none =>
    match w.makeDiscriminator env label img.size with
    | (w', .ok ()) => w'.trainKnown img label
    | (w', .error e) => (w', .error e)

/-- Training loops, wisard.cc:79-82, 89-92; the `i`-th call uses the environment `env i`. -/
def trainLoop (w : Wisard) (env : Nat → Env) : List (Image × Str) → Nat → Wisard × Res Unit
  | [], _ => (w, .ok ())
  | (img, l) :: es, i =>
    match w.train1 (env i) img l with
    | (w', .ok ()) => trainLoop w' env es (i + 1)
    | (w', .error e) => (w', .error e)

/-- `checkInputSizes`, wisard.cc:239-243. -/
def checkInputSizes (imageSize labelsSize : Nat) : Res Unit :=
  if imageSize ≠ labelsSize then .error (.throw .sizesDiffer) else .ok ()

/-- `checkConfidence`, wisard.cc:245-249. -/
def checkConfidence (w : Wisard) (numberOfRAMS : Int) : Res Unit :=
  if w.opts.confidence > numberOfRAMS then .error (.throw .confidence) else .ok ()

/-- The checks at the start of `train(images, labels)`, wisard.cc:86-88: `images[0]` of an empty vector is
UB. -/
def trainChecks (w : Wisard) (images : List (List Int)) (labels : List Str) : Res Unit := do
  let first : Res (List Int) := match images with
    | [] => .error (.ub .outOfBounds)
    | i :: _ => .ok i
  let i0 ← first
  let n ← calculateNumberOfRams i0.length w.addressSize w.opts.completeAddressing
  w.checkConfidence n
  checkInputSizes images.length labels.length

/-- `train(images, labels)`, wisard.cc:85-94. -/
def train (w : Wisard) (env : Nat → Env) (images : List (List Int)) (labels : List Str) : Wisard × Res Unit :=
  match w.trainChecks images labels with
  | .error e => (w, .error e)
  | .ok () => w.trainLoop env ((images.map Image.vec).zip labels) 0

/-- Loop of `train(dataset)`, wisard.cc:79-82: `getLabel(i)` throws for an entry without label. -/
def trainDataLoop (w : Wisard) (env : Nat → Env) (ds : DataSet) : List BinInput → Nat → Wisard × Res Unit
  | [], _ => (w, .ok ())
  | b :: bs, i =>
    match ds.getLabel i with
    | .error e => (w, .error e)
    | .ok l =>
      match w.train1 (env i) (.bin b) l with
      | (w', .ok ()) => trainDataLoop w' env ds bs (i + 1)
      | (w', .error e) => (w', .error e)

/-- `train(dataset)`, wisard.cc:76-83: `dataset[0]` of an empty data set is UB. -/
def trainDataSet (w : Wisard) (env : Nat → Env) (ds : DataSet) : Wisard × Res Unit :=
  let checks : Res Unit := do
    let b ← ds.get 0
    let n ← calculateNumberOfRams b.size w.addressSize w.opts.completeAddressing
    w.checkConfidence n
  match checks with
  | .error e => (w, .error e)
  | .ok () => w.trainDataLoop env ds ds.data 0

/-- Loop of `__classify`, wisard.cc:182-184. -/
def allvotes (img : Image) : SMap Discriminator → Res Votes
  | [] => .ok []
  | (l, d) :: m => do
    let v ← d.classify img
    let vs ← allvotes img m
    .ok ((l, v) :: vs)

/-- `classify(image)`, wisard.cc:170-186: the table of scores. -/
def classify1 (w : Wisard) (img : Image) : Res Scores := do
  let votes ← allvotes img w.discriminators
  Bleaching.make votes w.opts.bleachingActivated w.opts.searchBestConfidence w.opts.confidence

/-- Loop of `_classify`, wisard.cc:161-165. -/
def classify (w : Wisard) : List Image → Res (List Str)
  | [] => .ok []
  | img :: imgs => do
    let candidates ← w.classify1 img
    let ls ← w.classify imgs
    .ok (Bleaching.getBiggestCandidate candidates :: ls)

/-- `leaveOneOut(image, label)`, wisard.cc:104-109. -/
def leaveOneOut (w : Wisard) (img : List Int) (label : Str) : Wisard × Res Unit :=
  match w.discriminators.find label with
  | none => (w, .ok ())
  | some d =>
    let (d', r) := d.untrain (.vec img)
    ({ w with discriminators := w.discriminators.set label d' }, r)

/-- Loop of `leaveMoreOut`, wisard.cc:113-116. -/
def leaveLoop (w : Wisard) : List (List Int × Str) → Wisard × Res Unit
  | [] => (w, .ok ())
  | (img, l) :: es =>
    match w.leaveOneOut img l with
    | (w', .ok ()) => leaveLoop w' es
    | (w', .error e) => (w', .error e)

/-- `leaveMoreOut(images, labels)`, wisard.cc:111-118. -/
def leaveMoreOut (w : Wisard) (images : List (List Int)) (labels : List Str) : Wisard × Res Unit :=
  match checkInputSizes images.length labels.length with
  | .error e => (w, .error e)
  | .ok () => w.leaveLoop (images.zip labels)

/-- Loop of `getMentalImages`, wisard.cc:122-124. -/
def mentalImagesLoop (it : IterOrder) : SMap Discriminator → Res (SMap (List Int))
  | [] => .ok []
  | (l, d) :: m => do
    let i ← d.getMentalImage it
    let is ← mentalImagesLoop it m
    .ok ((l, i) :: is)

/-- `getMentalImages`, wisard.cc:120-126. -/
def getMentalImages (w : Wisard) (it : IterOrder) : Res (SMap (List Int)) :=
  mentalImagesLoop it w.discriminators

/-- `getsizeof`, wisard.cc:62-69, with the `sizeof` constants as parameters (`sizeof(int)` = 4). -/
def getsizeof (sizeofWisard sizeofDiscriminator sizeofRAM : Int) (w : Wisard) : Int :=
  w.discriminators.foldl (fun s e => s + ((e.1.length : Int) + e.2.getsizeof sizeofDiscriminator sizeofRAM))
    (sizeofWisard + 4 * w.opts.indexes.length)

end Wisard
end Wis
