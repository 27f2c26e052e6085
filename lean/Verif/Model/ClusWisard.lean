import Verif.Model.Cluster
import Verif.Model.PyOutput
/-!
# Model of `/repo/src/models/cluswisard/cluswisard.cc` and `/repo/src/wrappers/cluswisardwrapper.cc`
(the JSON part is in `Model/ClusWisardJson.lean`)

What the `verbose` option makes the calls print is in `Model/Progress.lean`, copies of a ClusWisard (which share discriminators) in
`Model/ClusHeap.lean`, `float` degrees in `Model/PyFloat.lean`.
-/

namespace Wis

/-- `std::to_string(unsigned)`: decimal digits. cluswisard.cc:235, 246, cluster.cc:95. -/
def natStr (n : Nat) : Str :=
  (Nat.toDigits 10 n).map (fun c => BitVec.ofNat 8 c.toNat)

/-- `s.substr(0, s.find("::"))`: everything before the first `"::"`, or everything. cluswisard.cc:142, 157, 225. -/
def beforeSep : Str → Str
  | [] => []
  | [c] => [c]
  | c :: d :: s => if c = c!":" ∧ d = c!":" then [] else c :: beforeSep (d :: s)

/-- Members of `class ClusWisard` set by options, cluswisard.cc:324-333, with the defaults of cluswisard.cc:11-41
(JSON options) and cluswisardwrapper.cc:5-39 (Python keyword arguments; there is none for `indexes`). -/
structure ClusOpts where
  bleachingActivated : Bool := true
  verbose : Bool := false
  ignoreZero : Bool := false
  completeAddressing : Bool := true
  base : Int := 2
  searchBestConfidence : Bool := false
  returnConfidence : Bool := false
  returnActivationDegree : Bool := false
  returnClassesDegrees : Bool := false
  confidence : Int := 1
  deriving DecidableEq, Repr

/-- `class ClusWisard`, cluswisard.cc:320-336. -/
structure ClusWisard where
  addressSize : Int
  minScore : Rat
  threshold : Int
  discriminatorsLimit : Int
  opts : ClusOpts
  clusters : SMap Cluster
  unsupervisedCluster : Cluster
  deriving DecidableEq, Repr

/-- `std::map<int, std::string>`, the labels of semi-supervised training: distinct keys. cluswisard.cc:91-123. -/
abbrev LabelMap := List (Int × Str)

/-- `labels.find(i)`. cluswisard.cc:101. -/
def LabelMap.find (m : LabelMap) (i : Int) : Option Str :=
  match m with
  | [] => none
  | (k, l) :: m => if k = i then some l else LabelMap.find m i

namespace ClusWisard

/-- `checkConfigInputs`, cluswisard.cc:263-273. -/
def checkConfigInputs (minScore : Rat) (threshold discriminatorsLimit : Int) : Res Unit :=
  if minScore < 0 ∨ minScore > 1 then .error (.throw .minScore)
  else if threshold < 1 then .error (.throw .threshold)
  else if discriminatorsLimit < 1 then .error (.throw .discLimit)
  else .ok ()

/-- `ClusWisard(addressSize, minScore, threshold, discriminatorsLimit, options)`, cluswisard.cc:5-44,
cluswisardwrapper.cc:5-39. -/
def create (addressSize : Int) (minScore : Rat) (threshold discriminatorsLimit : Int) (opts : ClusOpts) :
    Res ClusWisard := do
  checkConfigInputs minScore threshold discriminatorsLimit
  .ok ⟨addressSize, minScore, threshold, discriminatorsLimit, opts, [], Cluster.default⟩

/-- The arguments given to `Cluster(...)` by `makeClusters`, cluswisard.cc:287-289. -/
def clusterCfg (w : ClusWisard) (entrySize : Int) : ClusterCfg :=
  { addressSize := w.addressSize, entrySize := entrySize, minScore := w.minScore, threshold := (BitVec.ofInt 32 w.threshold).toNat,
    discriminatorsLimit := w.discriminatorsLimit, completeAddressing := w.opts.completeAddressing,
    ignoreZero := w.opts.ignoreZero, base := w.opts.base }

/-- `clusters[label].train(image)`, cluswisard.cc:219, 226: `operator[]` inserts `Cluster()` for an unknown
label. -/
def trainIn (f : Flt) (w : ClusWisard) (env : Env) (img : List Int) (label : Str) : ClusWisard × Res Unit :=
  let c := (w.clusters.find label).getD Cluster.default
  let (c', r) := c.train f env (.vec img)
  ({ w with clusters := w.clusters.set label c' }, r)

/-- `train(image, label)`, cluswisard.cc:215-220. -/
def train1 (f : Flt) (w : ClusWisard) (env : Env) (img : List Int) (label : Str) : ClusWisard × Res Unit :=
  match w.clusters.find label with
  | some _ => w.trainIn f env img label
  | none =>
    let w' := { w with clusters := w.clusters.set label (Cluster.create (w.clusterCfg img.length)) }
    w'.trainIn f env img label

/-- Inner loop of `classify(image)`, cluswisard.cc:234-236: the votes of discriminator `j`, `j + 1`, … of `label`. -/
def addVotes (label : Str) : List (List Int) → Nat → Votes → Votes
  | [], _, m => m
  | v :: vs, j, m => addVotes label vs (j + 1) (m.set (label ++ b!"::" ++ natStr j) v)

/-- Outer loop of `classify(image)`, cluswisard.cc:232-237. -/
def allvotes (img : List Int) : SMap Cluster → Votes → Res Votes
  | [], m => .ok m
  | (l, c) :: cs, m => do
    let vs ← c.classify (.vec img)
    allvotes img cs (addVotes l vs 0 m)

/-- `classify(image, searchBestConfidence)`, cluswisard.cc:229-240. -/
def classify1 (w : ClusWisard) (img : List Int) (searchBestConfidence : Bool) : Res Scores := do
  let votes ← allvotes img w.clusters []
  Bleaching.make votes w.opts.bleachingActivated searchBestConfidence w.opts.confidence

/-- `train(image)`, cluswisard.cc:222-227. -/
def trainOwn (f : Flt) (w : ClusWisard) (env : Env) (img : List Int) : ClusWisard × Res Unit :=
  match w.classify1 img false with
  | .error e => (w, .error e)
  | .ok candidates => w.trainIn f env img (beforeSep (Bleaching.getBiggestCandidate candidates))

/-- `checkConfidence`, cluswisard.cc:281-285. -/
def checkConfidence (w : ClusWisard) (numberOfRAMS : Int) : Res Unit :=
  if w.opts.confidence > numberOfRAMS then .error (.throw .confidence) else .ok ()

/-- The first two lines of both `train`s, cluswisard.cc:80-81, 92-93: `images[0]` of an empty vector is UB. -/
def confidenceCheck (w : ClusWisard) (images : List (List Int)) : Res Unit := do
  let first : Res (List Int) := match images with
    | [] => .error (.ub .outOfBounds)
    | i :: _ => .ok i
  let i0 ← first
  let n ← calculateNumberOfRams i0.length w.addressSize w.opts.completeAddressing
  w.checkConfidence n

/-- Loop of `train(images, labels)`, cluswisard.cc:84-87. -/
def trainLoop (f : Flt) (w : ClusWisard) (env : Nat → Env) : List (List Int × Str) → Nat → ClusWisard × Res Unit
  | [], _ => (w, .ok ())
  | (img, l) :: es, i =>
    match w.train1 f (env i) img l with
    | (w', .ok ()) => trainLoop f w' env es (i + 1)
    | (w', .error e) => (w', .error e)

/-- `train(images, labels)`, cluswisard.cc:79-89; `checkInputSizes`, cluswisard.cc:275-279. -/
def train (f : Flt) (w : ClusWisard) (env : Nat → Env) (images : List (List Int)) (labels : List Str) :
    ClusWisard × Res Unit :=
  let checks : Res Unit := do
    w.confidenceCheck images
    Wisard.checkInputSizes images.length labels.length
  match checks with
  | .error e => (w, .error e)
  | .ok () => w.trainLoop f env (images.zip labels) 0

/-- One round of the first loop of semi-supervised training for an image without label, cluswisard.cc:102-107:
`labelless[j++] = i` or `labelless.push_back(j++)`; `labelless.size()-1` wraps around for an empty vector. -/
def noteLabelless (labelless : List Int) (j : Nat) (i : Nat) : Res (List Int) :=
  if labelless.length ≠ 0 ∧ labelless.length - 1 < j then .ok (labelless ++ [(j : Int)])
  else if j < labelless.length then .ok (labelless.set j i)
  else .error (.ub .outOfBounds)

/-- First loop of semi-supervised training, cluswisard.cc:99-112. -/
def semiLoop (f : Flt) (env : Nat → Env) (labels : LabelMap) :
    List (List Int) → Nat → ClusWisard → List Int → Nat → ClusWisard × Res (List Int)
  | [], _, w, labelless, _ => (w, .ok labelless)
  | img :: imgs, i, w, labelless, j =>
    match labels.find i with
    | none =>
      match noteLabelless labelless j i with
      | .error e => (w, .error e)
      | .ok labelless' => semiLoop f env labels imgs (i + 1) w labelless' (j + 1)
    | some l =>
      match w.train1 f (env i) img l with
      | (w', .ok ()) => semiLoop f env labels imgs (i + 1) w' labelless j
      | (w', .error e) => (w', .error e)

/-- Second loop of semi-supervised training, cluswisard.cc:117-120: `train(images[i])` for `i < labelless.size()`;
here `imgs` are the first `labelless.size()` images. -/
def ownLoop (f : Flt) (w : ClusWisard) (env : Nat → Env) : List (List Int) → Nat → ClusWisard × Res Unit
  | [], _ => (w, .ok ())
  | img :: imgs, i =>
    match w.trainOwn f (env i) img with
    | (w', .ok ()) => ownLoop f w' env imgs (i + 1)
    | (w', .error e) => (w', .error e)

/-- `train(images, labels)` with a map of labels, cluswisard.cc:91-123, with `checkInputLabels`,
cluswisard.cc:251-255, and `checkLabellessSize`, cluswisard.cc:257-261. `labelless.size()` never exceeds
`images.size()` here. The environment's choices in the two loops are `env false` and `env true`. -/
def trainSemi (f : Flt) (w : ClusWisard) (env : Bool → Nat → Env) (images : List (List Int)) (labels : LabelMap) :
    ClusWisard × Res Unit :=
  let checks : Res Unit := do
    w.confidenceCheck images
    if labels.length > images.length then .error (.throw .labelsTooMany) else .ok ()
  match checks with
  | .error e => (w, .error e)
  | .ok () =>
    match semiLoop f (env false) labels images 0 w (List.replicate (images.length - labels.length) 0) 0 with
    | (w', .error e) => (w', .error e)
    | (w', .ok labelless) =>
      if labelless.length = images.length then (w', .error (.throw .noValidIndex))
      else w'.ownLoop f (env true) (images.take labelless.length) 0

/-- Loop of `trainUnsupervised`, cluswisard.cc:129-131. -/
def unsupLoop (f : Flt) (w : ClusWisard) (env : Nat → Env) : List (List Int) → Nat → ClusWisard × Res Unit
  | [], _ => (w, .ok ())
  | img :: imgs, i =>
    match w.unsupervisedCluster.train f (env i) (.vec img) with
    | (c, .ok ()) => unsupLoop f { w with unsupervisedCluster := c } env imgs (i + 1)
    | (c, .error e) => ({ w with unsupervisedCluster := c }, .error e)

/-- `trainUnsupervised(images)`, cluswisard.cc:125-132: without supervised classes the cluster is replaced by a new
one (with the default base 2); `images[0]` of an empty vector is UB. -/
def trainUnsupervised (f : Flt) (w : ClusWisard) (env : Nat → Env) (images : List (List Int)) :
    ClusWisard × Res Unit :=
  if w.clusters.length = 0 then
    match images with
    | [] => (w, .error (.ub .outOfBounds))
    | i0 :: _ =>
      let w' := { w with unsupervisedCluster := Cluster.create { w.clusterCfg i0.length with base := 2 } }
      w'.unsupLoop f env images 0
  else w.unsupLoop f env images 0

/-- `classify(images)`, cluswisard.cc:134-149. -/
def classify (w : ClusWisard) : List (List Int) → Res (List Str)
  | [] => .ok []
  | img :: imgs => do
    let candidates ← w.classify1 img w.opts.searchBestConfidence
    let ls ← w.classify imgs
    .ok (beforeSep (Bleaching.getBiggestCandidate candidates) :: ls)

/-- Loop of `classifyUnsupervised(image)`, cluswisard.cc:245-247. -/
def unsupVotes : List (List Int) → Nat → Votes → Votes
  | [], _, m => m
  | v :: vs, i, m => unsupVotes vs (i + 1) (m.set (natStr i) v)

/-- `classifyUnsupervised(image)`, cluswisard.cc:242-249, with the default arguments of `Bleaching::make`,
bleaching.cc:4. -/
def classifyUnsupervised1 (w : ClusWisard) (img : List Int) : Res Scores := do
  let votes ← w.unsupervisedCluster.classify (.vec img)
  Bleaching.make (unsupVotes votes 0 []) w.opts.bleachingActivated false 1

/-- `classifyUnsupervised(images)`, cluswisard.cc:151-164. -/
def classifyUnsupervised (w : ClusWisard) : List (List Int) → Res (List Str)
  | [] => .ok []
  | img :: imgs => do
    let candidates ← w.classifyUnsupervised1 img
    let ls ← w.classifyUnsupervised imgs
    .ok (beforeSep (Bleaching.getBiggestCandidate candidates) :: ls)

/-- `getMentalImage(label)`, cluswisard.cc:166-168: `operator[]` inserts `Cluster()` for an unknown label. -/
def getMentalImage (w : ClusWisard) (it : IterOrder) (label : Str) : ClusWisard × Res (List (List Int)) :=
  match w.clusters.find label with
  | some c => (w, c.getMentalImages it)
  | none => ({ w with clusters := w.clusters.set label Cluster.default }, Cluster.default.getMentalImages it)

/-- Loop of `getMentalImages`, cluswisard.cc:172-174. -/
def mentalImagesLoop (it : IterOrder) : SMap Cluster → Res (SMap (List (List Int)))
  | [] => .ok []
  | (l, c) :: cs => do
    let m ← c.getMentalImages it
    let ms ← mentalImagesLoop it cs
    .ok ((l, m) :: ms)

/-- `getMentalImages`, cluswisard.cc:170-176. -/
def getMentalImages (w : ClusWisard) (it : IterOrder) : Res (SMap (List (List Int))) := mentalImagesLoop it w.clusters

/-- Loop of `getsizeof`, cluswisard.cc:204-206. -/
def sizeLoop (sizeofCluster sizeofDiscriminator sizeofRAM : Int) : SMap Cluster → Int → Res Int
  | [], s => .ok s
  | (l, c) :: cs, s => do
    let n ← c.getsizeof sizeofCluster sizeofDiscriminator sizeofRAM
    sizeLoop sizeofCluster sizeofDiscriminator sizeofRAM cs (s + ((l.length : Int) + n))

/-- `getsizeof`, cluswisard.cc:201-208, with the `sizeof` constants as parameters. -/
def getsizeof (sizeofClusWisard sizeofCluster sizeofDiscriminator sizeofRAM : Int) (w : ClusWisard) : Res Int := do
  let n ← w.unsupervisedCluster.getsizeof sizeofCluster sizeofDiscriminator sizeofRAM
  sizeLoop sizeofCluster sizeofDiscriminator sizeofRAM w.clusters (sizeofClusWisard + n)

/-- `getClassesDegrees`, cluswisardwrapper.cc:81-93: one entry per discriminator, under the name of its class. -/
def getClassesDegrees (candidates : Scores) : List (Str × (Int × Int)) :=
  let total := candidates.foldl (fun t e => t + e.2) 0
  let total := if total = 0 then 1 else total
  candidates.map (fun e => (beforeSep e.1, (e.2, total)))

/-- One round of the loop of `pyClassify`, cluswisardwrapper.cc:48-71. -/
def pyOutput (o : ClusOpts) (numberOfRAMS : Int) (candidates : Scores) : PyLabel :=
  let label := Bleaching.getBiggestCandidate candidates
  let aClass := beforeSep label
  if !o.returnActivationDegree && !o.returnConfidence && !o.returnClassesDegrees then .plain aClass
  else
    let (c1, act) :=
      if o.returnActivationDegree then
        let (c, v) := PyOut.touch candidates label
        (c, some (v, numberOfRAMS))
      else (candidates, none)
    let (c2, conf) :=
      if o.returnConfidence then
        let (c, v) := PyOut.touch c1 label
        (c, some (Bleaching.getConfidence c v))
      else (c1, none)
    let degs := if o.returnClassesDegrees then some (getClassesDegrees c2) else none
    .dict ⟨aClass, act, conf, degs⟩

/-- Loop of `pyClassify`, cluswisardwrapper.cc:45-75. -/
def pyLoop (w : ClusWisard) (numberOfRAMS : Int) : List (List Int) → Res (List PyLabel)
  | [] => .ok []
  | img :: imgs => do
    let candidates ← w.classify1 img w.opts.searchBestConfidence
    let ls ← w.pyLoop numberOfRAMS imgs
    .ok (pyOutput w.opts numberOfRAMS candidates :: ls)

/-- `pyClassify(images)`, cluswisardwrapper.cc:41-78 (Python's `classify`): `images[0]` of an empty list is UB. -/
def pyClassify (w : ClusWisard) (images : List (List Int)) : Res (List PyLabel) :=
  match images with
  | [] => .error (.ub .outOfBounds)
  | i0 :: _ => do
    let numberOfRAMS ← calculateNumberOfRams i0.length w.addressSize w.opts.completeAddressing
    w.pyLoop numberOfRAMS images

end ClusWisard
end Wis
