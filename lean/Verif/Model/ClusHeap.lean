import Verif.Model.ClusWisardJson
/-!
# The discriminators of `/repo/src/models/cluswisard/cluster.cc` in memory

`Cluster` keeps its discriminators in a `std::map<int,Discriminator*>` (cluster.cc:122): the pointers come from `new`
(cluster.cc:47, 133), are copied by the implicit copy constructors of `Cluster` and `ClusWisard`, and are never given to
`delete` (`~Cluster`, cluster.cc:117-119, and `~ClusWisard`, cluswisard.cc:210-212, only clear their maps). `Model/Cluster.lean` and
`Model/ClusWisard.lean` keep the discriminators themselves instead of pointers; this file has the pointers, and a process
with several models.

A heap is the list of the discriminators made by `new` so far, a pointer is a position in it.
-/

namespace Wis

/-- The discriminators made by `new Discriminator(...)` so far. cluster.cc:47, 133. -/
abbrev Heap := List Discriminator

/-- `class Cluster`, cluster.cc:121-130, with its pointers (`none` is the null pointer). -/
structure HCluster where
  cfg : Option ClusterCfg
  ptrs : List (Option Nat)
  deriving DecidableEq, Repr

/-- `class ClusWisard`, cluswisard.cc:320-336, with the pointers of its clusters. -/
structure HClusWisard where
  addressSize : Int
  minScore : Rat
  threshold : Int
  discriminatorsLimit : Int
  opts : ClusOpts
  clusters : SMap HCluster
  unsupervisedCluster : HCluster
  deriving DecidableEq, Repr

namespace HCluster

/-- `Cluster()`, cluster.cc:4. -/
def default : HCluster := ⟨none, []⟩

/-- `Cluster(entrySize, …)`, cluster.cc:5-10. -/
def create (c : ClusterCfg) : HCluster := ⟨some c, []⟩

/-- What reading all the pointers gives. cluster.cc:122, cluswisard.cc:334-335. -/
def view (h : Heap) (c : HCluster) : Cluster := ⟨c.cfg, c.ptrs.map (fun p => p.bind (h[·]?))⟩

/-- `makeDiscriminator(discriminators.size())` followed by `discriminators[index]->train(image)`,
cluster.cc:132-134, 139-140, 168-170. -/
def trainNew (h : Heap) (cl : HCluster) (env : Env) (img : Image) : Heap × HCluster × Res Unit :=
  match cl.cfg with
  | none => (h, cl, .error (.ub .uninitialised))
  | some c =>
    match Cluster.newDiscriminator env.rnd c with
    | .ok d => (h ++ [(d.train img).1], { cl with ptrs := cl.ptrs ++ [some h.length] }, (d.train img).2)
    | .error e =>
      if env.lhsFirst then (h, { cl with ptrs := cl.ptrs ++ [none] }, .error e) else (h, cl, .error e)

/-- The loop over the discriminators, cluster.cc:148-165, with `(bestValue, bestDiscriminator, trained)`;
`bestDiscriminator` is a pointer. -/
def scan (f : Flt) (c : ClusterCfg) (img : Image) : List (Option Nat) → Heap → Rat → Option Nat → Bool →
    Heap × Res (Option Nat × Bool)
  | [], h, _, bestDiscriminator, trained => (h, .ok (bestDiscriminator, trained))
  | none :: _, h, _, _, _ => (h, .error (.ub .nullDeref))
  | some p :: ps, h, bestValue, bestDiscriminator, trained =>
    match h[p]? with
    | none => (h, .error (.ub .nullDeref))
    | some d =>
      match d.classify img with
      | .error e => (h, .error e)
      | .ok votes =>
        let score := Cluster.getScore f votes
        let bestDiscriminator' := if score ≥ bestValue then some p else bestDiscriminator
        let bestValue' := if score ≥ bestValue then score else bestValue
        if score ≥ Cluster.limit f c d.getNumberOfTrainings then
          match d.train img with
          | (d', .ok ()) => scan f c img ps (h.set p d') bestValue' bestDiscriminator' true
          | (d', .error e) => (h.set p d', .error e)
        else scan f c img ps h bestValue' bestDiscriminator' trained

/-- `bestDiscriminator->train(image)`, cluster.cc:175. -/
def trainAt (h : Heap) (p : Nat) (img : Image) : Heap × Res Unit :=
  match h[p]? with
  | some d => (h.set p (d.train img).1, (d.train img).2)
  | none => (h, .error (.ub .nullDeref))

/-- `train<T>(image)`, cluster.cc:136-177. -/
def train (f : Flt) (h : Heap) (cl : HCluster) (env : Env) (img : Image) : Heap × HCluster × Res Unit :=
  if cl.ptrs.length = 0 then trainNew h cl env img
  else
    match cl.cfg with
    | none => (h, cl, .error (.ub .uninitialised))
    | some c =>
      match scan f c img cl.ptrs h 0 none false with
      | (h', .error e) => (h', cl, .error e)
      | (h', .ok (best, trained)) =>
        if trained then (h', cl, .ok ())
        else if (cl.ptrs.length : Int) < c.discriminatorsLimit then trainNew h' cl env img
        else
          match best with
          | none => (h', cl, .ok ())
          | some p => ((trainAt h' p img).1, cl, (trainAt h' p img).2)

/-- Loop of `Cluster(nl::json)`, cluster.cc:44-48: what was made before an exception stays in memory. -/
def discsOfJson (fs : Fs) (dConfig : Json) : List Json → Heap → List (Option Nat) → Heap × Res (List (Option Nat))
  | [], h, ps => (h, .ok ps)
  | j :: js, h, ps =>
    match Discriminator.ofJson fs (j.mergePatch dConfig) with
    | .error e => (h, .error e)
    | .ok d => discsOfJson fs dConfig js (h ++ [d]) (ps ++ [some h.length])

/-- The numbers read by `Cluster(nl::json)`, cluster.cc:12-36, the configuration for its discriminators,
cluster.cc:38-41, and their values, cluster.cc:43. -/
def readConfig (options : Json) : Res (ClusterCfg × Json × List Json) := do
  let addressSize ← options.opt b!"addressSize" 2 Json.asInt
  let entrySize ← options.opt b!"entrySize" 2 Json.asInt
  let minScore ← options.opt b!"minScore" 2 Json.asReal
  let discriminatorsLimit ← options.opt b!"discriminatorsLimit" 2 Json.asInt
  let threshold ← options.opt b!"threshold" 2 Json.asUInt
  let ignoreZero ← options.opt b!"ignoreZero" false Json.asBool
  let completeAddressing ← options.opt b!"completeAddressing" true Json.asBool
  let base ← options.opt b!"base" 2 Json.asInt
  let discriminatorsConfig ← options.key b!"discriminators"
  .ok ({ addressSize := addressSize, entrySize := entrySize, minScore := minScore, threshold := threshold,
         discriminatorsLimit := discriminatorsLimit, completeAddressing := completeAddressing,
         ignoreZero := ignoreZero, base := base },
       Json.ofList [(b!"ignoreZero", .bool ignoreZero), (b!"base", .int base)], discriminatorsConfig.elems)

/-- `Cluster(nl::json)`, cluster.cc:11-49. -/
def ofJson (fs : Fs) (h : Heap) (options : Json) : Heap × Res HCluster :=
  match readConfig options with
  | .error e => (h, .error e)
  | .ok (c, dConfig, js) =>
    match discsOfJson fs dConfig js h [] with
    | (h', .error e) => (h', .error e)
    | (h', .ok ps) => (h', .ok ⟨some c, ps⟩)

end HCluster

namespace HClusWisard

/-- What reading all the pointers gives. cluster.cc:122, cluswisard.cc:334-335. -/
def view (h : Heap) (w : HClusWisard) : ClusWisard :=
  ⟨w.addressSize, w.minScore, w.threshold, w.discriminatorsLimit, w.opts, w.clusters.map (fun e => (e.1, e.2.view h)),
   w.unsupervisedCluster.view h⟩

/-- `ClusWisard(addressSize, minScore, threshold, discriminatorsLimit, options)`, cluswisard.cc:5-44. -/
def create (addressSize : Int) (minScore : Rat) (threshold discriminatorsLimit : Int) (opts : ClusOpts) :
    Res HClusWisard := do
  ClusWisard.checkConfigInputs minScore threshold discriminatorsLimit
  .ok ⟨addressSize, minScore, threshold, discriminatorsLimit, opts, [], HCluster.default⟩

/-- The arguments given to `Cluster(...)` by `makeClusters`, cluswisard.cc:287-289. -/
def clusterCfg (w : HClusWisard) (entrySize : Int) : ClusterCfg :=
  { addressSize := w.addressSize, entrySize := entrySize, minScore := w.minScore, threshold := (BitVec.ofInt 32 w.threshold).toNat,
    discriminatorsLimit := w.discriminatorsLimit, completeAddressing := w.opts.completeAddressing,
    ignoreZero := w.opts.ignoreZero, base := w.opts.base }

/-- `clusters[label].train(image)`, cluswisard.cc:219, 226. -/
def trainIn (f : Flt) (h : Heap) (w : HClusWisard) (env : Env) (img : List Int) (label : Str) : Heap × HClusWisard × Res Unit :=
  let r := ((w.clusters.find label).getD HCluster.default).train f h env (.vec img)
  (r.1, { w with clusters := w.clusters.set label r.2.1 }, r.2.2)

/-- `train(image, label)`, cluswisard.cc:215-220; the temporary `Cluster(...)` has no discriminators. -/
def train1 (f : Flt) (h : Heap) (w : HClusWisard) (env : Env) (img : List Int) (label : Str) : Heap × HClusWisard × Res Unit :=
  match w.clusters.find label with
  | some _ => w.trainIn f h env img label
  | none =>
    HClusWisard.trainIn f h { w with clusters := w.clusters.set label (HCluster.create (w.clusterCfg img.length)) } env img label

/-- `train(image)`, cluswisard.cc:222-227: classifying only reads. -/
def trainOwn (f : Flt) (h : Heap) (w : HClusWisard) (env : Env) (img : List Int) : Heap × HClusWisard × Res Unit :=
  match (w.view h).classify1 img false with
  | .error e => (h, w, .error e)
  | .ok candidates => w.trainIn f h env img (beforeSep (Bleaching.getBiggestCandidate candidates))

/-- Loop of `train(images, labels)`, cluswisard.cc:84-87. -/
def trainLoop (f : Flt) (env : Nat → Env) : List (List Int × Str) → Nat → Heap → HClusWisard → Heap × HClusWisard × Res Unit
  | [], _, h, w => (h, w, .ok ())
  | (img, l) :: es, i, h, w =>
    match w.train1 f h (env i) img l with
    | (h', w', .ok ()) => trainLoop f env es (i + 1) h' w'
    | (h', w', .error e) => (h', w', .error e)

/-- `train(images, labels)`, cluswisard.cc:79-89; the checks only read. -/
def train (f : Flt) (h : Heap) (w : HClusWisard) (env : Nat → Env) (images : List (List Int)) (labels : List Str) :
    Heap × HClusWisard × Res Unit :=
  let checks : Res Unit := do
    (w.view h).confidenceCheck images
    Wisard.checkInputSizes images.length labels.length
  match checks with
  | .error e => (h, w, .error e)
  | .ok () => trainLoop f env (images.zip labels) 0 h w

/-- First loop of semi-supervised training, cluswisard.cc:99-112. -/
def semiLoop (f : Flt) (env : Nat → Env) (labels : LabelMap) :
    List (List Int) → Nat → Heap → HClusWisard → List Int → Nat → Heap × HClusWisard × Res (List Int)
  | [], _, h, w, labelless, _ => (h, w, .ok labelless)
  | img :: imgs, i, h, w, labelless, j =>
    match labels.find i with
    | none =>
      match ClusWisard.noteLabelless labelless j i with
      | .error e => (h, w, .error e)
      | .ok labelless' => semiLoop f env labels imgs (i + 1) h w labelless' (j + 1)
    | some l =>
      match w.train1 f h (env i) img l with
      | (h', w', .ok ()) => semiLoop f env labels imgs (i + 1) h' w' labelless j
      | (h', w', .error e) => (h', w', .error e)

/-- Second loop of semi-supervised training, cluswisard.cc:117-120. -/
def ownLoop (f : Flt) (env : Nat → Env) : List (List Int) → Nat → Heap → HClusWisard → Heap × HClusWisard × Res Unit
  | [], _, h, w => (h, w, .ok ())
  | img :: imgs, i, h, w =>
    match w.trainOwn f h (env i) img with
    | (h', w', .ok ()) => ownLoop f env imgs (i + 1) h' w'
    | (h', w', .error e) => (h', w', .error e)

/-- `train(images, labels)` with a map of labels, cluswisard.cc:91-123. -/
def trainSemi (f : Flt) (h : Heap) (w : HClusWisard) (env : Bool → Nat → Env) (images : List (List Int)) (labels : LabelMap) :
    Heap × HClusWisard × Res Unit :=
  let checks : Res Unit := do
    (w.view h).confidenceCheck images
    if labels.length > images.length then .error (.throw .labelsTooMany) else .ok ()
  match checks with
  | .error e => (h, w, .error e)
  | .ok () =>
    match semiLoop f (env false) labels images 0 h w (List.replicate (images.length - labels.length) 0) 0 with
    | (h', w', .error e) => (h', w', .error e)
    | (h', w', .ok labelless) =>
      if labelless.length = images.length then (h', w', .error (.throw .noValidIndex))
      else ownLoop f (env true) (images.take labelless.length) 0 h' w'

/-- Loop of `trainUnsupervised`, cluswisard.cc:129-131. -/
def unsupLoop (f : Flt) (env : Nat → Env) : List (List Int) → Nat → Heap → HClusWisard → Heap × HClusWisard × Res Unit
  | [], _, h, w => (h, w, .ok ())
  | img :: imgs, i, h, w =>
    match w.unsupervisedCluster.train f h (env i) (.vec img) with
    | (h', c, .ok ()) => unsupLoop f env imgs (i + 1) h' { w with unsupervisedCluster := c }
    | (h', c, .error e) => (h', { w with unsupervisedCluster := c }, .error e)

/-- `trainUnsupervised(images)`, cluswisard.cc:125-132: the assignment `unsupervisedCluster = Cluster(...)` drops the
pointers of the old cluster without deleting. -/
def trainUnsupervised (f : Flt) (h : Heap) (w : HClusWisard) (env : Nat → Env) (images : List (List Int)) :
    Heap × HClusWisard × Res Unit :=
  if w.clusters.length = 0 then
    match images with
    | [] => (h, w, .error (.ub .outOfBounds))
    | i0 :: _ =>
      unsupLoop f env images 0 h { w with unsupervisedCluster := HCluster.create { w.clusterCfg i0.length with base := 2 } }
  else unsupLoop f env images 0 h w

/-- `getMentalImage(label)`, cluswisard.cc:166-168. -/
def getMentalImage (h : Heap) (w : HClusWisard) (it : IterOrder) (label : Str) : HClusWisard × Res (List (List Int)) :=
  match w.clusters.find label with
  | some c => (w, (c.view h).getMentalImages it)
  | none => ({ w with clusters := w.clusters.set label HCluster.default }, (HCluster.default.view h).getMentalImages it)

/-- Loop of `ClusWisard(std::string)`, cluswisard.cc:64-68: `clusters[it.key()] = Cluster(d)` copies the pointers of a temporary. -/
def clustersOfJson (fs : Fs) (dConfig : Json) : List (Str × Json) → Heap → SMap HCluster → Heap × Res (SMap HCluster)
  | [], h, m => (h, .ok m)
  | (k, j) :: js, h, m =>
    match HCluster.ofJson fs h (j.mergePatch dConfig) with
    | (h', .error e) => (h', .error e)
    | (h', .ok c) => clustersOfJson fs dConfig js h' (m.set k c)

/-- What `ClusWisard(std::string)`, cluswisard.cc:45-62, 71, reads before it makes clusters: options and numbers, the members of
`"clusters"` and the value of `"unsupervisedCluster"`. -/
def readConfig (c : Json) : Res (HClusWisard × List (Str × Json) × Json) := do
  let opts ← ClusWisard.optsOfJson c
  let j ← c.key b!"addressSize"
  let addressSize ← j.asInt
  let j ← c.key b!"minScore"
  let minScore ← j.asReal
  let j ← c.key b!"threshold"
  let threshold ← j.asInt
  let j ← c.key b!"discriminatorsLimit"
  let discriminatorsLimit ← j.asInt
  let classes ← c.key b!"clusters"
  let items ← classes.items
  let unsupervisedConfig ← c.key b!"unsupervisedCluster"
  .ok (⟨addressSize, minScore, threshold, discriminatorsLimit, opts, [], HCluster.default⟩, items, unsupervisedConfig)

/-- `ClusWisard(std::string)`, cluswisard.cc:45-76, on the parsed value. -/
def ofJson (fs : Fs) (h : Heap) (c : Json) : Heap × Res HClusWisard :=
  match readConfig c with
  | .error e => (h, .error e)
  | .ok (w, items, unsupervisedConfig) =>
    let dConfig := ClusWisard.clusterConfig w.addressSize w.minScore w.threshold w.discriminatorsLimit w.opts
    match clustersOfJson fs dConfig items h [] with
    | (h', .error e) => (h', .error e)
    | (h', .ok clusters) =>
      if unsupervisedConfig.isNull then (h', .ok { w with clusters := clusters })
      else
        match HCluster.ofJson fs h' (unsupervisedConfig.mergePatch dConfig) with
        | (h'', .error e) => (h'', .error e)
        | (h'', .ok u) => (h'', .ok { w with clusters := clusters, unsupervisedCluster := u })

end HClusWisard

/-! ## A process with several models -/

/-- The memory of a process: the discriminators made by `new`, and the ClusWisard objects, numbered in the order of their
construction (`none`: destroyed). (Objects of the class cluswisard.cc:1-336.) -/
structure Proc where
  heap : Heap
  models : List (Option HClusWisard)

namespace Proc

/-- The empty process. No object of cluswisard.cc:1-336 yet. -/
def start : Proc := ⟨[], []⟩

/-- Put an object into a new variable. For the constructors cluswisard.cc:4-76. -/
def push (s : Proc) (h : Heap) (r : Res HClusWisard) : Proc × Res Unit :=
  match r with
  | .ok w => (⟨h, s.models ++ [some w]⟩, .ok ())
  | .error e => (⟨h, s.models⟩, .error e)

/-- `ClusWisard x(addressSize, minScore, threshold, discriminatorsLimit, options)`. cluswisard.cc:4-44. -/
def new (s : Proc) (addressSize : Int) (minScore : Rat) (threshold discriminatorsLimit : Int) (opts : ClusOpts) : Proc × Res Unit :=
  s.push s.heap (HClusWisard.create addressSize minScore threshold discriminatorsLimit opts)

/-- `ClusWisard x(text)`. cluswisard.cc:45-76. -/
def load (s : Proc) (fs : Fs) (c : Json) : Proc × Res Unit :=
  s.push (HClusWisard.ofJson fs s.heap c).1 (HClusWisard.ofJson fs s.heap c).2

/-- `ClusWisard x(models[k])`: the implicit copy constructors copy the maps with their pointers.
Members: cluster.cc:122-130, cluswisard.cc:320-335. -/
def copy (s : Proc) (k : Nat) : Proc × Res Unit :=
  match s.models[k]? with
  | some (some w) => s.push s.heap (.ok w)
  | _ => (s, .error (.ub .outOfBounds))

/-- `~ClusWisard`, cluswisard.cc:210-212, `~Cluster`, cluster.cc:117-119: the maps are cleared, nothing is deleted. -/
def destroy (s : Proc) (k : Nat) : Proc × Res Unit :=
  match s.models[k]? with
  | some (some _) => ({ s with models := s.models.set k none }, .ok ())
  | _ => (s, .error (.ub .outOfBounds))

end Proc
end Wis
