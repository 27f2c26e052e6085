import Verif.Model.Rand
import Verif.Model.ClusWisard
/-!
# The training of a ClusWisard, drawing from the generator of the C library

The functions of Model/Cluster and Model/ClusWisard with the state of the generator passed along (see Model/Rand); `lhsFirst` is the
order of evaluation of assignments (see `Env`).
-/

namespace Wis

namespace Cluster

/-- `makeDiscriminator(discriminators.size())` and `discriminators[index]->train(image)`, cluster.cc:132-134, 139-140, 168-170: the
constructor (discriminator.cc:52-54) does not seed; compare `trainNew`. -/
def trainNewG (g : CRand) (lhsFirst : Bool) (s : g.S) (cl : Cluster) (img : Image) : (Cluster × Res Unit) × g.S :=
  match cl.cfg with
  | none => ((cl, .error (.ub .uninitialised)), s)
  | some c =>
    match Discriminator.setRAMShuffleG g s c.entrySize c.addressSize c.ignoreZero c.completeAddressing c.base with
    | (.ok d, s') =>
      let (d', r) := d.train img
      (({ cl with discriminators := cl.discriminators ++ [some d'] }, r), s')
    | (.error e, s') =>
      (if lhsFirst then ({ cl with discriminators := cl.discriminators ++ [none] }, .error e) else (cl, .error e), s')

/-- `train<T>(image)`, cluster.cc:136-177; compare `train`. -/
def trainG (f : Flt) (g : CRand) (lhsFirst : Bool) (s : g.S) (cl : Cluster) (img : Image) : (Cluster × Res Unit) × g.S :=
  if cl.discriminators.length = 0 then cl.trainNewG g lhsFirst s img
  else
    match cl.cfg with
    | none => ((cl, .error (.ub .uninitialised)), s)
    | some c =>
      match scan f c img cl.discriminators 0 0 none false with
      | (ds, .error e) => (({ cl with discriminators := ds }, .error e), s)
      | (ds, .ok (best, trained)) =>
        let cl' : Cluster := { cl with discriminators := ds }
        if trained then ((cl', .ok ()), s)
        else if (ds.length : Int) < c.discriminatorsLimit then cl'.trainNewG g lhsFirst s img
        else
          match best with
          | none => ((cl', .ok ()), s)
          | some i =>
            let (ds', r) := trainAt ds i img
            (({ cl with discriminators := ds' }, r), s)

end Cluster

namespace ClusWisard

/-- `ClusWisard(addressSize, minScore, threshold, discriminatorsLimit, options)`, cluswisard.cc:5-44, cluswisardwrapper.cc:5-39: the
generator is seeded before the arguments are checked; compare `create`. -/
def createG (g : CRand) (now : Nat) (s : g.S) (addressSize : Int) (minScore : Rat) (threshold discriminatorsLimit : Int) (opts : ClusOpts) :
    Res ClusWisard × g.S :=
  (create addressSize minScore threshold discriminatorsLimit opts, reseed g now s 1000000)

/-- `clusters[label].train(image)`, cluswisard.cc:219, 226; compare `trainIn`. -/
def trainInG (f : Flt) (g : CRand) (lhsFirst : Bool) (s : g.S) (w : ClusWisard) (img : List Int) (label : Str) :
    (ClusWisard × Res Unit) × g.S :=
  match Cluster.trainG f g lhsFirst s ((w.clusters.find label).getD Cluster.default) (.vec img) with
  | ((c, r), s') => (({ w with clusters := w.clusters.set label c }, r), s')

/-- `train(image, label)`, cluswisard.cc:215-220; compare `train1`. -/
def train1G (f : Flt) (g : CRand) (lhsFirst : Bool) (s : g.S) (w : ClusWisard) (img : List Int) (label : Str) :
    (ClusWisard × Res Unit) × g.S :=
  match w.clusters.find label with
  | some _ => trainInG f g lhsFirst s w img label
  | none => trainInG f g lhsFirst s { w with clusters := w.clusters.set label (Cluster.create (w.clusterCfg img.length)) } img label

/-- `train(image)`, cluswisard.cc:222-227; compare `trainOwn`. -/
def trainOwnG (f : Flt) (g : CRand) (lhsFirst : Bool) (s : g.S) (w : ClusWisard) (img : List Int) : (ClusWisard × Res Unit) × g.S :=
  match w.classify1 img false with
  | .error e => ((w, .error e), s)
  | .ok candidates => trainInG f g lhsFirst s w img (beforeSep (Bleaching.getBiggestCandidate candidates))

/-- Loop of `train(images, labels)`, cluswisard.cc:84-87; compare `trainLoop`. -/
def trainLoopG (f : Flt) (g : CRand) (lhsFirst : Bool) : g.S → ClusWisard → List (List Int × Str) → (ClusWisard × Res Unit) × g.S
  | s, w, [] => ((w, .ok ()), s)
  | s, w, (img, l) :: es =>
    match train1G f g lhsFirst s w img l with
    | ((w', .ok ()), s') => trainLoopG f g lhsFirst s' w' es
    | ((w', .error e), s') => ((w', .error e), s')

/-- The checks of `train(images, labels)`, cluswisard.cc:80-82. -/
def trainChecks (w : ClusWisard) (images : List (List Int)) (labels : List Str) : Res Unit := do
  w.confidenceCheck images
  Wisard.checkInputSizes images.length labels.length

/-- `train(images, labels)`, cluswisard.cc:79-89; compare `train`. -/
def trainG (f : Flt) (g : CRand) (lhsFirst : Bool) (s : g.S) (w : ClusWisard) (images : List (List Int)) (labels : List Str) :
    (ClusWisard × Res Unit) × g.S :=
  match w.trainChecks images labels with
  | .error e => ((w, .error e), s)
  | .ok () => trainLoopG f g lhsFirst s w (images.zip labels)

/-- First loop of semi-supervised training, cluswisard.cc:99-112; compare `semiLoop`. -/
def semiLoopG (f : Flt) (g : CRand) (lhsFirst : Bool) (labels : LabelMap) :
    g.S → List (List Int) → Nat → ClusWisard → List Int → Nat → (ClusWisard × Res (List Int)) × g.S
  | s, [], _, w, labelless, _ => ((w, .ok labelless), s)
  | s, img :: imgs, i, w, labelless, j =>
    match labels.find i with
    | none =>
      match noteLabelless labelless j i with
      | .error e => ((w, .error e), s)
      | .ok labelless' => semiLoopG f g lhsFirst labels s imgs (i + 1) w labelless' (j + 1)
    | some l =>
      match train1G f g lhsFirst s w img l with
      | ((w', .ok ()), s') => semiLoopG f g lhsFirst labels s' imgs (i + 1) w' labelless j
      | ((w', .error e), s') => ((w', .error e), s')

/-- Second loop of semi-supervised training, cluswisard.cc:117-120; compare `ownLoop`. -/
def ownLoopG (f : Flt) (g : CRand) (lhsFirst : Bool) : g.S → ClusWisard → List (List Int) → (ClusWisard × Res Unit) × g.S
  | s, w, [] => ((w, .ok ()), s)
  | s, w, img :: imgs =>
    match trainOwnG f g lhsFirst s w img with
    | ((w', .ok ()), s') => ownLoopG f g lhsFirst s' w' imgs
    | ((w', .error e), s') => ((w', .error e), s')

/-- The checks of semi-supervised training, cluswisard.cc:92-94. -/
def semiChecks (w : ClusWisard) (images : List (List Int)) (labels : LabelMap) : Res Unit := do
  w.confidenceCheck images
  if labels.length > images.length then .error (.throw .labelsTooMany) else .ok ()

/-- `train(images, labels)` with a map of labels, cluswisard.cc:91-123; compare `trainSemi`. -/
def trainSemiG (f : Flt) (g : CRand) (lhsFirst : Bool) (s : g.S) (w : ClusWisard) (images : List (List Int)) (labels : LabelMap) :
    (ClusWisard × Res Unit) × g.S :=
  match w.semiChecks images labels with
  | .error e => ((w, .error e), s)
  | .ok () =>
    match semiLoopG f g lhsFirst labels s images 0 w (List.replicate (images.length - labels.length) 0) 0 with
    | ((w', .error e), s') => ((w', .error e), s')
    | ((w', .ok labelless), s') =>
      if labelless.length = images.length then ((w', .error (.throw .noValidIndex)), s')
      else ownLoopG f g lhsFirst s' w' (images.take labelless.length)

/-- Loop of `trainUnsupervised`, cluswisard.cc:129-131; compare `unsupLoop`. -/
def unsupLoopG (f : Flt) (g : CRand) (lhsFirst : Bool) : g.S → ClusWisard → List (List Int) → (ClusWisard × Res Unit) × g.S
  | s, w, [] => ((w, .ok ()), s)
  | s, w, img :: imgs =>
    match Cluster.trainG f g lhsFirst s w.unsupervisedCluster (.vec img) with
    | ((c, .ok ()), s') => unsupLoopG f g lhsFirst s' { w with unsupervisedCluster := c } imgs
    | ((c, .error e), s') => (({ w with unsupervisedCluster := c }, .error e), s')

/-- `trainUnsupervised(images)`, cluswisard.cc:125-132; compare `trainUnsupervised`. -/
def trainUnsupervisedG (f : Flt) (g : CRand) (lhsFirst : Bool) (s : g.S) (w : ClusWisard) (images : List (List Int)) :
    (ClusWisard × Res Unit) × g.S :=
  if w.clusters.length = 0 then
    match images with
    | [] => ((w, .error (.ub .outOfBounds)), s)
    | i0 :: _ => unsupLoopG f g lhsFirst s { w with unsupervisedCluster := Cluster.create { w.clusterCfg i0.length with base := 2 } } images
  else unsupLoopG f g lhsFirst s w images

end ClusWisard
end Wis
