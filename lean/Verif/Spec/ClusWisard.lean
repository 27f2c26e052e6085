import Verif.Model.ClusWisard
import Verif.Spec.Cluster
/-!
# Specification of a ClusWisard by its calls
-/

namespace Wis.Spec

/-- The public calls that may change a ClusWisard, with the environment's choices. -/
inductive COp where
  | train (env : Nat → Env) (images : List (List Int)) (labels : List Str)
  | semi (env : Bool → Nat → Env) (images : List (List Int)) (labels : LabelMap)
  | unsup (env : Nat → Env) (images : List (List Int))
  | mental (it : IterOrder) (label : Str)

/-- Perform one call. -/
def cstep (f : Flt) (w : ClusWisard) : COp → ClusWisard × Res Unit
  | .train env images labels => w.train f env images labels
  | .semi env images labels => w.trainSemi f env images labels
  | .unsup env images => w.trainUnsupervised f env images
  | .mental it l => ((w.getMentalImage it l).1, (w.getMentalImage it l).2.map (fun _ => ()))

/-- Perform all calls, also after failing ones; the state and all results. -/
def cplay (f : Flt) (w : ClusWisard) : List COp → ClusWisard × List (Res Unit)
  | [] => (w, [])
  | o :: ops =>
    let (w', rs) := cplay f (cstep f w o).1 ops
    (w', (cstep f w o).2 :: rs)

/-- The labels given to a call for training. -/
def COp.labels : COp → List Str
  | .train _ _ ls => ls
  | .semi _ _ m => m.map (·.2)
  | .unsup _ _ => []
  | .mental _ _ => []

/-- All labels given for training in a history. -/
def labelsOf (ops : List COp) : List Str := ops.flatMap COp.labels

/-- The label contains `"::"`. -/
def HasSep (l : Str) : Prop := ∃ a b, l = a ++ b!"::" ++ b

/-- The label contains no `"::"` and does not end in `':'`. -/
def SafeLabel (l : Str) : Prop := ¬ HasSep l ∧ ¬ ∃ a, l = a ++ b!":"

/-- The images that have a label, with their index and label, in order (`i` is the index of the first image). -/
def supervised (labels : LabelMap) : List (List Int) → Nat → List (Nat × (List Int × Str))
  | [], _ => []
  | img :: imgs, i =>
    match labels.find i with
    | some l => (i, (img, l)) :: supervised labels imgs (i + 1)
    | none => supervised labels imgs (i + 1)

/-- The images without label, in order. -/
def unlabelled (labels : LabelMap) : List (List Int) → Nat → List (List Int)
  | [], _ => []
  | img :: imgs, i =>
    match labels.find i with
    | some _ => unlabelled labels imgs (i + 1)
    | none => img :: unlabelled labels imgs (i + 1)

/-- Train labelled images one after the other. -/
def trainEach (f : Flt) (w : ClusWisard) (env : Nat → Env) : List (Nat × (List Int × Str)) → ClusWisard × Res Unit
  | [] => (w, .ok ())
  | (i, (img, l)) :: es =>
    match w.train1 f (env i) img l with
    | (w', .ok ()) => trainEach f w' env es
    | (w', .error e) => (w', .error e)

/-- Train each image with the label that `classify` gives it at that moment. -/
def trainByOwnLabel (f : Flt) (w : ClusWisard) (env : Nat → Env) : List (List Int) → Nat → ClusWisard × Res Unit
  | [], _ => (w, .ok ())
  | img :: imgs, i =>
    match w.classify [img] with
    | .error e => (w, .error e)
    | .ok ls =>
      match w.train1 f (env i) img (ls.headD []) with
      | (w', .ok ()) => trainByOwnLabel f w' env imgs (i + 1)
      | (w', .error e) => (w', .error e)

/-- First the labelled images, then the images `rest` by their own labels. -/
def semiWith (f : Flt) (w : ClusWisard) (env : Bool → Nat → Env) (images : List (List Int)) (labels : LabelMap)
    (rest : List (List Int)) : ClusWisard × Res Unit :=
  match trainEach f w (env false) (supervised labels images 0) with
  | (w', .ok ()) => trainByOwnLabel f w' (env true) rest 0
  | (w', .error e) => (w', .error e)

/-- What the documentation promises of semi-supervised training. -/
def Documented (f : Flt) (w : ClusWisard) (env : Bool → Nat → Env) (images : List (List Int)) (labels : LabelMap) :
    ClusWisard × Res Unit := semiWith f w env images labels (unlabelled labels images 0)

/-- The key is the index of an image. -/
def ValidKey (images : List (List Int)) (e : Int × Str) : Prop := 0 ≤ e.1 ∧ e.1 < images.length

instance (images : List (List Int)) (e : Int × Str) : Decidable (ValidKey images e) := by
  unfold ValidKey; exact inferInstance

/-- Train a cluster with several images. -/
def clusterRun (f : Flt) (cl : Cluster) : List (Env × Image) → Cluster × Res Unit
  | [] => (cl, .ok ())
  | (env, img) :: es =>
    match cl.train f env img with
    | (cl', .ok ()) => clusterRun f cl' es
    | (cl', .error e) => (cl', .error e)

/-- The entries with label `l`, with the environment's choices (`i` is the index of the first entry). -/
def entriesOf (l : Str) (env : Nat → Env) : List (List Int × Str) → Nat → List (Env × Image)
  | [], _ => []
  | (img, l') :: es, i =>
    if l' = l then (env i, .vec img) :: entriesOf l env es (i + 1) else entriesOf l env es (i + 1)

/-- The discriminators of class `l` (`none` is a null pointer). -/
def discs (w : ClusWisard) (l : Str) : List (Option Discriminator) :=
  match w.clusters.find l with
  | some c => c.discriminators
  | none => []

/-- From one list of discriminators to the next: each of the old ones is unchanged or was trained once more, at most
one was appended, whose count is 1, and at least one was trained. -/
def OneMoreTraining (ds ds' : List Discriminator) : Prop :=
  ∃ old new : List Discriminator, ds' = old ++ new ∧ List.Forall₂ (fun d d' : Discriminator => d' = d ∨ d'.getNumberOfTrainings = d.getNumberOfTrainings + 1) ds old ∧
    (new = [] ∨ ∃ d, new = [d] ∧ d.getNumberOfTrainings = 1) ∧
    (new ≠ [] ∨ ∃ (i : Nat) (d d' : Discriminator), ds[i]? = some d ∧ old[i]? = some d' ∧ d'.getNumberOfTrainings = d.getNumberOfTrainings + 1)

/-- Every RAM of `d` gives a positive vote for the image. -/
def FullVote (img : Image) (d : Discriminator) : Prop :=
  ∃ vs, d.classify img = .ok vs ∧ vs.length = d.getNumberOfRAMS ∧ ∀ v ∈ vs, 1 ≤ v

/-! ### The model of the examples -/

/-- Environment of the examples: no shuffling. -/
def env0 : Env := ⟨Rnd.id, true⟩

/-- A ClusWisard of the examples. -/
def cw0 : ClusWisard := ⟨2, 1/2, 10, 3, {}, [], Cluster.default⟩

/-- A training call of the examples: two classes, `"a"` with two different images. -/
def op0 : COp := .train (fun _ => env0) [[1, 1, 1, 1], [0, 0, 0, 0], [1, 0, 1, 0]] [b!"a", b!"a", b!"b"]

end Wis.Spec
