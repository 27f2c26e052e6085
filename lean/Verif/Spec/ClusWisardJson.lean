import Verif.Spec.ClusWisard
import Verif.Spec.Json
/-!
# What it means that a reloaded ClusWisard is as good as the saved one

Only results of calls; no RAM contents.
-/

namespace Wis.Spec

/-- `w` and `w'` answer every query alike: labels, classes, Python results, unsupervised classes, checks of training
calls, size, configuration and mental images. -/
structure CObserve (w w' : ClusWisard) : Prop where
  labels : w'.clusters.keys = w.clusters.keys
  classify : ∀ xs, w'.classify xs = w.classify xs
  python : ∀ xs, w'.pyClassify xs = w.pyClassify xs
  unsupervised : ∀ xs, w'.classifyUnsupervised xs = w.classifyUnsupervised xs
  checks : ∀ images, w'.confidenceCheck images = w.confidenceCheck images
  size : ∀ sw sc sd sr, w'.getsizeof sw sc sd sr = w.getsizeof sw sc sd sr
  config : ∀ ft : FloatText, w'.jsonConfigText ft = w.jsonConfigText ft
  mental : ∀ it it' l m m', (w.getMentalImage it l).2 = .ok m → (w'.getMentalImage it' l).2 = .ok m' → m' = m

/-- The call trains (it is not a query for a mental image). -/
def COp.trains : COp → Bool
  | .mental _ _ => false
  | _ => true

/-- After every sequence of training calls of the three kinds (any images, also failing calls, and any random choices, the
same on both sides), `w` and `w'` have returned the same and answer every query alike. -/
def CIndistinguishable (f : Flt) (w w' : ClusWisard) : Prop :=
  ∀ ops : List COp, (∀ o ∈ ops, o.trains = true) →
    (cplay f w' ops).2 = (cplay f w ops).2 ∧ CObserve (cplay f w ops).1 (cplay f w' ops).1

/-- What is asked of a discriminator that is to be saved: some training of it succeeded and the text of its contents
is shorter than 2^31 bytes (at most 16 bytes for each RAM and training, and a separator for each RAM). -/
structure SavableD (d : Discriminator) : Prop where
  learnt : ∃ (d0 : Discriminator) (ops : List Op), LearntSomething d0 ops ∧ (play d0 ops).1 = d
  size : (d.getNumberOfRAMS : Int) * (16 * d.getNumberOfTrainings + 1) ≤ 2147483648

/-- What is asked of a cluster: it was initialised by training (`Cluster()` alone leaves its numbers undefined), its
image size is an `int` and all its discriminators exist and can be saved. -/
structure SavableC (c : Cluster) : Prop where
  initialised : ∃ cfg, c.cfg = some cfg ∧ InI32 cfg.entrySize
  discs : ∀ o ∈ c.discriminators, ∃ d, o = some d ∧ SavableD d

/-- The images given to a call. -/
def COp.images : COp → List (List Int)
  | .train _ images _ => images
  | .semi _ images _ => images
  | .unsup _ images => images
  | .mental _ _ => []

/-- The call trains without labels. -/
def COp.isUnsup : COp → Bool
  | .unsup _ _ => true
  | _ => false

/-- Every call of the history succeeded. -/
def AllSucceed (f : Flt) (w : ClusWisard) (ops : List COp) : Prop := ∀ r ∈ (cplay f w ops).2, r = .ok ()

/-- The `int`s among the constructor arguments are in range. -/
def CRange (A t dl : Int) (o : ClusOpts) : Prop :=
  InI32 A ∧ InI32 t ∧ InI32 dl ∧ InI32 o.base ∧ InI32 o.confidence

end Wis.Spec
