import Verif.Spec.Json
import Verif.Model.PyOutput
/-!
# What it means that a reloaded Wisard is as good as the saved one

Only results of calls; no RAM contents.
-/

namespace Wis.Spec

/-- Perform all calls, also after failing ones; the state and all results. -/
def wplay (w : Wisard) : List WOp → Wisard × List (Res Unit)
  | [] => (w, [])
  | o :: ops =>
    let (w', rs) := wplay (wstep w o).1 ops
    (w', (wstep w o).2 :: rs)

/-- Some training with label `l` in the history succeeded. -/
def LearntLabel (w0 : Wisard) (ops : List WOp) (l : Str) : Prop :=
  ∃ a env img b, ops = a ++ .train env img l :: b ∧ (wstep (wplay w0 a).1 (.train env img l)).2 = .ok ()

/-- Number of trainings with label `l` in a history. -/
def trainsOf (l : Str) (ops : List WOp) : Nat := (ops.filter (fun o => o.isTrain && decide (o.label = l))).length

/-- `w` and `w'` answer every query alike: labels, scores, winners, Python results, checks of batch training,
size, configuration, and per class everything a discriminator can be asked. -/
structure WObserve (w w' : Wisard) : Prop where
  labels : w'.discriminators.keys = w.discriminators.keys
  scores : ∀ x, w'.classify1 x = w.classify1 x
  classify : ∀ xs, w'.classify xs = w.classify xs
  python : ∀ xs, PyOut.pyClassify w' xs = PyOut.pyClassify w xs
  checks : ∀ images labels, w'.trainChecks images labels = w.trainChecks images labels
  size : ∀ sw sd sr, w'.getsizeof sw sd sr = w.getsizeof sw sd sr
  config : ∀ ft : FloatText, w'.jsonConfigText ft = w.jsonConfigText ft
  classes : ∀ l d d', w.discriminators.find l = some d → w'.discriminators.find l = some d' → Observe d d'

/-- After every sequence of trainings and `leaveOneOut`s whose labels satisfy `P` (any images, also failing
calls), `w` and `w'` have returned the same and answer every query alike. The random choices made when a new
class is created are the same on both sides. -/
def WIndistinguishable (P : Str → Prop) (w w' : Wisard) : Prop :=
  ∀ ops : List WOp, (∀ o ∈ ops, P o.label) → (wplay w' ops).2 = (wplay w ops).2 ∧ WObserve (wplay w ops).1 (wplay w' ops).1

/-- What is asked of a class that is to be saved: it has at least one RAM, some training of it succeeded, its
numbers are C++ `int`s and the text of its contents is shorter than 2^31 bytes. -/
structure Savable (w0 : Wisard) (ops : List WOp) (l : Str) (d : Discriminator) : Prop where
  rams : 0 < d.getNumberOfRAMS
  learnt : LearntLabel w0 ops l
  range : IntRange d.entrySize w0.opts.base d.mapping
  size : d.getNumberOfRAMS * (16 * trainsOf l ops + 1) ≤ 2147483648

end Wis.Spec
