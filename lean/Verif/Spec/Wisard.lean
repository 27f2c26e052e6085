import Verif.Model.Wisard
import Verif.Spec.History
import Verif.Spec.Bleaching
/-!
# Specification of a Wisard by its history of calls
-/

namespace Wis.Spec

/-- One successful call: training of one labelled image (with the environment's choices, used only if the
class is new) or `leaveOneOut`. Batch calls are sequences of these (C24, C51). -/
inductive WOp where
  | train (env : Env) (img : Image) (label : Str)
  | leave (img : List Int) (label : Str)

/-- The image of a call. -/
def WOp.img : WOp → Image
  | .train _ i _ => i
  | .leave i _ => .vec i

/-- The label of a call. -/
def WOp.label : WOp → Str
  | .train _ _ l => l
  | .leave _ l => l

/-- The call is a training. -/
def WOp.isTrain : WOp → Bool
  | .train _ _ _ => true
  | .leave _ _ => false

/-- Perform one call. -/
def wstep (w : Wisard) : WOp → Wisard × Res Unit
  | .train env img l => w.train1 env img l
  | .leave img l => w.leaveOneOut img l

/-- Perform a history of calls; the first failing call ends it. -/
def wrun (w : Wisard) : List WOp → Wisard × Res Unit
  | [] => (w, .ok ())
  | o :: ops =>
    match wstep w o with
    | (w', .ok ()) => wrun w' ops
    | (w', .error e) => (w', .error e)

/-- The call as seen by the class `l`. -/
def WOp.on (l : Str) : WOp → Option Op
  | .train _ img l' => if l' = l then some (.train img) else none
  | .leave img l' => if l' = l then some (.untrain (.vec img)) else none

/-- The history of class `l`: the calls with label `l` from its first training on. -/
def opsOf (l : Str) (ops : List WOp) : List Op :=
  (ops.filterMap (WOp.on l)).dropWhile (fun o => !o.isTrain)

/-- The pairs (image, label) of the trainings. -/
def trained : List WOp → List (Image × Str)
  | [] => []
  | .train _ img l :: ops => (img, l) :: trained ops
  | .leave _ _ :: ops => trained ops

/-- A fresh Wisard `w0` was brought to `w` by the successful calls `ops`; all images have length `n` and
values in `[0, base)`; all classes are wired inside the image; fewer than 2^31 calls. With default wiring
every list of such calls succeeds and has this property (`C73_valid_calls_succeed`). -/
structure GoodHistory (w0 : Wisard) (ops : List WOp) (w : Wisard) (n : Int) : Prop where
  start : w0.discriminators = []
  ran : wrun w0 ops = (w, .ok ())
  valid : ∀ o ∈ ops, ValidImage n w0.opts.base o.img
  wired : ∀ l d, w.discriminators.find l = some d → WiredInside n d.mapping
  len : ops.length ≤ 2147483647

/-- Votes of class `l`, wired as `wiring`, for `x`: one per RAM, counted over the class's own history. -/
def specVotes (w0 : Wisard) (ops : List WOp) (x : Image) (l : Str) (wiring : List (List Int)) : List Int :=
  wiring.map (fun m => if w0.opts.ignoreZero = true ∧ ZeroOn m x then 0 else vote m (opsOf l ops) x)

end Wis.Spec
