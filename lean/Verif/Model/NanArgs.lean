import Verif.Model.ClusWisard
import Verif.Model.PyFloat
import Verif.Model.KernelCanvas
/-!
# Float arguments of the constructors

`minScore` of ClusWisard and `activationDegree` of KernelCanvas are `float`s: besides the numbers of `Model/ClusWisard.lean` and
`Model/KernelCanvas.lean` they can be infinite or NaN. The `threshold` of a cluster can be 0 if it comes from a document.
-/

namespace Wis

/-- `a < b`. cluster.cc:159. -/
def F32.lt : F32 → F32 → Bool
  | .fin x, .fin y => decide (x < y)
  | .fin _, .inf s => !s
  | .inf s, .fin _ => s
  | .inf s, .inf t => s && !t
  | _, _ => false

/-- `a + b`. cluster.cc:158. -/
def F32.add (rnd : Rat → Rat) : F32 → F32 → F32
  | .fin x, .fin y => .fin (rnd (x + y))
  | .fin _, .inf s => .inf s
  | .inf s, .fin _ => .inf s
  | .inf s, .inf t => if s = t then .inf s else .nan
  | _, _ => .nan

/-- `a / b` for numbers `a` and `b`; a zero divisor is the positive zero. cluster.cc:158. -/
def F32.quot (rnd : Rat → Rat) (a b : Rat) : F32 :=
  if b = 0 then (if a = 0 then .nan else .inf (decide (a < 0))) else .fin (rnd (a / b))

/-- `a >= b` for a number `a`. cluster.cc:161. -/
def F32.numGe (x : Rat) : F32 → Bool
  | .fin y => decide (x ≥ y)
  | .inf s => s
  | .nan => false

/-- `checkConfigInputs`, cluswisard.cc:263-273. -/
def ClusWisard.checkConfigInputsF (minScore : F32) (threshold discriminatorsLimit : Int) : Res Unit :=
  if F32.lt minScore (.fin 0) || F32.lt (.fin 1) minScore then .error (.throw .minScore)
  else if threshold < 1 then .error (.throw .threshold)
  else if discriminatorsLimit < 1 then .error (.throw .discLimit)
  else .ok ()

namespace Cluster

/-- `limit`, cluster.cc:158-159, also for the threshold 0 of a document written by hand. -/
def limitF (f : Flt) (minScore : F32) (threshold : Nat) (count : Int) : F32 :=
  let l := F32.add f.rnd minScore (F32.quot f.rnd (f.rnd count) (f.rnd threshold))
  if F32.lt (.fin 1) l then .fin 1 else l

/-- The loop over the discriminators, cluster.cc:148-165; compare `scan`. -/
def scanF (f : Flt) (minScore : F32) (threshold : Nat) (img : Image) : List (Option Discriminator) → Nat → Rat → Option Nat → Bool →
    List (Option Discriminator) × Res (Option Nat × Bool)
  | [], _, _, bestDiscriminator, trained => ([], .ok (bestDiscriminator, trained))
  | none :: ds, _, _, _, _ => (none :: ds, .error (.ub .nullDeref))
  | some d :: ds, i, bestValue, bestDiscriminator, trained =>
    match d.classify img with
    | .error e => (some d :: ds, .error e)
    | .ok votes =>
      let score := getScore f votes
      let bestDiscriminator' := if score ≥ bestValue then some i else bestDiscriminator
      let bestValue' := if score ≥ bestValue then score else bestValue
      if F32.numGe score (limitF f minScore threshold d.getNumberOfTrainings) then
        match d.train img with
        | (d', .ok ()) =>
          let (ds', r) := scanF f minScore threshold img ds (i + 1) bestValue' bestDiscriminator' true
          (some d' :: ds', r)
        | (d', .error e) => (some d' :: ds, .error e)
      else
        let (ds', r) := scanF f minScore threshold img ds (i + 1) bestValue' bestDiscriminator' trained
        (some d :: ds', r)

/-- `train<T>(image)`, cluster.cc:136-177, of a cluster whose `minScore` is `minScore` (that of `cl.cfg` is not used); compare `train`. -/
def trainF (f : Flt) (minScore : F32) (cl : Cluster) (env : Env) (img : Image) : Cluster × Res Unit :=
  if cl.discriminators.length = 0 then cl.trainNew env img
  else
    match cl.cfg with
    | none => (cl, .error (.ub .uninitialised))
    | some c =>
      match scanF f minScore c.threshold img cl.discriminators 0 0 none false with
      | (ds, .error e) => ({ cl with discriminators := ds }, .error e)
      | (ds, .ok (best, trained)) =>
        let cl' : Cluster := { cl with discriminators := ds }
        if trained then (cl', .ok ())
        else if (ds.length : Int) < c.discriminatorsLimit then cl'.trainNew env img
        else
          match best with
          | none => (cl', .ok ())
          | some i =>
            let (ds', r) := trainAt ds i img
            ({ cl with discriminators := ds' }, r)

end Cluster

namespace KernelCanvas

/-- `checkInputs`, kernelcanvas.cc:205-214. -/
def checkInputsF (numberOfKernels dim bitsByKernel : Int) (activationDegree : F32) : Res Unit :=
  if numberOfKernels < 1 then .error (.throw .kernelsTooFew)
  else if dim < 1 then .error (.throw .dimTooSmall)
  else if bitsByKernel < 1 then .error (.throw .bitsTooFew)
  else if F32.lt (.fin 1) activationDegree || F32.lt activationDegree (.fin 0) then .error (.throw .activationDegree)
  else .ok ()

/-- `activationDegree*numberOfKernels`, kernelcanvas.cc:60, for a positive number of kernels. -/
def timesKernels (f : Flt) : F32 → Int → F32
  | .fin x, n => .fin (f.rnd (x * f.rnd n))
  | .inf s, _ => .inf s
  | .nan, _ => .nan

/-- `(int)round(x)`: UB if there is no such `int`. kernelcanvas.cc:60. -/
def intRound : F32 → Res Int
  | .fin x => i32 (roundHalfUp x)
  | _ => .error (.ub .overflow)

/-- `KernelCanvas(dim, numberOfKernels, kwargs)`, kernelcanvaswrapper.cc:4-22, kernelcanvas.cc:56-75; compare `create`. -/
def createF (f : Flt) (o : FOps) (rand : Nat → Nat → o.F) (dim numberOfKernels bitsByKernel : Int) (activationDegree : F32)
    (useDirection : Bool) : Res (KernelCanvas o) := do
  checkInputsF numberOfKernels dim bitsByKernel activationDegree
  let toActivate ← intRound (timesKernels f activationDegree numberOfKernels)
  let amp : Res Int := if useDirection then (do
      let a ← i32 (2 * (dim - 1))
      i32 (dim + a)) else .ok 0
  let amplifyDim ← amp
  let cur : Res Int := if useDirection then i32 (amplifyDim * 3) else .ok dim
  let currentDim ← cur
  .ok ⟨bitsByKernel, dim, useDirection, toActivate, amplifyDim,
    (List.range numberOfKernels.toNat).map (fun i => (List.range currentDim.toNat).map (fun d => rand i d))⟩

end KernelCanvas
end Wis
