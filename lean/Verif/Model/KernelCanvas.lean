import Verif.Model.Cluster
/-!
# Model of `/repo/src/binarization/kernelcanvas.cc` and `/repo/src/wrappers/kernelcanvaswrapper.cc`

The `double` operations are an arbitrary structure `FOps`; nothing is assumed of them here.
-/

namespace Wis

/-- The `double` operations used. Used in kernelcanvas.cc:77-203. -/
structure FOps where
  F : Type
  zero : F
  add : F → F → F
  sub : F → F → F
  mul : F → F → F
  div : F → F → F
  tanh : F → F
  sqrt : F → F
  ofNat : Nat → F
  lt : F → F → Bool

/-- `v[i]`, UB outside the vector. Used throughout kernelcanvas.cc:19-203. -/
def vget {α : Type} (v : List α) (i : Int) : Res α :=
  if 0 ≤ i then
    match v[i.toNat]? with
    | some x => .ok x
    | none => .error (.ub .outOfBounds)
  else .error (.ub .outOfBounds)

/-- `v[i] = x`, UB outside the vector. Used throughout kernelcanvas.cc:19-203. -/
def vset {α : Type} (v : List α) (i : Int) (x : α) : Res (List α) :=
  if 0 ≤ i ∧ i < v.length then .ok (v.set i.toNat x) else .error (.ub .outOfBounds)

/-- The comparison is a strict weak order on the elements of the list, as `std::sort` requires.
For kernelcanvas.cc:102-104, 141. -/
def strictWeakOn {α : Type} (lt : α → α → Bool) (l : List α) : Bool :=
  l.all (fun a => !lt a a) &&
  l.all (fun a => l.all (fun b => l.all (fun c =>
    (!(lt a b && lt b c) || lt a c) && (!(!lt a b && !lt b a && !lt b c && !lt c b) || (!lt a c && !lt c a)))))

/-- `std::sort`: some permutation in which no element is less than an earlier one, provided the comparison is a strict
weak order on the elements. kernelcanvas.cc:141. -/
structure Sorter (α : Type) where
  sort : (α → α → Bool) → List α → List α
  perm : ∀ lt l, (sort lt l).Perm l
  sorted : ∀ lt l, strictWeakOn lt l = true → (sort lt l).Pairwise (fun a b => lt b a = false)

/-- `KernelCanvas`, kernelcanvas.cc:47-52. -/
structure KernelCanvas (o : FOps) where
  bitsByKernel : Int
  dim : Int
  useDirection : Bool
  toActivate : Int
  amplifyDim : Int
  kernels : List (List o.F)

/-- `round` of a number that is not negative: halves are rounded up. kernelcanvas.cc:60. -/
def roundHalfUp (q : Rat) : Int := (q + 1/2).floor

namespace KernelCanvas

/-- `checkInputs`, kernelcanvas.cc:205-214. -/
def checkInputs (numberOfKernels dim bitsByKernel : Int) (activationDegree : Rat) : Res Unit :=
  if numberOfKernels < 1 then .error (.throw .kernelsTooFew)
  else if dim < 1 then .error (.throw .dimTooSmall)
  else if bitsByKernel < 1 then .error (.throw .bitsTooFew)
  else if activationDegree > 1 ∨ activationDegree < 0 then .error (.throw .activationDegree)
  else .ok ()

/-- `KernelCanvas(dim, numberOfKernels, kwargs)` of Python, kernelcanvaswrapper.cc:4-22, with `setupKernelCanvas`,
kernelcanvas.cc:56-75; `rand i d` is the random value of coordinate `d` of kernel `i`. The C++ constructors,
kernelcanvas.cc:4-17, never initialise `dim`. `activationDegree` is a `float` that is not NaN. The conversion of a `float` that an `int` cannot hold counts as an overflow. -/
def create (f : Flt) (o : FOps) (rand : Nat → Nat → o.F) (dim numberOfKernels bitsByKernel : Int) (activationDegree : Rat)
    (useDirection : Bool) : Res (KernelCanvas o) := do
  checkInputs numberOfKernels dim bitsByKernel activationDegree
  let toActivate ← i32 (roundHalfUp (f.rnd (activationDegree * f.rnd numberOfKernels)))
  let amp : Res Int := if useDirection then (do
      let a ← i32 (2 * (dim - 1))
      i32 (dim + a)) else .ok 0
  let amplifyDim ← amp
  let cur : Res Int := if useDirection then i32 (amplifyDim * 3) else .ok dim
  let currentDim ← cur
  .ok ⟨bitsByKernel, dim, useDirection, toActivate, amplifyDim,
    (List.range numberOfKernels.toNat).map (fun i => (List.range currentDim.toNat).map (fun d => rand i d))⟩

/-- Inner loop of `multDimMean`, kernelcanvas.cc:81-83, over `output`; the point `row` may be too short (UB). -/
def meanRow (o : FOps) : List o.F → List o.F → Res (List o.F)
  | [], _ => .ok []
  | _ :: _, [] => .error (.ub .outOfBounds)
  | s :: ss, x :: xs => do
    let r ← meanRow o ss xs
    .ok (o.add s x :: r)

/-- Loop of `multDimMean`, kernelcanvas.cc:80-84. -/
def meanLoop (o : FOps) : List (List o.F) → List o.F → Res (List o.F)
  | [], out => .ok out
  | row :: rows, out => do
    let out ← meanRow o out row
    meanLoop o rows out

/-- `multDimMean`, kernelcanvas.cc:77-87. -/
def multDimMean (o : FOps) (dim : Int) (seq : List (List o.F)) : Res (List o.F) := do
  let out ← meanLoop o seq (List.replicate dim.toNat o.zero)
  .ok (out.map (fun x => o.div x (o.ofNat seq.length)))

/-- Inner loop of `multDimStd`, kernelcanvas.cc:93-96, over `output`, `means` and the point. -/
def stdRow (o : FOps) : List o.F → List o.F → List o.F → Res (List o.F)
  | [], _, _ => .ok []
  | s :: ss, m :: ms, x :: xs => do
    let r ← stdRow o ss ms xs
    let diff := o.sub m x
    .ok (o.add s (o.mul diff diff) :: r)
  | _ :: _, _, _ => .error (.ub .outOfBounds)

/-- Loop of `multDimStd`, kernelcanvas.cc:92-97. -/
def stdLoop (o : FOps) (means : List o.F) : List (List o.F) → List o.F → Res (List o.F)
  | [], out => .ok out
  | row :: rows, out => do
    let out ← stdRow o out means row
    stdLoop o means rows out

/-- `multDimStd`, kernelcanvas.cc:89-100. -/
def multDimStd (o : FOps) (dim : Int) (means : List o.F) (seq : List (List o.F)) : Res (List o.F) := do
  let out ← stdLoop o means seq (List.replicate dim.toNat o.zero)
  .ok (out.map (fun x => o.sqrt (o.div x (o.ofNat seq.length))))

/-- `switchIndexes`, kernelcanvas.cc:106-112: the returned value and the new vector. -/
def switchIndexes (ix : List Int) : Res (Int × List Int) := do
  let temp ← vget ix 2
  let a ← vget ix 0
  let ix ← vset ix 1 a
  let b ← vget ix 1
  let ix ← vset ix 2 b
  let ix ← vset ix 0 temp
  .ok (temp, ix)

/-- `std::tanh((means[j] - sequenceData[index][j])/stds[j])`, kernelcanvas.cc:162, 166, 172, 174, 200. -/
def coordAt (o : FOps) (means stds row : List o.F) (j : Int) : Res o.F := do
  let m ← vget means j
  let x ← vget row j
  let s ← vget stds j
  .ok (o.tanh (o.div (o.sub m x) s))

/-- Loop of `calculatePoint` without direction, kernelcanvas.cc:199-201: `k` rounds from `j` on. -/
def plainLoop (o : FOps) (means stds row : List o.F) : Nat → Nat → List o.F → Res (List o.F)
  | 0, _, point => .ok point
  | k + 1, j, point => do
    let x ← coordAt o means stds row j
    let point ← vset point j x
    plainLoop o means stds row k (j + 1) point

/-- Loop of `calculatePoint` with direction, kernelcanvas.cc:168-190: `k` rounds from `j` on. `next` is the next point
of the sequence, if any; `i1` is `indexes[1]`, `ad` is `amplifyDim`. Returns the point and the last `ipp`. -/
def directionLoop (o : FOps) (dim ad i1 : Int) (means stds row : List o.F) (next : Option (List o.F)) :
    Nat → Nat → Int → o.F → o.F → List o.F → Res (List o.F × Int)
  | 0, _, ipp, _, _, point => .ok (point, ipp)
  | k + 1, j, ipp, aback, afront, point => do
    let ip := ipp + 1
    let sinix := ipp * 2 + dim
    let x ← coordAt o means stds row j
    let point ← vset point ip x
    match next with
    | some row' => do
      let afront ← coordAt o means stds row' j
      let a ← vget point ipp
      let b ← vget point ip
      let dx := o.sub aback a
      let dy := o.sub afront b
      let hypotenuse := o.sqrt (o.add (o.mul dy dy) (o.mul dx dx))
      let point ← vset point sinix (o.div dx hypotenuse)
      let point ← vset point (sinix + 1) (o.div dy hypotenuse)
      directionLoop o dim ad i1 means stds row next k (j + 1) (ipp + 1) afront afront point
    | none => do
      let sinixA := i1 * ad * 2 + dim + j - 1
      let a ← vget point sinixA
      let point ← vset point sinix a
      let b ← vget point (sinixA + 1)
      let point ← vset point (sinix + 1) b
      directionLoop o dim ad i1 means stds row next k (j + 1) (ipp + 1) afront afront point

/-- Last loop of `calculatePoint`, kernelcanvas.cc:192-195: `k` rounds from `j` on. -/
def copyLoop (o : FOps) (ad i1 i2 ipp : Int) : Nat → Nat → List o.F → Res (List o.F)
  | 0, _, point => .ok point
  | k + 1, j, point => do
    let a ← vget point (ipp + j)
    let point ← vset point (i1 * ad + j) a
    let b ← vget point (ipp + j)
    let point ← vset point (i2 * ad + j) b
    copyLoop o ad i1 i2 ipp k (j + 1) point

/-- `calculatePoint`, kernelcanvas.cc:149-203: the new point and indexes; `first` is always true (it is passed by
value and `transform` never changes it). -/
def calculatePoint {o : FOps} (c : KernelCanvas o) (point : List o.F) (seq : List (List o.F)) (index : Nat)
    (means stds : List o.F) (indexes : List Int) : Res (List o.F × List Int) := do
  let row ← vget seq index
  if c.useDirection then do
    let (ix, indexes) ← switchIndexes indexes
    let ipp := ix * c.amplifyDim
    let x ← coordAt o means stds row 0
    let point ← vset point ipp x
    let ab : Res o.F := match seq[index + 1]? with
      | some row' => coordAt o means stds row' 0
      | none => .ok o.zero
    let aback ← ab
    let i1 ← vget indexes 1
    let (point, ipp) ← directionLoop o c.dim c.amplifyDim i1 means stds row seq[index + 1]? (c.dim - 1).toNat 1 ipp aback o.zero point
    let i2 ← vget indexes 2
    let point ← copyLoop o c.amplifyDim i1 i2 ipp c.amplifyDim.toNat 0 point
    .ok (point, indexes)
  else do
    let point ← plainLoop o means stds row c.dim.toNat 0 point
    .ok (point, indexes)

/-- Loop of `calculateDistances` with direction, kernelcanvas.cc:123-128: `k` rounds from `j` on; `pi` grows once. -/
def directionDistance (o : FOps) (ad : Int) (indexes : List Int) (point kernel : List o.F) : Nat → Nat → Int → o.F → Res o.F
  | 0, _, _, s => .ok s
  | k + 1, j, pi, s => do
    let p ← vget indexes pi
    let x ← vget point (p * ad + (j : Int).tmod ad)
    let y ← vget kernel j
    let diff := o.sub x y
    directionDistance o ad indexes point kernel k (j + 1) (if (j : Int) = ad - 1 then pi + 1 else pi) (o.add s (o.mul diff diff))

/-- Loop of `calculateDistances` without direction, kernelcanvas.cc:131-134. -/
def plainDistance (o : FOps) (point kernel : List o.F) : Nat → Nat → o.F → Res o.F
  | 0, _, s => .ok s
  | k + 1, j, s => do
    let x ← vget point j
    let y ← vget kernel j
    let diff := o.sub x y
    plainDistance o point kernel k (j + 1) (o.add s (o.mul diff diff))

/-- One round of `calculateDistances`, kernelcanvas.cc:120-136. -/
def distance {o : FOps} (c : KernelCanvas o) (point : List o.F) (indexes : List Int) (kernel : List o.F) : Res o.F := do
  let d : Res o.F := if c.useDirection then directionDistance o c.amplifyDim indexes point kernel (c.amplifyDim * 3).toNat 0 0 o.zero
    else plainDistance o point kernel c.dim.toNat 0 o.zero
  let s ← d
  .ok (o.sqrt s)

/-- Loop of `calculateDistances`, kernelcanvas.cc:119-137, from kernel `i` on. -/
def distancesLoop {o : FOps} (c : KernelCanvas o) (point : List o.F) (indexes : List Int) :
    List (List o.F) → Nat → Res (List (Nat × o.F))
  | [], _ => .ok []
  | k :: ks, i => do
    let d ← c.distance point indexes k
    let ds ← distancesLoop c point indexes ks (i + 1)
    .ok ((i, d) :: ds)

/-- Inner loop of `activateKernels`, kernelcanvas.cc:145: `k` rounds from `j` on. -/
def fillBits (start : Int) : Nat → Nat → List Int → Res (List Int)
  | 0, _, output => .ok output
  | k + 1, j, output => do
    let i ← i32 (start + j)
    let output ← vset output i 1
    fillBits start k (j + 1) output

/-- Loop of `activateKernels`, kernelcanvas.cc:142-146: `k` rounds from `i` on. -/
def activateLoop (o : FOps) (bits : Int) (distances : List (Nat × o.F)) : Nat → Nat → List Int → Res (List Int)
  | 0, _, output => .ok output
  | k + 1, i, output => do
    let e ← vget distances i
    let start ← i32 ((e.1 : Int) * bits)
    let v ← vget output start
    let filled : Res (List Int) := if v = 1 then .ok output else fillBits start bits.toNat 0 output
    let output ← filled
    activateLoop o bits distances k (i + 1) output

/-- `activateKernels`, kernelcanvas.cc:140-147; `std::sort` with a comparison that is not a strict weak order is UB. -/
def activateKernels {o : FOps} (c : KernelCanvas o) (sorter : Sorter (Nat × o.F)) (output : List Int) (distances : List (Nat × o.F)) :
    Res (List Int) :=
  if strictWeakOn (fun a b : Nat × o.F => o.lt a.2 b.2) distances then
    activateLoop o c.bitsByKernel (sorter.sort (fun a b => o.lt a.2 b.2) distances) c.toActivate.toNat 0 output
  else .error (.ub .badOrder)

/-- `checkDimension`, kernelcanvas.cc:216-219. -/
def checkDimension {o : FOps} (c : KernelCanvas o) (size : Int) : Res Unit :=
  if size ≠ c.dim then .error (.throw .dimension) else .ok ()

/-- Loop of `transform`, kernelcanvas.cc:33-38: `k` rounds from `i` on. -/
def transformLoop {o : FOps} (c : KernelCanvas o) (sorter : Nat → Sorter (Nat × o.F)) (seq : List (List o.F)) (means stds : List o.F) :
    Nat → Nat → List Int → List o.F → List Int → Res (List Int)
  | 0, _, output, _, _ => .ok output
  | k + 1, i, output, point, pi => do
    let row ← vget seq i
    c.checkDimension row.length
    let (point, pi) ← c.calculatePoint point seq i means stds pi
    let distances ← c.distancesLoop point pi c.kernels 0
    let output ← c.activateKernels (sorter i) output distances
    transformLoop c sorter seq means stds k (i + 1) output point pi

/-- `transform`, kernelcanvas.cc:19-40; the sort in round `i` is `sorter i`. -/
def transform {o : FOps} (c : KernelCanvas o) (sorter : Nat → Sorter (Nat × o.F)) (seq : List (List o.F)) : Res (List Int) := do
  let means ← multDimMean o c.dim seq
  let stds ← multDimStd o c.dim means seq
  let k0 ← vget c.kernels 0
  transformLoop c sorter seq means stds seq.length 0 (List.replicate (c.kernels.length * c.bitsByKernel.toNat) 0)
    (List.replicate k0.length o.zero) [2, 1, 0]

end KernelCanvas
end Wis
