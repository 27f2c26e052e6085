import Verif.Model.Wisard
import Verif.Model.Synthesizer
import Verif.Model.DiscriminatorJson
import Verif.Model.KernelCanvas
/-!
# The random numbers of `/repo`: `srand`, `rand`, `random_shuffle` and the clock

The other modules take the random numbers used by a call as arguments. Here they come from one generator shared by the whole
process, as in the code; `Props/Rand.lean` shows that each function below is the corresponding function of the other modules,
applied to the numbers drawn. `now` is the value of `time(NULL)`, in seconds, when the call is made.
-/

namespace Wis

/-- The C library's generator and the C++ library's `random_shuffle` (which draws from it): any deterministic functions of the
state of the generator, as long as the latter permutes. `stdRand` is the one of libstdc++.
Used in utils.cc:1-9, discriminator.cc:190, synthesizers.cc:47. -/
structure CRand where
  /-- State of the generator. -/
  S : Type
  /-- `srand(seed)`: the state does not depend on the previous one. -/
  srand : Nat → S
  /-- `rand()`. -/
  rand : S → Nat × S
  /-- `random_shuffle(v.begin(), v.end())`. -/
  shuffle : S → List Int → List Int × S
  perm : ∀ s l, (shuffle s l).1.Perm l

/-- Loop of libstdc++'s `random_shuffle` (bits/stl_algo.h, not in /repo), from element `i` on, `n` elements left:
`swap(v[i], v[rand() % (i + 1)])`. Used in discriminator.cc:190, synthesizers.cc:47. -/
def shuffleLoop {S : Type} (rand : S → Nat × S) : Nat → Nat → Array Int → S → Array Int × S
  | 0, _, v, s => (v, s)
  | n + 1, i, v, s => shuffleLoop rand n (i + 1) (v.swapIfInBounds i ((rand s).1 % (i + 1))) (rand s).2

/-- `randint(min, max, isSeed)`, utils.cc:1-5. -/
def randintG (g : CRand) (now : Nat) (s : g.S) (min max : Int) (isSeed : Bool) : Res Int × g.S :=
  let s := if isSeed then g.srand now else s
  (randint (g.rand s).1 min max, (g.rand s).2)

/-- `srand(randint(0, bound))`, discriminator.cc:20, discriminatorwrapper.cc:12 (`bound` 100000), wisard.cc:6,
cluswisard.cc:10, synthesizers.cc:6 (`bound` 1000000). The result of `randint` is not negative here. -/
def reseed (g : CRand) (now : Nat) (s : g.S) (bound : Int) : g.S :=
  match randintG g now s 0 bound true with
  | (.ok v, _) => g.srand v.toNat
  | (.error _, s') => s'

/-- The constant `alphanum`, utils.cc:12-15. -/
def alphanum : Str := b!"ABCDEFGHIJKLMNOPQRSTUVWXYZabcdefghijklmnopqrstuvwxyz0123456789"

/-- `getRandomString(len)`, utils.cc:11-21. -/
def getRandomString (g : CRand) : Nat → g.S → Res Str × g.S
  | 0, s => (.ok [], s)
  | n + 1, s =>
    match Str.at alphanum ((g.rand s).1 % (alphanum.length - 1)) with
    | .error e => (.error e, (g.rand s).2)
    | .ok c =>
      match getRandomString g n (g.rand s).2 with
      | (.ok r, s') => (.ok (c :: r), s')
      | (.error e, s') => (.error e, s')

/-- `generateRandomAddresses`, ram.cc:180-184, for `n` addresses: every call of `randint` seeds the generator with the clock. -/
def Ram.randomAddresses (g : CRand) (now : Nat) (entrySize : Int) : Nat → g.S → Res (List Int) × g.S
  | 0, s => (.ok [], s)
  | n + 1, s =>
    match randintG g now s 0 (entrySize - 1) true with
    | (.error e, s') => (.error e, s')
    | (.ok a, s') =>
      match Ram.randomAddresses g now entrySize n s' with
      | (.ok as, s'') => (.ok (a :: as), s'')
      | (.error e, s'') => (.error e, s'')

/-- `RAM(addressSize, entrySize, ignoreZero, base)`, ram.cc:14-18. The clock is read once for each address; the model
assumes that all of them are made in one second. A negative `addressSize` is outside the model. -/
def Ram.createRandom (g : CRand) (now : Nat) (s : g.S) (addressSize : Nat) (entrySize : Int) (ignoreZero : Bool) (base : Int) :
    Res Ram × g.S :=
  match Ram.checkLimitAddressSize addressSize base with
  | .error e => (.error e, s)
  | .ok () =>
    match Ram.randomAddresses g now entrySize addressSize s with
    | (.ok as, s') => (.ok { addresses := as, ignoreZero := ignoreZero, base := base }, s')
    | (.error e, s') => (.error e, s')

namespace Discriminator

/-- The loop of `randint(0, entrySize-1, false)`, discriminator.cc:187-189, `n` values left. -/
def fillersG (g : CRand) (entrySize : Int) : Nat → g.S → Res (List Int) × g.S
  | 0, s => (.ok [], s)
  | n + 1, s =>
    match randintG g 0 s 0 (entrySize - 1) false with
    | (.error e, s') => (.error e, s')
    | (.ok v, s') =>
      match fillersG g entrySize n s' with
      | (.ok vs, s'') => (.ok (v :: vs), s'')
      | (.error e, s'') => (.error e, s'')

/-- `setRAMShuffle`, discriminator.cc:168-196, drawing from the generator; compare `setRAMShuffle`. -/
def setRAMShuffleG (g : CRand) (s : g.S) (entrySize addressSize : Int) (ignoreZero completeAddressing : Bool) (base : Int) :
    Res Discriminator × g.S :=
  match checkAddressSize entrySize addressSize with
  | .error e => (.error e, s)
  | .ok () =>
    match checkBase base with
    | .error e => (.error e, s)
    | .ok () =>
      let remain := entrySize.tmod addressSize
      let grow := completeAddressing && decide (remain > 0)
      let numberOfRAMS := if grow then entrySize.tdiv addressSize + 1 else entrySize.tdiv addressSize
      match (if grow then i32 (entrySize + (addressSize - remain)) else .ok entrySize) with
      | .error e => (.error e, s)
      | .ok indexesSize =>
        match fillersG g entrySize (indexesSize - entrySize).toNat s with
        | (.error e, s') => (.error e, s')
        | (.ok extra, s') =>
          match g.shuffle s' ((List.range entrySize.toNat).map Int.ofNat ++ extra) with
          | (indexes, s'') =>
            match ramsFrom indexes addressSize.toNat ignoreZero base numberOfRAMS.toNat 0 with
            | .ok rams => (.ok { entrySize := entrySize, count := 0, rams := rams }, s'')
            | .error e => (.error e, s'')

/-- `Discriminator(addressSize, entrySize, options)`, discriminator.cc:19-50, discriminatorwrapper.cc:5-43: seeds the generator
with a number drawn after seeding it with the clock; compare `create`. -/
def createG (g : CRand) (now : Nat) (s : g.S) (addressSize entrySize : Int) (o : Options) : Res Discriminator × g.S :=
  let s := reseed g now s 100000
  if o.mapping.length ≠ 0 then (setRAMByMapping o.mapping entrySize o.ignoreZero o.base, s)
  else if o.indexes.length ≠ 0 then (setRAMByIndex o.indexes entrySize addressSize o.ignoreZero o.base, s)
  else setRAMShuffleG g s entrySize addressSize o.ignoreZero o.completeAddressing o.base

/-- `json(huge, path)`, discriminator.cc:124-133, with the file name drawn by discriminator.cc:263; compare `json`. -/
def jsonG (g : CRand) (it : IterOrder) (fs : Fs) (s : g.S) (d : Discriminator) (huge : Bool) (path : Str) :
    Res (Fs × Json) × g.S :=
  if huge then
    match getRandomString g 10 s with
    | (.ok random, s') => (d.json it fs true path random, s')
    | (.error e, s') => (.error e, s')
  else (d.json it fs false path [], s)

end Discriminator

namespace Wisard

/-- `Wisard(addressSize, options)`, wisard.cc:5-44, wisardwrapper.cc:5-44. -/
def createG (g : CRand) (now : Nat) (s : g.S) (addressSize : Int) (opts : WisardOpts) : Wisard × g.S :=
  (create addressSize opts, reseed g now s 1000000)

/-- The right-hand sides of `makeDiscriminator`, wisard.cc:227, 231, 235: these constructors (discriminator.cc:52-62) do not
seed; compare `newDiscriminator`. -/
def newDiscriminatorG (g : CRand) (s : g.S) (addressSize : Int) (o : WisardOpts) (label : Str) (entrySize : Int) :
    Res Discriminator × g.S :=
  match o.mapping.find label with
  | some m => (Discriminator.setRAMByMapping m entrySize o.ignoreZero o.base, s)
  | none =>
    if o.indexes.length ≠ 0 then (Discriminator.setRAMByIndex o.indexes entrySize addressSize o.ignoreZero o.base, s)
    else Discriminator.setRAMShuffleG g s entrySize addressSize o.ignoreZero o.completeAddressing o.base

/-- `train<T>(image, label)`, wisard.cc:148-154, with `makeDiscriminator`, wisard.cc:223-237; compare `train1`. -/
def train1G (g : CRand) (lhsFirst : Bool) (s : g.S) (w : Wisard) (img : Image) (label : Str) : (Wisard × Res Unit) × g.S :=
  match w.discriminators.find label with
  | some _ => (w.trainKnown img label, s)
  | none =>
    match newDiscriminatorG g s w.addressSize w.opts label img.size with
    | (.ok d, s') => (({ w with discriminators := w.discriminators.set label d }).trainKnown img label, s')
    | (.error e, s') =>
      (if lhsFirst then ({ w with discriminators := w.discriminators.set label Discriminator.default }, .error e)
      else (w, .error e), s')

end Wisard

namespace Synthesizer

/-- Second loop of `makeCube`, synthesizers.cc:42-54; compare `cubeLoop`. -/
def cubeLoopG (g : CRand) (maxData : Int) : List Int → g.S → Res (List IMap) × g.S
  | [], s => (.ok [], s)
  | x :: xs, s =>
    match g.shuffle s ((List.range maxData.toNat).map Int.ofNat) with
    | (indexes, s') =>
      match fillLoop indexes 0 x [] with
      | .error e => (.error e, s')
      | .ok c =>
        match cubeLoopG g maxData xs s' with
        | (.ok cs, s'') => (.ok (c :: cs), s'')
        | (.error e, s'') => (.error e, s'')

/-- `Synthesizer(mentalImage)`, synthesizers.cc:5-8. -/
def createG (g : CRand) (now : Nat) (s : g.S) (mentalImage : List Int) : Res Synthesizer × g.S :=
  match cubeLoopG g (maxLoop mentalImage 0) mentalImage (reseed g now s 1000000) with
  | (.ok cube, s') => (.ok ⟨cube, maxLoop mentalImage 0⟩, s')
  | (.error e, s') => (.error e, s')

/-- `make()`, synthesizers.cc:10-23: `randint` seeds the generator with the clock. -/
def makeG (g : CRand) (now : Nat) (s : g.S) (t : Synthesizer) : Res (List Int) × g.S :=
  match randintG g now s 0 (t.maxData - 1) true with
  | (.error e, s') => (.error e, s')
  | (.ok index, s') => (.ok (t.cube.map (fun c => (c.find index).getD 0)), s')

end Synthesizer

namespace KernelCanvas

/-- `randdouble(min, max)`, utils.cc:7-9, on the value of `rand()`; `RAND_MAX` is 2^31 - 1 (glibc). -/
def randdouble (o : FOps) (r : Nat) (min max : o.F) : o.F :=
  o.add (o.mul (o.div (o.ofNat r) (o.ofNat 2147483647)) (o.sub max min)) min

/-- Inner loop of `setupKernelCanvas`, kernelcanvas.cc:71-73, `n` coordinates left. -/
def kernelG (g : CRand) (o : FOps) (min max : o.F) : Nat → g.S → List o.F × g.S
  | 0, s => ([], s)
  | n + 1, s =>
    let (ks, s') := kernelG g o min max n (g.rand s).2
    (randdouble o (g.rand s).1 min max :: ks, s')

/-- Loop of `setupKernelCanvas`, kernelcanvas.cc:69-74, `n` kernels of `dim` coordinates left. -/
def kernelsG (g : CRand) (o : FOps) (min max : o.F) (dim : Nat) : Nat → g.S → List (List o.F) × g.S
  | 0, s => ([], s)
  | n + 1, s =>
    let (k, s') := kernelG g o min max dim s
    let (ks, s'') := kernelsG g o min max dim n s'
    (k :: ks, s'')

/-- `KernelCanvas(dim, numberOfKernels, kwargs)`, kernelcanvaswrapper.cc:4-22, kernelcanvas.cc:56-75, which seeds the generator
with the clock; `min`, `max` are the doubles -1 and 1; compare `create`. -/
def createG (f : Flt) (o : FOps) (g : CRand) (now : Nat) (s : g.S) (min max : o.F) (dim numberOfKernels bitsByKernel : Int)
    (activationDegree : Rat) (useDirection : Bool) : Res (KernelCanvas o) × g.S :=
  match checkInputs numberOfKernels dim bitsByKernel activationDegree with
  | .error e => (.error e, s)
  | .ok () =>
    let s := g.srand now
    match i32 (roundHalfUp (f.rnd (activationDegree * f.rnd numberOfKernels))) with
    | .error e => (.error e, s)
    | .ok toActivate =>
      let amp : Res Int := if useDirection then (do
          let a ← i32 (2 * (dim - 1))
          i32 (dim + a)) else .ok 0
      match amp with
      | .error e => (.error e, s)
      | .ok amplifyDim =>
        match (if useDirection then i32 (amplifyDim * 3) else .ok dim) with
        | .error e => (.error e, s)
        | .ok currentDim =>
          let (ks, s') := kernelsG g o min max currentDim.toNat numberOfKernels.toNat s
          (.ok ⟨bitsByKernel, dim, useDirection, toActivate, amplifyDim, ks⟩, s')

end KernelCanvas
end Wis
