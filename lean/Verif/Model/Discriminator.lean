import Verif.Model.Ram
/-!
# Model of `/repo/src/models/wisard/discriminator.cc` (creation, training, classification, mental image)

The JSON part is in `Model/Json.lean` and `Model/DiscriminatorJson.lean`.
-/

namespace Wis

/-- `class Discriminator`, members discriminator.cc:367-369. The constructor `Discriminator(int)`
(discriminator.cc:5), which leaves `count` uninitialised, is only used by the Python wrapper, which sets
`count` immediately afterwards (discriminatorwrapper.cc:5-43); it is not modelled separately. -/
structure Discriminator where
  entrySize : Int
  count : Int
  rams : List Ram
  deriving DecidableEq, Repr

/-- Options of the constructor, discriminator.cc:23-36 (JSON) and discriminatorwrapper.cc:6-29 (Python
keyword arguments), with their defaults. -/
structure Options where
  ignoreZero : Bool := false
  completeAddressing : Bool := true
  indexes : List Int := []
  mapping : List (List Int) := []
  base : Int := 2
  deriving DecidableEq, Repr

/-- Randomness used when wiring: the values returned by `std::rand()` and the effect of
`std::random_shuffle`, which is only assumed to permute its argument. discriminator.cc:182-190. -/
structure Rnd where
  rand : Nat → Nat
  shuffle : List Int → List Int
  perm : ∀ l, (shuffle l).Perm l

/-- An inhabitant. (See discriminator.cc:182-190.) -/
def Rnd.id : Rnd := ⟨fun _ => 0, fun l => l, fun l => List.Perm.refl l⟩

/-- `std::vector<int> sub(v.begin()+a, v.begin()+b)`: UB if the range is not inside `v`. discriminator.cc:193, 208. -/
def subVector (v : List Int) (a b : Nat) : Res (List Int) :=
  if b ≤ v.length then .ok ((v.take b).drop a) else .error (.ub .outOfBounds)

namespace Discriminator

/-- `Discriminator()`, discriminator.cc:4. -/
def default : Discriminator := { entrySize := 0, count := 0, rams := [] }

/-- `checkEntrySize`, discriminator.cc:324-328. Image sizes are assumed below 2^31 (narrowing to `int`). -/
def checkEntrySize (d : Discriminator) (entry : Nat) : Res Unit :=
  if d.entrySize ≠ (entry : Int) then .error (.throw .entrySize) else .ok ()

/-- `checkBase`, discriminator.cc:330-334. -/
def checkBase (base : Int) : Res Unit :=
  if base < 2 then .error (.throw .baseTooSmall) else .ok ()

/-- `checkAddressSize`, discriminator.cc:336-346. -/
def checkAddressSize (entrySize addressSize : Int) : Res Unit :=
  if addressSize < 2 then .error (.throw .addrTooSmall)
  else if entrySize < 2 then .error (.throw .entryTooSmall)
  else if entrySize < addressSize then .error (.throw .addrTooBig)
  else .ok ()

/-- Loop of `checkListOfIndexes`, discriminator.cc:354-364; `values` is the set of indexes seen. -/
def checkIndexesLoop (entrySize : Int) : List Int → List Int → Res Unit
  | [], _ => .ok ()
  | i :: is, values =>
    if i ≥ entrySize then .error (.throw .idxRange)
    else if values.contains i then .error (.throw .idxRepeated)
    else checkIndexesLoop entrySize is (i :: values)

/-- `checkListOfIndexes`, discriminator.cc:348-365. -/
def checkListOfIndexes (indexes : List Int) (entrySize : Int) : Res Unit :=
  if (indexes.length : Int) ≠ entrySize then .error (.throw .idxSize)
  else checkIndexesLoop entrySize indexes []

/-- Loop creating RAM `i`, …, `i + n - 1` from consecutive blocks, discriminator.cc:192-195, 207-210. -/
def ramsFrom (indexes : List Int) (addressSize : Nat) (ignoreZero : Bool) (base : Int) :
    Nat → Nat → Res (List Ram)
  | 0, _ => .ok []
  | n + 1, i => do
    let subIndexes ← subVector indexes (i * addressSize) ((i + 1) * addressSize)
    let r ← Ram.create subIndexes ignoreZero base
    let rs ← ramsFrom indexes addressSize ignoreZero base n (i + 1)
    .ok (r :: rs)

/-- `randint(0, entrySize-1, false)` for the positions `i`, …, discriminator.cc:187-189. -/
def fillers (rnd : Rnd) (entrySize : Int) : Nat → Nat → Res (List Int)
  | 0, _ => .ok []
  | n + 1, i => do
    let v ← randint (rnd.rand i) 0 (entrySize - 1)
    let vs ← fillers rnd entrySize n (i + 1)
    .ok (v :: vs)

/-- `setRAMShuffle`, discriminator.cc:168-196 (of a fresh object: `rams.resize` yields default RAMs, all
of which are overwritten). `indexesSize` is an `int` sum (overflow is UB). -/
def setRAMShuffle (rnd : Rnd) (entrySize addressSize : Int) (ignoreZero completeAddressing : Bool)
    (base : Int) : Res Discriminator := do
  checkAddressSize entrySize addressSize
  checkBase base
  let remain := entrySize.tmod addressSize
  let grow := completeAddressing && decide (remain > 0)
  let numberOfRAMS := if grow then entrySize.tdiv addressSize + 1 else entrySize.tdiv addressSize
  let size : Res Int := if grow then i32 (entrySize + (addressSize - remain)) else .ok entrySize
  let indexesSize ← size
  let extra ← fillers rnd entrySize (indexesSize - entrySize).toNat 0
  let indexes := (List.range entrySize.toNat).map Int.ofNat ++ extra
  let indexes := rnd.shuffle indexes
  let rams ← ramsFrom indexes addressSize.toNat ignoreZero base numberOfRAMS.toNat 0
  .ok { entrySize := entrySize, count := 0, rams := rams }

/-- `setRAMByIndex`, discriminator.cc:198-211. -/
def setRAMByIndex (indexes : List Int) (entrySize addressSize : Int) (ignoreZero : Bool) (base : Int) :
    Res Discriminator := do
  checkAddressSize entrySize addressSize
  checkBase base
  checkListOfIndexes indexes entrySize
  let numberOfRAMS := entrySize.tdiv addressSize
  let rams ← ramsFrom indexes addressSize.toNat ignoreZero base numberOfRAMS.toNat 0
  .ok { entrySize := entrySize, count := 0, rams := rams }

/-- Loop of `setRAMByMapping`, discriminator.cc:219-221. -/
def ramsOfMapping (ignoreZero : Bool) (base : Int) : List (List Int) → Res (List Ram)
  | [] => .ok []
  | m :: ms => do
    let r ← Ram.create m ignoreZero base
    let rs ← ramsOfMapping ignoreZero base ms
    .ok (r :: rs)

/-- `setRAMByMapping`, discriminator.cc:213-222. -/
def setRAMByMapping (mapping : List (List Int)) (entrySize : Int) (ignoreZero : Bool) (base : Int) :
    Res Discriminator := do
  checkBase base
  let rams ← ramsOfMapping ignoreZero base mapping
  .ok { entrySize := entrySize, count := 0, rams := rams }

/-- `Discriminator(addressSize, entrySize, options)`, discriminator.cc:19-50; the same code for Python
keyword arguments is discriminatorwrapper.cc:5-43. -/
def create (rnd : Rnd) (addressSize entrySize : Int) (o : Options) : Res Discriminator :=
  if o.mapping.length ≠ 0 then setRAMByMapping o.mapping entrySize o.ignoreZero o.base
  else if o.indexes.length ≠ 0 then setRAMByIndex o.indexes entrySize addressSize o.ignoreZero o.base
  else setRAMShuffle rnd entrySize addressSize o.ignoreZero o.completeAddressing o.base

/-- Loop of `_classify`, discriminator.cc:287-289. -/
def votes (img : Image) : List Ram → Res (List Int)
  | [] => .ok []
  | r :: rs => do
    let v ← r.getVote img
    let vs ← votes img rs
    .ok (v :: vs)

/-- `classify`, discriminator.cc:64-70, 283-291. -/
def classify (d : Discriminator) (img : Image) : Res (List Int) := do
  d.checkEntrySize img.size
  votes img d.rams

/-- Loop over the RAMs of `train`, discriminator.cc:317-319: RAMs before a failing one keep their change. -/
def trainRams (img : Image) : List Ram → List Ram × Res Unit
  | [] => ([], .ok ())
  | r :: rs =>
    match r.train img with
    | (r', .ok ()) =>
      let (rs', res) := trainRams img rs
      (r' :: rs', res)
    | (r', .error e) => (r' :: rs, .error e)

/-- `train(image)`, discriminator.cc:72-78, 313-320. -/
def train (d : Discriminator) (img : Image) : Discriminator × Res Unit :=
  match d.checkEntrySize img.size with
  | .error e => (d, .error e)
  | .ok () =>
    match i32 (d.count + 1) with
    | .error e => (d, .error e)
    | .ok c =>
      let (rams, res) := trainRams img d.rams
      ({ d with count := c, rams := rams }, res)

/-- `train(images)`, discriminator.cc:80-84. -/
def trainAll (d : Discriminator) : List Image → Discriminator × Res Unit
  | [] => (d, .ok ())
  | img :: imgs =>
    match d.train img with
    | (d', .ok ()) => trainAll d' imgs
    | (d', .error e) => (d', .error e)

/-- Loop over the RAMs of `untrain`, discriminator.cc:89-91. -/
def untrainRams (img : Image) : List Ram → List Ram × Res Unit
  | [] => ([], .ok ())
  | r :: rs =>
    match r.untrain img with
    | (r', .ok ()) =>
      let (rs', res) := untrainRams img rs
      (r' :: rs', res)
    | (r', .error e) => (r' :: rs, .error e)

/-- `untrain(image)`, discriminator.cc:86-92. -/
def untrain (d : Discriminator) (img : Image) : Discriminator × Res Unit :=
  match d.checkEntrySize img.size with
  | .error e => (d, .error e)
  | .ok () =>
    match i32 (d.count - 1) with
    | .error e => (d, .error e)
    | .ok c =>
      let (rams, res) := untrainRams img d.rams
      ({ d with count := c, rams := rams }, res)

/-- `getNumberOfTrainings`, discriminator.cc:94-96. -/
def getNumberOfTrainings (d : Discriminator) : Int := d.count

/-- `getNumberOfRAMS`, discriminator.cc:98-100. -/
def getNumberOfRAMS (d : Discriminator) : Nat := d.rams.length

/-- `mentalImage[p[0]] += p[1]`, discriminator.cc:107-109. -/
def addPieces : List (Int × Int) → List Int → Res (List Int)
  | [], m => .ok m
  | (a, v) :: ps, m =>
    if a < 0 then .error (.ub .outOfBounds)
    else match m[a.toNat]? with
      | none => .error (.ub .outOfBounds)
      | some old => do
        let new ← i32 (old + v)
        addPieces ps (m.set a.toNat new)

/-- Loop of `getMentalImage`, discriminator.cc:105-110. -/
def mentalLoop (it : IterOrder) : List Ram → List Int → Res (List Int)
  | [], m => .ok m
  | r :: rs, m => do
    let piece ← r.getMentalImage it
    let m ← addPieces piece m
    mentalLoop it rs m

/-- `getMentalImage`, discriminator.cc:102-112 (a negative `entrySize` makes the vector constructor
throw `std::length_error`). -/
def getMentalImage (d : Discriminator) (it : IterOrder) : Res (List Int) :=
  if d.entrySize < 0 then .error (.throw .stdLengthError)
  else mentalLoop it d.rams (List.replicate d.entrySize.toNat 0)

/-- The wiring, as reported under `"mapping"` by `json()` and `jsonConfig()`: `setMapping`,
discriminator.cc:293-298, 301-302, and ram.cc:85-91. -/
def mapping (d : Discriminator) : List (List Int) := d.rams.map (·.addresses)

/-- `getsizeof`, discriminator.cc:155-161. -/
def getsizeof (sizeofDiscriminator sizeofRAM : Int) (d : Discriminator) : Int :=
  d.rams.foldl (fun s r => s + r.getsizeof sizeofRAM) sizeofDiscriminator

end Discriminator
end Wis
