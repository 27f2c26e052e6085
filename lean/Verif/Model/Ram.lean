import Verif.Model.Image
/-!
# Model of `/repo/src/models/wisard/ram.cc`
-/

namespace Wis

/-- `addr_t`, definetypes.cc:1 -/
abbrev Addr := BitVec 64

/-- `ram_t = std::unordered_map<addr_t, content_t>`, definetypes.cc:5: an association list whose keys
are distinct (an invariant of every operation below). The order of the list is *not* the iteration
order of the container: wherever the code iterates, an arbitrary permutation is a parameter. -/
abbrev RamT := List (Addr × Int)

namespace RamT

/-- `m.find(k)` ram.cc:41, 126, 140. -/
def find (m : RamT) (k : Addr) : Option Int :=
  match m with
  | [] => none
  | (k', c) :: m => if k' = k then some c else find m k

/-- `m[k] = c`, `m.insert(...)` of a new key, or an update through an iterator. ram.cc:43, 128, 131. -/
def set (m : RamT) (k : Addr) (c : Int) : RamT :=
  match m with
  | [] => [(k, c)]
  | (k', c') :: m => if k' = k then (k, c) :: m else (k', c') :: set m k c

end RamT

/-- Iteration order of an `unordered_map`: any permutation of its entries.
Loops in ram.cc:55-68, ramdatahandle.cc:24, 28, 48. -/
structure IterOrder where
  ord : RamT → RamT
  perm : ∀ l, (ord l).Perm l

/-- The identity is one admissible order (so the type is inhabited). (See ram.cc:55-68.) -/
def IterOrder.id : IterOrder := ⟨fun l => l, fun l => List.Perm.refl l⟩

/-- `class RAM`, members ram.cc:151-154. -/
structure Ram where
  addresses : List Int
  positions : RamT := []
  ignoreZero : Bool
  base : Int
  deriving DecidableEq, Repr

namespace Ram

/-- `checkLimitAddressSize`, ram.cc:166-172: `limit` is 2^64-1; the `long long` power is converted to
`addr_t` for the comparison. -/
def checkLimitAddressSize (addressSize : Nat) (basein : Int) : Res Unit :=
  let limit : Addr := BitVec.ofInt 64 (-1)
  if basein = 2 then
    if addressSize > 64 then .error (.throw .limit64) else .ok ()
  else do
    let p ← ipow basein addressSize
    if BitVec.ofInt 64 p > limit then .error (.throw .limit64) else .ok ()

/-- `RAM(indexes, ignoreZero, base)`, ram.cc:19-21. -/
def create (indexes : List Int) (ignoreZero : Bool) (base : Int) : Res Ram := do
  checkLimitAddressSize indexes.length base
  .ok { addresses := indexes, positions := [], ignoreZero := ignoreZero, base := base }

/-- Loop of `getIndex`, ram.cc:114-119, with `checkPos` (ram.cc:174-178): only values `>= base` are
rejected. `bin*p` and `p *= base` are `unsigned long long` arithmetic. -/
def indexLoop (img : Image) (base : Int) : List Int → Addr → Addr → Res Addr
  | [], index, _ => .ok index
  | a :: as, index, p => do
    let bin ← img.read a
    if bin ≥ base then .error (.throw .valueTooBig)
    else indexLoop img base as (index + BitVec.ofInt 64 bin * p) (p * BitVec.ofInt 64 base)

/-- `getIndex`, ram.cc:110-121. -/
def getIndex (r : Ram) (img : Image) : Res Addr := indexLoop img r.base r.addresses 0 1

/-- `train`, ram.cc:123-133. -/
def train (r : Ram) (img : Image) : Ram × Res Unit :=
  match r.getIndex img with
  | .error e => (r, .error e)
  | .ok index =>
    match r.positions.find index with
    | none => ({ r with positions := r.positions.set index 1 }, .ok ())
    | some c =>
      match i32 (c + 1) with
      | .error e => (r, .error e)
      | .ok c' => ({ r with positions := r.positions.set index c' }, .ok ())

/-- `untrain`, ram.cc:39-45 (the code has it for `std::vector<int>` only). -/
def untrain (r : Ram) (img : Image) : Ram × Res Unit :=
  match r.getIndex img with
  | .error e => (r, .error e)
  | .ok index =>
    match r.positions.find index with
    | none => (r, .ok ())
    | some c =>
      match i32 (c - 1) with
      | .error e => (r, .error e)
      | .ok c' => ({ r with positions := r.positions.set index c' }, .ok ())

/-- `getVote`, ram.cc:135-147. -/
def getVote (r : Ram) (img : Image) : Res Int := do
  let index ← r.getIndex img
  if r.ignoreZero && decide (index = 0) then .ok 0
  else match r.positions.find index with
    | none => .ok 0
    | some c => .ok c

/-- Loop of `convertToBase`, ram.cc:159-162: `%` and `/` on `int` truncate; a zero base is UB, and so is
`INT_MIN / -1` (a negative base is only possible through hand-written JSON). -/
def baseDigits (base : Int) : Nat → Int → Res (List Int)
  | 0, _ => .ok []
  | n + 1, number =>
    if base = 0 then .error (.ub .divByZero)
    else if base = -1 ∧ number = -2147483648 then .error (.ub .overflow)
    else do
      let ds ← baseDigits base n (number.tdiv base)
      .ok (number.tmod base :: ds)

/-- `convertToBase(const int number)`, ram.cc:156-164: the 64 bit address is narrowed to `int` (two's
complement truncation) when passed. -/
def convertToBase (r : Ram) (address : Addr) : Res (List Int) :=
  baseDigits r.base r.addresses.length ((address.setWidth 32).toInt)

/-- Inner loop of `getMentalImage`, ram.cc:58-67, over the values `mentalPiece[i][1]`. -/
def addPiece (c : Int) : List Int → List Int → Res (List Int)
  | [], _ => .ok []
  | v :: vs, ds =>
    match ds with
    | [] => .error (.ub .outOfBounds)
    | d :: ds => do
      let new : Res Int := if d > 0 then i32 (v + c) else .ok v
      let v' ← new
      let vs' ← addPiece c vs ds
      .ok (v' :: vs')

/-- Outer loop of `getMentalImage`, ram.cc:55-68, over the entries in iteration order. -/
def mentalLoop (r : Ram) : RamT → List Int → Res (List Int)
  | [], vs => .ok vs
  | (k, c) :: es, vs =>
    if k = 0 then mentalLoop r es vs
    else do
      let ds ← r.convertToBase k
      let vs ← addPiece c vs ds
      mentalLoop r es vs

/-- `getMentalImage`, ram.cc:47-70: the pairs (`address`, value), for an iteration order `it` of
`positions`. -/
def getMentalImage (r : Ram) (it : IterOrder) : Res (List (Int × Int)) := do
  let vs ← r.mentalLoop (it.ord r.positions) (List.replicate r.addresses.length 0)
  .ok (r.addresses.zip vs)

/-- `getsizeof`, ram.cc:97-102, with `sizeof(RAM)` as a parameter. -/
def getsizeof (sizeofRAM : Int) (r : Ram) : Int :=
  sizeofRAM + r.addresses.length * 8 + r.positions.length * (8 + 4)

end Ram
end Wis
