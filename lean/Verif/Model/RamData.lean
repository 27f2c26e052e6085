import Verif.Model.Ram
import Verif.Model.Files
import Verif.Model.Utils
/-!
# Model of `/repo/src/models/wisard/ramdatahandle.cc`

Positions in the text are `int`/`unsigned int` in the code; texts of 2^31 bytes and more are outside the
model (`ub overflow`).
-/

namespace Wis

/-- `class RAMDataHandle`: `ramdata` is a `std::unordered_map<int, ram_t>`, an association list with distinct
keys. ramdatahandle.cc:1-184, member 69. -/
structure RamData where
  ramdata : List (Int × RamT) := []
  deriving DecidableEq, Repr

namespace RamData

/-- `m.find(k)` on `ramdata`. ramdatahandle.cc:25. -/
def find (m : List (Int × RamT)) (k : Int) : Option RamT :=
  match m with
  | [] => none
  | (k', v) :: m => if k' = k then some v else find m k

/-- `m[k] = v` on `ramdata`. ramdatahandle.cc:7, 19. -/
def put (m : List (Int × RamT)) (k : Int) (v : RamT) : List (Int × RamT) :=
  match m with
  | [] => [(k, v)]
  | (k', v') :: m => if k' = k then (k, v) :: m else (k', v') :: put m k v

/-- `RAMDataHandle(ram_t)`, ramdatahandle.cc:6-8. -/
def ofRam (data : RamT) : RamData := ⟨put [] 0 data⟩

/-- The blocks of `data(r)`, ramdatahandle.cc:46-52: per entry, in iteration order, 8 address and 4 content
bytes. (The code allocates a string of the final size and overwrites it block by block.) -/
def blocks : RamT → Str
  | [] => []
  | (a, c) :: m => bytesOfU64 a ++ bytesOfI32 c ++ blocks m

/-- Loop of `dataToRam`, ramdatahandle.cc:104-108: `k` more blocks. -/
def blockLoop : Nat → Str → RamT → Res RamT
  | 0, _, ramout => .ok ramout
  | k + 1, s, ramout => do
    let address ← u64OfBytes (s.take 8)
    let value ← i32OfBytes ((s.drop 8).take 4)
    blockLoop k (s.drop 12) (ramout.set address value)

/-- `dataToRam`, ramdatahandle.cc:98-110. -/
def dataToRam (inputdata : Str) : Res RamT := do
  let decoded ← Base64.decode inputdata
  if decoded.length % 12 ≠ 0 then .ok [] else blockLoop (decoded.length / 12) decoded []

/-- `ramdata[ramdata.size()] = dataToRam(...)`. ramdatahandle.cc:82, 92. -/
def push (m : List (Int × RamT)) (r : RamT) : List (Int × RamT) := put m (m.length : Int) r

/-- File loop of `setData`, ramdatahandle.cc:77-83, on the unread rest of the file. -/
def fileLoop (m : List (Int × RamT)) (rest : Str) : Res (List (Int × RamT)) :=
  match dataToRam (getline rest).1 with
  | .error e => .error e
  | .ok r =>
    match _h : (getline rest).2 with
    | none => .ok (push m r)
    | some rest' => fileLoop (push m r) rest'
termination_by rest.length
decreasing_by exact getline_rest_length _ _ _ (Prod.ext rfl _h)

/-- Text loop of `setData`, ramdatahandle.cc:88-94, from `pos`, on the rest of the text: the segment up to the
next `.` (or the end), then on after the dot. `find` returning `npos` ends the loop. -/
def textLoop (m : List (Int × RamT)) (rest : Str) : Res (List (Int × RamT)) :=
  match h : Str.findFrom rest c!"." 0 with
  | none =>
    match dataToRam rest with
    | .error e => .error e
    | .ok r => .ok (push m r)
  | some found =>
    match dataToRam (rest.take found) with
    | .error e => .error e
    | .ok r => textLoop (push m r) (rest.drop (found + 1))
termination_by rest.length
decreasing_by
  have : found < rest.length := by
    simp only [Str.findFrom, List.drop_zero] at h
    split at h
    · rename_i k hk
      simp only [Option.some.injEq, Nat.zero_add] at h
      have := List.findIdx?_eq_some_iff_findIdx_eq.mp hk
      omega
    · cases h
  simp only [List.length_drop]
  omega

/-- `RAMDataHandle(std::string)` = `setData`, ramdatahandle.cc:3-5, 71-96. A file that cannot be opened gives
an empty handle. -/
def ofText (fs : Fs) (inputdata : Str) : Res RamData :=
  match endsWith inputdata ramdataSufix with
  | .error e => .error e
  | .ok true =>
    match fs inputdata with
    | none => .ok ⟨[]⟩
    | some content =>
      match fileLoop [] content with
      | .error e => .error e
      | .ok m => .ok ⟨m⟩
  | .ok false =>
    if 2147483648 ≤ inputdata.length then .error (.ub .overflow)
    else
      match textLoop [] inputdata with
      | .error e => .error e
      | .ok m => .ok ⟨m⟩

/-- `ramdata[r]`: inserts an empty RAM if there is none. ramdatahandle.cc:11, 15, 19, 46, 48. -/
def touch (h : RamData) (r : Int) : RamData × RamT :=
  match find h.ramdata r with
  | some m => (h, m)
  | none => (⟨put h.ramdata r []⟩, [])

/-- `get(int r)`, ramdatahandle.cc:14-16. -/
def get (h : RamData) (r : Int) : RamData × RamT := h.touch r

/-- `get(int r, int addr)`, ramdatahandle.cc:10-12: `addr` is sign-extended to `addr_t`; both maps get new
entries if necessary. -/
def getAddr (h : RamData) (r addr : Int) : RamData × Int :=
  let (h, m) := h.touch r
  match m.find (BitVec.ofInt 64 addr) with
  | some v => (h, v)
  | none => (⟨put h.ramdata r (m.set (BitVec.ofInt 64 addr) 0)⟩, 0)

/-- `set(r, addr, value)`, ramdatahandle.cc:18-20. -/
def set (h : RamData) (r addr value : Int) : RamData :=
  let (h, m) := h.touch r
  ⟨put h.ramdata r (m.set (BitVec.ofInt 64 addr) value)⟩

/-- `compare(other)`, ramdatahandle.cc:22-34 (the iteration order does not matter for a conjunction). -/
def compare (h other : RamData) : Bool :=
  if h.ramdata.length ≠ other.ramdata.length then false
  else h.ramdata.all (fun e =>
    match find other.ramdata e.1 with
    | none => false
    | some o =>
      if e.2.length ≠ o.length then false
      else e.2.all (fun x =>
        match o.find x.1 with
        | none => false
        | some v => decide (x.2 = v)))

/-- `data(int r)`, ramdatahandle.cc:44-54. -/
def dataOf (it : IterOrder) (h : RamData) (r : Int) : RamData × Res Str :=
  let (h, m) := h.touch r
  (h, Base64.encode (blocks (it.ord m)))

/-- Loop of `data()`, ramdatahandle.cc:38-40 (and of `save`, 61-63): `i < ramdata.size()` is evaluated before
every round, and `data(i)` may insert. At most `fuel` rounds; `none` = not finished after that many. The counter `i`
is an `unsigned int` converted to `int`; rounds from 2^31 on are outside the model. -/
def dataLoop (it : IterOrder) : Nat → RamData → Nat → Str → RamData × Option (Res Str)
  | 0, h, i, out => if i < h.ramdata.length then (h, none) else (h, some (.ok out))
  | fuel + 1, h, i, out =>
    if i < h.ramdata.length then
      match h.dataOf it (i : Int) with
      | (h, .error e) => (h, some (.error e))
      | (h, .ok s) => dataLoop it fuel h (i + 1) (out ++ (if i ≠ 0 then b!"." else []) ++ s)
    else (h, some (.ok out))

/-- `data()` with a bound on the number of rounds. ramdatahandle.cc:36-42. -/
def data (it : IterOrder) (fuel : Nat) (h : RamData) : RamData × Option (Res Str) := dataLoop it fuel h 0 []

/-- `save(prefix)`, ramdatahandle.cc:56-66: the loop of `data()` (`dataLoop`), writing to the file opened for append
instead of to a string. Simplification: what a loop that does not end has already written is not modelled. -/
def save (it : IterOrder) (fuel : Nat) (fs : Fs) (h : RamData) (pre : Str) : RamData × Option (Res Fs) :=
  let filename := pre ++ ramdataSufix
  match dataLoop it fuel h 0 [] with
  | (h, none) => (h, none)
  | (h, some (.error e)) => (h, some (.error e))
  | (h, some (.ok out)) => (h, some (.ok (fs.append filename out)))

end RamData

/-- `getData`, ram.cc:80-83. -/
def Ram.getData (it : IterOrder) (r : Ram) : Res Str := ((RamData.ofRam r.positions).dataOf it 0).2

end Wis
