import Verif.Model.BinInput
import Verif.Model.Files
/-!
# Model of `/repo/src/data/dataset.cc`
-/

namespace Wis

/-- `class DataSet`, members dataset.cc:72-73. `labels` is an `unordered_map<int,string>`; it is only
ever looked up by key, so its iteration order does not matter. Sizes are assumed below 2^31. -/
structure DataSet where
  data : List BinInput := []
  labels : List (Nat × Str) := []
  deriving DecidableEq, Repr

namespace DataSet

/-- lookup in `labels` dataset.cc:52. -/
def label? (d : DataSet) (i : Nat) : Option Str := (d.labels.find? (·.1 == i)).map (·.2)

/-- `labels[i] = l` dataset.cc:31, 39. -/
def setLabel (ls : List (Nat × Str)) (i : Nat) (l : Str) : List (Nat × Str) :=
  if ls.any (·.1 == i) then ls.map (fun e => if e.1 == i then (i, l) else e) else ls ++ [(i, l)]

/-- `add(input, label)`, dataset.cc:26-41 (the one-argument forms pass `""`). -/
def add (d : DataSet) (input : BinInput) (label : Str := []) : DataSet where
  data := d.data ++ [input]
  labels := if label.length > 0 then setLabel d.labels d.data.length label else d.labels

/-- `get(index)`, dataset.cc:43-49: unchecked vector access. -/
def get (d : DataSet) (index : Int) : Res BinInput :=
  if index < 0 then .error (.ub .outOfBounds)
  else match d.data[index.toNat]? with
    | some b => .ok b
    | none => .error (.ub .outOfBounds)

/-- `getLabel(index)`, dataset.cc:51-53, for indexes below 2^31: `unordered_map::at` throws `std::out_of_range`. -/
def getLabel (d : DataSet) (index : Nat) : Res Str :=
  match d.label? index with
  | some l => .ok l
  | none => .error (.throw .stdOutOfRange)

/-- `getLabel(index)`, dataset.cc:51-53, for every `index_size_t`: the keys of `labels` are of type `int`, so the index is
reduced to 32 bits; the upper half of them are negative keys, which are never used. -/
def getLabelAt (d : DataSet) (index : Nat) : Res Str :=
  if index % 4294967296 < 2147483648 then d.getLabel (index % 4294967296) else .error (.throw .stdOutOfRange)

/-- `size()`, dataset.cc:55-57. -/
def size (d : DataSet) : Nat := d.data.length

/-- Loop of `save`, dataset.cc:64-66, over the entries from index `i` on. `labels[i]` inserts an empty
label when there is none: the new label map is returned. -/
def saveLoop : List BinInput → Nat → List (Nat × Str) → Res (List (Nat × Str) × Str)
  | [], _, ls => .ok (ls, [])
  | b :: bs, i, ls => do
    let (ls, lab) :=
      match ls.find? (·.1 == i) with
      | some e => (ls, e.2)
      | none => (ls ++ [(i, [])], [])
    let l ← Base64.encode lab
    let d ← b.data
    let (ls', out) ← saveLoop bs (i + 1) ls
    .ok (ls', (if i ≠ 0 then b!"." else []) ++ l ++ b!"#" ++ d ++ out)

/-- `save(prefix)`, dataset.cc:59-69: changes the file system and the label map. -/
def save (d : DataSet) (fs : Fs) (pre : Str) : Res (DataSet × Fs) := do
  let filename := pre ++ datasetSufix
  let (ls, out) ← saveLoop d.data 0 d.labels
  .ok ({ d with labels := ls }, fs.append filename out)

/-- One record of the file, dataset.cc:17-20. `int sharp = npos` is `-1`, so without `#` both
`substr` calls return the whole record. -/
def parseRecord (input : Str) : Res (BinInput × Str) := do
  let (lab, bits) ←
    match Str.findFrom input c!"#" 0 with
    | some sharp => do
      let a ← Str.substr input 0 sharp
      let b ← Str.substr input (sharp + 1) (input.length - (sharp + 1))
      pure (a, b)
    | none => pure (input, input)
  let label ← Base64.decode lab
  let b ← BinInput.ofData bits
  .ok (b, label)

/-- Reading loop, dataset.cc:12-21, on the unread rest of the file. -/
def loadLoop (d : DataSet) (rest : Str) : Res DataSet :=
  match parseRecord (getline rest).1 with
  | .error e => .error e
  | .ok (b, label) =>
    match _h : (getline rest).2 with
    | none => .ok (d.add b label)
    | some r => loadLoop (d.add b label) r
termination_by rest.length
decreasing_by exact getline_rest_length _ _ _ (Prod.ext rfl _h)

/-- `DataSet(filename)`, dataset.cc:4-24. A file that cannot be opened gives an empty data set. -/
def load (fs : Fs) (filename : Str) : Res DataSet := do
  if ← endsWith filename datasetSufix then
    match fs filename with
    | some content => loadLoop {} content
    | none => .ok {}
  else .error (.throw .invalidExtension)

end DataSet
end Wis
