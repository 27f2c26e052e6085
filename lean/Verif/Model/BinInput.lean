import Verif.Model.Utils
/-!
# Model of `/repo/src/data/bininput.cc`
-/

namespace Wis

/-- `class BinInput`, members bininput.cc:54-55. `remain` is a signed `char`. -/
structure BinInput where
  remain : Byte
  input : Str
  deriving DecidableEq, Repr

namespace BinInput

/-- `size()`, bininput.cc:44-46: `size_t` arithmetic modulo 2^64 with the sign-extended `remain`. -/
def size (b : BinInput) : Nat :=
  (BitVec.ofNat 64 (b.input.length * 8) - b.remain.signExtend 64).toNat

/-- `setConfig(size)`, bininput.cc:57-60. -/
def ofSize (size : Nat) : BinInput where
  remain := if size % 8 = 0 then 0 else BitVec.ofNat 8 (8 - size % 8)
  input := List.replicate (size / 8 + (if size % 8 = 0 then 0 else 1)) 0

/-- `get(index)` and `operator[]`, bininput.cc:22-33. Simplification: the narrowing
`int section = index/8` is not modelled (it needs more than 2^34 bits). -/
def get (b : BinInput) (index : Nat) : Res Int :=
  if index ≥ b.size then .error (.throw .indexOutOfRange)
  else do
    let c ← Str.at b.input (index / 8)
    .ok (((Base64.promote c).sshiftRight (7 - index % 8) &&& 0x01#32).toNat : Int)

/-- The new byte written by `set`, bininput.cc:41: `(c & ~(1 << s)) | (value << s)` in `int`,
truncated to `char`. -/
def setByte (c : Byte) (s : Nat) (value : Int) : Byte :=
  ((Base64.promote c &&& ~~~(0x01#32 <<< s)) ||| (BitVec.ofInt 32 value <<< s)).setWidth 8

/-- `set(index, value)`, bininput.cc:35-42: the new state is returned also on failure. -/
def set (b : BinInput) (index : Nat) (value : Int) : BinInput × Res Unit :=
  if index ≥ b.size then (b, .error (.throw .indexOutOfRange))
  else
    if h : index / 8 < b.input.length then
      ({ b with input := b.input.set (index / 8) (setByte b.input[index / 8] (7 - index % 8) value) }, .ok ())
    else (b, .error (.ub .outOfBounds))

/-- Loop of `BinInput(const std::vector<short>&)`, bininput.cc:10-12. -/
def fill (b : BinInput) (i : Nat) : List Int → Res BinInput
  | [] => .ok b
  | v :: vs =>
    match b.set i v with
    | (b', .ok ()) => fill b' (i + 1) vs
    | (_, .error e) => .error e

/-- `BinInput(const std::vector<short>&)`, bininput.cc:8-13. -/
def ofList (v : List Int) : Res BinInput := fill (ofSize v.length) 0 v

/-- `data()`, bininput.cc:48-51. -/
def data (b : BinInput) : Res Str := Base64.encode (b.remain :: b.input)

/-- `BinInput(const std::string&)`, bininput.cc:15-20. `convertToValue<char>` of an empty string
reads its terminating NUL; `substr(1, ...)` of an empty string throws. -/
def ofData (s : Str) : Res BinInput := do
  let d ← Base64.decode s
  let first ← Str.substr d 0 1
  let remain ← Str.at first 0
  let input ← Str.substr d 1 (d.length - 1)
  .ok { remain := remain, input := input }

end BinInput
end Wis
