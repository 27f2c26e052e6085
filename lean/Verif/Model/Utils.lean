import Verif.Model.Bytes
/-!
# Model of `/repo/src/common/utils.cc`
-/

namespace Wis

/-- `calculateNumberOfRams`, utils.cc:23-29. `int` division truncates; division by zero is UB.
`entrySize` comes from a `size()`, so the overflowing case `INT_MIN / -1` does not occur. -/
def calculateNumberOfRams (entrySize addressSize : Int) (completeAddressing : Bool) : Res Int :=
  if addressSize = 0 then .error (.ub .divByZero)
  else
    let numberOfRAMS := entrySize.tdiv addressSize
    let remain := entrySize.tmod addressSize
    if completeAddressing && decide (remain > 0) then .ok (numberOfRAMS + 1) else .ok numberOfRAMS

/-- Loop of `ipow`, utils.cc:33-40, on `long long`: every overflowing product is UB.
Only called with a container size as exponent, so `exp` is a natural number. -/
def ipowLoop (base result : Int) (exp : Nat) : Res Int := do
  let result ← if exp % 2 = 1 then i64 (result * base) else .ok result
  if h : exp / 2 = 0 then .ok result
  else
    let base ← i64 (base * base)
    ipowLoop base result (exp / 2)
termination_by exp
decreasing_by omega

/-- `ipow`, utils.cc:31-42. -/
def ipow (base : Int) (exp : Nat) : Res Int := ipowLoop base 1 exp

/-- `randint(min, max, isSeed)`, utils.cc:1-5, with the value of `std::rand()` (non-negative) as an
argument. `max - min + 1 = 0` is a remainder by zero (UB). -/
def randint (rand : Nat) (min max : Int) : Res Int :=
  if max - min + 1 = 0 then .error (.ub .divByZero)
  else .ok (min + (rand : Int).tmod (max - min + 1))

/-- The first `n` little-endian bytes of `v`. utils.cc:44-50 on the platform. -/
def leBytes : Nat → Nat → Str
  | 0, _ => []
  | n + 1, v => BitVec.ofNat 8 (v % 256) :: leBytes n (v / 256)

/-- The value of a little-endian byte string. utils.cc:52-58 on the platform. -/
def leNat : Str → Nat
  | [] => 0
  | b :: s => b.toNat + 256 * leNat s

/-- `convertToBytes<unsigned long long>`, utils.cc:44-50: `memcpy` of a little-endian 64 bit integer. -/
def bytesOfU64 (x : BitVec 64) : Str := leBytes 8 x.toNat

/-- `convertToBytes<int>`, utils.cc:44-50. -/
def bytesOfI32 (x : Int) : Str := leBytes 4 (BitVec.ofInt 32 x).toNat

/-- `convertToValue<unsigned long long>`, utils.cc:52-58: `memcpy` of 8 bytes, little-endian.
Fewer than 8 given bytes: UB. (The terminating NUL may legally be read as an eighth byte; the model
also calls that UB. The code only calls it with 8 byte strings.) -/
def u64OfBytes (s : Str) : Res (BitVec 64) :=
  if s.length < 8 then .error (.ub .outOfBounds) else .ok (BitVec.ofNat 64 (leNat (s.take 8)))

/-- `convertToValue<int>`, utils.cc:52-58, with the same remark. -/
def i32OfBytes (s : Str) : Res Int :=
  if s.length < 4 then .error (.ub .outOfBounds) else .ok (BitVec.ofNat 32 (leNat (s.take 4))).toInt

namespace Base64

/-- `Base64::charsMap`, utils.cc:139-142. -/
def charsMap : Str := b!"ABCDEFGHIJKLMNOPQRSTUVWXYZabcdefghijklmnopqrstuvwxyz0123456789+/"

/-- `Base64::indexMap[c]`, utils.cc:130-136, 144: position of `c` in `charsMap`; `operator[]` of
`std::unordered_map` yields (and stores) 0 for any other character. -/
def indexMap (c : Byte) : Byte :=
  match charsMap.findIdx? (· == c) with
  | some i => BitVec.ofNat 8 i
  | none => 0

/-- Integral promotion of a (signed) `char` to `int`. utils.cc:84-105, 117-121. -/
def promote (c : Byte) : BitVec 32 := c.signExtend 32

/-- `charsMap[index]` with a `char index`; the code only produces 0..63. utils.cc:85-106. -/
def lookup (index : Byte) : Res Byte :=
  if index.msb then .error (.ub .outOfBounds) else Str.at charsMap index.toNat

/-- `dataOut[k++] = c` for a string of `size` characters of which the first `out.length = k` have
been written; writing at or beyond `size` is UB. utils.cc:85-106, 117-121. -/
def put (size : Nat) (out : Str) (c : Byte) : Res Str :=
  if out.length < size then .ok (out ++ [c]) else .error (.ub .outOfBounds)

/-- Loop of `Base64::encode`, utils.cc:82-107. -/
def encLoop (d : Str) (size i : Nat) (out : Str) : Res Str :=
  if _h : i < d.length then do
    let a ← Str.at d i
    let index : Byte := (((promote a).sshiftRight 2) &&& 0x3f#32).setWidth 8
    let out ← put size out (← lookup index)
    let index : Byte := (((promote a) <<< 4) &&& 0x30#32).setWidth 8
    if d.length % 3 = 1 ∧ i + 3 > d.length then
      put size out (← lookup index)
    else do
      let b ← Str.at d (i + 1)
      let index : Byte := index ||| (((promote b).sshiftRight 4) &&& 0x0f#32).setWidth 8
      let out ← put size out (← lookup index)
      let index : Byte := (((promote b) <<< 2) &&& 0x3c#32).setWidth 8
      if d.length % 3 = 2 ∧ i + 3 > d.length then
        put size out (← lookup index)
      else do
        let c ← Str.at d (i + 2)
        let index : Byte := index ||| (((promote c).sshiftRight 6) &&& 0x03#32).setWidth 8
        let out ← put size out (← lookup index)
        let index : Byte := ((promote c) &&& 0x3f#32).setWidth 8
        let out ← put size out (← lookup index)
        encLoop d size (i + 3) out
  else .ok out
termination_by d.length - i

/-- `Base64::encode`, utils.cc:74-109. -/
def encode (d : Str) : Res Str := do
  let size := 4 * (d.length / 3) + (if d.length % 3 ≠ 0 then 4 else 0)
  let out ← encLoop d size 0 []
  .ok (out ++ List.replicate (size - out.length) c!"=")

/-- Loop of `Base64::decode`, utils.cc:116-122. The looked-up `char` values are 0..63, so their
promotion is non-negative. -/
def decLoop (d : Str) (size i : Nat) (out : Str) : Res Str :=
  if _h : i < d.length then do
    let c0 ← Str.at d i
    let c1 ← Str.at d (i + 1)
    let v0 := promote (indexMap c0)
    let v1 := promote (indexMap c1)
    let out ← put size out (((v0 <<< 2 &&& 0xfc#32) ||| (v1.sshiftRight 4 &&& 0x03#32)).setWidth 8)
    let c2 ← Str.at d (i + 2)
    if c2 = c!"=" then .ok out
    else do
      let v2 := promote (indexMap c2)
      let out ← put size out (((v1 <<< 4 &&& 0xf0#32) ||| (v2.sshiftRight 2 &&& 0x0f#32)).setWidth 8)
      let c3 ← Str.at d (i + 3)
      if c3 = c!"=" then .ok out
      else do
        let v3 := promote (indexMap c3)
        let out ← put size out (((v2 <<< 6 &&& 0xc0#32) ||| (v3 &&& 0x3f#32)).setWidth 8)
        decLoop d size (i + 4) out
  else .ok out
termination_by d.length - i

/-- `Base64::decode`, utils.cc:111-124. For fewer than two characters `dataIn[sizeIn-2]` is an
out-of-range index (UB). A negative `size` becomes a huge `size_t`: `std::length_error`. -/
def decode (d : Str) : Res Str := do
  if d.length < 2 then .error (.ub .outOfBounds)
  else
    let c2 ← Str.at d (d.length - 2)
    let c1 ← Str.at d (d.length - 1)
    let size : Int := 3 * ((d.length / 4 : Nat) : Int) -
      (if c2 = c!"=" then 2 else if c1 = c!"=" then 1 else 0)
    if size < 0 then .error (.throw .stdLengthError)
    else
      let out ← decLoop d size.toNat 0 []
      .ok (out ++ List.replicate (size.toNat - out.length) 0)

end Base64
end Wis
