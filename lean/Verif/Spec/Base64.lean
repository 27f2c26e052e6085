import Verif.Model.Bytes
/-!
# Specification: base 64 text as in RFC 4648, section 4 (arithmetic form)
-/

namespace Wis.Spec

/-- Character of the 6 bit value `n`: `A-Z a-z 0-9 + /`. -/
def b64char (n : Nat) : Byte :=
  if n < 26 then BitVec.ofNat 8 (65 + n)
  else if n < 52 then BitVec.ofNat 8 (97 + (n - 26))
  else if n < 62 then BitVec.ofNat 8 (48 + (n - 52))
  else if n = 62 then 43#8 else 47#8

/-- RFC 4648 encoding: each 24 bit group as four 6 bit digits, a final group of 8 or 16 bits padded
with zero bits to a whole number of digits and with `=` to four characters. -/
def b64 : List Byte → List Byte
  | [] => []
  | [a] =>
    let n := a.toNat * 16
    [b64char (n / 64), b64char (n % 64), 61#8, 61#8]
  | [a, b] =>
    let n := (a.toNat * 256 + b.toNat) * 4
    [b64char (n / 4096), b64char (n / 64 % 64), b64char (n % 64), 61#8]
  | a :: b :: c :: rest =>
    let n := a.toNat * 65536 + b.toNat * 256 + c.toNat
    b64char (n / 262144) :: b64char (n / 4096 % 64) :: b64char (n / 64 % 64) :: b64char (n % 64) ::
      b64 rest

/-- The 64 characters of the alphabet and the padding character. -/
def IsB64Char (c : Byte) : Prop := c = 61#8 ∨ ∃ n, n < 64 ∧ c = b64char n

end Wis.Spec
