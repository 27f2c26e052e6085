import Verif.Model.JsonText
import Verif.Model.Ieee
/-!
# Decimal text of `double`s: model of `dtoa_impl` of `/repo/src/libs/json.hpp` and of `strtod`

`to_chars` (Grisu2, json.hpp:7162-8221) is modelled function by function on natural numbers, with the wrap-around of
`uint64_t` written as `u64`. `none` means that an `assert` fails, that the table is read outside its bounds, or that a
loop does not end after the number of rounds stated. The buffer is the list of its digits, from which the characters are
made by `formatBuffer`. `std::strtod` is the C library's: it is taken to be correctly rounded (IEEE 754, as glibc is), in
the "C" locale; the sign of zero is not modelled.
-/

namespace Wis.Grisu

/-- `uint64_t` arithmetic (the type of `f`, json.hpp:7179). -/
def u64 (n : Nat) : Nat := n % 18446744073709551616

/-- `n - 1` in `uint64_t`, json.hpp:7994. -/
def u64Pred (n : Nat) : Nat := (n + 18446744073709551615) % 18446744073709551616

/-- `assert(p)`, throughout json.hpp:7189-8220. -/
def need {α : Type} (p : Prop) [Decidable p] (k : Option α) : Option α := if p then k else none

/-- `diyfp`, json.hpp:7175-7183: the number `f * 2^e`. -/
structure DiyFp where
  f : Nat
  e : Int
  deriving DecidableEq, Repr

/-- `diyfp::sub`, json.hpp:7189-7195. -/
def sub (x y : DiyFp) : Option DiyFp := need (x.e = y.e) <| need (x.f ≥ y.f) <| some ⟨x.f - y.f, x.e⟩

/-- `diyfp::mul`, json.hpp:7201-7260. -/
def mul (x y : DiyFp) : DiyFp :=
  let u_lo := x.f % 4294967296
  let u_hi := x.f / 4294967296
  let v_lo := y.f % 4294967296
  let v_hi := y.f / 4294967296
  let p0 := u64 (u_lo * v_lo)
  let p1 := u64 (u_lo * v_hi)
  let p2 := u64 (u_hi * v_lo)
  let p3 := u64 (u_hi * v_hi)
  let p0_hi := p0 / 4294967296
  let p1_lo := p1 % 4294967296
  let p1_hi := p1 / 4294967296
  let p2_lo := p2 % 4294967296
  let p2_hi := p2 / 4294967296
  let q := u64 (u64 (p0_hi + p1_lo + p2_lo) + 2147483648)
  ⟨u64 (p3 + p2_hi + p1_hi + q / 4294967296), x.e + y.e + 64⟩

/-- The loop of `normalize`, json.hpp:7270-7274, at most so many rounds. -/
def normLoop : Nat → DiyFp → Option DiyFp
  | 0, _ => none
  | n + 1, x => if x.f / 9223372036854775808 = 0 then normLoop n ⟨u64 (x.f * 2), x.e - 1⟩ else some x

/-- `diyfp::normalize`, json.hpp:7266-7277 (64 rounds are always enough: see `C148`). -/
def normalize (x : DiyFp) : Option DiyFp := need (x.f ≠ 0) <| normLoop 64 x

/-- `diyfp::normalize_to`, json.hpp:7283-7291. -/
def normalizeTo (x : DiyFp) (targetExponent : Int) : Option DiyFp :=
  let delta := x.e - targetExponent
  need (delta ≥ 0) <| need (u64 (x.f * 2 ^ delta.toNat) / 2 ^ delta.toNat = x.f) <|
    some ⟨u64 (x.f * 2 ^ delta.toNat), targetExponent⟩

/-- The exponent and fraction fields of the representation of a positive finite `double`, json.hpp:7330-7332. -/
def fields (q : Rat) : Nat × Nat :=
  let e := Ieee.lastPlace Ieee.double q
  let f := ⌊q / (2 : Rat) ^ e⌋.toNat
  if f < 4503599627370496 then (0, f) else ((e + 1075).toNat, f - 4503599627370496)

/-- `boundaries`, json.hpp:7294-7299. -/
structure Boundaries where
  w : DiyFp
  minus : DiyFp
  plus : DiyFp
  deriving DecidableEq, Repr

/-- `compute_boundaries`, json.hpp:7334-7372, from the fields of the number on. -/
def boundariesOf (E F : Nat) : Option Boundaries := do
  let v : DiyFp := if E = 0 then ⟨F, -1074⟩ else ⟨F + 4503599627370496, (E : Int) - 1075⟩
  let plus : DiyFp := ⟨2 * v.f + 1, v.e - 1⟩
  let minus : DiyFp := if F = 0 ∧ E > 1 then ⟨4 * v.f - 1, v.e - 2⟩ else ⟨2 * v.f - 1, v.e - 1⟩
  let wPlus ← normalize plus
  let wMinus ← normalizeTo minus wPlus.e
  let w ← normalize v
  some ⟨w, wMinus, wPlus⟩

/-- `compute_boundaries`, json.hpp:7307-7373. -/
def computeBoundaries (q : Rat) : Option Boundaries := need (0 < q) <| boundariesOf (fields q).1 (fields q).2

/-- `kCachedPowers`, json.hpp:7503-7584. -/
def cachedPowers : List (Nat × Int × Int) := [
  (0xAB70FE17C79AC6CA, -1060, -300),
  (0xFF77B1FCBEBCDC4F, -1034, -292),
  (0xBE5691EF416BD60C, -1007, -284),
  (0x8DD01FAD907FFC3C, -980, -276),
  (0xD3515C2831559A83, -954, -268),
  (0x9D71AC8FADA6C9B5, -927, -260),
  (0xEA9C227723EE8BCB, -901, -252),
  (0xAECC49914078536D, -874, -244),
  (0x823C12795DB6CE57, -847, -236),
  (0xC21094364DFB5637, -821, -228),
  (0x9096EA6F3848984F, -794, -220),
  (0xD77485CB25823AC7, -768, -212),
  (0xA086CFCD97BF97F4, -741, -204),
  (0xEF340A98172AACE5, -715, -196),
  (0xB23867FB2A35B28E, -688, -188),
  (0x84C8D4DFD2C63F3B, -661, -180),
  (0xC5DD44271AD3CDBA, -635, -172),
  (0x936B9FCEBB25C996, -608, -164),
  (0xDBAC6C247D62A584, -582, -156),
  (0xA3AB66580D5FDAF6, -555, -148),
  (0xF3E2F893DEC3F126, -529, -140),
  (0xB5B5ADA8AAFF80B8, -502, -132),
  (0x87625F056C7C4A8B, -475, -124),
  (0xC9BCFF6034C13053, -449, -116),
  (0x964E858C91BA2655, -422, -108),
  (0xDFF9772470297EBD, -396, -100),
  (0xA6DFBD9FB8E5B88F, -369, -92),
  (0xF8A95FCF88747D94, -343, -84),
  (0xB94470938FA89BCF, -316, -76),
  (0x8A08F0F8BF0F156B, -289, -68),
  (0xCDB02555653131B6, -263, -60),
  (0x993FE2C6D07B7FAC, -236, -52),
  (0xE45C10C42A2B3B06, -210, -44),
  (0xAA242499697392D3, -183, -36),
  (0xFD87B5F28300CA0E, -157, -28),
  (0xBCE5086492111AEB, -130, -20),
  (0x8CBCCC096F5088CC, -103, -12),
  (0xD1B71758E219652C, -77, -4),
  (0x9C40000000000000, -50, 4),
  (0xE8D4A51000000000, -24, 12),
  (0xAD78EBC5AC620000, 3, 20),
  (0x813F3978F8940984, 30, 28),
  (0xC097CE7BC90715B3, 56, 36),
  (0x8F7E32CE7BEA5C70, 83, 44),
  (0xD5D238A4ABE98068, 109, 52),
  (0x9F4F2726179A2245, 136, 60),
  (0xED63A231D4C4FB27, 162, 68),
  (0xB0DE65388CC8ADA8, 189, 76),
  (0x83C7088E1AAB65DB, 216, 84),
  (0xC45D1DF942711D9A, 242, 92),
  (0x924D692CA61BE758, 269, 100),
  (0xDA01EE641A708DEA, 295, 108),
  (0xA26DA3999AEF774A, 322, 116),
  (0xF209787BB47D6B85, 348, 124),
  (0xB454E4A179DD1877, 375, 132),
  (0x865B86925B9BC5C2, 402, 140),
  (0xC83553C5C8965D3D, 428, 148),
  (0x952AB45CFA97A0B3, 455, 156),
  (0xDE469FBD99A05FE3, 481, 164),
  (0xA59BC234DB398C25, 508, 172),
  (0xF6C69A72A3989F5C, 534, 180),
  (0xB7DCBF5354E9BECE, 561, 188),
  (0x88FCF317F22241E2, 588, 196),
  (0xCC20CE9BD35C78A5, 614, 204),
  (0x98165AF37B2153DF, 641, 212),
  (0xE2A0B5DC971F303A, 667, 220),
  (0xA8D9D1535CE3B396, 694, 228),
  (0xFB9B7CD9A4A7443C, 720, 236),
  (0xBB764C4CA7A44410, 747, 244),
  (0x8BAB8EEFB6409C1A, 774, 252),
  (0xD01FEF10A657842C, 800, 260),
  (0x9B10A4E5E9913129, 827, 268),
  (0xE7109BFBA19C0C9D, 853, 276),
  (0xAC2820D9623BF429, 880, 284),
  (0x80444B5E7AA7CF85, 907, 292),
  (0xBF21E44003ACDD2D, 933, 300),
  (0x8E679C2F5E44FF8F, 960, 308),
  (0xD433179D9C8CB841, 986, 316),
  (0x9E19DB92B4E31BA9, 1013, 324)]

/-- `get_cached_power_for_binary_exponent`, json.hpp:7447-7605: a number `f * 2^e` near `10^k`. -/
def cachedPower (e : Int) : Option (Nat × Int × Int) :=
  need (-1500 ≤ e) <| need (e ≤ 1500) <|
  let f := -60 - e - 1
  let k := (f * 78913).tdiv 262144 + (if f > 0 then 1 else 0)
  let index := (300 + k + 7).tdiv 8
  need (0 ≤ index) <|
  match cachedPowers[index.toNat]? with
  | none => none
  | some c => need (-60 ≤ c.2.1 + e + 64) <| need (c.2.1 + e + 64 ≤ -32) <| some c

/-- `find_largest_pow10`, json.hpp:7611-7665: the number of digits and the power. -/
def findLargestPow10 (n : Nat) : Nat × Nat :=
  if n ≥ 1000000000 then (10, 1000000000)
  else if n ≥ 100000000 then (9, 100000000)
  else if n ≥ 10000000 then (8, 10000000)
  else if n ≥ 1000000 then (7, 1000000)
  else if n ≥ 100000 then (6, 100000)
  else if n ≥ 10000 then (5, 10000)
  else if n ≥ 1000 then (4, 1000)
  else if n ≥ 100 then (3, 100)
  else if n ≥ 10 then (2, 10)
  else (1, 1)

/-- The loop of `grisu2_round`, json.hpp:7694-7701, on the last digit of the buffer. -/
def roundLoop (dist delta tenK : Nat) : Nat → Nat → Option Nat
  | 0, rest =>
    if rest < dist ∧ delta - rest ≥ tenK ∧ (u64 (rest + tenK) < dist ∨ dist - rest > u64 (rest + tenK) - dist) then none else some 0
  | d + 1, rest =>
    if rest < dist ∧ delta - rest ≥ tenK ∧ (u64 (rest + tenK) < dist ∨ dist - rest > u64 (rest + tenK) - dist) then
      roundLoop dist delta tenK d (u64 (rest + tenK))
    else some (d + 1)

/-- `grisu2_round`, json.hpp:7667-7702. -/
def round (buf : List Nat) (dist delta rest tenK : Nat) : Option (List Nat) :=
  need (buf.length ≥ 1) <| need (dist ≤ delta) <| need (rest ≤ delta) <| need (tenK > 0) <|
    (roundLoop dist delta tenK (buf.getLastD 0) rest).map fun d => buf.dropLast ++ [d]

/-- The loop over the integral part, json.hpp:7772-7830: the digits and `n` if it ends the function, otherwise only the digits. -/
def loop1 (sh p2 delta dist : Nat) : Nat → Nat → Nat → List Nat → Option ((List Nat × Nat) ⊕ List Nat)
  | 0, _, _, buf => some (.inr buf)
  | n + 1, pow10, p1, buf =>
    need (pow10 ≠ 0) <| need (p1 / pow10 ≤ 9) <|
    let buf := buf ++ [p1 / pow10]
    let rest := u64 (u64 ((p1 % pow10) * 2 ^ sh) + p2)
    if rest ≤ delta then (round buf dist delta rest (u64 (pow10 * 2 ^ sh))).map fun b => .inl (b, n)
    else loop1 sh p2 delta dist n (pow10 / 10) (p1 % pow10) buf

/-- The loop over the fractional part and the final rounding, json.hpp:7873-7926, at most so many rounds: the digits and `m`. -/
def loop2 (sh : Nat) : Nat → Nat → Nat → Nat → Nat → List Nat → Option (List Nat × Nat)
  | 0, _, _, _, _, _ => none
  | fuel + 1, p2, delta, dist, m, buf =>
    need (p2 ≤ 1844674407370955161) <|
    let p2 := u64 (p2 * 10)
    need (p2 / 2 ^ sh ≤ 9) <|
    let buf := buf ++ [p2 / 2 ^ sh]
    let p2 := p2 % 2 ^ sh
    let delta := u64 (delta * 10)
    let dist := u64 (dist * 10)
    if p2 ≤ delta then (round buf dist delta p2 (2 ^ sh)).map fun b => (b, m + 1)
    else loop2 sh fuel p2 delta dist (m + 1) buf

/-- `grisu2_digit_gen`, json.hpp:7708-7941: the digits and the decimal exponent (20 rounds of the second loop are always
enough). -/
def digitGen (decimalExponent : Int) (mMinus w mPlus : DiyFp) : Option (List Nat × Int) := do
  let delta ← sub mPlus mMinus
  let dist ← sub mPlus w
  need (-60 ≤ mPlus.e) <| need (mPlus.e ≤ -32) <| do
    let sh := (-mPlus.e).toNat
    let p1 := mPlus.f / 2 ^ sh % 4294967296
    let p2 := mPlus.f % 2 ^ sh
    need (p1 > 0) <| do
      let (k, pow10) := findLargestPow10 p1
      let r ← loop1 sh p2 delta.f dist.f k pow10 p1 []
      match r with
      | .inl (buf, n) => some (buf, decimalExponent + n)
      | .inr buf =>
        need (p2 > delta.f) <| do
          let (buf, m) ← loop2 sh 20 p2 delta.f dist.f 0 buf
          some (buf, decimalExponent - m)

/-- `grisu2`, json.hpp:7965-7998: scaling by the power of ten and the digits. -/
def scaled (b : Boundaries) (cached : Nat × Int × Int) : Option (List Nat × Int) :=
  let c : DiyFp := ⟨cached.1, cached.2.1⟩
  let w := mul b.w c
  let wMinus := mul b.minus c
  let wPlus := mul b.plus c
  digitGen (-cached.2.2) ⟨u64 (wMinus.f + 1), wMinus.e⟩ w ⟨u64Pred wPlus.f, wPlus.e⟩

/-- `grisu2`, json.hpp:7948-7999. -/
def grisu2 (b : Boundaries) : Option (List Nat × Int) :=
  need (b.plus.e = b.minus.e) <| need (b.plus.e = b.w.e) <| (cachedPower b.plus.e).bind (scaled b)

/-- `'0' + d`, json.hpp:7785 and 7892. -/
def digitChar (d : Nat) : Byte := BitVec.ofNat 8 (0x30 + d)

/-- `append_exponent`, json.hpp:8045-8084. -/
def appendExponent (e : Int) : Option Str :=
  need (-1000 < e) <| need (e < 1000) <|
  let k := e.natAbs
  some ((if e < 0 then b!"-" else b!"+") ++
    (if k < 10 then [c!"0", digitChar k]
    else if k < 100 then [digitChar (k / 10), digitChar (k % 10)]
    else [digitChar (k / 100), digitChar (k % 100 / 10), digitChar (k % 100 % 10)]))

/-- `format_buffer(buf, len, decimal_exponent, -4, 15)`, json.hpp:8095-8163. -/
def formatBuffer (buf : Str) (decimalExponent : Int) : Option Str :=
  let n : Int := buf.length + decimalExponent
  if (buf.length : Int) ≤ n ∧ n ≤ 15 then some (buf ++ List.replicate (n - buf.length).toNat c!"0" ++ b!".0")
  else if 0 < n ∧ n ≤ 15 then some (buf.take n.toNat ++ b!"." ++ buf.drop n.toNat)
  else if -4 < n ∧ n ≤ 0 then some (b!"0." ++ List.replicate (-n).toNat c!"0" ++ buf)
  else if buf.length = 1 then (appendExponent (n - 1)).map fun x => buf ++ b!"e" ++ x
  else (appendExponent (n - 1)).map fun x => buf.take 1 ++ b!"." ++ buf.drop 1 ++ b!"e" ++ x

/-- `to_chars` of a positive number, json.hpp:8006-8038 and 8205-8220. -/
def positiveChars (q : Rat) : Option Str := do
  let b ← computeBoundaries q
  let r ← grisu2 b
  need (r.1.length ≤ 17) <| formatBuffer (r.1.map digitChar) r.2

/-- `to_chars`, json.hpp:8177-8221, of a finite `double` (negative zero is written `-0.0`: not modelled). -/
def toChars (q : Rat) : Option Str :=
  if q < 0 then (positiveChars (-q)).map fun t => b!"-" ++ t
  else if q = 0 then some b!"0.0"
  else positiveChars q

/-- Of `strtod` (called in json.hpp:2480-2488): the digits at the beginning of a text, and what follows. -/
def digitsOf (s : Str) : Str × Str := s.span fun b => decide (0x30 ≤ b.toNat ∧ b.toNat ≤ 0x39)

/-- Of `strtod` (json.hpp:2480-2488): the fraction digits of a number text after its integral part, and what follows. -/
def fracOf : Str → Str × Str
  | [] => ([], [])
  | c :: s => if c = c!"." then digitsOf s else ([], c :: s)

/-- Of `strtod` (json.hpp:2480-2488): the exponent of a number text after its fraction. -/
def expOf : Str → Int
  | [] => 0
  | c :: s =>
    if c = c!"e" ∨ c = c!"E" then
      match s with
      | [] => 0
      | d :: s' =>
        if d = c!"-" then -(JsonText.digitsVal (digitsOf s').1 : Int)
        else if d = c!"+" then JsonText.digitsVal (digitsOf s').1
        else JsonText.digitsVal (digitsOf (d :: s')).1
    else 0

/-- Of `strtod` (json.hpp:2480-2488): the number a text without sign denotes in decimal notation. -/
def unsignedValue (s : Str) : Rat :=
  let (int, s) := digitsOf s
  let (frac, s) := fracOf s
  (JsonText.digitsVal (int ++ frac) : Rat) * (10 : Rat) ^ (expOf s - frac.length)

/-- Of `strtod` (json.hpp:2480-2488): the number a text denotes in decimal notation. -/
def textValue : Str → Rat
  | [] => 0
  | c :: s => if c = c!"-" then -unsignedValue s else unsignedValue (c :: s)

/-- `std::strtod` (json.hpp:2480-2488): the nearest `double`; `none` for an infinite result. -/
def strtod (s : Str) : Option Rat :=
  let r := Ieee.rnd Ieee.double (textValue s)
  if |r| < 2 ^ 1024 then some r else none

end Wis.Grisu

namespace Wis

/-- The conversions of the library, json.hpp:8710-8716 and 2480-2488. -/
def FloatText.std : FloatText := ⟨fun q => (Grisu.toChars q).getD [], Grisu.strtod⟩

end Wis
