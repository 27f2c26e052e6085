import Verif.Model.Json
/-!
# JSON text: model of `dump` and `parse` of `/repo/src/libs/json.hpp` (nlohmann::json 3.1.2)

`dump()` as the library calls it: no indentation, `ensure_ascii = false`. `parse(text)`: no callback, exceptions on.
The "C" locale is assumed (decimal point `.`). The nesting depth of a text (recursion of the parser, stack) is not
limited in the model. Only the conversion between a finite `double` and its decimal text (Grisu2 / `strtod`) is a
parameter, `FloatText`.
-/

namespace Wis

/-- Conversion of floating point numbers: `write` is `to_chars` (dump_float, json.hpp:8689-8716), `read` is
`std::strtod` (json.hpp:2480-2488) on a number token, `none` for an infinite result. -/
structure FloatText where
  write : Rat → Str
  read : Str → Option Rat

namespace JsonText

/-! ## Writing -/

/-- The table of the UTF-8 automaton, json.hpp:8790-8810: classes of bytes, then transitions. -/
def utf8d : List Nat := [
  0, 0, 0, 0, 0, 0, 0, 0, 0, 0, 0, 0, 0, 0, 0, 0, 0, 0, 0, 0, 0, 0, 0, 0, 0, 0, 0, 0, 0, 0, 0, 0,
  0, 0, 0, 0, 0, 0, 0, 0, 0, 0, 0, 0, 0, 0, 0, 0, 0, 0, 0, 0, 0, 0, 0, 0, 0, 0, 0, 0, 0, 0, 0, 0,
  0, 0, 0, 0, 0, 0, 0, 0, 0, 0, 0, 0, 0, 0, 0, 0, 0, 0, 0, 0, 0, 0, 0, 0, 0, 0, 0, 0, 0, 0, 0, 0,
  0, 0, 0, 0, 0, 0, 0, 0, 0, 0, 0, 0, 0, 0, 0, 0, 0, 0, 0, 0, 0, 0, 0, 0, 0, 0, 0, 0, 0, 0, 0, 0,
  1, 1, 1, 1, 1, 1, 1, 1, 1, 1, 1, 1, 1, 1, 1, 1, 9, 9, 9, 9, 9, 9, 9, 9, 9, 9, 9, 9, 9, 9, 9, 9,
  7, 7, 7, 7, 7, 7, 7, 7, 7, 7, 7, 7, 7, 7, 7, 7, 7, 7, 7, 7, 7, 7, 7, 7, 7, 7, 7, 7, 7, 7, 7, 7,
  8, 8, 2, 2, 2, 2, 2, 2, 2, 2, 2, 2, 2, 2, 2, 2, 2, 2, 2, 2, 2, 2, 2, 2, 2, 2, 2, 2, 2, 2, 2, 2,
  10, 3, 3, 3, 3, 3, 3, 3, 3, 3, 3, 3, 3, 4, 3, 3,
  11, 6, 6, 6, 5, 8, 8, 8, 8, 8, 8, 8, 8, 8, 8, 8,
  0, 1, 2, 3, 5, 8, 7, 1, 1, 1, 4, 6, 1, 1, 1, 1,
  1, 1, 1, 1, 1, 1, 1, 1, 1, 1, 1, 1, 1, 1, 1, 1, 1, 0, 1, 1, 1, 1, 1, 0, 1, 0, 1, 1, 1, 1, 1, 1,
  1, 2, 1, 1, 1, 1, 1, 2, 1, 2, 1, 1, 1, 1, 1, 1, 1, 1, 1, 1, 1, 1, 1, 2, 1, 1, 1, 1, 1, 1, 1, 1,
  1, 2, 1, 1, 1, 1, 1, 1, 1, 2, 1, 1, 1, 1, 1, 1, 1, 1, 1, 1, 1, 1, 1, 3, 1, 3, 1, 1, 1, 1, 1, 1,
  1, 3, 1, 1, 1, 1, 1, 3, 1, 3, 1, 1, 1, 1, 1, 1, 1, 3, 1, 1, 1, 1, 1, 1, 1, 1, 1, 1, 1, 1, 1, 1]

/-- `decode(state, codep, byte)`, json.hpp:8788-8821: new state and code point. -/
def decode (state codep : Nat) (byte : Byte) : Nat × Nat :=
  let type := utf8d.getD byte.toNat 1
  let codep := if state ≠ 0 then ((byte.toNat &&& 0x3f) ||| (codep <<< 6)) % 4294967296 else (0xff >>> type) &&& byte.toNat
  (utf8d.getD (256 + state * 16 + type) 1, codep)

/-- A digit of `printf("%x")`. Used in json.hpp:8505-8597. -/
def hexDigit (n : Nat) : Byte := if n < 10 then BitVec.ofNat 8 (0x30 + n) else BitVec.ofNat 8 (0x57 + n)

/-- Text written for an accepted code point, json.hpp:8505-8597 with `ensure_ascii = false`; `byte` is the last byte of
the character. -/
def dumpChar (codepoint : Nat) (byte : Byte) : Str :=
  if codepoint = 0x08 then b!"\\b"
  else if codepoint = 0x09 then b!"\\t"
  else if codepoint = 0x0A then b!"\\n"
  else if codepoint = 0x0C then b!"\\f"
  else if codepoint = 0x0D then b!"\\r"
  else if codepoint = 0x22 then b!"\\\""
  else if codepoint = 0x5C then b!"\\\\"
  else if codepoint ≤ 0x1F then
    b!"\\u" ++ [hexDigit (codepoint / 4096 % 16), hexDigit (codepoint / 256 % 16), hexDigit (codepoint / 16 % 16),
      hexDigit (codepoint % 16)]
  else [byte]

/-- Loop of `dump_escaped`, json.hpp:8499-8616, from a state of the automaton. (The buffering of the output is not
modelled; what was written before a throw is lost with the output string.) -/
def dumpEscapedFrom : Nat → Nat → Str → Res Str
  | state, _, [] => if state = 0 then .ok [] else .error (.throw .jsonUtf8)
  | state, codep, b :: s =>
    let d := decode state codep b
    if d.1 = 0 then do
      let r ← dumpEscapedFrom d.1 d.2 s
      .ok (dumpChar d.2 b ++ r)
    else if d.1 = 1 then .error (.throw .jsonUtf8)
    else do
      let r ← dumpEscapedFrom d.1 d.2 s
      .ok (b :: r)

/-- `dump_escaped(s, false)`, json.hpp:8493-8633. -/
def dumpEscaped (s : Str) : Res Str := dumpEscapedFrom 0 0 s

/-- A quoted string. json.hpp:8425-8431. -/
def dumpString (s : Str) : Res Str := do
  let r ← dumpEscaped s
  .ok (b!"\"" ++ r ++ b!"\"")

/-- Digit loop of `dump_integer`, json.hpp:8660-8668: `number_buffer` in the order it is written; `%` and `/` truncate.
Writing beyond the buffer is UB. The first argument is the free space. -/
def dumpDigits : Nat → Int → Res Str
  | 0, _ => .error (.ub .outOfBounds)
  | n + 1, x =>
    if x = 0 then .ok []
    else do
      let r ← dumpDigits n (x.tdiv 10)
      .ok (BitVec.ofNat 8 (0x30 + (x.tmod 10).natAbs) :: r)

/-- `dump_integer(x)`, json.hpp:8648-8679; `number_buffer` has 64 bytes. -/
def dumpInteger (x : Int) : Res Str :=
  if x = 0 then .ok b!"0"
  else do
    let r ← dumpDigits 63 x
    let r := if x < 0 then r ++ b!"-" else r
    .ok r.reverse

mutual
/-- `dump(val)` without indentation, json.hpp:8286-8476. -/
def dump (ft : FloatText) : Json → Res Str
  | .null => .ok b!"null"
  | .bool b => .ok (if b then b!"true" else b!"false")
  | .int i => dumpInteger i
  | .real q => .ok (ft.write q)
  | .str s => dumpString s
  | .arr [] => .ok b!"[]"
  | .arr (j :: js) => do
    let r ← dumpElems ft (j :: js)
    .ok (b!"[" ++ r ++ b!"]")
  | .obj [] => .ok b!"{}"
  | .obj (e :: m) => do
    let r ← dumpMembers ft (e :: m)
    .ok (b!"{" ++ r ++ b!"}")
/-- Loop over the elements of an array, json.hpp:8404-8420. -/
def dumpElems (ft : FloatText) : List Json → Res Str
  | [] => .ok []
  | [j] => dump ft j
  | j :: j' :: js => do
    let a ← dump ft j
    let r ← dumpElems ft (j' :: js)
    .ok (a ++ b!"," ++ r)
/-- Loop over the members of an object, json.hpp:8341-8360. -/
def dumpMembers (ft : FloatText) : List (Str × Json) → Res Str
  | [] => .ok []
  | [(k, j)] => do
    let a ← dumpString k
    let b ← dump ft j
    .ok (a ++ b!":" ++ b)
  | (k, j) :: e :: m => do
    let a ← dumpString k
    let b ← dump ft j
    let r ← dumpMembers ft (e :: m)
    .ok (a ++ b!":" ++ b ++ b!"," ++ r)
end

/-! ## Tokens -/

/-- Tokens, json.hpp:1857-1876; `inf` is a `value_float` that is not finite. -/
inductive Tok where
  | tru | fls | nul
  | str (s : Str)
  | int (i : Int)
  | real (q : Rat)
  | inf
  | lbrack | lbrace | rbrack | rbrace | colon | comma
  | error
  | eof
  deriving DecidableEq

/-- Value of a hexadecimal digit, json.hpp:1970-1985. -/
def hexVal (b : Byte) : Option Nat :=
  let n := b.toNat
  if 0x30 ≤ n ∧ n ≤ 0x39 then some (n - 0x30)
  else if 0x41 ≤ n ∧ n ≤ 0x46 then some (n - 0x37)
  else if 0x61 ≤ n ∧ n ≤ 0x66 then some (n - 0x57)
  else none

/-- `get_codepoint()`, json.hpp:1959-1990: four hexadecimal digits and the unread rest. -/
def getCodepoint : Str → Option (Nat × Str)
  | a :: b :: c :: d :: s =>
    match hexVal a, hexVal b, hexVal c, hexVal d with
    | some a, some b, some c, some d => some (a * 4096 + b * 256 + c * 16 + d, s)
    | _, _, _, _ => none
  | _ => none

/-- One round of the loop of `scan_string`: the string ends, is malformed, or bytes are added. json.hpp:2052-2472. -/
inductive Step where
  | close (rest : Str)
  | fail
  | add (bytes : Str) (rest : Str)

/-- `next_byte_in_range(ranges)`, json.hpp:2007-2027, after the bytes `acc`. -/
def nextInRange (acc : Str) : List (Nat × Nat) → Str → Step
  | [], s => .add acc s
  | _ :: _, [] => .fail
  | (lo, hi) :: rs, b :: s => if lo ≤ b.toNat ∧ b.toNat ≤ hi then nextInRange (acc ++ [b]) rs s else .fail

/-- UTF-8 bytes of a code point, json.hpp:2172-2198. -/
def codepointBytes (cp : Nat) : Str :=
  if cp < 0x80 then [BitVec.ofNat 8 cp]
  else if cp ≤ 0x7FF then [BitVec.ofNat 8 (0xC0 ||| (cp >>> 6)), BitVec.ofNat 8 (0x80 ||| (cp &&& 0x3F))]
  else if cp ≤ 0xFFFF then [BitVec.ofNat 8 (0xE0 ||| (cp >>> 12)), BitVec.ofNat 8 (0x80 ||| ((cp >>> 6) &&& 0x3F)),
    BitVec.ofNat 8 (0x80 ||| (cp &&& 0x3F))]
  else [BitVec.ofNat 8 (0xF0 ||| (cp >>> 18)), BitVec.ofNat 8 (0x80 ||| ((cp >>> 12) &&& 0x3F)),
    BitVec.ofNat 8 (0x80 ||| ((cp >>> 6) &&& 0x3F)), BitVec.ofNat 8 (0x80 ||| (cp &&& 0x3F))]

/-- `\uXXXX`, json.hpp:2108-2201. -/
def scanUnicode (s : Str) : Step :=
  match getCodepoint s with
  | none => .fail
  | some (cp1, s1) =>
    if 0xD800 ≤ cp1 ∧ cp1 ≤ 0xDBFF then
      match s1 with
      | c :: d :: s2 =>
        if c = c!"\\" ∧ d = c!"u" then
          match getCodepoint s2 with
          | none => .fail
          | some (cp2, s3) =>
            if 0xDC00 ≤ cp2 ∧ cp2 ≤ 0xDFFF then .add (codepointBytes (cp1 <<< 10 + cp2 - 0x35FDC00)) s3 else .fail
        else .fail
      | _ => .fail
    else if 0xDC00 ≤ cp1 ∧ cp1 ≤ 0xDFFF then .fail
    else .add (codepointBytes cp1) s1

/-- After a backslash, json.hpp:2073-2207. -/
def scanEscape : Str → Step
  | [] => .fail
  | c :: s =>
    if c = c!"\"" then .add [c!"\""] s
    else if c = c!"\\" then .add [c!"\\"] s
    else if c = c!"/" then .add [c!"/"] s
    else if c = c!"b" then .add [8] s
    else if c = c!"f" then .add [12] s
    else if c = c!"n" then .add [10] s
    else if c = c!"r" then .add [13] s
    else if c = c!"t" then .add [9] s
    else if c = c!"u" then scanUnicode s
    else .fail

/-- One character of a string literal, json.hpp:2055-2471. -/
def scanStep : Str → Step
  | [] => .fail
  | b :: s =>
    let n := b.toNat
    if n = 0x22 then .close s
    else if n = 0x5C then scanEscape s
    else if n ≤ 0x1F then .fail
    else if n ≤ 0x7F then .add [b] s
    else if 0xC2 ≤ n ∧ n ≤ 0xDF then nextInRange [b] [(0x80, 0xBF)] s
    else if n = 0xE0 then nextInRange [b] [(0xA0, 0xBF), (0x80, 0xBF)] s
    else if (0xE1 ≤ n ∧ n ≤ 0xEC) ∨ n = 0xEE ∨ n = 0xEF then nextInRange [b] [(0x80, 0xBF), (0x80, 0xBF)] s
    else if n = 0xED then nextInRange [b] [(0x80, 0x9F), (0x80, 0xBF)] s
    else if n = 0xF0 then nextInRange [b] [(0x90, 0xBF), (0x80, 0xBF), (0x80, 0xBF)] s
    else if 0xF1 ≤ n ∧ n ≤ 0xF3 then nextInRange [b] [(0x80, 0xBF), (0x80, 0xBF), (0x80, 0xBF)] s
    else if n = 0xF4 then nextInRange [b] [(0x80, 0x8F), (0x80, 0xBF), (0x80, 0xBF)] s
    else .fail

/-- Loop of `scan_string`, json.hpp:2052-2472. Every round reads a byte, so the first argument (a bound on the number of
rounds) is never used up when it exceeds the length of the text. -/
def scanStringLoop : Nat → Str → Str → Option (Str × Str)
  | 0, _, _ => none
  | n + 1, acc, s =>
    match scanStep s with
    | .close rest => some (acc, rest)
    | .fail => none
    | .add bs rest => scanStringLoop n (acc ++ bs) rest

/-- `scan_string()`, json.hpp:2044-2473, after the opening quote: the value and the unread rest. -/
def scanString (s : Str) : Option (Str × Str) := scanStringLoop (s.length + 1) [] s

/-- States of `scan_number`, json.hpp:2501-2511. -/
inductive NumState where
  | minus | zero | any1 | decimal1 | decimal2 | exponent | sign | any2
  deriving DecidableEq

/-- Type of a scanned number. json.hpp:2537, 2577, 2666, 2723. -/
inductive NumType where
  | unsigned | integer | float
  deriving DecidableEq

/-- A decimal digit. As in json.hpp:2543-2803. -/
def isDigit (b : Byte) : Bool := decide (0x30 ≤ b.toNat) && decide (b.toNat ≤ 0x39)

/-- Outcome of reading one character in a state of `scan_number`. json.hpp:2539-2803. -/
inductive NumStep where
  | next (st : NumState)
  | done
  | error

/-- Transitions of `scan_number`, json.hpp:2539-2803. -/
def numStep (st : NumState) (c : Byte) : NumStep :=
  match st with
  | .minus => if c = c!"0" then .next .zero else if isDigit c then .next .any1 else .error
  | .zero => if c = c!"." then .next .decimal1 else if c = c!"e" ∨ c = c!"E" then .next .exponent else .done
  | .any1 => if isDigit c then .next .any1 else if c = c!"." then .next .decimal1
    else if c = c!"e" ∨ c = c!"E" then .next .exponent else .done
  | .decimal1 => if isDigit c then .next .decimal2 else .error
  | .decimal2 => if isDigit c then .next .decimal2 else if c = c!"e" ∨ c = c!"E" then .next .exponent else .done
  | .exponent => if c = c!"+" ∨ c = c!"-" then .next .sign else if isDigit c then .next .any2 else .error
  | .sign => if isDigit c then .next .any2 else .error
  | .any2 => if isDigit c then .next .any2 else .done

/-- Type of the number on entering a state, json.hpp:2537, 2577, 2666, 2723. -/
def numType (st : NumState) (ty : NumType) : NumType :=
  match st with
  | .minus => .integer
  | .decimal1 | .exponent => .float
  | _ => ty

/-- May a number end in this state? json.hpp:2501-2511. -/
def numFinal : NumState → Bool
  | .zero | .any1 | .decimal2 | .any2 => true
  | _ => false

/-- The state machine of `scan_number`: type, `token_buffer` and unread rest. json.hpp:2530-2805. -/
def scanNumberLoop (st : NumState) (ty : NumType) (buf : Str) : Str → Option (NumType × Str × Str)
  | [] => if numFinal st then some (numType st ty, buf, []) else none
  | c :: s =>
    match numStep st c with
    | .next st' => scanNumberLoop st' (numType st ty) (buf ++ [c]) s
    | .done => some (numType st ty, buf, c :: s)
    | .error => none

/-- Value of decimal digits. For json.hpp:2814-2845. -/
def digitsVal (s : Str) : Nat := s.foldl (fun n b => n * 10 + (b.toNat - 0x30)) 0

/-- `strtod` of a token. json.hpp:2847-2854. -/
def realTok (ft : FloatText) (buf : Str) : Tok :=
  match ft.read buf with
  | some q => .real q
  | none => .inf

/-- Conversion of the token, json.hpp:2805-2854: `strtoull` and `strtoll` report values out of range, which are then
read as floating point numbers. -/
def numberTok (ft : FloatText) (ty : NumType) (buf : Str) : Tok :=
  match ty with
  | .unsigned => if digitsVal buf < 18446744073709551616 then .int (digitsVal buf) else realTok ft buf
  | .integer => if digitsVal (buf.drop 1) ≤ 9223372036854775808 then .int (-(digitsVal (buf.drop 1) : Int)) else realTok ft buf
  | .float => realTok ft buf

/-- `scan_number()`, json.hpp:2530-2855, for the first character `c`. -/
def scanNumber (ft : FloatText) (c : Byte) (s : Str) : Tok × Str :=
  let st := if c = c!"-" then NumState.minus else if c = c!"0" then .zero else .any1
  match scanNumberLoop st .unsigned [c] s with
  | some (ty, buf, rest) => (numberTok ft ty buf, rest)
  | none => (.error, [])

/-- `scan_literal(text, length, type)`, json.hpp:2862-2875: the rest of the literal must follow. -/
def scanLiteral (t : Tok) : Str → Str → Tok × Str
  | [], s => (t, s)
  | _ :: _, [] => (.error, [])
  | x :: xs, c :: s => if c = x then scanLiteral t xs s else (.error, [])

/-- Whitespace, json.hpp:3006-3011. -/
def skipWs : Str → Str
  | [] => []
  | c :: s => if c = c!" " ∨ c = 9 ∨ c = 10 ∨ c = 13 then skipWs s else c :: s

/-- The token after whitespace, json.hpp:3013-3065 (a NUL byte counts as the end of the input). -/
def scanTok (ft : FloatText) : Str → Tok × Str
  | [] => (.eof, [])
  | c :: s =>
    if c = c!"[" then (.lbrack, s)
    else if c = c!"]" then (.rbrack, s)
    else if c = c!"{" then (.lbrace, s)
    else if c = c!"}" then (.rbrace, s)
    else if c = c!":" then (.colon, s)
    else if c = c!"," then (.comma, s)
    else if c = c!"t" then scanLiteral .tru b!"rue" s
    else if c = c!"f" then scanLiteral .fls b!"alse" s
    else if c = c!"n" then scanLiteral .nul b!"ull" s
    else if c = c!"\"" then
      match scanString s with
      | some (v, rest) => (.str v, rest)
      | none => (.error, [])
    else if c = c!"-" ∨ isDigit c then scanNumber ft c s
    else if c = 0 then (.eof, s)
    else (.error, [])

/-- `scan()`, json.hpp:3004-3070: the next token and the unread rest. -/
def scan (ft : FloatText) (s : Str) : Tok × Str := scanTok ft (skipWs s)

/-! ## Values -/

/-- `object->emplace(key, value)`, json.hpp:3327: keeps an existing member. -/
def emplace (m : List (Str × Json)) (k : Str) (v : Json) : List (Str × Json) :=
  match SMap.find m k with
  | some _ => m
  | none => SMap.set m k v

mutual
/-- `parse_internal`, json.hpp:3236-3513, with the last token and the unread rest. The first argument bounds the number of
recursive calls; `none` means that it was used up, which does not happen in `parse` (theorem `C90_parse_total`). -/
def parseValue (ft : FloatText) : Nat → Tok → Str → Option (Res (Json × Str))
  | 0, _, _ => none
  | n + 1, t, s =>
    match t with
    | .lbrace =>
      match scan ft s with
      | (.rbrace, s1) => some (.ok (.obj [], s1))
      | (t1, s1) => parseMembers ft n [] t1 s1
    | .lbrack =>
      match scan ft s with
      | (.rbrack, s1) => some (.ok (.arr [], s1))
      | (t1, s1) => parseElems ft n [] t1 s1
    | .nul => some (.ok (.null, s))
    | .str v => some (.ok (.str v, s))
    | .tru => some (.ok (.bool true, s))
    | .fls => some (.ok (.bool false, s))
    | .int i => some (.ok (.int i, s))
    | .real q => some (.ok (.real q, s))
    | .inf => some (.error (.throw .jsonRange))
    | _ => some (.error (.throw .jsonParse))
/-- Loop over members, json.hpp:3284-3347, with the members read so far. -/
def parseMembers (ft : FloatText) : Nat → List (Str × Json) → Tok → Str → Option (Res (Json × Str))
  | 0, _, _, _ => none
  | n + 1, m, t, s =>
    match t with
    | .str k =>
      match scan ft s with
      | (.colon, s1) =>
        match parseValue ft n (scan ft s1).1 (scan ft s1).2 with
        | none => none
        | some (.error e) => some (.error e)
        | some (.ok (v, s3)) =>
          match scan ft s3 with
          | (.comma, s4) => parseMembers ft n (emplace m k v) (scan ft s4).1 (scan ft s4).2
          | (.rbrace, s4) => some (.ok (.obj (emplace m k v), s4))
          | _ => some (.error (.throw .jsonParse))
      | _ => some (.error (.throw .jsonParse))
    | _ => some (.error (.throw .jsonParse))
/-- Loop over elements, json.hpp:3385-3418, with the elements read so far. -/
def parseElems (ft : FloatText) : Nat → List Json → Tok → Str → Option (Res (Json × Str))
  | 0, _, _, _ => none
  | n + 1, l, t, s =>
    match parseValue ft n t s with
    | none => none
    | some (.error e) => some (.error e)
    | some (.ok (v, s3)) =>
      match scan ft s3 with
      | (.comma, s4) => parseElems ft n (l ++ [v]) (scan ft s4).1 (scan ft s4).2
      | (.rbrack, s4) => some (.ok (.arr (l ++ [v]), s4))
      | _ => some (.error (.throw .jsonParse))
end

/-- `input_buffer_adapter`, json.hpp:1679-1687: a byte order mark is skipped. -/
def skipBom : Str → Str
  | a :: b :: c :: s => if a = 0xEF ∧ b = 0xBB ∧ c = 0xBF then s else a :: b :: c :: s
  | s => s

/-- `nl::json::parse(text)`, json.hpp:3179-3207: a value followed by the end of the input. -/
def parse (ft : FloatText) (text : Str) : Res Json :=
  let s := skipBom text
  match parseValue ft (2 * s.length + 3) (scan ft s).1 (scan ft s).2 with
  | none => .error (.throw .jsonParse)
  | some (.error e) => .error e
  | some (.ok (v, s2)) =>
    match scan ft s2 with
    | (.eof, _) => .ok v
    | _ => .error (.throw .jsonParse)

end JsonText
end Wis
