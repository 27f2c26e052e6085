import Verif.Spec.JsonText
/-!
# The grammar of JSON text (RFC 8259), with the value each text stands for

Independent of the scanner and the parser of the JSON library.
-/

namespace Wis.Spec

/-- Whitespace, RFC 8259 section 2. -/
def Ws (s : Str) : Prop := ∀ b ∈ s, b = 0x20 ∨ b = 0x09 ∨ b = 0x0A ∨ b = 0x0D

/-- UTF-8 bytes of a Unicode scalar value, RFC 3629. -/
def utf8Of (n : Nat) : Str :=
  (if n < 0x80 then [n]
  else if n < 0x800 then [0xC0 + n / 64, 0x80 + n % 64]
  else if n < 0x10000 then [0xE0 + n / 4096, 0x80 + n / 64 % 64, 0x80 + n % 64]
  else [0xF0 + n / 262144, 0x80 + n / 4096 % 64, 0x80 + n / 64 % 64, 0x80 + n % 64]).map (BitVec.ofNat 8)

/-- A hexadecimal digit, in either case. -/
def Hex (b : Byte) (k : Nat) : Prop :=
  k < 16 ∧ (b = b!"0123456789abcdef".getD k 0 ∨ b = b!"0123456789ABCDEF".getD k 0)

/-- Four hexadecimal digits. -/
def Hex4 (h : Str) (n : Nat) : Prop := ∃ b3 b2 b1 b0 k3 k2 k1 k0, h = [b3, b2, b1, b0] ∧ Hex b3 k3 ∧ Hex b2 k2 ∧
  Hex b1 k1 ∧ Hex b0 k0 ∧ n = ((k3 * 16 + k2) * 16 + k1) * 16 + k0

/-- The short escapes of RFC 8259 section 7, after the backslash. -/
def shortEscapes : List (Str × Str) := [(b!"\"", [0x22]), (b!"\\", [0x5C]), (b!"/", [0x2F]), (b!"b", [0x08]), (b!"f", [0x0C]),
  (b!"n", [0x0A]), (b!"r", [0x0D]), (b!"t", [0x09])]

/-- One character in a string literal and the UTF-8 bytes it stands for, RFC 8259 section 7. -/
inductive CharText : Str → Str → Prop
  | plain {c : Str} : Utf8Char c → (∀ b ∈ c, 0x20 ≤ b.toNat ∧ b ≠ c!"\"" ∧ b ≠ c!"\\") → CharText c c
  | short {e v : Str} : (e, v) ∈ shortEscapes → CharText (b!"\\" ++ e) v
  | unit {h : Str} {n : Nat} : Hex4 h n → ¬ (0xD800 ≤ n ∧ n ≤ 0xDFFF) → CharText (b!"\\u" ++ h) (utf8Of n)
  | pair {h h' : Str} {a b : Nat} : Hex4 h (0xD800 + a) → a < 0x400 → Hex4 h' (0xDC00 + b) → b < 0x400 →
      CharText (b!"\\u" ++ h ++ b!"\\u" ++ h') (utf8Of (0x10000 + a * 0x400 + b))

/-- The characters of a string literal. -/
inductive CharsText : Str → Str → Prop
  | nil : CharsText [] []
  | cons {t v ts vs : Str} : CharText t v → CharsText ts vs → CharsText (t ++ ts) (v ++ vs)

/-- A string literal. -/
def StringText (t v : Str) : Prop := ∃ body, t = b!"\"" ++ body ++ b!"\"" ∧ CharsText body v

/-- Value of decimal digits. -/
def natOf (s : Str) : Nat := s.foldl (fun n b => n * 10 + (b.toNat - 0x30)) 0

/-- The integer part of a number: no superfluous zeros. -/
def IntPart (s : Str) : Prop := s = b!"0" ∨ ∃ d ds, s = d :: ds ∧ 0x31 ≤ d.toNat ∧ d.toNat ≤ 0x39 ∧ Digits ds

/-- A number, RFC 8259 section 6. Integers that fit in 64 bits are exact; other numbers are converted by `ft.read`
(`strtod`), which must give a finite number. -/
inductive NumberText (ft : FloatText) : Str → Json → Prop
  | nat {s} : IntPart s → natOf s < 2 ^ 64 → NumberText ft s (.int (natOf s))
  | neg {s} : IntPart s → natOf s ≤ 2 ^ 63 → NumberText ft (b!"-" ++ s) (.int (-natOf s))
  | bigNat {s q} : IntPart s → 2 ^ 64 ≤ natOf s → ft.read s = some q → NumberText ft s (.real q)
  | bigNeg {s q} : IntPart s → 2 ^ 63 < natOf s → ft.read (b!"-" ++ s) = some q → NumberText ft (b!"-" ++ s) (.real q)
  | float {s q} : FloatToken s → ft.read s = some q → NumberText ft s (.real q)

/-- The map made of members in the order of the text: of members with the same key the first counts. -/
def ObjectOf (l m : List (Str × Json)) : Prop :=
  SMap.Sorted m ∧ ∀ k, SMap.find m k = (l.find? (fun e => decide (e.1 = k))).map (·.2)

mutual
/-- A value, RFC 8259 section 3. -/
inductive ValueText (ft : FloatText) : Str → Json → Prop
  | null : ValueText ft b!"null" .null
  | tru : ValueText ft b!"true" (.bool true)
  | fls : ValueText ft b!"false" (.bool false)
  | num {t v} : NumberText ft t v → ValueText ft t v
  | str {t s} : StringText t s → ValueText ft t (.str s)
  | arr0 {w} : Ws w → ValueText ft (b!"[" ++ w ++ b!"]") (.arr [])
  | arr {t l} : ElemsText ft t l → ValueText ft (b!"[" ++ t ++ b!"]") (.arr l)
  | obj0 {w} : Ws w → ValueText ft (b!"{" ++ w ++ b!"}") (.obj [])
  | obj {t l m} : MembersText ft t l → ObjectOf l m → ValueText ft (b!"{" ++ t ++ b!"}") (.obj m)
/-- The elements of an array. -/
inductive ElemsText (ft : FloatText) : Str → List Json → Prop
  | one {w t v w'} : Ws w → ValueText ft t v → Ws w' → ElemsText ft (w ++ t ++ w') [v]
  | more {w t v w' r l} : Ws w → ValueText ft t v → Ws w' → ElemsText ft r l → ElemsText ft (w ++ t ++ w' ++ b!"," ++ r) (v :: l)
/-- The members of an object, in the order of the text. -/
inductive MembersText (ft : FloatText) : Str → List (Str × Json) → Prop
  | one {w kt k w1 w2 t v w'} : Ws w → StringText kt k → Ws w1 → Ws w2 → ValueText ft t v → Ws w' →
      MembersText ft (w ++ kt ++ w1 ++ b!":" ++ w2 ++ t ++ w') [(k, v)]
  | more {w kt k w1 w2 t v w' r l} : Ws w → StringText kt k → Ws w1 → Ws w2 → ValueText ft t v → Ws w' →
      MembersText ft r l → MembersText ft (w ++ kt ++ w1 ++ b!":" ++ w2 ++ t ++ w' ++ b!"," ++ r) ((k, v) :: l)
end

/-- A JSON text: a value with whitespace around it, RFC 8259 section 2. -/
def DocText (ft : FloatText) (s : Str) (v : Json) : Prop := ∃ w t w', s = w ++ t ++ w' ∧ Ws w ∧ ValueText ft t v ∧ Ws w'

end Wis.Spec
