import Verif.Model.JsonText
import Mathlib.Data.List.Forall2
/-!
# What it means for a JSON value to be printable: UTF-8, number ranges, number tokens

Independent of the automata of the JSON library.
-/

namespace Wis.Spec

/-- Well-formed UTF-8 byte sequences of one character: The Unicode Standard, Table 3-7 (ranges of the bytes). -/
def utf8Rows : List (List (Nat × Nat)) := [
  [(0x00, 0x7F)],
  [(0xC2, 0xDF), (0x80, 0xBF)],
  [(0xE0, 0xE0), (0xA0, 0xBF), (0x80, 0xBF)],
  [(0xE1, 0xEC), (0x80, 0xBF), (0x80, 0xBF)],
  [(0xED, 0xED), (0x80, 0x9F), (0x80, 0xBF)],
  [(0xEE, 0xEF), (0x80, 0xBF), (0x80, 0xBF)],
  [(0xF0, 0xF0), (0x90, 0xBF), (0x80, 0xBF), (0x80, 0xBF)],
  [(0xF1, 0xF3), (0x80, 0xBF), (0x80, 0xBF), (0x80, 0xBF)],
  [(0xF4, 0xF4), (0x80, 0x8F), (0x80, 0xBF), (0x80, 0xBF)]]

/-- A byte lies in a range. -/
def InRange (b : Byte) (r : Nat × Nat) : Prop := r.1 ≤ b.toNat ∧ b.toNat ≤ r.2

/-- The bytes of one character. -/
def Utf8Char (c : Str) : Prop := ∃ row ∈ utf8Rows, List.Forall₂ InRange c row

/-- A UTF-8 string: a sequence of characters. -/
inductive Utf8 : Str → Prop
  | nil : Utf8 []
  | cons {c s : Str} : Utf8Char c → Utf8 s → Utf8 (c ++ s)

/-- Decimal digits. -/
def Digits (s : Str) : Prop := ∀ b ∈ s, 0x30 ≤ b.toNat ∧ b.toNat ≤ 0x39

/-- The text of a floating point number, RFC 8259 section 6: `[-]int[.digits][e[+-]digits]` with a fraction or an
exponent. -/
def FloatToken (t : Str) : Prop := ∃ sign int frac exp : Str, t = sign ++ int ++ frac ++ exp ∧
  (sign = [] ∨ sign = b!"-") ∧
  (int = b!"0" ∨ ∃ d ds, int = d :: ds ∧ 0x31 ≤ d.toNat ∧ d.toNat ≤ 0x39 ∧ Digits ds) ∧
  (frac = [] ∨ ∃ ds, frac = b!"." ++ ds ∧ ds ≠ [] ∧ Digits ds) ∧
  (exp = [] ∨ ∃ e sg ds, exp = e ++ sg ++ ds ∧ (e = b!"e" ∨ e = b!"E") ∧ (sg = [] ∨ sg = b!"+" ∨ sg = b!"-") ∧
    ds ≠ [] ∧ Digits ds) ∧
  (frac ≠ [] ∨ exp ≠ [])

/-- The conversion is right for `q`: it is written as a floating point number and read back as `q` (for `double`s this
is the guarantee of Grisu2 and `strtod`). -/
def FloatOk (ft : FloatText) (q : Rat) : Prop := FloatToken (ft.write q) ∧ ft.read (ft.write q) = some q

/-- Every string and key of a value is UTF-8. -/
inductive AllUtf8 : Json → Prop
  | null : AllUtf8 .null
  | bool (b) : AllUtf8 (.bool b)
  | int (i) : AllUtf8 (.int i)
  | real (q) : AllUtf8 (.real q)
  | str {s} : Utf8 s → AllUtf8 (.str s)
  | arr {l} : (∀ j ∈ l, AllUtf8 j) → AllUtf8 (.arr l)
  | obj {m} : (∀ e ∈ m, Utf8 e.1) → (∀ e ∈ m, AllUtf8 e.2) → AllUtf8 (.obj m)

/-- A value as the library can hold it: integers of 64 bits, objects are maps, and floating point numbers for which the
conversion is right. -/
inductive Held (ft : FloatText) : Json → Prop
  | null : Held ft .null
  | bool (b) : Held ft (.bool b)
  | int {i} : -2 ^ 63 ≤ i → i < 2 ^ 64 → Held ft (.int i)
  | real {q} : FloatOk ft q → Held ft (.real q)
  | str (s) : Held ft (.str s)
  | arr {l} : (∀ j ∈ l, Held ft j) → Held ft (.arr l)
  | obj {m : List (Str × Json)} : SMap.Sorted m → (∀ e ∈ m, Held ft e.2) → Held ft (.obj m)

end Wis.Spec
