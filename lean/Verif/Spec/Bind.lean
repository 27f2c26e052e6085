import Verif.Model.Bind
import Verif.Spec.JsonText
/-!
# Which C++ value a Python value stands for

Relations between Python values and C++ values, independent of the conversion functions. UTF-8 is that of
`Spec/JsonText.lean` (the table of the Unicode Standard) together with the bits of a code point.
-/

namespace Wis.Spec

/-- The Python integer `i`; `False` and `True` are 0 and 1. -/
inductive PyInt : PyVal → Int → Prop
  | int (i) : PyInt (.int i) i
  | false : PyInt (.bool false) 0
  | true : PyInt (.bool true) 1

/-- A list (or tuple) of integers between `lo` and `hi`. -/
def PyIntsIn (lo hi : Int) (x : PyVal) (v : List Int) : Prop :=
  ∃ xs, x = .list xs ∧ List.Forall₂ PyInt xs v ∧ ∀ i ∈ v, lo ≤ i ∧ i ≤ hi

/-- An image: a list of integers that fit an `int`. -/
abbrev PyImage : PyVal → List Int → Prop := PyIntsIn (-2147483648) 2147483647

/-- A binary image for `BinInput` and `DataSet.add`: a list of integers that fit a `short`. -/
abbrev PyShorts : PyVal → List Int → Prop := PyIntsIn (-32768) 32767

/-- A list of images. -/
def PyImages (x : PyVal) (vs : List (List Int)) : Prop := ∃ xs, x = .list xs ∧ List.Forall₂ PyImage xs vs

/-- The code point whose bits are in the bytes of a character. -/
def codePoint (p : Str) : Nat :=
  match p.map BitVec.toNat with
  | [a] => a
  | [a, b] => a % 32 * 64 + b % 64
  | [a, b, c] => a % 16 * 4096 + b % 64 * 64 + c % 64
  | [a, b, c, d] => a % 8 * 262144 + b % 64 * 4096 + c % 64 * 64 + d % 64
  | _ => 0

/-- `p` is the UTF-8 of the code point `c`. -/
def Encodes (c : Nat) (p : Str) : Prop := Utf8Char p ∧ codePoint p = c

/-- `s` is the UTF-8 of the characters `cs`. -/
def Utf8Of (cs : List Nat) (s : Str) : Prop := ∃ ps, List.Forall₂ Encodes cs ps ∧ s = ps.flatten

/-- A text: a `str` as UTF-8, or `bytes` as they are. -/
inductive PyText : PyVal → Str → Prop
  | str {cs s} : Utf8Of cs s → PyText (.str cs) s
  | bytes (s) : PyText (.bytes s) s

/-- A list of texts. -/
def PyTexts (x : PyVal) (ls : List Str) : Prop := ∃ xs, x = .list xs ∧ List.Forall₂ PyText xs ls

/-- A dict from positions to labels. -/
def PyLabels (x : PyVal) (m : LabelMap) : Prop := ∃ kvs, x = .dict kvs ∧
  List.Forall₂ (fun (e : PyVal × PyVal) (p : Int × Str) => PyInt e.1 p.1 ∧ (-2147483648 ≤ p.1 ∧ p.1 ≤ 2147483647) ∧ PyText e.2 p.2) kvs m

/-- A truth value: `True`, `False`, `None` (false) or a number (false if it is zero). -/
inductive PyBool : PyVal → Bool → Prop
  | bool (b) : PyBool (.bool b) b
  | none : PyBool .none false
  | int (i) : PyBool (.int i) (decide (i ≠ 0))
  | float (q) : PyBool (.float q) (decide (q ≠ 0))

/-- A number for a `float` argument: a Python `float`, or an integer that a double can hold approximately. -/
inductive PyNumber (L : PyLib) : PyVal → Rat → Prop
  | float (q) : PyNumber L (.float q) (L.toFloat q)
  | int {x i q} : PyInt x i → L.toDouble i = some q → PyNumber L x (L.toFloat q)

end Wis.Spec
