import Verif.Spec.JsonGrammar
import Mathlib.Algebra.Order.Field.Rat
import Mathlib.Data.Rat.Defs
import Mathlib.Data.Rat.Cast.Order
import Mathlib.Algebra.Order.AbsoluteValue.Basic
/-!
# Decimal text and `double`s

What a decimal text denotes, and which numbers a `double` can hold. Independent of the conversions of the library.
-/

namespace Wis.Spec

/-- A finite number of IEEE 754 `binary64`: at most 53 bits, with the last one between `2^-1074` and `2^971`. -/
def IsDouble (q : Rat) : Prop := ∃ m e : Int, |m| < 2 ^ 53 ∧ -1074 ≤ e ∧ e ≤ 971 ∧ q = m * 2 ^ e

/-- The exponent part of a number, `[e[+-]digits]`, and the exponent. -/
def ExpText (t : Str) (e : Int) : Prop :=
  t = [] ∧ e = 0 ∨
  ∃ c sg ds, t = c ++ sg ++ ds ∧ (c = b!"e" ∨ c = b!"E") ∧ ds ≠ [] ∧ Digits ds ∧
    (sg = b!"-" ∧ e = -(natOf ds : Int) ∨ (sg = [] ∨ sg = b!"+") ∧ e = natOf ds)

/-- `[-]digits[.digits][e[+-]digits]` and the number it denotes. -/
def Denotes (t : Str) (x : Rat) : Prop := ∃ (sign int frac tail : Str) (s : Rat) (e : Int),
  t = sign ++ int ++ (if frac = [] then [] else b!"." ++ frac) ++ tail ∧
  (sign = [] ∧ s = 1 ∨ sign = b!"-" ∧ s = -1) ∧ int ≠ [] ∧ Digits int ∧ Digits frac ∧ ExpText tail e ∧
  x = s * (natOf int + natOf frac / 10 ^ frac.length) * 10 ^ e

/-- `q` is nearer to `x` than every other `double`, so that every correctly rounding conversion of `x` gives `q`. -/
def OnlyNearest (x q : Rat) : Prop := IsDouble q ∧ ∀ q', IsDouble q' → q' ≠ q → |x - q| < |x - q'|

/-- From here on numbers are read as infinite: half a last place above the largest `double`. -/
def overflowsAt : Rat := (2 ^ 54 - 1) * 2 ^ 970

/-- What is asked of `std::strtod`: the text of a number that has a single nearest `double`, and is not too large, is read as
that `double`; and whatever is read as a finite number is a `double`. -/
structure ReadsNearest (read : Str → Option Rat) : Prop where
  nearest : ∀ t x q, Denotes t x → |x| < overflowsAt → OnlyNearest x q → read t = some q
  double : ∀ t q, read t = some q → IsDouble q

end Wis.Spec
