import Mathlib.Data.Int.Log
import Mathlib.Data.Rat.Floor
/-!
# IEEE 754 rounding

The rounding of `float` and `double` operations in the default mode: to nearest, ties to even. Numbers are elements of an ordered
field (rationals, or reals where square roots occur). Overflow is not part of this rounding: numbers of any size are rounded to the precision
of the format.
-/

namespace Wis.Ieee

/-- A binary format: bits of precision and the exponent of the smallest normal numbers.
For the `float` operations of cluster.cc:51-62, 144-161 and wisardwrapper.cc:46-68, 79-90 and the `double` operations of kernelcanvas.cc:77-203. -/
structure Fmt where
  p : Nat
  emin : Int
  pos : 1 ≤ p

/-- `float`.
For the `float` operations of cluster.cc:51-62, 144-161 and wisardwrapper.cc:46-68, 79-90 and the `double` operations of kernelcanvas.cc:77-203. -/
def single : Fmt := ⟨24, -126, by decide⟩

/-- `double`.
For the `float` operations of cluster.cc:51-62, 144-161 and wisardwrapper.cc:46-68, 79-90 and the `double` operations of kernelcanvas.cc:77-203. -/
def double : Fmt := ⟨53, -1022, by decide⟩

variable {K : Type} [Field K] [LinearOrder K] [IsStrictOrderedRing K] [FloorRing K]

/-- The integer nearest to `x`, the even one of two.
For the `float` operations of cluster.cc:51-62, 144-161 and wisardwrapper.cc:46-68, 79-90 and the `double` operations of kernelcanvas.cc:77-203. -/
def rint (x : K) : Int :=
  if x - ⌊x⌋ < 1 / 2 then ⌊x⌋ else if 1 / 2 < x - ⌊x⌋ then ⌊x⌋ + 1 else if ⌊x⌋ % 2 = 0 then ⌊x⌋ else ⌊x⌋ + 1

/-- Exponent of the last place of the numbers near `x`.
For the `float` operations of cluster.cc:51-62, 144-161 and wisardwrapper.cc:46-68, 79-90 and the `double` operations of kernelcanvas.cc:77-203. -/
def lastPlace (F : Fmt) (x : K) : Int := max (Int.log 2 |x|) F.emin - (F.p - 1)

/-- The number of the format nearest to `x`, the one with an even significand if there are two.
For the `float` operations of cluster.cc:51-62, 144-161 and wisardwrapper.cc:46-68, 79-90 and the `double` operations of kernelcanvas.cc:77-203. -/
def rnd (F : Fmt) (x : K) : K := rint (x / (2 : K) ^ lastPlace F x) * (2 : K) ^ lastPlace F x

end Wis.Ieee
