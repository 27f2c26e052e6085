import Verif.Model.Ieee
import Verif.Model.KernelCanvas
import Mathlib.Analysis.Real.Sqrt
/-!
# `double` arithmetic

IEEE 754 arithmetic of `double`, for `FOps` (`Model/KernelCanvas.lean`). Every operation is the exact operation on the reals followed by
`Ieee.rnd`. The two zeros are one: the sign of a zero matters only to a quotient, and the divisors of kernelcanvas.cc (sizes and square roots
of sums of squares that start from +0) are never negative zeros. `tanh` of the C library is not prescribed by IEEE 754: it is any function with values
between -1 and 1 (`Tanh`).
-/

namespace Wis

/-- A `double`. As in kernelcanvas.cc:52, 77-203. -/
inductive Dbl where
  | fin (x : ℝ)
  | inf (neg : Bool)
  | nan

/-- What is known of `std::tanh` on finite numbers. Used in kernelcanvas.cc:162, 166, 172, 174, 200. -/
structure Tanh where
  f : ℝ → ℝ
  isFloat : ∀ x, Ieee.rnd Ieee.double (f x) = f x
  bound : ∀ x, -1 ≤ f x ∧ f x ≤ 1

namespace Dbl
noncomputable section

/-- The result of an operation whose exact value is `x`: rounded, infinite from 2^1024 on.
Used in kernelcanvas.cc:77-100, 114-138, 149-203. -/
def ofReal (x : ℝ) : Dbl :=
  if |Ieee.rnd Ieee.double x| < 2 ^ 1024 then .fin (Ieee.rnd Ieee.double x) else .inf (decide (x < 0))

/-- `a + b`. Used in kernelcanvas.cc:77-100, 114-138, 149-203. -/
def add : Dbl → Dbl → Dbl
  | .fin x, .fin y => ofReal (x + y)
  | .fin _, .inf s => .inf s
  | .inf s, .fin _ => .inf s
  | .inf s, .inf t => if s = t then .inf s else .nan
  | _, _ => .nan

/-- `-a`. Used in kernelcanvas.cc:77-100, 114-138, 149-203. -/
def neg : Dbl → Dbl
  | .fin x => .fin (-x)
  | .inf s => .inf !s
  | .nan => .nan

/-- `a - b`. Used in kernelcanvas.cc:77-100, 114-138, 149-203. -/
def sub (a b : Dbl) : Dbl := add a (neg b)

/-- `a * b`. Used in kernelcanvas.cc:77-100, 114-138, 149-203. -/
def mul : Dbl → Dbl → Dbl
  | .fin x, .fin y => ofReal (x * y)
  | .fin x, .inf s => if x = 0 then .nan else .inf (decide (x < 0) != s)
  | .inf s, .fin y => if y = 0 then .nan else .inf (s != decide (y < 0))
  | .inf s, .inf t => .inf (s != t)
  | _, _ => .nan

/-- `a / b`; a zero divisor counts as +0. Used in kernelcanvas.cc:77-100, 114-138, 149-203. -/
def div : Dbl → Dbl → Dbl
  | .fin x, .fin y => if y = 0 then (if x = 0 then .nan else .inf (decide (x < 0))) else ofReal (x / y)
  | .fin _, .inf _ => .fin 0
  | .inf s, .fin y => .inf (s != decide (y < 0))
  | _, _ => .nan

/-- `std::sqrt`. Used in kernelcanvas.cc:98, 136, 178. -/
def sqrt : Dbl → Dbl
  | .fin x => if x < 0 then .nan else ofReal (Real.sqrt x)
  | .inf false => .inf false
  | _ => .nan

/-- `std::tanh`. Used in kernelcanvas.cc:162, 166, 172, 174, 200. -/
def tanh (t : Tanh) : Dbl → Dbl
  | .fin x => .fin (t.f x)
  | .inf s => .fin (if s then -1 else 1)
  | .nan => .nan

/-- `a < b`. Used in kernelcanvas.cc:103. -/
def lt : Dbl → Dbl → Bool
  | .fin x, .fin y => decide (x < y)
  | .fin _, .inf s => !s
  | .inf s, .fin _ => s
  | .inf s, .inf t => s && !t
  | _, _ => false

/-- The `double` operations of KernelCanvas. Used in kernelcanvas.cc:77-100, 114-138, 149-203. -/
@[reducible] def ops (t : Tanh) : FOps where
  F := Dbl
  zero := .fin 0
  add := add
  sub := sub
  mul := mul
  div := div
  tanh := tanh t
  sqrt := sqrt
  ofNat n := ofReal n
  lt := lt

end
end Dbl
end Wis
