import Verif.Spec.History
/-!
# Specification of small changes of an image
-/

namespace Wis.Spec

/-- Number of RAMs of the wiring that read a pixel in which `x` and `y` differ. -/
def touched (wiring : List (List Int)) (x y : Image) : Nat := wiring.countP (fun m => decide (¬ Agree m x y))

/-- The positions below `n` in which the images differ. -/
def changed (n : Nat) (x y : Image) : List Nat := (List.range n).filter (fun i => decide (x.read i ≠ y.read i))

/-- No pixel is read by more than `k` RAMs. -/
def ReadAtMost (k : Nat) (wiring : List (List Int)) : Prop :=
  ∀ i : Nat, wiring.countP (fun m => decide ((i : Int) ∈ m)) ≤ k

end Wis.Spec
