import Verif.Spec.History
import Mathlib.Data.List.Forall2
/-!
# Pixels that say nothing new
-/

namespace Wis.Spec

/-- Among the pictures `X`, the pixels `m` determine the pixel `a`: pictures that agree on `m` agree on `a`. -/
def Determines (X : List Image) (m : List Int) (a : Int) : Prop := ∀ x ∈ X, ∀ y ∈ X, Agree m x y → x.read a = y.read a

/-- The wiring `thin` is the wiring `full` with, in each RAM, some pixels left out (or repeated, or in another order); among the pictures
`X` the pixels that the RAM still reads determine those left out. If RAMs ignore zeros (`z`), the pixels left out are zero when all
the others are. -/
def Thinned (z : Bool) (X : List Image) (full thin : List (List Int)) : Prop :=
  List.Forall₂ (fun m m' => (∀ a ∈ m', a ∈ m) ∧ (∀ a ∈ m, Determines X m' a) ∧ (z = true → ∀ x ∈ X, ZeroOn m' x → ZeroOn m x)) full thin

end Wis.Spec
