import Mathlib.Data.List.Forall2
/-!
# Wirings with the same RAMs
-/

namespace Wis.Spec

/-- The two wirings have the same RAMs, in any order, and each RAM reads the same pixels, in any order. -/
def SameRams (M1 M2 : List (List Int)) : Prop := ∃ M, M1.Perm M ∧ List.Forall₂ List.Perm M M2

end Wis.Spec
