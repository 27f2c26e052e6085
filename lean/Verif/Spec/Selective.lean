import Verif.Spec.History
/-!
# Wirings that read fewer pixels per RAM
-/

namespace Wis.Spec

/-- Each RAM of the wiring `fine` reads only pixels that one RAM of the wiring `coarse` reads. -/
def Refines (fine coarse : List (List Int)) : Prop := ∀ m' ∈ fine, ∃ m ∈ coarse, ∀ a ∈ m', a ∈ m

end Wis.Spec
