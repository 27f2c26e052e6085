import Verif.Spec.Bleaching
import Verif.Spec.Wisard
/-!
# Comparing answers of stricter and laxer models

Only scores.
-/

namespace Wis.Spec

/-- The same classes, and no class scores higher in `s'` than in `s`. -/
def NotAbove (s' s : SMap Int) : Prop := s'.keys = s.keys ∧ ∀ l v v', s.find l = some v → s'.find l = some v' → v' ≤ v

/-- Options `bleachingActivated = bl'`, `confidence = c'` ask for more than `bl`, `c`. -/
def Stricter (bl : Bool) (c : Int) (bl' : Bool) (c' : Int) : Prop := bl = false ∨ (bl' = true ∧ c ≤ c')

end Wis.Spec
