import Verif.Model.Rand
/-!
# The numbers drawn from a generator
-/

namespace Wis.Spec

/-- The `k`-th number that `rand` returns, starting in state `s`. -/
def drawn {S : Type} (rand : S → Nat × S) (s : S) : Nat → Nat
  | 0 => (rand s).1
  | k + 1 => drawn rand (rand s).2 k

end Wis.Spec
