import Verif.Spec.History
import Verif.Spec.Wisard
/-!
# Nested samples

Images one of which always contains the other: strokes drawn further and further, a bar that fills up, one image repeated.
-/

namespace Wis.Spec

/-- Of two of the images, one is non-zero wherever the other is (among the first `n` pixels). -/
def Nested (n : Nat) (imgs : List Image) : Prop :=
  ∀ x ∈ imgs, ∀ y ∈ imgs, (∀ i : Nat, i < n → NonZeroAt i x → NonZeroAt i y) ∨ (∀ i : Nat, i < n → NonZeroAt i y → NonZeroAt i x)

/-- The first `n` pixels are zeros and ones. -/
def Binary (n : Nat) (x : Image) : Prop := ∀ i : Nat, i < n → x.read i = .ok 0 ∨ x.read i = .ok 1

/-- The pixels of `x` are those of the list. -/
def Shows (x : Image) (out : List Int) : Prop := x.size = out.length ∧ ∀ i (h : i < out.length), x.read (i : Int) = .ok out[i]

end Wis.Spec
