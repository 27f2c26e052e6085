import Verif.Model.BinInput
/-!
# Images: the two types accepted by the templates `T = std::vector<int>` and `T = BinInput`
-/

namespace Wis

/-- An image argument: `std::vector<int>` or `BinInput` (template parameter `T` of ram.cc:110-147 and
discriminator.cc:283-320). -/
inductive Image where
  | vec (l : List Int)
  | bin (b : BinInput)
  deriving DecidableEq, Repr

namespace Image

/-- `image.size()`. discriminator.cc:315 and its other uses for `std::vector<int>` and `BinInput`, bininput.cc:44-46. -/
def size : Image → Nat
  | vec l => l.length
  | bin b => b.size

/-- `image[i]` with an `int` index (ram.cc:115). `std::vector`: unchecked, out of range is UB.
`BinInput::operator[]` (bininput.cc:22-24) takes an `unsigned long long`: a negative index becomes a
huge one, which `get` rejects. -/
def read (img : Image) (i : Int) : Res Int :=
  match img with
  | vec l =>
    if i < 0 then .error (.ub .outOfBounds)
    else match l[i.toNat]? with
      | some v => .ok v
      | none => .error (.ub .outOfBounds)
  | bin b =>
    if i < 0 then .error (.throw .indexOutOfRange) else b.get i.toNat

end Image
end Wis
