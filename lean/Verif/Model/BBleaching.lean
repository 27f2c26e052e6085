import Verif.Model.Bleaching
/-!
# Model of the class `BBleaching` of `/repo/src/common/bleaching.cc`

A public class of the C++ interface that no other class uses. `make` returns a reference to a map made by `new`; the
model returns the map, and the threshold of the last round as a ghost value.
-/

namespace Wis
namespace BBleaching

/-- Inner loop of `getBiggestValue`, bleaching.cc:121-125. -/
def biggestIn : List Int → Int → Int
  | [], biggest => biggest
  | v :: vs, biggest => biggestIn vs (if v > biggest then v else biggest)

/-- Outer loop of `getBiggestValue`, bleaching.cc:119-126. -/
def biggestOf : Votes → Int → Int
  | [], biggest => biggest
  | (_, vs) :: m, biggest => biggestOf m (biggestIn vs biggest)

/-- `getBiggestValue`, bleaching.cc:118-128. -/
def getBiggestValue (allvotes : Votes) : Int := biggestOf allvotes 0

/-- Loop of `isThereAmbiguity`, bleaching.cc:133-141, on `(biggest, ambiguity)`. -/
def ambLoop : Scores → Int → Bool → Bool × Int
  | [], biggest, ambiguity => (ambiguity, biggest)
  | (_, s) :: m, biggest, ambiguity =>
    if s > biggest then ambLoop m s false
    else if s = biggest then ambLoop m biggest true
    else ambLoop m biggest ambiguity

/-- `isThereAmbiguity`, bleaching.cc:130-144, without the constant third member. -/
def isThereAmbiguity (candidates : Scores) : Bool × Int := ambLoop candidates 0 false

/-- `biggest/(int)pow(2,steps)`, bleaching.cc:88, 103: UB if the power is not an `int`. -/
def piece (biggest : Int) (steps : Nat) : Res Int := do
  let p ← i32 (2 ^ steps)
  .ok (biggest.tdiv p)

theorem piece_small {biggest p : Int} {steps : Nat} (h : piece biggest steps = .ok p) : steps ≤ 30 := by
  unfold piece i32 at h
  by_cases hp : InI32 ((2 : Int) ^ steps)
  · rcases Nat.lt_or_ge 30 steps with hs | hs
    · have : (2 : Int) ^ 31 ≤ 2 ^ steps := by exact_mod_cast Nat.pow_le_pow_right (by omega) hs
      unfold InI32 at hp
      omega
    · exact hs
  · rw [if_neg hp] at h
    cases h

/-- The `do … while` loop, bleaching.cc:91-113, with `bleaching` and `steps` as they are at the head of a round: `labels` and the
threshold of the last round. -/
def loop (allvotes : Votes) (bleachingActivated : Bool) (biggest bleaching : Int) (steps : Nat) : Res (Scores × Int) :=
  let labels := Bleaching.scores allvotes bleaching
  if !bleachingActivated then .ok (labels, bleaching)
  else
    let ambiguity := isThereAmbiguity labels
    match _h : piece biggest (steps + 1) with
    | .error e => .error e
    | .ok piece =>
      if piece = 0 then .ok (labels, bleaching)
      else
        match i32 (if ambiguity.2 > 0 then bleaching + piece else bleaching - piece) with
        | .error e => .error e
        | .ok bleaching' =>
          if ambiguity.1 && decide (ambiguity.2 > 0) then loop allvotes bleachingActivated biggest bleaching' (steps + 1)
          else .ok (labels, bleaching)
termination_by 31 - steps
decreasing_by
  have := piece_small _h
  omega

/-- `make`, bleaching.cc:82-116, with the ghost threshold. -/
def makeAt (allvotes : Votes) (bleachingActivated : Bool) : Res (Scores × Int) := do
  let biggest := getBiggestValue allvotes
  let p ← piece biggest 1
  loop allvotes bleachingActivated biggest p 1

/-- `make`, bleaching.cc:82-116. -/
def make (allvotes : Votes) (bleachingActivated : Bool) : Res Scores := do
  let r ← makeAt allvotes bleachingActivated
  .ok r.1

end BBleaching
end Wis
