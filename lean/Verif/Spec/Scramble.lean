import Verif.Spec.Recode
/-!
# Scrambled images

All images of a data set with their pixels in another order, the same for all of them.
-/

namespace Wis.Spec

/-- `σ` moves the `n` pixels of an image among themselves. -/
def Scrambling (n : Nat) (σ : Equiv.Perm Int) : Prop := ∀ a, 0 ≤ a ∧ a < (n : Int) ↔ 0 ≤ σ a ∧ σ a < (n : Int)

/-- `y` has at `σ a` what `x` has at `a`. -/
def Scrambled (n : Nat) (σ : Equiv.Perm Int) (x y : Image) : Prop := ∀ a : Nat, a < n → ∀ v, x.read a = .ok v → y.read (σ a) = .ok v

/-- The same call with the scrambled image, and with the random numbers translated by `tr`. -/
inductive ScrambledOp (n : Nat) (σ : Equiv.Perm Int) (tr : Rnd → Rnd) : WOp → WOp → Prop where
  | train (env : Env) {x y : Image} (l : Str) (h : Scrambled n σ x y) :
      ScrambledOp n σ tr (.train env x l) (.train ⟨tr env.rnd, env.lhsFirst⟩ y l)
  | leave {x y : List Int} (l : Str) (h : Scrambled n σ (.vec x) (.vec y)) : ScrambledOp n σ tr (.leave x l) (.leave y l)

/-- The same two pictures in `c` colours with `n` pixels, the pixels of the second moved. -/
structure Moved (n : Nat) (c : Int) (σ : Equiv.Perm Int) (x y : Image) : Prop where
  left : ValidImage n c x
  right : ValidImage n c y
  moved : Scrambled n σ x y

/-- The same call of a Discriminator with the moved picture. -/
inductive MovedCall (n : Nat) (c : Int) (σ : Equiv.Perm Int) : Op → Op → Prop where
  | train {x y : Image} (h : Moved n c σ x y) : MovedCall n c σ (.train x) (.train y)
  | untrain {x y : Image} (h : Moved n c σ x y) : MovedCall n c σ (.untrain x) (.untrain y)

/-- Two lists of such pictures. -/
abbrev Moveds (n : Nat) (c : Int) (σ : Equiv.Perm Int) : List (List Int) → List (List Int) → Prop :=
  List.Forall₂ (fun x y => Moved n c σ (.vec x) (.vec y))

/-- The same training call of a ClusWisard with the moved pictures, and with the random numbers translated by `tr`. -/
inductive MovedOp (n : Nat) (c : Int) (σ : Equiv.Perm Int) (tr : Rnd → Rnd) : COp → COp → Prop where
  | train (env : Nat → Env) {xs ys : List (List Int)} (labels : List Str) (h : Moveds n c σ xs ys) :
      MovedOp n c σ tr (.train env xs labels) (.train (fun i => ⟨tr (env i).rnd, (env i).lhsFirst⟩) ys labels)
  | semi (env : Bool → Nat → Env) {xs ys : List (List Int)} (labels : LabelMap) (h : Moveds n c σ xs ys) :
      MovedOp n c σ tr (.semi env xs labels) (.semi (fun b i => ⟨tr (env b i).rnd, (env b i).lhsFirst⟩) ys labels)
  | unsup (env : Nat → Env) {xs ys : List (List Int)} (h : Moveds n c σ xs ys) :
      MovedOp n c σ tr (.unsup env xs) (.unsup (fun i => ⟨tr (env i).rnd, (env i).lhsFirst⟩) ys)

/-- The pixel numbers `0, 1, …, n - 1`. -/
def pixels (n : Nat) : List Int := (List.range n).map Int.ofNat

/-- What `tr` does to the random numbers: where one run draws a pixel, the other draws the moved pixel. -/
structure Translates (n : Nat) (σ : Equiv.Perm Int) (tr : Rnd → Rnd) : Prop where
  draw : ∀ r i v, randint (r.rand i) 0 (n - 1) = .ok v → randint ((tr r).rand i) 0 (n - 1) = .ok (σ v)
  shuffle : ∀ r e, (tr r).shuffle (pixels n ++ e.map σ) = (r.shuffle (pixels n ++ e)).map σ

end Wis.Spec
