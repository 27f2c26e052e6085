import Verif.Model.Discriminator
/-!
# Specification of a discriminator by its history of trainings and untrainings

No RAM contents here: everything is counted over the images of the history.
-/

namespace Wis.Spec

/-- The images `x` and `y` agree on all positions in `addrs`. -/
def Agree (addrs : List Int) (x y : Image) : Prop := ∀ a ∈ addrs, x.read a = y.read a

instance (addrs : List Int) (x y : Image) : Decidable (Agree addrs x y) := by
  unfold Agree; exact inferInstance

/-- The image has length `n` and all its values lie in `[0, base)`. -/
def ValidImage (n base : Int) (img : Image) : Prop :=
  (img.size : Int) = n ∧ ∀ i : Nat, i < img.size → ∃ v, img.read i = .ok v ∧ 0 ≤ v ∧ v < base

/-- All addresses lie inside an image of length `n`. -/
def WiredInside (n : Int) (mapping : List (List Int)) : Prop :=
  ∀ m ∈ mapping, ∀ a ∈ m, 0 ≤ a ∧ a < n

instance (n : Int) (m : List (List Int)) : Decidable (WiredInside n m) := by
  unfold WiredInside; exact inferInstance

/-- The image is zero on all positions in `addrs`. -/
def ZeroOn (addrs : List Int) (x : Image) : Prop := ∀ a ∈ addrs, x.read a = .ok 0

instance (addrs : List Int) (x : Image) : Decidable (ZeroOn addrs x) := by
  unfold ZeroOn; exact inferInstance

/-- The pixel at position `a` is not zero. -/
def NonZeroAt (a : Int) (x : Image) : Prop := x.read a ≠ .ok 0

instance (a : Int) (x : Image) : Decidable (NonZeroAt a x) := by
  unfold NonZeroAt; exact inferInstance

/-- One call. -/
inductive Op where
  | train (img : Image)
  | untrain (img : Image)
  deriving DecidableEq, Repr

/-- The image of a call. -/
def Op.img : Op → Image
  | .train i => i
  | .untrain i => i

/-- The call is a training. -/
def Op.isTrain : Op → Bool
  | .train _ => true
  | .untrain _ => false

/-- Number of trainings minus number of untrainings. -/
def net : List Op → Int
  | [] => 0
  | .train _ :: ops => net ops + 1
  | .untrain _ :: ops => net ops - 1

/-- Calls whose image agrees with `x` on `addrs`. -/
def matching (addrs : List Int) (x : Image) (ops : List Op) : List Op :=
  ops.filter (fun o => decide (Agree addrs x o.img))

/-- Vote of a RAM wired to `addrs` after the history `ops`: trainings minus untrainings that match `x`,
counted from the first matching training on. -/
def vote (addrs : List Int) (ops : List Op) (x : Image) : Int :=
  net ((matching addrs x ops).dropWhile (fun o => !o.isTrain))

/-- Number of images of `imgs` that agree with `x` on `addrs`. -/
def matchCount (addrs : List Int) (imgs : List Image) (x : Image) : Nat :=
  (imgs.filter (fun y => decide (Agree addrs x y))).length

/-- Same length and same values. -/
def Same (x y : Image) : Prop := x.size = y.size ∧ ∀ i, i < x.size → x.read i = y.read i

instance (x y : Image) : Decidable (Same x y) := by
  unfold Same; exact inferInstance

/-- Every untraining is of an image that was, up to then, trained more often than untrained. -/
def Legal (ops : List Op) : Prop :=
  ∀ pre img post, ops = pre ++ .untrain img :: post →
    0 < net (pre.filter (fun o => decide (Same img o.img)))

/-- Perform a history of calls; the first failing call ends it. -/
def run (d : Discriminator) : List Op → Discriminator × Res Unit
  | [] => (d, .ok ())
  | .train img :: ops =>
    match d.train img with
    | (d', .ok ()) => run d' ops
    | (d', .error e) => (d', .error e)
  | .untrain img :: ops =>
    match d.untrain img with
    | (d', .ok ()) => run d' ops
    | (d', .error e) => (d', .error e)

end Wis.Spec
