import Verif.Model.PyObjects
import Verif.Spec.Bind
/-!
# What the remaining Python calls ask for
-/

namespace Wis.Spec

/-- A call behaves as described by `P` (arguments and outcome); arguments that `P` does not cover raise `TypeError`. -/
def Behaves {α : Type} (f : List PyVal → PyRes α) (P : List PyVal → PyRes α → Prop) : Prop :=
  ∀ args, (∀ r, P args r → f args = r) ∧ ((∀ r, ¬ P args r) → f args = .raised .typeError)

/-- An index that fits an `index_size_t`. -/
def PyIndex (x : PyVal) (n : Nat) : Prop := PyInt x n ∧ (n : Int) ≤ 18446744073709551615

/-- An integer that fits an `int`. -/
def PyI32 (x : PyVal) (i : Int) : Prop := PyInt x i ∧ -2147483648 ≤ i ∧ i ≤ 2147483647

/-- A number for a `double` argument. -/
inductive PyDouble (L : PyLib) : PyVal → Rat → Prop
  | float (q) : PyDouble L (.float q) q
  | int {x i q} : PyInt x i → L.toDouble i = some q → PyDouble L x q

/-- A list of points: a list of lists of numbers. -/
def PyPoints (L : PyLib) (x : PyVal) (rows : List (List Rat)) : Prop :=
  ∃ xs, x = .list xs ∧ List.Forall₂ (fun y row => ∃ ys, y = .list ys ∧ List.Forall₂ (PyDouble L) ys row) xs rows

/-- The entry that a call `d.add(...)` asks for: a binary image and its label (empty if there is none). -/
inductive AddAsks : List PyVal → BinInput → Str → Prop
  | bin (b) : AddAsks [.binInput b] b []
  | binLabel {b y l} : PyText y l → AddAsks [.binInput b, y] b l
  | list {x v b} : PyShorts x v → BinInput.ofList v = .ok b → AddAsks [x] b []
  | listLabel {x y v b l} : PyShorts x v → PyText y l → BinInput.ofList v = .ok b → AddAsks [x, y] b l

/-- A call `d.add(pixels, label)` as it should be: zeros and ones, and a `str` that is not empty. -/
def GoodAdd (args : List PyVal) (bits : List Int) (label : List Nat) : Prop :=
  ∃ x l, args = [x, .str label] ∧ PyShorts x bits ∧ (∀ v ∈ bits, v = 0 ∨ v = 1) ∧ bits.length < 2 ^ 62 ∧ Utf8Of label l ∧ label ≠ []

/-- The images that a call `d.train(...)` of a Discriminator asks for: one image, a `BinInput` (if Python does not take it for a
sequence), or a list of at least one image. -/
inductive TrainAsks (L : PyLib) : List PyVal → List Image → Prop
  | image {x i} : PyImage x i → TrainAsks L [x] [.vec i]
  | bin {b} : L.getitemIsSequence = false → TrainAsks L [.binInput b] [.bin b]
  | images {x xs} : PyImages x xs → xs ≠ [] → TrainAsks L [x] (xs.map .vec)

/-- What a call contributes to the history of trainings, given its outcome: all images asked for if it returns; nothing if it
raises `TypeError`, and then it asks for nothing; the first few images asked for otherwise. -/
structure TrainContributes (L : PyLib) (args : List PyVal) (outcome : PyRes Unit) (imgs : List Image) : Prop where
  returned : outcome = .ok () → TrainAsks L args imgs
  typeError : outcome = .raised .typeError ↔ ∀ asked, ¬ TrainAsks L args asked
  nothing : outcome = .raised .typeError → imgs = []
  failed : (∃ e, outcome = .raised e ∧ e ≠ .typeError) ∨ (∃ u, outcome = .ub u) → ∃ asked, TrainAsks L args asked ∧ imgs <+: asked

end Wis.Spec
