import Verif.Spec.Wisard
import Verif.Spec.ClusWisardJson
/-!
# Recoded images

A picture can be written down in different ways: with the pixels in another order, with additional pixels, with other numbers for
the colours. `σ` says where a pixel is found in the other notation, `φ` which number stands for its value there.
-/

namespace Wis.Spec

/-- On the positions in `addrs`, `y` is `x` written in the other notation: the value `v` of pixel `a` is found at position `σ a`,
as the number `φ a v`. Nothing is said about the other pixels of `x` and `y`. -/
def Recoded (σ : Int → Int) (φ : Int → Int → Int) (addrs : List Int) (x y : Image) : Prop :=
  ∀ a ∈ addrs, ∀ v, x.read a = .ok v → y.read (σ a) = .ok (φ a v)

/-- Different colours have different numbers; if zero is special (`ignoreZero`), zero and only zero is written as zero. -/
structure Faithful (ignoreZero : Bool) (base : Int) (φ : Int → Int → Int) : Prop where
  inj : ∀ a v v', 0 ≤ v → v < base → 0 ≤ v' → v' < base → φ a v = φ a v' → v = v'
  zero : ignoreZero = true → ∀ a v, 0 ≤ v → v < base → (φ a v = 0 ↔ v = 0)

/-- The options that say how classes are compared. -/
def SameRules (o1 o2 : WisardOpts) : Prop :=
  o2.ignoreZero = o1.ignoreZero ∧ o2.bleachingActivated = o1.bleachingActivated ∧ o2.confidence = o1.confidence ∧
  o2.searchBestConfidence = o1.searchBestConfidence

/-- The second call is the first one with its image in the other notation on the pixels in `addrs`. -/
structure RecodedOp (σ : Int → Int) (φ : Int → Int → Int) (addrs : List Int) (o1 o2 : WOp) : Prop where
  kind : o1.isTrain = o2.isTrain
  label : o1.label = o2.label
  img : Recoded σ φ addrs o1.img o2.img

/-- The random choices of two calls are the same. -/
def SameEnv : WOp → WOp → Prop
  | .train e1 _ _, .train e2 _ _ => e1 = e2
  | .leave _ _, .leave _ _ => True
  | _, _ => False

/-- The pixels that a Wisard reads. -/
def ReadsPixel (w : Wisard) (a : Int) : Prop := ∃ l d m, w.discriminators.find l = some d ∧ m ∈ d.mapping ∧ a ∈ m

/-- Two images with `n` pixels, one in `c` and one in `c'` colours, that show the same picture: where the first has the colour `v`
at pixel `a`, the second has `φ a v`. -/
structure Twin (n c c' : Int) (φ : Int → Int → Int) (x x' : Image) : Prop where
  left : ValidImage n c x
  right : ValidImage n c' x'
  code : ∀ a : Nat, (a : Int) < n → Recoded id φ [(a : Int)] x x'

/-- Two lists of such images. -/
abbrev Twins (n c c' : Int) (φ : Int → Int → Int) : List (List Int) → List (List Int) → Prop :=
  List.Forall₂ (fun x x' => Twin n c c' φ (.vec x) (.vec x'))

/-- The same call of a Discriminator, with the other image. -/
inductive TwinCall (n c c' : Int) (φ : Int → Int → Int) : Op → Op → Prop where
  | train {x x' : Image} (h : Twin n c c' φ x x') : TwinCall n c c' φ (.train x) (.train x')
  | untrain {x x' : Image} (h : Twin n c c' φ x x') : TwinCall n c c' φ (.untrain x) (.untrain x')

/-- The same training call of a ClusWisard, with the other images. -/
inductive TwinOp (n c c' : Int) (φ : Int → Int → Int) : COp → COp → Prop where
  | train (env : Nat → Env) {xs xs' : List (List Int)} (labels : List Str) (h : Twins n c c' φ xs xs') :
      TwinOp n c c' φ (.train env xs labels) (.train env xs' labels)
  | semi (env : Bool → Nat → Env) {xs xs' : List (List Int)} (labels : LabelMap) (h : Twins n c c' φ xs xs') :
      TwinOp n c c' φ (.semi env xs labels) (.semi env xs' labels)
  | unsup (env : Nat → Env) {xs xs' : List (List Int)} (h : Twins n c c' φ xs xs') : TwinOp n c c' φ (.unsup env xs) (.unsup env xs')

end Wis.Spec
