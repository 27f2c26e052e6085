import Verif.Spec.LoadJson
import Verif.Spec.History
/-!
# Documents that cannot hurt

Conditions on a document under which loading it has no undefined behaviour, and on a model (loaded or not) under which
classifying with it has none. They mention numbers, text lengths and positions only.
-/

namespace Wis.Spec

/-- Not a floating-point number outside the range of `int`. -/
def NumberFits : Json → Prop
  | .real q => -2147483649 < q ∧ q < 2147483648
  | _ => True

/-- No element is such a number. -/
def NumbersFit (j : Json) : Prop := ∀ l, j = .arr l → ∀ x ∈ l, NumberFits x

/-- All parts of a text, split at its dots, have a length that Base64 texts have. -/
def PartsWhole (text : Str) : Prop := ∀ parts, Pieces text parts → ∀ p ∈ parts, p.length % 4 = 0

/-- A discriminator document that is safe to load. -/
structure DiscSafe (fs : Fs) (m : List (Str × Json)) : Prop where
  entrySize : NumberFits (valueOf m b!"entrySize")
  count : NumberFits (valueOf m b!"count")
  base : NumberFits (valueOf m b!"base")
  addresses : ∀ a ∈ elementsOf (valueOf m b!"mapping"), NumbersFit a
  power : ∀ b l, IsInt (valueOf m b!"base") b → .arr l ∈ elementsOf (valueOf m b!"mapping") →
    b = 2 ∨ (2 < b ∧ b ^ l.length < 2 ^ 63)
  text : ∀ data, valueOf m b!"data" = .str data → ¬ b!".wdpkg" <:+ data → data.length < 2147483648 ∧ PartsWhole data
  file : ∀ data text, valueOf m b!"data" = .str data → b!".wdpkg" <:+ data → fs data = some text →
    text.length < 2147483648 ∧ PartsWhole text

/-- The numbers among the options of a Wisard. -/
structure WisardNumbers (m : List (Str × Json)) : Prop where
  addressSize : NumberFits (valueOf m b!"addressSize")
  base : NumberFits (valueOf m b!"base")
  confidence : NumberFits (valueOf m b!"confidence")
  indexes : NumbersFit (valueOf m b!"indexes")
  mapping : ∀ l, valueOf m b!"mapping" = .obj l → ∀ e ∈ l, ∀ rows, e.2 = .arr rows → ∀ r ∈ rows, NumbersFit r

/-- A Wisard document that is safe to load. -/
structure WisardSafe (fs : Fs) (m : List (Str × Json)) : Prop where
  numbers : WisardNumbers m
  classes : ∀ items, valueOf m b!"classes" = .obj items → ∀ e ∈ items, ∀ iz b,
    Reads m b!"ignoreZero" IsBool false iz → Reads m b!"base" IsInt 2 b →
    DiscSafe fs (override (override (membersOf e.2) b!"ignoreZero" (.bool iz)) b!"base" (.int b))

/-- The numbers among the settings of a ClusWisard. -/
structure ClusNumbers (m : List (Str × Json)) : Prop where
  addressSize : NumberFits (valueOf m b!"addressSize")
  threshold : NumberFits (valueOf m b!"threshold")
  discriminatorsLimit : NumberFits (valueOf m b!"discriminatorsLimit")
  base : NumberFits (valueOf m b!"base")
  confidence : NumberFits (valueOf m b!"confidence")

/-- A cluster inside a document, with the `ignoreZero` and `base` of its model. -/
def ClusterSafe (fs : Fs) (iz : Bool) (b : Int) (j : Json) : Prop :=
  NumberFits (valueOf (membersOf j) b!"entrySize") ∧
    ∀ x ∈ elementsOf (valueOf (membersOf j) b!"discriminators"),
      DiscSafe fs (override (override (membersOf x) b!"ignoreZero" (.bool iz)) b!"base" (.int b))

/-- A ClusWisard document that is safe to load. -/
structure ClusSafe (fs : Fs) (m : List (Str × Json)) : Prop where
  numbers : ClusNumbers m
  clusters : ∀ items, valueOf m b!"clusters" = .obj items → ∀ e ∈ items, ∀ iz b,
    Reads m b!"ignoreZero" IsBool false iz → Reads m b!"base" IsInt 2 b → ClusterSafe fs iz b e.2
  unsupervised : valueOf m b!"unsupervisedCluster" ≠ .null → ∀ iz b,
    Reads m b!"ignoreZero" IsBool false iz → Reads m b!"base" IsInt 2 b →
    ClusterSafe fs iz b (valueOf m b!"unsupervisedCluster")

/-- Every content of the RAMs is at most `M`. -/
def ContentsAtMost (M : Int) (d : Discriminator) : Prop := ∀ r ∈ d.rams, ∀ e ∈ r.positions, e.2 ≤ M

/-- A discriminator that is safe to classify with: it reads inside its images, its contents are not near the end of the
range of `int`. -/
def SafeParts (d : Discriminator) : Prop := WiredInside d.entrySize d.mapping ∧ ContentsAtMost 2147483645 d

end Wis.Spec
