import Verif.Model.ClusWisardJson
import Mathlib.Data.List.Forall2
/-!
# What the constructors that take a JSON document should read from it

A document is an object with members `m`. Nothing here refers to the parser or to the reading code; the contents of one RAM
are those of the public class RAMDataHandle made from its part of the data.
-/

namespace Wis.Spec

/-- The value of a member, null if there is none. -/
def valueOf (m : List (Str × Json)) (k : Str) : Json := ((m.find? (fun e => decide (e.1 = k))).map (·.2)).getD .null

/-- A JSON boolean. -/
inductive IsBool : Json → Bool → Prop
  | bool (b : Bool) : IsBool (.bool b) b

/-- A value read as an `int`: integers modulo 2^32, booleans as 0 or 1, other numbers rounded towards zero if that is an
`int`. -/
inductive IsInt : Json → Int → Prop
  | int {i v : Int} : InI32 v → (4294967296 : Int) ∣ i - v → IsInt (.int i) v
  | bool (b : Bool) : IsInt (.bool b) (if b then 1 else 0)
  | real {q : Rat} {v : Int} : InI32 v → (0 ≤ q → (v : Rat) ≤ q ∧ q < v + 1) → (q < 0 → q ≤ v ∧ (v : Rat) - 1 < q) →
      IsInt (.real q) v

/-- A value read as an `unsigned int`. -/
inductive IsUInt : Json → Nat → Prop
  | int {i : Int} {v : Nat} : v < 4294967296 → (4294967296 : Int) ∣ i - v → IsUInt (.int i) v
  | bool (b : Bool) : IsUInt (.bool b) (if b then 1 else 0)
  | real {q : Rat} {v : Nat} : v < 4294967296 → (0 ≤ q → (v : Rat) ≤ q ∧ q < v + 1) → (q < 0 → v = 0 ∧ -1 < q) →
      IsUInt (.real q) v

/-- A value read as a `float` (rounding to `float` is not part of the model). -/
inductive IsFloating : Json → Rat → Prop
  | int (i : Int) : IsFloating (.int i) i
  | bool (b : Bool) : IsFloating (.bool b) (if b then 1 else 0)
  | real (q : Rat) : IsFloating (.real q) q

/-- An array of numbers. -/
inductive IsInts : Json → List Int → Prop
  | arr {l : List Json} {v : List Int} : List.Forall₂ IsInt l v → IsInts (.arr l) v

/-- An array of arrays of numbers. -/
inductive IsIntss : Json → List (List Int) → Prop
  | arr {l : List Json} {v : List (List Int)} : List.Forall₂ IsInts l v → IsIntss (.arr l) v

/-- An object with an array of arrays of numbers for every key. -/
inductive IsMapping : Json → SMap (List (List Int)) → Prop
  | obj {m : List (Str × Json)} {v : SMap (List (List Int))} :
      List.Forall₂ (fun e x => x.1 = e.1 ∧ IsIntss e.2 x.2) m v → IsMapping (.obj m) v

/-- An optional member: absent (or null) it means the default. -/
def Reads {α : Type} (m : List (Str × Json)) (k : Str) (is : Json → α → Prop) (dflt x : α) : Prop :=
  (valueOf m k = .null ∧ x = dflt) ∨ (valueOf m k ≠ .null ∧ is (valueOf m k) x)

/-- The options of a Wisard as a document gives them. -/
structure WisardReads (m : List (Str × Json)) (o : WisardOpts) : Prop where
  bleachingActivated : Reads m b!"bleachingActivated" IsBool true o.bleachingActivated
  verbose : Reads m b!"verbose" IsBool false o.verbose
  ignoreZero : Reads m b!"ignoreZero" IsBool false o.ignoreZero
  completeAddressing : Reads m b!"completeAddressing" IsBool true o.completeAddressing
  mapping : Reads m b!"mapping" IsMapping [] o.mapping
  indexes : Reads m b!"indexes" IsInts [] o.indexes
  base : Reads m b!"base" IsInt 2 o.base
  confidence : Reads m b!"confidence" IsInt 1 o.confidence
  searchBestConfidence : Reads m b!"searchBestConfidence" IsBool false o.searchBestConfidence
  returnConfidence : Reads m b!"returnConfidence" IsBool false o.returnConfidence
  returnActivationDegree : Reads m b!"returnActivationDegree" IsBool false o.returnActivationDegree
  returnClassesDegrees : Reads m b!"returnClassesDegrees" IsBool false o.returnClassesDegrees

/-- The options of a ClusWisard as a document gives them. -/
structure ClusReads (m : List (Str × Json)) (o : ClusOpts) : Prop where
  bleachingActivated : Reads m b!"bleachingActivated" IsBool true o.bleachingActivated
  verbose : Reads m b!"verbose" IsBool false o.verbose
  ignoreZero : Reads m b!"ignoreZero" IsBool false o.ignoreZero
  completeAddressing : Reads m b!"completeAddressing" IsBool true o.completeAddressing
  base : Reads m b!"base" IsInt 2 o.base
  confidence : Reads m b!"confidence" IsInt 1 o.confidence
  searchBestConfidence : Reads m b!"searchBestConfidence" IsBool false o.searchBestConfidence
  returnConfidence : Reads m b!"returnConfidence" IsBool false o.returnConfidence
  returnActivationDegree : Reads m b!"returnActivationDegree" IsBool false o.returnActivationDegree
  returnClassesDegrees : Reads m b!"returnClassesDegrees" IsBool false o.returnClassesDegrees

/-- The elements of an array; null has none, an object has its values, any other value is its only element. -/
def elementsOf : Json → List Json
  | .null => []
  | .arr l => l
  | .obj m => m.map (·.2)
  | j => [j]

/-- A text split at its dots. -/
def Pieces (text : Str) (parts : List Str) : Prop :=
  parts ≠ [] ∧ (∀ p ∈ parts, c!"." ∉ p) ∧ text = List.intercalate b!"." parts

/-- A RAM made from its addresses, the common settings and its part of the data. -/
structure RamReads (fs : Fs) (addresses ignoreZero base : Json) (part : Str) (r : Ram) : Prop where
  addresses : IsInts addresses r.addresses
  ignoreZero : IsBool ignoreZero r.ignoreZero
  base : IsInt base r.base
  accepted : ∃ r0, Ram.create r.addresses r.ignoreZero r.base = .ok r0
  content : ∃ h, RamData.ofText fs part = .ok h ∧ r.positions = (h.get 0).2

/-- A discriminator as a document describes it. `data` is a text whose parts, split at the dots, are for the RAMs in the order
of `mapping` (from the beginning again if there are too few), or the name of a file with such a text (whose parts are not
used again; without the file there are no RAMs). -/
def DiscReads (fs : Fs) (m : List (Str × Json)) (d : Discriminator) : Prop :=
  IsInt (valueOf m b!"entrySize") d.entrySize ∧ IsInt (valueOf m b!"count") d.count ∧
  ∃ data, valueOf m b!"data" = .str data ∧ 6 ≤ data.length ∧
    ((b!".wdpkg" <:+ data ∧
        ((fs data = none ∧ d.rams = []) ∨
          ∃ text parts, fs data = some text ∧ Pieces text parts ∧
            List.Forall₂ (fun (p : Json × Str) r => RamReads fs p.1 (valueOf m b!"ignoreZero") (valueOf m b!"base") p.2 r)
              ((elementsOf (valueOf m b!"mapping")).zip parts) d.rams)) ∨
     (¬ b!".wdpkg" <:+ data ∧ data.length < 2147483648 ∧
        ∃ parts, Pieces data parts ∧
          List.Forall₂ (fun (p : Json × Nat) r => RamReads fs p.1 (valueOf m b!"ignoreZero") (valueOf m b!"base")
              (parts.getD (p.2 % parts.length) []) r)
            (elementsOf (valueOf m b!"mapping")).zipIdx d.rams))

/-- The members of an object; there are none in anything else. -/
def membersOf : Json → List (Str × Json)
  | .obj m => m
  | _ => []

/-- Some members replaced. -/
def override (m : List (Str × Json)) (k : Str) (v : Json) : List (Str × Json) := (k, v) :: m

/-- A list of named parts: nothing (null or an empty array), or the members of an object. -/
inductive NamedParts : Json → List (Str × Json) → Prop
  | null : NamedParts .null []
  | empty : NamedParts (.arr []) []
  | obj (m : List (Str × Json)) : NamedParts (.obj m) m

/-- A Wisard as a document describes it: every class uses the `ignoreZero` and `base` of the model. -/
structure WisardDoc (fs : Fs) (m : List (Str × Json)) (w : Wisard) : Prop where
  opts : WisardReads m w.opts
  addressSize : IsInt (valueOf m b!"addressSize") w.addressSize
  classes : ∃ items, NamedParts (valueOf m b!"classes") items ∧
    List.Forall₂ (fun (e : Str × Json) (c : Str × Discriminator) => c.1 = e.1 ∧
      DiscReads fs (override (override (membersOf e.2) b!"ignoreZero" (.bool w.opts.ignoreZero)) b!"base" (.int w.opts.base)) c.2)
      items w.discriminators

/-- A cluster as a document describes it. -/
def ClusterReads (fs : Fs) (m : List (Str × Json)) (cl : Cluster) : Prop :=
  ∃ c, cl.cfg = some c ∧
    Reads m b!"addressSize" IsInt 2 c.addressSize ∧ Reads m b!"entrySize" IsInt 2 c.entrySize ∧
    Reads m b!"minScore" IsFloating 2 c.minScore ∧ Reads m b!"discriminatorsLimit" IsInt 2 c.discriminatorsLimit ∧
    Reads m b!"threshold" IsUInt 2 c.threshold ∧ Reads m b!"ignoreZero" IsBool false c.ignoreZero ∧
    Reads m b!"completeAddressing" IsBool true c.completeAddressing ∧ Reads m b!"base" IsInt 2 c.base ∧
    List.Forall₂ (fun j o => ∃ d, o = some d ∧
      DiscReads fs (override (override (membersOf j) b!"ignoreZero" (.bool c.ignoreZero)) b!"base" (.int c.base)) d)
      (elementsOf (valueOf m b!"discriminators")) cl.discriminators

/-- The members of a cluster with the settings of its model. -/
def clusterMembers (w : ClusWisard) (j : Json) : List (Str × Json) :=
  [(b!"addressSize", .int w.addressSize), (b!"minScore", .real w.minScore), (b!"threshold", .int w.threshold),
    (b!"discriminatorsLimit", .int w.discriminatorsLimit), (b!"completeAddressing", .bool w.opts.completeAddressing),
    (b!"ignoreZero", .bool w.opts.ignoreZero), (b!"base", .int w.opts.base)] ++ membersOf j

/-- A ClusWisard as a document describes it: every cluster has the settings of the model. -/
structure ClusDoc (fs : Fs) (m : List (Str × Json)) (w : ClusWisard) : Prop where
  opts : ClusReads m w.opts
  addressSize : IsInt (valueOf m b!"addressSize") w.addressSize
  minScore : IsFloating (valueOf m b!"minScore") w.minScore
  threshold : IsInt (valueOf m b!"threshold") w.threshold
  discriminatorsLimit : IsInt (valueOf m b!"discriminatorsLimit") w.discriminatorsLimit
  clusters : ∃ items, NamedParts (valueOf m b!"clusters") items ∧
    List.Forall₂ (fun (e : Str × Json) (c : Str × Cluster) => c.1 = e.1 ∧ ClusterReads fs (clusterMembers w e.2) c.2)
      items w.clusters
  unsupervised : (valueOf m b!"unsupervisedCluster" = .null ∧ w.unsupervisedCluster = Cluster.default) ∨
    (valueOf m b!"unsupervisedCluster" ≠ .null ∧
      ClusterReads fs (clusterMembers w (valueOf m b!"unsupervisedCluster")) w.unsupervisedCluster)

/-- Two objects have the same values for these members. -/
def AgreeOn (names : List Str) (m m' : List (Str × Json)) : Prop := ∀ k ∈ names, valueOf m k = valueOf m' k

/-- The members of a discriminator inside a model, of a discriminator, of a Wisard, of a cluster, of a ClusWisard. -/
def partNames : List Str := [b!"entrySize", b!"count", b!"data", b!"mapping"]
def discNames : List Str := partNames ++ [b!"ignoreZero", b!"base"]
def wisardNames : List Str := [b!"addressSize", b!"bleachingActivated", b!"verbose", b!"ignoreZero", b!"completeAddressing",
  b!"mapping", b!"indexes", b!"base", b!"confidence", b!"searchBestConfidence", b!"returnConfidence",
  b!"returnActivationDegree", b!"returnClassesDegrees"]
def clusterNames : List Str := [b!"entrySize"]
def clusNames : List Str := [b!"addressSize", b!"minScore", b!"threshold", b!"discriminatorsLimit", b!"bleachingActivated",
  b!"verbose", b!"ignoreZero", b!"completeAddressing", b!"base", b!"confidence", b!"searchBestConfidence",
  b!"returnConfidence", b!"returnActivationDegree", b!"returnClassesDegrees"]

/-- The same named parts, up to members without meaning. -/
def SameParts (R : Json → Json → Prop) (j j' : Json) : Prop :=
  j = j' ∨ ∃ l l', j = .obj l ∧ j' = .obj l' ∧ List.Forall₂ (fun e e' => e.1 = e'.1 ∧ R e.2 e'.2) l l'

/-- The same class of a Wisard, up to members without meaning. -/
def SameClass (j j' : Json) : Prop := AgreeOn partNames (membersOf j) (membersOf j')

/-- The same cluster of a ClusWisard, up to members without meaning. -/
def SameCluster (j j' : Json) : Prop :=
  AgreeOn clusterNames (membersOf j) (membersOf j') ∧
    List.Forall₂ SameClass (elementsOf (valueOf (membersOf j) b!"discriminators"))
      (elementsOf (valueOf (membersOf j') b!"discriminators"))

/-- The same Wisard document, up to members without meaning. -/
def SameWisard (m m' : List (Str × Json)) : Prop :=
  AgreeOn wisardNames m m' ∧ SameParts SameClass (valueOf m b!"classes") (valueOf m' b!"classes")

/-- The same ClusWisard document, up to members without meaning. -/
def SameClus (m m' : List (Str × Json)) : Prop :=
  AgreeOn clusNames m m' ∧ SameParts SameCluster (valueOf m b!"clusters") (valueOf m' b!"clusters") ∧
    ((valueOf m b!"unsupervisedCluster" = .null ↔ valueOf m' b!"unsupervisedCluster" = .null) ∧
      SameCluster (valueOf m b!"unsupervisedCluster") (valueOf m' b!"unsupervisedCluster"))

end Wis.Spec
