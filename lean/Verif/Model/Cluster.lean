import Verif.Model.Wisard
/-!
# Model of `/repo/src/models/cluswisard/cluster.cc`

`float` arithmetic: a `float` is a rational, every operation rounds its exact result by an unspecified
function `rnd` that is only assumed to be monotone and exact on 0 and 1, which all IEEE rounding modes are
(the numbers that occur lie far below the overflow threshold of `float`).
-/

namespace Wis

/-- Rounding of a `float` operation. For cluster.cc:51-62, 144-161. -/
structure Flt where
  rnd : Rat → Rat
  mono : ∀ {x y : Rat}, x ≤ y → rnd x ≤ rnd y
  zero : rnd 0 = 0
  one : rnd 1 = 1

/-- Exact arithmetic. For cluster.cc:51-62, 144-161. -/
def Flt.exact : Flt := ⟨fun x => x, fun h => h, rfl, rfl⟩

/-- The arguments of the constructor of `Cluster`, cluster.cc:5-10, 123-130. `addressSize` and `entrySize` are
stored as `unsigned int` and converted back when used: the value is unchanged. -/
structure ClusterCfg where
  addressSize : Int
  entrySize : Int
  minScore : Rat
  threshold : Nat
  discriminatorsLimit : Int
  completeAddressing : Bool
  ignoreZero : Bool
  base : Int
  deriving DecidableEq, Repr

/-- `class Cluster`, cluster.cc:121-130. `cfg = none`: made by `Cluster()`, whose numbers are uninitialised.
`discriminators` (a map with the keys 0, 1, …, n-1) is a list; `none` is a null pointer, left by
`discriminators[index] = new Discriminator(...)` when the constructor throws after the left-hand side was
evaluated. -/
structure Cluster where
  cfg : Option ClusterCfg
  discriminators : List (Option Discriminator)
  deriving DecidableEq, Repr

namespace Cluster

/-- `Cluster()`, cluster.cc:4. -/
def default : Cluster := ⟨none, []⟩

/-- `Cluster(entrySize, …)`, cluster.cc:5-10. -/
def create (c : ClusterCfg) : Cluster := ⟨some c, []⟩

/-- Loop of `getScore`, cluster.cc:54-57, on `(max, sum)`. -/
def scoreLoop (f : Flt) : List Int → Int → Rat → Int × Rat
  | [], max, sum => (max, sum)
  | v :: vs, max, sum => scoreLoop f vs (if v > max then v else max) (f.rnd (sum + f.rnd v))

/-- `getScore`, cluster.cc:51-62. -/
def getScore (f : Flt) (votes : List Int) : Rat :=
  let (max, sum) := scoreLoop f votes 0 0
  if max = 0 then 0 else f.rnd (sum / f.rnd (max * votes.length))

/-- `limit`, cluster.cc:158-159. The constructor of ClusWisard guarantees `threshold ≥ 1`; a threshold 0 (only in a
JSON text written by hand) is in `Cluster.limitF`, Model/NanArgs.lean. -/
def limit (f : Flt) (c : ClusterCfg) (count : Int) : Rat :=
  let l := f.rnd (c.minScore + f.rnd (f.rnd count / f.rnd c.threshold))
  if l > 1 then 1 else l

/-- The right-hand side of `makeDiscriminator`, cluster.cc:133, i.e. discriminator.cc:52-54. -/
def newDiscriminator (rnd : Rnd) (c : ClusterCfg) : Res Discriminator :=
  Discriminator.setRAMShuffle rnd c.entrySize c.addressSize c.ignoreZero c.completeAddressing c.base

/-- `makeDiscriminator(discriminators.size())` followed by `discriminators[index]->train(image)`,
cluster.cc:132-134, 139-140, 168-170. -/
def trainNew (cl : Cluster) (env : Env) (img : Image) : Cluster × Res Unit :=
  match cl.cfg with
  | none => (cl, .error (.ub .uninitialised))
  | some c =>
    match newDiscriminator env.rnd c with
    | .ok d =>
      let (d', r) := d.train img
      ({ cl with discriminators := cl.discriminators ++ [some d'] }, r)
    | .error e =>
      if env.lhsFirst then ({ cl with discriminators := cl.discriminators ++ [none] }, .error e)
      else (cl, .error e)

/-- The loop over the discriminators, cluster.cc:148-165, from index `i` on, with `(bestValue,
bestDiscriminator, trained)`. -/
def scan (f : Flt) (c : ClusterCfg) (img : Image) : List (Option Discriminator) → Nat → Rat → Option Nat → Bool →
    List (Option Discriminator) × Res (Option Nat × Bool)
  | [], _, _, bestDiscriminator, trained => ([], .ok (bestDiscriminator, trained))
  | none :: ds, _, _, _, _ => (none :: ds, .error (.ub .nullDeref))
  | some d :: ds, i, bestValue, bestDiscriminator, trained =>
    match d.classify img with
    | .error e => (some d :: ds, .error e)
    | .ok votes =>
      let score := getScore f votes
      let bestDiscriminator' := if score ≥ bestValue then some i else bestDiscriminator
      let bestValue' := if score ≥ bestValue then score else bestValue
      if score ≥ limit f c d.getNumberOfTrainings then
        match d.train img with
        | (d', .ok ()) =>
          let (ds', r) := scan f c img ds (i + 1) bestValue' bestDiscriminator' true
          (some d' :: ds', r)
        | (d', .error e) => (some d' :: ds, .error e)
      else
        let (ds', r) := scan f c img ds (i + 1) bestValue' bestDiscriminator' trained
        (some d :: ds', r)

/-- `discriminators[i]->train(image)`. cluster.cc:162, 175. -/
def trainAt (ds : List (Option Discriminator)) (i : Nat) (img : Image) : List (Option Discriminator) × Res Unit :=
  match ds[i]? with
  | some (some d) => (ds.set i (some (d.train img).1), (d.train img).2)
  | _ => (ds, .error (.ub .nullDeref))

/-- `train<T>(image)`, cluster.cc:136-177. -/
def train (f : Flt) (cl : Cluster) (env : Env) (img : Image) : Cluster × Res Unit :=
  if cl.discriminators.length = 0 then cl.trainNew env img
  else
    match cl.cfg with
    | none => (cl, .error (.ub .uninitialised))
    | some c =>
      match scan f c img cl.discriminators 0 0 none false with
      | (ds, .error e) => ({ cl with discriminators := ds }, .error e)
      | (ds, .ok (best, trained)) =>
        let cl' : Cluster := { cl with discriminators := ds }
        if trained then (cl', .ok ())
        else if (ds.length : Int) < c.discriminatorsLimit then cl'.trainNew env img
        else
          match best with
          | none => (cl', .ok ())
          | some i =>
            let (ds', r) := trainAt ds i img
            ({ cl with discriminators := ds' }, r)

/-- Loop of `classify`, cluster.cc:182-184. -/
def classifyLoop (img : Image) : List (Option Discriminator) → Res (List (List Int))
  | [] => .ok []
  | none :: _ => .error (.ub .nullDeref)
  | some d :: ds => do
    let v ← d.classify img
    let vs ← classifyLoop img ds
    .ok (v :: vs)

/-- `classify`, cluster.cc:179-186. -/
def classify (cl : Cluster) (img : Image) : Res (List (List Int)) := classifyLoop img cl.discriminators

/-- `getNumberOfDiscriminators`, `getSize`, cluster.cc:80-82, 105-107. -/
def getSize (cl : Cluster) : Nat := cl.discriminators.length

/-- Loop of `getMentalImages`, cluster.cc:86-88. -/
def mentalLoop (it : IterOrder) : List (Option Discriminator) → Res (List (List Int))
  | [] => .ok []
  | none :: _ => .error (.ub .nullDeref)
  | some d :: ds => do
    let m ← d.getMentalImage it
    let ms ← mentalLoop it ds
    .ok (m :: ms)

/-- `getMentalImages`, cluster.cc:84-90. -/
def getMentalImages (cl : Cluster) (it : IterOrder) : Res (List (List Int)) := mentalLoop it cl.discriminators

/-- Loop of `getsizeof`, cluster.cc:111-113. -/
def sizeLoop (sizeofDiscriminator sizeofRAM : Int) : List (Option Discriminator) → Int → Res Int
  | [], s => .ok s
  | none :: _, _ => .error (.ub .nullDeref)
  | some d :: ds, s => sizeLoop sizeofDiscriminator sizeofRAM ds (s + (4 + d.getsizeof sizeofDiscriminator sizeofRAM))

/-- `getsizeof`, cluster.cc:109-115, with the `sizeof` constants as parameters (`sizeof(int)` = 4). -/
def getsizeof (sizeofCluster sizeofDiscriminator sizeofRAM : Int) (cl : Cluster) : Res Int :=
  sizeLoop sizeofDiscriminator sizeofRAM cl.discriminators sizeofCluster

end Cluster
end Wis
