import Verif.Model.ClusWisard
import Verif.Model.WisardJson
/-!
# Model of the JSON parts of `/repo/src/models/cluswisard/cluster.cc` and `cluswisard.cc`

`minScore` is a `float` whose text form (shortest `double`) reads back as the same number.
-/

namespace Wis

/-- `get<unsigned int>()`: integers are narrowed, a floating point number outside the range is UB.
json.hpp:1118-1146; used in cluster.cc:27. -/
def Json.asUInt : Json → Res Nat
  | .int i => .ok (BitVec.ofInt 32 i).toNat
  | .bool b => .ok (if b then 1 else 0)
  | .real q => if 0 ≤ q.num.tdiv q.den ∧ q.num.tdiv q.den < 4294967296 then .ok (q.num.tdiv q.den).toNat else .error (.ub .overflow)
  | _ => .error (.throw .jsonType)

namespace Cluster

/-- Loop of `getJson`, cluster.cc:94-96, from discriminator `i` on; discriminator `i` uses the random string `random i`.
`c` are the elements of the array so far. -/
def discsJson (it : IterOrder) (huge : Bool) (path : Str) (random : Nat → Str) :
    List (Option Discriminator) → Nat → Fs → List Json → Res (Fs × List Json)
  | [], _, fs, c => .ok (fs, c)
  | none :: _, _, _, _ => .error (.ub .nullDeref)
  | some d :: ds, i, fs, c => do
    let (fs, j) ← d.getJSON it fs huge (path ++ natStr i ++ b!"__") (random i)
    discsJson it huge path random ds (i + 1) fs (c ++ [j])

/-- `getJson(huge, path)`, cluster.cc:92-103: without discriminators `discriminatorsConfig` stays null; `entrySize` of
a cluster made by `Cluster()` is uninitialised. -/
def getJson (it : IterOrder) (fs : Fs) (cl : Cluster) (huge : Bool) (path : Str) (random : Nat → Str) : Res (Fs × Json) := do
  let (fs, ds) ← discsJson it huge path random cl.discriminators 0 fs []
  match cl.cfg with
  | none => .error (.ub .uninitialised)
  | some c => .ok (fs, Json.ofList [(b!"entrySize", .int c.entrySize),
      (b!"discriminators", if cl.discriminators.length = 0 then .null else .arr ds)])

/-- Loop of `Cluster(nl::json)`, cluster.cc:44-48. -/
def discsOfJson (fs : Fs) (dConfig : Json) : List Json → List (Option Discriminator) → Res (List (Option Discriminator))
  | [], ds => .ok ds
  | j :: js, ds => do
    let d ← Discriminator.ofJson fs (j.mergePatch dConfig)
    discsOfJson fs dConfig js (ds ++ [some d])

/-- `Cluster(nl::json)`, cluster.cc:11-49. -/
def ofJson (fs : Fs) (options : Json) : Res Cluster := do
  let addressSize ← options.opt b!"addressSize" 2 Json.asInt
  let entrySize ← options.opt b!"entrySize" 2 Json.asInt
  let minScore ← options.opt b!"minScore" 2 Json.asReal
  let discriminatorsLimit ← options.opt b!"discriminatorsLimit" 2 Json.asInt
  let threshold ← options.opt b!"threshold" 2 Json.asUInt
  let ignoreZero ← options.opt b!"ignoreZero" false Json.asBool
  let completeAddressing ← options.opt b!"completeAddressing" true Json.asBool
  let base ← options.opt b!"base" 2 Json.asInt
  let discriminatorsConfig ← options.key b!"discriminators"
  let ds ← discsOfJson fs (Json.ofList [(b!"ignoreZero", .bool ignoreZero), (b!"base", .int base)])
    discriminatorsConfig.elems []
  .ok ⟨some { addressSize := addressSize, entrySize := entrySize, minScore := minScore, threshold := threshold,
              discriminatorsLimit := discriminatorsLimit, completeAddressing := completeAddressing,
              ignoreZero := ignoreZero, base := base }, ds⟩

end Cluster

namespace ClusWisard

/-- The options read by `ClusWisard(int, float, int, int, nl::json)`, cluswisard.cc:11-41. -/
def optsOfJson (c : Json) : Res ClusOpts := do
  let bleachingActivated ← c.opt b!"bleachingActivated" true Json.asBool
  let verbose ← c.opt b!"verbose" false Json.asBool
  let ignoreZero ← c.opt b!"ignoreZero" false Json.asBool
  let completeAddressing ← c.opt b!"completeAddressing" true Json.asBool
  let base ← c.opt b!"base" 2 Json.asInt
  let confidence ← c.opt b!"confidence" 1 Json.asInt
  let searchBestConfidence ← c.opt b!"searchBestConfidence" false Json.asBool
  let returnConfidence ← c.opt b!"returnConfidence" false Json.asBool
  let returnActivationDegree ← c.opt b!"returnActivationDegree" false Json.asBool
  let returnClassesDegrees ← c.opt b!"returnClassesDegrees" false Json.asBool
  .ok { bleachingActivated := bleachingActivated, verbose := verbose, ignoreZero := ignoreZero, completeAddressing := completeAddressing,
        base := base, searchBestConfidence := searchBestConfidence, returnConfidence := returnConfidence,
        returnActivationDegree := returnActivationDegree, returnClassesDegrees := returnClassesDegrees,
        confidence := confidence }

/-- `dConfig` of `ClusWisard(std::string)`, cluswisard.cc:52-60. -/
def clusterConfig (addressSize : Int) (minScore : Rat) (threshold discriminatorsLimit : Int) (o : ClusOpts) : Json :=
  Json.ofList [(b!"addressSize", .int addressSize), (b!"minScore", .real minScore), (b!"threshold", .int threshold),
    (b!"discriminatorsLimit", .int discriminatorsLimit), (b!"completeAddressing", .bool o.completeAddressing),
    (b!"ignoreZero", .bool o.ignoreZero), (b!"base", .int o.base)]

/-- Loop of `ClusWisard(std::string)`, cluswisard.cc:64-68. -/
def clustersOfJson (fs : Fs) (dConfig : Json) : List (Str × Json) → SMap Cluster → Res (SMap Cluster)
  | [], m => .ok m
  | (k, j) :: js, m => do
    let c ← Cluster.ofJson fs (j.mergePatch dConfig)
    clustersOfJson fs dConfig js (m.set k c)

/-- `ClusWisard(std::string)`, cluswisard.cc:45-76, on the parsed value: the delegated constructor (with
`minScore = 0`, `threshold = discriminatorsLimit = 1`) never throws by its checks, and the loaded numbers are not
checked. Reading the clusters of null is the same as not reading. -/
def ofJson (fs : Fs) (c : Json) : Res ClusWisard := do
  let opts ← optsOfJson c
  let j ← c.key b!"addressSize"
  let addressSize ← j.asInt
  let j ← c.key b!"minScore"
  let minScore ← j.asReal
  let j ← c.key b!"threshold"
  let threshold ← j.asInt
  let j ← c.key b!"discriminatorsLimit"
  let discriminatorsLimit ← j.asInt
  let classes ← c.key b!"clusters"
  let items ← classes.items
  let clusters ← clustersOfJson fs (clusterConfig addressSize minScore threshold discriminatorsLimit opts) items []
  let unsupervisedConfig ← c.key b!"unsupervisedCluster"
  let unsupervised : Res Cluster := if unsupervisedConfig.isNull then .ok Cluster.default
    else Cluster.ofJson fs (unsupervisedConfig.mergePatch (clusterConfig addressSize minScore threshold discriminatorsLimit opts))
  let u ← unsupervised
  .ok ⟨addressSize, minScore, threshold, discriminatorsLimit, opts, clusters, u⟩

/-- `getConfig`, cluswisard.cc:299-318. -/
def getConfig (w : ClusWisard) : Json :=
  Json.ofList [(b!"version", .str version), (b!"addressSize", .int w.addressSize), (b!"minScore", .real w.minScore),
    (b!"threshold", .int w.threshold), (b!"discriminatorsLimit", .int w.discriminatorsLimit),
    (b!"bleachingActivated", .bool w.opts.bleachingActivated), (b!"verbose", .bool w.opts.verbose),
    (b!"ignoreZero", .bool w.opts.ignoreZero),
    (b!"completeAddressing", .bool w.opts.completeAddressing), (b!"base", .int w.opts.base),
    (b!"confidence", .int w.opts.confidence), (b!"returnConfidence", .bool w.opts.returnConfidence),
    (b!"returnActivationDegree", .bool w.opts.returnActivationDegree),
    (b!"returnClassesDegrees", .bool w.opts.returnClassesDegrees)]

/-- Loop of `getClustersJson`, cluswisard.cc:293-295; discriminator `j` of cluster `i` uses the random string
`random i j`. -/
def clustersJson (it : IterOrder) (huge : Bool) (path : Str) (random : Nat → Nat → Str) :
    SMap Cluster → Nat → Fs → Json → Res (Fs × Json)
  | [], _, fs, c => .ok (fs, c)
  | (l, cl) :: cs, i, fs, c => do
    let (fs, j) ← cl.getJson it fs huge (path ++ l ++ b!"__") (random i)
    let c ← c.setKey l j
    clustersJson it huge path random cs (i + 1) fs c

/-- The supervised part of `json(huge, path)`, cluswisard.cc:184-187. -/
def jsonSupervised (it : IterOrder) (fs : Fs) (w : ClusWisard) (huge : Bool) (path : Str) (random : Nat → Nat → Str) :
    Res (Fs × Json) :=
  if w.clusters.length > 0 then do
    let (fs, cs) ← clustersJson it huge path random w.clusters 0 fs .null
    let config ← w.getConfig.setKey b!"clusters" cs
    .ok (fs, config)
  else .ok (fs, w.getConfig)

/-- `json(huge, path)`, cluswisard.cc:183-192; `json()` is `json(false, "")`. The discriminators of the unsupervised
cluster use the random strings `random n`, `n` the number of clusters. -/
def json (it : IterOrder) (fs : Fs) (w : ClusWisard) (huge : Bool) (path : Str) (random : Nat → Nat → Str) :
    Res (Fs × Json) := do
  let (fs, config) ← w.jsonSupervised it fs huge path random
  if w.unsupervisedCluster.getSize > 0 then do
    let (fs, j) ← w.unsupervisedCluster.getJson it fs huge (path ++ b!"unsupervised_cluster__") (random w.clusters.length)
    let config ← config.setKey b!"unsupervisedCluster" j
    .ok (fs, config)
  else .ok (fs, config)

/-- `jsonConfig()`, cluswisard.cc:178-181. -/
def jsonConfig (w : ClusWisard) : Json := w.getConfig

end ClusWisard
end Wis
