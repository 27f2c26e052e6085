import Verif.Model.DiscriminatorJson
import Verif.Model.Wisard
/-!
# Model of the JSON part of `/repo/src/models/wisard/wisard.cc`
-/

namespace Wis

/-- `value = c[k]; value.is_null() ? dflt : value.get<T>()`.
wisard.cc:9-43, cluswisard.cc:13-43, cluster.cc:14-36, discriminator.cc:23-36. -/
def Json.opt {α : Type} (c : Json) (k : Str) (dflt : α) (get : Json → Res α) : Res α := do
  let v ← c.key k
  if v.isNull then .ok dflt else get v

namespace Wisard

/-- `Wisard(int, nl::json)`, wisard.cc:5-44: the options. -/
def optsOfJson (c : Json) : Res WisardOpts := do
  let bleachingActivated ← c.opt b!"bleachingActivated" true Json.asBool
  let verbose ← c.opt b!"verbose" false Json.asBool
  let ignoreZero ← c.opt b!"ignoreZero" false Json.asBool
  let completeAddressing ← c.opt b!"completeAddressing" true Json.asBool
  let mapping ← c.opt b!"mapping" [] Json.asMapping
  let indexes ← c.opt b!"indexes" [] Json.asInts
  let base ← c.opt b!"base" 2 Json.asInt
  let confidence ← c.opt b!"confidence" 1 Json.asInt
  let searchBestConfidence ← c.opt b!"searchBestConfidence" false Json.asBool
  let returnConfidence ← c.opt b!"returnConfidence" false Json.asBool
  let returnActivationDegree ← c.opt b!"returnActivationDegree" false Json.asBool
  let returnClassesDegrees ← c.opt b!"returnClassesDegrees" false Json.asBool
  .ok { bleachingActivated := bleachingActivated, verbose := verbose, mapping := mapping, indexes := indexes,
        ignoreZero := ignoreZero, completeAddressing := completeAddressing, base := base,
        searchBestConfidence := searchBestConfidence, returnConfidence := returnConfidence,
        returnActivationDegree := returnActivationDegree, returnClassesDegrees := returnClassesDegrees,
        confidence := confidence }

/-- Loop of `Wisard(std::string)`, wisard.cc:55-59. -/
def classesOfJson (fs : Fs) (dConfig : Json) : List (Str × Json) → SMap Discriminator → Res (SMap Discriminator)
  | [], m => .ok m
  | (k, j) :: js, m => do
    let d ← Discriminator.ofJson fs (j.mergePatch dConfig)
    classesOfJson fs dConfig js (m.set k d)

/-- `Wisard(std::string)`, wisard.cc:46-60, on the parsed value. -/
def ofJson (fs : Fs) (c : Json) : Res Wisard := do
  let opts ← optsOfJson c
  let j ← c.key b!"addressSize"
  let addressSize ← j.asInt
  let classes ← c.key b!"classes"
  let items ← classes.items
  let ds ← classesOfJson fs (Json.ofList [(b!"ignoreZero", .bool opts.ignoreZero), (b!"base", .int opts.base)]) items []
  .ok ⟨addressSize, opts, ds⟩

/-- `getConfig`, wisard.cc:204-221. -/
def getConfig (w : Wisard) : Json :=
  Json.ofList [(b!"version", .str version), (b!"addressSize", .int w.addressSize),
    (b!"bleachingActivated", .bool w.opts.bleachingActivated), (b!"verbose", .bool w.opts.verbose),
    (b!"indexes", Json.ofInts w.opts.indexes),
    (b!"ignoreZero", .bool w.opts.ignoreZero), (b!"completeAddressing", .bool w.opts.completeAddressing),
    (b!"base", .int w.opts.base), (b!"confidence", .int w.opts.confidence),
    (b!"returnConfidence", .bool w.opts.returnConfidence),
    (b!"returnActivationDegree", .bool w.opts.returnActivationDegree),
    (b!"returnClassesDegrees", .bool w.opts.returnClassesDegrees)]

/-- Loop of `getClassesJSON(huge, path)`, wisard.cc:190-192; the `i`-th class uses the random string `random i`. -/
def classesJson (it : IterOrder) (huge : Bool) (path : Str) (random : Nat → Str) :
    SMap Discriminator → Nat → Fs → Json → Res (Fs × Json)
  | [], _, fs, c => .ok (fs, c)
  | (l, d) :: ds, i, fs, c => do
    let (fs, j) ← d.getJSON it fs huge (path ++ l ++ b!"__") (random i)
    let c ← c.setKey l j
    classesJson it huge path random ds (i + 1) fs c

/-- `json(huge, path)`, wisard.cc:134-138; `json()` is `json(false, "")`. -/
def json (it : IterOrder) (fs : Fs) (w : Wisard) (huge : Bool) (path : Str) (random : Nat → Str) : Res (Fs × Json) := do
  let (fs, classes) ← classesJson it huge path random w.discriminators 0 fs .null
  let config ← w.getConfig.setKey b!"classes" classes
  .ok (fs, config)

/-- Loop of `getConfigClassesJSON`, wisard.cc:198-200. -/
def configClassesJson : SMap Discriminator → Json → Res Json
  | [], c => .ok c
  | (l, d) :: ds, c => do
    let c ← c.setKey l d.getConfigJSON
    configClassesJson ds c

/-- `jsonConfig()`, wisard.cc:128-132. -/
def jsonConfig (w : Wisard) : Res Json := do
  let classes ← configClassesJson w.discriminators .null
  w.getConfig.setKey b!"classes" classes

end Wisard
end Wis
