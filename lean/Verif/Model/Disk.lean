import Verif.Model.ClusWisardJson
import Verif.Model.DataSet
/-!
# Saving to a disk that may fail

The functions of the library that write files, on a file system that may refuse to open a file or run out of space.
`std::ofstream` reports this by its state only (`failbit`, `badbit`), which the library never looks at: after a failed
`open` every `<<` is a no-op, and after a failed `<<` the following ones are. So of everything one function writes to one
file the file system keeps either nothing (not even an empty file) or a beginning. The functions are those of
Model/DiscriminatorJson.lean, WisardJson.lean, ClusWisardJson.lean, RamData.lean and DataSet.lean with `Disk.append` in
place of `Fs.append`. Simplification: an `open` that creates the file and whose writes all fail is `some 0`.
-/

namespace Wis

/-- What the file system lets a program write: with these files, opening the file `name` for append fails (`none`) or
leaves room for so many more bytes. For ramdatahandle.cc:59-65, dataset.cc:62-68. -/
structure Disk where
  room : Fs → Str → Option Nat

namespace Disk

/-- `dataFile.open(name, std::ios::app)`, the writes, `dataFile.close()` (discriminator.cc:264-271,
ramdatahandle.cc:58-65, dataset.cc:61-68): the state of the stream is never checked. -/
def append (k : Disk) (fs : Fs) (name content : Str) : Fs :=
  match k.room fs name with
  | none => fs
  | some n => fs.append name (content.take n)

end Disk

namespace Discriminator

/-- `getRAMsData(huge, prefix)`, discriminator.cc:260-281, see `getRAMsData`. -/
def getRAMsDataOn (k : Disk) (it : IterOrder) (fs : Fs) (d : Discriminator) (huge : Bool) (pre random : Str) : Res (Fs × Str) :=
  if huge then do
    let filename := pre ++ random ++ ramdataSufix
    let content ← fileText it d.rams 0
    .ok (k.append fs filename content, filename)
  else do
    let data ← dataText it d.rams []
    .ok (fs, data)

/-- `json(huge, path)`, discriminator.cc:124-133, see `json`. -/
def jsonOn (k : Disk) (it : IterOrder) (fs : Fs) (d : Discriminator) (huge : Bool) (path random : Str) : Res (Fs × Json) := do
  let config := d.withRamConfig (d.getConfig true)
  let (fs, data) ← d.getRAMsDataOn k it fs huge path random
  let config ← config.setKey b!"data" (.str data)
  let config ← config.setKey b!"version" (.str version)
  .ok (fs, config)

/-- `getJSON(huge, prefix)`, discriminator.cc:148-153, see `getJSON`. -/
def getJSONOn (k : Disk) (it : IterOrder) (fs : Fs) (d : Discriminator) (huge : Bool) (pre random : Str) : Res (Fs × Json) := do
  let (fs, data) ← d.getRAMsDataOn k it fs huge pre random
  .ok (fs, .obj (SMap.set (d.getConfig true) b!"data" (.str data)))

end Discriminator

namespace Wisard

/-- Loop of `getClassesJSON`, wisard.cc:190-192, see `classesJson`. -/
def classesJsonOn (k : Disk) (it : IterOrder) (huge : Bool) (path : Str) (random : Nat → Str) :
    SMap Discriminator → Nat → Fs → Json → Res (Fs × Json)
  | [], _, fs, c => .ok (fs, c)
  | (l, d) :: ds, i, fs, c => do
    let (fs, j) ← d.getJSONOn k it fs huge (path ++ l ++ b!"__") (random i)
    let c ← c.setKey l j
    classesJsonOn k it huge path random ds (i + 1) fs c

/-- `json(huge, path)`, wisard.cc:134-138, see `json`. -/
def jsonOn (k : Disk) (it : IterOrder) (fs : Fs) (w : Wisard) (huge : Bool) (path : Str) (random : Nat → Str) :
    Res (Fs × Json) := do
  let (fs, classes) ← classesJsonOn k it huge path random w.discriminators 0 fs .null
  let config ← w.getConfig.setKey b!"classes" classes
  .ok (fs, config)

end Wisard

namespace Cluster

/-- Loop of `getJson`, cluster.cc:94-96, see `discsJson`. -/
def discsJsonOn (k : Disk) (it : IterOrder) (huge : Bool) (path : Str) (random : Nat → Str) :
    List (Option Discriminator) → Nat → Fs → List Json → Res (Fs × List Json)
  | [], _, fs, c => .ok (fs, c)
  | none :: _, _, _, _ => .error (.ub .nullDeref)
  | some d :: ds, i, fs, c => do
    let (fs, j) ← d.getJSONOn k it fs huge (path ++ natStr i ++ b!"__") (random i)
    discsJsonOn k it huge path random ds (i + 1) fs (c ++ [j])

/-- `getJson(huge, path)`, cluster.cc:92-103, see `getJson`. -/
def getJsonOn (k : Disk) (it : IterOrder) (fs : Fs) (cl : Cluster) (huge : Bool) (path : Str) (random : Nat → Str) :
    Res (Fs × Json) := do
  let (fs, ds) ← discsJsonOn k it huge path random cl.discriminators 0 fs []
  match cl.cfg with
  | none => .error (.ub .uninitialised)
  | some c => .ok (fs, Json.ofList [(b!"entrySize", .int c.entrySize),
      (b!"discriminators", if cl.discriminators.length = 0 then .null else .arr ds)])

end Cluster

namespace ClusWisard

/-- Loop of `getClustersJson`, cluswisard.cc:293-295, see `clustersJson`. -/
def clustersJsonOn (k : Disk) (it : IterOrder) (huge : Bool) (path : Str) (random : Nat → Nat → Str) :
    SMap Cluster → Nat → Fs → Json → Res (Fs × Json)
  | [], _, fs, c => .ok (fs, c)
  | (l, cl) :: cs, i, fs, c => do
    let (fs, j) ← cl.getJsonOn k it fs huge (path ++ l ++ b!"__") (random i)
    let c ← c.setKey l j
    clustersJsonOn k it huge path random cs (i + 1) fs c

/-- The supervised part of `json(huge, path)`, cluswisard.cc:184-187, see `jsonSupervised`. -/
def jsonSupervisedOn (k : Disk) (it : IterOrder) (fs : Fs) (w : ClusWisard) (huge : Bool) (path : Str)
    (random : Nat → Nat → Str) : Res (Fs × Json) :=
  if w.clusters.length > 0 then do
    let (fs, cs) ← clustersJsonOn k it huge path random w.clusters 0 fs .null
    let config ← w.getConfig.setKey b!"clusters" cs
    .ok (fs, config)
  else .ok (fs, w.getConfig)

/-- `json(huge, path)`, cluswisard.cc:183-192, see `json`. -/
def jsonOn (k : Disk) (it : IterOrder) (fs : Fs) (w : ClusWisard) (huge : Bool) (path : Str) (random : Nat → Nat → Str) :
    Res (Fs × Json) := do
  let (fs, config) ← w.jsonSupervisedOn k it fs huge path random
  if w.unsupervisedCluster.getSize > 0 then do
    let (fs, j) ← w.unsupervisedCluster.getJsonOn k it fs huge (path ++ b!"unsupervised_cluster__") (random w.clusters.length)
    let config ← config.setKey b!"unsupervisedCluster" j
    .ok (fs, config)
  else .ok (fs, config)

end ClusWisard

/-- `RAMDataHandle::save(prefix)`, ramdatahandle.cc:56-66, see `RamData.save`. -/
def RamData.saveOn (k : Disk) (it : IterOrder) (fuel : Nat) (fs : Fs) (h : RamData) (pre : Str) : RamData × Option (Res Fs) :=
  let filename := pre ++ ramdataSufix
  match dataLoop it fuel h 0 [] with
  | (h, none) => (h, none)
  | (h, some (.error e)) => (h, some (.error e))
  | (h, some (.ok out)) => (h, some (.ok (k.append fs filename out)))

/-- `DataSet::save(prefix)`, dataset.cc:59-69, see `DataSet.save`. -/
def DataSet.saveOn (k : Disk) (d : DataSet) (fs : Fs) (pre : Str) : Res (DataSet × Fs) := do
  let filename := pre ++ datasetSufix
  let (ls, out) ← saveLoop d.data 0 d.labels
  .ok ({ d with labels := ls }, k.append fs filename out)

end Wis
