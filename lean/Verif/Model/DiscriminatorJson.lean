import Verif.Model.Discriminator
import Verif.Model.RamData
import Verif.Model.Json
/-!
# Model of the JSON part of `/repo/src/models/wisard/discriminator.cc` and `ram.cc`

`json()` returns a text in the code; the model returns the value that the text denotes (Model/Json).
-/

namespace Wis

/-- `__version__`, version.h:1. version.h:1, used in wisard.cc:206, cluswisard.cc:301, discriminator.cc:120, 131. -/
def version : Str := b!"1.6.3"

/-- `RAM(nl::json)`, ram.cc:5-13. -/
def Ram.ofJson (fs : Fs) (c : Json) : Res Ram := do
  let j ← c.key b!"ignoreZero"
  let ignoreZero ← j.asBool
  let j ← c.key b!"base"
  let base ← j.asInt
  let j ← c.key b!"addresses"
  let addresses ← j.asInts
  Ram.checkLimitAddressSize addresses.length base
  let j ← c.key b!"data"
  let data ← j.asStr
  let handle ← RamData.ofText fs data
  .ok { addresses := addresses, positions := (handle.get 0).2, ignoreZero := ignoreZero, base := base }

/-- `RAM::getConfig`, ram.cc:72-78. -/
def Ram.getConfig (r : Ram) : Json := Json.ofList [(b!"ignoreZero", .bool r.ignoreZero), (b!"base", .int r.base)]

namespace Discriminator

/-- One RAM of `setRAMsData`, discriminator.cc:235-240, 249-255. -/
def ramOfData (fs : Fs) (rbase : Json) (addresses : Json) (data : Str) : Res Ram :=
  Ram.ofJson fs ((Json.ofList [(b!"addresses", addresses), (b!"data", .str data)]).mergePatch rbase)

/-- File loop of `setRAMsData`, discriminator.cc:230-241; `rest = none`: `eof()` holds. -/
def fileRams (fs : Fs) (rbase : Json) : List Json → Option Str → Res (List Ram)
  | [], _ => .ok []
  | _ :: _, none => .ok []
  | a :: as, some rest => do
    let r ← ramOfData fs rbase a (getline rest).1
    let rs ← fileRams fs rbase as (getline rest).2
    .ok (r :: rs)

/-- Text loop of `setRAMsData`, discriminator.cc:246-256: `rest` is the text from `pos` on. When no dot is left
`found` is -1, `substr` takes everything and `pos` becomes 0: the next RAM reads the text from the start. -/
def textRams (fs : Fs) (rbase : Json) (data : Str) : List Json → Str → Res (List Ram)
  | [], _ => .ok []
  | a :: as, rest =>
    match Str.findFrom rest c!"." 0 with
    | none => do
      let r ← ramOfData fs rbase a rest
      let rs ← textRams fs rbase data as data
      .ok (r :: rs)
    | some found => do
      let r ← ramOfData fs rbase a (rest.take found)
      let rs ← textRams fs rbase data as (rest.drop (found + 1))
      .ok (r :: rs)

/-- `setRAMsData`, discriminator.cc:224-258 (of a fresh object). Texts of 2^31 bytes and more are outside the
model (`int` positions). -/
def setRAMsData (fs : Fs) (mapping rbase : Json) (data : Str) : Res (List Ram) := do
  let isFile ← endsWith data ramdataSufix
  if isFile then
    match fs data with
    | none => .ok []
    | some content => fileRams fs rbase mapping.elems (some content)
  else if 2147483648 ≤ data.length then .error (.ub .overflow)
  else textRams fs rbase data mapping.elems data

/-- `Discriminator(nl::json)`, discriminator.cc:7-17. -/
def ofJson (fs : Fs) (config : Json) : Res Discriminator := do
  let j ← config.key b!"entrySize"
  let entrySize ← j.asInt
  let j ← config.key b!"count"
  let count ← j.asInt
  let j ← config.key b!"data"
  let data ← j.asStr
  let mapping ← config.key b!"mapping"
  let iz ← config.key b!"ignoreZero"
  let b ← config.key b!"base"
  let rams ← setRAMsData fs mapping (Json.ofList [(b!"ignoreZero", iz), (b!"base", b)]) data
  .ok { entrySize := entrySize, count := count, rams := rams }

/-- `getConfig(all)`, discriminator.cc:300-311. -/
def getConfig (d : Discriminator) (all : Bool) : List (Str × Json) :=
  let config := SMap.set (SMap.set [] b!"entrySize" (.int d.entrySize)) b!"mapping" (Json.ofIntss d.mapping)
  if all then SMap.set config b!"count" (.int d.count) else config

/-- Text loop of `getRAMsData`, discriminator.cc:275-278. -/
def dataText (it : IterOrder) : List Ram → Str → Res Str
  | [], data => .ok data
  | r :: rs, data => do
    let s ← r.getData it
    dataText it rs ((if data.length > 0 then data ++ b!"." else data) ++ s)

/-- File loop of `getRAMsData`, discriminator.cc:267-269: everything written to the file. -/
def fileText (it : IterOrder) : List Ram → Nat → Res Str
  | [], _ => .ok []
  | r :: rs, i => do
    let s ← r.getData it
    let rest ← fileText it rs (i + 1)
    .ok ((if i ≠ 0 then b!"." else []) ++ s ++ rest)

/-- `getRAMsData(huge, prefix)`, discriminator.cc:260-281; `random` is the result of `getRandomString(10)`. -/
def getRAMsData (it : IterOrder) (fs : Fs) (d : Discriminator) (huge : Bool) (pre random : Str) : Res (Fs × Str) :=
  if huge then do
    let filename := pre ++ random ++ ramdataSufix
    let content ← fileText it d.rams 0
    .ok (fs.append filename content, filename)
  else do
    let data ← dataText it d.rams []
    .ok (fs, data)

/-- `config.merge_patch(rams[0].getConfig())` if there is a RAM, discriminator.cc:116-118, 126-128. -/
def withRamConfig (d : Discriminator) (config : List (Str × Json)) : Json :=
  match d.rams with
  | [] => .obj config
  | r :: _ => (Json.obj config).mergePatch r.getConfig

/-- `json(huge, path)`, discriminator.cc:124-133; `json()` is `json(false, "")`. -/
def json (it : IterOrder) (fs : Fs) (d : Discriminator) (huge : Bool) (path random : Str) : Res (Fs × Json) := do
  let config := d.withRamConfig (d.getConfig true)
  let (fs, data) ← d.getRAMsData it fs huge path random
  let config ← config.setKey b!"data" (.str data)
  let config ← config.setKey b!"version" (.str version)
  .ok (fs, config)

/-- `jsonConfig()`, discriminator.cc:114-122. -/
def jsonConfig (d : Discriminator) : Res Json :=
  (d.withRamConfig (d.getConfig false)).setKey b!"version" (.str version)

/-- `getJSON(huge, prefix)`, discriminator.cc:148-153 (no `ignoreZero` and `base`). -/
def getJSON (it : IterOrder) (fs : Fs) (d : Discriminator) (huge : Bool) (pre random : Str) : Res (Fs × Json) := do
  let (fs, data) ← d.getRAMsData it fs huge pre random
  .ok (fs, .obj (SMap.set (d.getConfig true) b!"data" (.str data)))

/-- `getConfigJSON()`, discriminator.cc:142-146. -/
def getConfigJSON (d : Discriminator) : Json := .obj (d.getConfig false)

end Discriminator
end Wis
