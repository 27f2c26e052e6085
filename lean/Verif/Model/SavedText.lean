import Verif.Model.JsonText
import Verif.Model.ClusWisardJson
/-!
# The texts that `json()` returns and that the constructors read

Model/DiscriminatorJson, Model/WisardJson and Model/ClusWisardJson build and read JSON values; here they are joined with
`dump` and `parse` (Model/JsonText). If `dump` throws, files that were written before stay (not visible in these results).
-/

namespace Wis

/-- Print a value that was built.
`dump` of discriminator.cc:121, 132, wisard.cc:131, 137, cluswisard.cc:180, 191; json.hpp:8286-8476. -/
def dumped (ft : FloatText) (r : Res (Fs × Json)) : Res (Fs × Str) := do
  let (fs, j) ← r
  let t ← JsonText.dump ft j
  .ok (fs, t)

/-- `json(huge, path)`, discriminator.cc:124-133. -/
def Discriminator.jsonText (it : IterOrder) (ft : FloatText) (fs : Fs) (d : Discriminator) (huge : Bool) (path random : Str) :
    Res (Fs × Str) := dumped ft (d.json it fs huge path random)

/-- `Discriminator(std::string)`, discriminator.cc:6. -/
def Discriminator.ofText (ft : FloatText) (fs : Fs) (text : Str) : Res Discriminator := do
  let j ← JsonText.parse ft text
  Discriminator.ofJson fs j

/-- `json(huge, path)`, wisard.cc:134-138. -/
def Wisard.jsonText (it : IterOrder) (ft : FloatText) (fs : Fs) (w : Wisard) (huge : Bool) (path : Str) (random : Nat → Str) :
    Res (Fs × Str) := dumped ft (w.json it fs huge path random)

/-- `Wisard(std::string)`, wisard.cc:46-60 (the text is parsed twice, with the same result). -/
def Wisard.ofText (ft : FloatText) (fs : Fs) (text : Str) : Res Wisard := do
  let j ← JsonText.parse ft text
  Wisard.ofJson fs j

/-- `json(huge, path)`, cluswisard.cc:183-192. -/
def ClusWisard.jsonText (it : IterOrder) (ft : FloatText) (fs : Fs) (w : ClusWisard) (huge : Bool) (path : Str)
    (random : Nat → Nat → Str) : Res (Fs × Str) := dumped ft (w.json it fs huge path random)

/-- `ClusWisard(std::string)`, cluswisard.cc:45-76 (the text is parsed twice, with the same result). -/
def ClusWisard.ofText (ft : FloatText) (fs : Fs) (text : Str) : Res ClusWisard := do
  let j ← JsonText.parse ft text
  ClusWisard.ofJson fs j

end Wis
