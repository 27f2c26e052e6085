import Verif.Model.SavedText
/-!
# Pretty printed JSON texts: what `jsonConfig()` returns

`dump(2)` of json.hpp and the texts of `jsonConfig()`. The string of blanks that `dump` keeps (json.hpp:8305-8308,
8378-8381) is not modelled: it has 512 blanks and is doubled when it is too short, and the indentation grows by 2 at a time,
so it always has the blanks that are written.
-/

namespace Wis
namespace JsonText

/-- `n` blanks of `indent_string`. json.hpp:8305-8310, 8378-8383. -/
def blanks (n : Nat) : Str := List.replicate n 0x20

mutual
/-- `dump(val, true, false, 2, current_indent)`, json.hpp:8286-8476. -/
def dumpPretty (ft : FloatText) (indent : Nat) : Json → Res Str
  | .null => .ok b!"null"
  | .bool b => .ok (if b then b!"true" else b!"false")
  | .int i => dumpInteger i
  | .real q => .ok (ft.write q)
  | .str s => dumpString s
  | .arr [] => .ok b!"[]"
  | .arr (j :: js) => do
    let r ← prettyElems ft (indent + 2) (j :: js)
    .ok (b!"[\n" ++ r ++ b!"\n" ++ blanks indent ++ b!"]")
  | .obj [] => .ok b!"{}"
  | .obj (e :: m) => do
    let r ← prettyMembers ft (indent + 2) (e :: m)
    .ok (b!"{\n" ++ r ++ b!"\n" ++ blanks indent ++ b!"}")
/-- Loop over the elements of an array, json.hpp:8385-8397; `indent` is `new_indent`. -/
def prettyElems (ft : FloatText) (indent : Nat) : List Json → Res Str
  | [] => .ok []
  | [j] => do
    let a ← dumpPretty ft indent j
    .ok (blanks indent ++ a)
  | j :: j' :: js => do
    let a ← dumpPretty ft indent j
    let r ← prettyElems ft indent (j' :: js)
    .ok (blanks indent ++ a ++ b!",\n" ++ r)
/-- Loop over the members of an object, json.hpp:8312-8331; `indent` is `new_indent`. -/
def prettyMembers (ft : FloatText) (indent : Nat) : List (Str × Json) → Res Str
  | [] => .ok []
  | [(k, j)] => do
    let a ← dumpString k
    let b ← dumpPretty ft indent j
    .ok (blanks indent ++ a ++ b!": " ++ b)
  | (k, j) :: e :: m => do
    let a ← dumpString k
    let b ← dumpPretty ft indent j
    let r ← prettyMembers ft indent (e :: m)
    .ok (blanks indent ++ a ++ b!": " ++ b ++ b!",\n" ++ r)
end

end JsonText

/-- `jsonConfig()`, discriminator.cc:114-122. -/
def Discriminator.jsonConfigText (ft : FloatText) (d : Discriminator) : Res Str := do
  let j ← d.jsonConfig
  JsonText.dumpPretty ft 0 j

/-- `jsonConfig()`, wisard.cc:128-132. -/
def Wisard.jsonConfigText (ft : FloatText) (w : Wisard) : Res Str := do
  let j ← w.jsonConfig
  JsonText.dumpPretty ft 0 j

/-- `jsonConfig()`, cluswisard.cc:178-181. -/
def ClusWisard.jsonConfigText (ft : FloatText) (w : ClusWisard) : Res Str := JsonText.dumpPretty ft 0 w.jsonConfig

end Wis
