import Verif.Model.Bytes
/-!
# JSON values as `/repo/src/libs/json.hpp` (nlohmann::json) represents them in memory

Only the operations used by the library. The text form (`dump`, `parse`) is in Model/JsonText. `float` values are exact
rationals.
-/

namespace Wis

/-- `nl::json`; an object is a `std::map` (sorted keys). json.hpp (class `basic_json`, values `value_t` and `json_value`). -/
inductive Json where
  | null
  | bool (b : Bool)
  | int (i : Int)
  | real (q : Rat)
  | str (s : Str)
  | arr (l : List Json)
  | obj (m : List (Str × Json))

namespace Json

/-- An object from an initializer list `{{k, v}, …}`.
json.hpp:10982; used in discriminator.cc:12-15, 303-306, wisard.cc:205-219, cluswisard.cc:52-60, 300-316, cluster.cc:38-41. -/
def ofList (l : List (Str × Json)) : Json := .obj (l.foldl (fun m e => SMap.set m e.1 e.2) [])

/-- `j[k]` read: a missing key is created with value null; null turns into an object; any other type throws.
json.hpp:12741-12758. -/
def key (j : Json) (k : Str) : Res Json :=
  match j with
  | .null => .ok .null
  | .obj m => .ok ((SMap.find m k).getD .null)
  | _ => .error (.throw .jsonType)

/-- `j[k] = v`. json.hpp:12741-12758. -/
def setKey (j : Json) (k : Str) (v : Json) : Res Json :=
  match j with
  | .null => .ok (.obj (SMap.set [] k v))
  | .obj m => .ok (.obj (SMap.set m k v))
  | _ => .error (.throw .jsonType)

/-- `is_null()`. json.hpp:11665. -/
def isNull : Json → Bool
  | .null => true
  | _ => false

/-- `get<bool>()`. json.hpp:940-947. -/
def asBool : Json → Res Bool
  | .bool b => .ok b
  | _ => .error (.throw .jsonType)

/-- Narrowing conversion of a 64 bit integer to `int`. json.hpp:1124-1131. -/
def narrow (i : Int) : Int := (BitVec.ofInt 32 i).toInt

/-- `get<int>()`: numbers and booleans are accepted; integers are narrowed, a floating point number outside
the range of `int` is UB. json.hpp:1118-1146. -/
def asInt : Json → Res Int
  | .int i => .ok (narrow i)
  | .bool b => .ok (if b then 1 else 0)
  | .real q => i32 (q.num.tdiv q.den)
  | _ => .error (.throw .jsonType)

/-- `get<float>()` (rounding to `float` is not modelled: the library only stores `float` values). json.hpp:1118-1146. -/
def asReal : Json → Res Rat
  | .int i => .ok i
  | .bool b => .ok (if b then 1 else 0)
  | .real q => .ok q
  | _ => .error (.throw .jsonType)

/-- `get<std::string>()`. json.hpp:950-957. -/
def asStr : Json → Res Str
  | .str s => .ok s
  | _ => .error (.throw .jsonType)

/-- Elements of a `std::vector<int>`. json.hpp:1040-1055. -/
def intsOf : List Json → Res (List Int)
  | [] => .ok []
  | j :: js => do
    let i ← j.asInt
    let is ← intsOf js
    .ok (i :: is)

/-- `get<std::vector<int>>()`. json.hpp:1075-1084. -/
def asInts : Json → Res (List Int)
  | .arr l => intsOf l
  | _ => .error (.throw .jsonType)

/-- Elements of a `std::vector<std::vector<int>>`. json.hpp:1040-1055. -/
def intssOf : List Json → Res (List (List Int))
  | [] => .ok []
  | j :: js => do
    let i ← j.asInts
    let is ← intssOf js
    .ok (i :: is)

/-- `get<std::vector<std::vector<int>>>()`. json.hpp:1075-1084. -/
def asIntss : Json → Res (List (List Int))
  | .arr l => intssOf l
  | _ => .error (.throw .jsonType)

/-- Members of a `std::map<std::string, std::vector<std::vector<int>>>`. json.hpp:1088-1106. -/
def mappingOf : List (Str × Json) → Res (SMap (List (List Int)))
  | [] => .ok []
  | (k, j) :: js => do
    let i ← j.asIntss
    let is ← mappingOf js
    .ok ((k, i) :: is)

/-- `get<std::map<std::string, std::vector<std::vector<int>>>>()`. json.hpp:1088-1106. -/
def asMapping : Json → Res (SMap (List (List Int)))
  | .obj m => mappingOf m
  | _ => .error (.throw .jsonType)

/-- A `std::vector<int>` as JSON. Used in discriminator.cc:303-306. -/
def ofInts (l : List Int) : Json := .arr (l.map .int)

/-- A `std::vector<std::vector<int>>` as JSON. Used in discriminator.cc:303-306. -/
def ofIntss (l : List (List Int)) : Json := .arr (l.map ofInts)

/-- Values visited by `for (it = j.begin(); it != j.end(); ++it)` with `*it`: none for null, the elements of
an array, the values of an object in key order, the value itself for a scalar. json.hpp:4068, 13545. -/
def elems : Json → List Json
  | .null => []
  | .arr l => l
  | .obj m => m.map (·.2)
  | j => [j]

/-- The same loop with `it.key()` and `it.value()`: `key()` throws for anything but objects. json.hpp:4068, 13545. -/
def items : Json → Res (List (Str × Json))
  | .null => .ok []
  | .arr [] => .ok []
  | .obj m => .ok m
  | _ => .error (.throw .jsonType)

/-- Remove a key of an object. json.hpp:13368. -/
def erase (m : List (Str × Json)) (k : Str) : List (Str × Json) := m.filter (fun e => !decide (e.1 = k))

mutual
/-- `target.merge_patch(patch)` (RFC 7396), json.hpp:17130-17154: null members of the patch erase. -/
def mergePatch (target : Json) : Json → Json
  | .obj p => .obj (mergeMembers (match target with | .obj m => m | _ => []) p)
  | j => j
/-- Loop of `merge_patch` over the members of the patch. json.hpp:17138-17148. -/
def mergeMembers (m : List (Str × Json)) : List (Str × Json) → List (Str × Json)
  | [] => m
  | (k, .null) :: p => mergeMembers (erase m k) p
  | (k, v) :: p => mergeMembers (SMap.set m k (mergePatch ((SMap.find m k).getD .null) v)) p
end

end Json
end Wis
