import Verif.Model.Outcome
/-!
# Byte strings (`std::string`) and `std::map<std::string, _>`
-/

namespace Wis

/-- One `char`. Where the code does arithmetic on a (signed) `char` the model sign-extends explicitly.
As in utils.cc:84-105, 117-121. -/
abbrev Byte := BitVec 8

/-- `std::string`: a list of bytes. As in utils.cc:44-124. -/
abbrev Str := List Byte

/-- `b!"text"` is the byte string of an ASCII literal, expanded at elaboration time. -/
macro:max "b!" s:str : term => do
  let elems ← s.getString.toList.toArray.mapM fun c =>
    let n := Lean.Syntax.mkNumLit (toString c.toNat)
    `(BitVec.ofNat 8 $n)
  `(([$elems,*] : Str))

/-- `c!"x"` is the character literal `'x'` as a byte. -/
macro:max "c!" s:str : term => do
  let n := Lean.Syntax.mkNumLit (toString (s.getString.toList.headD 'x').toNat)
  `((BitVec.ofNat 8 $n : Byte))

/-- `s[i]` for a `const std::string&`: index `size()` reads the terminating NUL, beyond is UB.
As in utils.cc:84-105, 113-121. -/
def Str.at (s : Str) (i : Nat) : Res Byte :=
  if h : i < s.length then .ok s[i]
  else if i = s.length then .ok 0
  else .error (.ub .outOfBounds)

/-- `std::string::substr(pos, len)`: throws `std::out_of_range` if `pos > size()`.
Used in dataset.cc:6, 18, 20, ramdatahandle.cc:73, 92, 105-106, discriminator.cc:226, cluswisard.cc:142, 157, 225. -/
def Str.substr (s : Str) (pos len : Nat) : Res Str :=
  if pos ≤ s.length then .ok ((s.drop pos).take len) else .error (.throw .stdOutOfRange)

/-- `std::string::find(c, pos)`: position of the first `c` at or after `pos`, `none` = `npos`.
Used in dataset.cc:17, ramdatahandle.cc:91. -/
def Str.findFrom (s : Str) (c : Byte) (pos : Nat) : Option Nat :=
  match (s.drop pos).findIdx? (· == c) with
  | some k => some (pos + k)
  | none => none

/-- `std::string` comparison `<` (unsigned byte lexicographic, as `std::char_traits<char>` orders).
Used by the maps wisard.cc:264, cluswisard.cc:334. -/
def Str.lt : Str → Str → Bool
  | _, [] => false
  | [], _ :: _ => true
  | a :: s, b :: t => decide (a.toNat < b.toNat) || (a == b && Str.lt s t)

/-- `std::map<std::string, V>` in iteration (= key) order. As in wisard.cc:264, cluswisard.cc:334, bleaching.cc:4. -/
abbrev SMap (V : Type) := List (Str × V)

namespace SMap
variable {V W : Type}

/-- `m.find(k)` Used in wisard.cc:150, 224, cluswisard.cc:216. -/
def find (m : SMap V) (k : Str) : Option V :=
  match m with
  | [] => none
  | (k', v) :: m => if k' = k then some v else find m k

/-- `m[k] = v`: overwrite in place or insert at the sorted position.
Used in wisard.cc:183, 227-235, cluswisard.cc:235, 246, 288, bleaching.cc:25-28. -/
def set (m : SMap V) (k : Str) (v : V) : SMap V :=
  match m with
  | [] => [(k, v)]
  | (k', v') :: m =>
    if k' = k then (k, v) :: m
    else if Str.lt k k' then (k, v) :: (k', v') :: m
    else (k', v') :: set m k v

/-- keys in iteration order Loops over wisard.cc:264. -/
def keys (m : SMap V) : List Str := m.map (·.1)

/-- The representation invariant of `std::map`: strictly increasing keys. Of the maps wisard.cc:264, cluswisard.cc:334. -/
def Sorted (m : SMap V) : Prop := m.Pairwise (fun a b => Str.lt a.1 b.1 = true)

end SMap
end Wis
