import Verif.Model.Kwargs
import Verif.Model.SavedText
/-!
# Model of `/repo/src/wisard_bind.cc`: which C++ function a Python call reaches, with which arguments

The overload sets are those of wisard_bind.cc, in its order. The conversions and the choice of the overload are those of
pybind11 (its documentation, "Functions: overload resolution order" and "Type conversions"; the library itself is not in
the repository): first every overload in order without implicit conversions, then every overload in order with them; if
none accepts the arguments, `TypeError` is raised and no C++ code runs.
-/

namespace Wis

/-- Python values, as far as the conversions distinguish them. A `str` is a list of code points, a tuple is a `list`;
`float` is a finite `float`; `other` is any object that is no number, no sequence, no dict and has no truth value of its
own. Stand-in for pybind11, used for the bindings wisard_bind.cc:3-105. -/
inductive PyVal where
  | none
  | bool (b : Bool)
  | int (i : Int)
  | float (q : Rat)
  | str (codePoints : List Nat)
  | bytes (s : Str)
  | list (vs : List PyVal)
  | dict (kvs : List (PyVal × PyVal))
  | binInput (b : BinInput)
  | dataSet (d : DataSet)
  | ramData (h : RamData)
  | other

/-- The C++ types of the arguments in wisard_bind.cc; `const T&` and `T` are not distinguished. -/
inductive CTy where
  | int      -- int
  | size     -- index_size_t
  | bool     -- bool
  | float    -- float
  | str      -- std::string
  | shorts   -- std::vector<short>
  | ints     -- std::vector<int>
  | intss    -- std::vector<std::vector<int>>
  | strs     -- std::vector<std::string>
  | labels   -- std::map<int, std::string>
  | doubless -- std::vector<std::vector<double>>
  | binInput
  | dataSet
  | ramData
  deriving DecidableEq

/-- A converted argument. Stand-in for pybind11, used for the bindings wisard_bind.cc:3-105. -/
inductive CVal where
  | int (i : Int)
  | bool (b : Bool)
  | float (q : Rat)
  | str (s : Str)
  | ints (v : List Int)
  | intss (v : List (List Int))
  | strs (v : List Str)
  | labels (m : LabelMap)
  | doubless (v : List (List Rat))
  | binInput (b : BinInput)
  | dataSet (d : DataSet)
  | ramData (h : RamData)

/-- What the installed pybind11 and Python do (the repository asks for pybind11 2.2 or later).
Stand-in for pybind11, used for the bindings wisard_bind.cc:3-105. -/
structure PyLib where
  /-- A double as a `float`. -/
  toFloat : Rat → Rat
  /-- An integer as a double; too large ones cannot be converted. -/
  toDouble : Int → Option Rat
  /-- Whether an object with `__getitem__` but without `__len__` is taken for a sequence, as `PySequence_Check` does:
  asking for its length then raises an exception, which ends the call. `BinInput` is such a class
  (wisard_bind.cc:11). -/
  getitemIsSequence : Bool

/-- The outcome of a conversion: not this type, a value, or a Python exception that ends the call.
Stand-in for pybind11, used for the bindings wisard_bind.cc:3-105. -/
inductive Load (α : Type) where
  | no
  | ok (a : α)
  | raised

/-- Apply a function to the value. Stand-in for pybind11, used for the bindings wisard_bind.cc:3-105. -/
def Load.map {α β : Type} (f : α → β) : Load α → Load β
  | .no => .no
  | .ok a => .ok (f a)
  | .raised => .raised

/-- The conversion of two things, one after the other. Stand-in for pybind11, used for the bindings wisard_bind.cc:3-105. -/
def Load.both {α β : Type} (a : Load α) (b : Load β) : Load (α × β) :=
  match a with
  | .no => .no
  | .raised => .raised
  | .ok a => b.map (fun b => (a, b))

namespace PyBind

/-- UTF-8 of one code point (`PyUnicode_AsUTF8String`): a lone surrogate cannot be encoded.
Stand-in for pybind11, used for the bindings wisard_bind.cc:3-105. -/
def encodePoint (c : Nat) : Option Str :=
  if c < 0x80 then some [BitVec.ofNat 8 c]
  else if c < 0x800 then some [BitVec.ofNat 8 (0xC0 + c / 64), BitVec.ofNat 8 (0x80 + c % 64)]
  else if c < 0x10000 then
    if 0xD800 ≤ c ∧ c ≤ 0xDFFF then Option.none
    else some [BitVec.ofNat 8 (0xE0 + c / 4096), BitVec.ofNat 8 (0x80 + c / 64 % 64), BitVec.ofNat 8 (0x80 + c % 64)]
  else if c < 0x110000 then
    some [BitVec.ofNat 8 (0xF0 + c / 262144), BitVec.ofNat 8 (0x80 + c / 4096 % 64), BitVec.ofNat 8 (0x80 + c / 64 % 64),
      BitVec.ofNat 8 (0x80 + c % 64)]
  else Option.none

/-- UTF-8 of a `str`. Stand-in for pybind11, used for the bindings wisard_bind.cc:3-105. -/
def encode : List Nat → Option Str
  | [] => some []
  | c :: cs =>
    match encodePoint c, encode cs with
    | some p, some s => some (p ++ s)
    | _, _ => Option.none

/-- All elements converted, in order; the first failure decides.
Stand-in for pybind11, used for the bindings wisard_bind.cc:3-105. -/
def allOf {α β : Type} (f : α → Load β) : List α → Load (List β)
  | [] => .ok []
  | a :: as => ((f a).both (allOf f as)).map fun p => p.1 :: p.2

/-- Integers: `int` and `bool` objects in the range of the type; a `float` is never accepted.
Stand-in for pybind11, used for the bindings wisard_bind.cc:3-105. -/
def loadInt (lo hi : Int) : PyVal → Load Int
  | .int i => if lo ≤ i ∧ i ≤ hi then .ok i else .no
  | .bool b => .ok (if b then 1 else 0)
  | _ => .no

/-- `int`. Used for wisard_bind.cc:33, 39, 46-50, 57-61, 73-80, 90-95. -/
def loadI32 : PyVal → Load Int := loadInt (-2147483648) 2147483647

/-- `bool`: `True` and `False`; with conversions also `None` and numbers. Used for wisard_bind.cc:65-66, 83-84, 100-101. -/
def loadBool (convert : Bool) : PyVal → Load Bool
  | .bool b => .ok b
  | .none => if convert then .ok false else .no
  | .int i => if convert then .ok (decide (i ≠ 0)) else .no
  | .float q => if convert then .ok (decide (q ≠ 0)) else .no
  | _ => .no

/-- `double`: `float` objects; with conversions also integers. Used for wisard_bind.cc:34, 90. -/
def loadDouble (L : PyLib) (convert : Bool) : PyVal → Load Rat
  | .float q => .ok q
  | .int i => if convert then (match L.toDouble i with | some q => .ok q | Option.none => .no) else .no
  | .bool b => if convert then (match L.toDouble (if b then 1 else 0) with | some q => .ok q | Option.none => .no) else .no
  | _ => .no

/-- `std::string`: `str` as UTF-8, `bytes` as they are. Used for wisard_bind.cc:10, 20-24, 45, 56, 72-80, 89-92. -/
def loadStr : PyVal → Load Str
  | .str cs => match encode cs with | some s => .ok s | Option.none => .no
  | .bytes s => .ok s
  | _ => .no

/-- `std::vector<T>`: every sequence but `str` and `bytes`; the length is asked first.
Used for wisard_bind.cc:9, 23-24, 34, 39, 58-61, 74-80, 91-95. -/
def loadList (L : PyLib) {α : Type} (f : PyVal → Load α) : PyVal → Load (List α)
  | .list vs => allOf f vs
  | .binInput _ => if L.getitemIsSequence then .raised else .no
  | _ => .no

/-- `std::map<K, V>`: a `dict`. Used for wisard_bind.cc:92. -/
def loadDict {κ α : Type} (k : PyVal → Load κ) (v : PyVal → Load α) : PyVal → Load (List (κ × α))
  | .dict kvs => allOf (fun e => (k e.1).both (v e.2)) kvs
  | _ => .no

/-- Conversion of one argument. Stand-in for pybind11, used for the bindings wisard_bind.cc:3-105. -/
def load (L : PyLib) (convert : Bool) : CTy → PyVal → Load CVal
  | .int, x => (loadI32 x).map .int
  | .size, x => (loadInt 0 18446744073709551615 x).map .int
  | .bool, x => (loadBool convert x).map .bool
  | .float, x => (loadDouble L convert x).map fun q => .float (L.toFloat q)
  | .str, x => (loadStr x).map .str
  | .shorts, x => (loadList L (loadInt (-32768) 32767) x).map .ints
  | .ints, x => (loadList L loadI32 x).map .ints
  | .intss, x => (loadList L (loadList L loadI32) x).map .intss
  | .strs, x => (loadList L loadStr x).map .strs
  | .labels, x => (loadDict loadI32 loadStr x).map .labels
  | .doubless, x => (loadList L (loadList L (loadDouble L convert)) x).map .doubless
  | .binInput, .binInput b => .ok (.binInput b)
  | .dataSet, .dataSet d => .ok (.dataSet d)
  | .ramData, .ramData h => .ok (.ramData h)
  | _, _ => .no

/-- Conversion of all arguments of one overload; the number of arguments has to be right. (Some versions of pybind11
convert the remaining arguments even after a failure; no overload below takes a `BinInput` after its first argument, so the
outcome of a call is the same.) Stand-in for pybind11, used for the bindings wisard_bind.cc:3-105. -/
def loadArgs (L : PyLib) (convert : Bool) : List CTy → List PyVal → Load (List CVal)
  | [], [] => .ok []
  | t :: ts, x :: xs => ((load L convert t x).both (loadArgs L convert ts xs)).map fun p => p.1 :: p.2
  | _, _ => .no

/-- The first overload that accepts the arguments; an exception ends the search.
Stand-in for pybind11, used for the bindings wisard_bind.cc:3-105. -/
def firstOf (L : PyLib) (convert : Bool) : List (List CTy) → List PyVal → Load (List CVal)
  | [], _ => .no
  | ts :: sigs, xs =>
    match loadArgs L convert ts xs with
    | .no => firstOf L convert sigs xs
    | r => r

/-- Overload resolution: the arguments that reach C++ (their kinds tell the overload), or an exception (`TypeError`).
Stand-in for pybind11, used for the bindings wisard_bind.cc:3-105. -/
def dispatch (L : PyLib) (sigs : List (List CTy)) (xs : List PyVal) : Option (List CVal) :=
  match firstOf L false sigs xs with
  | .ok vs => some vs
  | .raised => Option.none
  | .no =>
    match firstOf L true sigs xs with
    | .ok vs => some vs
    | _ => Option.none

/-- The value of a conversion, if there is one. Stand-in for pybind11, used for the bindings wisard_bind.cc:3-105. -/
def get? {α : Type} : Load α → Option α
  | .ok a => some a
  | _ => Option.none

/-- Insert one pair of a `dict` into a `std::map` (`emplace`: an existing key stays). Used for wisard_bind.cc:92. -/
def putNew {α : Type} (m : SMap α) (e : Str × α) : SMap α :=
  match m.find e.1 with
  | some _ => m
  | Option.none => m.set e.1 e.2

/-- Insert the pairs of a `dict` into a `std::map` one by one. Used for wisard_bind.cc:92. -/
def toMap {α : Type} (l : List (Str × α)) : SMap α := l.foldl putNew []

/-- `arg.second.cast<T>()` of wrappers/*.cc: conversions are allowed, a failure is `cast_error`. -/
def casts (L : PyLib) : PyCasts PyVal where
  bool x := get? (loadBool true x)
  int x := get? (loadI32 x)
  float x := (get? (loadDouble L true x)).map L.toFloat
  ints x := get? (loadList L loadI32 x)
  intss x := get? (loadList L (loadList L loadI32) x)
  mapping x := (get? (loadDict loadStr (loadList L (loadList L loadI32)) x)).map toMap

/-- Continuation byte of UTF-8. Used for the strings returned by wisard_bind.cc:15, 26, 49-50, 63-66, 76-85, 94-101. -/
def isCont (b : Byte) : Bool := decide (0x80 ≤ b.toNat ∧ b.toNat ≤ 0xBF)

/-- `std::string` to `str` (`PyUnicode_DecodeUTF8`, strict): `none` is `UnicodeDecodeError`.
Used for the strings returned by wisard_bind.cc:15, 26, 49-50, 63-66, 76-85, 94-101. -/
def decode : Str → Option (List Nat)
  | [] => some []
  | a :: s =>
    if a.toNat < 0x80 then (decode s).map (a.toNat :: ·)
    else match s with
    | [] => Option.none
    | b :: s =>
      if 0xC2 ≤ a.toNat ∧ a.toNat ≤ 0xDF ∧ isCont b then (decode s).map ((a.toNat % 32 * 64 + b.toNat % 64) :: ·)
      else match s with
      | [] => Option.none
      | c :: s =>
        if 0xE0 ≤ a.toNat ∧ a.toNat ≤ 0xEF ∧ isCont b ∧ isCont c then
          let v := a.toNat % 16 * 4096 + b.toNat % 64 * 64 + c.toNat % 64
          if v < 0x800 ∨ (0xD800 ≤ v ∧ v ≤ 0xDFFF) then Option.none else (decode s).map (v :: ·)
        else match s with
        | [] => Option.none
        | d :: s =>
          if 0xF0 ≤ a.toNat ∧ a.toNat ≤ 0xF4 ∧ isCont b ∧ isCont c ∧ isCont d then
            let v := a.toNat % 8 * 262144 + b.toNat % 64 * 4096 + c.toNat % 64 * 64 + d.toNat % 64
            if v < 0x10000 ∨ 0x110000 ≤ v then Option.none else (decode s).map (v :: ·)
          else Option.none

/-- `BinInput(...)`, wisard_bind.cc:8-10. -/
def binInputSigs : List (List CTy) := [[.size], [.shorts], [.str]]
/-- `DataSet.add`, wisard_bind.cc:21-24. -/
def addSigs : List (List CTy) := [[.binInput], [.binInput, .str], [.shorts], [.shorts, .str]]
/-- `Discriminator.train`, wisard_bind.cc:58-60. -/
def discTrainSigs : List (List CTy) := [[.ints], [.binInput], [.intss]]
/-- `Discriminator.classify`, wisard_bind.cc:61-62. -/
def discClassifySigs : List (List CTy) := [[.ints], [.binInput]]
/-- `json` of the three models, wisard_bind.cc:64-66, 82-84, 99-101. -/
def jsonSigs : List (List CTy) := [[], [.bool], [.bool, .str]]
/-- `Wisard.train`, wisard_bind.cc:74-75. -/
def wisardTrainSigs : List (List CTy) := [[.intss, .strs], [.dataSet]]
/-- `Wisard.classify`, wisard_bind.cc:76-77. -/
def wisardClassifySigs : List (List CTy) := [[.intss], [.dataSet]]
/-- `Wisard.leaveOneOut`, wisard_bind.cc:79. -/
def leaveOneOutSigs : List (List CTy) := [[.ints, .str]]
/-- `Wisard.leaveMoreOut`, wisard_bind.cc:80. -/
def leaveMoreOutSigs : List (List CTy) := [[.intss, .strs]]
/-- `ClusWisard.train`, wisard_bind.cc:91-92. -/
def clusTrainSigs : List (List CTy) := [[.intss, .strs], [.intss, .labels]]
/-- `ClusWisard.trainUnsupervised`, `classify` and `classifyUnsupervised`, wisard_bind.cc:93-95. -/
def clusImagesSigs : List (List CTy) := [[.intss]]
/-- `RAMDataHandle.get`, wisard_bind.cc:47-48. -/
def handleGetSigs : List (List CTy) := [[.int, .int], [.int]]
/-- `RAMDataHandle.set`, wisard_bind.cc:46. -/
def handleSetSigs : List (List CTy) := [[.int, .int, .int]]
/-- `Wisard(...)`, wisard_bind.cc:72-73; the first one takes no keyword arguments. -/
def wisardSigs (kws : Bool) : List (List CTy) := if kws then [[.int]] else [[.str], [.int]]
/-- `ClusWisard(...)`, wisard_bind.cc:89-90; the first one takes no keyword arguments. -/
def clusSigs (kws : Bool) : List (List CTy) :=
  if kws then [[.int, .float, .int, .int]] else [[.str], [.int, .float, .int, .int]]
/-- `Discriminator(...)`, wisard_bind.cc:56-57; the first one takes no keyword arguments. -/
def discSigs (kws : Bool) : List (List CTy) := if kws then [[.int, .int]] else [[.str], [.int, .int]]

end PyBind

open PyBind

/-- `BinInput(...)` from Python, wisard_bind.cc:8-10; `none` is `TypeError`. -/
def BinInput.py (L : PyLib) (args : List PyVal) : Option (Res BinInput) :=
  match dispatch L binInputSigs args with
  | some [.int n] => some (.ok (BinInput.ofSize n.toNat))
  | some [.ints v] => some (BinInput.ofList v)
  | some [.str s] => some (BinInput.ofData s)
  | _ => none

/-- `DataSet.add(...)` from Python, wisard_bind.cc:21-24. -/
def DataSet.pyAdd (L : PyLib) (d : DataSet) (args : List PyVal) : Option (Res DataSet) :=
  match dispatch L addSigs args with
  | some [.binInput b] => some (.ok (d.add b))
  | some [.binInput b, .str l] => some (.ok (d.add b l))
  | some [.ints v] => some ((BinInput.ofList v).map fun b => d.add b)
  | some [.ints v, .str l] => some ((BinInput.ofList v).map fun b => d.add b l)
  | _ => none

/-- `Discriminator.train(...)` from Python, wisard_bind.cc:58-60. -/
def Discriminator.pyTrain (L : PyLib) (d : Discriminator) (args : List PyVal) : Option (Discriminator × Res Unit) :=
  match dispatch L discTrainSigs args with
  | some [.ints v] => some (d.train (.vec v))
  | some [.binInput b] => some (d.train (.bin b))
  | some [.intss vs] => some (d.trainAll (vs.map .vec))
  | _ => none

/-- `Discriminator.classify(...)` from Python, wisard_bind.cc:61-62. -/
def Discriminator.pyClassify (L : PyLib) (d : Discriminator) (args : List PyVal) : Option (Res (List Int)) :=
  match dispatch L discClassifySigs args with
  | some [.ints v] => some (d.classify (.vec v))
  | some [.binInput b] => some (d.classify (.bin b))
  | _ => none

/-- The arguments of `json(...)` from Python, wisard_bind.cc:64-66, 82-84, 99-101: `huge` and `path`. -/
def PyBind.jsonArgs (L : PyLib) (args : List PyVal) : Option (Bool × Str) :=
  match dispatch L jsonSigs args with
  | some [] => some (false, [])
  | some [.bool huge] => some (huge, [])
  | some [.bool huge, .str path] => some (huge, path)
  | _ => none

/-- `Wisard.train(...)` from Python, wisard_bind.cc:74-75. -/
def Wisard.pyTrain (L : PyLib) (w : Wisard) (env : Nat → Env) (args : List PyVal) : Option (Wisard × Res Unit) :=
  match dispatch L wisardTrainSigs args with
  | some [.intss vs, .strs ls] => some (w.train env vs ls)
  | some [.dataSet ds] => some (w.trainDataSet env ds)
  | _ => none

/-- `Wisard.classify(...)` from Python, wisard_bind.cc:76-77. -/
def Wisard.pyClassifyCall (L : PyLib) (w : Wisard) (args : List PyVal) : Option (Res (List PyLabel)) :=
  match dispatch L wisardClassifySigs args with
  | some [.intss vs] => some (PyOut.pyClassify w (vs.map .vec))
  | some [.dataSet ds] => some (PyOut.pyClassify w (ds.data.map .bin))
  | _ => none

/-- `Wisard.leaveOneOut(...)` from Python, wisard_bind.cc:79. -/
def Wisard.pyLeaveOneOut (L : PyLib) (w : Wisard) (args : List PyVal) : Option (Wisard × Res Unit) :=
  match dispatch L leaveOneOutSigs args with
  | some [.ints v, .str l] => some (w.leaveOneOut v l)
  | _ => none

/-- `Wisard.leaveMoreOut(...)` from Python, wisard_bind.cc:80. -/
def Wisard.pyLeaveMoreOut (L : PyLib) (w : Wisard) (args : List PyVal) : Option (Wisard × Res Unit) :=
  match dispatch L leaveMoreOutSigs args with
  | some [.intss vs, .strs ls] => some (w.leaveMoreOut vs ls)
  | _ => none

/-- `ClusWisard.train(...)` from Python, wisard_bind.cc:91-92. -/
def ClusWisard.pyTrain (L : PyLib) (f : Flt) (w : ClusWisard) (env : Bool → Nat → Env) (args : List PyVal) :
    Option (ClusWisard × Res Unit) :=
  match dispatch L clusTrainSigs args with
  | some [.intss vs, .strs ls] => some (w.train f (env true) vs ls)
  | some [.intss vs, .labels m] => some (w.trainSemi f env vs m)
  | _ => none

/-- `ClusWisard.trainUnsupervised(...)` from Python, wisard_bind.cc:93. -/
def ClusWisard.pyTrainUnsupervised (L : PyLib) (f : Flt) (w : ClusWisard) (env : Nat → Env) (args : List PyVal) :
    Option (ClusWisard × Res Unit) :=
  match dispatch L clusImagesSigs args with
  | some [.intss vs] => some (w.trainUnsupervised f env vs)
  | _ => none

/-- `ClusWisard.classify(...)` from Python, wisard_bind.cc:94. -/
def ClusWisard.pyClassifyCall (L : PyLib) (w : ClusWisard) (args : List PyVal) : Option (Res (List PyLabel)) :=
  match dispatch L clusImagesSigs args with
  | some [.intss vs] => some (w.pyClassify vs)
  | _ => none

/-- `RAMDataHandle.get(...)` from Python, wisard_bind.cc:47-48: the whole RAM or one content. -/
def RamData.pyGet (L : PyLib) (h : RamData) (args : List PyVal) : Option (RamData × (RamT ⊕ Int)) :=
  match dispatch L handleGetSigs args with
  | some [.int r, .int a] => some ((h.getAddr r a).1, .inr (h.getAddr r a).2)
  | some [.int r] => some ((h.get r).1, .inl (h.get r).2)
  | _ => none

/-- `RAMDataHandle.set(...)` from Python, wisard_bind.cc:46. -/
def RamData.pySet (L : PyLib) (h : RamData) (args : List PyVal) : Option RamData :=
  match dispatch L handleSetSigs args with
  | some [.int r, .int a, .int v] => some (h.set r a v)
  | _ => none

/-- `Wisard(...)` from Python, wisard_bind.cc:72-73. -/
def Wisard.py (L : PyLib) (ft : FloatText) (fs : Fs) (args : List PyVal) (kws : List (Str × PyVal)) : Option (Res Wisard) :=
  match dispatch L (wisardSigs (!kws.isEmpty)) args with
  | some [.str text] => some (Wisard.ofText ft fs text)
  | some [.int a] => some (Wisard.ofKwargs (casts L) a kws)
  | _ => none

/-- `ClusWisard(...)` from Python, wisard_bind.cc:89-90. -/
def ClusWisard.py (L : PyLib) (ft : FloatText) (fs : Fs) (args : List PyVal) (kws : List (Str × PyVal)) : Option (Res ClusWisard) :=
  match dispatch L (clusSigs (!kws.isEmpty)) args with
  | some [.str text] => some (ClusWisard.ofText ft fs text)
  | some [.int a, .float m, .int t, .int d] => some (ClusWisard.ofKwargs (casts L) a m t d kws)
  | _ => none

/-- `Discriminator(...)` from Python, wisard_bind.cc:56-57. -/
def Discriminator.py (L : PyLib) (ft : FloatText) (fs : Fs) (rnd : Rnd) (args : List PyVal) (kws : List (Str × PyVal)) :
    Option (Res Discriminator) :=
  match dispatch L (discSigs (!kws.isEmpty)) args with
  | some [.str text] => some (Discriminator.ofText ft fs text)
  | some [.int a, .int n] => some (Discriminator.ofKwargs (casts L) rnd a n kws)
  | _ => none

/-- The class names in one element of the list returned by `classify`: `"class"` and those in `"classesDegrees"`.
They are put there by wisardwrapper.cc:46-68, 79-90. -/
def PyLabel.names : PyLabel → List Str
  | .plain l => [l]
  | .dict d => d.cls :: (d.classesDegrees.getD []).map (·.1)

/-- The list returned by `classify` as Python sees it: every name becomes a `str` (wisardwrapper.cc:46-68, 79-90), or
`UnicodeDecodeError` is raised. Only the names are kept. -/
def PyBind.toPython : List PyLabel → Option (List (List (List Nat)))
  | [] => some []
  | r :: rs =>
    match r.names.mapM decode, PyBind.toPython rs with
    | some n, some ns => some (n :: ns)
    | _, _ => none

end Wis
