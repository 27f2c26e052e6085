import Verif.Model.Bind
/-!
# A Python program using one ClusWisard

The methods of `py::class_<ClusWisard>` that change the object (wisard_bind.cc:91-93, 96) called one after the other with
arbitrary Python arguments, as in Model/PySession.
-/

namespace Wis

open PyBind

/-- `ClusWisard.getMentalImage`, wisard_bind.cc:96. -/
def PyBind.clusMentalSigs : List (List CTy) := [[.str]]

/-- `ClusWisard.getMentalImage(...)` from Python, wisard_bind.cc:96. -/
def ClusWisard.pyMentalImage (L : PyLib) (w : ClusWisard) (it : IterOrder) (args : List PyVal) :
    Option (ClusWisard × Res (List (List Int))) :=
  match dispatch L clusMentalSigs args with
  | some [.str l] => some (w.getMentalImage it l)
  | _ => none

/-- `ClusWisard.classifyUnsupervised(...)` from Python, wisard_bind.cc:95. -/
def ClusWisard.pyUnsupervisedCall (L : PyLib) (w : ClusWisard) (args : List PyVal) : Option (Res (List Str)) :=
  match dispatch L clusImagesSigs args with
  | some [.intss vs] => some (w.classifyUnsupervised vs)
  | _ => none

/-- One call. The choices of the environment are part of the call. wisard_bind.cc:88-103. -/
inductive PyClusCall where
  | train (env : Bool → Nat → Env) (args : List PyVal)
  | trainUnsupervised (env : Nat → Env) (args : List PyVal)
  | getMentalImage (it : IterOrder) (args : List PyVal)

/-- Perform one call, wisard_bind.cc:91-93, 96; the reply is `none` for `TypeError` (no C++ code runs). The list of images
returned by `getMentalImage` is left out of the reply. -/
def ClusWisard.pyCall (L : PyLib) (f : Flt) (w : ClusWisard) (c : PyClusCall) : ClusWisard × Option (Res Unit) :=
  match c with
  | .train env args =>
    match w.pyTrain L f env args with
    | some (w', r) => (w', some r)
    | none => (w, none)
  | .trainUnsupervised env args =>
    match w.pyTrainUnsupervised L f env args with
    | some (w', r) => (w', some r)
    | none => (w, none)
  | .getMentalImage it args =>
    match w.pyMentalImage L it args with
    | some (w', r) => (w', some (r.map fun _ => ()))
    | none => (w, none)

/-- Perform the calls of a program in order: the final ClusWisard and all replies. wisard_bind.cc:88-103. -/
def ClusWisard.pySession (L : PyLib) (f : Flt) (w : ClusWisard) : List PyClusCall → ClusWisard × List (Option (Res Unit))
  | [] => (w, [])
  | c :: cs =>
    let (w1, r) := w.pyCall L f c
    let (w2, rs) := w1.pySession L f cs
    (w2, r :: rs)

/-- `json(...)` from Python, wisard_bind.cc:99-101: the `str`. `none` is `TypeError` (arguments) or `UnicodeDecodeError` (the
text is no UTF-8). -/
def ClusWisard.pyJson (L : PyLib) (it : IterOrder) (ft : FloatText) (fs : Fs) (random : Nat → Nat → Str) (w : ClusWisard)
    (args : List PyVal) : Option (Res (Fs × List Nat)) :=
  match jsonArgs L args with
  | none => none
  | some (huge, path) =>
    match w.jsonText it ft fs huge path random with
    | .error e => some (.error e)
    | .ok (fs', t) =>
      match decode t with
      | some cs => some (.ok (fs', cs))
      | none => none

end Wis
