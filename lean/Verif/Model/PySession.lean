import Verif.Model.Bind
/-!
# A Python program using one Wisard

The methods of `py::class_<Wisard>` that change the object (wisard_bind.cc:74-80) called one after the other with arbitrary
Python arguments. An exception (`TypeError` of pybind11 or an exception of the C++ code) ends the call only: the program may
catch it and go on.
-/

namespace Wis

open PyBind

/-- One call. The choices of the environment during a training are part of the call. wisard_bind.cc:71-86. -/
inductive PyCall where
  | train (env : Nat → Env) (args : List PyVal)
  | leaveOneOut (args : List PyVal)
  | leaveMoreOut (args : List PyVal)

/-- Reply to a call: `none` is `TypeError` (no C++ code runs). wisard_bind.cc:71-86. -/
abbrev PyReply := Option (Res Unit)

/-- Perform one call, wisard_bind.cc:74-75, 79-80. -/
def Wisard.pyCall (L : PyLib) (w : Wisard) (c : PyCall) : Wisard × PyReply :=
  let r := match c with
    | .train env args => w.pyTrain L env args
    | .leaveOneOut args => w.pyLeaveOneOut L args
    | .leaveMoreOut args => w.pyLeaveMoreOut L args
  match r with
  | some (w', r) => (w', some r)
  | none => (w, none)

/-- Perform the calls of a program in order: the final Wisard and all replies. wisard_bind.cc:71-86. -/
def Wisard.pySession (L : PyLib) (w : Wisard) : List PyCall → Wisard × List PyReply
  | [] => (w, [])
  | c :: cs =>
    let (w1, r) := w.pyCall L c
    let (w2, rs) := w1.pySession L cs
    (w2, r :: rs)

/-- `json(...)` from Python, wisard_bind.cc:82-84: the `str`. `none` is `TypeError` (arguments) or `UnicodeDecodeError` (the
text is no UTF-8). -/
def Wisard.pyJson (L : PyLib) (it : IterOrder) (ft : FloatText) (fs : Fs) (random : Nat → Str) (w : Wisard) (args : List PyVal) :
    Option (Res (Fs × List Nat)) :=
  match jsonArgs L args with
  | none => none
  | some (huge, path) =>
    match w.jsonText it ft fs huge path random with
    | .error e => some (.error e)
    | .ok (fs', t) =>
      match decode t with
      | some cs => some (.ok (fs', cs))
      | none => none

end Wis
