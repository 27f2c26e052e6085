import Verif.Spec.WisardJson
import Verif.Spec.JsonText
import Verif.Spec.ClusWisardJson
import Verif.Model.SavedText
/-!
# The life of a model that is saved and loaded now and then

Only calls, texts and constructors: a program calls a model, and every now and then it saves the model as a text and goes on
with a new object made from that text (in the same process or in another one, on another file system, at any later time).
-/

namespace Wis.Spec
open JsonText

/-- How a model is saved and loaded: the order in which the hash tables are walked, the file system when `json()` is called, the
`path` and the random strings of the file names if the contents go to files (`huge`), and what becomes of the file system
before the constructor is called (in another process, at any later time). -/
structure Reload where
  it : IterOrder
  fs : Fs
  files : Option (Str × (Nat → Nat → Str))
  later : Fs → Fs

namespace Reload

def huge (r : Reload) : Bool := r.files.isSome
def path (r : Reload) : Str := (r.files.map (·.1)).getD []
def random (r : Reload) : Nat → Nat → Str := (r.files.map (·.2)).getD (fun _ _ => [])

end Reload

/-- A step: a call, or `json(huge, path)` followed by the constructor from that text. -/
inductive Step (ο : Type) where
  | call (o : ο)
  | reload (r : Reload)

/-- The calls of a life, without the reloads. -/
def callsOf {ο : Type} : List (Step ο) → List ο
  | [] => []
  | .call o :: ss => o :: callsOf ss
  | .reload _ :: ss => callsOf ss

/-- Live: the final object and the outcomes of all calls (a caller may catch an exception and go on). A `json()` or a
constructor that fails ends the program. -/
def live {σ ο : Type} (call : σ → ο → σ × Res Unit) (save : Reload → σ → Res (Fs × Str)) (load : Fs → Str → Res σ) :
    σ → List (Step ο) → Res (σ × List (Res Unit))
  | m, [] => .ok (m, [])
  | m, .call o :: ss => (live call save load (call m o).1 ss).map (fun p => (p.1, (call m o).2 :: p.2))
  | m, .reload r :: ss => do
    let s ← save r m
    let m' ← load (r.later s.1) s.2
    live call save load m' ss

/-- A call of a discriminator. -/
def dcall (d : Discriminator) : Op → Discriminator × Res Unit
  | .train img => d.train img
  | .untrain img => d.untrain img

/-- The life of a discriminator. -/
def liveD (ft : FloatText) : Discriminator → List (Step Op) → Res (Discriminator × List (Res Unit)) :=
  live dcall (fun r d => d.jsonText r.it ft r.fs r.huge r.path (r.random 0 0)) (fun fs t => Discriminator.ofText ft fs t)

/-- The life of a Wisard. -/
def liveW (ft : FloatText) : Wisard → List (Step WOp) → Res (Wisard × List (Res Unit)) :=
  live wstep (fun r w => w.jsonText r.it ft r.fs r.huge r.path (fun i => r.random i 0)) (fun fs t => Wisard.ofText ft fs t)

/-- The life of a ClusWisard. -/
def liveC (ft : FloatText) (f : Flt) : ClusWisard → List (Step COp) → Res (ClusWisard × List (Res Unit)) :=
  live (cstep f) (fun r w => w.jsonText r.it ft r.fs r.huge r.path r.random) (fun fs t => ClusWisard.ofText ft fs t)

/-- Whatever was called before each reload, and the reload, satisfy `P`. -/
def BeforeReloads {ο : Type} (P : List ο → Reload → Prop) (ss : List (Step ο)) : Prop :=
  ∀ a r b, ss = a ++ .reload r :: b → P (callsOf a) r

/-- What is asked of a reload through files with names `own`: the names are UTF-8, the random strings have one length (10 in the
code), the files do not exist before and are left alone until they are read. -/
def FilesOk (r : Reload) (own : Str → Prop) : Prop :=
  r.huge = true → Utf8 r.path ∧ (∀ i j, Utf8 (r.random i j)) ∧ (∃ n, ∀ i j, (r.random i j).length = n) ∧
    (∀ name, own name → r.fs name = none) ∧ ∀ fs name, own name → r.later fs name = fs name

/-- The file of a discriminator. -/
def DiscriminatorFile (r : Reload) (name : Str) : Prop := name = r.path ++ r.random 0 0 ++ b!".wdpkg"

/-- The files of a Wisard with classes `keys`. -/
def WisardFile (r : Reload) (keys : List Str) (name : Str) : Prop :=
  ∃ l ∈ keys, ∃ i, name = r.path ++ l ++ b!"__" ++ r.random i 0 ++ b!".wdpkg"

/-- What is asked of the calls after a reload: their labels exist at that moment or are not named by the `mapping` option (which
the text does not keep). -/
def MappingUnused (w0 : Wisard) (steps : List (Step WOp)) : Prop :=
  ∀ a r b o c, steps = a ++ .reload r :: (b ++ .call o :: c) →
    o.label ∈ (wplay w0 (callsOf (a ++ b))).1.discriminators.keys ∨ w0.opts.mapping.find o.label = none

end Wis.Spec
