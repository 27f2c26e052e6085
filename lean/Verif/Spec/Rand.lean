import Verif.Model.Rand
import Verif.Spec.WisardJson
/-!
# Processes that use the random numbers of the library
-/

namespace Wis.Spec

/-- One step of a process that uses a Wisard: a training, `leaveOneOut`, or anything else (another model created, trained or
saved), of which only the state it leaves the generator in matters. -/
inductive GOp (S : Type) where
  | train (img : Image) (label : Str)
  | leave (img : List Int) (label : Str)
  | other (s : S)

/-- Perform the steps on the Wisard `w`, starting with the generator in state `s`; failing calls do not end the process. -/
def gplay (g : CRand) (lhsFirst : Bool) (w : Wisard) (s : g.S) : List (GOp g.S) → Wisard × List (Res Unit)
  | [] => (w, [])
  | .other s' :: ops => gplay g lhsFirst w s' ops
  | .leave img l :: ops =>
    let (w', rs) := gplay g lhsFirst (w.leaveOneOut img l).1 s ops
    (w', (w.leaveOneOut img l).2 :: rs)
  | .train img l :: ops =>
    let p := Wisard.train1G g lhsFirst s w img l
    let (w', rs) := gplay g lhsFirst p.1.1 p.2 ops
    (w', p.1.2 :: rs)

/-- The calls on the Wisard, without what the rest of the process does. -/
def calls {S : Type} : List (GOp S) → List (Image × Str × Bool)
  | [] => []
  | .other _ :: ops => calls ops
  | .leave img l :: ops => (.vec img, l, false) :: calls ops
  | .train img l :: ops => (img, l, true) :: calls ops

/-- A Latin letter or a digit. -/
def Alphanumeric (c : Byte) : Prop :=
  (65 ≤ c.toNat ∧ c.toNat ≤ 90) ∨ (97 ≤ c.toNat ∧ c.toNat ≤ 122) ∨ (48 ≤ c.toNat ∧ c.toNat ≤ 57)

end Wis.Spec
