import Verif.Model.PyObjects
/-!
# Model of the Python methods `getsizeof` of `/repo/src/wisard_bind.cc`

The sizes of the C++ objects are parameters, as in the C++ methods of the other modules. The value is a `long` (64 bits); that it fits is not modelled.
-/

namespace Wis
open PyBind

/-- `d.getsizeof()`, wisard_bind.cc:67. -/
def Discriminator.pyGetsizeof (L : PyLib) (sd sr : Int) (d : Discriminator) (args : List PyVal) : PyRes Int :=
  .of (match dispatch L noArgSigs args with
    | some [] => some (.ok (d.getsizeof sd sr))
    | _ => none)

/-- `w.getsizeof()`, wisard_bind.cc:85. -/
def Wisard.pyGetsizeof (L : PyLib) (sw sd sr : Int) (w : Wisard) (args : List PyVal) : PyRes Int :=
  .of (match dispatch L noArgSigs args with
    | some [] => some (.ok (w.getsizeof sw sd sr))
    | _ => none)

/-- `c.getsizeof()`, wisard_bind.cc:102. -/
def ClusWisard.pyGetsizeof (L : PyLib) (sw sc sd sr : Int) (w : ClusWisard) (args : List PyVal) : PyRes Int :=
  .of (match dispatch L noArgSigs args with
    | some [] => some (w.getsizeof sw sc sd sr)
    | _ => none)

end Wis
