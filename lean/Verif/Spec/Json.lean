import Verif.Spec.Wisard
import Verif.Model.PrettyText
/-!
# What it means that a reloaded model is as good as the saved one

No RAM contents: only results of calls (the text of `jsonConfig()` among them). A mental image is compared when both models return one
(with counters of mixed signs the order in which the hash table is walked decides whether a sum overflows).
-/

namespace Wis.Spec

/-- `d` and `d'` answer every query alike. -/
structure Observe (d d' : Discriminator) : Prop where
  count : d'.getNumberOfTrainings = d.getNumberOfTrainings
  rams : d'.getNumberOfRAMS = d.getNumberOfRAMS
  wiring : d'.mapping = d.mapping
  classify : ∀ x, d'.classify x = d.classify x
  size : ∀ sd sr, d'.getsizeof sd sr = d.getsizeof sd sr
  mental : ∀ it it' m m', d.getMentalImage it = .ok m → d'.getMentalImage it' = .ok m' → m' = m
  config : ∀ ft : FloatText, d'.jsonConfigText ft = d.jsonConfigText ft

/-- Perform all calls, also after failing ones (a caller may catch an exception and go on); the state
and all results. -/
def play (d : Discriminator) : List Op → Discriminator × List (Res Unit)
  | [] => (d, [])
  | .train img :: ops =>
    let (d', rs) := play (d.train img).1 ops
    (d', (d.train img).2 :: rs)
  | .untrain img :: ops =>
    let (d', rs) := play (d.untrain img).1 ops
    (d', (d.untrain img).2 :: rs)

/-- Some training in the history succeeded. -/
def LearntSomething (d : Discriminator) (ops : List Op) : Prop :=
  ∃ a img b, ops = a ++ .train img :: b ∧ ((play d a).1.train img).2 = .ok ()

/-- After every sequence of trainings and untrainings (of any images, also failing ones) `d` and `d'`
have returned the same and answer every query alike. -/
def Indistinguishable (d d' : Discriminator) : Prop :=
  ∀ ops, (play d' ops).2 = (play d ops).2 ∧ Observe (play d ops).1 (play d' ops).1

/-- Number of trainings in a history. -/
def trains (ops : List Op) : Nat := (ops.filter Op.isTrain).length

/-- All values of the C++ `int`s given by the caller are in range. -/
def IntRange (entrySize base : Int) (mapping : List (List Int)) : Prop :=
  InI32 entrySize ∧ InI32 base ∧ ∀ m ∈ mapping, ∀ a ∈ m, InI32 a

end Wis.Spec
