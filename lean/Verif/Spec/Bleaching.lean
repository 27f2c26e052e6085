import Verif.Model.Bytes
/-!
# Specification of bleaching

Only counting and comparing; no loops of the code.
-/

namespace Wis.Spec

/-- Number of RAM votes that reach the threshold. -/
def active (b : Int) (vs : List Int) : Nat := vs.countP (fun v => decide (b ≤ v))

/-- All class scores at threshold `b`. -/
def activeAll (b : Int) (votes : SMap (List Int)) : SMap Int := votes.map (fun e => (e.1, (active b e.2 : Int)))

/-- `t` is the top score (0 if there is no class). -/
def IsTop (s : SMap Int) (t : Int) : Prop := (∀ e ∈ s, e.2 ≤ t) ∧ (t = 0 ∨ ∃ e ∈ s, e.2 = t)

/-- Two different classes have the top score, and it is above 1. -/
def TiedAbove1 (s : SMap Int) : Prop :=
  ∃ a b, a ∈ s ∧ b ∈ s ∧ a.1 ≠ b.1 ∧ 1 < a.2 ∧ a.2 = b.2 ∧ ∀ e ∈ s, e.2 ≤ a.2

/-- Ambiguity as the code sees it for a general confidence: with the first class (in label order) of top
score, above 1, some class with a *greater label* is closer than `c`. -/
def LaterRivalWithin (c : Int) (s : SMap Int) : Prop :=
  ∃ pre x post, s = pre ++ x :: post ∧ (∀ e ∈ pre, e.2 < x.2) ∧ (∀ e ∈ post, e.2 ≤ x.2) ∧ 1 < x.2 ∧
    ∃ e ∈ post, x.2 - e.2 < c

end Wis.Spec
