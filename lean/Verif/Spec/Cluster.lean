import Verif.Model.Cluster
import Verif.Spec.Wisard
import Mathlib.Data.List.Forall2
import Mathlib.Algebra.Order.Field.Rat
/-!
# Specification of how a cluster learns

Votes, scores and trainings only.
-/

namespace Wis.Spec

/-- The sum of the votes, each addition rounded. -/
def fsum (f : Flt) (votes : List Int) : Rat := votes.foldl (fun (s : Rat) (v : Int) => f.rnd (s + f.rnd v)) 0

/-- The greatest vote (0 if there is none). -/
def topVote (votes : List Int) : Int := votes.foldl max 0

/-- Score of a discriminator: mean vote relative to the greatest vote. -/
def score (f : Flt) (votes : List Int) : Rat :=
  if topVote votes = 0 then 0 else f.rnd (fsum f votes / f.rnd (topVote votes * votes.length))

/-- The score required of a discriminator that was trained `count` times. -/
def required (f : Flt) (c : ClusterCfg) (count : Int) : Rat :=
  min 1 (f.rnd (c.minScore + f.rnd (f.rnd count / f.rnd c.threshold)))

/-- The discriminator's score for `img` is `s`. -/
def HasScore (f : Flt) (img : Image) (d : Discriminator) (s : Rat) : Prop :=
  ∃ votes, d.classify img = .ok votes ∧ score f votes = s

/-- The discriminator's score for `img` reaches what is required of it. -/
def Reaches (f : Flt) (c : ClusterCfg) (img : Image) (d : Discriminator) : Prop :=
  ∃ s, HasScore f img d s ∧ required f c d.getNumberOfTrainings ≤ s

/-- `d` is the last one of `ds` with the best score. -/
def LastBest (f : Flt) (img : Image) (pre : List Discriminator) (d : Discriminator) (post : List Discriminator) : Prop :=
  ∃ s, HasScore f img d s ∧ (∀ e ∈ pre, ∃ s', HasScore f img e s' ∧ s' ≤ s) ∧
    ∀ e ∈ post, ∃ s', HasScore f img e s' ∧ s' < s

/-- `Reached f c H cl`: the cluster `cl` was reached from a new one by training the images `H`, in this order
(failed trainings included). -/
inductive Reached (f : Flt) (c : ClusterCfg) : List Image → Cluster → Prop where
  | new : Reached f c [] (Cluster.create c)
  | train {H : List Image} {cl : Cluster} (env : Env) (img : Image) :
      Reached f c H cl → Reached f c (H ++ [img]) (cl.train f env img).1

/-- A new discriminator of the cluster, as the constructor of `Discriminator` makes it. -/
def IsNew (c : ClusterCfg) (rnd : Rnd) (d : Discriminator) : Prop :=
  Discriminator.create rnd c.addressSize c.entrySize
    { ignoreZero := c.ignoreZero, completeAddressing := c.completeAddressing, base := c.base } = .ok d

/-- What one successful training of `img` does to the discriminators `ds`. -/
inductive Learns (f : Flt) (c : ClusterCfg) (rnd : Rnd) (img : Image) (ds : List Discriminator) : List Discriminator → Prop where
  /-- Some discriminator reaches its required score: exactly those learn. -/
  | fitting {ds' : List Discriminator} (some_reaches : ∃ d ∈ ds, Reaches f c img d)
      (exactly : List.Forall₂ (fun d d' => (Reaches f c img d ∧ d.train img = (d', .ok ())) ∨ (¬ Reaches f c img d ∧ d' = d)) ds ds') :
      Learns f c rnd img ds ds'
  /-- None does and there is room: a new discriminator learns. -/
  | fresh {d0 d1 : Discriminator} (none_reaches : ∀ d ∈ ds, ¬ Reaches f c img d)
      (room : (ds.length : Int) < c.discriminatorsLimit) (new : IsNew c rnd d0) (trained : d0.train img = (d1, .ok ())) :
      Learns f c rnd img ds (ds ++ [d1])
  /-- None does and there is no room: the last one of best score learns. -/
  | best {pre post : List Discriminator} {d d1 : Discriminator} (none_reaches : ∀ d ∈ ds, ¬ Reaches f c img d)
      (no_room : c.discriminatorsLimit ≤ ds.length) (split : ds = pre ++ d :: post) (last : LastBest f img pre d post)
      (trained : d.train img = (d1, .ok ())) :
      Learns f c rnd img ds (pre ++ d1 :: post)

end Wis.Spec
