import Verif.Spec.Wisard
import Verif.Spec.LoadJson
import Verif.Spec.Handle
import Verif.Spec.Cluster
/-!
# Specification of what calls add to a model in any state

The state may come from a document written by hand: nothing is assumed about it. What a RAM does with an image is described
by the number it makes of the pixels its wires read.
-/

namespace Wis.Spec

/-- The number made of the pixels that the wires read: pixel `j` counts `base^j`. There is none if a wire cannot be read or
its pixel is not below `base`. -/
def number (base : Int) (x : Image) : List Int → Option Int
  | [] => some 0
  | a :: as =>
    match x.read a, number base x as with
    | .ok v, some w => if v < base then some (v + base * w) else none
    | _, _ => none

/-- Both images give numbers, equal in their last 64 bits. -/
def SameNumber (base : Int) (wires : List Int) (x y : Image) : Prop :=
  ∃ v, number base x wires = some v ∧ ∃ w, number base y wires = some w ∧ (18446744073709551616 : Int) ∣ v - w

instance (base : Int) (wires : List Int) (x y : Image) : Decidable (SameNumber base wires x y) :=
  decidable_of_iff ((match number base x wires, number base y wires with
      | some v, some w => decide ((18446744073709551616 : Int) ∣ v - w)
      | _, _ => false) = true) (by
    unfold SameNumber
    cases number base x wires <;> cases number base y wires <;> simp)

/-- The image gives the number zero, in its last 64 bits. -/
def ZeroNumber (base : Int) (wires : List Int) (x : Image) : Prop :=
  ∃ v, number base x wires = some v ∧ (18446744073709551616 : Int) ∣ v

instance (base : Int) (wires : List Int) (x : Image) : Decidable (ZeroNumber base wires x) :=
  decidable_of_iff ((match number base x wires with
      | some v => decide ((18446744073709551616 : Int) ∣ v)
      | none => false) = true) (by
    unfold ZeroNumber
    cases number base x wires <;> simp)

/-- What trainings of `imgs` add to the vote of a RAM for `x`. -/
def gained (ignoreZero : Bool) (base : Int) (wires : List Int) (imgs : List Image) (x : Image) : Int :=
  if ignoreZero = true ∧ ZeroNumber base wires x then 0
  else ((imgs.filter (fun y => decide (SameNumber base wires x y))).length : Int)

/-- The vote of a RAM for `x` after calls: trainings minus untrainings with the number of `x` are added to the vote `v` before
if the RAM knew this number; otherwise they are counted from the first training on. -/
def later (ignoreZero : Bool) (base : Int) (wires : List Int) (known : Bool) (v : Int) (ops : List Op) (x : Image) : Int :=
  if ignoreZero = true ∧ ZeroNumber base wires x then 0
  else
    let mine := ops.filter (fun o => decide (SameNumber base wires x o.img))
    if known then v + net mine else net (mine.dropWhile (fun o => !o.isTrain))

/-- The part of the data of a document that belongs to its RAM number `i`: the data split at the dots, from the beginning
again if there are too few; or the same of the file it names (without beginning again). -/
def PartOf (fs : Fs) (m : List (Str × Json)) (i : Nat) (part : Str) : Prop :=
  ∃ data, valueOf m b!"data" = .str data ∧
    ((b!".wdpkg" <:+ data ∧ ∃ text parts, fs data = some text ∧ Pieces text parts ∧ parts[i]? = some part) ∨
     (¬ b!".wdpkg" <:+ data ∧ ∃ parts, Pieces data parts ∧ part = parts.getD (i % parts.length) []))

/-- The vote that a document gives RAM number `i` for `x`: the value that a RAMDataHandle made of its part of the data holds at
the number of `x`, 0 if there is none. -/
def DocVote (fs : Fs) (m : List (Str × Json)) (i : Nat) (base : Int) (wires : List Int) (x : Image) (v : Int) : Prop :=
  ∃ part h n, PartOf fs m i part ∧ RamData.ofText fs part = .ok h ∧ number base x wires = some n ∧
    v = (value h 0 (BitVec.ofInt 64 n)).getD 0

/-- Digit `j` to the base `base` of the last 32 bits of `a`, read as a signed number; division truncates. -/
def digit (base : Int) (j : Nat) (a : Addr) : Int := (Int.tdiv (a.setWidth 32).toInt (base ^ j)).tmod base

/-- What a RAM adds to pixel `p` of the mental image: for every wire of it at `p`, its contents at the numbers whose digit of this
wire is positive. -/
def ramPixel (r : Ram) (p : Nat) : Int :=
  ((r.addresses.zipIdx.filter (fun w => decide (w.1 = (p : Int)))).map (fun w =>
    ((r.positions.filter (fun e => decide (0 < digit r.base w.2 e.1))).map (·.2)).sum)).sum

/-- Pixel `p` of the mental image. -/
def pixel (d : Discriminator) (p : Nat) : Int := (d.rams.map (fun r => ramPixel r p)).sum

/-- The discriminator's score for `img` reaches what is required of it, whatever the threshold. With threshold 0 the required score
is not a number before the first training (never reached), infinite, hence 1, after it, and negative infinity if the
document gives a negative number of trainings. -/
def ReachesAny (f : Flt) (c : ClusterCfg) (img : Image) (d : Discriminator) : Prop :=
  ∃ s, HasScore f img d s ∧
    ((c.threshold ≠ 0 ∧ required f c d.getNumberOfTrainings ≤ s) ∨
     (c.threshold = 0 ∧ (f.rnd d.getNumberOfTrainings < 0 ∨ (0 < f.rnd d.getNumberOfTrainings ∧ 1 ≤ s))))

/-- What one successful training of `img` does to the discriminators `ds` of a cluster in any state. -/
inductive LearnsAny (f : Flt) (c : ClusterCfg) (rnd : Rnd) (img : Image) (ds : List Discriminator) : List Discriminator → Prop where
  /-- Some discriminator reaches its required score: exactly those learn. -/
  | fitting {ds' : List Discriminator} (some_reaches : ∃ d ∈ ds, ReachesAny f c img d)
      (exactly : List.Forall₂ (fun d d' => (ReachesAny f c img d ∧ d.train img = (d', .ok ())) ∨
        (¬ ReachesAny f c img d ∧ d' = d)) ds ds') :
      LearnsAny f c rnd img ds ds'
  /-- None does and there is room, or no discriminator at all: a new discriminator learns. -/
  | fresh {d0 d1 : Discriminator} (none_reaches : ∀ d ∈ ds, ¬ ReachesAny f c img d)
      (room : ds = [] ∨ (ds.length : Int) < c.discriminatorsLimit) (new : IsNew c rnd d0) (trained : d0.train img = (d1, .ok ())) :
      LearnsAny f c rnd img ds (ds ++ [d1])
  /-- None does and there is no room: the last one of best score learns. -/
  | best {pre post : List Discriminator} {d d1 : Discriminator} (none_reaches : ∀ d ∈ ds, ¬ ReachesAny f c img d)
      (no_room : c.discriminatorsLimit ≤ ds.length) (split : ds = pre ++ d :: post) (last : LastBest f img pre d post)
      (not_negative : ∀ s, HasScore f img d s → 0 ≤ s) (trained : d.train img = (d1, .ok ())) :
      LearnsAny f c rnd img ds (pre ++ d1 :: post)
  /-- None does, there is no room, and all scores are negative: nothing is learnt. -/
  | nothing (none_reaches : ∀ d ∈ ds, ¬ ReachesAny f c img d) (no_room : c.discriminatorsLimit ≤ ds.length)
      (not_empty : ds ≠ []) (negative : ∀ d ∈ ds, ∃ s, HasScore f img d s ∧ s < 0) :
      LearnsAny f c rnd img ds ds

end Wis.Spec
