import Verif.Model.PySize
import Verif.Props.Memory
import Verif.Props.PySession
import Verif.Props.PyClusSession
import Verif.Props.PyDiscriminator
/-!
# Property C178: the size of a model, asked from Python
-/

namespace Wis
open Spec PyBind

/-- C178: `getsizeof` takes no argument (any other call is a `TypeError`) and hands on the number computed in C++. -/
theorem C178_calls (L : PyLib) (sw sc sd sr : Int) (d : Discriminator) (w : Wisard) (c : ClusWisard) :
    (Behaves (d.pyGetsizeof L sd sr) fun args r => args = [] ∧ r = .ok (d.getsizeof sd sr)) ∧
    (Behaves (w.pyGetsizeof L sw sd sr) fun args r => args = [] ∧ r = .ok (w.getsizeof sw sd sr)) ∧
    Behaves (c.pyGetsizeof L sw sc sd sr) fun args r => args = [] ∧ r = .of (some (c.getsizeof sw sc sd sr)) := by
  refine ⟨?_, ?_, ?_⟩
  · refine reaches_of (fun o => .of (match o with | some [] => some (.ok (d.getsizeof sd sr)) | _ => none)) rfl noArg_args fun args r => ?_
    constructor
    · rintro ⟨rfl, rfl⟩; exact ⟨_, ⟨rfl, rfl⟩, rfl⟩
    · rintro ⟨_, ⟨rfl, rfl⟩, rfl⟩; exact ⟨rfl, rfl⟩
  · refine reaches_of (fun o => .of (match o with | some [] => some (.ok (w.getsizeof sw sd sr)) | _ => none)) rfl noArg_args fun args r => ?_
    constructor
    · rintro ⟨rfl, rfl⟩; exact ⟨_, ⟨rfl, rfl⟩, rfl⟩
    · rintro ⟨_, ⟨rfl, rfl⟩, rfl⟩; exact ⟨rfl, rfl⟩
  · refine reaches_of (fun o => .of (match o with | some [] => some (c.getsizeof sw sc sd sr) | _ => none)) rfl noArg_args fun args r => ?_
    constructor
    · rintro ⟨rfl, rfl⟩; exact ⟨_, ⟨rfl, rfl⟩, rfl⟩
    · rintro ⟨_, ⟨rfl, rfl⟩, rfl⟩; exact ⟨rfl, rfl⟩

theorem wstep_sorted {w : Wisard} (h : SMap.Sorted w.discriminators) (op : WOp) : SMap.Sorted (wstep w op).1.discriminators := by
  cases op with
  | train env img l =>
    simp only [wstep]
    unfold Wisard.train1
    split
    · unfold Wisard.trainKnown
      exact SMap.sorted_set h _ _
    · unfold Wisard.makeDiscriminator
      cases Wisard.newDiscriminator env.rnd w.addressSize w.opts l img.size with
      | ok d =>
        simp only
        unfold Wisard.trainKnown
        exact SMap.sorted_set (SMap.sorted_set h _ _) _ _
      | error e =>
        simp only
        cases env.lhsFirst
        · simpa using h
        · simpa using SMap.sorted_set h _ _
  | leave img l =>
    simp only [wstep]
    unfold Wisard.leaveOneOut
    split
    · exact h
    · exact SMap.sorted_set h _ _

theorem wplay_size (sw : Int) {sd sr : Int} (hd : 0 ≤ sd) (hr : 0 ≤ sr) : ∀ (ops : List WOp) {w : Wisard}, SMap.Sorted w.discriminators →
    w.getsizeof sw sd sr ≤ (wplay w ops).1.getsizeof sw sd sr := by
  intro ops
  induction ops with
  | nil => intro w _; exact le_refl _
  | cons op ops ih =>
    intro w h
    simp only [wplay]
    refine le_trans ?_ (ih (wstep_sorted h op))
    cases op with
    | train env img l => exact (C96_growth sw hd hr h).1 env img l
    | leave img l => exact le_of_eq ((C96_growth sw hd hr h).2.2 img l).symm

theorem play_size {sd sr : Int} : ∀ (imgs : List Image) (d : Discriminator), d.getsizeof sd sr ≤ (play d (imgs.map Op.train)).1.getsizeof sd sr := by
  intro imgs
  induction imgs with
  | nil => intro d; exact le_refl _
  | cons img imgs ih =>
    intro d
    simp only [List.map_cons, play]
    refine le_trans ?_ (ih _)
    exact (C26_memory_accounting sd sr d img).1

/-- C178: whatever calls a Python program makes on a Wisard or a Discriminator, with whatever arguments and going on after exceptions, `getsizeof()`
returns a number before and after, and it has not become smaller. -/
theorem C178_growth (L : PyLib) (sw : Int) {sd sr : Int} (hd : 0 ≤ sd) (hr : 0 ≤ sr) :
    (∀ (w : Wisard), SMap.Sorted w.discriminators → ∀ calls : List PyCall, ∃ s s', w.pyGetsizeof L sw sd sr [] = .ok s ∧
      (w.pySession L calls).1.pyGetsizeof L sw sd sr [] = .ok s' ∧ s ≤ s') ∧
    ∀ (d : Discriminator) (calls : List (List PyVal)), ∃ s s', d.pyGetsizeof L sd sr [] = .ok s ∧ (d.pyTrains L calls).1.pyGetsizeof L sd sr [] = .ok s' ∧ s ≤ s' := by
  refine ⟨fun w hw calls => ⟨w.getsizeof sw sd sr, (w.pySession L calls).1.getsizeof sw sd sr, rfl, rfl, ?_⟩,
    fun d calls => ⟨d.getsizeof sd sr, (d.pyTrains L calls).1.getsizeof sd sr, rfl, rfl, ?_⟩⟩
  · obtain ⟨parts, _, _, h⟩ := C150_session L calls w
    rw [h]
    exact wplay_size sw hd hr _ hw
  · obtain ⟨parts, _, _, h⟩ := C158_session L calls d
    rw [h]
    exact play_size _ d

/-- C178: after a correct Python program on a new Wisard (all calls valid, so that all return) `getsizeof()` is the size of the object, 4 bytes per given
index and for each class the bytes of its name and of its discriminator: the object and, for each RAM, the object, 8 bytes per wire and 12 bytes per
different pattern among the images the program trained with the class. -/
theorem C178_program (L : PyLib) {n A : Nat} {o : WisardOpts} (hm : o.mapping = []) (hi : o.indexes = [])
    (hA : 2 ≤ A) (hAn : A ≤ n) (hn : n + A ≤ 2147483647) (hb : 2 ≤ o.base) (hp : o.base ^ A < 2 ^ 63)
    (hc : o.confidence ≤ ramsOf n A o.completeAddressing) (calls : List PyCall) (ks : List Nat)
    (hg : List.Forall₂ (GoodCall n o.base) calls ks) (hN : ks.sum ≤ 2147483645) (sw sd sr : Int) :
    let w := ((Wisard.create A o).pySession L calls).1
    ∃ parts : List (List WOp), List.Forall₂ (fun c (ops : List WOp) => ∃ k, Count c k ∧ ops.length = k ∧ ∀ (i : Nat) op, ops[i]? = some op → Entry c i op) calls parts ∧
      w.pyGetsizeof L sw sd sr [] = .ok (sw +
        (w.discriminators.map (fun e => (e.1.length : Int) + discBytes sd sr e.2.mapping (trainedImages (opsOf e.1 parts.flatten)))).sum) := by
  intro w
  obtain ⟨parts, h1, _, _, g, _⟩ := good_session L hm hi hA hAn hn hb hp hc calls ks hg hN
  refine ⟨parts, h1, ?_⟩
  have := C96_wisard g sw sd sr
  rw [show (Wisard.create A o).opts.indexes = [] from hi] at this
  simp only [List.length_nil, Nat.cast_zero, mul_zero, add_zero] at this
  rw [← this]
  rfl

/-- C178: for a ClusWisard made by the constructor, whatever calls the program makes: `getsizeof()` either returns the size of the object, its clusters,
the names of its classes and 4 bytes per discriminator and the discriminators, or (exactly if one of the clusters holds a discriminator that could not be
made) is undefined. -/
theorem C178_clus (L : PyLib) (f : Flt) {A : Int} {ms : Rat} {t dl : Int} {o : ClusOpts} {w0 : ClusWisard}
    (h0 : ClusWisard.create A ms t dl o = .ok w0) (calls : List PyClusCall) (sw sc sd sr : Int) :
    let w := (w0.pySession L f calls).1
    ((none ∉ w.unsupervisedCluster.discriminators ∧ ∀ l, none ∉ discs w l) →
      w.pyGetsizeof L sw sc sd sr [] = .ok (sw + clusterBytes sc sd sr (w.unsupervisedCluster.discriminators.filterMap id)
        + (w.clusters.keys.map (fun l => (l.length : Int) + clusterBytes sc sd sr ((discs w l).filterMap id))).sum)) ∧
    (¬ (none ∉ w.unsupervisedCluster.discriminators ∧ ∀ l, none ∉ discs w l) → w.pyGetsizeof L sw sc sd sr [] = .ub .nullDeref) := by
  intro w
  obtain ⟨parts, _, _, h, _⟩ := C152_session L f calls w0
  have hw : w = (cplay f w0 (parts.filterMap id)).1 := h
  obtain ⟨d1, d2⟩ := C97_defined f h0 (parts.filterMap id) sw sc sd sr
  have hs := fun s => C97_size f h0 (parts.filterMap id) sw sc sd sr s
  simp only [← hw] at d1 d2 hs
  have hpy : w.pyGetsizeof L sw sc sd sr [] = .of (some (w.getsizeof sw sc sd sr)) := rfl
  rw [hpy]
  constructor
  · intro hh
    obtain ⟨s, h⟩ := d1.mpr hh
    rw [h, (hs s h).1]
    rfl
  · intro hh
    cases hq : w.getsizeof sw sc sd sr with
    | ok s => exact absurd (d1.mp ⟨s, hq⟩) hh
    | error e => rw [d2 e hq]; rfl

/-! ### The hypotheses can be met -/

/-- A Wisard of two trainings in any sorted state, a program with a call that is a `TypeError`. -/
example (L : PyLib) : ∃ s s', (Wisard.create 2 {}).pyGetsizeof L 100 50 40 [] = .ok s ∧
    ((Wisard.create 2 {}).pySession L [.train (fun _ => ⟨Rnd.id, true⟩) [.int 3]]).1.pyGetsizeof L 100 50 40 [] = .ok s' ∧ s ≤ s' :=
  (C178_growth L 100 (by decide) (by decide)).1 _ SMap.sorted_nil _

/-- Two patterns on one pair of wires, one on the other: 50 + (40 + 16 + 24) + (40 + 16 + 12). -/
example : discBytes 50 40 [[0, 1], [2, 3]] [.vec [1, 0, 1, 1], .vec [0, 0, 1, 1]] = 198 := by decide

end Wis
