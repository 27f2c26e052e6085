import Verif.Props.Scramble
import Verif.Props.RecodeClus
/-!
# C191: scrambled images for Discriminators and ClusWisards
-/

namespace Wis
open Spec

theorem Spec.Scrambled.on {n : Nat} {σ : Equiv.Perm Int} {x y : Image} (h : Scrambled n σ x y) {m : List Int}
    (hm : ∀ a ∈ m, 0 ≤ a ∧ a < (n : Int)) : Recoded σ (fun _ v => v) m x y := by
  intro a ha v hv
  obtain ⟨h0, h1⟩ := hm a ha
  obtain ⟨k, rfl⟩ := Int.eq_ofNat_of_zero_le h0
  exact h k (by simpa using h1) v hv

theorem faithful_self (z : Bool) (c : Int) : Faithful z c (fun _ v => v) :=
  ⟨fun _ _ _ _ _ _ _ h => h, fun _ _ _ _ _ => Iff.rfl⟩

theorem scr_inside {n : Nat} {σ : Equiv.Perm Int} (hσ : Scrambling n σ) {m : List Int} (hm : ∀ a ∈ m, 0 ≤ a ∧ a < (n : Int)) :
    ∀ a ∈ m.map σ, 0 ≤ a ∧ a < (n : Int) := by
  intro a ha
  obtain ⟨b, hb, rfl⟩ := List.mem_map.mp ha
  exact (hσ b).mp (hm b hb)

theorem ramRec_scr {n : Nat} {σ : Equiv.Perm Int} (hσ : Scrambling n σ) {c b : Int} {z : Bool} (hc : c ≤ b) (hb : 2 ≤ b) {m : List Int}
    (hm : ∀ a ∈ m, 0 ≤ a ∧ a < (n : Int)) (hp : b ^ m.length ≤ 2 ^ 64) :
    RamRec (Moved n c σ) ⟨m, [], z, b⟩ ⟨m.map σ, [], z, b⟩ := by
  have hm' := scr_inside hσ hm
  have hp' : b ^ (m.map σ).length ≤ 2 ^ 64 := by rwa [List.length_map]
  refine ⟨rfl, fun x x' h => ?_, fun x x' y y' hx hy => ?_⟩
  · refine ⟨_, _, getIndex_valid (valid_mono h.left hc) hm, getIndex_valid (valid_mono h.right hc) hm', rfl, fun hz => ?_⟩
    rw [key_eq_zero_iff (by omega) (valid_mono h.left hc) hm hp, key_eq_zero_iff (by omega) (valid_mono h.right hc) hm' hp']
    exact zero_recoded (faithful_self z c) hz hm h.left (h.moved.on hm)
  · rw [getIndex_valid (valid_mono hx.left hc) hm, getIndex_valid (valid_mono hx.right hc) hm',
      getIndex_valid (valid_mono hy.left hc) hm, getIndex_valid (valid_mono hy.right hc) hm', Except.ok.injEq, Except.ok.injEq,
      key_eq_iff (by omega) (valid_mono hx.left hc) (valid_mono hy.left hc) hm hp,
      key_eq_iff (by omega) (valid_mono hx.right hc) (valid_mono hy.right hc) hm' hp']
    exact agree_recoded (faithful_self z c) hm hx.left hy.left (hx.moved.on hm) (hy.moved.on hm)

theorem dRec_scr {n : Nat} {σ : Equiv.Perm Int} (hσ : Scrambling n σ) {rnd rnd' : Rnd} {A c : Int} {o : Options} {d d' : Discriminator}
    (h : Discriminator.create rnd A n o = .ok d) (h' : Discriminator.create rnd' A n o = .ok d')
    (hm : d'.mapping = d.mapping.map (·.map σ)) (hi : WiredInside n d.mapping) (hc : c ≤ o.base) : DRec (Moved n c σ) d d' := by
  obtain ⟨a1, a2, a3, a4⟩ := create_fresh h
  obtain ⟨b1, b2, b3, b4⟩ := create_fresh h'
  refine ⟨fun x x' hx => ⟨a1.trans hx.left.1.symm, b1.trans hx.right.1.symm⟩, b2.trans a2.symm, ?_⟩
  unfold Discriminator.mapping at hm hi
  generalize d.rams = rs at *
  generalize d'.rams = rs' at *
  clear h h' a1 a2 b1 b2
  induction rs generalizing rs' with
  | nil =>
    cases rs' with
    | nil => exact .nil
    | cons => simp at hm
  | cons r rs ih =>
    cases rs' with
    | nil => simp at hm
    | cons r' rs' =>
      simp only [List.map_cons, List.cons.injEq] at hm
      refine .cons ?_ (ih (fun m hm' => hi m (List.mem_cons_of_mem _ hm')) (fun r hr => a4 r (by simp [hr])) rs' (fun r hr => b4 r (by simp [hr])) hm.2)
      obtain ⟨p1, p2, p3, p4⟩ := a4 r (by simp)
      obtain ⟨q1, q2, q3, q4⟩ := b4 r' (by simp)
      have := ramRec_scr (z := o.ignoreZero) hσ hc a3 (m := r.addresses) (hi r.addresses (by simp)) p4
      obtain ⟨ra, rp, rz, rb⟩ := r
      obtain ⟨ra', rp', rz', rb'⟩ := r'
      simp only at p1 p2 p3 q1 q2 q3 hm this ⊢
      rw [p1, p2, p3, q1, q2, q3, hm.1]
      exact this

theorem create_scr {n : Nat} {σ : Equiv.Perm Int} {tr : Rnd → Rnd} (ht : Translates n σ tr) {r : Rnd} {A : Int} {o : Options}
    (hm : o.mapping = []) (hi : o.indexes = []) {d d' : Discriminator} (h : Discriminator.create r A n o = .ok d)
    (h' : Discriminator.create (tr r) A n o = .ok d') : d'.mapping = d.mapping.map (·.map σ) := by
  unfold Discriminator.create at h h'
  simp only [hm, hi, List.length_nil, ne_eq, not_true_eq_false, if_false] at h h'
  exact shuffle_scr ht h h'

/-- **C191**: a Discriminator with default wiring. The one made from translated random numbers accepts and rejects the same calls with
moved pictures, and gives them the same votes. -/
theorem C191_discriminator {n : Nat} {σ : Equiv.Perm Int} (hσ : Scrambling n σ) {tr : Rnd → Rnd} (ht : Translates n σ tr) {rnd : Rnd}
    {A : Nat} {o : Options} (hm : o.mapping = []) (hi : o.indexes = []) {d d' : Discriminator}
    (h : Discriminator.create rnd A n o = .ok d) (h' : Discriminator.create (tr rnd) A n o = .ok d') {c : Int} (hc : c ≤ o.base)
    {ops ops' : List Op} (hops : List.Forall₂ (MovedCall n c σ) ops ops') :
    (play d' ops').2 = (play d ops).2 ∧ (play d' ops').1.getNumberOfTrainings = (play d ops).1.getNumberOfTrainings ∧
    ∀ x y, Moved n c σ x y → (play d' ops').1.classify y = (play d ops).1.classify x := by
  have hd := dRec_scr hσ h h' (create_scr ht hm hi h h') ((C18_default_wiring rnd A n o hm hi).2 d h).2.2.1 hc
  obtain ⟨a, b⟩ := DRec.play (hops.imp (by
    rintro _ _ (⟨h⟩ | ⟨h⟩)
    · exact ⟨h, rfl⟩
    · exact ⟨h, rfl⟩)) hd
  exact ⟨b, a.count, fun x x' hx => a.classify hx⟩

/-! ## ClusWisard -/

theorem cfgRec_scr {n : Nat} {σ : Equiv.Perm Int} (hσ : Scrambling n σ) {tr : Rnd → Rnd} (ht : Translates n σ tr) {A : Nat} {c : Int}
    {cf : ClusterCfg} (hA : cf.addressSize = A) (hn : cf.entrySize = n) (h2 : 2 ≤ A) (hAn : A ≤ n) (hs : n + A ≤ 2147483647)
    (hb : 2 ≤ cf.base) (hp : cf.base ^ A < 2 ^ 63) (hc : c ≤ cf.base) : CfgRec (Moved n c σ) tr cf cf := by
  refine ⟨fun _ _ => rfl, rfl, fun rnd => ?_⟩
  have hcr : ∀ rnd, Cluster.newDiscriminator rnd cf =
      Discriminator.create rnd A n { ignoreZero := cf.ignoreZero, completeAddressing := cf.completeAddressing, base := cf.base } := by
    intro rnd
    unfold Cluster.newDiscriminator Discriminator.create
    simp [hA, hn]
  have H := fun rnd => C18_default_wiring rnd A n { ignoreZero := cf.ignoreZero, completeAddressing := cf.completeAddressing, base := cf.base } rfl rfl
  obtain ⟨d, hd⟩ := (H rnd).1 h2 hAn hs hb hp
  obtain ⟨d', hd'⟩ := (H (tr rnd)).1 h2 hAn hs hb hp
  have hw := ((H rnd).2 d hd).2.2.1
  exact ⟨d, d', (hcr rnd).trans hd, (hcr (tr rnd)).trans hd', dRec_scr hσ hd hd' (create_scr ht rfl rfl hd hd') hw hc⟩

theorem moved_step {n : Nat} {c : Int} {σ : Equiv.Perm Int} {tr : Rnd → Rnd} {U : Prop} {f : Flt} {w w' : ClusWisard}
    (h : CWRec (Moved n c σ) tr U w w') {o o' : COp} (ho : MovedOp n c σ tr o o') (hU : o.isUnsup = true → U) :
    CWRec (Moved n c σ) tr U (cstep f w o).1 (cstep f w' o').1 ∧ (cstep f w' o').2 = (cstep f w o).2 := by
  cases ho with
  | train env labels hx => exact h.train env hx labels
  | semi env labels hx => exact h.trainSemi env hx labels
  | unsup env hx => exact h.trainUnsupervised (hU rfl) env hx

theorem moved_play {n : Nat} {c : Int} {σ : Equiv.Perm Int} {tr : Rnd → Rnd} {U : Prop} {f : Flt} {ops ops' : List COp}
    (ho : List.Forall₂ (MovedOp n c σ tr) ops ops') :
    ∀ {w w' : ClusWisard}, (∀ o ∈ ops, o.isUnsup = true → U) → CWRec (Moved n c σ) tr U w w' →
    CWRec (Moved n c σ) tr U (cplay f w ops).1 (cplay f w' ops').1 ∧ (cplay f w' ops').2 = (cplay f w ops).2 := by
  induction ho with
  | nil => intro w w' _ h; exact ⟨h, rfl⟩
  | @cons o o' ops ops' h1 _ ih =>
    intro w w' hU h
    obtain ⟨a, b⟩ := moved_step (f := f) h h1 (hU o (by simp))
    obtain ⟨k1, k2⟩ := ih (fun o ho => hU o (by simp [ho])) a
    simp only [cplay]
    exact ⟨k1, by rw [b, k2]⟩

/-- **C191**: a ClusWisard does not know which pixels are neighbours either. Two ClusWisards made by the same constructor call; the
second receives the moved pictures and the translated random numbers. Every training call, supervised, semi-supervised or
unsupervised, has the same outcome, also if it fails; afterwards the classes are the same and every list of moved pictures gets the
same answers. (`trainUnsupervised` always works with base 2: if it is used the pictures have two colours.) -/
theorem C191_clusWisard {n : Nat} {σ : Equiv.Perm Int} (hσ : Scrambling n σ) {tr : Rnd → Rnd} (ht : Translates n σ tr) {f : Flt} {A : Nat}
    {minScore : Rat} {threshold lim : Int} {o : ClusOpts} {w : ClusWisard} (h : ClusWisard.create A minScore threshold lim o = .ok w)
    (hA : 2 ≤ A) (hAn : A ≤ n) (hn : n + A ≤ 2147483647) (hb : 2 ≤ o.base) (hp : o.base ^ A < 2 ^ 63) {c : Int} (hc : c ≤ o.base)
    {ops ops' : List COp} (hops : List.Forall₂ (MovedOp n c σ tr) ops ops') (hU : ∀ op ∈ ops, op.isUnsup = true → c ≤ 2) :
    (cplay f w ops').2 = (cplay f w ops).2 ∧ (cplay f w ops').1.clusters.keys = (cplay f w ops).1.clusters.keys ∧
    ∀ xs ys, Moveds n c σ xs ys →
      (cplay f w ops').1.classify ys = (cplay f w ops).1.classify xs ∧
      (cplay f w ops').1.pyClassify ys = (cplay f w ops).1.pyClassify xs ∧
      (cplay f w ops').1.classifyUnsupervised ys = (cplay f w ops).1.classifyUnsupervised xs := by
  unfold ClusWisard.create at h
  obtain ⟨_, _, h⟩ := bind_eq_ok h
  cases h
  have hr : CWRec (Moved n c σ) tr (c ≤ 2) ⟨A, minScore, threshold, lim, o, [], Cluster.default⟩
      ⟨A, minScore, threshold, lim, o, [], Cluster.default⟩ := by
    refine ⟨rfl, rfl, fun x x' hx => ?_, .nil, ⟨.none, .nil⟩⟩
    have e1 : (x.length : Int) = n := hx.left.1
    have e2 : (x'.length : Int) = n := hx.right.1
    refine ⟨by omega, ?_, fun hu => ?_⟩
    · exact cfgRec_scr hσ ht (cf := ClusWisard.clusterCfg ⟨A, minScore, threshold, lim, o, [], Cluster.default⟩ x.length) rfl e1 hA hAn hn hb hp hc
    · have h2 : (2 : Int) ^ A < 2 ^ 63 := lt_of_le_of_lt (pow_le_pow_left₀ (by decide) hb A) hp
      exact cfgRec_scr hσ ht (cf := { ClusWisard.clusterCfg ⟨A, minScore, threshold, lim, o, [], Cluster.default⟩ x.length with base := 2 }) rfl e1 hA hAn hn
        (show (2 : Int) ≤ 2 from le_refl _) h2 hu
  obtain ⟨k1, k2⟩ := moved_play (f := f) hops hU hr
  exact ⟨k2, k1.cls.keys, fun xs xs' hx => ⟨k1.classify hx, k1.pyClassify hx, k1.classifyUnsupervised hx⟩⟩

/-- A row of four pixels and its mirror image. -/
theorem mirror_moved (x y : List Int) (hx : x.length = 4) (hy : y.length = 4) (bx : ∀ v ∈ x, v = 0 ∨ v = 1) (by' : ∀ v ∈ y, v = 0 ∨ v = 1)
    (h : ∀ a : Nat, a < 4 → (Image.vec y).read (3 - (a : Int)) = (Image.vec x).read a) : Moved 4 2 (Equiv.subLeft 3) (.vec x) (.vec y) := by
  refine ⟨?_, ?_, fun a ha v hv => by rw [Equiv.subLeft_apply, h a ha, hv]⟩
  · have := bits_valid x bx
    rwa [hx] at this
  · have := bits_valid y by'
    rwa [hy] at this

/-- The hypotheses of `C191_discriminator` are met, for whatever translation. -/
example (tr : Rnd → Rnd) : (∃ d, Discriminator.create rotRnd (2 : Nat) (4 : Nat) {} = .ok d) ∧
    (∃ d, Discriminator.create (tr rotRnd) (2 : Nat) (4 : Nat) {} = .ok d) ∧
    List.Forall₂ (MovedCall 4 2 (Equiv.subLeft 3)) [.train (.vec [1, 0, 1, 1]), .untrain (.vec [0, 0, 0, 1])]
      [.train (.vec [1, 1, 0, 1]), .untrain (.vec [1, 0, 0, 0])] :=
  ⟨(C18_default_wiring rotRnd 2 4 {} rfl rfl).1 (by decide) (by decide) (by decide) (by decide) (by decide),
    (C18_default_wiring (tr rotRnd) 2 4 {} rfl rfl).1 (by decide) (by decide) (by decide) (by decide) (by decide),
    .cons (.train (mirror_moved _ _ rfl rfl (by decide) (by decide) (by decide)))
      (.cons (.untrain (mirror_moved _ _ rfl rfl (by decide) (by decide) (by decide))) .nil)⟩

/-- The hypotheses of `C191_clusWisard` are met: all three kinds of training, mirrored; and a translation exists. -/
example : (∃ tr : Rnd ≃ Rnd, Translates 4 (Equiv.subLeft 3) tr) ∧ (∃ w, ClusWisard.create (2 : Nat) (1/10) 3 2 {} = .ok w) ∧
    ∀ tr : Rnd → Rnd, ∃ ops ops' : List COp, ops.length = 3 ∧ List.Forall₂ (MovedOp 4 2 (Equiv.subLeft 3) tr) ops ops' :=
  ⟨⟨_, translates (by intro a; simp only [Equiv.subLeft_apply]; omega)⟩, ⟨⟨2, 1/10, 3, 2, {}, [], Cluster.default⟩, by decide +kernel⟩, fun tr =>
    ⟨[.unsup (fun _ => ⟨Rnd.id, true⟩) [[1, 0, 1, 1]], .train (fun _ => ⟨rotRnd, true⟩) [[1, 0, 1, 1]] [b!"a"],
        .semi (fun _ _ => ⟨Rnd.id, true⟩) [[0, 0, 0, 1], [1, 0, 1, 1]] [(0, b!"b")]],
      [.unsup (fun _ => ⟨tr Rnd.id, true⟩) [[1, 1, 0, 1]], .train (fun _ => ⟨tr rotRnd, true⟩) [[1, 1, 0, 1]] [b!"a"],
        .semi (fun _ _ => ⟨tr Rnd.id, true⟩) [[1, 0, 0, 0], [1, 1, 0, 1]] [(0, b!"b")]], rfl,
      .cons (.unsup _ (.cons (mirror_moved _ _ rfl rfl (by decide) (by decide) (by decide)) .nil))
        (.cons (.train _ _ (.cons (mirror_moved _ _ rfl rfl (by decide) (by decide) (by decide)) .nil))
          (.cons (.semi _ _ (.cons (mirror_moved _ _ rfl rfl (by decide) (by decide) (by decide))
            (.cons (mirror_moved _ _ rfl rfl (by decide) (by decide) (by decide)) .nil))) .nil))⟩⟩

end Wis
