import Verif.Props.Recode
import Verif.Lemmas.ClusSim
import Verif.Spec.Recode
/-! Two ClusWisards that see the same pictures in two notations (related by `R`) behave alike. -/

namespace Wis
open Spec

section
variable {R : Image → Image → Prop}

/-- Two RAMs that find the same coincidences among the related images, and hold the same contents for them. -/
structure RamRec (R : Image → Image → Prop) (r r' : Ram) : Prop where
  iz : r'.ignoreZero = r.ignoreZero
  find : ∀ x x', R x x' → ∃ k k', r.getIndex x = .ok k ∧ r'.getIndex x' = .ok k' ∧ r'.positions.find k' = r.positions.find k ∧
    (r.ignoreZero = true → (k = 0 ↔ k' = 0))
  coin : ∀ x x' y y', R x x' → R y y' → (r.getIndex x = r.getIndex y ↔ r'.getIndex x' = r'.getIndex y')

theorem RamRec.set {r r' : Ram} (h : RamRec R r r') {x x' : Image} (hx : R x x') {k k' : Addr} (hk : r.getIndex x = .ok k)
    (hk' : r'.getIndex x' = .ok k') (c : Int) :
    RamRec R { r with positions := r.positions.set k c } { r' with positions := r'.positions.set k' c } where
  iz := h.iz
  find y y' hy := by
    obtain ⟨l, l', h1, h2, h3, h4⟩ := h.find y y' hy
    refine ⟨l, l', h1, h2, ?_, h4⟩
    have hc := h.coin x x' y y' hx hy
    rw [hk, hk', h1, h2] at hc
    simp only [Except.ok.injEq] at hc
    simp only [RamT.find_set, h3]
    by_cases e : k = l
    · rw [if_pos (hc.mp e).symm, if_pos e.symm]
    · rw [if_neg (fun e' => e (hc.mpr e'.symm)), if_neg (fun e' => e e'.symm)]
  coin := h.coin

theorem RamRec.getVote {r r' : Ram} (h : RamRec R r r') {x x' : Image} (hx : R x x') : r'.getVote x' = r.getVote x := by
  obtain ⟨k, k', h1, h2, h3, h4⟩ := h.find x x' hx
  unfold Ram.getVote
  rw [h1, h2, Except.bind_ok, Except.bind_ok, h3, h.iz]
  by_cases z : r.ignoreZero = true
  · have := h4 z
    simp only [z, Bool.true_and, decide_eq_true_eq, this]
  · simp only [Bool.not_eq_true] at z
    simp only [z, Bool.false_and, Bool.false_eq_true, if_false]

theorem RamRec.train {r r' : Ram} (h : RamRec R r r') {x x' : Image} (hx : R x x') :
    RamRec R (r.train x).1 (r'.train x').1 ∧ (r'.train x').2 = (r.train x).2 := by
  obtain ⟨k, k', h1, h2, h3, h4⟩ := h.find x x' hx
  unfold Ram.train
  rw [h1, h2]
  simp only [h3]
  cases hf : r.positions.find k with
  | none => exact ⟨h.set hx h1 h2 1, rfl⟩
  | some c =>
    simp only
    cases i32 (c + 1) with
    | error e => exact ⟨h, rfl⟩
    | ok c' => exact ⟨h.set hx h1 h2 c', rfl⟩

theorem RamRec.untrain {r r' : Ram} (h : RamRec R r r') {x x' : Image} (hx : R x x') :
    RamRec R (r.untrain x).1 (r'.untrain x').1 ∧ (r'.untrain x').2 = (r.untrain x).2 := by
  obtain ⟨k, k', h1, h2, h3, h4⟩ := h.find x x' hx
  unfold Ram.untrain
  rw [h1, h2]
  simp only [h3]
  cases hf : r.positions.find k with
  | none => exact ⟨h, rfl⟩
  | some c =>
    simp only
    cases i32 (c - 1) with
    | error e => exact ⟨h, rfl⟩
    | ok c' => exact ⟨h.set hx h1 h2 c', rfl⟩

abbrev RamsRec (R : Image → Image → Prop) := List.Forall₂ (RamRec R)

theorem RamsRec.train {rs rs' : List Ram} (h : RamsRec R rs rs') {x x' : Image} (hx : R x x') :
    RamsRec R (Discriminator.trainRams x rs).1 (Discriminator.trainRams x' rs').1 ∧
    (Discriminator.trainRams x' rs').2 = (Discriminator.trainRams x rs).2 := by
  induction h with
  | nil => exact ⟨.nil, rfl⟩
  | @cons r r' rs rs' h1 h2 ih =>
    obtain ⟨a, b⟩ := h1.train hx
    simp only [Discriminator.trainRams]
    rcases hr : r.train x with ⟨s, _ | _⟩ <;> rcases hr' : r'.train x' with ⟨s', _ | _⟩ <;>
      rw [hr, hr'] at a b <;> simp only at a b
    · cases b; exact ⟨.cons a h2, rfl⟩
    · cases b
    · cases b
    · exact ⟨.cons a ih.1, ih.2⟩

theorem RamsRec.untrain {rs rs' : List Ram} (h : RamsRec R rs rs') {x x' : Image} (hx : R x x') :
    RamsRec R (Discriminator.untrainRams x rs).1 (Discriminator.untrainRams x' rs').1 ∧
    (Discriminator.untrainRams x' rs').2 = (Discriminator.untrainRams x rs).2 := by
  induction h with
  | nil => exact ⟨.nil, rfl⟩
  | @cons r r' rs rs' h1 h2 ih =>
    obtain ⟨a, b⟩ := h1.untrain hx
    simp only [Discriminator.untrainRams]
    rcases hr : r.untrain x with ⟨s, _ | _⟩ <;> rcases hr' : r'.untrain x' with ⟨s', _ | _⟩ <;>
      rw [hr, hr'] at a b <;> simp only at a b
    · cases b; exact ⟨.cons a h2, rfl⟩
    · cases b
    · cases b
    · exact ⟨.cons a ih.1, ih.2⟩

theorem RamsRec.votes {rs rs' : List Ram} (h : RamsRec R rs rs') {x x' : Image} (hx : R x x') :
    Discriminator.votes x' rs' = Discriminator.votes x rs := by
  induction h with
  | nil => rfl
  | cons h1 h2 ih => simp only [Discriminator.votes, h1.getVote hx, ih]

structure DRec (R : Image → Image → Prop) (d d' : Discriminator) : Prop where
  entry : ∀ x x', R x x' → d.entrySize = x.size ∧ d'.entrySize = x'.size
  count : d'.count = d.count
  rams : RamsRec R d.rams d'.rams

theorem DRec.train {d d' : Discriminator} (h : DRec R d d') {x x' : Image} (hx : R x x') :
    DRec R (d.train x).1 (d'.train x').1 ∧ (d'.train x').2 = (d.train x).2 := by
  obtain ⟨e1, e2⟩ := h.entry x x' hx
  unfold Discriminator.train Discriminator.checkEntrySize
  rw [if_neg (fun c => c e1), if_neg (fun c => c e2), h.count]
  simp only
  split
  · exact ⟨h, rfl⟩
  · have := h.rams.train hx
    exact ⟨⟨h.entry, rfl, this.1⟩, this.2⟩

theorem DRec.untrain {d d' : Discriminator} (h : DRec R d d') {x x' : Image} (hx : R x x') :
    DRec R (d.untrain x).1 (d'.untrain x').1 ∧ (d'.untrain x').2 = (d.untrain x).2 := by
  obtain ⟨e1, e2⟩ := h.entry x x' hx
  unfold Discriminator.untrain Discriminator.checkEntrySize
  rw [if_neg (fun c => c e1), if_neg (fun c => c e2), h.count]
  simp only
  split
  · exact ⟨h, rfl⟩
  · have := h.rams.untrain hx
    exact ⟨⟨h.entry, rfl, this.1⟩, this.2⟩

theorem DRec.classify {d d' : Discriminator} (h : DRec R d d') {x x' : Image} (hx : R x x') : d'.classify x' = d.classify x := by
  obtain ⟨e1, e2⟩ := h.entry x x' hx
  unfold Discriminator.classify Discriminator.checkEntrySize
  rw [if_neg (fun c => c e2), if_neg (fun c => c e1), h.rams.votes hx]

/-! ## Clusters -/

inductive ORec (R : Image → Image → Prop) : Option Discriminator → Option Discriminator → Prop where
  | none : ORec R .none .none
  | some {d d' : Discriminator} (h : DRec R d d') : ORec R (.some d) (.some d')

abbrev DsRec (R : Image → Image → Prop) := List.Forall₂ (ORec R)

/-- The same choices, with translated random numbers. -/
abbrev trEnv (tr : Rnd → Rnd) (env : Env) : Env := ⟨tr env.rnd, env.lhsFirst⟩

variable {tr : Rnd → Rnd}

/-- New discriminators of both clusters, from translated random numbers, succeed and are related. -/
structure CfgRec (R : Image → Image → Prop) (tr : Rnd → Rnd) (c c' : ClusterCfg) : Prop where
  limit : ∀ f n, Cluster.limit f c' n = Cluster.limit f c n
  max : c'.discriminatorsLimit = c.discriminatorsLimit
  new : ∀ rnd, ∃ d d', Cluster.newDiscriminator rnd c = .ok d ∧ Cluster.newDiscriminator (tr rnd) c' = .ok d' ∧ DRec R d d'

inductive OCfgRec (R : Image → Image → Prop) (tr : Rnd → Rnd) : Option ClusterCfg → Option ClusterCfg → Prop where
  | none : OCfgRec R tr .none .none
  | some {c c' : ClusterCfg} (h : CfgRec R tr c c') : OCfgRec R tr (.some c) (.some c')

structure ClRec (R : Image → Image → Prop) (tr : Rnd → Rnd) (c c' : Cluster) : Prop where
  cfg : OCfgRec R tr c.cfg c'.cfg
  discs : DsRec R c.discriminators c'.discriminators

theorem ClRec.trainNew {c c' : Cluster} (h : ClRec R tr c c') (env : Env) {x x' : Image} (hx : R x x') :
    ClRec R tr (c.trainNew env x).1 (c'.trainNew (trEnv tr env) x').1 ∧ (c'.trainNew (trEnv tr env) x').2 = (c.trainNew env x).2 := by
  obtain ⟨cf, ds⟩ := c
  obtain ⟨cf', ds'⟩ := c'
  obtain ⟨h1, h2⟩ := h
  simp only at h1 h2
  cases h1 with
  | none => exact ⟨⟨.none, h2⟩, rfl⟩
  | some hc =>
    obtain ⟨d, d', e1, e2, hd⟩ := hc.new env.rnd
    simp only [Cluster.trainNew, e1, e2]
    obtain ⟨k1, k2⟩ := hd.train hx
    exact ⟨⟨.some hc, List.rel_append h2 (.cons (.some k1) .nil)⟩, k2⟩

theorem DsRec.scan {f : Flt} {c c' : ClusterCfg} (hc : CfgRec R tr c c') {x x' : Image} (hx : R x x') {ds ds' : List (Option Discriminator)}
    (h : DsRec R ds ds') : ∀ (i : Nat) (b : Rat) (bd : Option Nat) (t : Bool),
      DsRec R (Cluster.scan f c x ds i b bd t).1 (Cluster.scan f c' x' ds' i b bd t).1 ∧
      (Cluster.scan f c' x' ds' i b bd t).2 = (Cluster.scan f c x ds i b bd t).2 := by
  induction h with
  | nil => intro i b bd t; exact ⟨.nil, rfl⟩
  | @cons o o' ds ds' ho hds ih =>
    intro i b bd t
    cases ho with
    | none => exact ⟨.cons .none hds, rfl⟩
    | @some d d' hd =>
      simp only [Cluster.scan]
      rw [hd.classify hx]
      cases d.classify x with
      | error e => exact ⟨.cons (.some hd) hds, rfl⟩
      | ok votes =>
        simp only
        rw [show d'.getNumberOfTrainings = d.getNumberOfTrainings from hd.count, hc.limit]
        split
        · obtain ⟨h1, h2⟩ := hd.train hx
          rcases hr : d.train x with ⟨s, _ | _⟩ <;> rcases hr' : d'.train x' with ⟨s', _ | _⟩ <;>
            rw [hr, hr'] at h1 h2 <;> simp only at h1 h2
          · cases h2; exact ⟨.cons (.some h1) hds, rfl⟩
          · cases h2
          · cases h2
          · exact ⟨.cons (.some h1) (ih _ _ _ _).1, (ih _ _ _ _).2⟩
        · exact ⟨.cons (.some hd) (ih _ _ _ _).1, (ih _ _ _ _).2⟩

theorem DsRec.get {ds ds' : List (Option Discriminator)} (h : DsRec R ds ds') (i : Nat) :
    (ds[i]? = none ∧ ds'[i]? = none) ∨ ∃ o o', ds[i]? = some o ∧ ds'[i]? = some o' ∧ ORec R o o' := by
  induction h generalizing i with
  | nil => exact .inl ⟨rfl, rfl⟩
  | @cons o o' ds ds' ho hds ih =>
    cases i with
    | zero => exact .inr ⟨o, o', rfl, rfl, ho⟩
    | succ i => simpa using ih i

theorem DsRec.set {ds ds' : List (Option Discriminator)} (h : DsRec R ds ds') {o o' : Option Discriminator} (ho : ORec R o o') (i : Nat) :
    DsRec R (ds.set i o) (ds'.set i o') := by
  induction h generalizing i with
  | nil => exact .nil
  | @cons a a' ds ds' ha hds ih =>
    cases i with
    | zero => exact .cons ho hds
    | succ i => exact .cons ha (ih i)

theorem DsRec.trainAt {ds ds' : List (Option Discriminator)} (h : DsRec R ds ds') (i : Nat) {x x' : Image} (hx : R x x') :
    DsRec R (Cluster.trainAt ds i x).1 (Cluster.trainAt ds' i x').1 ∧
    (Cluster.trainAt ds' i x').2 = (Cluster.trainAt ds i x).2 := by
  unfold Cluster.trainAt
  rcases h.get i with ⟨h1, h2⟩ | ⟨o, o', h1, h2, ho⟩
  · rw [h1, h2]; exact ⟨h, rfl⟩
  · rw [h1, h2]
    cases ho with
    | none => exact ⟨h, rfl⟩
    | some hd =>
      obtain ⟨h3, h4⟩ := hd.train hx
      exact ⟨h.set (.some h3) i, h4⟩

theorem ClRec.train {c c' : Cluster} (h : ClRec R tr c c') (f : Flt) (env : Env) {x x' : Image} (hx : R x x') :
    ClRec R tr (c.train f env x).1 (c'.train f (trEnv tr env) x').1 ∧ (c'.train f (trEnv tr env) x').2 = (c.train f env x).2 := by
  unfold Cluster.train
  rw [← h.discs.length_eq]
  split
  · exact h.trainNew env hx
  · obtain ⟨cf, ds⟩ := c
    obtain ⟨cf', ds'⟩ := c'
    obtain ⟨k1, k2⟩ := h
    simp only at k1 k2 ⊢
    cases k1 with
    | none => exact ⟨⟨.none, k2⟩, rfl⟩
    | @some cf cf' hc =>
      simp only
      obtain ⟨h1, h2⟩ := DsRec.scan (f := f) hc hx k2 0 0 none false
      generalize Cluster.scan f cf x ds 0 0 none false = res at h1 h2
      generalize Cluster.scan f cf' x' ds' 0 0 none false = res' at h1 h2
      obtain ⟨es, r⟩ := res
      obtain ⟨es', r'⟩ := res'
      simp only at h1 h2
      subst h2
      cases r' with
      | error e => exact ⟨⟨.some hc, h1⟩, rfl⟩
      | ok bt =>
        obtain ⟨b, t⟩ := bt
        simp only
        rw [← h1.length_eq, hc.max]
        split
        · exact ⟨⟨.some hc, h1⟩, rfl⟩
        · split
          · exact ClRec.trainNew (c := ⟨some cf, es⟩) (c' := ⟨some cf', es'⟩) ⟨.some hc, h1⟩ env hx
          · cases b with
            | none => exact ⟨⟨.some hc, h1⟩, rfl⟩
            | some i => exact ⟨⟨.some hc, (h1.trainAt i hx).1⟩, (h1.trainAt i hx).2⟩

theorem DsRec.classify {ds ds' : List (Option Discriminator)} (h : DsRec R ds ds') {x x' : Image} (hx : R x x') :
    Cluster.classifyLoop x' ds' = Cluster.classifyLoop x ds := by
  induction h with
  | nil => rfl
  | cons ho hds ih =>
    cases ho with
    | none => rfl
    | some hd => simp only [Cluster.classifyLoop, hd.classify hx, ih]

theorem ClRec.classify {c c' : Cluster} (h : ClRec R tr c c') {x x' : Image} (hx : R x x') : c'.classify x' = c.classify x :=
  h.discs.classify hx

/-! ## ClusWisards -/

abbrev CsRec (R : Image → Image → Prop) (tr : Rnd → Rnd) := List.Forall₂ (fun (e e' : Str × Cluster) => e'.1 = e.1 ∧ ClRec R tr e.2 e'.2)

/-- `U`: unsupervised training is allowed. -/
structure CWRec (R : Image → Image → Prop) (tr : Rnd → Rnd) (U : Prop) (w w' : ClusWisard) : Prop where
  addr : w'.addressSize = w.addressSize
  opts : w'.opts = { w.opts with base := w'.opts.base }
  new : ∀ x x', R (.vec x) (.vec x') → x'.length = x.length ∧ CfgRec R tr (w.clusterCfg x.length) (w'.clusterCfg x.length) ∧
    (U → CfgRec R tr { w.clusterCfg x.length with base := 2 } { w'.clusterCfg x.length with base := 2 })
  cls : CsRec R tr w.clusters w'.clusters
  un : ClRec R tr w.unsupervisedCluster w'.unsupervisedCluster

variable {U : Prop}

theorem CsRec.keys {m m' : SMap Cluster} (h : CsRec R tr m m') : m'.keys = m.keys := by
  induction h with
  | nil => rfl
  | cons h1 _ ih =>
    simp only [SMap.keys, List.map_cons] at ih ⊢
    rw [h1.1, ih]

theorem CsRec.find {m m' : SMap Cluster} (h : CsRec R tr m m') (l : Str) :
    (m.find l = none ∧ m'.find l = none) ∨ ∃ d d', m.find l = some d ∧ m'.find l = some d' ∧ ClRec R tr d d' := by
  induction h with
  | nil => exact .inl ⟨rfl, rfl⟩
  | @cons e e' m m' h1 h2 ih =>
    obtain ⟨k, d⟩ := e
    obtain ⟨k', d'⟩ := e'
    obtain ⟨hk, hd⟩ := h1
    simp only at hk hd
    subst hk
    simp only [SMap.find]
    by_cases hc : k' = l
    · rw [if_pos hc, if_pos hc]
      exact .inr ⟨d, d', rfl, rfl, hd⟩
    · rw [if_neg hc, if_neg hc]
      exact ih

theorem CsRec.set {m m' : SMap Cluster} (h : CsRec R tr m m') (l : Str) {d d' : Cluster} (hd : ClRec R tr d d') :
    CsRec R tr (m.set l d) (m'.set l d') := by
  induction h with
  | nil => exact .cons ⟨rfl, hd⟩ .nil
  | @cons e e' m m' h1 h2 ih =>
    obtain ⟨k, x⟩ := e
    obtain ⟨k', x'⟩ := e'
    obtain ⟨hk, hx⟩ := h1
    simp only at hk hx
    subst hk
    simp only [SMap.set]
    split
    · exact .cons ⟨rfl, hd⟩ h2
    · split
      · exact .cons ⟨rfl, hd⟩ (.cons ⟨rfl, hx⟩ h2)
      · exact .cons ⟨rfl, hx⟩ ih

/-- Related lists of images. -/
abbrev ImgsRec (R : Image → Image → Prop) := List.Forall₂ (fun x x' : List Int => R (.vec x) (.vec x'))

theorem CWRec.confidenceCheck {w w' : ClusWisard} (h : CWRec R tr U w w') {xs xs' : List (List Int)} (hx : ImgsRec R xs xs') :
    w'.confidenceCheck xs' = w.confidenceCheck xs := by
  unfold ClusWisard.confidenceCheck ClusWisard.checkConfidence
  rw [h.addr, h.opts]
  cases hx with
  | nil => rfl
  | cons h1 _ =>
    simp only [Except.bind_ok]
    rw [(h.new _ _ h1).1]

theorem CWRec.trainIn {w w' : ClusWisard} (h : CWRec R tr U w w') (f : Flt) (env : Env) {x x' : List Int} (hx : R (.vec x) (.vec x')) (l : Str) :
    CWRec R tr U (w.trainIn f env x l).1 (w'.trainIn f (trEnv tr env) x' l).1 ∧ (w'.trainIn f (trEnv tr env) x' l).2 = (w.trainIn f env x l).2 := by
  unfold ClusWisard.trainIn
  have hs : ClRec R tr ((w.clusters.find l).getD Cluster.default) ((w'.clusters.find l).getD Cluster.default) := by
    rcases h.cls.find l with ⟨h1, h2⟩ | ⟨c, c', h1, h2, h3⟩
    · rw [h1, h2]; exact ⟨.none, .nil⟩
    · rw [h1, h2]; exact h3
  obtain ⟨h1, h2⟩ := hs.train f env hx
  exact ⟨⟨h.addr, h.opts, h.new, h.cls.set l h1, h.un⟩, h2⟩

theorem CWRec.train1 {w w' : ClusWisard} (h : CWRec R tr U w w') (f : Flt) (env : Env) {x x' : List Int} (hx : R (.vec x) (.vec x')) (l : Str) :
    CWRec R tr U (w.train1 f env x l).1 (w'.train1 f (trEnv tr env) x' l).1 ∧ (w'.train1 f (trEnv tr env) x' l).2 = (w.train1 f env x l).2 := by
  unfold ClusWisard.train1
  rcases h.cls.find l with ⟨h1, h2⟩ | ⟨c, c', h1, h2, h3⟩
  · rw [h1, h2]
    simp only
    obtain ⟨e1, e2, _⟩ := h.new _ _ hx
    rw [e1]
    exact CWRec.trainIn (w := { w with clusters := w.clusters.set l (Cluster.create (w.clusterCfg x.length)) })
      (w' := { w' with clusters := w'.clusters.set l (Cluster.create (w'.clusterCfg x.length)) })
      ⟨h.addr, h.opts, h.new, h.cls.set l ⟨.some e2, .nil⟩, h.un⟩ f env hx l
  · rw [h1, h2]
    exact h.trainIn f env hx l

theorem CsRec.allvotes {m m' : SMap Cluster} (h : CsRec R tr m m') {x x' : List Int} (hx : R (.vec x) (.vec x')) : ∀ v,
    ClusWisard.allvotes x' m' v = ClusWisard.allvotes x m v := by
  induction h with
  | nil => intro v; rfl
  | @cons e e' m m' h1 h2 ih =>
    intro v
    obtain ⟨k, d⟩ := e
    obtain ⟨k', d'⟩ := e'
    obtain ⟨hk, hd⟩ := h1
    simp only at hk hd
    subst hk
    simp only [ClusWisard.allvotes, hd.classify hx, ih]

theorem CWRec.classify1 {w w' : ClusWisard} (h : CWRec R tr U w w') {x x' : List Int} (hx : R (.vec x) (.vec x')) (s : Bool) :
    w'.classify1 x' s = w.classify1 x s := by
  unfold ClusWisard.classify1
  rw [h.cls.allvotes hx, h.opts]

theorem CWRec.classify {w w' : ClusWisard} (h : CWRec R tr U w w') {xs xs' : List (List Int)} (hx : ImgsRec R xs xs') :
    w'.classify xs' = w.classify xs := by
  induction hx with
  | nil => rfl
  | cons h1 _ ih =>
    simp only [ClusWisard.classify]
    rw [h.classify1 h1, ih, h.opts]

theorem CWRec.classifyUnsupervised {w w' : ClusWisard} (h : CWRec R tr U w w') {xs xs' : List (List Int)} (hx : ImgsRec R xs xs') :
    w'.classifyUnsupervised xs' = w.classifyUnsupervised xs := by
  induction hx with
  | nil => rfl
  | cons h1 _ ih =>
    simp only [ClusWisard.classifyUnsupervised, ClusWisard.classifyUnsupervised1]
    rw [h.un.classify h1, ih, h.opts]

theorem CWRec.pyLoop {w w' : ClusWisard} (h : CWRec R tr U w w') (k : Int) {xs xs' : List (List Int)} (hx : ImgsRec R xs xs') :
    w'.pyLoop k xs' = w.pyLoop k xs := by
  induction hx with
  | nil => rfl
  | cons h1 _ ih =>
    simp only [ClusWisard.pyLoop]
    rw [h.classify1 h1, ih]
    have : ∀ c, ClusWisard.pyOutput w'.opts k c = ClusWisard.pyOutput w.opts k c := by
      intro c
      unfold ClusWisard.pyOutput
      rw [h.opts]
    simp only [this]
    rw [h.opts]

theorem CWRec.pyClassify {w w' : ClusWisard} (h : CWRec R tr U w w') {xs xs' : List (List Int)} (hx : ImgsRec R xs xs') :
    w'.pyClassify xs' = w.pyClassify xs := by
  unfold ClusWisard.pyClassify
  cases hx with
  | nil => rfl
  | cons h1 h2 =>
    simp only
    rw [h.addr, h.opts, (h.new _ _ h1).1]
    simp only [h.pyLoop _ (List.Forall₂.cons h1 h2)]

theorem CWRec.trainLoop {f : Flt} (env : Nat → Env) {es es' : List (List Int × Str)}
    (he : List.Forall₂ (fun e e' : List Int × Str => R (.vec e.1) (.vec e'.1) ∧ e'.2 = e.2) es es') : ∀ {w w' : ClusWisard} (i : Nat), CWRec R tr U w w' →
    CWRec R tr U (w.trainLoop f env es i).1 (w'.trainLoop f (fun i => trEnv tr (env i)) es' i).1 ∧ (w'.trainLoop f (fun i => trEnv tr (env i)) es' i).2 = (w.trainLoop f env es i).2 := by
  induction he with
  | nil => intro w w' i h; exact ⟨h, rfl⟩
  | @cons e e' es es' h1 _ ih =>
    intro w w' i h
    obtain ⟨x, l⟩ := e
    obtain ⟨x', l'⟩ := e'
    obtain ⟨hx, hl⟩ := h1
    simp only at hx hl
    subst hl
    obtain ⟨h1, h2⟩ := h.train1 f (env i) hx l'
    simp only [ClusWisard.trainLoop]
    rcases hr : w.train1 f (env i) x l' with ⟨s, _ | _⟩ <;> rcases hr' : w'.train1 f (trEnv tr (env i)) x' l' with ⟨s', _ | _⟩ <;>
      rw [hr, hr'] at h1 h2 <;> simp only at h1 h2
    · cases h2; exact ⟨h1, rfl⟩
    · cases h2
    · cases h2
    · exact ih (i + 1) h1

theorem imgs_zip {xs xs' : List (List Int)} (hx : ImgsRec R xs xs') : ∀ (labels : List Str),
    List.Forall₂ (fun e e' : List Int × Str => R (.vec e.1) (.vec e'.1) ∧ e'.2 = e.2) (xs.zip labels) (xs'.zip labels) := by
  induction hx with
  | nil => intro labels; exact .nil
  | cons h _ ih =>
    intro labels
    cases labels with
    | nil => exact .nil
    | cons l labels => exact .cons ⟨h, rfl⟩ (ih labels)

theorem CWRec.train {f : Flt} {w w' : ClusWisard} (h : CWRec R tr U w w') (env : Nat → Env) {xs xs' : List (List Int)} (hx : ImgsRec R xs xs')
    (labels : List Str) :
    CWRec R tr U (w.train f env xs labels).1 (w'.train f (fun i => trEnv tr (env i)) xs' labels).1 ∧ (w'.train f (fun i => trEnv tr (env i)) xs' labels).2 = (w.train f env xs labels).2 := by
  unfold ClusWisard.train
  rw [h.confidenceCheck hx, ← hx.length_eq]
  simp only
  split
  · exact ⟨h, rfl⟩
  · exact CWRec.trainLoop env (imgs_zip hx labels) 0 h

theorem CWRec.trainOwn {f : Flt} {w w' : ClusWisard} (h : CWRec R tr U w w') (env : Env) {x x' : List Int} (hx : R (.vec x) (.vec x')) :
    CWRec R tr U (w.trainOwn f env x).1 (w'.trainOwn f (trEnv tr env) x').1 ∧ (w'.trainOwn f (trEnv tr env) x').2 = (w.trainOwn f env x).2 := by
  unfold ClusWisard.trainOwn
  rw [h.classify1 hx false]
  split
  · exact ⟨h, rfl⟩
  · exact h.trainIn f env hx _

theorem CWRec.ownLoop {f : Flt} (env : Nat → Env) {xs xs' : List (List Int)} (hx : ImgsRec R xs xs') : ∀ {w w' : ClusWisard} (i : Nat), CWRec R tr U w w' →
    CWRec R tr U (w.ownLoop f env xs i).1 (w'.ownLoop f (fun i => trEnv tr (env i)) xs' i).1 ∧ (w'.ownLoop f (fun i => trEnv tr (env i)) xs' i).2 = (w.ownLoop f env xs i).2 := by
  induction hx with
  | nil => intro w w' i h; exact ⟨h, rfl⟩
  | @cons x x' xs xs' hx _ ih =>
    intro w w' i h
    obtain ⟨h1, h2⟩ := h.trainOwn (f := f) (env i) hx
    simp only [ClusWisard.ownLoop]
    rcases hr : w.trainOwn f (env i) x with ⟨s, _ | _⟩ <;> rcases hr' : w'.trainOwn f (trEnv tr (env i)) x' with ⟨s', _ | _⟩ <;>
      rw [hr, hr'] at h1 h2 <;> simp only at h1 h2
    · cases h2; exact ⟨h1, rfl⟩
    · cases h2
    · cases h2
    · exact ih (i + 1) h1

theorem CWRec.semiLoop {f : Flt} (env : Nat → Env) (labels : LabelMap) {xs xs' : List (List Int)} (hx : ImgsRec R xs xs') :
    ∀ {w w' : ClusWisard} (i : Nat) (ll : List Int) (j : Nat), CWRec R tr U w w' →
    CWRec R tr U (ClusWisard.semiLoop f env labels xs i w ll j).1 (ClusWisard.semiLoop f (fun i => trEnv tr (env i)) labels xs' i w' ll j).1 ∧
    (ClusWisard.semiLoop f (fun i => trEnv tr (env i)) labels xs' i w' ll j).2 = (ClusWisard.semiLoop f env labels xs i w ll j).2 := by
  induction hx with
  | nil => intro w w' i ll j h; exact ⟨h, rfl⟩
  | @cons x x' xs xs' hx _ ih =>
    intro w w' i ll j h
    simp only [ClusWisard.semiLoop]
    cases labels.find i with
    | none =>
      simp only
      cases ClusWisard.noteLabelless ll j i with
      | error e => exact ⟨h, rfl⟩
      | ok ll' => exact ih _ _ _ h
    | some l =>
      simp only
      obtain ⟨h1, h2⟩ := h.train1 f (env i) hx l
      rcases hr : w.train1 f (env i) x l with ⟨s, _ | _⟩ <;> rcases hr' : w'.train1 f (trEnv tr (env i)) x' l with ⟨s', _ | _⟩ <;>
        rw [hr, hr'] at h1 h2 <;> simp only at h1 h2
      · cases h2; exact ⟨h1, rfl⟩
      · cases h2
      · cases h2
      · exact ih _ _ _ h1

theorem imgs_take {xs xs' : List (List Int)} (hx : ImgsRec R xs xs') : ∀ k, ImgsRec R (xs.take k) (xs'.take k) := by
  induction hx with
  | nil => intro k; simp
  | cons h _ ih =>
    intro k
    cases k with
    | zero => exact .nil
    | succ k => exact .cons h (ih k)

theorem CWRec.trainSemi {f : Flt} {w w' : ClusWisard} (h : CWRec R tr U w w') (env : Bool → Nat → Env) {xs xs' : List (List Int)}
    (hx : ImgsRec R xs xs') (labels : LabelMap) :
    CWRec R tr U (w.trainSemi f env xs labels).1 (w'.trainSemi f (fun b i => trEnv tr (env b i)) xs' labels).1 ∧
    (w'.trainSemi f (fun b i => trEnv tr (env b i)) xs' labels).2 = (w.trainSemi f env xs labels).2 := by
  unfold ClusWisard.trainSemi
  rw [h.confidenceCheck hx, ← hx.length_eq]
  simp only
  split
  · exact ⟨h, rfl⟩
  · obtain ⟨h1, h2⟩ := CWRec.semiLoop (f := f) (env false) labels hx 0 (List.replicate (xs.length - labels.length) 0) 0 h
    generalize ClusWisard.semiLoop f (env false) labels xs 0 w (List.replicate (xs.length - labels.length) 0) 0 = res at h1 h2
    generalize ClusWisard.semiLoop f (fun i => trEnv tr (env false i)) labels xs' 0 w' (List.replicate (xs.length - labels.length) 0) 0 = res' at h1 h2
    obtain ⟨a, r⟩ := res
    obtain ⟨a', r'⟩ := res'
    simp only at h1 h2
    subst h2
    cases r' with
    | error e => exact ⟨h1, rfl⟩
    | ok ll =>
      simp only
      split
      · exact ⟨h1, rfl⟩
      · exact CWRec.ownLoop _ (imgs_take hx _) 0 h1

theorem CWRec.unsupLoop {f : Flt} (env : Nat → Env) {xs xs' : List (List Int)} (hx : ImgsRec R xs xs') :
    ∀ {w w' : ClusWisard} (i : Nat), CWRec R tr U w w' →
    CWRec R tr U (w.unsupLoop f env xs i).1 (w'.unsupLoop f (fun i => trEnv tr (env i)) xs' i).1 ∧ (w'.unsupLoop f (fun i => trEnv tr (env i)) xs' i).2 = (w.unsupLoop f env xs i).2 := by
  induction hx with
  | nil => intro w w' i h; exact ⟨h, rfl⟩
  | @cons x x' xs xs' hx _ ih =>
    intro w w' i h
    obtain ⟨h1, h2⟩ := h.un.train f (env i) hx
    simp only [ClusWisard.unsupLoop]
    rcases hr : w.unsupervisedCluster.train f (env i) (.vec x) with ⟨s, _ | _⟩ <;>
      rcases hr' : w'.unsupervisedCluster.train f (trEnv tr (env i)) (.vec x') with ⟨s', _ | _⟩ <;>
      rw [hr, hr'] at h1 h2 <;> simp only at h1 h2
    · cases h2; exact ⟨⟨h.addr, h.opts, h.new, h.cls, h1⟩, rfl⟩
    · cases h2
    · cases h2
    · exact ih (w := { w with unsupervisedCluster := s }) (w' := { w' with unsupervisedCluster := s' }) (i + 1)
        ⟨h.addr, h.opts, h.new, h.cls, h1⟩

theorem CWRec.trainUnsupervised {f : Flt} {w w' : ClusWisard} (h : CWRec R tr U w w') (hU : U) (env : Nat → Env) {xs xs' : List (List Int)}
    (hx : ImgsRec R xs xs') :
    CWRec R tr U (w.trainUnsupervised f env xs).1 (w'.trainUnsupervised f (fun i => trEnv tr (env i)) xs').1 ∧
    (w'.trainUnsupervised f (fun i => trEnv tr (env i)) xs').2 = (w.trainUnsupervised f env xs).2 := by
  unfold ClusWisard.trainUnsupervised
  rw [← h.cls.length_eq]
  split
  · cases hx with
    | nil => exact ⟨h, rfl⟩
    | @cons x x' xs xs' h1 h2 =>
      simp only
      obtain ⟨e1, _, e2⟩ := h.new _ _ h1
      rw [e1]
      exact CWRec.unsupLoop (w := { w with unsupervisedCluster := Cluster.create { w.clusterCfg x.length with base := 2 } })
        (w' := { w' with unsupervisedCluster := Cluster.create { w'.clusterCfg x.length with base := 2 } }) _ (.cons h1 h2) 0
        ⟨h.addr, h.opts, h.new, h.cls, ⟨.some (e2 hU), .nil⟩⟩
  · exact CWRec.unsupLoop _ hx 0 h

end

/-! ## The relation between the images -/

theorem valid_mono {n c b : Int} {x : Image} (h : ValidImage n c x) (hc : c ≤ b) : ValidImage n b x :=
  ⟨h.1, fun i hi => let ⟨v, h1, h2, h3⟩ := h.2 i hi; ⟨v, h1, h2, by omega⟩⟩

theorem Spec.Twin.on {n c c' : Int} {φ : Int → Int → Int} {x x' : Image} (h : Twin n c c' φ x x') {m : List Int} (hm : ∀ a ∈ m, 0 ≤ a ∧ a < n) :
    Recoded id φ m x x' := by
  intro a ha v hv
  obtain ⟨h0, h1⟩ := hm a ha
  obtain ⟨k, rfl⟩ := Int.eq_ofNat_of_zero_le h0
  exact h.code k h1 _ (by simp) v hv

theorem ramRec_fresh {n c c' b b' : Int} {φ : Int → Int → Int} {z : Bool} (hf : Faithful z c φ) (hc : c ≤ b) (hc' : c' ≤ b') (hb : 2 ≤ b)
    (hb' : 2 ≤ b') {m : List Int} (hm : ∀ a ∈ m, 0 ≤ a ∧ a < n) (hp : b ^ m.length ≤ 2 ^ 64) (hp' : b' ^ m.length ≤ 2 ^ 64) :
    RamRec (Twin n c c' φ) ⟨m, [], z, b⟩ ⟨m, [], z, b'⟩ where
  iz := rfl
  find x x' h := by
    refine ⟨_, _, getIndex_valid (valid_mono h.left hc) hm, getIndex_valid (valid_mono h.right hc') hm, rfl, fun hz => ?_⟩
    rw [key_eq_zero_iff (by omega) (valid_mono h.left hc) hm hp,
      key_eq_zero_iff (by omega) (valid_mono h.right hc') hm hp']
    have := zero_recoded hf hz hm h.left (h.on hm)
    rwa [List.map_id] at this
  coin x x' y y' hx hy := by
    rw [getIndex_valid (valid_mono hx.left hc) hm, getIndex_valid (valid_mono hx.right hc') hm,
      getIndex_valid (valid_mono hy.left hc) hm, getIndex_valid (valid_mono hy.right hc') hm, Except.ok.injEq, Except.ok.injEq,
      key_eq_iff (by omega) (valid_mono hx.left hc) (valid_mono hy.left hc) hm hp,
      key_eq_iff (by omega) (valid_mono hx.right hc') (valid_mono hy.right hc') hm hp']
    have := agree_recoded hf hm hx.left hy.left (hx.on hm) (hy.on hm)
    rwa [List.map_id] at this

theorem create_same {rnd : Rnd} {A n : Nat} {o : Options} {b : Int} {d d' : Discriminator} (h : Discriminator.create rnd A n o = .ok d)
    (h' : Discriminator.create rnd A n { o with base := b } = .ok d') : d'.mapping = d.mapping := by
  unfold Discriminator.create at h h'
  simp only at h'
  split at h
  · rename_i hm
    rw [if_pos hm] at h'
    rw [setRAMByMapping_mapping h, setRAMByMapping_mapping h']
  · rename_i hm
    rw [if_neg hm] at h'
    split at h
    · rename_i hi
      rw [if_pos hi] at h'
      obtain ⟨_, _, _, _, _, a6⟩ := setRAMByIndex_ok h
      obtain ⟨_, _, _, _, _, b6⟩ := setRAMByIndex_ok h'
      rw [a6, b6]
    · rename_i hi
      rw [if_neg hi] at h'
      exact shuffle_same h h'

theorem dRec_fresh {rnd rnd' : Rnd} {A A' n c c' : Int} {o o' : Options} {d d' : Discriminator} (h : Discriminator.create rnd A n o = .ok d)
    (h' : Discriminator.create rnd' A' n o' = .ok d') (hm : d'.mapping = d.mapping) (hi : WiredInside n d.mapping) (hz : o'.ignoreZero = o.ignoreZero)
    {φ : Int → Int → Int} (hf : Faithful o.ignoreZero c φ) (hc : c ≤ o.base) (hc' : c' ≤ o'.base) : DRec (Twin n c c' φ) d d' := by
  obtain ⟨a1, a2, a3, a4⟩ := create_fresh h
  obtain ⟨b1, b2, b3, b4⟩ := create_fresh h'
  refine ⟨fun x x' hx => ⟨a1.trans hx.left.1.symm, b1.trans hx.right.1.symm⟩, b2.trans a2.symm, ?_⟩
  unfold Discriminator.mapping at hm hi
  generalize d.rams = rs at *
  generalize d'.rams = rs' at *
  clear h h' a1 a2 b1 b2
  induction rs generalizing rs' with
  | nil =>
    cases rs' with
    | nil => exact .nil
    | cons => simp at hm
  | cons r rs ih =>
    cases rs' with
    | nil => simp at hm
    | cons r' rs' =>
      simp only [List.map_cons, List.cons.injEq] at hm
      refine .cons ?_ (ih (fun m hm' => hi m (List.mem_cons_of_mem _ hm')) (fun r hr => a4 r (by simp [hr])) rs' (fun r hr => b4 r (by simp [hr])) hm.2)
      obtain ⟨p1, p2, p3, p4⟩ := a4 r (by simp)
      obtain ⟨q1, q2, q3, q4⟩ := b4 r' (by simp)
      have := ramRec_fresh (n := n) (b := o.base) (b' := o'.base) hf hc hc' a3 b3 (m := r.addresses) (hi r.addresses (by simp)) p4 (hm.1 ▸ q4)
      obtain ⟨ra, rp, rz, rb⟩ := r
      obtain ⟨ra', rp', rz', rb'⟩ := r'
      simp only at p1 p2 p3 q1 q2 q3 hm this ⊢
      rw [p1, p2, p3, q1, q2, q3, hm.1, hz]
      exact this

end Wis
