import Verif.Spec.ClusWisardJson
import Verif.Lemmas.Sim
import Verif.Lemmas.WisardJson
import Verif.Lemmas.ClusWisard
/-! Two similar ClusWisards behave alike. -/

namespace Wis
open Spec

/-- Both null, or similar discriminators. -/
inductive OSim : Option Discriminator → Option Discriminator → Prop where
  | none : OSim .none .none
  | some {d d' : Discriminator} (h : DSim d d') : OSim (.some d) (.some d')

abbrev DsSim := List.Forall₂ OSim

structure ClSim (c c' : Cluster) : Prop where
  cfg : c'.cfg = c.cfg
  discs : DsSim c.discriminators c'.discriminators

theorem DSim.refl' {d : Discriminator} (h : ∀ r ∈ d.rams, RamSim r r) : DSim d d := by
  refine ⟨rfl, rfl, ?_⟩
  generalize d.rams = rs at h
  induction rs with
  | nil => exact .nil
  | cons r rs ih => exact .cons (h r (by simp)) (ih (fun r hr => h r (by simp [hr])))

theorem newDiscriminator_self {rnd : Rnd} {c : ClusterCfg} {d : Discriminator} (h : Cluster.newDiscriminator rnd c = .ok d) :
    DSim d d := by
  have := new_self (rnd := rnd) (A := c.addressSize) (n := c.entrySize)
    (o := { ignoreZero := c.ignoreZero, completeAddressing := c.completeAddressing, base := c.base }) (l := []) (d := d)
    (by unfold Wisard.newDiscriminator; exact h)
  exact this

theorem ClSim.trainNew {c c' : Cluster} (h : ClSim c c') (env : Env) (img : Image) :
    ClSim (c.trainNew env img).1 (c'.trainNew env img).1 ∧ (c'.trainNew env img).2 = (c.trainNew env img).2 := by
  unfold Cluster.trainNew
  rw [h.cfg]
  cases hc : c.cfg with
  | none => exact ⟨h, rfl⟩
  | some cf =>
    simp only
    cases hn : Cluster.newDiscriminator env.rnd cf with
    | ok d =>
      obtain ⟨h1, h2⟩ := (newDiscriminator_self hn).train img
      exact ⟨⟨rfl, List.rel_append h.discs (.cons (.some h1) .nil)⟩, h2⟩
    | error e =>
      simp only
      split
      · exact ⟨⟨rfl, List.rel_append h.discs (.cons .none .nil)⟩, rfl⟩
      · exact ⟨h, rfl⟩

theorem DsSim.scan {f : Flt} {c : ClusterCfg} {img : Image} {ds ds' : List (Option Discriminator)} (h : DsSim ds ds') :
    ∀ (i : Nat) (b : Rat) (bd : Option Nat) (t : Bool),
      DsSim (Cluster.scan f c img ds i b bd t).1 (Cluster.scan f c img ds' i b bd t).1 ∧
      (Cluster.scan f c img ds' i b bd t).2 = (Cluster.scan f c img ds i b bd t).2 := by
  induction h with
  | nil => intro i b bd t; exact ⟨.nil, rfl⟩
  | @cons o o' ds ds' ho hds ih =>
    intro i b bd t
    cases ho with
    | none => exact ⟨.cons .none hds, rfl⟩
    | @some d d' hd =>
      simp only [Cluster.scan]
      rw [hd.classify]
      cases d.classify img with
      | error e => exact ⟨.cons (.some hd) hds, rfl⟩
      | ok votes =>
        simp only
        rw [show d'.getNumberOfTrainings = d.getNumberOfTrainings from hd.count]
        split
        · obtain ⟨h1, h2⟩ := hd.train img
          rcases hr : d.train img with ⟨s, _ | _⟩ <;> rcases hr' : d'.train img with ⟨s', _ | _⟩ <;>
            rw [hr, hr'] at h1 h2 <;> simp only at h1 h2
          · cases h2; exact ⟨.cons (.some h1) hds, rfl⟩
          · cases h2
          · cases h2
          · exact ⟨.cons (.some h1) (ih _ _ _ _).1, (ih _ _ _ _).2⟩
        · exact ⟨.cons (.some hd) (ih _ _ _ _).1, (ih _ _ _ _).2⟩

theorem DsSim.get {ds ds' : List (Option Discriminator)} (h : DsSim ds ds') (i : Nat) :
    (ds[i]? = none ∧ ds'[i]? = none) ∨ ∃ o o', ds[i]? = some o ∧ ds'[i]? = some o' ∧ OSim o o' := by
  induction h generalizing i with
  | nil => exact .inl ⟨rfl, rfl⟩
  | @cons o o' ds ds' ho hds ih =>
    cases i with
    | zero => exact .inr ⟨o, o', rfl, rfl, ho⟩
    | succ i => simpa using ih i

theorem DsSim.set {ds ds' : List (Option Discriminator)} (h : DsSim ds ds') {o o' : Option Discriminator} (ho : OSim o o') (i : Nat) :
    DsSim (ds.set i o) (ds'.set i o') := by
  induction h generalizing i with
  | nil => exact .nil
  | @cons a a' ds ds' ha hds ih =>
    cases i with
    | zero => exact .cons ho hds
    | succ i => exact .cons ha (ih i)

theorem DsSim.trainAt {ds ds' : List (Option Discriminator)} (h : DsSim ds ds') (i : Nat) (img : Image) :
    DsSim (Cluster.trainAt ds i img).1 (Cluster.trainAt ds' i img).1 ∧
    (Cluster.trainAt ds' i img).2 = (Cluster.trainAt ds i img).2 := by
  unfold Cluster.trainAt
  rcases h.get i with ⟨h1, h2⟩ | ⟨o, o', h1, h2, ho⟩
  · rw [h1, h2]; exact ⟨h, rfl⟩
  · rw [h1, h2]
    cases ho with
    | none => exact ⟨h, rfl⟩
    | some hd =>
      obtain ⟨h3, h4⟩ := hd.train img
      exact ⟨h.set (.some h3) i, h4⟩

theorem ClSim.train {c c' : Cluster} (h : ClSim c c') (f : Flt) (env : Env) (img : Image) :
    ClSim (c.train f env img).1 (c'.train f env img).1 ∧ (c'.train f env img).2 = (c.train f env img).2 := by
  unfold Cluster.train
  rw [← h.discs.length_eq, h.cfg]
  split
  · exact h.trainNew env img
  · cases hc : c.cfg with
    | none => exact ⟨h, rfl⟩
    | some cf =>
      simp only
      obtain ⟨h1, h2⟩ := h.discs.scan (f := f) (c := cf) (img := img) 0 0 none false
      generalize Cluster.scan f cf img c.discriminators 0 0 none false = res at h1 h2
      generalize Cluster.scan f cf img c'.discriminators 0 0 none false = res' at h1 h2
      obtain ⟨ds, r⟩ := res
      obtain ⟨ds', r'⟩ := res'
      simp only at h1 h2
      subst h2
      cases r' with
      | error e => exact ⟨⟨rfl, h1⟩, rfl⟩
      | ok bt =>
        obtain ⟨b, t⟩ := bt
        simp only
        rw [← h1.length_eq]
        split
        · exact ⟨⟨rfl, h1⟩, rfl⟩
        · split
          · exact ClSim.trainNew (c := ⟨some cf, ds⟩) (c' := ⟨some cf, ds'⟩) ⟨rfl, h1⟩ env img
          · cases b with
            | none => exact ⟨⟨rfl, h1⟩, rfl⟩
            | some i => exact ⟨⟨rfl, (h1.trainAt i img).1⟩, (h1.trainAt i img).2⟩

theorem DsSim.classify {ds ds' : List (Option Discriminator)} (h : DsSim ds ds') (img : Image) :
    Cluster.classifyLoop img ds' = Cluster.classifyLoop img ds := by
  induction h with
  | nil => rfl
  | cons ho hds ih =>
    cases ho with
    | none => rfl
    | some hd => simp only [Cluster.classifyLoop, hd.classify, ih]

theorem ClSim.classify {c c' : Cluster} (h : ClSim c c') (img : Image) : c'.classify img = c.classify img := h.discs.classify img

theorem DsSim.size {ds ds' : List (Option Discriminator)} (h : DsSim ds ds') (sd sr : Int) : ∀ s,
    Cluster.sizeLoop sd sr ds' s = Cluster.sizeLoop sd sr ds s := by
  induction h with
  | nil => intro s; rfl
  | cons ho hds ih =>
    intro s
    cases ho with
    | none => rfl
    | some hd => simp only [Cluster.sizeLoop, hd.size, ih]

theorem ClSim.size {c c' : Cluster} (h : ClSim c c') (sc sd sr : Int) : c'.getsizeof sc sd sr = c.getsizeof sc sd sr :=
  h.discs.size sd sr sc

theorem DsSim.mental {ds ds' : List (Option Discriminator)} (h : DsSim ds ds') {it it' : IterOrder} : ∀ {m m' : List (List Int)},
    Cluster.mentalLoop it ds = .ok m → Cluster.mentalLoop it' ds' = .ok m' → m' = m := by
  induction h with
  | nil => intro m m' h1 h2; simp only [Cluster.mentalLoop, Except.ok.injEq] at h1 h2; rw [← h1, ← h2]
  | cons ho hds ih =>
    intro m m' h1 h2
    cases ho with
    | none => simp [Cluster.mentalLoop] at h1
    | some hd =>
      simp only [Cluster.mentalLoop] at h1 h2
      obtain ⟨a, a1, h1⟩ := bind_eq_ok h1
      obtain ⟨b, b1, h1⟩ := bind_eq_ok h1
      obtain ⟨a', a1', h2⟩ := bind_eq_ok h2
      obtain ⟨b', b1', h2⟩ := bind_eq_ok h2
      simp only [Except.ok.injEq] at h1 h2
      rw [← h1, ← h2, ih b1 b1', hd.mental a1 a1']

/-- Options that the JSON keeps (all but `searchBestConfidence`, which has no effect). -/
structure COptSim (o o' : ClusOpts) : Prop where
  b : o'.bleachingActivated = o.bleachingActivated
  v : o'.verbose = o.verbose
  z : o'.ignoreZero = o.ignoreZero
  c : o'.completeAddressing = o.completeAddressing
  base : o'.base = o.base
  rc : o'.returnConfidence = o.returnConfidence
  ra : o'.returnActivationDegree = o.returnActivationDegree
  rd : o'.returnClassesDegrees = o.returnClassesDegrees
  conf : o'.confidence = o.confidence

abbrev CsSim := List.Forall₂ (fun (e e' : Str × Cluster) => e'.1 = e.1 ∧ ClSim e.2 e'.2)

structure CWSim (w w' : ClusWisard) : Prop where
  addr : w'.addressSize = w.addressSize
  ms : w'.minScore = w.minScore
  th : w'.threshold = w.threshold
  dl : w'.discriminatorsLimit = w.discriminatorsLimit
  opts : COptSim w.opts w'.opts
  cls : CsSim w.clusters w'.clusters
  un : ClSim w.unsupervisedCluster w'.unsupervisedCluster

theorem CsSim.keys {m m' : SMap Cluster} (h : CsSim m m') : m'.keys = m.keys := by
  induction h with
  | nil => rfl
  | cons h1 _ ih =>
    simp only [SMap.keys, List.map_cons] at ih ⊢
    rw [h1.1, ih]

theorem CsSim.find {m m' : SMap Cluster} (h : CsSim m m') (l : Str) :
    (m.find l = none ∧ m'.find l = none) ∨ ∃ d d', m.find l = some d ∧ m'.find l = some d' ∧ ClSim d d' := by
  induction h with
  | nil => exact .inl ⟨rfl, rfl⟩
  | @cons e e' m m' h1 h2 ih =>
    obtain ⟨k, d⟩ := e
    obtain ⟨k', d'⟩ := e'
    obtain ⟨hk, hd⟩ := h1
    simp only at hk hd
    subst hk
    simp only [SMap.find]
    by_cases hc : k' = l
    · rw [if_pos hc, if_pos hc]
      exact .inr ⟨d, d', rfl, rfl, hd⟩
    · rw [if_neg hc, if_neg hc]
      exact ih

theorem CsSim.set {m m' : SMap Cluster} (h : CsSim m m') (l : Str) {d d' : Cluster} (hd : ClSim d d') :
    CsSim (m.set l d) (m'.set l d') := by
  induction h with
  | nil => exact .cons ⟨rfl, hd⟩ .nil
  | @cons e e' m m' h1 h2 ih =>
    obtain ⟨k, x⟩ := e
    obtain ⟨k', x'⟩ := e'
    obtain ⟨hk, hx⟩ := h1
    simp only at hk hx
    subst hk
    simp only [SMap.set]
    split
    · exact .cons ⟨rfl, hd⟩ h2
    · split
      · exact .cons ⟨rfl, hd⟩ (.cons ⟨rfl, hx⟩ h2)
      · exact .cons ⟨rfl, hx⟩ ih

theorem ClSim.default : ClSim Cluster.default Cluster.default := ⟨rfl, .nil⟩

theorem ClSim.create (c : ClusterCfg) : ClSim (Cluster.create c) (Cluster.create c) := ⟨rfl, .nil⟩

theorem CWSim.clusterCfg {w w' : ClusWisard} (h : CWSim w w') (n : Int) : w'.clusterCfg n = w.clusterCfg n := by
  unfold ClusWisard.clusterCfg
  rw [h.addr, h.ms, h.th, h.dl, h.opts.z, h.opts.c, h.opts.base]

theorem CWSim.confidenceCheck {w w' : ClusWisard} (h : CWSim w w') (images : List (List Int)) :
    w'.confidenceCheck images = w.confidenceCheck images := by
  unfold ClusWisard.confidenceCheck ClusWisard.checkConfidence
  rw [h.addr, h.opts.c, h.opts.conf]

theorem CWSim.trainIn {w w' : ClusWisard} (h : CWSim w w') (f : Flt) (env : Env) (img : List Int) (l : Str) :
    CWSim (w.trainIn f env img l).1 (w'.trainIn f env img l).1 ∧ (w'.trainIn f env img l).2 = (w.trainIn f env img l).2 := by
  unfold ClusWisard.trainIn
  have hs : ClSim ((w.clusters.find l).getD Cluster.default) ((w'.clusters.find l).getD Cluster.default) := by
    rcases h.cls.find l with ⟨h1, h2⟩ | ⟨c, c', h1, h2, h3⟩
    · rw [h1, h2]; exact ClSim.default
    · rw [h1, h2]; exact h3
  obtain ⟨h1, h2⟩ := hs.train f env (.vec img)
  exact ⟨⟨h.addr, h.ms, h.th, h.dl, h.opts, h.cls.set l h1, h.un⟩, h2⟩

theorem CWSim.train1 {w w' : ClusWisard} (h : CWSim w w') (f : Flt) (env : Env) (img : List Int) (l : Str) :
    CWSim (w.train1 f env img l).1 (w'.train1 f env img l).1 ∧ (w'.train1 f env img l).2 = (w.train1 f env img l).2 := by
  unfold ClusWisard.train1
  rcases h.cls.find l with ⟨h1, h2⟩ | ⟨c, c', h1, h2, h3⟩
  · rw [h1, h2]
    simp only
    rw [h.clusterCfg]
    exact CWSim.trainIn (w := { w with clusters := w.clusters.set l (Cluster.create (w.clusterCfg img.length)) })
      (w' := { w' with clusters := w'.clusters.set l (Cluster.create (w.clusterCfg img.length)) })
      ⟨h.addr, h.ms, h.th, h.dl, h.opts, h.cls.set l (ClSim.create _), h.un⟩ f env img l
  · rw [h1, h2]
    exact h.trainIn f env img l

theorem CsSim.allvotes {m m' : SMap Cluster} (h : CsSim m m') (img : List Int) : ∀ v,
    ClusWisard.allvotes img m' v = ClusWisard.allvotes img m v := by
  induction h with
  | nil => intro v; rfl
  | @cons e e' m m' h1 h2 ih =>
    intro v
    obtain ⟨k, d⟩ := e
    obtain ⟨k', d'⟩ := e'
    obtain ⟨hk, hd⟩ := h1
    simp only at hk hd
    subst hk
    simp only [ClusWisard.allvotes, hd.classify, ih]

theorem CWSim.classify1 {w w' : ClusWisard} (h : CWSim w w') (img : List Int) (s s' : Bool) :
    w'.classify1 img s' = w.classify1 img s := by
  unfold ClusWisard.classify1
  rw [h.cls.allvotes, h.opts.b, h.opts.conf]
  simp only [make_sbc _ _ s s']

theorem CWSim.classify {w w' : ClusWisard} (h : CWSim w w') (xs : List (List Int)) : w'.classify xs = w.classify xs := by
  induction xs with
  | nil => rfl
  | cons x xs ih =>
    simp only [ClusWisard.classify]
    rw [h.classify1 x w.opts.searchBestConfidence w'.opts.searchBestConfidence, ih]

theorem CWSim.classifyUnsupervised {w w' : ClusWisard} (h : CWSim w w') (xs : List (List Int)) :
    w'.classifyUnsupervised xs = w.classifyUnsupervised xs := by
  induction xs with
  | nil => rfl
  | cons x xs ih =>
    simp only [ClusWisard.classifyUnsupervised, ClusWisard.classifyUnsupervised1]
    rw [h.un.classify, h.opts.b, ih]

theorem CWSim.pyLoop {w w' : ClusWisard} (h : CWSim w w') (k : Int) (xs : List (List Int)) : w'.pyLoop k xs = w.pyLoop k xs := by
  induction xs with
  | nil => rfl
  | cons x xs ih =>
    simp only [ClusWisard.pyLoop]
    rw [h.classify1 x w.opts.searchBestConfidence w'.opts.searchBestConfidence, ih]
    have : ∀ c, ClusWisard.pyOutput w'.opts k c = ClusWisard.pyOutput w.opts k c := by
      intro c
      unfold ClusWisard.pyOutput
      rw [h.opts.ra, h.opts.rc, h.opts.rd]
    simp only [this]

theorem CWSim.pyClassify {w w' : ClusWisard} (h : CWSim w w') (xs : List (List Int)) : w'.pyClassify xs = w.pyClassify xs := by
  unfold ClusWisard.pyClassify
  cases xs with
  | nil => rfl
  | cons x xs =>
    simp only
    rw [h.addr, h.opts.c]
    simp only [h.pyLoop]

theorem CsSim.size {m m' : SMap Cluster} (h : CsSim m m') (sc sd sr : Int) : ∀ s,
    ClusWisard.sizeLoop sc sd sr m' s = ClusWisard.sizeLoop sc sd sr m s := by
  induction h with
  | nil => intro v; rfl
  | @cons e e' m m' h1 h2 ih =>
    intro v
    obtain ⟨k, d⟩ := e
    obtain ⟨k', d'⟩ := e'
    obtain ⟨hk, hd⟩ := h1
    simp only at hk hd
    subst hk
    simp only [ClusWisard.sizeLoop, hd.size, ih]

theorem CWSim.jsonConfig {w w' : ClusWisard} (h : CWSim w w') : w'.jsonConfig = w.jsonConfig := by
  unfold ClusWisard.jsonConfig ClusWisard.getConfig
  rw [h.addr, h.ms, h.th, h.dl, h.opts.b, h.opts.v, h.opts.z, h.opts.c, h.opts.base, h.opts.conf, h.opts.rc,
    h.opts.ra, h.opts.rd]

theorem CWSim.observe {w w' : ClusWisard} (h : CWSim w w') : CObserve w w' where
  labels := h.cls.keys
  classify := h.classify
  python := h.pyClassify
  unsupervised := h.classifyUnsupervised
  checks := h.confidenceCheck
  config ft := by unfold ClusWisard.jsonConfigText; rw [h.jsonConfig]
  size := by
    intro sw sc sd sr
    unfold ClusWisard.getsizeof
    rw [h.un.size]
    simp only [h.cls.size]
  mental := by
    intro it it' l m m' h1 h2
    unfold ClusWisard.getMentalImage at h1 h2
    rcases h.cls.find l with ⟨g1, g2⟩ | ⟨c, c', g1, g2, g3⟩
    · rw [g1] at h1
      rw [g2] at h2
      simp only [Cluster.getMentalImages, Cluster.default, Cluster.mentalLoop, Except.ok.injEq] at h1 h2
      rw [← h1, ← h2]
    · rw [g1] at h1
      rw [g2] at h2
      exact g3.discs.mental h1 h2

/-- Combine two simulated steps. -/
theorem CWSim.trainLoop {f : Flt} (env : Nat → Env) (es : List (List Int × Str)) : ∀ {w w' : ClusWisard} (i : Nat), CWSim w w' →
    CWSim (w.trainLoop f env es i).1 (w'.trainLoop f env es i).1 ∧ (w'.trainLoop f env es i).2 = (w.trainLoop f env es i).2 := by
  induction es with
  | nil => intro w w' i h; exact ⟨h, rfl⟩
  | cons e es ih =>
    intro w w' i h
    obtain ⟨img, l⟩ := e
    obtain ⟨h1, h2⟩ := h.train1 f (env i) img l
    simp only [ClusWisard.trainLoop]
    rcases hr : w.train1 f (env i) img l with ⟨s, _ | _⟩ <;> rcases hr' : w'.train1 f (env i) img l with ⟨s', _ | _⟩ <;>
      rw [hr, hr'] at h1 h2 <;> simp only at h1 h2
    · cases h2; exact ⟨h1, rfl⟩
    · cases h2
    · cases h2
    · exact ih (i + 1) h1

theorem CWSim.train {f : Flt} {w w' : ClusWisard} (h : CWSim w w') (env : Nat → Env) (images : List (List Int)) (labels : List Str) :
    CWSim (w.train f env images labels).1 (w'.train f env images labels).1 ∧
    (w'.train f env images labels).2 = (w.train f env images labels).2 := by
  unfold ClusWisard.train
  rw [h.confidenceCheck]
  simp only
  split
  · exact ⟨h, rfl⟩
  · exact CWSim.trainLoop env _ 0 h

theorem CWSim.trainOwn {f : Flt} {w w' : ClusWisard} (h : CWSim w w') (env : Env) (img : List Int) :
    CWSim (w.trainOwn f env img).1 (w'.trainOwn f env img).1 ∧ (w'.trainOwn f env img).2 = (w.trainOwn f env img).2 := by
  unfold ClusWisard.trainOwn
  rw [h.classify1 img false false]
  split
  · exact ⟨h, rfl⟩
  · exact h.trainIn f env img _

theorem CWSim.ownLoop {f : Flt} (env : Nat → Env) (imgs : List (List Int)) : ∀ {w w' : ClusWisard} (i : Nat), CWSim w w' →
    CWSim (w.ownLoop f env imgs i).1 (w'.ownLoop f env imgs i).1 ∧ (w'.ownLoop f env imgs i).2 = (w.ownLoop f env imgs i).2 := by
  induction imgs with
  | nil => intro w w' i h; exact ⟨h, rfl⟩
  | cons img imgs ih =>
    intro w w' i h
    obtain ⟨h1, h2⟩ := h.trainOwn (f := f) (env i) img
    simp only [ClusWisard.ownLoop]
    rcases hr : w.trainOwn f (env i) img with ⟨s, _ | _⟩ <;> rcases hr' : w'.trainOwn f (env i) img with ⟨s', _ | _⟩ <;>
      rw [hr, hr'] at h1 h2 <;> simp only at h1 h2
    · cases h2; exact ⟨h1, rfl⟩
    · cases h2
    · cases h2
    · exact ih (i + 1) h1

theorem CWSim.semiLoop {f : Flt} (env : Nat → Env) (labels : LabelMap) (imgs : List (List Int)) :
    ∀ {w w' : ClusWisard} (i : Nat) (ll : List Int) (j : Nat), CWSim w w' →
    CWSim (ClusWisard.semiLoop f env labels imgs i w ll j).1 (ClusWisard.semiLoop f env labels imgs i w' ll j).1 ∧
    (ClusWisard.semiLoop f env labels imgs i w' ll j).2 = (ClusWisard.semiLoop f env labels imgs i w ll j).2 := by
  induction imgs with
  | nil => intro w w' i ll j h; exact ⟨h, rfl⟩
  | cons img imgs ih =>
    intro w w' i ll j h
    simp only [ClusWisard.semiLoop]
    cases labels.find i with
    | none =>
      simp only
      cases ClusWisard.noteLabelless ll j i with
      | error e => exact ⟨h, rfl⟩
      | ok ll' => exact ih _ _ _ h
    | some l =>
      simp only
      obtain ⟨h1, h2⟩ := h.train1 f (env i) img l
      rcases hr : w.train1 f (env i) img l with ⟨s, _ | _⟩ <;> rcases hr' : w'.train1 f (env i) img l with ⟨s', _ | _⟩ <;>
        rw [hr, hr'] at h1 h2 <;> simp only at h1 h2
      · cases h2; exact ⟨h1, rfl⟩
      · cases h2
      · cases h2
      · exact ih _ _ _ h1

theorem CWSim.trainSemi {f : Flt} {w w' : ClusWisard} (h : CWSim w w') (env : Bool → Nat → Env) (images : List (List Int))
    (labels : LabelMap) :
    CWSim (w.trainSemi f env images labels).1 (w'.trainSemi f env images labels).1 ∧
    (w'.trainSemi f env images labels).2 = (w.trainSemi f env images labels).2 := by
  unfold ClusWisard.trainSemi
  rw [h.confidenceCheck]
  simp only
  split
  · exact ⟨h, rfl⟩
  · obtain ⟨h1, h2⟩ := CWSim.semiLoop (f := f) (env false) labels images 0 (List.replicate (images.length - labels.length) 0) 0 h
    generalize ClusWisard.semiLoop f (env false) labels images 0 w (List.replicate (images.length - labels.length) 0) 0 = res at h1 h2
    generalize ClusWisard.semiLoop f (env false) labels images 0 w' (List.replicate (images.length - labels.length) 0) 0 = res' at h1 h2
    obtain ⟨a, r⟩ := res
    obtain ⟨a', r'⟩ := res'
    simp only at h1 h2
    subst h2
    cases r' with
    | error e => exact ⟨h1, rfl⟩
    | ok ll =>
      simp only
      split
      · exact ⟨h1, rfl⟩
      · exact CWSim.ownLoop _ _ 0 h1

theorem CWSim.unsupLoop {f : Flt} (env : Nat → Env) (imgs : List (List Int)) : ∀ {w w' : ClusWisard} (i : Nat), CWSim w w' →
    CWSim (w.unsupLoop f env imgs i).1 (w'.unsupLoop f env imgs i).1 ∧ (w'.unsupLoop f env imgs i).2 = (w.unsupLoop f env imgs i).2 := by
  induction imgs with
  | nil => intro w w' i h; exact ⟨h, rfl⟩
  | cons img imgs ih =>
    intro w w' i h
    obtain ⟨h1, h2⟩ := h.un.train f (env i) (.vec img)
    simp only [ClusWisard.unsupLoop]
    rcases hr : w.unsupervisedCluster.train f (env i) (.vec img) with ⟨s, _ | _⟩ <;>
      rcases hr' : w'.unsupervisedCluster.train f (env i) (.vec img) with ⟨s', _ | _⟩ <;>
      rw [hr, hr'] at h1 h2 <;> simp only at h1 h2
    · cases h2; exact ⟨⟨h.addr, h.ms, h.th, h.dl, h.opts, h.cls, h1⟩, rfl⟩
    · cases h2
    · cases h2
    · exact ih (w := { w with unsupervisedCluster := s }) (w' := { w' with unsupervisedCluster := s' }) (i + 1)
        ⟨h.addr, h.ms, h.th, h.dl, h.opts, h.cls, h1⟩

theorem CWSim.trainUnsupervised {f : Flt} {w w' : ClusWisard} (h : CWSim w w') (env : Nat → Env) (images : List (List Int)) :
    CWSim (w.trainUnsupervised f env images).1 (w'.trainUnsupervised f env images).1 ∧
    (w'.trainUnsupervised f env images).2 = (w.trainUnsupervised f env images).2 := by
  unfold ClusWisard.trainUnsupervised
  rw [← h.cls.length_eq]
  split
  · cases images with
    | nil => exact ⟨h, rfl⟩
    | cons i0 images =>
      simp only
      rw [h.clusterCfg]
      exact CWSim.unsupLoop (w := { w with unsupervisedCluster := Cluster.create { w.clusterCfg i0.length with base := 2 } })
        (w' := { w' with unsupervisedCluster := Cluster.create { w.clusterCfg i0.length with base := 2 } }) _ _ 0
        ⟨h.addr, h.ms, h.th, h.dl, h.opts, h.cls, ClSim.create _⟩
  · exact CWSim.unsupLoop _ _ 0 h

theorem CWSim.step {f : Flt} {w w' : ClusWisard} (h : CWSim w w') (o : COp) (ho : o.trains = true) :
    CWSim (cstep f w o).1 (cstep f w' o).1 ∧ (cstep f w' o).2 = (cstep f w o).2 := by
  cases o with
  | train env images labels => exact h.train env images labels
  | semi env images labels => exact h.trainSemi env images labels
  | unsup env images => exact h.trainUnsupervised env images
  | mental it l => cases ho

theorem CWSim.play {f : Flt} (ops : List COp) (ho : ∀ o ∈ ops, o.trains = true) : ∀ {w w' : ClusWisard}, CWSim w w' →
    CWSim (cplay f w ops).1 (cplay f w' ops).1 ∧ (cplay f w' ops).2 = (cplay f w ops).2 := by
  induction ops with
  | nil => intro w w' h; exact ⟨h, rfl⟩
  | cons o ops ih =>
    intro w w' h
    obtain ⟨h1, h2⟩ := h.step (f := f) o (ho o (by simp))
    obtain ⟨h3, h4⟩ := ih (fun o h => ho o (by simp [h])) h1
    simp only [cplay]
    exact ⟨h3, by rw [h2, h4]⟩

theorem CWSim.indistinguishable {w w' : ClusWisard} (h : CWSim w w') (f : Flt) : CIndistinguishable f w w' := by
  intro ops ho
  obtain ⟨h1, h2⟩ := h.play (f := f) ops ho
  exact ⟨h2, h1.observe⟩

end Wis
