import Verif.Lemmas.Cluster
/-! Helper lemmas: trainings of valid images succeed. -/

namespace Wis
open Spec

/-- Admissible parameters of a cluster. -/
structure CfgOK (c : ClusterCfg) (A n : Nat) : Prop where
  addr : c.addressSize = A
  entry : c.entrySize = n
  a2 : 2 ≤ A
  an : A ≤ n
  small : n + A ≤ 2147483647
  base2 : 2 ≤ c.base
  fits : c.base ^ A < 2 ^ 63
  room : 1 ≤ c.discriminatorsLimit

/-- `d` was made by the cluster and represents the trainings `imgs`, part of `H`. -/
def GoodD (c : ClusterCfg) (n : Nat) (H : List Image) (d : Discriminator) : Prop :=
  ∃ (rnd : Rnd) (d0 : Discriminator) (imgs : List Image), IsNew c rnd d0 ∧ imgs.Sublist H ∧ DRep n d0 d (imgs.map Op.train)

theorem CfgOK.new {c : ClusterCfg} {A n : Nat} (h : CfgOK c A n) (rnd : Rnd) :
    ∃ d0, IsNew c rnd d0 := by
  unfold IsNew
  rw [h.addr, h.entry]
  exact (C18_default_wiring rnd A n _ rfl rfl).1 h.a2 h.an h.small h.base2 h.fits

theorem CfgOK.wired {c : ClusterCfg} {A n : Nat} (h : CfgOK c A n) {rnd : Rnd} {d0 : Discriminator} (hn : IsNew c rnd d0) :
    WiredInside n d0.mapping := by
  unfold IsNew at hn
  rw [h.addr, h.entry] at hn
  exact ((C18_default_wiring rnd A n _ rfl rfl).2 d0 hn).2.2.1

theorem CfgOK.fresh {c : ClusterCfg} {A n : Nat} (h : CfgOK c A n) {rnd : Rnd} {d0 : Discriminator} (hn : IsNew c rnd d0) :
    Fresh d0 n c.base c.ignoreZero := by
  have := IsNew.fresh hn
  rwa [h.entry] at this

theorem GoodD.train {c : ClusterCfg} {A n : Nat} (hc : CfgOK c A n) {H : List Image} {d : Discriminator}
    (h : GoodD c n H d) (hlen : H.length < 2147483647) {img : Image} (hv : ValidImage n c.base img) :
    ∃ d', d.train img = (d', .ok ()) ∧ GoodD c n (H ++ [img]) d' := by
  obtain ⟨rnd, d0, imgs, h1, h2, h3⟩ := h
  obtain ⟨d', t1, t2⟩ := train_rep (hc.fresh h1) (hc.wired h1) h3 hv (by
    have := h2.length_le
    rw [List.length_map]
    omega)
  refine ⟨d', t1, rnd, d0, imgs ++ [img], h1, h2.append (List.Sublist.refl _), ?_⟩
  rw [List.map_append]
  exact t2

theorem GoodD.classify {c : ClusterCfg} {A n : Nat} (hc : CfgOK c A n) {H : List Image} {d : Discriminator}
    (h : GoodD c n H d) (hH : ∀ x ∈ H, ValidImage n c.base x) {img : Image} (hv : ValidImage n c.base img) :
    ∃ vs, d.classify img = .ok vs ∧ ∀ v ∈ vs, 0 ≤ v ∧ v ≤ H.length := by
  obtain ⟨rnd, d0, imgs, h1, h2, h3⟩ := h
  refine ⟨_, classify_rep (hc.fresh h1) (hc.wired h1) h3 (by
    intro o ho
    obtain ⟨i, hi, rfl⟩ := List.mem_map.mp ho
    exact hH i (h2.subset hi)) hv, ?_⟩
  intro v hvm
  obtain ⟨m, _, rfl⟩ := List.mem_map.mp hvm
  split
  · omega
  · unfold vote
    have ha : ∀ o ∈ imgs.map Op.train, o.isTrain = true := by
      intro o ho
      obtain ⟨i, _, rfl⟩ := List.mem_map.mp ho
      rfl
    have hnn : ∀ l : List Op, (∀ o ∈ l, o.isTrain = true) → 0 ≤ net l := by
      intro l
      induction l with
      | nil => intro _; simp [net]
      | cons o l ih =>
        intro h
        have := ih (fun x hx => h x (List.mem_cons_of_mem _ hx))
        cases o with
        | train i => simp only [net]; omega
        | untrain i => exact absurd (h (.untrain i) (by simp)) (by simp [Op.isTrain])
    have hs1 := (List.dropWhile_sublist (l := matching m img (imgs.map Op.train)) (fun o => !o.isTrain))
    have hs2 : (matching m img (imgs.map Op.train)).Sublist (imgs.map Op.train) := List.filter_sublist
    have h4 := (hs1.trans hs2).length_le
    have h5 := (net_bound ((matching m img (imgs.map Op.train)).dropWhile (fun o => !o.isTrain))).2
    have h6 := h2.length_le
    rw [List.length_map] at h4
    exact ⟨hnn _ (fun o ho => ha o ((hs1.trans hs2).subset ho)), by omega⟩

theorem GoodD.mono {c : ClusterCfg} {n : Nat} {H : List Image} {d : Discriminator} (h : GoodD c n H d) (img : Image) :
    GoodD c n (H ++ [img]) d := by
  obtain ⟨rnd, d0, imgs, h1, h2, h3⟩ := h
  exact ⟨rnd, d0, imgs, h1, h2.trans (List.sublist_append_left _ _), h3⟩

theorem CfgOK.goodNew {c : ClusterCfg} {A n : Nat} (hc : CfgOK c A n) {rnd : Rnd} {d0 : Discriminator} (hn : IsNew c rnd d0) :
    GoodD c n [] d0 := ⟨rnd, d0, [], hn, List.Sublist.refl _, fresh_rep (hc.fresh hn)⟩

theorem GoodD.sub {c : ClusterCfg} {n : Nat} {H H' : List Image} (hs : H.Sublist H') {d : Discriminator} (h : GoodD c n H d) :
    GoodD c n H' d := by
  obtain ⟨rnd, d0, imgs, h1, h2, h3⟩ := h
  exact ⟨rnd, d0, imgs, h1, h2.trans hs, h3⟩

theorem scan_total {f : Flt} {c : ClusterCfg} {A n : Nat} (hc : CfgOK c A n) {H : List Image}
    (hH : ∀ x ∈ H, ValidImage n c.base x) (hlen : H.length < 2147483647) {img : Image} (hv : ValidImage n c.base img)
    (ds : List Discriminator) (hd : ∀ d ∈ ds, GoodD c n H d) : ∀ (i : Nat) (bv : Rat) (bi : Option Nat) (tr : Bool),
    ∃ ds' b t, Cluster.scan f c img (ds.map some) i bv bi tr = (ds', .ok (b, t)) := by
  induction ds with
  | nil => intro i bv bi tr; exact ⟨_, _, _, rfl⟩
  | cons d ds ih =>
    intro i bv bi tr
    have ih := ih (fun x hx => hd x (List.mem_cons_of_mem _ hx))
    obtain ⟨vs, h1, _⟩ := (hd d (by simp)).classify hc hH hv
    obtain ⟨d', h2, _⟩ := (hd d (by simp)).train hc hlen hv
    simp only [List.map_cons, Cluster.scan, h1, h2]
    split
    · obtain ⟨ds', b, t, h⟩ := ih (i + 1) (if Cluster.getScore f vs ≥ bv then Cluster.getScore f vs else bv)
        (if Cluster.getScore f vs ≥ bv then some i else bi) true
      rw [h]
      exact ⟨_, _, _, rfl⟩
    · obtain ⟨ds', b, t, h⟩ := ih (i + 1) (if Cluster.getScore f vs ≥ bv then Cluster.getScore f vs else bv)
        (if Cluster.getScore f vs ≥ bv then some i else bi) tr
      rw [h]
      exact ⟨_, _, _, rfl⟩

/-- A cluster all of whose discriminators are good. -/
structure GoodC (c : ClusterCfg) (n : Nat) (H : List Image) (ds : List Discriminator) : Prop where
  disc : ∀ d ∈ ds, GoodD c n H d
  valid : ∀ x ∈ H, ValidImage n c.base x

theorem GoodC.inv {c : ClusterCfg} {A n : Nat} (hc : CfgOK c A n) {H : List Image} {ds : List Discriminator}
    (h : GoodC c n H ds) : ∀ d ∈ ds, Pos1 d.rams := by
  intro d hd
  obtain ⟨rnd, d0, imgs, h1, h2, h3⟩ := h.disc d hd
  intro r hr k x hx
  obtain ⟨r0, hr0, hrep⟩ := forall₂_mem_right h3.rams hr
  rw [hrep.find k] at hx
  have ha : ∀ o ∈ (imgs.map Op.train).filter (fun o => decide (key r0.base r0.addresses o.img = k)), o.isTrain = true := by
    intro o ho
    obtain ⟨i, _, rfl⟩ := List.mem_map.mp (List.mem_of_mem_filter ho)
    rfl
  generalize (imgs.map Op.train).filter (fun o => decide (key r0.base r0.addresses o.img = k)) = l at hx ha
  induction l using List.reverseRecOn generalizing x with
  | nil => simp [cell] at hx
  | append_singleton l o ih =>
    rw [cell_append] at hx
    cases o with
    | untrain i => exact absurd (ha (.untrain i) (by simp)) (by simp [Op.isTrain])
    | train i =>
      cases hcl : cell l with
      | none => rw [hcl] at hx; simp only [cellStep, Option.some.injEq] at hx; omega
      | some y =>
        rw [hcl] at hx
        simp only [cellStep, Option.some.injEq] at hx
        have := ih y hcl (fun o ho => ha o (by simp [ho]))
        omega

theorem GoodC.cinv {c : ClusterCfg} {A n : Nat} (hc : CfgOK c A n) {H : List Image} {ds : List Discriminator}
    (h : GoodC c n H ds) (hl : (ds.length : Int) ≤ c.discriminatorsLimit) : CInv c ⟨some c, ds.map some⟩ := by
  refine ⟨rfl, fun _ => by simpa using hl, ?_⟩
  intro d hd
  simp only [List.mem_map, Option.some.injEq, exists_eq_right] at hd
  refine ⟨h.inv hc d hd, ?_⟩
  obtain ⟨rnd, d0, imgs, h1, h2, h3⟩ := h.disc d hd
  refine ⟨by rw [h3.entry, hc.entry], hc.base2, ?_⟩
  intro r hr
  obtain ⟨r0, hr0, hrep⟩ := forall₂_mem_right h3.rams hr
  have := (hc.fresh h1).rams r0 hr0
  exact ⟨by rw [hrep.iz, this.2.2.1], by rw [hrep.base, this.2.1]⟩

theorem GoodC.train {f : Flt} {c : ClusterCfg} {A n : Nat} (hc : CfgOK c A n) {H : List Image} {ds : List Discriminator}
    (h : GoodC c n H ds) (hl : (ds.length : Int) ≤ c.discriminatorsLimit) (hlen : H.length < 2147483647)
    (env : Env) {img : Image} (hv : ValidImage n c.base img) :
    ∃ ds', Cluster.train f ⟨some c, ds.map some⟩ env img = (⟨some c, ds'.map some⟩, .ok ()) ∧
      Learns f c env.rnd img ds ds' ∧ GoodC c n (H ++ [img]) ds' ∧ (ds'.length : Int) ≤ c.discriminatorsLimit := by
  -- a new discriminator can be made and trained
  have hnew : ∃ d0 d1, IsNew c env.rnd d0 ∧ d0.train img = (d1, .ok ()) := by
    obtain ⟨d0, hd0⟩ := hc.new env.rnd
    obtain ⟨d1, h1, _⟩ := (hc.goodNew hd0).train hc (by simp) hv
    exact ⟨d0, d1, hd0, h1⟩
  obtain ⟨d0, d1, n1, n2⟩ := hnew
  have hok : (Cluster.train f ⟨some c, ds.map some⟩ env img).2 = .ok () := by
    have htn : ∀ ds, (Cluster.trainNew ⟨some c, ds⟩ env img).2 = .ok () := by
      intro ds
      unfold Cluster.trainNew
      simp only [newDiscriminator_isNew.mpr n1, n2]
    unfold Cluster.train
    split
    · exact htn _
    · obtain ⟨ds', b, t, hs⟩ := scan_total hc h.valid hlen hv ds h.disc 0 0 none false (f := f)
      simp only [hs]
      split
      · rfl
      · rename_i ht
        have ht : t = false := by simpa using ht
        rw [ht] at hs
        have hu := scan_untrained hs
        subst hu
        split
        · exact htn _
        · obtain ⟨xs, ys, g1, _, _, _, g5⟩ := scan_ok _ hs
          have hxs := map_some_inj g1
          subst hxs
          rcases g5 with ⟨rfl, _⟩ | ⟨pre, d, post, s, e1, e2, _⟩
          · rfl
          · rw [e2]
            simp only [Nat.zero_add]
            obtain ⟨d', t1, _⟩ := (h.disc d (by rw [e1]; simp)).train hc hlen hv
            have hget : (ds.map some)[pre.length]? = some (some d) := by rw [e1]; simp
            unfold Cluster.trainAt
            rw [hget]
            simp only [t1]
  generalize hres : Cluster.train f ⟨some c, ds.map some⟩ env img = res at hok
  obtain ⟨cl', r⟩ := res
  simp only at hok
  subst hok
  obtain ⟨xs, ds', e1, rfl, e3⟩ := train_learns (h.cinv hc hl) hc.room hres
  simp only [Cluster.mk.injEq, true_and] at e1
  have hxs := map_some_inj e1
  subst hxs
  have hvalid : ∀ x ∈ H ++ [img], ValidImage n c.base x := by
    intro x hx
    rcases List.mem_append.mp hx with hx | hx
    · exact h.valid x hx
    · simp only [List.mem_singleton] at hx; subst hx; exact hv
  have htrain : ∀ {d d' : Discriminator}, GoodD c n H d → d.train img = (d', .ok ()) → GoodD c n (H ++ [img]) d' := by
    intro d d' hd ht
    obtain ⟨d2, t1, t2⟩ := hd.train hc hlen hv
    rw [ht] at t1
    cases t1
    exact t2
  refine ⟨ds', rfl, e3, ⟨?_, hvalid⟩, ?_⟩
  · intro d hd
    cases e3 with
    | fitting _ hall =>
      obtain ⟨d0, hd0, hh⟩ := forall₂_mem_right hall hd
      rcases hh with ⟨_, ht⟩ | ⟨_, rfl⟩
      · exact htrain (h.disc d0 hd0) ht
      · exact (h.disc d hd0).mono img
    | @fresh d0 d1 _ _ hn ht =>
      rcases List.mem_append.mp hd with hd | hd
      · exact (h.disc d hd).mono img
      · simp only [List.mem_singleton] at hd
        subst hd
        obtain ⟨d2, t1, t2⟩ := (hc.goodNew hn).train hc (by simp) hv
        rw [ht] at t1
        cases t1
        exact t2.sub (List.sublist_append_right _ _)
    | @best pre post d0 d1 _ _ hsp _ ht =>
      rcases List.mem_append.mp hd with hd | hd
      · exact (h.disc d (by rw [hsp]; simp [hd])).mono img
      · rcases List.mem_cons.mp hd with rfl | hd
        · exact htrain (h.disc d0 (by rw [hsp]; simp)) ht
        · exact (h.disc d (by rw [hsp]; simp [hd])).mono img
  · cases e3 with
    | fitting _ hall => rw [← hall.length_eq]; exact hl
    | fresh _ hroom _ _ => simp only [List.length_append, List.length_singleton]; omega
    | best _ _ hsp _ _ =>
      rw [hsp] at hl
      simp only [List.length_append, List.length_cons] at hl ⊢
      exact hl

end Wis
