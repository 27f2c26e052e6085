import Verif.Lemmas.ClusReload
import Verif.Lemmas.ClusLearn
/-! Which ClusWisards can be saved. -/

namespace Wis
open Spec

theorem isNew_range {c : ClusterCfg} {rnd : Rnd} {d : Discriminator} (h : IsNew c rnd d) (hn : InI32 c.entrySize)
    (hb : InI32 c.base) : IntRange c.entrySize c.base d.mapping := by
  refine ⟨hn, hb, ?_⟩
  unfold IsNew at h
  have h' := h
  unfold Discriminator.create at h'
  simp only [List.length_nil, ne_eq, not_true_eq_false, if_false] at h'
  unfold Discriminator.setRAMShuffle at h'
  obtain ⟨_, hA, _⟩ := bind_eq_ok h'
  obtain ⟨hA2, hAn⟩ := checkAddressSize_ok hA
  have e1 : c.addressSize = (c.addressSize.toNat : Int) := by omega
  have e2 : c.entrySize = (c.entrySize.toNat : Int) := by omega
  rw [e1, e2] at h
  have hw := ((C18_default_wiring rnd c.addressSize.toNat c.entrySize.toNat _ rfl rfl).2 d h).2.2.1
  intro m hm a ha
  have := hw m hm a ha
  unfold InI32 at hn ⊢
  omega

theorem play_train_entries (imgs : List Image) : ∀ {d : Discriminator}, (∀ r ∈ d.rams, (r.positions.length : Int) ≤ d.count) →
    ∀ r ∈ (play d (imgs.map Op.train)).1.rams, (r.positions.length : Int) ≤ (play d (imgs.map Op.train)).1.count := by
  induction imgs with
  | nil => intro d h; exact h
  | cons img imgs ih =>
    intro d h
    refine ih (d := (d.train img).1) ?_
    unfold Discriminator.train
    cases d.checkEntrySize img.size with
    | error e => exact h
    | ok u =>
      simp only
      cases hc : i32 (d.count + 1) with
      | error e => exact h
      | ok c =>
        have hcc : c = d.count + 1 := by
          unfold i32 at hc
          split at hc
          · simp only [Except.ok.injEq] at hc; exact hc.symm
          · cases hc
        simp only
        by_cases hr : d.rams = []
        · rw [hr]; intro r hr; cases hr
        · obtain ⟨r0, hr0⟩ := List.exists_mem_of_ne_nil _ hr
          have h0 := h r0 hr0
          have := trainRams_entries img d.rams d.count.toNat (fun r hr => by have := h r hr; omega)
          intro r hr
          have := this r hr
          omega

theorem made_sav {c : ClusterCfg} {imgs : List Image} {d : Discriminator} (hm : Made c imgs d) (hn : InI32 c.entrySize)
    (hb : InI32 c.base) (hs : SavableD d) : DSav c.ignoreZero c.base d := by
  obtain ⟨rnd, d0, h1, h2⟩ := hm
  have hwf : DWF c.ignoreZero c.base d0 := create_wf h1 (isNew_range h1 hn hb)
  have hfr := create_fresh h1
  have hent := play_train_entries imgs (d := d0) (fun r hr => by rw [(hfr.rams r hr).1, hfr.count]; simp)
  rw [h2] at hent
  have hne : d.rams ≠ [] := by rw [← h2]; exact (play_le _ d0).rams_ne (create_ne h1)
  refine ⟨h2 ▸ hwf.play _, hne, ?_, ?_⟩
  · obtain ⟨d1, ops, h3, h4⟩ := hs.learnt
    rw [← h4]
    exact play_nonempty h3
  · obtain ⟨r0, hr0⟩ := List.exists_mem_of_ne_nil _ hne
    have h0 := hent r0 hr0
    have hsum := sum_le_of (rs := d.rams) (N := d.count.toNat) (fun r hr => by have := hent r hr; omega)
    have hsz := hs.size
    rw [show (d.getNumberOfRAMS : Int) = (d.rams.length : Int) from rfl, show d.getNumberOfTrainings = d.count from rfl] at hsz
    have hcc : d.count = (d.count.toNat : Int) := by omega
    rw [hcc] at hsz
    have hsz' : d.rams.length * (16 * d.count.toNat + 1) ≤ 2147483648 := by exact_mod_cast hsz
    have : d.rams.length * (16 * d.count.toNat + 1) = 16 * (d.rams.length * d.count.toNat) + d.rams.length := by
      rw [Nat.mul_add, Nat.mul_one, Nat.mul_left_comm]
    omega

theorem reached_sav {f : Flt} {c : ClusterCfg} {H : List Image} {cl : Cluster} (hr : Reached f c H cl) (hb : InI32 c.base)
    (hs : SavableC cl) : InI32 c.entrySize ∧ CSav c cl := by
  have hcfg := hr.inv.cfg
  obtain ⟨cfg, h1, h2⟩ := hs.initialised
  rw [hcfg] at h1
  cases h1
  refine ⟨h2, hcfg, ?_⟩
  intro o ho
  obtain ⟨d, rfl, hd⟩ := hs.discs o ho
  obtain ⟨imgs, _, _, hm⟩ := hr.made d ho
  exact ⟨d, rfl, made_sav hm h2 hb hd⟩

/-- A model all of whose clusters can be saved. -/
theorem winv_sav {f : Flt} {A : Int} {ms : Rat} {t dl : Int} {o : ClusOpts} {w0 w : ClusWisard} {L : List Str}
    (h0 : ClusWisard.create A ms t dl o = .ok w0) (hw : WInv f w0 L w) (hr : CRange A t dl o)
    (hc : ∀ l c, w.clusters.find l = some c → SavableC c)
    (hu : w.unsupervisedCluster = Cluster.default ∨ (o.base = 2 ∧ 0 < w.unsupervisedCluster.getSize ∧ SavableC w.unsupervisedCluster)) :
    WSav w := by
  obtain ⟨rfl, _, _, ht, _⟩ := create_shape h0
  have hconst := hw.const
  have hbI : InI32 o.base := hr.2.2.2.1
  have e1 : w.addressSize = A := by rw [hconst]
  have e2 : w.threshold = t := by rw [hconst]
  have e3 : w.discriminatorsLimit = dl := by rw [hconst]
  have e4 : w.opts = o := by rw [hconst]
  refine ⟨by rw [e1, e2, e3, e4]; exact hr, by rw [e2]; omega, hw.sorted, ?_, ?_⟩
  · rintro ⟨l, c⟩ he
    have hf := SMap.find_of_mem hw.sorted he
    have hsc := hc l c hf
    rcases hw.cl l c hf with rfl | ⟨_, n, H, hre⟩
    · obtain ⟨cfg, h1, _⟩ := hsc.initialised
      cases h1
    · obtain ⟨h1, h2⟩ := reached_sav hre hbI hsc
      exact ⟨n, h1, by rw [hw.cfg]; exact h2⟩
  · rcases hu with hu | ⟨hb, hne, hsc⟩
    · exact .inl hu
    · right
      refine ⟨?_, ?_⟩
      · intro e
        unfold Cluster.getSize at hne
        rw [e] at hne
        exact absurd hne (by simp)
      · rcases hw.un with he | ⟨n, H, hre⟩
        · obtain ⟨cfg, h1, _⟩ := hsc.initialised
          rw [he] at h1
          cases h1
        · obtain ⟨h1, h2⟩ := reached_sav hre (by show InI32 2; decide) hsc
          refine ⟨n, h1, ?_⟩
          rw [hw.cfg]
          have : ({ (⟨A, ms, t, dl, o, [], Cluster.default⟩ : ClusWisard).clusterCfg n with base := 2 } : ClusterCfg) =
              (⟨A, ms, t, dl, o, [], Cluster.default⟩ : ClusWisard).clusterCfg n := by
            unfold ClusWisard.clusterCfg
            simp only [hb]
          rwa [this] at h2

/-! ## Successful histories -/

/-- A predicate preserved by every elementary step that succeeds, for images satisfying `Q`. -/
structure ClosedOk (f : Flt) (Q : List Int → Prop) (P : ClusWisard → Prop) : Prop where
  train : ∀ w env img l, Q img → P w → (w.train1 f env img l).2 = .ok () → P (w.train1 f env img l).1
  own : ∀ w env img l, Q img → P w → (w.trainIn f env img l).2 = .ok () → P (w.trainIn f env img l).1
  unsup : ∀ (w : ClusWisard) env img, Q img → P w → (w.unsupervisedCluster.train f env (.vec img)).2 = .ok () →
    P { w with unsupervisedCluster := (w.unsupervisedCluster.train f env (.vec img)).1 }
  reset : ∀ (w : ClusWisard) env img, Q img → P w →
    ((Cluster.create { w.clusterCfg img.length with base := 2 }).train f env (.vec img)).2 = .ok () →
    P { w with unsupervisedCluster := ((Cluster.create { w.clusterCfg img.length with base := 2 }).train f env (.vec img)).1 }

theorem ClosedOk.trainLoop {f : Flt} {Q : List Int → Prop} {P : ClusWisard → Prop} (h : ClosedOk f Q P) (env : Nat → Env)
    (es : List (List Int × Str)) (hQ : ∀ e ∈ es, Q e.1) : ∀ (w : ClusWisard) (i : Nat), P w → (w.trainLoop f env es i).2 = .ok () →
    P (w.trainLoop f env es i).1 := by
  induction es with
  | nil => intro w i hw _; exact hw
  | cons e es ih =>
    intro w i hw hok
    obtain ⟨img, l⟩ := e
    have h1 := h.train w (env i) img l (hQ (img, l) (by simp)) hw
    simp only [ClusWisard.trainLoop] at hok ⊢
    rcases hr : w.train1 f (env i) img l with ⟨w', _ | _⟩
    · rw [hr] at hok; cases hok
    · rw [hr] at hok h1
      exact ih (fun e he => hQ e (by simp [he])) w' (i + 1) (h1 rfl) hok

theorem ClosedOk.semiLoop {f : Flt} {Q : List Int → Prop} {P : ClusWisard → Prop} (h : ClosedOk f Q P) (env : Nat → Env)
    (labels : LabelMap) (imgs : List (List Int)) (hQ : ∀ img ∈ imgs, Q img) :
    ∀ (i : Nat) (w : ClusWisard) (ll : List Int) (j : Nat) (ll' : List Int), P w →
      (ClusWisard.semiLoop f env labels imgs i w ll j).2 = .ok ll' → P (ClusWisard.semiLoop f env labels imgs i w ll j).1 := by
  induction imgs with
  | nil => intro i w ll j ll' hw _; exact hw
  | cons img imgs ih =>
    intro i w ll j ll' hw hok
    simp only [ClusWisard.semiLoop] at hok ⊢
    cases hl : labels.find i with
    | none =>
      simp only [hl] at hok ⊢
      cases hn : ClusWisard.noteLabelless ll j i with
      | error e => exact hw
      | ok ll2 =>
        rw [hn] at hok
        exact ih (fun e he => hQ e (by simp [he])) _ _ _ _ _ hw hok
    | some l =>
      simp only [hl] at hok ⊢
      have h1 := h.train w (env i) img l (hQ img (by simp)) hw
      rcases hr : w.train1 f (env i) img l with ⟨w', _ | _⟩
      · rw [hr] at hok; cases hok
      · rw [hr] at hok h1
        exact ih (fun e he => hQ e (by simp [he])) _ _ _ _ _ (h1 rfl) hok

theorem ClosedOk.ownLoop {f : Flt} {Q : List Int → Prop} {P : ClusWisard → Prop} (h : ClosedOk f Q P) (env : Nat → Env)
    (imgs : List (List Int)) (hQ : ∀ img ∈ imgs, Q img) : ∀ (w : ClusWisard) (i : Nat), P w → (w.ownLoop f env imgs i).2 = .ok () →
    P (w.ownLoop f env imgs i).1 := by
  induction imgs with
  | nil => intro w i hw _; exact hw
  | cons img imgs ih =>
    intro w i hw hok
    have h1 : (w.trainOwn f (env i) img).2 = .ok () → P (w.trainOwn f (env i) img).1 := by
      unfold ClusWisard.trainOwn
      split
      · intro h; cases h
      · exact h.own w (env i) img _ (hQ img (by simp)) hw
    simp only [ClusWisard.ownLoop] at hok ⊢
    rcases hr : w.trainOwn f (env i) img with ⟨w', _ | _⟩
    · rw [hr] at hok; cases hok
    · rw [hr] at hok h1
      exact ih (fun e he => hQ e (by simp [he])) w' (i + 1) (h1 rfl) hok

theorem ClosedOk.unsupLoop {f : Flt} {Q : List Int → Prop} {P : ClusWisard → Prop} (h : ClosedOk f Q P) (env : Nat → Env)
    (imgs : List (List Int)) (hQ : ∀ img ∈ imgs, Q img) : ∀ (w : ClusWisard) (i : Nat), P w → (w.unsupLoop f env imgs i).2 = .ok () →
    P (w.unsupLoop f env imgs i).1 := by
  induction imgs with
  | nil => intro w i hw _; exact hw
  | cons img imgs ih =>
    intro w i hw hok
    have h1 := h.unsup w (env i) img (hQ img (by simp)) hw
    simp only [ClusWisard.unsupLoop] at hok ⊢
    rcases hr : w.unsupervisedCluster.train f (env i) (.vec img) with ⟨c, _ | _⟩
    · rw [hr] at hok; cases hok
    · rw [hr] at hok h1
      exact ih (fun e he => hQ e (by simp [he])) _ (i + 1) (h1 rfl) hok

theorem ClosedOk.step {f : Flt} {Q : List Int → Prop} {P : ClusWisard → Prop} (h : ClosedOk f Q P) {o : COp} (ht : o.trains = true)
    (hQ : ∀ img ∈ o.images, Q img) (w : ClusWisard) (hw : P w) (hok : (cstep f w o).2 = .ok ()) : P (cstep f w o).1 := by
  cases o with
  | mental it l => cases ht
  | train env images labels =>
    simp only [cstep, ClusWisard.train] at hok ⊢
    split at hok
    · cases hok
    · exact h.trainLoop env _ (fun e he => hQ _ (List.of_mem_zip he).1) w 0 hw hok
  | semi env images labels =>
    simp only [cstep, ClusWisard.trainSemi] at hok ⊢
    split at hok
    · cases hok
    · have h1 := fun ll' => h.semiLoop (env false) labels images hQ 0 w (List.replicate (images.length - labels.length) 0) 0 ll' hw
      rcases hr : ClusWisard.semiLoop f (env false) labels images 0 w (List.replicate (images.length - labels.length) 0) 0 with ⟨w', _ | ll⟩
      · rw [hr] at hok; cases hok
      · rw [hr] at hok
        simp only [hr] at h1 ⊢
        simp only at hok
        split at hok
        · cases hok
        · rename_i hne
          rw [if_neg hne]
          exact h.ownLoop _ _ (fun img hi => hQ img (List.mem_of_mem_take hi)) _ _ (h1 ll rfl) hok
  | unsup env images =>
    simp only [cstep, ClusWisard.trainUnsupervised] at hok ⊢
    split at hok
    · rename_i hz
      rw [if_pos hz]
      cases images with
      | nil => cases hok
      | cons img imgs =>
        simp only [ClusWisard.unsupLoop] at hok ⊢
        have h1 := h.reset w (env 0) img (hQ img (by simp [COp.images])) hw
        rcases hr : (Cluster.create { w.clusterCfg img.length with base := 2 }).train f (env 0) (.vec img) with ⟨c, _ | _⟩
        · rw [hr] at hok; cases hok
        · rw [hr] at hok h1
          exact h.unsupLoop env _ (fun i hi => hQ i (by simp [COp.images, hi])) _ 1 (h1 rfl) hok
    · rename_i hz
      rw [if_neg hz]
      exact h.unsupLoop env _ hQ _ 0 hw hok

theorem ClosedOk.play {f : Flt} {Q : List Int → Prop} {P : ClusWisard → Prop} (h : ClosedOk f Q P) (ops : List COp) :
    ∀ (w : ClusWisard), (∀ o ∈ ops, o.trains = true ∧ ∀ img ∈ o.images, Q img) → P w → AllSucceed f w ops → P (cplay f w ops).1 := by
  induction ops with
  | nil => intro w _ hw _; exact hw
  | cons o ops ih =>
    intro w ht hw hok
    unfold AllSucceed at hok
    rw [cplay_cons] at hok ⊢
    refine ih _ (fun o ho => ht o (by simp [ho])) (h.step (ht o (by simp)).1 (ht o (by simp)).2 w hw (hok _ (by simp))) ?_
    intro r hr
    exact hok r (by simp [hr])

/-- The discriminator learnt something. -/
def LD (d : Discriminator) : Prop := ∃ (d0 : Discriminator) (ops : List Op), LearntSomething d0 ops ∧ (play d0 ops).1 = d

theorem LD.train {d : Discriminator} (h : LD d) (img : Image) : LD (d.train img).1 := by
  obtain ⟨d0, ops, ⟨a, x, b, rfl, h1⟩, rfl⟩ := h
  refine ⟨d0, (a ++ .train x :: b) ++ [.train img], ⟨a, x, b ++ [.train img], by simp, h1⟩, ?_⟩
  rw [play_append]
  rfl

theorem LD.new {d0 d1 : Discriminator} {img : Image} (h : d0.train img = (d1, .ok ())) : LD d1 :=
  ⟨d0, [.train img], ⟨[], img, [], rfl, by rw [show (play d0 []).1 = d0 from rfl, h]⟩, by
    show (d0.train img).1 = d1
    rw [h]⟩

theorem Spec.Learns.ld {f : Flt} {c : ClusterCfg} {rnd : Rnd} {img : Image} {ds ds' : List Discriminator}
    (h : Learns f c rnd img ds ds') (hd : ∀ d ∈ ds, LD d) : ds' ≠ [] ∧ ∀ d ∈ ds', LD d := by
  cases h with
  | fitting hs he =>
    constructor
    · rintro rfl
      obtain ⟨d, hm, _⟩ := hs
      cases he
      cases hm
    · intro d' hd'
      obtain ⟨d, hm, hh⟩ := forall₂_mem_right he hd'
      rcases hh with ⟨_, h1⟩ | ⟨_, rfl⟩
      · have := (hd d hm).train img
        rwa [h1] at this
      · exact hd _ hm
  | fresh h1 h2 h3 h4 =>
    refine ⟨by simp, ?_⟩
    intro d hm
    rcases List.mem_append.mp hm with hm | hm
    · exact hd d hm
    · simp only [List.mem_singleton] at hm
      subst hm
      exact LD.new h4
  | @best pre post d d1 h1 h2 h3 h4 h5 =>
    subst h3
    refine ⟨by simp, ?_⟩
    intro e hm
    rcases List.mem_append.mp hm with hm | hm
    · exact hd e (by simp [hm])
    · rcases List.mem_cons.mp hm with rfl | hm
      · have := (hd d (by simp)).train img
        rwa [h5] at this
      · exact hd e (by simp [hm])

/-- Initialised, with discriminators that all learnt. -/
def GoodSave (c : Cluster) : Prop :=
  c.discriminators ≠ [] ∧ (∃ cfg, CInv cfg c ∧ 1 ≤ cfg.discriminatorsLimit ∧ InI32 cfg.entrySize) ∧
    ∀ o ∈ c.discriminators, ∃ d, o = some d ∧ LD d

theorem train_goodSave {f : Flt} {cfg : ClusterCfg} {cl : Cluster} (hi : CInv cfg cl)
    (hl : 1 ≤ cfg.discriminatorsLimit) (hn : InI32 cfg.entrySize) (hd : ∀ o ∈ cl.discriminators, ∃ d, o = some d ∧ LD d) {env : Env} {img : Image}
    (hok : (cl.train f env img).2 = .ok ()) : GoodSave (cl.train f env img).1 := by
  obtain ⟨ds, ds', h1, h2, h3⟩ := train_learns hi hl (Prod.ext rfl hok : cl.train f env img = ((cl.train f env img).1, .ok ()))
  obtain ⟨h4, h5⟩ := h3.ld (fun d hm => by
    obtain ⟨d', e, hd'⟩ := hd (some d) (by rw [h1]; exact List.mem_map_of_mem hm)
    cases e
    exact hd')
  refine ⟨?_, ⟨cfg, hi.train env img, hl, hn⟩, ?_⟩
  · rw [h2]
    simpa using h4
  · intro o ho
    rw [h2] at ho
    obtain ⟨d, hm, rfl⟩ := List.mem_map.mp ho
    exact ⟨d, rfl, h5 d hm⟩

theorem GoodSave.train {f : Flt} {cl : Cluster} (h : GoodSave cl) {env : Env} {img : Image}
    (hok : (cl.train f env img).2 = .ok ()) : GoodSave (cl.train f env img).1 := by
  obtain ⟨_, ⟨cfg, h1, h2, h3⟩, h4⟩ := h
  exact train_goodSave h1 h2 h3 h4 hok

theorem goodSave_new {f : Flt} {cfg : ClusterCfg} (hl : 1 ≤ cfg.discriminatorsLimit) (hn : InI32 cfg.entrySize) {env : Env} {img : Image}
    (hok : ((Cluster.create cfg).train f env img).2 = .ok ()) : GoodSave ((Cluster.create cfg).train f env img).1 :=
  train_goodSave (Spec.Reached.new (f := f)).inv hl hn (by intro o ho; simp [Cluster.create] at ho) hok

/-- Everything in the model can be saved. -/
structure AllGood (w : ClusWisard) : Prop where
  limit : 1 ≤ w.discriminatorsLimit
  cl : ∀ l c, w.clusters.find l = some c → GoodSave c
  un : w.unsupervisedCluster = Cluster.default ∨ GoodSave w.unsupervisedCluster

theorem AllGood.closed (f : Flt) : ClosedOk f (fun img => (img.length : Int) ≤ 2147483647) AllGood := by
  have hset : ∀ (w : ClusWisard) (l : Str) (c : Cluster), AllGood w → GoodSave c → AllGood { w with clusters := w.clusters.set l c } := by
    intro w l c h hc
    refine ⟨h.limit, ?_, h.un⟩
    intro k c' hk
    by_cases hkl : k = l
    · subst hkl
      rw [SMap.find_set_self] at hk
      cases hk
      exact hc
    · rw [SMap.find_set_ne _ _ hkl] at hk
      exact h.cl k c' hk
  have hI : ∀ img : List Int, (img.length : Int) ≤ 2147483647 → InI32 (img.length : Int) := by
    intro img h
    unfold InI32
    omega
  refine ⟨?_, ?_, ?_, ?_⟩
  · intro w env img l hQ h hok
    rw [ClusWisard.train1_eq] at hok ⊢
    refine hset w l _ h ?_
    unfold ClusWisard.target at hok ⊢
    cases hf : w.clusters.find l with
    | some c => rw [hf] at hok; exact (h.cl l c hf).train hok
    | none => rw [hf] at hok; exact goodSave_new h.limit (hI img hQ) hok
  · intro w env img l hQ h hok
    rw [ClusWisard.trainIn_snd] at hok
    rw [ClusWisard.trainIn_fst]
    refine hset w l _ h ?_
    cases hf : w.clusters.find l with
    | some c => rw [hf] at hok; exact (h.cl l c hf).train hok
    | none => rw [hf] at hok; cases hok
  · intro w env img hQ h hok
    refine ⟨h.limit, h.cl, .inr ?_⟩
    rcases h.un with he | hg
    · rw [he] at hok; cases hok
    · exact hg.train hok
  · intro w env img hQ h hok
    refine ⟨h.limit, h.cl, .inr ?_⟩
    exact goodSave_new h.limit (hI img hQ) hok

theorem GoodSave.savable {c : Cluster} (h : GoodSave c)
    (hs : ∀ d, some d ∈ c.discriminators → (d.getNumberOfRAMS : Int) * (16 * d.getNumberOfTrainings + 1) ≤ 2147483648) :
    0 < c.getSize ∧ SavableC c := by
  obtain ⟨h1, ⟨cfg, h2, _, h3⟩, h4⟩ := h
  refine ⟨List.length_pos_of_ne_nil h1, ⟨cfg, h2.cfg, h3⟩, ?_⟩
  intro o ho
  obtain ⟨d, rfl, hd⟩ := h4 o ho
  exact ⟨d, rfl, hd, hs d ho⟩

/-! ## Without unsupervised training the unsupervised cluster stays as created -/

theorem trains_unsup_default {f : Flt} {o : COp} (h : o.isUnsup = false) (w : ClusWisard) :
    (cstep f w o).1.unsupervisedCluster = w.unsupervisedCluster := by
  have h1 : ∀ (w : ClusWisard) env img l, (w.trainIn f env img l).1.unsupervisedCluster = w.unsupervisedCluster := fun w env img l => rfl
  have h2 : ∀ (w : ClusWisard) env img l, (w.train1 f env img l).1.unsupervisedCluster = w.unsupervisedCluster := by
    intro w env img l; rw [ClusWisard.train1_eq]
  cases o with
  | unsup env images => cases h
  | mental it l =>
    simp only [cstep, ClusWisard.getMentalImage]
    split <;> rfl
  | train env images labels =>
    simp only [cstep, ClusWisard.train]
    split
    · rfl
    · rename_i heq
      clear heq
      generalize images.zip labels = es
      generalize 0 = i
      induction es generalizing w i with
      | nil => rfl
      | cons e es ih =>
        obtain ⟨img, l⟩ := e
        simp only [ClusWisard.trainLoop]
        have := h2 w (env i) img l
        rcases hr : w.train1 f (env i) img l with ⟨w', _ | _⟩
        · rw [hr] at this; exact this
        · rw [hr] at this; simp only at this ⊢; rw [ih, this]
  | semi env images labels =>
    simp only [cstep, ClusWisard.trainSemi]
    have hs : ∀ (env : Nat → Env) (imgs : List (List Int)) (i : Nat) (w : ClusWisard) (ll : List Int) (j : Nat),
        (ClusWisard.semiLoop f env labels imgs i w ll j).1.unsupervisedCluster = w.unsupervisedCluster := by
      intro env imgs
      induction imgs with
      | nil => intro i w ll j; rfl
      | cons img imgs ih =>
        intro i w ll j
        simp only [ClusWisard.semiLoop]
        cases labels.find i with
        | none =>
          simp only
          cases ClusWisard.noteLabelless ll j i with
          | error e => rfl
          | ok _ => exact ih _ _ _ _
        | some l =>
          simp only
          have := h2 w (env i) img l
          rcases hr : w.train1 f (env i) img l with ⟨w', _ | _⟩
          · rw [hr] at this; exact this
          · rw [hr] at this; simp only at this ⊢; rw [ih, this]
    have ho : ∀ (env : Nat → Env) (imgs : List (List Int)) (w : ClusWisard) (i : Nat),
        (w.ownLoop f env imgs i).1.unsupervisedCluster = w.unsupervisedCluster := by
      intro env imgs
      induction imgs with
      | nil => intro w i; rfl
      | cons img imgs ih =>
        intro w i
        simp only [ClusWisard.ownLoop]
        have : (w.trainOwn f (env i) img).1.unsupervisedCluster = w.unsupervisedCluster := by
          unfold ClusWisard.trainOwn
          split
          · rfl
          · exact h1 _ _ _ _
        rcases hr : w.trainOwn f (env i) img with ⟨w', _ | _⟩
        · rw [hr] at this; exact this
        · rw [hr] at this; simp only at this ⊢; rw [ih, this]
    split
    · rfl
    · have := hs (env false) images 0 w (List.replicate (images.length - labels.length) 0) 0
      rcases hr : ClusWisard.semiLoop f (env false) labels images 0 w (List.replicate (images.length - labels.length) 0) 0 with ⟨w', _ | ll⟩
      · rw [hr] at this; exact this
      · rw [hr] at this
        simp only at this ⊢
        split
        · exact this
        · rw [ho, this]

theorem play_unsup_default {f : Flt} (ops : List COp) : ∀ (w : ClusWisard), (∀ o ∈ ops, o.isUnsup = false) →
    (cplay f w ops).1.unsupervisedCluster = w.unsupervisedCluster := by
  induction ops with
  | nil => intro w _; rfl
  | cons o ops ih =>
    intro w h
    rw [cplay_cons]
    simp only
    rw [ih _ (fun o ho => h o (by simp [ho])), trains_unsup_default (h o (by simp))]

end Wis
