import Verif.Props.AnyState
import Verif.Props.NanArgs
import Verif.Props.ClusWisard
/-!
# C141: clusters in any state, for instance loaded from a document written by hand
-/

namespace Wis
open Spec

theorem limitF_iff (f : Flt) (c : ClusterCfg) (s : Rat) (count : Int) :
    F32.numGe s (Cluster.limitF f (.fin c.minScore) c.threshold count) = true ↔
      ((c.threshold ≠ 0 ∧ required f c count ≤ s) ∨
       (c.threshold = 0 ∧ (f.rnd count < 0 ∨ (0 < f.rnd count ∧ 1 ≤ s)))) := by
  by_cases ht : c.threshold = 0
  · unfold Cluster.limitF F32.quot
    rw [ht]
    simp only [Nat.cast_zero, f.zero, if_true]
    rcases lt_trichotomy (f.rnd count) 0 with h | h | h
    · rw [if_neg (ne_of_lt h)]
      simp [F32.add, F32.lt, F32.numGe, h]
    · rw [if_pos h]
      simp [F32.add, F32.lt, F32.numGe, h]
    · rw [if_neg (ne_of_gt h)]
      simp [F32.add, F32.lt, F32.numGe, h, not_lt.mpr (le_of_lt h)]
  · rw [Cluster.limitF_fin f c ht, limit_eq]
    simp [ht]

/-- The effect of the scan. -/
def ScannedAny (f : Flt) (c : ClusterCfg) (img : Image) (d d' : Discriminator) : Prop :=
  (ReachesAny f c img d ∧ d.train img = (d', .ok ())) ∨ (¬ ReachesAny f c img d ∧ d' = d)

theorem scanF_ok {f : Flt} {c : ClusterCfg} {img : Image} (ds : List (Option Discriminator)) :
    ∀ {i : Nat} {bv : Rat} {bi : Option Nat} {tr : Bool} {ds' : List (Option Discriminator)} {b : Option Nat} {t : Bool},
    Cluster.scanF f (.fin c.minScore) c.threshold img ds i bv bi tr = (ds', .ok (b, t)) →
    ∃ xs ys : List Discriminator, ds = xs.map some ∧ ds' = ys.map some ∧ List.Forall₂ (ScannedAny f c img) xs ys ∧
      (t = true ↔ tr = true ∨ ∃ d ∈ xs, ReachesAny f c img d) ∧
      ((b = bi ∧ ∀ d ∈ xs, ∃ s, HasScore f img d s ∧ s < bv) ∨
        ∃ pre d post s, xs = pre ++ d :: post ∧ b = some (i + pre.length) ∧ HasScore f img d s ∧ bv ≤ s ∧
          (∀ e ∈ pre, ∃ s', HasScore f img e s' ∧ s' ≤ s) ∧ ∀ e ∈ post, ∃ s', HasScore f img e s' ∧ s' < s) := by
  induction ds with
  | nil =>
    intro i bv bi tr ds' b t h
    simp only [Cluster.scanF, Prod.mk.injEq, Except.ok.injEq] at h
    obtain ⟨rfl, rfl, rfl⟩ := h
    exact ⟨[], [], rfl, rfl, .nil, by simp, .inl ⟨rfl, by simp⟩⟩
  | cons od ds ih =>
    intro i bv bi tr ds' b t h
    cases od with
    | none => simp [Cluster.scanF] at h
    | some d =>
      simp only [Cluster.scanF] at h
      cases hc : d.classify img with
      | error e => rw [hc] at h; simp at h
      | ok votes =>
        rw [hc] at h
        simp only [getScore_eq] at h
        have hs : HasScore f img d (score f votes) := ⟨votes, hc, rfl⟩
        have hR : ReachesAny f c img d ↔
            F32.numGe (score f votes) (Cluster.limitF f (.fin c.minScore) c.threshold d.getNumberOfTrainings) = true := by
          rw [limitF_iff]
          constructor
          · rintro ⟨s, h1, h2⟩; rw [← HasScore.unique h1 hs]; exact h2
          · intro h1; exact ⟨_, hs, h1⟩
        -- the best so far
        have best : ∀ {xs : List Discriminator},
            ((b = (if score f votes ≥ bv then some i else bi) ∧ ∀ d ∈ xs, ∃ s, HasScore f img d s ∧ s < (if score f votes ≥ bv then score f votes else bv)) ∨
              ∃ pre d post s, xs = pre ++ d :: post ∧ b = some (i + 1 + pre.length) ∧ HasScore f img d s ∧ (if score f votes ≥ bv then score f votes else bv) ≤ s ∧
                (∀ e ∈ pre, ∃ s', HasScore f img e s' ∧ s' ≤ s) ∧ ∀ e ∈ post, ∃ s', HasScore f img e s' ∧ s' < s) →
            ((b = bi ∧ ∀ e ∈ d :: xs, ∃ s, HasScore f img e s ∧ s < bv) ∨
              ∃ pre e post s, d :: xs = pre ++ e :: post ∧ b = some (i + pre.length) ∧ HasScore f img e s ∧ bv ≤ s ∧
                (∀ e ∈ pre, ∃ s', HasScore f img e s' ∧ s' ≤ s) ∧ ∀ e ∈ post, ∃ s', HasScore f img e s' ∧ s' < s) := by
          intro xs hb
          by_cases hge : score f votes ≥ bv
          · right
            simp only [hge, if_true] at hb
            rcases hb with ⟨h1, h2⟩ | ⟨pre, e, post, s, h1, h2, h3, h4, h5, h6⟩
            · exact ⟨[], d, xs, _, rfl, by simpa using h1, hs, hge, by simp, h2⟩
            · refine ⟨d :: pre, e, post, s, by rw [h1]; rfl, by rw [h2]; simp only [List.length_cons]; congr 1; omega, h3, le_trans hge h4, ?_, h6⟩
              intro e' he'
              rcases List.mem_cons.mp he' with rfl | he'
              · exact ⟨_, hs, h4⟩
              · exact h5 e' he'
          · simp only [hge, if_false] at hb
            rcases hb with ⟨h1, h2⟩ | ⟨pre, e, post, s, h1, h2, h3, h4, h5, h6⟩
            · left
              refine ⟨h1, ?_⟩
              intro e' he'
              rcases List.mem_cons.mp he' with rfl | he'
              · exact ⟨_, hs, not_le.mp hge⟩
              · exact h2 e' he'
            · right
              refine ⟨d :: pre, e, post, s, by rw [h1]; rfl, by rw [h2]; simp only [List.length_cons]; congr 1; omega, h3, h4, ?_, h6⟩
              intro e' he'
              rcases List.mem_cons.mp he' with rfl | he'
              · exact ⟨_, hs, le_of_lt (lt_of_lt_of_le (not_le.mp hge) h4)⟩
              · exact h5 e' he'
        split at h
        · rename_i hreq
          split at h
          · rename_i d' htr
            generalize hsc : Cluster.scanF f (.fin c.minScore) c.threshold img ds (i + 1) (if score f votes ≥ bv then score f votes else bv)
              (if score f votes ≥ bv then some i else bi) true = res at h
            obtain ⟨ds1, r⟩ := res
            simp only [Prod.mk.injEq] at h
            obtain ⟨rfl, rfl⟩ := h
            obtain ⟨xs, ys, rfl, rfl, h3, h4, h5⟩ := ih hsc
            refine ⟨d :: xs, d' :: ys, rfl, rfl, .cons (.inl ⟨hR.mpr hreq, htr⟩) h3, ?_, best h5⟩
            rw [h4]
            simp only [true_or, true_iff]
            exact .inr ⟨d, by simp, hR.mpr hreq⟩
          · simp at h
        · rename_i hreq
          generalize hsc : Cluster.scanF f (.fin c.minScore) c.threshold img ds (i + 1) (if score f votes ≥ bv then score f votes else bv)
            (if score f votes ≥ bv then some i else bi) tr = res at h
          obtain ⟨ds1, r⟩ := res
          simp only [Prod.mk.injEq] at h
          obtain ⟨rfl, rfl⟩ := h
          obtain ⟨xs, ys, rfl, rfl, h3, h4, h5⟩ := ih hsc
          refine ⟨d :: xs, d :: ys, rfl, rfl, .cons (.inr ⟨fun h => hreq (hR.mp h), rfl⟩) h3, ?_, best h5⟩
          rw [h4]
          constructor
          · rintro (h | ⟨e, he, h⟩)
            · exact .inl h
            · exact .inr ⟨e, List.mem_cons_of_mem _ he, h⟩
          · rintro (h | ⟨e, he, h⟩)
            · exact .inl h
            · rcases List.mem_cons.mp he with rfl | he
              · exact absurd (hR.mp h) hreq
              · exact .inr ⟨e, he, h⟩



/-- C141: a successful training of one image changes a cluster in any state (settings, thresholds and contents arbitrary) as
`LearnsAny` says; its settings stay. -/
theorem C141_learns (f : Flt) {cl cl' : Cluster} {c : ClusterCfg} (hcfg : cl.cfg = some c) {env : Env} {img : Image}
    (h : cl.trainF f (.fin c.minScore) env img = (cl', .ok ())) :
    ∃ ds ds' : List Discriminator, cl.discriminators = ds.map some ∧ cl' = ⟨some c, ds'.map some⟩ ∧
      LearnsAny f c env.rnd img ds ds' := by
  have hcl : cl = ⟨some c, cl.discriminators⟩ := by rw [← hcfg]
  unfold Cluster.trainF at h
  split at h
  · rename_i h0
    have h0 := List.length_eq_zero_iff.mp h0
    obtain ⟨c', d0, d1, h1, h2, h3, h4⟩ := trainNew_ok h
    rw [hcfg] at h1
    cases h1
    refine ⟨[], [d1], by rw [h0]; rfl, by rw [h4, h0]; rfl, ?_⟩
    exact LearnsAny.fresh (ds := []) (by simp) (.inl rfl) h2 h3
  · rename_i hne
    rw [hcfg] at h
    simp only at h
    generalize hs : Cluster.scanF f (.fin c.minScore) c.threshold img cl.discriminators 0 0 none false = res at h
    obtain ⟨ds1, r⟩ := res
    cases r with
    | error e => simp at h
    | ok bt =>
      obtain ⟨b, t⟩ := bt
      obtain ⟨xs, ys, h1, rfl, h3, h4, h5⟩ := scanF_ok _ hs
      simp only at h
      refine ⟨xs, ?_⟩
      rw [h1] at hcl
      split at h
      · rename_i ht
        simp only [Prod.mk.injEq, and_true] at h
        refine ⟨ys, h1, h.symm, .fitting ?_ h3⟩
        simpa using h4.mp ht
      · rename_i ht
        have hn : ∀ d ∈ xs, ¬ ReachesAny f c img d := by
          intro d hd hr
          exact ht (h4.mpr (.inr ⟨d, hd, hr⟩))
        have hxy : xs = ys := by
          have : ∀ {xs ys : List Discriminator}, List.Forall₂ (ScannedAny f c img) xs ys → (∀ d ∈ xs, ¬ ReachesAny f c img d) → xs = ys := by
            intro xs ys h
            induction h with
            | nil => intro _; rfl
            | cons h1 _ ih =>
              intro hn
              rcases h1 with ⟨h1, _⟩ | ⟨_, h1⟩
              · exact absurd h1 (hn _ (by simp))
              · rw [h1, ih (fun d hd => hn d (List.mem_cons_of_mem _ hd))]
          exact this h3 hn
        subst hxy
        split at h
        · rename_i hroom
          obtain ⟨c', d0, d1, e1, e2, e3, e4⟩ := trainNew_ok h
          simp only [Option.some.injEq] at e1
          subst e1
          refine ⟨xs ++ [d1], h1, by rw [e4]; simp, .fresh hn (.inr (by simpa using hroom)) e2 e3⟩
        · rename_i hroom
          simp only [List.length_map, not_lt] at hroom
          rcases h5 with ⟨e1, e2⟩ | ⟨pre, d, post, s, e1, e2, e3, e4, e5, e6⟩
          · rw [e1] at h
            simp only [Prod.mk.injEq, and_true] at h
            refine ⟨xs, h1, h.symm, .nothing hn hroom ?_ e2⟩
            rintro rfl
            rw [h1] at hne
            exact hne rfl
          · rw [e2] at h
            simp only [Nat.zero_add] at h
            have hget : (xs.map some)[pre.length]? = some (some d) := by rw [e1]; simp
            have hta : Cluster.trainAt (xs.map some) pre.length img =
                ((xs.map some).set pre.length (some (d.train img).1), (d.train img).2) := by
              unfold Cluster.trainAt
              rw [hget]
            rw [hta] at h
            simp only [Prod.mk.injEq] at h
            obtain ⟨e7, e8⟩ := h
            refine ⟨pre ++ (d.train img).1 :: post, h1, ?_, .best hn hroom e1 ⟨s, e3, e5, e6⟩
              (fun s' hs' => by rw [HasScore.unique hs' e3]; exact e4) (by rw [← e8])⟩
            rw [← e7, e1]
            simp

/-- C141: the same for the call that trains one image of class `l`, in a ClusWisard in any state whose thresholds are not 0: the
discriminators of `l` change as `LearnsAny` says, with the settings of its cluster (those of the model if the class is new),
and nothing else changes. -/
theorem C141_class (f : Flt) {w w' : ClusWisard} {env : Nat → Env} {img : List Int} {l : Str}
    (hint : InI32 w.threshold) (hpos : 1 ≤ w.threshold)
    (hth : ∀ k cl c, w.clusters.find k = some cl → cl.cfg = some c → c.threshold ≠ 0)
    (h : w.train f env [img] [l] = (w', .ok ())) :
    ∃ (c : ClusterCfg) (ds ds' : List Discriminator),
      (w.clusters.find l = some ⟨some c, ds.map some⟩ ∨
        (w.clusters.find l = none ∧ ds = [] ∧ c = ⟨w.addressSize, img.length, w.minScore, w.threshold.toNat, w.discriminatorsLimit,
          w.opts.completeAddressing, w.opts.ignoreZero, w.opts.base⟩)) ∧
      w'.clusters.find l = some ⟨some c, ds'.map some⟩ ∧ LearnsAny f c (env 0).rnd (.vec img) ds ds' ∧
      (∀ k, k ≠ l → w'.clusters.find k = w.clusters.find k) ∧ w' = { w with clusters := w'.clusters } := by
  have h1 := train_single h
  rw [ClusWisard.train1_eq] at h1
  simp only [Prod.mk.injEq] at h1
  obtain ⟨rfl, e2⟩ := h1
  have hto : (BitVec.ofInt 32 w.threshold).toNat = w.threshold.toNat := by
    unfold InI32 at hint
    rw [BitVec.toNat_ofInt]
    omega
  have key : ∀ (cl : Cluster) (c : ClusterCfg), cl.cfg = some c → c.threshold ≠ 0 → (cl.train f (env 0) (.vec img)).2 = .ok () →
      ∃ ds ds' : List Discriminator, cl.discriminators = ds.map some ∧ (cl.train f (env 0) (.vec img)).1 = ⟨some c, ds'.map some⟩ ∧
        LearnsAny f c (env 0).rnd (.vec img) ds ds' := by
    intro cl c hc ht h
    have h' : cl.train f (env 0) (.vec img) = ((cl.train f (env 0) (.vec img)).1, .ok ()) := Prod.ext rfl h
    rw [← Cluster.trainF_fin f hc ht] at h'
    obtain ⟨ds, ds', g1, g2, g3⟩ := C141_learns f hc h'
    exact ⟨ds, ds', g1, by rw [← Cluster.trainF_fin f hc ht]; exact g2, g3⟩
  unfold ClusWisard.target at e2 ⊢
  cases hf : w.clusters.find l with
  | none =>
    rw [hf, Option.getD_none] at e2
    rw [Option.getD_none]
    obtain ⟨ds, ds', g1, g2, g3⟩ := key _ (w.clusterCfg img.length) rfl (by
      unfold ClusWisard.clusterCfg
      simp only [hto]
      omega) e2
    have hds : ds = [] := by
      have : ([] : List (Option Discriminator)) = ds.map some := g1
      exact List.map_eq_nil_iff.mp this.symm
    refine ⟨_, ds, ds', .inr ⟨rfl, hds, ?_⟩, ?_, g3, fun k hk => SMap.find_set_ne _ _ hk, rfl⟩
    · unfold ClusWisard.clusterCfg
      rw [hto]
    · rw [SMap.find_set_self, g2]
  | some cl =>
    rw [hf, Option.getD_some] at e2
    rw [Option.getD_some]
    cases hc : cl.cfg with
    | none =>
      exfalso
      unfold Cluster.train Cluster.trainNew at e2
      rw [hc] at e2
      split at e2 <;> cases e2
    | some c =>
      obtain ⟨ds, ds', g1, g2, g3⟩ := key cl c hc (hth l cl c hf hc) e2
      refine ⟨c, ds, ds', .inl ?_, ?_, g3, fun k hk => SMap.find_set_ne _ _ hk, rfl⟩
      · rw [← hc, ← g1]
      · rw [SMap.find_set_self, g2]

/-- C141: if no vote is negative, as in every model never loaded from a document, the image is learnt: some discriminators
(at least one) have exactly one more training and the others are the same. -/
theorem C141_something {f : Flt} {c : ClusterCfg} {rnd : Rnd} {img : Image} {ds ds' : List Discriminator}
    (h : LearnsAny f c rnd img ds ds') (hp : ∀ d ∈ ds, ∀ vs, d.classify img = .ok vs → ∀ v ∈ vs, 0 ≤ v) : OneMoreTraining ds ds' := by
  have same : ∀ ds : List Discriminator,
      List.Forall₂ (fun d d' => d' = d ∨ d'.getNumberOfTrainings = d.getNumberOfTrainings + 1) ds ds := by
    intro ds
    induction ds with
    | nil => exact .nil
    | cons d ds ih => exact .cons (.inl rfl) ih
  cases h with
  | fitting hs he =>
    refine ⟨ds', [], by simp, he.imp ?_, .inl rfl, .inr ?_⟩
    · rintro a b (⟨_, h⟩ | ⟨_, h⟩)
      · exact .inr (train_count h)
      · exact .inl h
    · obtain ⟨d, hd, hr⟩ := hs
      obtain ⟨i, hi, rfl⟩ := List.getElem_of_mem hd
      have hi' : i < ds'.length := he.length_eq ▸ hi
      have := (List.forall₂_iff_get.mp he).2 i hi hi'
      simp only [List.get_eq_getElem] at this
      rcases this with ⟨_, h⟩ | ⟨h, _⟩
      · exact ⟨i, _, _, List.getElem?_eq_getElem hi, List.getElem?_eq_getElem hi', train_count h⟩
      · exact absurd hr h
  | fresh _ _ hn ht =>
    refine ⟨ds, _, rfl, same ds, .inr ⟨_, rfl, ?_⟩, .inl (by simp)⟩
    rw [train_count ht, isNew_count hn]
    rfl
  | @best pre post d d1 _ _ hsp _ _ ht =>
    refine ⟨_, [], (List.append_nil _).symm, ?_, .inl rfl, .inr ⟨pre.length, d, d1, ?_, ?_, train_count ht⟩⟩
    · rw [hsp]
      exact List.rel_append (same pre) (.cons (.inr (train_count ht)) (same post))
    · rw [hsp]; simp
    · simp
  | nothing hn _ hne hneg =>
    exfalso
    cases ds with
    | nil => exact hne rfl
    | cons d ds =>
      obtain ⟨s, ⟨vs, h1, rfl⟩, h2⟩ := hneg d (by simp)
      exact absurd h2 (not_lt.mpr (score_nonneg f vs (hp d (by simp) vs h1)))

/-- C141, loaded: discriminator `k` of class `l` of a ClusWisard loaded from a document votes what element `k` of the
`discriminators` of its member of `clusters` contains. -/
theorem C141_loaded {fs : Fs} {m : List (Str × Json)} {w : ClusWisard}
    (hs : ∀ items, valueOf m b!"clusters" = .obj items → SMap.Sorted items)
    (h : ClusWisard.ofJson fs (.obj m) = .ok w) {l : Str} {k : Nat} {d : Discriminator} (hd : (discs w l)[k]? = some (some d))
    {x : Image} {vs : List Int} (hv : d.classify x = .ok vs) :
    ∃ items j e, valueOf m b!"clusters" = .obj items ∧ (l, j) ∈ items ∧
      (elementsOf (valueOf (membersOf j) b!"discriminators"))[k]? = some e ∧ vs.length = d.rams.length ∧
    ∀ (i : Nat) (r : Ram) (v : Int), d.rams[i]? = some r → vs[i]? = some v →
      (∃ a, (elementsOf (valueOf (membersOf e) b!"mapping"))[i]? = some a ∧ IsInts a r.addresses) ∧
      r.ignoreZero = w.opts.ignoreZero ∧
      ((w.opts.ignoreZero = true ∧ ZeroNumber r.base r.addresses x ∧ v = 0) ∨
       (¬ (w.opts.ignoreZero = true ∧ ZeroNumber r.base r.addresses x) ∧
        DocVote fs (membersOf e) i r.base r.addresses x v)) := by
  have hdoc := (C114_clusWisard fs m w hs).mp h
  obtain ⟨items, hp, hall⟩ := hdoc.clusters
  unfold discs at hd
  cases hf : w.clusters.find l with
  | none => rw [hf] at hd; simp at hd
  | some cl =>
    rw [hf] at hd
    simp only at hd
    obtain ⟨j, hj, hdr⟩ : ∃ j, (l, j) ∈ items ∧ ClusterReads fs (clusterMembers w j) cl := by
      have hm := SMap.mem_of_find hf
      generalize w.clusters = ds at hall hm
      clear hp hd hf hdoc
      induction hall with
      | nil => cases hm
      | @cons e c l1 l2 hec _ ih =>
        rcases List.mem_cons.mp hm with rfl | hm
        · exact ⟨e.2, by rw [show l = e.1 from hec.1]; simp, hec.2⟩
        · obtain ⟨j, hj, h⟩ := ih hm
          exact ⟨j, List.mem_cons_of_mem _ hj, h⟩
    have hobj : valueOf m b!"clusters" = .obj items := by
      generalize valueOf m b!"clusters" = q at hp
      cases hp with
      | null => cases hj
      | empty => cases hj
      | obj _ => rfl
    obtain ⟨c, hc, _, _, _, _, _, hz, _, _, hds⟩ := hdr
    have hlen := hds.length_eq
    obtain ⟨hk, hk'⟩ := List.getElem?_eq_some_iff.mp hd
    have hg := (List.forall₂_iff_get.mp hds).2 k (by omega) hk
    obtain ⟨d0, e0, hdr⟩ := hg
    simp only [List.get_eq_getElem] at e0 hdr
    rw [hk'] at e0
    obtain rfl : d = d0 := by simpa using e0
    have hvalue : valueOf (clusterMembers w j) b!"discriminators" = valueOf (membersOf j) b!"discriminators" := by
      unfold clusterMembers
      simp only [List.cons_append, List.nil_append, valueOf_cons]
      repeat rw [if_neg (by decide)]
    have hvz : valueOf (clusterMembers w j) b!"ignoreZero" = .bool w.opts.ignoreZero := by
      unfold clusterMembers
      simp only [List.cons_append, List.nil_append, valueOf_cons]
      repeat rw [if_neg (by decide)]
      rw [if_pos trivial]
    have hib : ∀ b c : Bool, IsBool (.bool b) c → c = b := by
      intro b c h
      cases h
      rfl
    have hcz : c.ignoreZero = w.opts.ignoreZero := by
      unfold Reads at hz
      rw [hvz] at hz
      rcases hz with ⟨h1, _⟩ | ⟨_, h1⟩
      · cases h1
      · exact hib _ _ h1
    generalize he : (elementsOf (valueOf (clusterMembers w j) b!"discriminators"))[k] = e at hdr
    have hge : (elementsOf (valueOf (membersOf j) b!"discriminators"))[k]? = some e := by
      rw [← hvalue]
      exact List.getElem?_eq_some_iff.mpr ⟨by omega, he⟩
    obtain ⟨hl, hg⟩ := loaded_votes hdr hv
    refine ⟨items, j, e, hobj, hj, hge, hl, fun i r v hr hvi => ?_⟩
    obtain ⟨g1, g2, g3, g4⟩ := hg i r v hr hvi
    have k1 : ∀ k : Str, k ≠ b!"ignoreZero" → k ≠ b!"base" → valueOf (override (override (membersOf e) b!"ignoreZero"
        (.bool c.ignoreZero)) b!"base" (.int c.base)) k = valueOf (membersOf e) k := by
      intro k h1 h2
      unfold override
      rw [valueOf_cons, if_neg h2, valueOf_cons, if_neg h1]
    have k2 : valueOf (override (override (membersOf e) b!"ignoreZero"
        (.bool c.ignoreZero)) b!"base" (.int c.base)) b!"ignoreZero" = .bool c.ignoreZero := by
      unfold override
      rw [valueOf_cons, if_neg (by decide), valueOf_cons, if_pos rfl]
    rw [k1 _ (by decide) (by decide)] at g1
    rw [k2] at g2
    have g2' : r.ignoreZero = w.opts.ignoreZero := (hib _ _ g2).trans hcz
    refine ⟨g1, g2', ?_⟩
    rw [g2'] at g4
    rcases g4 with g4 | ⟨g4, part, h', n, ⟨data, p1, p2⟩, q2, q3, q4⟩
    · exact .inl g4
    · rw [k1 _ (by decide) (by decide)] at p1
      exact .inr ⟨g4, part, h', n, ⟨data, p1, p2⟩, q2, q3, q4⟩

/-! ## Concrete cases -/

section Examples

set_option maxRecDepth 8000

/-- C141: the ClusWisard of C114 (its class `"a"` holds one discriminator with contents 7) learns an image. -/
example : exCRead.threshold = 10 ∧ (∀ k cl c, exCRead.clusters.find k = some cl → cl.cfg = some c → c.threshold ≠ 0) ∧
    (exCRead.train Flt.exact (fun _ => env0) [[1, 0, 0, 1]] [b!"a"]).2 = .ok () ∧
    (discs (exCRead.train Flt.exact (fun _ => env0) [[1, 0, 0, 1]] [b!"a"]).1 b!"a").length = 2 := by
  refine ⟨rfl, ?_, by decide +kernel, by decide +kernel⟩
  intro k cl c hk hc
  simp only [exCRead, SMap.find] at hk
  split at hk
  · cases hk
    cases hc
    decide
  · cases hk

/-- A discriminator with a negative content, from a document written by hand or after `untrain`. -/
def exNeg : Discriminator :=
  { entrySize := 2, count := 0, rams := [{ addresses := [0], ignoreZero := false, base := 2, positions := [(0#64, 1)] },
      { addresses := [1], ignoreZero := false, base := 2, positions := [(0#64, -5)] }] }

/-- C141: nothing is learnt in the full cluster of `exNeg`, and the call succeeds. -/
example : Cluster.train Flt.exact ⟨some ⟨1, 2, 1/2, 10, 1, true, false, 2⟩, [some exNeg]⟩ env0 (.vec [0, 0]) =
    (⟨some ⟨1, 2, 1/2, 10, 1, true, false, 2⟩, [some exNeg]⟩, .ok ()) := by decide +kernel

/-- C141, threshold 0: never trained, the discriminator of an identical image does not reach the required score (which is not a number);
a new discriminator learns it. -/
example : ((Cluster.trainF Flt.exact (.fin (1/2)) ⟨some ⟨1, 2, 1/2, 0, 5, true, false, 2⟩,
      [some { exNeg with rams := exNeg.rams.map (fun r => { r with positions := [(0#64, 3)] }) }]⟩ env0 (.vec [0, 0])).1.getSize) = 2 := by
  decide +kernel

/-- Negative votes do occur for the hypothesis of `C141_something` to matter, and positive ones satisfy it. -/
example : exNeg.classify (.vec [0, 0]) = .ok [1, -5] ∧ exRead.classify (.vec [1, 0, 0, 1]) = .ok [7, 0] := by decide +kernel

end Examples

end Wis
