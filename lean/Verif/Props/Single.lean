import Verif.Spec.Single
import Verif.Props.Labels
import Verif.Props.ClusWisard
/-!
# Property C173: a ClusWisard with one discriminator per class is a Wisard

With `discriminatorsLimit` 1, whatever `minScore` and `threshold` are, a ClusWisard gets by the same calls of `train` the
same discriminators as a Wisard, one per class. It returns the same labels and degrees, except that its names `l::0` may
order the classes in another way: "10" comes before "1" there, so ties go to the other class (`C173_digits`).
-/

namespace Wis
open Spec

/-! ## Training -/

theorem votes_of_trainRams {img : Image} (rs : List Ram) {rs' : List Ram} (h : Discriminator.trainRams img rs = (rs', .ok ())) :
    ∃ vs, Discriminator.votes img rs = .ok vs := by
  induction rs generalizing rs' with
  | nil => exact ⟨[], rfl⟩
  | cons r rs ih =>
    simp only [Discriminator.trainRams] at h
    cases hg : r.getIndex img with
    | error e =>
      simp only [Ram.train, hg] at h
      cases h
    | ok i =>
      cases ht : r.train img with
      | mk r' u =>
        rw [ht] at h
        cases u with
        | error e => cases h
        | ok u =>
          cases hr : Discriminator.trainRams img rs with
          | mk rs1 v =>
            rw [hr] at h
            cases h
            obtain ⟨vs, hvs⟩ := ih hr
            have : ∃ v, r.getVote img = .ok v := by
              simp only [Ram.getVote, hg, Except.bind_ok]
              split
              · exact ⟨_, rfl⟩
              · split <;> exact ⟨_, rfl⟩
            obtain ⟨v, hv⟩ := this
            exact ⟨v :: vs, by simp only [Discriminator.votes, hv, hvs, Except.bind_ok]⟩

theorem classify_of_train {d d' : Discriminator} {img : Image} (h : d.train img = (d', .ok ())) : ∃ vs, d.classify img = .ok vs := by
  unfold Discriminator.train at h
  unfold Discriminator.classify
  cases hc : d.checkEntrySize img.size with
  | error e => rw [hc] at h; cases h
  | ok u =>
    rw [hc] at h
    simp only [Except.bind_ok] at h ⊢
    cases hi : i32 (d.count + 1) with
    | error e => rw [hi] at h; cases h
    | ok c =>
      rw [hi] at h
      simp only at h
      cases ht : Discriminator.trainRams img d.rams with
      | mk rs r =>
        rw [ht] at h
        cases h
        exact votes_of_trainRams _ ht

/-- A cluster that may have one discriminator trains it. -/
theorem cluster_train_one {f : Flt} {cfg : ClusterCfg} (hl : cfg.discriminatorsLimit = 1) {d d' : Discriminator} {img : Image}
    (hp : Pos1 d.rams) (h : d.train img = (d', .ok ())) (env : Env) :
    Cluster.train f ⟨some cfg, [some d]⟩ env img = (⟨some cfg, [some d']⟩, .ok ()) := by
  obtain ⟨vs, hv⟩ := classify_of_train h
  have h0 : Cluster.getScore f vs ≥ 0 := by rw [getScore_eq]; exact score_nonneg f vs (votes_nonneg hp hv)
  by_cases hlim : Cluster.getScore f vs ≥ Cluster.limit f cfg d.getNumberOfTrainings
  · simp [Cluster.train, Cluster.scan, hv, h0, hlim, h]
  · simp [Cluster.train, Cluster.scan, hv, h0, hlim, h, hl, Cluster.trainAt]

/-- The two models in lockstep. -/
structure Single (c : ClusWisard) (w : Wisard) : Prop where
  size : c.addressSize = w.addressSize
  opts : SameOptions w.opts c.opts
  limit : c.discriminatorsLimit = 1
  sortedC : SMap.Sorted c.clusters
  sortedW : SMap.Sorted w.discriminators
  pos : ∀ l d, w.discriminators.find l = some d → Pos1 d.rams
  find : ∀ l, c.clusters.find l = (w.discriminators.find l).map (fun d => ⟨some (c.clusterCfg d.entrySize), [some d]⟩)

theorem Single.set {c : ClusWisard} {w : Wisard} (h : Single c w) (l : Str) {d : Discriminator} (hp : Pos1 d.rams) :
    Single { c with clusters := c.clusters.set l ⟨some (c.clusterCfg d.entrySize), [some d]⟩ }
      { w with discriminators := w.discriminators.set l d } where
  size := h.size
  opts := h.opts
  limit := h.limit
  sortedC := SMap.sorted_set h.sortedC _ _
  sortedW := SMap.sorted_set h.sortedW _ _
  pos := by
    intro k e he
    by_cases hk : k = l
    · subst hk; rw [SMap.find_set_self] at he; cases he; exact hp
    · rw [SMap.find_set_ne _ _ hk] at he; exact h.pos k e he
  find := by
    intro k
    by_cases hk : k = l
    · subst hk; rw [SMap.find_set_self, SMap.find_set_self]; rfl
    · rw [SMap.find_set_ne _ _ hk, SMap.find_set_ne _ _ hk]; exact h.find k

theorem Single.train1 {f : Flt} {c : ClusWisard} {w w' : Wisard} (h : Single c w) (env : Env) (img : List Int) (l : Str)
    (ht : w.train1 env (.vec img) l = (w', .ok ())) :
    ∃ c', c.train1 f env img l = (c', .ok ()) ∧ Single c' w' := by
  have hf := h.find l
  unfold Wisard.train1 at ht
  unfold ClusWisard.train1
  cases hd : w.discriminators.find l with
  | some d =>
    rw [hd] at ht hf
    rw [hf]
    simp only [Option.map_some, Wisard.trainKnown, hd, Option.getD_some] at ht hf ⊢
    cases hdt : d.train (.vec img) with
    | mk d' r =>
      rw [hdt] at ht
      cases ht
      have hle := train_le d (.vec img)
      rw [hdt] at hle
      have he : d'.entrySize = d.entrySize := hle.1
      have hp' := train_pos1 d (.vec img) (h.pos l d hd)
      rw [hdt] at hp'
      have := cluster_train_one (f := f) (cfg := c.clusterCfg d.entrySize) h.limit (h.pos l d hd) hdt env
      refine ⟨{ c with clusters := c.clusters.set l ⟨some (c.clusterCfg d.entrySize), [some d']⟩ },
        by simp only [ClusWisard.trainIn, hf, Option.getD_some, this], ?_⟩
      rw [← he]
      exact h.set l hp'
  | none =>
    rw [hd] at ht hf
    rw [hf]
    simp only [Option.map_none, Wisard.makeDiscriminator] at ht ⊢
    cases hn : Wisard.newDiscriminator env.rnd w.addressSize w.opts l (Image.size (.vec img)) with
    | error e =>
      rw [hn] at ht
      simp only at ht
      split at ht
      · rename_i he _ heq
        split at heq <;> cases heq
      · cases ht
    | ok d0 =>
      rw [hn] at ht
      simp only [Wisard.trainKnown, SMap.find_set_self, Option.getD_some, SMap.set_set] at ht
      cases hdt : d0.train (.vec img) with
      | mk d' r =>
        rw [hdt] at ht
        cases ht
        have hn' : Cluster.newDiscriminator env.rnd (c.clusterCfg img.length) = .ok d0 := by
          rw [← hn]
          unfold Wisard.newDiscriminator Cluster.newDiscriminator ClusWisard.clusterCfg
          rw [h.opts.mapping, h.opts.indexes]
          simp only [SMap.find, List.length_nil, ne_eq, not_true_eq_false, if_false, h.size, h.opts.ignoreZero, h.opts.complete, h.opts.base, Image.size]
        obtain ⟨p1, p2, _⟩ := disc_new (newDiscriminator_isNew.mp hn')
        have hle := train_le d0 (.vec img)
        rw [hdt] at hle
        have he : d'.entrySize = img.length := hle.1.trans p2
        have hp' := train_pos1 d0 (.vec img) p1
        rw [hdt] at hp'
        refine ⟨{ c with clusters := c.clusters.set l ⟨some (c.clusterCfg img.length), [some d']⟩ }, by simp only [ClusWisard.trainIn, SMap.find_set_self, Option.getD_some, SMap.set_set, Cluster.train, Cluster.create,
          List.length_nil, if_true, Cluster.trainNew, hn', hdt, List.nil_append], ?_⟩
        rw [show (img.length : Int) = d'.entrySize from he.symm]
        exact h.set l hp'

theorem Single.trainLoop {f : Flt} {env : Nat → Env} (es : List (List Int × Str)) : ∀ {c : ClusWisard} {w w' : Wisard} (i : Nat),
    Single c w → w.trainLoop env (es.map (fun e => (Image.vec e.1, e.2))) i = (w', .ok ()) →
    ∃ c', c.trainLoop f env es i = (c', .ok ()) ∧ Single c' w' := by
  induction es with
  | nil => intro c w w' i h ht; cases ht; exact ⟨c, rfl, h⟩
  | cons e es ih =>
    intro c w w' i h ht
    obtain ⟨img, l⟩ := e
    simp only [List.map_cons, Wisard.trainLoop] at ht
    cases h1 : w.train1 (env i) (.vec img) l with
    | mk w1 r =>
      rw [h1] at ht
      cases r with
      | error e => cases ht
      | ok u =>
        obtain ⟨c1, a1, a2⟩ := h.train1 (f := f) (env i) img l h1
        obtain ⟨c', b1, b2⟩ := ih (i + 1) a2 ht
        exact ⟨c', by simp only [ClusWisard.trainLoop, a1]; exact b1, b2⟩

theorem Single.train {f : Flt} {c : ClusWisard} {w w' : Wisard} (h : Single c w) (env : Nat → Env) (images : List (List Int))
    (labels : List Str) (ht : w.train env images labels = (w', .ok ())) :
    ∃ c', c.train f env images labels = (c', .ok ()) ∧ Single c' w' := by
  unfold Wisard.train at ht
  cases hc : w.trainChecks images labels with
  | error e => rw [hc] at ht; cases ht
  | ok u =>
    rw [hc] at ht
    simp only at ht
    have hc' : (do c.confidenceCheck images; Wisard.checkInputSizes images.length labels.length : Res Unit) = .ok () := by
      rw [← hc]
      unfold Wisard.trainChecks ClusWisard.confidenceCheck ClusWisard.checkConfidence Wisard.checkConfidence
      rw [h.size, h.opts.complete, h.opts.confidence]
      cases images with
      | nil => rfl
      | cons i is =>
        simp only [Except.bind_ok]
        cases calculateNumberOfRams i.length w.addressSize w.opts.completeAddressing with
        | error e => rfl
        | ok n => rfl
    have hz : (images.map Image.vec).zip labels = (images.zip labels).map (fun e => (Image.vec e.1, e.2)) := by
      rw [List.zip_map_left]; rfl
    rw [hz] at ht
    obtain ⟨c', a1, a2⟩ := Single.trainLoop (f := f) (env := env) (images.zip labels) 0 h ht
    exact ⟨c', by simp only [ClusWisard.train, hc']; exact a1, a2⟩

theorem Single.trainAll {f : Flt} (ts : List TrainCall) : ∀ {c : ClusWisard} {w w' : Wisard}, Single c w →
    wTrainAll w ts = (w', .ok ()) → ∃ c', cTrainAll f c ts = (c', .ok ()) ∧ Single c' w' := by
  induction ts with
  | nil => intro c w w' h ht; cases ht; exact ⟨c, rfl, h⟩
  | cons t ts ih =>
    intro c w w' h ht
    simp only [wTrainAll] at ht
    cases h1 : w.train t.env t.images t.labels with
    | mk w1 r =>
      rw [h1] at ht
      cases r with
      | error e => cases ht
      | ok u =>
        obtain ⟨c1, a1, a2⟩ := h.train (f := f) t.env t.images t.labels h1
        obtain ⟨c', b1, b2⟩ := ih a2 ht
        exact ⟨c', by simp only [cTrainAll, a1]; exact b1, b2⟩

theorem Single.new {A : Int} {m : Rat} {t : Int} {p : ClusOpts} {o : WisardOpts} (ho : SameOptions o p) {c0 : ClusWisard}
    (hc : ClusWisard.create A m t 1 p = .ok c0) : Single c0 (Wisard.create A o) := by
  unfold ClusWisard.create at hc
  obtain ⟨_, _, hc⟩ := bind_eq_ok hc
  cases hc
  exact ⟨rfl, ho, rfl, List.Pairwise.nil, List.Pairwise.nil, (by intro l d h; cases h), fun l => rfl⟩

/-! ## Votes -/

/-- What the loops over the clusters make of a vote table of the Wisard. -/
def named (vs : Votes) (m : Votes) : Votes := vs.foldl (fun m e => m.set (firstName e.1) e.2) m

theorem firstName_eq (l : Str) : firstName l = dname l 0 := by
  unfold firstName dname
  rw [List.append_assoc]
  rfl

theorem firstName_inj (a b : Str) (h : firstName a = firstName b) : a = b := by
  rw [firstName_eq, firstName_eq] at h
  exact (dname_inj h).1

theorem named_find (vs : Votes) (hs : SMap.Sorted vs) : ∀ (m : Votes) (l : Str),
    (named vs m).find (firstName l) = (vs.find l).orElse (fun _ => m.find (firstName l)) := by
  induction vs with
  | nil => intro m l; rfl
  | cons e vs ih =>
    intro m l
    obtain ⟨k, v⟩ := e
    have hs' : SMap.Sorted vs := (List.pairwise_cons.mp hs).2
    have := ih hs' (m.set (firstName k) v) l
    simp only [named, List.foldl_cons] at this ⊢
    rw [this]
    simp only [SMap.find]
    by_cases h : k = l
    · subst h
      rw [if_pos rfl]
      have hn : SMap.find vs k = none := by
        rw [SMap.find_none_iff]
        intro hk
        obtain ⟨e, he, rfl⟩ := List.mem_map.mp hk
        have := (List.pairwise_cons.mp hs).1 e he
        exact absurd rfl (Str.lt_ne this)
      rw [hn]
      simp [SMap.find_set_self]
    · rw [if_neg h, SMap.find_set_ne _ _ (fun e => h (firstName_inj _ _ e).symm)]

theorem named_sorted (vs : Votes) : ∀ (m : Votes), SMap.Sorted m → SMap.Sorted (named vs m) := by
  induction vs with
  | nil => intro m h; exact h
  | cons e vs ih => intro m h; exact ih _ (SMap.sorted_set h _ _)

theorem named_keys (vs : Votes) : ∀ (m : Votes) (k : Str), k ∈ SMap.keys (named vs m) → k ∈ SMap.keys m ∨ ∃ l, k = firstName l := by
  induction vs with
  | nil => intro m k h; exact .inl h
  | cons e vs ih =>
    intro m k h
    rcases ih _ k h with h1 | h1
    · rcases SMap.keys_set.mp h1 with h2 | h2
      · exact .inr ⟨_, h2⟩
      · exact .inl h2
    · exact .inr h1

theorem allvotes_named {img : List Int} (ds : SMap Discriminator) (g : Discriminator → Option ClusterCfg) : ∀ (m : Votes),
    ClusWisard.allvotes img (ds.map (fun e => (e.1, ⟨g e.2, [some e.2]⟩))) m = (Wisard.allvotes (.vec img) ds).map (fun vs => named vs m) := by
  induction ds with
  | nil => intro m; rfl
  | cons e ds ih =>
    intro m
    obtain ⟨l, d⟩ := e
    simp only [List.map_cons, ClusWisard.allvotes, Wisard.allvotes, Cluster.classify, Cluster.classifyLoop]
    cases d.classify (.vec img) with
    | error e => rfl
    | ok v =>
      simp only [Except.bind_ok, ClusWisard.addVotes]
      rw [ih]
      cases Wisard.allvotes (.vec img) ds with
      | error e => rfl
      | ok vs =>
        simp only [Except.map, Except.bind_ok, named, List.foldl_cons]
        rw [show l ++ b!"::" ++ natStr 0 = firstName l from (firstName_eq l).symm]

theorem Single.clusters_eq {c : ClusWisard} {w : Wisard} (h : Single c w) :
    c.clusters = w.discriminators.map (fun e => (e.1, ⟨some (c.clusterCfg e.2.entrySize), [some e.2]⟩)) := by
  refine SMap.ext h.sortedC (SMap.sorted_map h.sortedW _) ?_
  intro k
  rw [h.find, SMap.find_map w.discriminators (fun d => (⟨some (c.clusterCfg d.entrySize), [some d]⟩ : Cluster)) k]

theorem Single.allvotes {c : ClusWisard} {w : Wisard} (h : Single c w) (img : List Int) :
    ClusWisard.allvotes img c.clusters [] = (Wisard.allvotes (.vec img) w.discriminators).map (fun vs => named vs []) := by
  rw [h.clusters_eq]
  exact allvotes_named w.discriminators (fun d => some (c.clusterCfg d.entrySize)) []

theorem renamed_named {vs : Votes} (hs : SMap.Sorted vs) : RenamedMap firstName vs (named vs []) where
  sorted := hs
  sorted' := named_sorted vs [] List.Pairwise.nil
  find := by
    intro l
    rw [named_find vs hs]
    cases SMap.find vs l <;> rfl
  keys := by
    intro k hk
    rcases named_keys vs [] k hk with h | h
    · cases h
    · exact h

theorem suffix_lt (a : Str) : ∀ (b : Str), Str.lt a b = true → (∀ (c : Byte) (r : Str), b = a ++ c :: r → 58 < c.toNat) →
    Str.lt (firstName a) (firstName b) = true := by
  induction a with
  | nil =>
    intro b h hp
    cases b with
    | nil => cases h
    | cons c r =>
      have := hp c r rfl
      simp only [firstName, List.nil_append, List.cons_append]
      show Str.lt (c!":" :: _) (c :: _) = true
      simp only [Str.lt, Bool.or_eq_true, decide_eq_true_eq]
      exact .inl this
  | cons x s ih =>
    intro b h hp
    cases b with
    | nil => cases h
    | cons y t =>
      simp only [Str.lt, Bool.or_eq_true, Bool.and_eq_true, decide_eq_true_eq, beq_iff_eq] at h
      simp only [firstName, List.cons_append, Str.lt, Bool.or_eq_true, Bool.and_eq_true, decide_eq_true_eq, beq_iff_eq]
      rcases h with h | ⟨rfl, h⟩
      · exact .inl h
      · exact .inr ⟨rfl, ih t h (fun c r e => hp c r (by rw [e]; rfl))⟩

theorem named_eq {vs : Votes} (hs : SMap.Sorted vs) (ho : OrderSafe (SMap.keys vs)) : named vs [] = renameMap firstName vs := by
  have hsr : SMap.Sorted (renameMap firstName vs) := by
    unfold SMap.Sorted renameMap
    rw [List.pairwise_map]
    refine List.Pairwise.imp_of_mem ?_ hs
    intro a b ha hb h
    exact suffix_lt _ _ h (fun c r e => ho _ (List.mem_map.mpr ⟨a, ha, rfl⟩) _ (List.mem_map.mpr ⟨b, hb, rfl⟩) c r e)
  refine SMap.ext (named_sorted vs [] List.Pairwise.nil) hsr ?_
  intro k
  by_cases hk : ∃ l, k = firstName l
  · obtain ⟨l, rfl⟩ := hk
    rw [(renamed_named hs).find, find_rename firstName_inj]
  · have h1 : SMap.find (named vs []) k = none := by
      rw [SMap.find_none_iff]
      intro h
      exact hk ((renamed_named hs).keys k h)
    have h2 : SMap.find (renameMap firstName vs) k = none := by
      rw [SMap.find_none_iff]
      intro h
      obtain ⟨e, he, rfl⟩ := List.mem_map.mp h
      obtain ⟨e', _, rfl⟩ := List.mem_map.mp he
      exact hk ⟨_, rfl⟩
    rw [h1, h2]

/-! ## Results -/

theorem pyOutput_named {o : WisardOpts} {p : ClusOpts} (ho : SameOptions o p) (N : Int) (s : Scores)
    (h0 : ∀ e ∈ s, 0 ≤ e.2) (hsafe : ∀ k ∈ SMap.keys s, SafeLabel k) :
    ClusWisard.pyOutput p N (renameMap firstName s) = PyOut.setClassifyOutput o (Bleaching.getBiggestCandidate s) N s := by
  by_cases hs : s = []
  · subst hs
    unfold ClusWisard.pyOutput PyOut.setClassifyOutput
    rw [ho.ret1, ho.ret2, ho.ret3]
    cases o.returnActivationDegree <;> cases o.returnConfidence <;> cases o.returnClassesDegrees <;> rfl
  · have hb : Bleaching.getBiggestCandidate (renameMap firstName s) = firstName (Bleaching.getBiggestCandidate s) :=
      biggest_rename firstName s hs h0
    have hin : Bleaching.getBiggestCandidate s ∈ SMap.keys s := by
      obtain ⟨pre, x, post, h1, _, _, h4⟩ := Bleaching.biggest_spec hs h0
      rw [h4, h1]
      simp [SMap.keys]
    have hbs : ∀ l ∈ SMap.keys s, beforeSep (firstName l) = l := by
      intro l hl
      have := beforeSep_safe (hsafe l hl) b!"0"
      rw [List.append_assoc] at this
      exact this
    obtain ⟨v, hv⟩ : ∃ v, SMap.find s (Bleaching.getBiggestCandidate s) = some v := by
      cases hf : SMap.find s (Bleaching.getBiggestCandidate s) with
      | none => rw [SMap.find_none_iff] at hf; exact absurd hin hf
      | some v => exact ⟨v, rfl⟩
    have hv' : SMap.find (renameMap firstName s) (firstName (Bleaching.getBiggestCandidate s)) = some v := by
      rw [find_rename firstName_inj]; exact hv
    have hsec : ∀ (b : Int) (s : Scores) (x : Int), Bleaching.secondLoop b (renameMap firstName s) x = Bleaching.secondLoop b s x := by
      intro b s
      induction s with
      | nil => intro x; rfl
      | cons e s ih => intro x; simp only [renameMap, List.map_cons, Bleaching.secondLoop] at ih ⊢; simp only [ih]
    have hdeg : ClusWisard.getClassesDegrees (renameMap firstName s) = PyOut.getClassesDegrees s := by
      unfold ClusWisard.getClassesDegrees PyOut.getClassesDegrees renameMap
      simp only [List.foldl_map, List.map_map]
      apply List.map_congr_left
      intro e he
      simp only [Function.comp, hbs e.1 (List.mem_map.mpr ⟨e, he, rfl⟩)]
    unfold ClusWisard.pyOutput PyOut.setClassifyOutput
    simp only [ho.ret1, ho.ret2, ho.ret3, hb, hbs _ hin, PyOut.touch, hv, hv', Bleaching.getConfidence]
    cases o.returnActivationDegree <;> cases o.returnConfidence <;> simp [hv, hv', hdeg, hsec]

/-- A Wisard with its twin of clusters: the scores are those of the Wisard, under the names `l::0`, if the names keep the order. -/
theorem Single.classify1 {c : ClusWisard} {w : Wisard} (h : Single c w) (hord : OrderSafe w.discriminators.keys) (img : List Int) (sbc : Bool) :
    c.classify1 img sbc = (w.classify1 (.vec img)).map (renameMap firstName) := by
  unfold ClusWisard.classify1 Wisard.classify1
  rw [h.allvotes, h.opts.bleaching, h.opts.confidence]
  cases hv : Wisard.allvotes (.vec img) w.discriminators with
  | error e => rfl
  | ok vs =>
    obtain ⟨hk, _⟩ := allvotes_ok hv
    have hs : SMap.Sorted vs := sorted_of_keys h.sortedW hk
    simp only [Except.map, Except.bind_ok]
    rw [named_eq hs (by rw [hk]; exact hord), make_rename]
    have : ∀ sbc, Bleaching.make vs w.opts.bleachingActivated sbc w.opts.confidence =
        Bleaching.make vs w.opts.bleachingActivated w.opts.searchBestConfidence w.opts.confidence := by
      have h2 : ∀ sbc, Bleaching.make vs w.opts.bleachingActivated sbc w.opts.confidence =
          Bleaching.make vs w.opts.bleachingActivated false w.opts.confidence := by
        intro sbc
        cases sbc <;> unfold Bleaching.make Bleaching.makeWithConfidence Bleaching.makeConfidenceless <;> simp
      intro sbc
      rw [h2, ← h2 w.opts.searchBestConfidence]
    rw [this]
    rfl

theorem firstName_safe {l : Str} (h : SafeLabel l) : beforeSep (firstName l) = l := by
  have := beforeSep_safe h b!"0"
  rw [List.append_assoc] at this
  exact this

/-- C173, training: a Wisard and a ClusWisard with `discriminatorsLimit` 1, both new and with options that say the same, get the
same calls of `train`. If they succeed on the Wisard, they succeed on the ClusWisard, which then has the same classes, each with
one discriminator: that of the Wisard. For any `minScore` and `threshold`. -/
theorem C173_training (f : Flt) {A : Int} {m : Rat} {t : Int} {p : ClusOpts} {o : WisardOpts} (ho : SameOptions o p) {c0 : ClusWisard}
    (hc : ClusWisard.create A m t 1 p = .ok c0) {ts : List TrainCall} {w : Wisard}
    (hw : wTrainAll (Wisard.create A o) ts = (w, .ok ())) :
    ∃ c, cTrainAll f c0 ts = (c, .ok ()) ∧ c.clusters.keys = w.discriminators.keys ∧
      ∀ l d, w.discriminators.find l = some d → ∃ cl, c.clusters.find l = some cl ∧ cl.discriminators = [some d] := by
  obtain ⟨c, h1, h2⟩ := (Single.new ho hc).trainAll (f := f) ts hw
  refine ⟨c, h1, ?_, ?_⟩
  · rw [h2.clusters_eq]
    simp [SMap.keys, List.map_map, Function.comp_def]
  · intro l d hd
    rw [h2.find, hd]
    exact ⟨_, rfl, rfl⟩

/-- C173, results: if the labels contain no "::", do not end in ':' and are ordered alike (`OrderSafe`), both models return the same
labels, the same results of Python's `classify` with whatever degrees were asked for (also the same failures), and the same mental
images, and the scores of the ClusWisard are those of the Wisard under the names `l::0`. -/
theorem C173_results (f : Flt) {A : Int} {m : Rat} {t : Int} {p : ClusOpts} {o : WisardOpts} (ho : SameOptions o p) {c0 c : ClusWisard}
    (hc : ClusWisard.create A m t 1 p = .ok c0) {ts : List TrainCall} {w : Wisard}
    (hw : wTrainAll (Wisard.create A o) ts = (w, .ok ())) (hcr : cTrainAll f c0 ts = (c, .ok ()))
    (hsafe : ∀ l ∈ w.discriminators.keys, SafeLabel l) (hord : OrderSafe w.discriminators.keys) :
    (∀ img sbc, c.classify1 img sbc = (w.classify1 (.vec img)).map (renameMap firstName)) ∧
    (∀ xs, c.classify xs = w.classify (xs.map .vec)) ∧
    (∀ xs, c.pyClassify xs = PyOut.pyClassify w (xs.map .vec)) ∧
    ∀ it, c.getMentalImages it = (w.getMentalImages it).map (List.map (fun e => (e.1, [e.2]))) := by
  obtain ⟨c', h1, h2⟩ := (Single.new ho hc).trainAll (f := f) ts hw
  rw [hcr] at h1
  cases h1
  refine ⟨h2.classify1 hord, ?_, ?_, ?_⟩
  · intro xs
    induction xs with
    | nil => rfl
    | cons x xs ih =>
      simp only [ClusWisard.classify, List.map_cons, Wisard.classify, h2.classify1 hord, ih]
      cases hs : w.classify1 (.vec x) with
      | error e => rfl
      | ok s =>
        obtain ⟨k1, k2⟩ := classify1_shape hs
        simp only [Except.map, Except.bind_ok]
        have hb : beforeSep (Bleaching.getBiggestCandidate (renameMap firstName s)) = Bleaching.getBiggestCandidate s := by
          by_cases he : s = []
          · subst he; rfl
          · rw [biggest_rename firstName s he k2]
            apply firstName_safe
            apply hsafe
            rw [← k1]
            obtain ⟨pre, x, post, h1, _, _, h4⟩ := Bleaching.biggest_spec he k2
            rw [h4, h1]
            simp [SMap.keys]
        rw [hb]
  · intro xs
    have hl : ∀ (N : Int) (ys : List (List Int)), c.pyLoop N ys = PyOut.loop w N (ys.map .vec) := by
      intro N ys
      induction ys with
      | nil => rfl
      | cons x xs ih =>
        simp only [ClusWisard.pyLoop, List.map_cons, PyOut.loop, h2.classify1 hord, ih]
        cases hs : w.classify1 (.vec x) with
        | error e => rfl
        | ok s =>
          obtain ⟨k1, k2⟩ := classify1_shape hs
          simp only [Except.map, Except.bind_ok]
          rw [pyOutput_named h2.opts N s k2 (by rw [k1]; exact hsafe)]
    cases xs with
    | nil => rfl
    | cons x xs =>
      simp only [ClusWisard.pyClassify, List.map_cons, PyOut.pyClassify, h2.size, h2.opts.complete]
      rw [← List.map_cons (f := Image.vec)]
      simp only [hl]
      rfl
  · intro it
    unfold ClusWisard.getMentalImages Wisard.getMentalImages
    rw [h2.clusters_eq]
    generalize w.discriminators = ds
    induction ds with
    | nil => rfl
    | cons e ds ih =>
      obtain ⟨l, d⟩ := e
      simp only [List.map_cons, ClusWisard.mentalImagesLoop, Wisard.mentalImagesLoop, Cluster.getMentalImages, Cluster.mentalLoop]
      cases d.getMentalImage it with
      | error e => rfl
      | ok v =>
        simp only [Except.bind_ok, ih]
        cases Wisard.mentalImagesLoop it ds with
        | error e => rfl
        | ok vs => rfl

theorem wTrainAll_opts (ts : List TrainCall) : ∀ (w : Wisard), (wTrainAll w ts).1.opts = w.opts := by
  have h1 : ∀ (env : Nat → Env) (es : List (Image × Str)) (w : Wisard) (i : Nat), (w.trainLoop env es i).1.opts = w.opts := by
    intro env es
    induction es with
    | nil => intro w i; rfl
    | cons e es ih =>
      intro w i
      obtain ⟨img, l⟩ := e
      have hk : (w.train1 (env i) img l).1.opts = w.opts := (wstep_other w (.train (env i) img l)).2.1
      simp only [Wisard.trainLoop]
      cases ht : w.train1 (env i) img l with
      | mk w' r =>
        rw [ht] at hk
        cases r with
        | error e => exact hk
        | ok u => exact (ih w' (i + 1)).trans hk
  have h2 : ∀ (env : Nat → Env) (is : List (List Int)) (ls : List Str) (w : Wisard), (w.train env is ls).1.opts = w.opts := by
    intro env is ls w
    unfold Wisard.train
    cases w.trainChecks is ls with
    | error e => rfl
    | ok u => exact h1 env _ w 0
  induction ts with
  | nil => intro w; rfl
  | cons t ts ih =>
    intro w
    have hk := h2 t.env t.images t.labels w
    simp only [wTrainAll]
    cases ht : w.train t.env t.images t.labels with
    | mk w' r =>
      rw [ht] at hk
      cases r with
      | error e => exact hk
      | ok u => exact (ih w').trans hk

/-- C173 for any labels: without bleaching or with a confidence of at most 1 the scores are the same whatever the labels are, and a
class that alone has the greatest score is the answer of both models (if its label contains no "::" and does not end in ':'). -/
theorem C173_scores (f : Flt) {A : Int} {m : Rat} {t : Int} {p : ClusOpts} {o : WisardOpts} (ho : SameOptions o p) {c0 c : ClusWisard}
    (hc : ClusWisard.create A m t 1 p = .ok c0) {ts : List TrainCall} {w : Wisard}
    (hw : wTrainAll (Wisard.create A o) ts = (w, .ok ())) (hcr : cTrainAll f c0 ts = (c, .ok ()))
    (hcf : o.bleachingActivated = false ∨ o.confidence ≤ 1) {img : List Int} {s : Scores} (hs : w.classify1 (.vec img) = .ok s) :
    ∃ s', c.classify1 img c.opts.searchBestConfidence = .ok s' ∧ (∀ l, s'.find (firstName l) = s.find l) ∧
      (∀ k ∈ s'.keys, ∃ l ∈ s.keys, k = firstName l) ∧
      ∀ e ∈ s, (∀ e' ∈ s, e'.1 ≠ e.1 → e'.2 < e.2) → SafeLabel e.1 →
        w.classify [.vec img] = .ok [e.1] ∧ c.classify [img] = .ok [e.1] := by
  obtain ⟨c', h1, h2⟩ := (Single.new ho hc).trainAll (f := f) ts hw
  rw [hcr] at h1
  cases h1
  have hopt : w.opts = o := by
    have := wTrainAll_opts ts (Wisard.create A o)
    rw [hw] at this
    exact this
  unfold Wisard.classify1 at hs
  obtain ⟨vs, hv, hm⟩ := bind_eq_ok hs
  obtain ⟨hk, _⟩ := allvotes_ok hv
  obtain ⟨s', h3, h4⟩ := make_renamed firstName_inj (renamed_named (sorted_of_keys h2.sortedW hk))
    (bl := w.opts.bleachingActivated) (c := w.opts.confidence) (by rw [hopt]; exact hcf)
    c.opts.searchBestConfidence (by rw [h2.opts.search]; exact hm)
  have hs' : c.classify1 img c.opts.searchBestConfidence = .ok s' := by
    unfold ClusWisard.classify1
    rw [h2.allvotes, hv, h2.opts.bleaching, h2.opts.confidence]
    exact h3
  have hnn : ∀ {votes : Votes} {bl sbc : Bool} {k : Int} {s : Scores}, Bleaching.make votes bl sbc k = .ok s → ∀ e ∈ s, 0 ≤ e.2 := by
    intro votes bl sbc k s h
    obtain ⟨b, _, h5, _⟩ := C38_scores_at_least_threshold _ _ _ _ _ h
    rw [h5]
    exact Bleaching.activeAll_nonneg b votes
  have hn := hnn hm
  have hn' := hnn h3
  refine ⟨s', hs', h4.find, ?_, ?_⟩
  · intro k hk
    obtain ⟨e, he, rfl⟩ := List.mem_map.mp hk
    obtain ⟨l, h5, h6⟩ := h4.mem he
    exact ⟨l, List.mem_map.mpr ⟨_, h6, rfl⟩, h5⟩
  · intro e he hwin hsf
    have he' := h4.mem'.mpr (show (e.1, e.2) ∈ s from he)
    constructor
    · obtain ⟨p, p1, p2, p3, _⟩ := C39_winner s h4.sorted (List.ne_nil_of_mem he) hn
      have : e.1 = p.1 := Classical.byContradiction fun hne => by
        have := hwin p p1 (Ne.symm hne); have := p3 e he; omega
      have hs2 : w.classify1 (.vec img) = .ok s := hs
      simp only [Wisard.classify, hs2, Except.bind_ok, p2, this]
    · obtain ⟨p, p1, p2, p3, _⟩ := C39_winner s' h4.sorted' (List.ne_nil_of_mem he') hn'
      obtain ⟨l, q1, q2⟩ := h4.mem p1
      have : l = e.1 := Classical.byContradiction fun hne => by
        have := hwin _ q2 hne
        have := p3 _ he'
        simp only at *
        omega
      simp only [ClusWisard.classify, hs', Except.bind_ok, p2, q1, this, firstName_safe hsf]

/-! ## Digits -/

theorem safe_of_noColon {l : Str} (h : c!":" ∉ l) : SafeLabel l := by
  refine ⟨?_, ?_⟩
  · rintro ⟨a, b, rfl⟩
    exact h (by rw [sep_eq]; simp)
  · rintro ⟨a, rfl⟩
    exact h (by simp)

/-- The ClusWisard of the examples: address size 3, one discriminator per class, no bleaching. -/
def oneC : ClusWisard := ⟨3, 1/2, 10, 1, { bleachingActivated := false }, [], Cluster.default⟩

/-- Two classes named "1" and "10", trained with the same image. -/
def digitCalls : List TrainCall :=
  [⟨fun _ => ⟨Rnd.id, true⟩, [[1, 1, 0], [1, 1, 0]], [b!"1", b!"10"]⟩]

/-- C173 is false for labels like "1" and "10": a tie goes to "10" in a Wisard, to "1" in a ClusWisard, where "10::0" comes
before "1::0". -/
theorem C173_digits (f : Flt) : ∃ c0 c w, ClusWisard.create 3 (1/2) 10 1 { bleachingActivated := false } = .ok c0 ∧
    SameOptions { bleachingActivated := false } c0.opts ∧
    wTrainAll (Wisard.create 3 { bleachingActivated := false }) digitCalls = (w, .ok ()) ∧
    cTrainAll f c0 digitCalls = (c, .ok ()) ∧ (∀ l ∈ w.discriminators.keys, SafeLabel l) ∧
    w.classify [.vec [1, 1, 0]] = .ok [b!"10"] ∧ c.classify [[1, 1, 0]] = .ok [b!"1"] := by
  refine ⟨oneC, (cTrainAll Flt.exact oneC digitCalls).1, (wTrainAll (Wisard.create 3 { bleachingActivated := false }) digitCalls).1,
    by decide +kernel, ⟨rfl, rfl, rfl, rfl, rfl, rfl, rfl, rfl, rfl, rfl, rfl⟩, by decide +kernel, ?_, ?_, by decide +kernel, by decide +kernel⟩
  · rfl
  · intro l hl
    have : (wTrainAll (Wisard.create 3 { bleachingActivated := false }) digitCalls).1.discriminators.keys = [b!"1", b!"10"] := by
      decide +kernel
    rw [this] at hl
    apply safe_of_noColon
    rcases List.mem_cons.mp hl with rfl | hl
    · decide
    · cases List.mem_singleton.mp hl
      decide

/-! ## The hypotheses are met -/

/-- Two calls with the labels "a", "ab" and "b", one of the images trained twice. -/
def letterCalls : List TrainCall :=
  [⟨fun _ => ⟨Rnd.id, true⟩, [[1, 1, 0], [0, 1, 0], [1, 1, 0]], [b!"a", b!"ab", b!"b"]⟩,
   ⟨fun _ => ⟨Rnd.id, true⟩, [[0, 0, 1], [1, 1, 0]], [b!"a", b!"a"]⟩]

example : ∃ w, wTrainAll (Wisard.create 3 { bleachingActivated := false }) letterCalls = (w, .ok ()) ∧
    ClusWisard.create 3 (1/2) 10 1 { bleachingActivated := false } = .ok oneC ∧
    SameOptions { bleachingActivated := false } oneC.opts ∧ w.discriminators.keys = [b!"a", b!"ab", b!"b"] ∧
    (∀ l ∈ w.discriminators.keys, SafeLabel l) ∧ OrderSafe w.discriminators.keys ∧ w.classify [.vec [0, 0, 1]] = .ok [b!"a"] := by
  have hk : (wTrainAll (Wisard.create 3 { bleachingActivated := false }) letterCalls).1.discriminators.keys = [b!"a", b!"ab", b!"b"] := by
    decide +kernel
  refine ⟨(wTrainAll (Wisard.create 3 { bleachingActivated := false }) letterCalls).1, by decide +kernel, by decide +kernel,
    ⟨rfl, rfl, rfl, rfl, rfl, rfl, rfl, rfl, rfl, rfl, rfl⟩, hk, ?_, ?_, by decide +kernel⟩
  · rw [hk]
    intro l hl
    apply safe_of_noColon
    simp only [List.mem_cons, List.not_mem_nil, or_false] at hl
    rcases hl with rfl | rfl | rfl <;> decide
  · rw [hk]
    intro a ha b hb c r h
    simp only [List.mem_cons, List.not_mem_nil, or_false] at ha hb
    rcases ha with rfl | rfl | rfl <;> rcases hb with rfl | rfl | rfl <;>
      first
      | (have := congrArg List.length h; simp at this; done)
      | (simp at h; obtain ⟨rfl, _⟩ := h; decide)
      | (simp at h)

end Wis
