import Verif.Lemmas.ClusVotes
/-! Helper lemmas: sizes, counts and memory of a ClusWisard. -/

namespace Wis
open Spec

theorem forall₂_mem_left {α β : Type} {R : α → β → Prop} {l : List α} {l' : List β} (h : List.Forall₂ R l l') {a : α}
    (ha : a ∈ l) : ∃ b ∈ l', R a b := by
  induction h with
  | nil => simp at ha
  | cons h1 _ ih =>
    rcases List.mem_cons.mp ha with rfl | ha
    · exact ⟨_, by simp, h1⟩
    · obtain ⟨b, hb, hr⟩ := ih ha
      exact ⟨b, by simp [hb], hr⟩

theorem train_count {d d' : Discriminator} {img : Image} (h : d.train img = (d', .ok ())) :
    d'.getNumberOfTrainings = d.getNumberOfTrainings + 1 := by
  unfold Discriminator.train at h
  split at h
  · cases h
  · split at h
    · cases h
    · rename_i c hc
      simp only [Prod.mk.injEq] at h
      rw [← h.1]
      unfold i32 at hc
      split at hc
      · simp only [Except.ok.injEq] at hc
        exact hc.symm
      · cases hc

theorem isNew_count {c : ClusterCfg} {rnd : Rnd} {d : Discriminator} (h : IsNew c rnd d) : d.getNumberOfTrainings = 0 :=
  (IsNew.fresh h).count

theorem Spec.Learns.counts {f : Flt} {c : ClusterCfg} {rnd : Rnd} {img : Image} {ds ds' : List Discriminator}
    (h : Learns f c rnd img ds ds') : OneMoreTraining ds ds' := by
  have same : ∀ ds : List Discriminator,
      List.Forall₂ (fun d d' => d' = d ∨ d'.getNumberOfTrainings = d.getNumberOfTrainings + 1) ds ds := by
    intro ds
    induction ds with
    | nil => exact .nil
    | cons d ds ih => exact .cons (.inl rfl) ih
  cases h with
  | fitting hs he =>
    refine ⟨ds', [], by simp, he.imp ?_, .inl rfl, .inr ?_⟩
    · rintro a b (⟨_, h⟩ | ⟨_, h⟩)
      · exact .inr (train_count h)
      · exact .inl h
    · obtain ⟨d, hd, hr⟩ := hs
      obtain ⟨i, hi, rfl⟩ := List.getElem_of_mem hd
      have hi' : i < ds'.length := he.length_eq ▸ hi
      have := (List.forall₂_iff_get.mp he).2 i hi hi'
      simp only [List.get_eq_getElem] at this
      rcases this with ⟨_, h⟩ | ⟨h, _⟩
      · exact ⟨i, _, _, List.getElem?_eq_getElem hi, List.getElem?_eq_getElem hi', train_count h⟩
      · exact absurd hr h
  | fresh _ _ hn ht =>
    refine ⟨ds, _, rfl, same ds, .inr ⟨_, rfl, ?_⟩, .inl (by simp)⟩
    rw [train_count ht, isNew_count hn]
    rfl
  | @best pre post d d1 _ _ hsp _ ht =>
    refine ⟨_, [], (List.append_nil _).symm, ?_, .inl rfl, .inr ⟨pre.length, d, d1, ?_, ?_, train_count ht⟩⟩
    · rw [hsp]
      exact List.rel_append (same pre) (.cons (.inr (train_count ht)) (same post))
    · rw [hsp]; simp
    · simp

theorem Spec.Learns.knows {f : Flt} {c : ClusterCfg} {rnd : Rnd} {img : Image} {ds ds' : List Discriminator}
    (h : Learns f c rnd img ds ds') : ∃ d ∈ ds', Knows img d.rams ∧ d.entrySize = img.size := by
  have hk : ∀ {d d' : Discriminator}, d.train img = (d', .ok ()) → Knows img d'.rams ∧ d'.entrySize = img.size := by
    intro d d' ht
    refine ⟨train_knows ht, ?_⟩
    have hle := train_le d img
    rw [ht] at hle
    rw [hle.1]
    unfold Discriminator.train at ht
    split at ht
    · cases ht
    · rename_i hc
      unfold Discriminator.checkEntrySize at hc
      split at hc
      · cases hc
      · rename_i h; exact not_not.mp h
  cases h with
  | fitting hs he =>
    obtain ⟨d, hd, hr⟩ := hs
    obtain ⟨d', hd', hh⟩ := forall₂_mem_left he hd
    rcases hh with ⟨_, h⟩ | ⟨h, _⟩
    · exact ⟨d', hd', hk h⟩
    · exact absurd hr h
  | fresh _ _ hn ht => exact ⟨_, by simp, hk ht⟩
  | best _ _ hsp _ ht => exact ⟨_, by simp, hk ht⟩

theorem fullVote_of {d : Discriminator} {img : Image} (hk : Knows img d.rams) (he : d.entrySize = img.size)
    (hp : Pos1 d.rams) (hz : ∀ r ∈ d.rams, r.ignoreZero = false) : FullVote img d := by
  obtain ⟨vs, h1, h2, h3⟩ := votes_pos d.rams hk hp hz
  refine ⟨vs, ?_, h2, h3⟩
  unfold Discriminator.classify Discriminator.checkEntrySize
  rw [if_neg (by simp [he])]
  exact h1

/-- Some discriminator of class `l` knows the image. -/
def Remembers (l : Str) (img : Image) (w : ClusWisard) : Prop :=
  ∃ c d, w.clusters.find l = some c ∧ some d ∈ c.discriminators ∧ Knows img d.rams ∧ d.entrySize = img.size

theorem cluster_remembers {f : Flt} {c : Cluster} {x : Image} (env : Env) (img : Image) {d : Discriminator}
    (hd : some d ∈ c.discriminators) (hk : Knows x d.rams ∧ d.entrySize = x.size) :
    ∃ d', some d' ∈ (c.train f env img).1.discriminators ∧ Knows x d'.rams ∧ d'.entrySize = x.size := by
  have hkept : ∀ ds' : List (Option Discriminator), List.Forall₂ (Kept img) c.discriminators ds' →
      ∃ d', some d' ∈ ds' ∧ Knows x d'.rams ∧ d'.entrySize = x.size := by
    intro ds' h
    obtain ⟨o, ho, hh⟩ := forall₂_mem_left h hd
    rcases hh with ⟨h, _⟩ | ⟨d1, d2, e1, rfl, e3⟩
    · cases h
    · cases e1
      refine ⟨d2, ho, ?_⟩
      rcases e3 with rfl | rfl
      · exact hk
      · exact ⟨knows_le (train_le d img).2 hk.1, by rw [(train_le d img).1]; exact hk.2⟩
  have hne : c.discriminators.length ≠ 0 := by
    intro h
    rw [List.length_eq_zero_iff] at h
    rw [h] at hd
    simp at hd
  unfold Cluster.train
  rw [if_neg hne]
  split
  · exact ⟨d, hd, hk⟩
  · rename_i cc hcc
    split
    · rename_i ds e hs
      have := scan_kept (f := f) (c := cc) (img := img) c.discriminators 0 0 none false
      rw [hs] at this
      exact hkept ds this
    · rename_i ds b t hs
      have h1 := scan_kept (f := f) (c := cc) (img := img) c.discriminators 0 0 none false
      rw [hs] at h1
      simp only
      split
      · exact hkept ds h1
      · rename_i ht
        have ht : t = false := by simpa using ht
        rw [ht] at hs
        have hu := scan_untrained hs
        subst hu
        split
        · unfold Cluster.trainNew
          split
          · exact ⟨d, hd, hk⟩
          · split
            · exact ⟨d, by simp [hd], hk⟩
            · split
              · exact ⟨d, by simp [hd], hk⟩
              · exact ⟨d, hd, hk⟩
        · split
          · exact ⟨d, hd, hk⟩
          · exact hkept _ (trainAt_kept _ _ _)

theorem Remembers.closed (f : Flt) (L : List Str) (l : Str) (x : Image) : Closed f L (Remembers l x) := by
  have hset : ∀ (w : ClusWisard) (k : Str) (c' : Cluster), (∀ c d, w.clusters.find l = some c → k = l → some d ∈ c.discriminators →
      Knows x d.rams ∧ d.entrySize = x.size → ∃ d', some d' ∈ c'.discriminators ∧ Knows x d'.rams ∧ d'.entrySize = x.size) →
      Remembers l x w → Remembers l x { w with clusters := w.clusters.set k c' } := by
    rintro w k c' h ⟨c, d, hf, hd, hk⟩
    by_cases hkl : k = l
    · obtain ⟨d', h1, h2⟩ := h c d hf hkl hd hk
      subst hkl
      exact ⟨c', d', SMap.find_set_self _ _ _, h1, h2⟩
    · exact ⟨c, d, by simp only [SMap.find_set_ne _ _ (Ne.symm hkl)]; exact hf, hd, hk⟩
  refine ⟨?_, ?_, fun w n h => h, fun w env img h => h, ?_⟩
  · intro w env img k _ h
    rw [ClusWisard.train1_eq]
    refine hset w k _ ?_ h
    rintro c d hf rfl hd hk
    unfold ClusWisard.target
    rw [hf, Option.getD_some]
    exact cluster_remembers env _ hd hk
  · intro w env img k h
    rw [ClusWisard.trainIn_fst]
    refine hset w k _ ?_ h
    rintro c d hf rfl hd hk
    rw [hf, Option.getD_some]
    exact cluster_remembers env _ hd hk
  · intro w k hk h
    refine hset w k _ ?_ h
    rintro c d hf rfl
    rw [hk] at hf
    cases hf

/-- Class `l` has at least `n` discriminators. -/
theorem size_closed (f : Flt) (L : List Str) (l : Str) (n : Nat) : Closed f L (fun w => n ≤ (discs w l).length) := by
  have hset : ∀ (w : ClusWisard) (k : Str) (c' : Cluster), (k = l → (discs w l).length ≤ c'.getSize) →
      n ≤ (discs w l).length → n ≤ (discs { w with clusters := w.clusters.set k c' } l).length := by
    intro w k c' h h0
    by_cases hkl : k = l
    · subst hkl
      unfold discs
      simp only [SMap.find_set_self]
      exact Nat.le_trans h0 (h rfl)
    · unfold discs at h0 ⊢
      simp only [SMap.find_set_ne _ _ (Ne.symm hkl)]
      exact h0
  refine ⟨?_, ?_, fun w n h => h, fun w env img h => h, ?_⟩
  · intro w env img k _ h
    rw [ClusWisard.train1_eq]
    refine hset w k _ ?_ h
    rintro rfl
    unfold ClusWisard.target discs
    cases hf : w.clusters.find k with
    | none => simp
    | some c => exact train_size f c env _
  · intro w env img k h
    rw [ClusWisard.trainIn_fst]
    refine hset w k _ ?_ h
    rintro rfl
    unfold discs
    cases hf : w.clusters.find k with
    | none => simp
    | some c => exact train_size f c env _
  · intro w k hk h
    refine hset w k _ ?_ h
    rintro rfl
    unfold discs
    rw [hk]
    simp

/-- An entry of a successful batch was trained at some point. -/
theorem trainLoop_head_inv {f : Flt} (env : Nat → Env) (es : List (List Int × Str)) {x : List Int} {l : Str}
    (hm : (x, l) ∈ es) {Q : ClusWisard → Prop} {L : List Str} (hQ : Closed f L Q) (hL : ∀ e ∈ es, e.2 ∈ L) :
    ∀ {w w' : ClusWisard} {i : Nat}, Q w → w.trainLoop f env es i = (w', .ok ()) →
      ∃ j w1 w2, Q w1 ∧ w1.train1 f (env j) x l = (w2, .ok ()) ∧
        ∀ P, Closed f L P → P w2 → P w' := by
  induction es with
  | nil => simp at hm
  | cons e es ih =>
    intro w w' i hq h
    obtain ⟨img, k⟩ := e
    simp only [ClusWisard.trainLoop] at h
    split at h
    · rename_i w1 h1
      rcases List.mem_cons.mp hm with he | hm
      · cases he
        refine ⟨i, w, w1, hq, h1, fun P hP h2 => ?_⟩
        have := hP.trainLoop env es (fun e he => hL e (by simp [he])) w1 (i + 1) h2
        rw [h] at this
        exact this
      · have hq1 := hQ.train w (env i) img k (hL (img, k) (by simp)) hq
        rw [h1] at hq1
        exact ih hm (fun e he => hL e (by simp [he])) hq1 h
    · cases h

theorem train_ok_inv {f : Flt} {w w' : ClusWisard} {env : Nat → Env} {images : List (List Int)} {labels : List Str}
    (h : w.train f env images labels = (w', .ok ())) :
    images ≠ [] ∧ images.length = labels.length ∧ w.trainLoop f env (images.zip labels) 0 = (w', .ok ()) := by
  unfold ClusWisard.train at h
  simp only at h
  split at h
  · cases h
  · rename_i hc
    obtain ⟨_, h1, h2⟩ := bind_eq_ok hc
    refine ⟨?_, ?_, h⟩
    · rintro rfl
      unfold ClusWisard.confidenceCheck at h1
      cases h1
    · unfold Wisard.checkInputSizes at h2
      split at h2
      · cases h2
      · rename_i h3; exact_mod_cast not_not.mp h3

theorem train_single {f : Flt} {w w' : ClusWisard} {env : Nat → Env} {img : List Int} {l : Str}
    (h : w.train f env [img] [l] = (w', .ok ())) : w.train1 f (env 0) img l = (w', .ok ()) := by
  have h := (train_ok_inv h).2.2
  simp only [List.zip_cons_cons, List.zip_nil_left, ClusWisard.trainLoop] at h
  split at h
  · rename_i h1
    simp only [Prod.mk.injEq, and_true] at h
    rw [h1, h]
  · cases h

end Wis
