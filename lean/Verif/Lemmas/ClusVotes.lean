import Verif.Lemmas.ClusWisard
/-! Helper lemmas: what ClusWisard's `classify` returns. -/

namespace Wis
open Spec

/-- Name of the discriminator `j` of class `l` in a vote table. -/
def dname (l : Str) (j : Nat) : Str := l ++ b!"::" ++ natStr j

theorem addVotes_find (l : Str) (vs : List (List Int)) : ∀ (j : Nat) (m : Votes) (k : Str),
    (ClusWisard.addVotes l vs j m).find k =
      if ∃ i, i < vs.length ∧ k = dname l (j + i) then
        (ClusWisard.addVotes l vs j m).find k else m.find k := by
  induction vs with
  | nil => intro j m k; simp [ClusWisard.addVotes]
  | cons v vs ih =>
    intro j m k
    split
    · rfl
    · rename_i hk
      simp only [ClusWisard.addVotes]
      rw [ih, if_neg, SMap.find_set_ne]
      · rintro rfl
        exact hk ⟨0, by simp, rfl⟩
      · rintro ⟨i, hi, rfl⟩
        exact hk ⟨i + 1, by simpa using hi, by congr 1; omega⟩

theorem addVotes_get (l : Str) (vs : List (List Int)) : ∀ (j : Nat) (m : Votes) (i : Nat) (h : i < vs.length),
    (ClusWisard.addVotes l vs j m).find (dname l (j + i)) = some vs[i] := by
  induction vs with
  | nil => intro j m i h; simp at h
  | cons v vs ih =>
    intro j m i h
    simp only [ClusWisard.addVotes]
    cases i with
    | zero =>
      rw [addVotes_find, if_neg]
      · rw [Nat.add_zero]
        exact SMap.find_set_self _ _ _
      · rintro ⟨i, _, e⟩
        have := (dname_inj e).2
        omega
    | succ i =>
      have := ih (j + 1) (m.set (l ++ b!"::" ++ natStr j) v) i (by simpa using h)
      rw [show j + (i + 1) = j + 1 + i by omega]
      exact this

theorem addVotes_sorted (l : Str) (vs : List (List Int)) : ∀ (j : Nat) (m : Votes), SMap.Sorted m →
    SMap.Sorted (ClusWisard.addVotes l vs j m) := by
  induction vs with
  | nil => intro j m h; exact h
  | cons v vs ih => intro j m h; exact ih _ _ (SMap.sorted_set h _ _)

/-- The votes under a name. -/
def VotesOf (img : Image) (cs : SMap Cluster) (k : Str) (v : List Int) : Prop :=
  ∃ l c j vs, (l, c) ∈ cs ∧ c.classify img = .ok vs ∧ k = dname l j ∧ vs[j]? = some v

theorem allvotes_spec {img : List Int} (cs : SMap Cluster) : ∀ {m m' : Votes}, SMap.Sorted m → cs.keys.Nodup →
    ClusWisard.allvotes img cs m = .ok m' → SMap.Sorted m' ∧ (∀ e ∈ cs, ∃ vs, e.2.classify (.vec img) = .ok vs) ∧
    ∀ k v, m'.find k = some v ↔ VotesOf (.vec img) cs k v ∨ ((∀ v', ¬ VotesOf (.vec img) cs k v') ∧ m.find k = some v) := by
  induction cs with
  | nil =>
    intro m m' hm _ h
    simp only [ClusWisard.allvotes, Except.ok.injEq] at h
    subst h
    refine ⟨hm, by simp, ?_⟩
    intro k v
    simp [VotesOf]
  | cons e cs ih =>
    intro m m' hm hn h
    obtain ⟨l, c⟩ := e
    simp only [SMap.keys, List.map_cons, List.nodup_cons] at hn
    obtain ⟨hl, hn⟩ := hn
    simp only [ClusWisard.allvotes] at h
    obtain ⟨vs, h1, h2⟩ := bind_eq_ok h
    obtain ⟨s1, s2, s3⟩ := ih (addVotes_sorted l vs 0 m hm) hn h2
    refine ⟨s1, ?_, ?_⟩
    · intro e he
      rcases List.mem_cons.mp he with rfl | he
      · exact ⟨vs, h1⟩
      · exact s2 e he
    intro k v
    rw [s3]
    have hcons : ∀ v, VotesOf (.vec img) ((l, c) :: cs) k v ↔
        (∃ j, k = dname l j ∧ vs[j]? = some v) ∨ VotesOf (.vec img) cs k v := by
      intro v
      constructor
      · rintro ⟨l', c', j, vs', hmem, hc, hk, hv⟩
        rcases List.mem_cons.mp hmem with e | hmem
        · cases e
          rw [h1] at hc
          cases hc
          exact .inl ⟨j, hk, hv⟩
        · exact .inr ⟨l', c', j, vs', hmem, hc, hk, hv⟩
      · rintro (⟨j, hk, hv⟩ | ⟨l', c', j, vs', hmem, hc, hk, hv⟩)
        · exact ⟨l, c, j, vs, by simp, h1, hk, hv⟩
        · exact ⟨l', c', j, vs', by simp [hmem], hc, hk, hv⟩
    have hdisj : ∀ v j v', VotesOf (.vec img) cs k v → ¬ (k = dname l j ∧ vs[j]? = some v') := by
      rintro v j v' ⟨l', c', j', vs', hmem, _, rfl, _⟩ ⟨hk, _⟩
      have := (dname_inj hk).1
      subst this
      exact hl (List.mem_map.mpr ⟨_, hmem, rfl⟩)
    rw [hcons]
    constructor
    · rintro (h | ⟨h, hf⟩)
      · exact .inl (.inr h)
      · by_cases hj : ∃ i, i < vs.length ∧ k = dname l (0 + i)
        · obtain ⟨i, hi, rfl⟩ := hj
          rw [addVotes_get l vs 0 m i hi] at hf
          cases hf
          exact .inl (.inl ⟨i, by rw [Nat.zero_add], by simp [hi]⟩)
        · rw [addVotes_find, if_neg hj] at hf
          refine .inr ⟨?_, hf⟩
          intro v'
          rw [hcons]
          rintro (⟨j, hk, hv⟩ | hv)
          · exact hj ⟨j, (List.getElem?_eq_some_iff.mp hv).1, by rw [Nat.zero_add]; exact hk⟩
          · exact h _ hv
    · rintro ((⟨j, hk, hv⟩ | h) | ⟨h, hf⟩)
      · right
        refine ⟨fun v' hv' => hdisj v' j v hv' ⟨hk, hv⟩, ?_⟩
        obtain ⟨hj, hv⟩ := List.getElem?_eq_some_iff.mp hv
        have := addVotes_get l vs 0 m j hj
        rw [Nat.zero_add] at this
        rw [hk, this, hv]
      · exact .inl h
      · right
        refine ⟨fun v' hv' => h v' ((hcons v').mpr (.inr hv')), ?_⟩
        rw [addVotes_find, if_neg]
        · exact hf
        · rintro ⟨i, hi, hk⟩
          exact h vs[i] ((hcons _).mpr (.inl ⟨i, by rw [Nat.zero_add] at hk; exact hk, by simp [hi]⟩))

theorem classifyLoop_length {img : Image} (ds : List (Option Discriminator)) : ∀ {vs : List (List Int)},
    Cluster.classifyLoop img ds = .ok vs → vs.length = ds.length := by
  induction ds with
  | nil => intro vs h; simp [Cluster.classifyLoop] at h; simp [← h]
  | cons o ds ih =>
    intro vs h
    cases o with
    | none => simp [Cluster.classifyLoop] at h
    | some d =>
      simp only [Cluster.classifyLoop] at h
      obtain ⟨v, _, h⟩ := bind_eq_ok h
      obtain ⟨vs', h', h⟩ := bind_eq_ok h
      simp only [Except.ok.injEq] at h
      subst h
      simp [ih h']

/-- The label chosen from the votes: before its first `"::"`, the name of some discriminator. -/
theorem classify1_label {w : ClusWisard} (hs : SMap.Sorted w.clusters) {img : List Int} {sb : Bool} {s : Scores}
    (h : w.classify1 img sb = .ok s) :
    (∃ l c j, w.clusters.find l = some c ∧ j < c.getSize ∧ Bleaching.getBiggestCandidate s = dname l j) ∨
    ((∀ l c, w.clusters.find l = some c → c.getSize = 0) ∧ Bleaching.getBiggestCandidate s = []) := by
  unfold ClusWisard.classify1 at h
  obtain ⟨votes, h1, h2⟩ := bind_eq_ok h
  obtain ⟨v1, v2, v3⟩ := allvotes_spec w.clusters SMap.sorted_nil (SMap.nodup_keys hs) h1
  obtain ⟨b, hl⟩ := Bleaching.make_ok h2
  have hsc : ∃ b', s = activeAll b' votes := by
    have := Bleaching.loop_spec votes w.opts.bleachingActivated w.opts.confidence 1 hl
    exact ⟨b, this.2.1⟩
  obtain ⟨b', rfl⟩ := hsc
  have key : ∀ l c j, w.clusters.find l = some c → j < c.getSize → ∃ v, votes.find (dname l j) = some v := by
    intro l c j hf hj
    have hm := SMap.mem_of_find hf
    obtain ⟨vs, hvs⟩ := v2 _ hm
    have hlen := classifyLoop_length _ hvs
    refine ⟨vs[j]'(by rw [hlen]; exact hj), (v3 _ _).mpr (.inl ⟨l, c, j, vs, hm, hvs, rfl, by simp⟩)⟩
  by_cases he : votes = []
  · right
    subst he
    refine ⟨?_, rfl⟩
    intro l c hf
    by_contra h0
    obtain ⟨v, hv⟩ := key l c 0 hf (by omega)
    simp [SMap.find] at hv
  · left
    obtain ⟨pre, x, post, e1, _, _, e4⟩ := Bleaching.biggest_spec (m := activeAll b' votes)
      (by intro h; exact he (by simpa [activeAll] using h)) (Bleaching.activeAll_nonneg b' votes)
    have hx : x.1 ∈ SMap.keys votes := by
      rw [← Bleaching.activeAll_keys b', e1]
      simp [SMap.keys]
    obtain ⟨v, hv⟩ := SMap.mem_keys_iff.mp hx
    rcases (v3 _ _).mp hv with ⟨l, c, j, vs, hm, hc, hk, hj⟩ | ⟨_, h⟩
    · refine ⟨l, c, j, SMap.find_of_mem hs hm, ?_, ?_⟩
      · have := (List.getElem?_eq_some_iff.mp hj).1
        rw [classifyLoop_length _ hc] at this
        exact this
      · rw [e4, hk]
    · simp [SMap.find] at h

end Wis
