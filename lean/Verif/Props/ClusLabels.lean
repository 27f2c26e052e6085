import Verif.Props.ClusWisard
/-!
# C65, C78: labels of a ClusWisard are isolated; which label `classify` returns
-/

namespace Wis
open Spec

/-! ## C65 -/

theorem trainLoop_others {f : Flt} (env : Nat → Env) (es : List (List Int × Str)) {l : Str} (hl : ∀ e ∈ es, e.2 ≠ l) :
    ∀ (w : ClusWisard) (i : Nat), (w.trainLoop f env es i).1.clusters.find l = w.clusters.find l ∧
      (w.trainLoop f env es i).1.unsupervisedCluster = w.unsupervisedCluster := by
  induction es with
  | nil => intro w i; exact ⟨rfl, rfl⟩
  | cons e es ih =>
    intro w i
    obtain ⟨img, k⟩ := e
    have hk : k ≠ l := hl (img, k) (by simp)
    have h1 : (w.train1 f (env i) img k).1.clusters.find l = w.clusters.find l ∧
        (w.train1 f (env i) img k).1.unsupervisedCluster = w.unsupervisedCluster := by
      rw [ClusWisard.train1_eq]
      exact ⟨SMap.find_set_ne _ _ (Ne.symm hk), rfl⟩
    simp only [ClusWisard.trainLoop]
    split
    · rename_i w' heq
      rw [heq] at h1
      have := ih (fun e he => hl e (by simp [he])) w' (i + 1)
      exact ⟨this.1.trans h1.1, this.2.trans h1.2⟩
    · rename_i w' e heq
      rw [heq] at h1
      exact h1

/-- C65 (isolation): a supervised training call, successful or not, changes no discriminator of a label that it does
not mention, nor the unsupervised cluster. -/
theorem C65_isolation (f : Flt) (w : ClusWisard) (env : Nat → Env) (images : List (List Int)) (labels : List Str)
    {l : Str} (hl : l ∉ labels) :
    discs (w.train f env images labels).1 l = discs w l ∧
    (w.train f env images labels).1.unsupervisedCluster = w.unsupervisedCluster := by
  unfold ClusWisard.train
  simp only
  split
  · exact ⟨rfl, rfl⟩
  · have := trainLoop_others (f := f) env (images.zip labels) (l := l)
      (fun e he h => hl (h ▸ (List.of_mem_zip he).2)) w 0
    refine ⟨?_, this.2⟩
    unfold discs
    rw [this.1]

/-- Another class has learnt something. -/
example : (discs (cplay Flt.exact cw0 [op0]).1 b!"b").length = 1 ∧
    b!"b" ∉ [b!"a"] ∧ ((cplay Flt.exact cw0 [op0]).1.train Flt.exact (fun _ => env0) [[0, 1, 1, 0]] [b!"a"]).2 = .ok () := by
  decide +kernel

theorem trainLoop_entries {f : Flt} (env : Nat → Env) (l : Str) (es : List (List Int × Str)) :
    ∀ {w w' : ClusWisard} {i : Nat}, w.trainLoop f env es i = (w', .ok ()) →
      (entriesOf l env es i = [] ∧ w'.clusters.find l = w.clusters.find l) ∨
      ∃ e img rest c', entriesOf l env es i = (e, .vec img) :: rest ∧ w'.clusters.find l = some c' ∧
        clusterRun f ((w.clusters.find l).getD (Cluster.create (w.clusterCfg img.length))) (entriesOf l env es i) = (c', .ok ()) := by
  induction es with
  | nil =>
    intro w w' i h
    simp only [ClusWisard.trainLoop, Prod.mk.injEq, and_true] at h
    subst h
    exact .inl ⟨rfl, rfl⟩
  | cons e es ih =>
    intro w w' i h
    obtain ⟨img, k⟩ := e
    simp only [ClusWisard.trainLoop] at h
    split at h
    · rename_i w1 h1
      rw [ClusWisard.train1_eq] at h1
      simp only [Prod.mk.injEq] at h1
      obtain ⟨e1, e2⟩ := h1
      by_cases hk : k = l
      · subst hk
        right
        simp only [entriesOf, if_pos]
        have hf : w1.clusters.find k = some ((w.target img k).train f (env i) (.vec img)).1 := by
          rw [← e1]; exact SMap.find_set_self _ _ _
        have hstep : ∀ rest, clusterRun f (w.target img k) ((env i, .vec img) :: rest) =
            clusterRun f ((w.target img k).train f (env i) (.vec img)).1 rest := by
          intro rest
          simp only [clusterRun]
          rw [show (w.target img k).train f (env i) (.vec img) = (((w.target img k).train f (env i) (.vec img)).1, .ok ()) from Prod.ext rfl e2]
        rcases ih h with ⟨h3, h4⟩ | ⟨e, img', rest, c', h3, h4, h5⟩
        · refine ⟨env i, img, _, _, rfl, by rw [h4, hf], ?_⟩
          show clusterRun f (w.target img k) _ = _
          rw [hstep, h3]
          rfl
        · refine ⟨env i, img, _, c', rfl, h4, ?_⟩
          show clusterRun f (w.target img k) _ = _
          rw [hstep]
          rw [hf, Option.getD_some] at h5
          exact h5
      · have hf : w1.clusters.find l = w.clusters.find l := by
          rw [← e1]; exact SMap.find_set_ne _ _ (Ne.symm hk)
        have hcfg : ∀ n, w1.clusterCfg n = w.clusterCfg n := by intro n; rw [← e1]; rfl
        simp only [entriesOf, if_neg hk]
        have := ih h
        rw [hf] at this
        simp only [hcfg] at this
        exact this
    · cases h

/-- C65 (independence): after a successful batch the cluster of each label is exactly what it would be if only the
images with this label had been trained, one by one, in their order. -/
theorem C65_independent (f : Flt) {w w' : ClusWisard} {env : Nat → Env} {images : List (List Int)} {labels : List Str}
    (h : w.train f env images labels = (w', .ok ())) (l : Str) :
    (l ∉ labels ∧ w'.clusters.find l = w.clusters.find l) ∨
    ∃ e img rest c', entriesOf l env (images.zip labels) 0 = (e, .vec img) :: rest ∧ w'.clusters.find l = some c' ∧
      clusterRun f ((w.clusters.find l).getD (Cluster.create (w.clusterCfg img.length)))
        (entriesOf l env (images.zip labels) 0) = (c', .ok ()) := by
  obtain ⟨_, hlen, h⟩ := train_ok_inv h
  rcases trainLoop_entries env l _ h with ⟨h1, h2⟩ | h
  · left
    refine ⟨?_, h2⟩
    intro hl
    have gen : ∀ (es : List (List Int × Str)) (i : Nat), l ∈ es.map (·.2) → entriesOf l env es i ≠ [] := by
      intro es
      induction es with
      | nil => intro i h; simp at h
      | cons e es ih =>
        intro i h
        obtain ⟨img, k⟩ := e
        simp only [entriesOf]
        split
        · simp
        · rename_i hk
          simp only [List.map_cons, List.mem_cons] at h
          rcases h with h | h
          · exact absurd h.symm hk
          · exact ih _ h
    refine gen _ _ ?_ h1
    rw [show (images.zip labels).map (fun x => x.2) = (images.zip labels).map Prod.snd from rfl, List.map_snd_zip (by omega)]
    exact hl
  · exact .inr h

/-! ## C78 -/

/-- Discriminator number `j` of class `l` gives the votes `vs`. -/
def Spec.VoteOf (w : ClusWisard) (img : List Int) (l : Str) (j : Nat) (vs : List Int) : Prop :=
  ∃ d, (discs w l)[j]? = some (some d) ∧ d.classify (.vec img) = .ok vs

/-- Two different discriminators share the top score at threshold `b`, and it is above 1. -/
def Spec.TiedDiscs (w : ClusWisard) (img : List Int) (b : Int) : Prop :=
  ∃ l j vs l' j' vs', VoteOf w img l j vs ∧ VoteOf w img l' j' vs' ∧ (l, j) ≠ (l', j') ∧
    1 < active b vs ∧ active b vs = active b vs' ∧ ∀ k i u, VoteOf w img k i u → active b u ≤ active b vs

theorem classifyLoop_get {img : Image} (ds : List (Option Discriminator)) : ∀ {vs : List (List Int)},
    Cluster.classifyLoop img ds = .ok vs → ∀ (j : Nat) (v : List Int),
      vs[j]? = some v ↔ ∃ d, ds[j]? = some (some d) ∧ d.classify img = .ok v := by
  induction ds with
  | nil =>
    intro vs h j v
    simp only [Cluster.classifyLoop, Except.ok.injEq] at h
    subst h
    simp
  | cons o ds ih =>
    intro vs h j v
    cases o with
    | none => simp [Cluster.classifyLoop] at h
    | some d =>
      simp only [Cluster.classifyLoop] at h
      obtain ⟨v0, h0, h⟩ := bind_eq_ok h
      obtain ⟨vs', h', h⟩ := bind_eq_ok h
      simp only [Except.ok.injEq] at h
      subst h
      cases j with
      | zero =>
        simp only [List.getElem?_cons_zero, Option.some.injEq]
        constructor
        · rintro rfl; exact ⟨d, rfl, h0⟩
        · rintro ⟨d', rfl, h⟩; rw [h0] at h; cases h; rfl
      | succ j =>
        simp only [List.getElem?_cons_succ]
        exact ih h' j v

theorem votesOf_iff {w : ClusWisard} (hs : SMap.Sorted w.clusters) {img : List Int}
    (hall : ∀ e ∈ w.clusters, ∃ vs, e.2.classify (.vec img) = .ok vs) (k : Str) (v : List Int) :
    VotesOf (.vec img) w.clusters k v ↔ ∃ l j, k = dname l j ∧ VoteOf w img l j v := by
  constructor
  · rintro ⟨l, c, j, vs, hm, hc, hk, hj⟩
    refine ⟨l, j, hk, ?_⟩
    unfold VoteOf discs
    rw [SMap.find_of_mem hs hm]
    exact (classifyLoop_get _ hc j v).mp hj
  · rintro ⟨l, j, hk, hv⟩
    unfold VoteOf discs at hv
    cases hf : w.clusters.find l with
    | none => rw [hf] at hv; simp at hv
    | some c =>
      rw [hf] at hv
      obtain ⟨vs, hvs⟩ := hall _ (SMap.mem_of_find hf)
      exact ⟨l, c, j, vs, SMap.mem_of_find hf, hvs, hk, (classifyLoop_get _ hvs j v).mpr hv⟩

/-- C78: the label that `classify` gives an image is the part before the first `"::"` of the name `label::j` of a
discriminator `j` of class `label` with the most RAMs whose vote reaches a threshold `b ≥ 1`; among equals it is the
one with the greatest name. Without bleaching `b = 1`; with bleaching and confidence 1, `b` is the least
threshold at which no two discriminators tie for the top above 1. -/
theorem C78_winner {w : ClusWisard} (hs : SMap.Sorted w.clusters) {img : List Int} {x : Str}
    (h : w.classify [img] = .ok [x]) (hne : ∃ l, discs w l ≠ []) :
    ∃ (b : Int) (l : Str) (j : Nat) (vs : List Int), 1 ≤ b ∧ VoteOf w img l j vs ∧ x = beforeSep (l ++ b!"::" ++ natStr j) ∧
      (∀ l' j' vs', VoteOf w img l' j' vs' → active b vs' ≤ active b vs ∧
        (active b vs' = active b vs → (l', j') = (l, j) ∨ Str.lt (l' ++ b!"::" ++ natStr j') (l ++ b!"::" ++ natStr j) = true)) ∧
      (w.opts.bleachingActivated = false → b = 1) ∧
      (w.opts.bleachingActivated = true → w.opts.confidence = 1 →
        ¬ TiedDiscs w img b ∧ ∀ b', 1 ≤ b' → b' < b → TiedDiscs w img b') := by
  obtain ⟨s, ls', h1, h2, h3⟩ := classify_cons h
  simp only [ClusWisard.classify, Except.ok.injEq] at h2
  subst h2
  simp only [List.cons.injEq, and_true] at h3
  unfold ClusWisard.classify1 at h1
  obtain ⟨votes, g1, g2⟩ := bind_eq_ok h1
  obtain ⟨v1, v2, v3⟩ := allvotes_spec w.clusters SMap.sorted_nil (SMap.nodup_keys hs) g1
  obtain ⟨b, hl⟩ := Bleaching.make_ok g2
  obtain ⟨l1, l2, l3, l4⟩ := Bleaching.loop_spec _ _ _ _ hl
  subst l2
  have hfind : ∀ k v, votes.find k = some v ↔ ∃ l j, k = dname l j ∧ VoteOf w img l j v := by
    intro k v
    rw [v3, votesOf_iff hs v2]
    simp [SMap.find]
  have hmem : ∀ b k n, (k, n) ∈ activeAll b votes ↔ ∃ l j v, k = dname l j ∧ VoteOf w img l j v ∧ n = (active b v : Int) := by
    intro b k n
    unfold activeAll
    simp only [List.mem_map, Prod.mk.injEq, Prod.exists]
    constructor
    · rintro ⟨k', v, hm, rfl, rfl⟩
      obtain ⟨l, j, e1, e2⟩ := (hfind k' v).mp (SMap.find_of_mem v1 hm)
      exact ⟨l, j, v, e1, e2, rfl⟩
    · rintro ⟨l, j, v, e1, e2, rfl⟩
      exact ⟨k, v, SMap.mem_of_find ((hfind k v).mpr ⟨l, j, e1, e2⟩), rfl, rfl⟩
  have hvne : votes ≠ [] := by
    obtain ⟨l, hl⟩ := hne
    unfold discs at hl
    cases hf : w.clusters.find l with
    | none => rw [hf] at hl; simp at hl
    | some c =>
      rw [hf] at hl
      obtain ⟨vs, hvs⟩ := v2 _ (SMap.mem_of_find hf)
      have hlen := classifyLoop_length _ hvs
      have h0 : 0 < vs.length := by rw [hlen]; exact List.length_pos_iff.mpr hl
      intro he
      have := (v3 (dname l 0) vs[0]).mpr (.inl ⟨l, c, 0, vs, SMap.mem_of_find hf, hvs, rfl, by simp⟩)
      rw [he] at this
      simp [SMap.find] at this
  obtain ⟨pre, y, post, e1, e2, e3, e4⟩ := Bleaching.biggest_spec (m := activeAll b votes)
    (by intro h; exact hvne (by simpa [activeAll] using h)) (Bleaching.activeAll_nonneg b votes)
  obtain ⟨l, j, vs, y1, y2, y3⟩ := (hmem b y.1 y.2).mp (by rw [e1]; simp)
  refine ⟨b, l, j, vs, l1, y2, ?_, ?_, l3, ?_⟩
  · rw [h3, e4, y1]; rfl
  · intro l' j' vs' hv'
    have hm := (hmem b (dname l' j') (active b vs')).mpr ⟨l', j', vs', rfl, hv', rfl⟩
    have hso := Bleaching.activeAll_sorted v1 b
    rw [e1] at hm hso
    rcases List.mem_append.mp hm with hm | hm
    · have hle := e2 _ hm
      rw [y3] at hle
      simp only at hle
      refine ⟨by exact_mod_cast hle, fun _ => .inr ?_⟩
      have := (List.pairwise_append.mp hso).2.2 _ hm y (by simp)
      rw [y1] at this
      exact this
    · rcases List.mem_cons.mp hm with hm | hm
      · have hk : dname l' j' = y.1 := by rw [← hm]
        rw [y1] at hk
        obtain ⟨rfl, rfl⟩ := dname_inj hk
        have : (active b vs' : Int) = y.2 := by rw [← hm]
        rw [y3] at this
        exact ⟨le_of_eq (by exact_mod_cast this), fun _ => .inl rfl⟩
      · have hlt := e3 _ hm
        rw [y3] at hlt
        simp only at hlt
        have hlt : active b vs' < active b vs := by exact_mod_cast hlt
        exact ⟨le_of_lt hlt, fun h => absurd h (by omega)⟩
  · intro hb hc
    have htied : ∀ b, TiedDiscs w img b ↔ LaterRivalWithin 1 (activeAll b votes) := by
      intro b
      rw [Bleaching.rival_one_iff (Bleaching.activeAll_sorted v1 b)]
      constructor
      · rintro ⟨l, j, vs, l', j', vs', q1, q2, q3, q4, q5, q6⟩
        refine ⟨(dname l j, active b vs), (dname l' j', active b vs'), (hmem _ _ _).mpr ⟨l, j, vs, rfl, q1, rfl⟩,
          (hmem _ _ _).mpr ⟨l', j', vs', rfl, q2, rfl⟩, ?_, by simp only; omega, by simp only; omega, ?_⟩
        · intro he
          obtain ⟨rfl, rfl⟩ := dname_inj he
          exact q3 rfl
        · rintro ⟨k, n⟩ hm
          obtain ⟨l2, j2, v2, _, r2, rfl⟩ := (hmem _ _ _).mp hm
          have := q6 l2 j2 v2 r2
          simp only; omega
      · rintro ⟨⟨k, n⟩, ⟨k', n'⟩, q1, q2, q3, q4, q5, q6⟩
        obtain ⟨l, j, vs, rfl, r1, rfl⟩ := (hmem _ _ _).mp q1
        obtain ⟨l', j', vs', rfl, r2, rfl⟩ := (hmem _ _ _).mp q2
        simp only at q3 q4 q5 q6
        refine ⟨l, j, vs, l', j', vs', r1, r2, ?_, by omega, by omega, ?_⟩
        · intro he; cases he; exact q3 rfl
        · intro k i u hu
          have := q6 _ ((hmem _ _ _).mpr ⟨k, i, u, rfl, hu, rfl⟩)
          simp only at this; omega
    obtain ⟨m1, m2⟩ := l4 hb
    rw [hc] at m1 m2
    refine ⟨fun h => m1 ((htied b).mp h), fun b' h1 h2 => (htied b').mpr (m2 b' h1 h2)⟩

/-- A model with three discriminators in two classes meets the hypotheses. -/
example : SMap.Sorted (cplay Flt.exact cw0 [op0]).1.clusters ∧
    (cplay Flt.exact cw0 [op0]).1.classify [[1, 0, 1, 0]] = .ok [b!"b"] ∧ discs (cplay Flt.exact cw0 [op0]).1 b!"a" ≠ [] :=
  ⟨(WInv.play (f := Flt.exact) (by decide +kernel : ClusWisard.create 2 (1/2) 10 3 {} = .ok cw0) [op0]).sorted,
    by decide +kernel, by decide +kernel⟩

end Wis
