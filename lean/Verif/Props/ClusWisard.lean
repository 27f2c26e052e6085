import Verif.Lemmas.ClusLearn
/-!
# C55–C58, C63, C65, C78: how a ClusWisard learns and classifies

`f : Flt` is any rounding of `float` operations, `env` any behaviour of the environment (random numbers).
Histories `ops` contain any calls, failing ones included.
-/

namespace Wis
open Spec

/-! ## C63 -/

/-- C63: the constructor throws exactly for arguments outside their ranges, and otherwise gives a model with
exactly these parameters and nothing learnt. -/
theorem C63_validation (A : Int) (ms : Rat) (t dl : Int) (o : ClusOpts) :
    (Throws (ClusWisard.create A ms t dl o) ↔ ms < 0 ∨ 1 < ms ∨ t < 1 ∨ dl < 1) ∧
    (¬ (ms < 0 ∨ 1 < ms ∨ t < 1 ∨ dl < 1) →
      ClusWisard.create A ms t dl o = .ok ⟨A, ms, t, dl, o, [], Cluster.default⟩) := by
  have h : ¬ (ms < 0 ∨ 1 < ms ∨ t < 1 ∨ dl < 1) →
      ClusWisard.create A ms t dl o = .ok ⟨A, ms, t, dl, o, [], Cluster.default⟩ := by
    intro h
    simp only [not_or] at h
    unfold ClusWisard.create ClusWisard.checkConfigInputs
    rw [if_neg (by simp only [not_or, gt_iff_lt]; exact ⟨h.1, h.2.1⟩), if_neg h.2.2.1, if_neg h.2.2.2]
    rfl
  refine ⟨⟨?_, ?_⟩, h⟩
  · rintro ⟨e, he⟩
    by_contra hn
    rw [h hn] at he
    cases he
  · intro hn
    unfold ClusWisard.create ClusWisard.checkConfigInputs
    by_cases h1 : ms < 0 ∨ ms > 1
    · rw [if_pos h1]; exact ⟨_, rfl⟩
    · rw [if_neg h1]
      by_cases h2 : t < 1
      · rw [if_pos h2]; exact ⟨_, rfl⟩
      · rw [if_neg h2]
        by_cases h3 : dl < 1
        · rw [if_pos h3]; exact ⟨_, rfl⟩
        · simp only [not_or, gt_iff_lt] at h1
          rcases hn with h | h | h | h
          · exact absurd h h1.1
          · exact absurd h h1.2
          · exact absurd h h2
          · exact absurd h h3

/-- Both sides occur. -/
example : ClusWisard.create 2 (1/2) 10 3 {} = .ok cw0 ∧ Throws (ClusWisard.create 2 (3/2) 10 3 {}) ∧
    Throws (ClusWisard.create 2 (1/2) 0 3 {}) :=
  ⟨by decide +kernel, ⟨.minScore, by decide +kernel⟩, ⟨.threshold, by decide +kernel⟩⟩

/-! ## C55 -/

theorem reached_limit {f : Flt} {c : ClusterCfg} {H : List Image} {cl : Cluster} (h : Reached f c H cl)
    (h1 : 1 ≤ c.discriminatorsLimit) : (cl.discriminators.length : Int) ≤ c.discriminatorsLimit := h.inv.len h1

/-- C55 (upper bound): after any calls no class, nor the unsupervised cluster, has more than `discriminatorsLimit`
discriminators. -/
theorem C55_limit (f : Flt) {A : Int} {ms : Rat} {t dl : Int} {o : ClusOpts} {w0 : ClusWisard}
    (h0 : ClusWisard.create A ms t dl o = .ok w0) (ops : List COp) (l : Str) :
    ((discs (cplay f w0 ops).1 l).length : Int) ≤ dl ∧
    ((cplay f w0 ops).1.unsupervisedCluster.discriminators.length : Int) ≤ dl := by
  have hi := WInv.play (f := f) h0 ops
  obtain ⟨rfl, _, _, _, hdl⟩ := create_shape h0
  constructor
  · unfold discs
    split
    · rename_i c hc
      rcases hi.cl l c hc with rfl | ⟨_, n, H, hr⟩
      · simp only [Cluster.default, List.length_nil]; omega
      · exact reached_limit hr hdl
    · simp only [List.length_nil]; omega
  · rcases hi.un with h | ⟨n, H, hr⟩
    · rw [h]; simp only [Cluster.default, List.length_nil]; omega
    · exact reached_limit hr hdl

/-- A model with two discriminators in one class, and one in another. -/
example : (discs (cplay Flt.exact cw0 [op0]).1 b!"a").length = 2 ∧ (discs (cplay Flt.exact cw0 [op0]).1 b!"b").length = 1 ∧
    (cplay Flt.exact cw0 [op0]).2 = [.ok ()] := by
  decide +kernel

/-- C55 (lower bound): once a training call that contains label `l` has succeeded, class `l` has at least one
discriminator, whatever happens afterwards. -/
theorem C55_at_least_one (f : Flt) {w w1 : ClusWisard} {env : Nat → Env} {images : List (List Int)} {labels : List Str}
    (h : w.train f env images labels = (w1, .ok ())) {l : Str} (hl : l ∈ labels) (ops : List COp) :
    1 ≤ (discs (cplay f w1 ops).1 l).length := by
  refine Closed.play ops w1 (size_closed f _ l 1) ?_
  obtain ⟨_, hlen, h⟩ := train_ok_inv h
  obtain ⟨i, hi, rfl⟩ := List.getElem_of_mem hl
  have hm : (images[i]'(by omega), labels[i]) ∈ images.zip labels := by
    rw [List.mem_iff_getElem]
    exact ⟨i, by simp; omega, by simp⟩
  obtain ⟨j, w2, w3, _, h3, h4⟩ := trainLoop_head_inv (f := f) env (images.zip labels) hm (L := labels) (Q := fun _ => True)
    ⟨by simp, by simp, by simp, by simp, by simp⟩ (fun e he => (List.of_mem_zip he).2) trivial h
  refine h4 _ (size_closed f labels _ 1) ?_
  rw [ClusWisard.train1_eq] at h3
  simp only [Prod.mk.injEq] at h3
  rw [← h3.1]
  unfold discs
  simp only [SMap.find_set_self]
  exact train_ok_size (Prod.ext rfl h3.2)

/-- The number of discriminators never decreases, and it is what `getMentalImage` shows. -/
theorem C55_monotone (f : Flt) (w : ClusWisard) (ops : List COp) (l : Str) :
    (discs w l).length ≤ (discs (cplay f w ops).1 l).length :=
  Closed.play ops w (size_closed f _ l _) (Nat.le_refl _)

theorem mentalLoop_length {it : IterOrder} (ds : List (Option Discriminator)) : ∀ {ms : List (List Int)},
    Cluster.mentalLoop it ds = .ok ms → ms.length = ds.length := by
  induction ds with
  | nil => intro ms h; simp [Cluster.mentalLoop] at h; simp [← h]
  | cons o ds ih =>
    intro ms h
    cases o with
    | none => simp [Cluster.mentalLoop] at h
    | some d =>
      simp only [Cluster.mentalLoop] at h
      obtain ⟨m, _, h⟩ := bind_eq_ok h
      obtain ⟨ms', h', h⟩ := bind_eq_ok h
      simp only [Except.ok.injEq] at h
      subst h
      simp [ih h']

/-- The number of discriminators is observable: it is the number of mental images. -/
theorem C55_observable (w : ClusWisard) (it : IterOrder) (l : Str) {ms : List (List Int)}
    (h : (w.getMentalImage it l).2 = .ok ms) : ms.length = (discs w l).length := by
  unfold ClusWisard.getMentalImage at h
  unfold discs
  split at h
  · rename_i c hc
    rw [hc]
    exact mentalLoop_length _ h
  · rename_i hc
    rw [hc]
    simp only [Cluster.getMentalImages, Cluster.default, Cluster.mentalLoop, Except.ok.injEq] at h
    simp [← h]

/-- A model with two mental images for one class. -/
example : ((cplay Flt.exact cw0 [op0]).1.getMentalImage IterOrder.id b!"a").2 = .ok [[1, 1, 1, 1], [0, 0, 0, 0]] := by
  decide +kernel

/-! ## C57, C56 -/

theorem learns_class (f : Flt) {A : Int} {ms : Rat} {t dl : Int} {o : ClusOpts} {w0 : ClusWisard}
    (h0 : ClusWisard.create A ms t dl o = .ok w0) (ops : List COp) {w' : ClusWisard} {env : Nat → Env} {img : List Int}
    {l : Str} (h : (cplay f w0 ops).1.train f env [img] [l] = (w', .ok ())) :
    ∃ (ds ds' : List Discriminator),
      discs (cplay f w0 ops).1 l = ds.map some ∧ discs w' l = ds'.map some ∧
      Learns f (w0.clusterCfg img.length) (env 0).rnd (.vec img) ds ds' ∧
      (∀ k, k ≠ l → discs w' k = discs (cplay f w0 ops).1 k) ∧
      w'.unsupervisedCluster = (cplay f w0 ops).1.unsupervisedCluster := by
  have hi := WInv.play (f := f) h0 ops
  revert h hi
  generalize (cplay f w0 ops).1 = w
  intro h hi
  have h1 := train_single h
  rw [ClusWisard.train1_eq] at h1
  simp only [Prod.mk.injEq] at h1
  obtain ⟨e1, e2⟩ := h1
  subst e1
  obtain ⟨rfl, _, _, _, hdl⟩ := create_shape h0
  have hothers : ∀ k, k ≠ l → discs { w with clusters := w.clusters.set l ((w.target img l).train f (env 0) (.vec img)).1 } k = discs w k := by
    intro k hk
    unfold discs
    simp only [SMap.find_set_ne _ _ hk]
  have hl : discs { w with clusters := w.clusters.set l ((w.target img l).train f (env 0) (.vec img)).1 } l =
      ((w.target img l).train f (env 0) (.vec img)).1.discriminators := by
    unfold discs
    simp only [SMap.find_set_self]
  rw [hl]
  have main : ∀ (c : Cluster) (n : Int), c.train f (env 0) (.vec img) = ((c.train f (env 0) (.vec img)).1, .ok ()) →
      CInv ((⟨A, ms, t, dl, o, [], Cluster.default⟩ : ClusWisard).clusterCfg n) c →
      ∃ ds ds' : List Discriminator, c.discriminators = ds.map some ∧ (c.train f (env 0) (.vec img)).1.discriminators = ds'.map some ∧
        Learns f ((⟨A, ms, t, dl, o, [], Cluster.default⟩ : ClusWisard).clusterCfg img.length) (env 0).rnd (.vec img) ds ds' := by
    intro c n ht hc
    obtain ⟨ds, ds', e1, e2, e3⟩ := train_learns hc hdl ht
    have hn : n = img.length := by
      obtain ⟨d, hd, _, hd2⟩ := e3.knows
      have h1 := (hc.train (f := f) (env 0) (.vec img)).disc d (by rw [e2]; simp [hd])
      rw [hd2] at h1
      exact h1.2.1.symm
    rw [hn] at e3
    refine ⟨ds, ds', by rw [e1], ?_, e3⟩
    rw [e2]
  cases hf : w.clusters.find l with
  | none =>
    have ht : w.target img l = Cluster.create (w.clusterCfg img.length) := by
      unfold ClusWisard.target; rw [hf]; rfl
    rw [ht, hi.cfg] at e2 ⊢
    obtain ⟨ds, ds', d1, d2, d3⟩ := main _ img.length (Prod.ext rfl e2) (Reached.new (f := f)).inv
    refine ⟨ds, ds', ?_, d2, d3, ?_, rfl⟩
    · rw [← d1]; unfold discs; rw [hf]; rfl
    · rw [ht, hi.cfg] at hothers; exact hothers
  | some c =>
    have ht : w.target img l = c := by unfold ClusWisard.target; rw [hf]; rfl
    rw [ht] at e2 ⊢
    rcases hi.cl l c hf with rfl | ⟨_, n, H, hr⟩
    · rw [default_train] at e2; cases e2
    · obtain ⟨ds, ds', d1, d2, d3⟩ := main c n (Prod.ext rfl e2) hr.inv
      have hd : discs w l = ds.map some := by rw [← d1]; unfold discs; rw [hf]
      exact ⟨ds, ds', hd, d2, d3, by rw [ht] at hothers; exact hothers, rfl⟩

/-- C57: in any model reached by any calls, a successful training of one image with label `l` changes the
discriminators of `l` as `Learns` describes, and nothing else. -/
theorem C57_learns (f : Flt) {A : Int} {ms : Rat} {t dl : Int} {o : ClusOpts} {w0 : ClusWisard}
    (hint : InI32 t) (h0 : ClusWisard.create A ms t dl o = .ok w0) (ops : List COp) {w' : ClusWisard} {env : Nat → Env} {img : List Int}
    {l : Str} (h : (cplay f w0 ops).1.train f env [img] [l] = (w', .ok ())) :
    ∃ (ds ds' : List Discriminator),
      discs (cplay f w0 ops).1 l = ds.map some ∧ discs w' l = ds'.map some ∧
      Learns f ⟨A, img.length, ms, t.toNat, dl, o.completeAddressing, o.ignoreZero, o.base⟩ (env 0).rnd (.vec img) ds ds' ∧
      (∀ k, k ≠ l → discs w' k = discs (cplay f w0 ops).1 k) ∧
      w'.unsupervisedCluster = (cplay f w0 ops).1.unsupervisedCluster := by
  obtain ⟨ds, ds', h1, h2, h3, h4⟩ := learns_class f h0 ops h
  refine ⟨ds, ds', h1, h2, ?_, h4⟩
  obtain ⟨rfl, _, _, ht1, _⟩ := create_shape h0
  have hcfg : (⟨A, ms, t, dl, o, [], Cluster.default⟩ : ClusWisard).clusterCfg img.length =
      ⟨A, img.length, ms, t.toNat, dl, o.completeAddressing, o.ignoreZero, o.base⟩ := by
    unfold ClusWisard.clusterCfg
    have : (BitVec.ofInt 32 t).toNat = t.toNat := by
      unfold InI32 at hint
      rw [BitVec.toNat_ofInt]
      omega
    simp only [this]
  rwa [hcfg] at h3

/-- A third image of class `"a"` in a model with two discriminators there. -/
example : ((cplay Flt.exact cw0 [op0]).1.train Flt.exact (fun _ => env0) [[1, 1, 1, 1]] [b!"a"]).2 = .ok () ∧
    (discs ((cplay Flt.exact cw0 [op0]).1.train Flt.exact (fun _ => env0) [[1, 1, 1, 1]] [b!"a"]).1 b!"a").map
      (fun d => d.map (·.getNumberOfTrainings)) = [some 2, some 1] := by
  decide +kernel

/-- C57 in exact arithmetic: the score is the mean vote divided by the greatest vote, the required score is
`min(1, minScore + count/threshold)`. -/
theorem C57_exact (votes : List Int) (c : ClusterCfg) (count : Int) :
    score Flt.exact votes = (if topVote votes = 0 then 0 else (votes.sum : Rat) / (topVote votes * votes.length)) ∧
    required Flt.exact c count = min 1 (c.minScore + count / c.threshold) := by
  refine ⟨?_, rfl⟩
  unfold score
  split
  · rfl
  · have : fsum Flt.exact votes = (votes.sum : Int) := by
      unfold fsum
      have gen : ∀ (vs : List Int) (s : Rat), vs.foldl (fun (s : Rat) (v : Int) => Flt.exact.rnd (s + Flt.exact.rnd v)) s = s + (vs.sum : Int) := by
        intro vs
        induction vs with
        | nil => intro s; simp
        | cons v vs ih =>
          intro s
          rw [List.foldl_cons, ih, List.sum_cons]
          simp only [Flt.exact]
          push_cast
          ring
      rw [gen]
      simp
    rw [this]
    simp only [Flt.exact]

/-- C56 (counts): every successful training of an image adds exactly one training to some discriminators of its
class, at least one, and none to the others. -/
theorem C56_counts (f : Flt) {A : Int} {ms : Rat} {t dl : Int} {o : ClusOpts} {w0 : ClusWisard}
    (h0 : ClusWisard.create A ms t dl o = .ok w0) (ops : List COp) {w' : ClusWisard} {env : Nat → Env} {img : List Int}
    {l : Str} (h : (cplay f w0 ops).1.train f env [img] [l] = (w', .ok ())) :
    ∃ ds ds' : List Discriminator, discs (cplay f w0 ops).1 l = ds.map some ∧ discs w' l = ds'.map some ∧
      OneMoreTraining ds ds' := by
  obtain ⟨ds, ds', h1, h2, h3, _⟩ := learns_class f h0 ops h
  exact ⟨ds, ds', h1, h2, h3.counts⟩

/-- C56 (memory): every image of every successful training call is remembered for ever: whatever calls follow,
some discriminator of its class votes positively for it on every RAM (without `ignoreZero`). -/
theorem C56_remembered (f : Flt) {A : Int} {ms : Rat} {t dl : Int} {o : ClusOpts} {w0 : ClusWisard}
    (h0 : ClusWisard.create A ms t dl o = .ok w0) (hz : o.ignoreZero = false) (ops : List COp) {env : Nat → Env}
    {images : List (List Int)} {labels : List Str} {w1 : ClusWisard}
    (h : (cplay f w0 ops).1.train f env images labels = (w1, .ok ())) (later : List COp) :
    ∀ e ∈ images.zip labels, ∃ d, some d ∈ discs (cplay f w1 later).1 e.2 ∧ FullVote (.vec e.1) d := by
  rintro ⟨img, l⟩ he
  have hi := WInv.play (f := f) h0 ops
  have hw1 : w1 = (cplay f w0 (ops ++ [COp.train env images labels])).1 := by
    rw [cplay_append]
    simp only [cplay, cstep]
    rw [h]
  have hend : WInv f w0 (labelsOf ((ops ++ [COp.train env images labels]) ++ later)) (cplay f w1 later).1 := by
    have := WInv.play (f := f) h0 ((ops ++ [COp.train env images labels]) ++ later)
    rw [cplay_append, ← hw1] at this
    exact this
  obtain ⟨_, _, hl⟩ := train_ok_inv h
  have hdl := create_shape h0
  obtain ⟨j, w2, w3, hq, h3, h4⟩ := trainLoop_head_inv (f := f) env (images.zip labels) he
    (L := labelsOf ops ++ labels) (Q := WInv f w0 (labelsOf ops ++ labels)) (WInv.closed f w0 _)
    (fun e he => List.mem_append_right _ (List.of_mem_zip he).2)
    ⟨hi.const, hi.sorted, fun l c hc => (hi.cl l c hc).imp _root_.id (fun ⟨a, b⟩ => ⟨List.mem_append_left _ a, b⟩), hi.un⟩ hl
  have hrem : Remembers l (.vec img) w3 := by
    rw [ClusWisard.train1_eq] at h3
    simp only [Prod.mk.injEq] at h3
    obtain ⟨rfl, e2⟩ := h3
    have main : ∀ (c : Cluster) (n : Int), CInv (w0.clusterCfg n) c → (c.train f (env j) (.vec img)).2 = .ok () →
        ∃ d, some d ∈ (c.train f (env j) (.vec img)).1.discriminators ∧ Knows (.vec img) d.rams ∧ d.entrySize = (Image.vec img).size := by
      intro c n hc ht
      obtain ⟨ds, ds', e1, e2, e3⟩ := train_learns hc (by rw [hdl.1]; exact hdl.2.2.2.2)
        (Prod.ext rfl ht : c.train f (env j) (.vec img) = ((c.train f (env j) (.vec img)).1, .ok ()))
      obtain ⟨d, hd, hk⟩ := e3.knows
      exact ⟨d, by rw [e2]; simp [hd], hk⟩
    have hmain : ∃ d, some d ∈ ((w2.target img l).train f (env j) (.vec img)).1.discriminators ∧ Knows (.vec img) d.rams ∧
        d.entrySize = (Image.vec img).size := by
      unfold ClusWisard.target at e2 ⊢
      cases hf : w2.clusters.find l with
      | none =>
        rw [hf, Option.getD_none, hq.cfg] at e2
        rw [Option.getD_none, hq.cfg]
        exact main _ img.length (Reached.new (f := f)).inv e2
      | some c =>
        rw [hf, Option.getD_some] at e2
        rw [Option.getD_some]
        rcases hq.cl l c hf with rfl | ⟨_, n, H, hr⟩
        · rw [default_train] at e2; cases e2
        · exact main c n hr.inv e2
    obtain ⟨d, d1, d2⟩ := hmain
    exact ⟨_, d, SMap.find_set_self _ _ _, d1, d2⟩
  obtain ⟨c, d, c1, c2, c3, c4⟩ := Closed.play later w1 (Remembers.closed f _ l (.vec img))
    (h4 _ (Remembers.closed f _ l (.vec img)) hrem)
  refine ⟨d, by unfold discs; rw [c1]; exact c2, ?_⟩
  rcases hend.cl l c c1 with rfl | ⟨_, n, H, hr⟩
  · simp [Cluster.default] at c2
  · obtain ⟨p1, p2, p3, p4⟩ := hr.inv.disc d c2
    refine fullVote_of c3 c4 p1 ?_
    intro r hrm
    rw [(p4 r hrm).1]
    rw [hdl.1]
    exact hz

/-! ## C58, C78 -/

/-- The label of one image. -/
theorem classify_cons {w : ClusWisard} {img : List Int} {imgs : List (List Int)} {ls : List Str}
    (h : w.classify (img :: imgs) = .ok ls) : ∃ s ls', w.classify1 img w.opts.searchBestConfidence = .ok s ∧
      w.classify imgs = .ok ls' ∧ ls = beforeSep (Bleaching.getBiggestCandidate s) :: ls' := by
  simp only [ClusWisard.classify] at h
  obtain ⟨s, h1, h⟩ := bind_eq_ok h
  obtain ⟨ls', h2, h⟩ := bind_eq_ok h
  simp only [Except.ok.injEq] at h
  exact ⟨s, ls', h1, h2, h.symm⟩

/-- What every label returned by `classify` satisfies. -/
theorem classify_each {w : ClusWisard} {P : Str → Prop} (imgs : List (List Int))
    (hP : ∀ img ∈ imgs, ∀ s, w.classify1 img w.opts.searchBestConfidence = .ok s → P (beforeSep (Bleaching.getBiggestCandidate s))) :
    ∀ {ls : List Str}, w.classify imgs = .ok ls → ls.length = imgs.length ∧ ∀ x ∈ ls, P x := by
  induction imgs with
  | nil => intro ls h; simp only [ClusWisard.classify, Except.ok.injEq] at h; subst h; simp
  | cons img imgs ih =>
    intro ls h
    obtain ⟨s, ls', h1, h2, rfl⟩ := classify_cons h
    obtain ⟨i1, i2⟩ := ih (fun i hi => hP i (by simp [hi])) h2
    refine ⟨by simp [i1], ?_⟩
    intro x hx
    rcases List.mem_cons.mp hx with rfl | hx
    · exact hP img (by simp) s h1
    · exact i2 x hx

/-- C58, the part that holds: if no label given for training contains `"::"` or ends in `':'`, `classify` returns one
label per image, each of which is one of the labels given for training (or, if the model has learnt nothing, the
empty string). Missing: other labels, see `C58_unsafe_never`. -/
theorem C58_trained_label_partial (f : Flt) {A : Int} {ms : Rat} {t dl : Int} {o : ClusOpts} {w0 : ClusWisard}
    (h0 : ClusWisard.create A ms t dl o = .ok w0) (ops : List COp) (hsafe : ∀ l ∈ labelsOf ops, SafeLabel l)
    {imgs : List (List Int)} {ls : List Str} (h : (cplay f w0 ops).1.classify imgs = .ok ls) :
    ls.length = imgs.length ∧ ∀ x ∈ ls,
      (x ∈ labelsOf ops ∧ discs (cplay f w0 ops).1 x ≠ []) ∨
      (x = [] ∧ ∀ l, discs (cplay f w0 ops).1 l = []) := by
  have hi := WInv.play (f := f) h0 ops
  refine classify_each imgs ?_ h
  intro img _ s hs
  rcases classify1_label hi.sorted hs with ⟨l, c, j, h1, h2, h3⟩ | ⟨h1, h2⟩
  · left
    rcases hi.cl l c h1 with rfl | ⟨hl, _⟩
    · simp [Cluster.getSize, Cluster.default] at h2
    · rw [h3]
      unfold dname
      rw [beforeSep_safe (hsafe l hl)]
      refine ⟨hl, ?_⟩
      unfold discs
      rw [h1]
      simp only
      intro h
      simp [Cluster.getSize, h] at h2
  · right
    rw [h2]
    refine ⟨rfl, ?_⟩
    intro l
    unfold discs
    split
    · rename_i c hc
      exact List.eq_nil_of_length_eq_zero (h1 l c hc)
    · rfl

/-- Two classes, both of which are returned. -/
example : (cplay Flt.exact cw0 [op0]).1.classify [[1, 0, 1, 0], [1, 1, 1, 1]] = .ok [b!"b", b!"a"] := by decide +kernel

/-- A class that is never returned: the image is recognized but `"x::y"` is cut. -/
example : (cplay Flt.exact cw0 [.train (fun _ => env0) [[1, 1, 1, 1]] [b!"x::y"]]).1.classify [[1, 1, 1, 1]] = .ok [b!"x"] := by
  decide +kernel

/-- C58 fails for the other labels: whatever the model has learnt, `classify` never returns a label that contains
`"::"` or ends in `':'`. -/
theorem C58_unsafe_never {w : ClusWisard} (hs : SMap.Sorted w.clusters) {imgs : List (List Int)} {ls : List Str}
    (h : w.classify imgs = .ok ls) : ∀ x ∈ ls, SafeLabel x := by
  refine (classify_each imgs ?_ h).2
  intro img _ s hs'
  rcases classify1_label hs hs' with ⟨l, c, j, _, _, h3⟩ | ⟨_, h2⟩
  · rw [h3]; exact beforeSep_isSafe l _
  · rw [h2]
    constructor
    · rintro ⟨a, b, h⟩
      rw [sep_eq] at h
      simp [beforeSep] at h
    · rintro ⟨a, h⟩
      have := congrArg List.length h
      have h2 : (b!":" : Str).length = 1 := by decide
      rw [List.length_append, h2] at this
      simp [beforeSep] at this

end Wis
