import Verif.Props.ClusMore
import Verif.Props.Bleaching
/-!
# C75, C77: valid calls succeed; what every discriminator of a class was trained with
-/

namespace Wis
open Spec

/-- A model all of whose classes were made by valid trainings, at most `N` images in all per class. -/
structure GoodW (w0 : ClusWisard) (n : Nat) (L : List Str) (N : Nat) (w : ClusWisard) : Prop where
  const : w = { w0 with clusters := w.clusters, unsupervisedCluster := w.unsupervisedCluster }
  sorted : SMap.Sorted w.clusters
  cl : ∀ l c, w.clusters.find l = some c → l ∈ L ∧ ∃ ds H, c = ⟨some (w0.clusterCfg n), ds.map some⟩ ∧ ds ≠ [] ∧
    GoodC (w0.clusterCfg n) n H ds ∧ (ds.length : Int) ≤ w0.discriminatorsLimit ∧ H.length ≤ N

theorem GoodW.mono {w0 w : ClusWisard} {n N N' : Nat} {L L' : List Str} (h : GoodW w0 n L N w) (hN : N ≤ N') (hL : ∀ l ∈ L, l ∈ L') :
    GoodW w0 n L' N' w := by
  refine ⟨h.const, h.sorted, ?_⟩
  intro l c hc
  obtain ⟨h1, ds, H, h2, h3, h4, h5, h6⟩ := h.cl l c hc
  exact ⟨hL l h1, ds, H, h2, h3, h4, h5, by omega⟩

theorem GoodW.train1 {f : Flt} {w0 w : ClusWisard} {A n N : Nat} {L : List Str} (hc : CfgOK (w0.clusterCfg n) A n)
    (h : GoodW w0 n L N w) (hN : N < 2147483647) (env : Env) {img : List Int} (hv : ValidImage n w0.opts.base (.vec img))
    {l : Str} (hl : l ∈ L) : ∃ w', w.train1 f env img l = (w', .ok ()) ∧ GoodW w0 n L (N + 1) w' ∧ w'.clusters ≠ [] := by
  have hcfg : w.clusterCfg n = w0.clusterCfg n := by rw [h.const]; rfl
  have hx : (img.length : Int) = n := hv.1
  have htarget : ∃ ds H, w.target img l = ⟨some (w0.clusterCfg n), ds.map some⟩ ∧ GoodC (w0.clusterCfg n) n H ds ∧
      (ds.length : Int) ≤ w0.discriminatorsLimit ∧ H.length ≤ N := by
    unfold ClusWisard.target
    cases hf : w.clusters.find l with
    | none =>
      refine ⟨[], [], ?_, ⟨by simp, by simp⟩, ?_, by simp⟩
      · rw [Option.getD_none, hx, hcfg]; rfl
      · have := hc.room; simp only [List.length_nil]; exact le_trans (by decide) this
    | some c =>
      obtain ⟨_, ds, H, h2, _, h4, h5, h6⟩ := h.cl l c hf
      exact ⟨ds, H, h2, h4, h5, h6⟩
  obtain ⟨ds, H, t1, t2, t3, t4⟩ := htarget
  obtain ⟨ds', e1, e2, e3, e4⟩ := t2.train (f := f) hc t3 (by omega) env hv
  rw [ClusWisard.train1_eq, t1, e1]
  refine ⟨_, rfl, ⟨?_, SMap.sorted_set h.sorted _ _, ?_⟩, ?_⟩
  · have := h.const
    simp only
    rw [this]
  · intro k c hk
    by_cases hkl : k = l
    · subst hkl
      simp only [SMap.find_set_self, Option.some.injEq] at hk
      refine ⟨hl, ds', H ++ [.vec img], hk.symm, ?_, e3, e4, by simp; omega⟩
      rintro rfl
      obtain ⟨d, hd, _⟩ := e2.knows
      simp at hd
    · simp only [SMap.find_set_ne _ _ hkl] at hk
      obtain ⟨h1, ds, H, h2, h3, h4, h5, h6⟩ := h.cl k c hk
      exact ⟨h1, ds, H, h2, h3, h4, h5, by omega⟩
  · intro hnil
    have := SMap.find_set_self w.clusters l (⟨some (w0.clusterCfg n), ds'.map some⟩ : Cluster)
    simp only at hnil
    rw [hnil] at this
    simp [SMap.find] at this

theorem classifyLoop_good {w0 : ClusWisard} {A n : Nat} (hc : CfgOK (w0.clusterCfg n) A n) {H : List Image}
    (hH : ∀ x ∈ H, ValidImage n (w0.clusterCfg n).base x) {img : Image} (hv : ValidImage n (w0.clusterCfg n).base img)
    (ds : List Discriminator) (hd : ∀ d ∈ ds, GoodD (w0.clusterCfg n) n H d) :
    ∃ vs, Cluster.classifyLoop img (ds.map some) = .ok vs ∧ ∀ u ∈ vs, ∀ v ∈ u, v ≤ (H.length : Int) := by
  induction ds with
  | nil => exact ⟨[], rfl, by simp⟩
  | cons d ds ih =>
    obtain ⟨vs, h1, h2⟩ := ih (fun x hx => hd x (by simp [hx]))
    obtain ⟨u, h3, h4⟩ := (hd d (by simp)).classify hc hH hv
    refine ⟨u :: vs, ?_, ?_⟩
    · simp only [List.map_cons, Cluster.classifyLoop, h3, h1, Except.bind_ok]
    · intro y hy
      rcases List.mem_cons.mp hy with rfl | hy
      · exact fun v hv => (h4 v hv).2
      · exact h2 y hy

theorem addVotes_mem (l : Str) (vs : List (List Int)) : ∀ (j : Nat) (m : Votes), ∀ e ∈ ClusWisard.addVotes l vs j m,
    e ∈ m ∨ e.2 ∈ vs := by
  induction vs with
  | nil => intro j m e he; exact .inl he
  | cons v vs ih =>
    intro j m e he
    rcases ih _ _ e he with h | h
    · rcases SMap.mem_set h with rfl | h
      · exact .inr (by simp)
      · exact .inl h
    · exact .inr (by simp [h])

theorem GoodW.classify1 {w0 w : ClusWisard} {A n N : Nat} {L : List Str} (hc : CfgOK (w0.clusterCfg n) A n)
    (h : GoodW w0 n L N w) (hN : N ≤ 2147483645) {img : List Int} (hv : ValidImage n w0.opts.base (.vec img)) (sb : Bool) :
    ∃ s, w.classify1 img sb = .ok s := by
  have gen : ∀ (cs : SMap Cluster), (∀ e ∈ cs, ∃ ds H, e.2 = ⟨some (w0.clusterCfg n), ds.map some⟩ ∧
      GoodC (w0.clusterCfg n) n H ds ∧ H.length ≤ N) → ∀ m : Votes, (∀ e ∈ m, ∀ v ∈ e.2, v ≤ (N : Int)) →
      ∃ m', ClusWisard.allvotes img cs m = .ok m' ∧ ∀ e ∈ m', ∀ v ∈ e.2, v ≤ (N : Int) := by
    intro cs
    induction cs with
    | nil => intro _ m hm; exact ⟨m, rfl, hm⟩
    | cons e cs ih =>
      intro hcs m hm
      obtain ⟨l, c⟩ := e
      obtain ⟨ds, H, h1, h2, h3⟩ := hcs (l, c) (by simp)
      simp only at h1
      subst h1
      obtain ⟨vs, v1, v2⟩ := classifyLoop_good hc h2.valid hv ds h2.disc
      simp only [ClusWisard.allvotes, Cluster.classify, v1, Except.bind_ok]
      refine ih (fun e he => hcs e (by simp [he])) _ ?_
      intro e he v hve
      rcases addVotes_mem _ _ _ _ e he with h | h
      · exact hm e h v hve
      · have := v2 _ h v hve
        omega
  obtain ⟨votes, g1, g2⟩ := gen w.clusters (by
    rintro ⟨l, c⟩ he
    obtain ⟨_, ds, H, h2, _, h4, _, h6⟩ := h.cl l c (SMap.find_of_mem h.sorted he)
    exact ⟨ds, H, h2, h4, h6⟩) [] (by simp)
  obtain ⟨s, b, l1, _⟩ := Bleaching.loop_ok votes w.opts.bleachingActivated w.opts.confidence 1 N g2 (by omega) (by omega) (by omega)
  refine ⟨s, ?_⟩
  unfold ClusWisard.classify1
  rw [g1, Except.bind_ok]
  exact Bleaching.make_of_loop l1

theorem GoodW.trainLoop {f : Flt} {w0 : ClusWisard} {A n : Nat} {L : List Str} (hc : CfgOK (w0.clusterCfg n) A n)
    (env : Nat → Env) (es : List (List Int × Str)) (hv : ∀ e ∈ es, ValidImage n w0.opts.base (.vec e.1) ∧ e.2 ∈ L) :
    ∀ {w : ClusWisard} {N : Nat} (i : Nat), GoodW w0 n L N w → N + es.length ≤ 2147483647 →
      ∃ w', w.trainLoop f env es i = (w', .ok ()) ∧ GoodW w0 n L (N + es.length) w' := by
  induction es with
  | nil => intro w N i h _; exact ⟨w, rfl, h⟩
  | cons e es ih =>
    intro w N i h hN
    obtain ⟨img, l⟩ := e
    simp only [List.length_cons] at hN
    obtain ⟨h1, h2⟩ := hv (img, l) (by simp)
    obtain ⟨w1, t1, t2, _⟩ := h.train1 (f := f) hc (by omega) (env i) h1 h2
    obtain ⟨w2, g1, g2⟩ := ih (fun e he => hv e (by simp [he])) (i + 1) t2 (by omega)
    refine ⟨w2, ?_, ?_⟩
    · simp only [ClusWisard.trainLoop, t1]; exact g1
    · rw [List.length_cons, show N + (es.length + 1) = N + 1 + es.length by omega]; exact g2

theorem GoodW.trainEach {f : Flt} {w0 : ClusWisard} {A n : Nat} {L : List Str} (hc : CfgOK (w0.clusterCfg n) A n)
    (env : Nat → Env) (es : List (Nat × (List Int × Str))) (hv : ∀ e ∈ es, ValidImage n w0.opts.base (.vec e.2.1) ∧ e.2.2 ∈ L) :
    ∀ {w : ClusWisard} {N : Nat}, GoodW w0 n L N w → N + es.length ≤ 2147483647 →
      ∃ w', Spec.trainEach f w env es = (w', .ok ()) ∧ GoodW w0 n L (N + es.length) w' := by
  induction es with
  | nil => intro w N h _; exact ⟨w, rfl, h⟩
  | cons e es ih =>
    intro w N h hN
    obtain ⟨i, img, l⟩ := e
    simp only [List.length_cons] at hN
    obtain ⟨h1, h2⟩ := hv (i, img, l) (by simp)
    obtain ⟨w1, t1, t2, _⟩ := h.train1 (f := f) hc (by omega) (env i) h1 h2
    obtain ⟨w2, g1, g2⟩ := ih (fun e he => hv e (by simp [he])) t2 (by omega)
    refine ⟨w2, ?_, ?_⟩
    · rw [trainEach_cons, t1]; exact g1
    · rw [List.length_cons, show N + (es.length + 1) = N + 1 + es.length by omega]; exact g2

theorem GoodW.trainOwn {f : Flt} {w0 w : ClusWisard} {A n N : Nat} {L : List Str} (hc : CfgOK (w0.clusterCfg n) A n)
    (h : GoodW w0 n L N w) (hsafe : ∀ l ∈ L, SafeLabel l) (hne : w.clusters ≠ []) (hN : N ≤ 2147483645) (env : Env)
    {img : List Int} (hv : ValidImage n w0.opts.base (.vec img)) :
    ∃ w', w.trainOwn f env img = (w', .ok ()) ∧ GoodW w0 n L (N + 1) w' ∧ w'.clusters ≠ [] := by
  obtain ⟨s, hs⟩ := h.classify1 hc hN hv false
  unfold ClusWisard.trainOwn
  rw [hs]
  simp only
  rcases classify1_label h.sorted hs with ⟨l, c, j, h1, h2, h3⟩ | ⟨h1, _⟩
  · obtain ⟨hl, _⟩ := h.cl l c h1
    rw [h3]
    unfold dname
    rw [beforeSep_safe (hsafe l hl)]
    have : w.trainIn f env img l = w.train1 f env img l := by unfold ClusWisard.train1; rw [h1]
    rw [this]
    exact h.train1 hc (by omega) env hv hl
  · cases hcs : w.clusters with
    | nil => exact absurd hcs hne
    | cons e cs =>
      have hf := SMap.find_of_mem h.sorted (show (e.1, e.2) ∈ w.clusters by rw [hcs]; simp)
      obtain ⟨_, ds, H, h2, h3, _⟩ := h.cl e.1 e.2 hf
      have := h1 e.1 e.2 hf
      rw [h2] at this
      simp [Cluster.getSize] at this
      exact absurd this h3

theorem GoodW.ownLoop {f : Flt} {w0 : ClusWisard} {A n : Nat} {L : List Str} (hc : CfgOK (w0.clusterCfg n) A n)
    (hsafe : ∀ l ∈ L, SafeLabel l) (env : Nat → Env) (imgs : List (List Int))
    (hv : ∀ x ∈ imgs, ValidImage n w0.opts.base (.vec x)) :
    ∀ {w : ClusWisard} {N : Nat} (i : Nat), GoodW w0 n L N w → w.clusters ≠ [] → N + imgs.length ≤ 2147483646 →
      ∃ w', w.ownLoop f env imgs i = (w', .ok ()) ∧ GoodW w0 n L (N + imgs.length) w' := by
  induction imgs with
  | nil => intro w N i h _ _; exact ⟨w, rfl, h⟩
  | cons x imgs ih =>
    intro w N i h hne hN
    simp only [List.length_cons] at hN
    obtain ⟨w1, t1, t2, t3⟩ := h.trainOwn (f := f) hc hsafe hne (by omega) (env i) (hv x (by simp))
    obtain ⟨w2, g1, g2⟩ := ih (fun y hy => hv y (by simp [hy])) (i + 1) t2 t3 (by omega)
    refine ⟨w2, ?_, ?_⟩
    · simp only [ClusWisard.ownLoop, t1]; exact g1
    · rw [List.length_cons, show N + (imgs.length + 1) = N + 1 + imgs.length by omega]; exact g2

/-- A well-formed training call for images of `n` pixels with values in `[0, base)`. -/
def Spec.ValidCall (n base : Int) : COp → Prop
  | .train _ images labels => images ≠ [] ∧ images.length = labels.length ∧ ∀ x ∈ images, ValidImage n base (.vec x)
  | .semi _ images labels => UniqueKeys labels ∧ labels ≠ [] ∧ (∀ e ∈ labels, ValidKey images e) ∧
      ∀ x ∈ images, ValidImage n base (.vec x)
  | .unsup _ _ => False
  | .mental _ _ => False

/-- How often a call trains at most. -/
def Spec.COp.weight : COp → Nat
  | .train _ images _ => images.length
  | .semi _ images _ => images.length + images.length
  | .unsup _ images => images.length
  | .mental _ _ => 0

theorem supervised_images (labels : LabelMap) (imgs : List (List Int)) : ∀ i, ∀ e ∈ supervised labels imgs i, e.2.1 ∈ imgs := by
  induction imgs with
  | nil => intro i e he; simp [supervised] at he
  | cons img imgs ih =>
    intro i e he
    simp only [supervised] at he
    cases hf : labels.find i with
    | none => rw [hf] at he; exact List.mem_cons_of_mem _ (ih _ e he)
    | some l =>
      rw [hf] at he
      rcases List.mem_cons.mp he with rfl | he
      · simp
      · exact List.mem_cons_of_mem _ (ih _ e he)

/-- One well-formed supervised or semi-supervised training call. -/
theorem GoodW.step (f : Flt) {A n N : Nat} {w0 w : ClusWisard} {k : Int} {L : List Str} (hc : CfgOK (w0.clusterCfg n) A n)
    (hk : calculateNumberOfRams n w0.addressSize w0.opts.completeAddressing = .ok k) (hconf : w0.opts.confidence ≤ k)
    (hL : ∀ l ∈ L, SafeLabel l) (h : GoodW w0 n L N w) (op : COp) (hvop : ValidCall n w0.opts.base op)
    (hlab1 : ∀ l ∈ op.labels, l ∈ L) (hN : N + op.weight ≤ 2147483645) :
    ∃ w1, cstep f w op = (w1, .ok ()) ∧ GoodW w0 n L (N + op.weight) w1 := by
  have hconfCheck : ∀ images : List (List Int), images ≠ [] → (∀ x ∈ images, ValidImage n w0.opts.base (.vec x)) →
      w.confidenceCheck images = .ok () := by
    intro images hne hvi
    cases images with
    | nil => exact absurd rfl hne
    | cons x xs =>
      have hx : (x.length : Int) = n := (hvi x (by simp)).1
      unfold ClusWisard.confidenceCheck ClusWisard.checkConfidence
      have hw := h.const
      have h1 : w.addressSize = w0.addressSize := by rw [hw]
      have h2 : w.opts = w0.opts := by rw [hw]
      simp only [Except.bind_ok, hx, h1, h2, hk]
      rw [if_neg (by omega)]
  cases op with
  | unsup _ _ => exact hvop.elim
  | mental _ _ => exact hvop.elim
  | train env images labels =>
  obtain ⟨v1, v2, v3⟩ := hvop
  simp only [COp.weight] at hN
  have hz : (images.zip labels).length = images.length := by simp; omega
  obtain ⟨w1, g1, g2⟩ := GoodW.trainLoop (f := f) hc env (images.zip labels) (by
    rintro ⟨x, l⟩ he
    exact ⟨v3 x (List.of_mem_zip he).1, hlab1 l (List.of_mem_zip he).2⟩) 0 h (by omega)
  refine ⟨w1, ?_, by rw [hz] at g2; exact g2⟩
  simp only [cstep, ClusWisard.train, hconfCheck images v1 v3, Except.bind_ok, Wisard.checkInputSizes, v2,
    ne_eq, not_true, if_false]
  exact g1
  | semi env images labels =>
  obtain ⟨v1, v2, v3, v4⟩ := hvop
  simp only [COp.weight] at hN
  have hcount := nUn_valid v1 v3
  have hlpos : 0 < labels.length := List.length_pos_iff.mpr v2
  have hine : images ≠ [] := by rintro rfl; simp only [List.length_nil] at hcount; omega
  have hs := supervised_length labels images 0
  obtain ⟨w1, g1, g2⟩ := GoodW.trainEach (f := f) hc (env false) (supervised labels images 0) (by
    intro e he
    exact ⟨v4 _ (supervised_images labels images 0 e he), hlab1 _ (supervised_labels labels images 0 e he)⟩) h (by omega)
  have hne1 : w1.clusters ≠ [] := by
    obtain ⟨l, hl⟩ := trainEach_nonempty (env false) (by intro he; rw [he] at hs; simp at hs; omega) g1
    intro he
    unfold discs at hl
    rw [he] at hl
    simp [SMap.find] at hl
  obtain ⟨w2, k1, k2⟩ := GoodW.ownLoop (f := f) hc hL (env true) (images.take (nUn labels images 0))
    (fun x hx => v4 x (List.mem_of_mem_take hx)) 0 g2 hne1 (by rw [List.length_take]; omega)
  refine ⟨w2, ?_, k2.mono (by simp only [COp.weight]; rw [List.length_take]; omega) (fun l hl => hl)⟩
  simp only [cstep]
  rw [trainSemi_eq f w env images labels (hconfCheck images hine v4) (by omega) (by omega), g1]
  simp only
  rw [if_neg (by omega)]
  exact k1

/-- C75: with admissible parameters, every sequence of well-formed supervised and semi-supervised training calls
succeeds (for every outcome of the random choices and every rounding), and then so does every classification of valid
images. Labels must not contain `"::"` or end in `':'`. -/
theorem C75_valid_calls_succeed (f : Flt) {A n : Nat} {ms : Rat} {t dl : Int} {o : ClusOpts} {w0 : ClusWisard} {k : Int}
    (h0 : ClusWisard.create A ms t dl o = .ok w0) (hA : 2 ≤ A) (hAn : A ≤ n) (hn : n + A ≤ 2147483647)
    (hb : 2 ≤ o.base) (hp : o.base ^ A < 2 ^ 63)
    (hk : calculateNumberOfRams n A o.completeAddressing = .ok k) (hconf : o.confidence ≤ k)
    (ops : List COp) (hv : ∀ op ∈ ops, ValidCall n o.base op) (hsafe : ∀ l ∈ labelsOf ops, SafeLabel l)
    (hlen : (ops.map COp.weight).sum ≤ 2147483645) :
    (∀ r ∈ (cplay f w0 ops).2, r = .ok ()) ∧
    ∀ xs : List (List Int), (∀ x ∈ xs, ValidImage n o.base (.vec x)) → ∃ ls, (cplay f w0 ops).1.classify xs = .ok ls := by
  obtain ⟨rfl, _, _, _, hdl⟩ := create_shape h0
  have hc := cfgOK_of (ms := ms) (t := t) (dl := dl) hA hAn hn hb hp hdl [] Cluster.default
  have gen : ∀ (L : List Str), (∀ l ∈ L, SafeLabel l) → ∀ (ops : List COp) (w : ClusWisard) (N : Nat),
      (∀ op ∈ ops, ValidCall n o.base op) → (∀ l ∈ labelsOf ops, l ∈ L) →
      GoodW ⟨A, ms, t, dl, o, [], Cluster.default⟩ n L N w → N + (ops.map COp.weight).sum ≤ 2147483645 →
      (∀ r ∈ (cplay f w ops).2, r = .ok ()) ∧
        ∃ N', N' ≤ 2147483645 ∧ GoodW ⟨A, ms, t, dl, o, [], Cluster.default⟩ n L N' (cplay f w ops).1 := by
    intro L hL ops
    induction ops with
    | nil => intro w N _ _ h hN; exact ⟨by simp [cplay], N, by simpa using hN, h⟩
    | cons op ops ih =>
      intro w N hv hlab h hN
      simp only [List.map_cons, List.sum_cons] at hN
      have hlab1 : ∀ l ∈ op.labels, l ∈ L := fun l hl => hlab l (by unfold labelsOf; rw [List.flatMap_cons]; exact List.mem_append_left _ hl)
      have hlab2 : ∀ l ∈ labelsOf ops, l ∈ L := fun l hl => hlab l (by unfold labelsOf at hl ⊢; rw [List.flatMap_cons]; exact List.mem_append_right _ hl)
      have hstep := GoodW.step f hc hk hconf hL h op (hv op (by simp)) hlab1 (by omega)
      obtain ⟨w1, s1, s2⟩ := hstep
      rw [cplay_cons, s1]
      obtain ⟨i1, i2⟩ := ih w1 (N + op.weight) (fun op hop => hv op (by simp [hop])) hlab2 s2 (by omega)
      refine ⟨?_, i2⟩
      intro r hr
      rcases List.mem_cons.mp hr with rfl | hr
      · rfl
      · exact i1 r hr
  obtain ⟨h1, N', hN', h2⟩ := gen (labelsOf ops) hsafe ops ⟨A, ms, t, dl, o, [], Cluster.default⟩ 0 hv (fun l hl => hl)
    ⟨rfl, SMap.sorted_nil, by intro l c hc; simp [SMap.find] at hc⟩ (by omega)
  refine ⟨h1, ?_⟩
  intro xs hxs
  induction xs with
  | nil => exact ⟨[], rfl⟩
  | cons x xs ih =>
    obtain ⟨ls, hls⟩ := ih (fun y hy => hxs y (by simp [hy]))
    obtain ⟨s, hs⟩ := h2.classify1 hc hN' (hxs x (by simp)) (cplay f ⟨A, ms, t, dl, o, [], Cluster.default⟩ ops).1.opts.searchBestConfidence
    exact ⟨_, by simp only [ClusWisard.classify, hs, hls, Except.bind_ok]; rfl⟩

/-- The hypotheses of C75 hold for concrete calls. -/
example : ValidCall 4 2 (.semi (fun _ _ => env0) [[1, 1, 1, 0], [0, 0, 0, 1]] [(1, b!"b")]) := by
  refine ⟨by decide, by decide, by decide, ?_⟩
  intro x hx
  simp only [List.mem_cons, List.not_mem_nil, or_false] at hx
  rcases hx with rfl | rfl
  · refine ⟨rfl, ?_⟩
    intro i hi
    have : i < 4 := hi
    interval_cases i
    · exact ⟨1, rfl, by decide⟩
    · exact ⟨1, rfl, by decide⟩
    · exact ⟨1, rfl, by decide⟩
    · exact ⟨0, rfl, by decide⟩
  · refine ⟨rfl, ?_⟩
    intro i hi
    have : i < 4 := hi
    interval_cases i
    · exact ⟨0, rfl, by decide⟩
    · exact ⟨0, rfl, by decide⟩
    · exact ⟨0, rfl, by decide⟩
    · exact ⟨1, rfl, by decide⟩

end Wis
