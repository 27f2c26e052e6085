import Verif.Props.ClusTotal
import Verif.Props.ClusPython
import Verif.Lemmas.ClusSave
/-!
# C153: valid calls of all three kinds of training succeed
-/

namespace Wis
open Spec

/-- A well-formed training call for images of `n` pixels: values in `[0, base)`, in unsupervised training in `[0, 2)`. -/
def Spec.ValidTraining (n base : Int) : COp → Prop
  | .unsup _ images => images ≠ [] ∧ ∀ x ∈ images, ValidImage n 2 (.vec x)
  | op => ValidCall n base op

/-- Unsupervised training starts before all supervised training: if there is any, the first call is one. -/
def Spec.UnsupFirst (ops : List COp) : Prop := (∃ op ∈ ops, op.isUnsup = true) → ∃ op rest, ops = op :: rest ∧ op.isUnsup = true

/-- The unsupervised cluster was made by valid trainings, at most `N` images in all. -/
def GoodU (w0 : ClusWisard) (n N : Nat) (w : ClusWisard) : Prop :=
  ∃ ds H, w.unsupervisedCluster = ⟨some { w0.clusterCfg n with base := 2 }, ds.map some⟩ ∧
    GoodC { w0.clusterCfg n with base := 2 } n H ds ∧ (ds.length : Int) ≤ w0.discriminatorsLimit ∧ H.length ≤ N

theorem GoodU.mono {w0 w : ClusWisard} {n N N' : Nat} (h : GoodU w0 n N w) (hN : N ≤ N') : GoodU w0 n N' w := by
  obtain ⟨ds, H, h1, h2, h3, h4⟩ := h
  exact ⟨ds, H, h1, h2, h3, by omega⟩

theorem GoodU.loop {f : Flt} {w0 : ClusWisard} {A n : Nat} (hc : CfgOK { w0.clusterCfg n with base := 2 } A n) (env : Nat → Env)
    (imgs : List (List Int)) (hv : ∀ x ∈ imgs, ValidImage n 2 (.vec x)) :
    ∀ {w : ClusWisard} {N : Nat} (i : Nat), GoodU w0 n N w → N + imgs.length ≤ 2147483647 →
      ∃ u, w.unsupLoop f env imgs i = ({ w with unsupervisedCluster := u }, .ok ()) ∧
        GoodU w0 n (N + imgs.length) { w with unsupervisedCluster := u } := by
  induction imgs with
  | nil => intro w N i h _; exact ⟨w.unsupervisedCluster, rfl, h⟩
  | cons x imgs ih =>
    intro w N i h hN
    simp only [List.length_cons] at hN
    obtain ⟨ds, H, h1, h2, h3, h4⟩ := h
    obtain ⟨ds', e1, _, e3, e4⟩ := h2.train (f := f) hc h3 (by omega) (env i) (hv x (by simp))
    obtain ⟨u, g1, g2⟩ := ih (fun y hy => hv y (by simp [hy])) (w := { w with unsupervisedCluster := ⟨some { w0.clusterCfg n with base := 2 }, ds'.map some⟩ })
      (N := N + 1) (i + 1) ⟨ds', H ++ [.vec x], rfl, e3, e4, by simp; omega⟩ (by omega)
    refine ⟨u, ?_, ?_⟩
    · simp only [ClusWisard.unsupLoop, h1, e1]
      exact g1
    · rw [List.length_cons, show N + (imgs.length + 1) = N + 1 + imgs.length by omega]; exact g2

/-- One unsupervised training call. -/
theorem GoodU.step {f : Flt} {w0 w : ClusWisard} {A n N : Nat} {L : List Str} (hc : CfgOK { w0.clusterCfg n with base := 2 } A n)
    (hw : GoodW w0 n L N w) (hu : w.clusters = [] ∨ GoodU w0 n N w) (env : Nat → Env) (imgs : List (List Int)) (hne : imgs ≠ [])
    (hv : ∀ x ∈ imgs, ValidImage n 2 (.vec x)) (hN : N + imgs.length ≤ 2147483647) :
    ∃ w', w.trainUnsupervised f env imgs = (w', .ok ()) ∧ GoodW w0 n L (N + imgs.length) w' ∧ GoodU w0 n (N + imgs.length) w' := by
  have hgood : ∀ u, GoodW w0 n L (N + imgs.length) { w with unsupervisedCluster := u } := by
    intro u
    have := hw.mono (N' := N + imgs.length) (by omega) (fun l hl => hl)
    refine ⟨?_, this.sorted, this.cl⟩
    have hcst := this.const
    conv_lhs => rw [hcst]
  unfold ClusWisard.trainUnsupervised
  by_cases hcl : w.clusters.length = 0
  · rw [if_pos hcl]
    cases imgs with
    | nil => exact absurd rfl hne
    | cons x imgs =>
      have hx : (x.length : Int) = n := (hv x (by simp)).1
      have hcfg : w.clusterCfg n = w0.clusterCfg n := by rw [hw.const]; rfl
      dsimp only
      rw [hx, hcfg]
      obtain ⟨u, g1, g2⟩ := GoodU.loop (f := f) (w0 := w0) hc env (x :: imgs) hv
        (w := { w with unsupervisedCluster := Cluster.create { w0.clusterCfg n with base := 2 } }) (N := N) 0
        ⟨[], [], rfl, ⟨by simp, by simp⟩, by have := hc.room; simp only [List.length_nil]; exact le_trans (by decide) this, by simp⟩ hN
      exact ⟨_, g1, hgood u, g2⟩
  · rw [if_neg hcl]
    rcases hu with hu | hu
    · rw [hu] at hcl; exact absurd rfl hcl
    · obtain ⟨u, g1, g2⟩ := GoodU.loop (f := f) hc env imgs hv 0 hu hN
      exact ⟨_, g1, hgood u, g2⟩

/-- The state after valid trainings. -/
theorem good_play (f : Flt) {A n : Nat} {ms : Rat} {t dl : Int} {o : ClusOpts} {w0 : ClusWisard} {k : Int}
    (h0 : ClusWisard.create A ms t dl o = .ok w0) (hA : 2 ≤ A) (hAn : A ≤ n) (hn : n + A ≤ 2147483647)
    (hb : 2 ≤ o.base) (hp : o.base ^ A < 2 ^ 63)
    (hk : calculateNumberOfRams n A o.completeAddressing = .ok k) (hconf : o.confidence ≤ k)
    (ops : List COp) (hv : ∀ op ∈ ops, ValidTraining n o.base op) (hfirst : UnsupFirst ops) (hsafe : ∀ l ∈ labelsOf ops, SafeLabel l)
    (hlen : (ops.map COp.weight).sum ≤ 2147483645) :
    CfgOK (w0.clusterCfg n) A n ∧ CfgOK { w0.clusterCfg n with base := 2 } A n ∧
    (∀ r ∈ (cplay f w0 ops).2, r = .ok ()) ∧ GoodW w0 n (labelsOf ops) (ops.map COp.weight).sum (cplay f w0 ops).1 ∧
    ((∃ op ∈ ops, op.isUnsup = true) → GoodU w0 n (ops.map COp.weight).sum (cplay f w0 ops).1) := by
  obtain ⟨rfl, _, _, _, hdl⟩ := create_shape h0
  have hc := cfgOK_of (ms := ms) (t := t) (dl := dl) hA hAn hn hb hp hdl [] Cluster.default
  have hp2 : (2 : Int) ^ A < 2 ^ 63 := lt_of_le_of_lt (pow_le_pow_left₀ (by norm_num) hb A) hp
  have hc2 : CfgOK { (⟨A, ms, t, dl, o, [], Cluster.default⟩ : ClusWisard).clusterCfg n with base := 2 } A n :=
    ⟨rfl, rfl, hA, hAn, hn, le_refl (2 : Int), hp2, hdl⟩
  have gen : ∀ (L : List Str), (∀ l ∈ L, SafeLabel l) → ∀ (ops : List COp) (w : ClusWisard) (N : Nat),
      (∀ op ∈ ops, ValidTraining n o.base op) → (∀ l ∈ labelsOf ops, l ∈ L) →
      GoodW ⟨A, ms, t, dl, o, [], Cluster.default⟩ n L N w →
      (UnsupFirst ops ∧ w.clusters = [] ∨ GoodU ⟨A, ms, t, dl, o, [], Cluster.default⟩ n N w ∨ ∀ op ∈ ops, op.isUnsup = false) →
      N + (ops.map COp.weight).sum ≤ 2147483645 →
      (∀ r ∈ (cplay f w ops).2, r = .ok ()) ∧ GoodW ⟨A, ms, t, dl, o, [], Cluster.default⟩ n L (N + (ops.map COp.weight).sum) (cplay f w ops).1 ∧
      (((∃ op ∈ ops, op.isUnsup = true) ∨ GoodU ⟨A, ms, t, dl, o, [], Cluster.default⟩ n N w) →
        GoodU ⟨A, ms, t, dl, o, [], Cluster.default⟩ n (N + (ops.map COp.weight).sum) (cplay f w ops).1) := by
    intro L hL ops
    induction ops with
    | nil =>
      intro w N _ _ h _ hN
      refine ⟨by simp [cplay], by simpa [cplay] using h, ?_⟩
      rintro (⟨_, h, _⟩ | h)
      · cases h
      · simpa [cplay] using h
    | cons op ops ih =>
      intro w N hv hlab h hu hN
      simp only [List.map_cons, List.sum_cons] at hN ⊢
      have hlab1 : ∀ l ∈ op.labels, l ∈ L := fun l hl => hlab l (by unfold labelsOf; rw [List.flatMap_cons]; exact List.mem_append_left _ hl)
      have hlab2 : ∀ l ∈ labelsOf ops, l ∈ L := fun l hl => hlab l (by unfold labelsOf at hl ⊢; rw [List.flatMap_cons]; exact List.mem_append_right _ hl)
      have hstep : ∃ w1, cstep f w op = (w1, .ok ()) ∧ GoodW ⟨A, ms, t, dl, o, [], Cluster.default⟩ n L (N + op.weight) w1 ∧
          ((op.isUnsup = true ∨ GoodU ⟨A, ms, t, dl, o, [], Cluster.default⟩ n N w) → GoodU ⟨A, ms, t, dl, o, [], Cluster.default⟩ n (N + op.weight) w1) := by
        by_cases hop : op.isUnsup = true
        · cases op with
          | unsup env imgs =>
            obtain ⟨v1, v2⟩ := hv (.unsup env imgs) (by simp)
            obtain ⟨w1, e1, e2, e3⟩ := GoodU.step (f := f) hc2 h (by
              rcases hu with ⟨_, hu⟩ | hu | hu
              · exact .inl hu
              · exact .inr hu
              · have := hu _ (List.mem_cons_self); cases this) env imgs v1 v2 (by simp only [COp.weight] at hN; omega)
            exact ⟨w1, e1, e2, fun _ => e3⟩
          | train _ _ _ => cases hop
          | semi _ _ _ => cases hop
          | mental _ _ => cases hop
        · have hop : op.isUnsup = false := by simpa using hop
          have hvop : ValidCall n o.base op := by
            have := hv op (by simp)
            cases op with
            | unsup _ _ => cases hop
            | train _ _ _ => exact this
            | semi _ _ _ => exact this
            | mental _ _ => exact this
          obtain ⟨w1, e1, e2⟩ := GoodW.step f hc hk hconf hL h op hvop hlab1 (by omega)
          refine ⟨w1, e1, e2, ?_⟩
          rintro (h' | h')
          · rw [hop] at h'; cases h'
          · obtain ⟨ds, H, q1, q2, q3, q4⟩ := h'
            have := trains_unsup_default (f := f) hop w
            rw [e1] at this
            exact ⟨ds, H, this.trans q1, q2, q3, by omega⟩
      obtain ⟨w1, s1, s2, s3⟩ := hstep
      rw [cplay_cons, s1]
      have hu1 : GoodU ⟨A, ms, t, dl, o, [], Cluster.default⟩ n (N + op.weight) w1 ∨ ∀ op ∈ ops, op.isUnsup = false := by
        rcases hu with ⟨hu, _⟩ | hu | hu
        · by_cases hex : ∃ x ∈ op :: ops, x.isUnsup = true
          · obtain ⟨op', rest, e, e'⟩ := hu hex
            cases e
            exact .inl (s3 (.inl e'))
          · right
            intro x hx
            by_contra hc
            exact hex ⟨x, List.mem_cons_of_mem _ hx, by simpa using hc⟩
        · exact .inl (s3 (.inr hu))
        · exact .inr fun x hx => hu x (List.mem_cons_of_mem _ hx)
      obtain ⟨i1, i2, i3⟩ := ih w1 (N + op.weight) (fun op hop => hv op (by simp [hop])) hlab2 s2 (.inr hu1) (by omega)
      rw [show N + op.weight + (ops.map COp.weight).sum = N + (op.weight + (ops.map COp.weight).sum) by omega] at i2 i3
      refine ⟨?_, i2, ?_⟩
      · intro r hr
        rcases List.mem_cons.mp hr with rfl | hr
        · rfl
        · exact i1 r hr
      · intro hex
        apply i3
        rcases hex with ⟨x, hx, hx'⟩ | hex
        · rcases List.mem_cons.mp hx with rfl | hx
          · exact .inr (s3 (.inl hx'))
          · exact .inl ⟨x, hx, hx'⟩
        · exact .inr (s3 (.inr hex))
  obtain ⟨h1, h2, h3⟩ := gen (labelsOf ops) hsafe ops ⟨A, ms, t, dl, o, [], Cluster.default⟩ 0 hv (fun l hl => hl)
    ⟨rfl, SMap.sorted_nil, by intro l c hc; simp [SMap.find] at hc⟩ (.inl ⟨hfirst, rfl⟩) (by omega)
  rw [Nat.zero_add] at h2 h3
  exact ⟨hc, hc2, h1, h2, fun h => h3 (.inl h)⟩

theorem unsupVotes_mem (vs : List (List Int)) : ∀ (j : Nat) (m : Votes), ∀ e ∈ ClusWisard.unsupVotes vs j m, e ∈ m ∨ e.2 ∈ vs := by
  induction vs with
  | nil => intro j m e he; exact .inl he
  | cons v vs ih =>
    intro j m e he
    rcases ih _ _ e he with h | h
    · rcases SMap.mem_set h with rfl | h
      · exact .inr (by simp)
      · exact .inl h
    · exact .inr (by simp [h])

theorem GoodU.classify1 {w0 w : ClusWisard} {A n N : Nat} (hc : CfgOK { w0.clusterCfg n with base := 2 } A n)
    (h : GoodU w0 n N w) (hN : N ≤ 2147483645) {img : List Int} (hv : ValidImage n 2 (.vec img)) :
    ∃ s, w.classifyUnsupervised1 img = .ok s := by
  obtain ⟨ds, H, h1, h2, _, h4⟩ := h
  have hgen : ∀ ds : List Discriminator, (∀ d ∈ ds, GoodD { w0.clusterCfg n with base := 2 } n H d) →
      ∃ vs, Cluster.classifyLoop (.vec img) (ds.map some) = .ok vs ∧ ∀ u ∈ vs, ∀ v ∈ u, v ≤ (H.length : Int) := by
    intro ds
    induction ds with
    | nil => intro _; exact ⟨[], rfl, by simp⟩
    | cons d ds ih =>
      intro hd
      obtain ⟨vs, g1, g2⟩ := ih (fun x hx => hd x (by simp [hx]))
      obtain ⟨u, g3, g4⟩ := (hd d (by simp)).classify hc h2.valid hv
      refine ⟨u :: vs, ?_, ?_⟩
      · simp only [List.map_cons, Cluster.classifyLoop, g3, g1, Except.bind_ok]
      · intro y hy
        rcases List.mem_cons.mp hy with rfl | hy
        · exact fun v hv => (g4 v hv).2
        · exact g2 y hy
  obtain ⟨vs, v1, v2⟩ := hgen ds h2.disc
  obtain ⟨s, b, l1, _⟩ := Bleaching.loop_ok (ClusWisard.unsupVotes vs 0 []) w.opts.bleachingActivated 1 1 N (by
    intro e he v hve
    rcases unsupVotes_mem vs 0 [] e he with h | h
    · cases h
    · have := v2 _ h v hve; omega) (by omega) (by omega) (by omega)
  refine ⟨s, ?_⟩
  unfold ClusWisard.classifyUnsupervised1 Cluster.classify
  rw [h1]
  simp only [v1, Except.bind_ok]
  exact Bleaching.make_of_loop l1

/-- **C153**: with admissible parameters every sequence of well-formed training calls of all three kinds succeeds, provided
that unsupervised training, if any, starts before the supervised one; then every classification of valid images succeeds, and
after unsupervised training also every unsupervised one. -/
theorem C153_all_trainings (f : Flt) {A n : Nat} {ms : Rat} {t dl : Int} {o : ClusOpts} {w0 : ClusWisard} {k : Int}
    (h0 : ClusWisard.create A ms t dl o = .ok w0) (hA : 2 ≤ A) (hAn : A ≤ n) (hn : n + A ≤ 2147483647)
    (hb : 2 ≤ o.base) (hp : o.base ^ A < 2 ^ 63)
    (hk : calculateNumberOfRams n A o.completeAddressing = .ok k) (hconf : o.confidence ≤ k)
    (ops : List COp) (hv : ∀ op ∈ ops, ValidTraining n o.base op) (hfirst : UnsupFirst ops) (hsafe : ∀ l ∈ labelsOf ops, SafeLabel l)
    (hlen : (ops.map COp.weight).sum ≤ 2147483645) :
    (∀ r ∈ (cplay f w0 ops).2, r = .ok ()) ∧
    (∀ xs : List (List Int), (∀ x ∈ xs, ValidImage n o.base (.vec x)) → ∃ ls, (cplay f w0 ops).1.classify xs = .ok ls ∧ ls.length = xs.length) ∧
    ((∃ op ∈ ops, op.isUnsup = true) → ∀ xs : List (List Int), (∀ x ∈ xs, ValidImage n 2 (.vec x)) →
      ∃ ls, (cplay f w0 ops).1.classifyUnsupervised xs = .ok ls ∧ ls.length = xs.length) := by
  obtain ⟨hc, hc2, h1, h2, h3⟩ := good_play f h0 hA hAn hn hb hp hk hconf ops hv hfirst hsafe hlen
  have ho : w0.opts = o := by obtain ⟨rfl, _⟩ := create_shape h0; rfl
  refine ⟨h1, ?_, ?_⟩
  · intro xs hxs
    induction xs with
    | nil => exact ⟨[], rfl, rfl⟩
    | cons x xs ih =>
      obtain ⟨ls, hls, hl⟩ := ih (fun y hy => hxs y (by simp [hy]))
      obtain ⟨s, hs⟩ := h2.classify1 hc hlen (by rw [ho]; exact hxs x (by simp)) (cplay f w0 ops).1.opts.searchBestConfidence
      exact ⟨_, by simp only [ClusWisard.classify, hs, hls, Except.bind_ok]; rfl, by simp [hl]⟩
  · intro hex xs hxs
    have hu := h3 hex
    induction xs with
    | nil => exact ⟨[], rfl, rfl⟩
    | cons x xs ih =>
      obtain ⟨ls, hls, hl⟩ := ih (fun y hy => hxs y (by simp [hy]))
      obtain ⟨s, hs⟩ := hu.classify1 hc2 hlen (hxs x (by simp))
      exact ⟨_, by simp only [ClusWisard.classifyUnsupervised, hs, hls, Except.bind_ok]; rfl, by simp [hl]⟩

/-- A history that meets the conditions of C153 (C61 shows that the order is needed). -/
theorem ex_unsup_first : (∀ op ∈ [COp.unsup (fun _ => env0) [[1, 1, 1, 0]], .semi (fun _ _ => env0) [[1, 1, 1, 0], [0, 0, 0, 1]] [(1, b!"b")],
      .unsup (fun _ => env0) [[0, 0, 0, 1]]], ValidTraining 4 2 op) ∧
    UnsupFirst [COp.unsup (fun _ => env0) [[1, 1, 1, 0]], .semi (fun _ _ => env0) [[1, 1, 1, 0], [0, 0, 0, 1]] [(1, b!"b")],
      .unsup (fun _ => env0) [[0, 0, 0, 1]]] := by
  have v1 : ValidImage 4 2 (.vec [1, 1, 1, 0]) := by
    refine ⟨rfl, fun i hi => ?_⟩
    have : i < 4 := hi
    interval_cases i
    · exact ⟨1, rfl, by decide⟩
    · exact ⟨1, rfl, by decide⟩
    · exact ⟨1, rfl, by decide⟩
    · exact ⟨0, rfl, by decide⟩
  have v2 : ValidImage 4 2 (.vec [0, 0, 0, 1]) := by
    refine ⟨rfl, fun i hi => ?_⟩
    have : i < 4 := hi
    interval_cases i
    · exact ⟨0, rfl, by decide⟩
    · exact ⟨0, rfl, by decide⟩
    · exact ⟨0, rfl, by decide⟩
    · exact ⟨1, rfl, by decide⟩
  refine ⟨?_, fun _ => ⟨_, _, rfl, rfl⟩⟩
  intro op hop
  simp only [List.mem_cons, List.not_mem_nil, or_false] at hop
  rcases hop with rfl | rfl | rfl
  · exact ⟨by decide, fun x hx => by rw [List.mem_singleton.mp hx]; exact v1⟩
  · refine ⟨by decide, by decide, by decide, fun x hx => ?_⟩
    simp only [List.mem_cons, List.not_mem_nil, or_false] at hx
    rcases hx with rfl | rfl
    · exact v1
    · exact v2
  · exact ⟨by decide, fun x hx => by rw [List.mem_singleton.mp hx]; exact v2⟩

end Wis
