import Verif.Props.ClusSemi
/-!
# C61, C62, C64: unsupervised training, mental images of unknown labels, the threshold
-/

namespace Wis
open Spec

/-! ## C61 -/

/-- The environment's choices of two calls in a row. -/
def Spec.joinEnv (a : Nat → Env) (n : Nat) (b : Nat → Env) : Nat → Env := fun i => if i < n then a i else b (i - n)

theorem unsupLoop_clusters {f : Flt} (env : Nat → Env) (imgs : List (List Int)) : ∀ (w : ClusWisard) (i : Nat),
    (w.unsupLoop f env imgs i).1 = { w with unsupervisedCluster := (w.unsupLoop f env imgs i).1.unsupervisedCluster } := by
  induction imgs with
  | nil => intro w i; rfl
  | cons img imgs ih =>
    intro w i
    simp only [ClusWisard.unsupLoop]
    split
    · rw [ih]
    · rfl

theorem unsupLoop_append {f : Flt} (ea eb : Nat → Env) (n : Nat) (b : List (List Int)) (a : List (List Int)) :
    ∀ (w w1 : ClusWisard) (i : Nat), i + a.length = n → w.unsupLoop f ea a i = (w1, .ok ()) →
      w1.unsupLoop f eb b 0 = w.unsupLoop f (joinEnv ea n eb) (a ++ b) i := by
  induction a with
  | nil =>
    intro w w1 i hi h
    simp only [ClusWisard.unsupLoop, Prod.mk.injEq, and_true] at h
    subst h
    simp only [List.length_nil, Nat.add_zero] at hi
    subst hi
    rw [List.nil_append]
    have gen : ∀ (b : List (List Int)) (w : ClusWisard) (k : Nat),
        w.unsupLoop f eb b k = w.unsupLoop f (joinEnv ea i eb) b (i + k) := by
      intro b
      induction b with
      | nil => intro w k; rfl
      | cons x b ih =>
        intro w k
        have he : joinEnv ea i eb (i + k) = eb k := by
          unfold joinEnv
          rw [if_neg (by omega)]
          congr 1
          omega
        simp only [ClusWisard.unsupLoop, he]
        split
        · rw [ih]; rfl
        · rfl
    exact gen b w 0
  | cons x a ih =>
    intro w w1 i hi h
    simp only [List.length_cons] at hi
    have he : joinEnv ea n eb i = ea i := by unfold joinEnv; rw [if_pos (by omega)]
    simp only [ClusWisard.unsupLoop, List.cons_append, he] at h ⊢
    split at h
    · exact ih _ w1 (i + 1) (by omega) h
    · cases h

/-- C61, the part that holds: in a model with supervised classes, unsupervised training accumulates. Missing: a model
without supervised classes forgets (`C61_forgets`), and in a model with classes the very first unsupervised training is
undefined behaviour (`C61_undefined`). -/
theorem C61_accumulates_partial (f : Flt) {w w1 : ClusWisard} (hc : w.clusters ≠ []) (ea eb : Nat → Env) (a b : List (List Int))
    (h : w.trainUnsupervised f ea a = (w1, .ok ())) :
    w1.trainUnsupervised f eb b = w.trainUnsupervised f (joinEnv ea a.length eb) (a ++ b) := by
  have hlen : ¬ w.clusters.length = 0 := by simpa using hc
  unfold ClusWisard.trainUnsupervised at h ⊢
  rw [if_neg hlen] at h ⊢
  have hw1 : w1.clusters = w.clusters := by
    have := unsupLoop_clusters (f := f) ea a w 0
    rw [h] at this
    simp only at this
    rw [this]
  rw [hw1, if_neg hlen]
  exact unsupLoop_append ea eb a.length b a w w1 0 (by simp) h

/-- C61 is false without supervised classes: every call forgets what earlier calls learnt. -/
theorem C61_forgets (f : Flt) {w : ClusWisard} (hc : w.clusters = []) (ea eb : Nat → Env) (a b : List (List Int)) (hb : b ≠ []) :
    (w.trainUnsupervised f ea a).1.trainUnsupervised f eb b = w.trainUnsupervised f eb b := by
  have h1 : ∃ c, (w.trainUnsupervised f ea a).1 = { w with unsupervisedCluster := c } := by
    unfold ClusWisard.trainUnsupervised
    rw [if_pos (by rw [hc]; rfl)]
    cases a with
    | nil => exact ⟨_, rfl⟩
    | cons x a => exact ⟨_, unsupLoop_clusters (f := f) ea _ _ 0⟩
  obtain ⟨c, h1⟩ := h1
  rw [h1]
  unfold ClusWisard.trainUnsupervised
  simp only [hc, List.length_nil, if_true]
  cases b with
  | nil => exact absurd rfl hb
  | cons x b => rfl

/-- C61 fails with supervised classes too: if unsupervised training was not used before the first supervised class
appeared, it is undefined behaviour. -/
theorem C61_undefined (f : Flt) {w : ClusWisard} (hc : w.clusters ≠ []) (hu : w.unsupervisedCluster = Cluster.default)
    (env : Nat → Env) (images : List (List Int)) (hi : images ≠ []) : IsUB (w.trainUnsupervised f env images).2 := by
  unfold ClusWisard.trainUnsupervised
  rw [if_neg (by simpa using hc)]
  cases images with
  | nil => exact absurd rfl hi
  | cons x xs =>
    simp only [ClusWisard.unsupLoop, hu, default_train]
    exact ⟨_, rfl⟩

/-- The state after a supervised training is such a model, and forgetting loses something. -/
example : let w1 := (cw0.train Flt.exact (fun _ => env0) [[1, 1, 1, 1]] [b!"a"]).1
    w1.clusters ≠ [] ∧ w1.unsupervisedCluster = Cluster.default ∧
    cw0.trainUnsupervised Flt.exact (fun _ => env0) [[1, 1, 1, 1], [0, 0, 0, 0]] ≠
      cw0.trainUnsupervised Flt.exact (fun _ => env0) [[0, 0, 0, 0]] := by
  decide +kernel

/-- The hypotheses of `C61_accumulates_partial`. -/
example : let w1 := ((cw0.trainUnsupervised Flt.exact (fun _ => env0) [[1, 0, 0, 1]]).1.train Flt.exact (fun _ => env0) [[1, 1, 1, 1]] [b!"a"]).1
    w1.clusters ≠ [] ∧ (w1.trainUnsupervised Flt.exact (fun _ => env0) [[1, 1, 1, 1], [0, 0, 0, 0]]).2 = .ok () := by
  decide +kernel

/-! ## C62 -/

/-- C62, the part that holds (1): a known label. -/
theorem C62_known_partial (w : ClusWisard) (it : IterOrder) {l : Str} (h : l ∈ w.clusters.keys) :
    (w.getMentalImage it l).1 = w := by
  obtain ⟨c, hc⟩ := SMap.mem_keys_iff.mp h
  unfold ClusWisard.getMentalImage
  rw [hc]

theorem allvotes_default {img : List Int} (cs : SMap Cluster) {l : Str} (hl : cs.find l = none) : ∀ m : Votes,
    ClusWisard.allvotes img (cs.set l Cluster.default) m = ClusWisard.allvotes img cs m := by
  have hd : ∀ cs m, ClusWisard.allvotes img ((l, Cluster.default) :: cs) m = ClusWisard.allvotes img cs m := by
    intro cs m; rfl
  induction cs with
  | nil => intro m; exact hd [] m
  | cons e cs ih =>
    intro m
    obtain ⟨k, c⟩ := e
    simp only [SMap.find] at hl
    split at hl
    · cases hl
    · rename_i hk
      simp only [SMap.set]
      split
      · exact absurd ‹_› hk
      · split
        · exact hd _ m
        · simp only [ClusWisard.allvotes]
          congr 1
          funext vs
          exact ih hl _

/-- C62, the part that holds (2): asking for any label changes no classification. Missing: for an unknown label later
training is affected, see `C62_refuted`. -/
theorem C62_classification_partial (w : ClusWisard) (it : IterOrder) (l : Str) (imgs : List (List Int)) :
    (w.getMentalImage it l).1.classify imgs = w.classify imgs := by
  unfold ClusWisard.getMentalImage
  split
  · rfl
  · rename_i hl
    induction imgs with
    | nil => rfl
    | cons img imgs ih =>
      simp only [ClusWisard.classify, ClusWisard.classify1, allvotes_default w.clusters hl] at ih ⊢
      rw [ih]

/-- C62 is false for later training: after `getMentalImage` of an unknown label, training this label is undefined
behaviour (for every image and every model), and so is unsupervised training in a model that had no classes and no
unsupervised training before. -/
theorem C62_refuted (f : Flt) (w : ClusWisard) (it : IterOrder) {l : Str} (hl : l ∉ w.clusters.keys)
    (env : Nat → Env) (img : List Int) (imgs : List (List Int)) (ls : List Str) :
    (w.confidenceCheck (img :: imgs) = .ok () → imgs.length = ls.length →
      IsUB ((w.getMentalImage it l).1.train f env (img :: imgs) (l :: ls)).2) ∧
    (w.unsupervisedCluster = Cluster.default → IsUB ((w.getMentalImage it l).1.trainUnsupervised f env (img :: imgs)).2) := by
  have hf := SMap.find_none_iff.mpr hl
  have hg : (w.getMentalImage it l).1 = { w with clusters := w.clusters.set l Cluster.default } := by
    unfold ClusWisard.getMentalImage
    rw [hf]
  rw [hg]
  constructor
  · intro hc hlen
    unfold ClusWisard.train
    have hcc : ClusWisard.confidenceCheck { w with clusters := w.clusters.set l Cluster.default } (img :: imgs) =
        w.confidenceCheck (img :: imgs) := rfl
    simp only [hcc, hc, Except.bind_ok, Wisard.checkInputSizes, List.length_cons, hlen, ne_eq, not_true, if_false,
      List.zip_cons_cons, ClusWisard.trainLoop]
    rw [ClusWisard.train1_eq]
    unfold ClusWisard.target
    simp only [SMap.find_set_self, Option.getD_some, default_train]
    exact ⟨_, rfl⟩
  · intro hu
    refine C61_undefined f (w := { w with clusters := w.clusters.set l Cluster.default }) ?_ hu env (img :: imgs) (by simp)
    intro h
    have := SMap.find_set_self w.clusters l Cluster.default
    simp only at h
    rw [h] at this
    simp [SMap.find] at this

/-- Without the call to `getMentalImage` both trainings are fine. -/
example : cw0.confidenceCheck [[1, 1, 1, 1]] = .ok () ∧ cw0.unsupervisedCluster = Cluster.default ∧
    (cw0.train Flt.exact (fun _ => env0) [[1, 1, 1, 1]] [b!"a"]).2 = .ok () ∧
    (cw0.trainUnsupervised Flt.exact (fun _ => env0) [[1, 1, 1, 1]]).2 = .ok () := by
  decide +kernel

/-! ## C64 -/

/-- C64, the part that holds: a discriminator that has learnt at least `threshold` examples is required a score of 1,
whatever the rounding, so by `C57_learns` it learns further only images of score at least 1, or as the last resort when
no discriminator reaches its required score and no new one is allowed. Missing: a bound, see `C64_refuted`. -/
theorem C64_strict_partial (f : Flt) (c : ClusterCfg) (hm : 0 ≤ c.minScore) (ht : 0 < f.rnd c.threshold) (count : Int)
    (h : (c.threshold : Int) ≤ count) : required f c count = 1 := by
  unfold required
  refine min_eq_left ?_
  have h1 : f.rnd c.threshold ≤ f.rnd count := f.mono (by exact_mod_cast h)
  have h2 : (1 : Rat) ≤ f.rnd count / f.rnd c.threshold := by
    rw [le_div_iff₀ ht]; linarith
  have h3 : 1 ≤ f.rnd (f.rnd count / f.rnd c.threshold) := by
    have := f.mono h2
    rwa [f.one] at this
  have h4 : (1 : Rat) ≤ c.minScore + f.rnd (f.rnd count / f.rnd c.threshold) := by linarith
  have := f.mono h4
  rwa [f.one] at this

/-- With a limit of one discriminator: exactly one, which learns everything. -/
theorem learns_one {f : Flt} {c : ClusterCfg} {rnd : Rnd} {img : Image} {d : Discriminator} {ds' : List Discriminator}
    (hl : c.discriminatorsLimit = 1) (h : Learns f c rnd img [d] ds') : ∃ d', ds' = [d'] ∧ d.train img = (d', .ok ()) := by
  cases h with
  | fitting hs he =>
    cases he with
    | cons h1 h2 =>
      cases h2
      obtain ⟨d0, hd0, hr⟩ := hs
      simp only [List.mem_singleton] at hd0
      subst hd0
      rcases h1 with ⟨_, h1⟩ | ⟨h1, _⟩
      · exact ⟨_, rfl, h1⟩
      · exact absurd hr h1
  | fresh _ hroom _ _ => rw [hl] at hroom; simp at hroom
  | @best pre post d0 d1 _ _ hsp _ ht =>
    cases pre with
    | nil =>
      simp only [List.nil_append, List.cons.injEq] at hsp
      obtain ⟨rfl, rfl⟩ := hsp
      exact ⟨d1, rfl, ht⟩
    | cons p pre => simp at hsp

theorem cfgOK_of {A n : Nat} {ms : Rat} {t dl : Int} {o : ClusOpts} (hA : 2 ≤ A) (hAn : A ≤ n) (hn : n + A ≤ 2147483647)
    (hb : 2 ≤ o.base) (hp : o.base ^ A < 2 ^ 63) (hdl : 1 ≤ dl) (cs : SMap Cluster) (u : Cluster) :
    CfgOK ((⟨A, ms, t, dl, o, cs, u⟩ : ClusWisard).clusterCfg n) A n :=
  ⟨rfl, rfl, hA, hAn, hn, hb, hp, hdl⟩

/-- C64 is false: with `discriminatorsLimit = 1`, whatever the threshold, training any number of (valid) images makes
the only discriminator of the class learn all of them. -/
theorem C64_refuted (f : Flt) {A n : Nat} {ms : Rat} {t : Int} {o : ClusOpts} {w0 : ClusWisard}
    (h0 : ClusWisard.create A ms t 1 o = .ok w0) (hA : 2 ≤ A) (hAn : A ≤ n) (hn : n + A ≤ 2147483647)
    (hb : 2 ≤ o.base) (hp : o.base ^ A < 2 ^ 63) (env : Nat → Env) (l : Str) (images : List (List Int)) (hne : images ≠ [])
    (hv : ∀ x ∈ images, ValidImage n o.base (.vec x)) (hlen : images.length ≤ 2147483647)
    (hc : w0.confidenceCheck images = .ok ()) :
    ∃ w' d, w0.train f env images (List.replicate images.length l) = (w', .ok ()) ∧ discs w' l = [some d] ∧
      d.getNumberOfTrainings = images.length := by
  obtain ⟨rfl, _⟩ := create_shape h0
  have hcfg := fun cs u => cfgOK_of (ms := ms) (t := t) (dl := 1) hA hAn hn hb hp (Int.le_refl 1) cs u
  have gen : ∀ (imgs : List (List Int)) (w : ClusWisard) (i : Nat) (H : List Image) (d : Discriminator),
      (∀ x ∈ imgs, ValidImage n o.base (.vec x)) → H.length + imgs.length ≤ 2147483647 →
      (∃ cs u, w = ⟨A, ms, t, 1, o, cs, u⟩) →
      w.clusters.find l = some ⟨some ((⟨A, ms, t, 1, o, [], Cluster.default⟩ : ClusWisard).clusterCfg n), [some d]⟩ →
      GoodC ((⟨A, ms, t, 1, o, [], Cluster.default⟩ : ClusWisard).clusterCfg n) n H [d] →
      ∃ w' d', w.trainLoop f env (imgs.zip (List.replicate imgs.length l)) i = (w', .ok ()) ∧ discs w' l = [some d'] ∧
        d'.getNumberOfTrainings = d.getNumberOfTrainings + imgs.length := by
    intro imgs
    induction imgs with
    | nil =>
      intro w i H d _ _ _ hf _
      refine ⟨w, d, rfl, by unfold discs; rw [hf], by simp⟩
    | cons x imgs ih =>
      intro w i H d hv hlen hw hf hg
      simp only [List.length_cons] at hlen
      obtain ⟨ds', e1, e2, e3, _⟩ := hg.train (f := f) (hcfg [] Cluster.default) (by simp [ClusWisard.clusterCfg]) (by omega) (env i) (hv x (by simp))
      obtain ⟨d1, rfl, e5⟩ := learns_one rfl e2
      have ht : w.train1 f (env i) x l =
          ({ w with clusters := w.clusters.set l ⟨some ((⟨A, ms, t, 1, o, [], Cluster.default⟩ : ClusWisard).clusterCfg n), [some d1]⟩ }, .ok ()) := by
        rw [ClusWisard.train1_eq]
        unfold ClusWisard.target
        rw [hf, Option.getD_some, show ([some d] : List (Option Discriminator)) = [d].map some from rfl, e1]
        rfl
      simp only [List.length_cons, List.replicate_succ, List.zip_cons_cons, ClusWisard.trainLoop, ht]
      obtain ⟨cs, u, rfl⟩ := hw
      obtain ⟨w', d', g1, g2, g3⟩ := ih
        { addressSize := A, minScore := ms, threshold := t, discriminatorsLimit := 1, opts := o,
          clusters := cs.set l ⟨some ((⟨A, ms, t, 1, o, [], Cluster.default⟩ : ClusWisard).clusterCfg n), [some d1]⟩, unsupervisedCluster := u }
        (i + 1) (H ++ [.vec x]) d1 (fun y hy => hv y (by simp [hy])) (by simp; omega) ⟨_, _, rfl⟩
        (SMap.find_set_self _ _ _) e3
      refine ⟨w', d', g1, g2, ?_⟩
      rw [g3, train_count e5]
      push_cast
      ring
  cases images with
  | nil => exact absurd rfl hne
  | cons x imgs =>
    have hg0 : GoodC ((⟨A, ms, t, 1, o, [], Cluster.default⟩ : ClusWisard).clusterCfg n) n [] [] := ⟨by simp, by simp⟩
    obtain ⟨ds', e1, e2, e3, _⟩ := hg0.train (f := f) (hcfg [] Cluster.default) (by simp [ClusWisard.clusterCfg]) (by simp) (env 0) (hv x (by simp))
    have hx : (x.length : Int) = n := (hv x (by simp)).1
    have hone : ∃ d1, ds' = [d1] ∧ d1.getNumberOfTrainings = 1 := by
      cases e2 with
      | fitting hs _ => obtain ⟨d, hd, _⟩ := hs; simp at hd
      | @fresh d0 d1 _ _ hnew ht => exact ⟨d1, rfl, by rw [train_count ht, isNew_count hnew]; rfl⟩
      | best _ _ hsp _ _ => simp at hsp
    obtain ⟨d1, rfl, hcount⟩ := hone
    have ht : (⟨A, ms, t, 1, o, [], Cluster.default⟩ : ClusWisard).train1 f (env 0) x l =
        (⟨A, ms, t, 1, o, SMap.set [] l ⟨some ((⟨A, ms, t, 1, o, [], Cluster.default⟩ : ClusWisard).clusterCfg n), [some d1]⟩, Cluster.default⟩, .ok ()) := by
      rw [ClusWisard.train1_eq]
      unfold ClusWisard.target
      simp only [SMap.find, Option.getD_none, hx]
      rw [show Cluster.create _ = (⟨some ((⟨A, ms, t, 1, o, [], Cluster.default⟩ : ClusWisard).clusterCfg n), ([] : List Discriminator).map some⟩ : Cluster) from rfl, e1]
      rfl
    simp only [List.length_cons] at hlen
    obtain ⟨w', d', g1, g2, g3⟩ := gen imgs _ 1 [.vec x] d1 (fun y hy => hv y (by simp [hy])) (by simp; omega) ⟨_, _, rfl⟩
      (SMap.find_set_self _ _ _) e3
    refine ⟨w', d', ?_, g2, ?_⟩
    · unfold ClusWisard.train
      simp only [hc, Except.bind_ok, Wisard.checkInputSizes, List.length_replicate, ne_eq, not_true, if_false,
        List.length_cons, List.replicate_succ, List.zip_cons_cons, ClusWisard.trainLoop, ht]
      exact g1
    · rw [g3, hcount]
      simp only [List.length_cons]
      push_cast
      ring

/-- `C64_refuted` with threshold 1: three images are learnt. -/
example : ((⟨2, 1/2, 1, 1, {}, [], Cluster.default⟩ : ClusWisard).train Flt.exact (fun _ => env0)
    [[1, 1, 1, 1], [0, 0, 1, 1], [0, 0, 0, 0]] [b!"a", b!"a", b!"a"]).2 = .ok () := by
  decide +kernel

end Wis
