import Verif.Lemmas.ClusStr
import Verif.Lemmas.ClusterTotal
/-! Helper lemmas about ClusWisard: invariants under any calls. -/

namespace Wis
open Spec

namespace ClusWisard

theorem trainIn_fst (f : Flt) (w : ClusWisard) (env : Env) (img : List Int) (l : Str) :
    (w.trainIn f env img l).1 =
      { w with clusters := w.clusters.set l (((w.clusters.find l).getD Cluster.default).train f env (.vec img)).1 } := rfl

theorem trainIn_snd (f : Flt) (w : ClusWisard) (env : Env) (img : List Int) (l : Str) :
    (w.trainIn f env img l).2 = (((w.clusters.find l).getD Cluster.default).train f env (.vec img)).2 := rfl

/-- The cluster that `train(image, label)` trains. -/
def target (w : ClusWisard) (img : List Int) (l : Str) : Cluster :=
  (w.clusters.find l).getD (Cluster.create (w.clusterCfg img.length))

theorem train1_eq (f : Flt) (w : ClusWisard) (env : Env) (img : List Int) (l : Str) :
    w.train1 f env img l =
      ({ w with clusters := w.clusters.set l ((w.target img l).train f env (.vec img)).1 },
        ((w.target img l).train f env (.vec img)).2) := by
  unfold train1 target
  cases h : w.clusters.find l with
  | some c =>
    simp only [trainIn, h, Option.getD_some]
  | none =>
    simp only [trainIn, SMap.find_set_self, Option.getD_some, Option.getD_none, SMap.set_set]

end ClusWisard

/-- A predicate on models that every elementary step preserves. -/
structure Closed (f : Flt) (L : List Str) (P : ClusWisard → Prop) : Prop where
  train : ∀ w env img l, l ∈ L → P w → P (w.train1 f env img l).1
  own : ∀ w env img l, P w → P (w.trainIn f env img l).1
  reset : ∀ (w : ClusWisard) (n : Int), P w → P { w with unsupervisedCluster := Cluster.create { w.clusterCfg n with base := 2 } }
  unsup : ∀ (w : ClusWisard) env img, P w → P { w with unsupervisedCluster := (w.unsupervisedCluster.train f env img).1 }
  mental : ∀ (w : ClusWisard) l, w.clusters.find l = none → P w → P { w with clusters := w.clusters.set l Cluster.default }

theorem Closed.sub {f : Flt} {L L' : List Str} {P : ClusWisard → Prop} (h : Closed f L P) (hs : ∀ l ∈ L', l ∈ L) :
    Closed f L' P := ⟨fun w env img l hl => h.train w env img l (hs l hl), h.own, h.reset, h.unsup, h.mental⟩

theorem Closed.trainLoop {f : Flt} {L : List Str} {P : ClusWisard → Prop} (h : Closed f L P) (env : Nat → Env)
    (es : List (List Int × Str)) (hL : ∀ e ∈ es, e.2 ∈ L) : ∀ (w : ClusWisard) (i : Nat), P w → P (w.trainLoop f env es i).1 := by
  induction es with
  | nil => intro w i hw; exact hw
  | cons e es ih =>
    intro w i hw
    obtain ⟨img, l⟩ := e
    have h1 := h.train w (env i) img l (hL (img, l) (by simp)) hw
    simp only [ClusWisard.trainLoop]
    split
    · rename_i w' heq
      rw [heq] at h1
      exact ih (fun e he => hL e (by simp [he])) w' (i + 1) h1
    · rename_i w' e heq
      rw [heq] at h1
      exact h1

theorem LabelMap.find_mem {m : LabelMap} {i : Int} {l : Str} (h : m.find i = some l) : (i, l) ∈ m := by
  induction m with
  | nil => simp [LabelMap.find] at h
  | cons e m ih =>
    obtain ⟨k, v⟩ := e
    simp only [LabelMap.find] at h
    split at h
    · rename_i hk
      simp only [Option.some.injEq] at h
      subst hk; subst h
      simp
    · exact List.mem_cons_of_mem _ (ih h)

theorem Closed.semiLoop {f : Flt} {L : List Str} {P : ClusWisard → Prop} (h : Closed f L P) (env : Nat → Env)
    (labels : LabelMap) (hL : ∀ e ∈ labels, e.2 ∈ L) (imgs : List (List Int)) :
    ∀ (i : Nat) (w : ClusWisard) (ll : List Int) (j : Nat), P w → P (ClusWisard.semiLoop f env labels imgs i w ll j).1 := by
  induction imgs with
  | nil => intro i w ll j hw; exact hw
  | cons img imgs ih =>
    intro i w ll j hw
    simp only [ClusWisard.semiLoop]
    split
    · split
      · exact hw
      · exact ih _ _ _ _ hw
    · rename_i l hl
      have h1 := h.train w (env i) img l (hL _ (LabelMap.find_mem hl)) hw
      split
      · rename_i w' heq
        rw [heq] at h1
        exact ih _ _ _ _ h1
      · rename_i w' e heq
        rw [heq] at h1
        exact h1

theorem Closed.trainOwn {f : Flt} {L : List Str} {P : ClusWisard → Prop} (h : Closed f L P) (w : ClusWisard) (env : Env)
    (img : List Int) (hw : P w) : P (w.trainOwn f env img).1 := by
  unfold ClusWisard.trainOwn
  split
  · exact hw
  · exact h.own w env img _ hw

theorem Closed.ownLoop {f : Flt} {L : List Str} {P : ClusWisard → Prop} (h : Closed f L P) (env : Nat → Env)
    (imgs : List (List Int)) : ∀ (w : ClusWisard) (i : Nat), P w → P (w.ownLoop f env imgs i).1 := by
  induction imgs with
  | nil => intro w i hw; exact hw
  | cons img imgs ih =>
    intro w i hw
    have h1 := h.trainOwn w (env i) img hw
    simp only [ClusWisard.ownLoop]
    split
    · rename_i w' heq
      rw [heq] at h1
      exact ih w' (i + 1) h1
    · rename_i w' e heq
      rw [heq] at h1
      exact h1

theorem Closed.unsupLoop {f : Flt} {L : List Str} {P : ClusWisard → Prop} (h : Closed f L P) (env : Nat → Env)
    (imgs : List (List Int)) : ∀ (w : ClusWisard) (i : Nat), P w → P (w.unsupLoop f env imgs i).1 := by
  induction imgs with
  | nil => intro w i hw; exact hw
  | cons img imgs ih =>
    intro w i hw
    have h1 := h.unsup w (env i) (.vec img) hw
    simp only [ClusWisard.unsupLoop]
    split
    · rename_i c heq
      rw [heq] at h1
      exact ih _ (i + 1) h1
    · rename_i c e heq
      rw [heq] at h1
      exact h1

theorem Closed.step {f : Flt} {P : ClusWisard → Prop} {o : COp} (h : Closed f o.labels P) (w : ClusWisard) (hw : P w) :
    P (cstep f w o).1 := by
  cases o with
  | train env images labels =>
    simp only [cstep, ClusWisard.train]
    split
    · exact hw
    · refine h.trainLoop env _ ?_ w 0 hw
      intro e he
      exact (List.of_mem_zip he).2
  | semi env images labels =>
    simp only [cstep, ClusWisard.trainSemi]
    split
    · exact hw
    · have h1 := h.semiLoop (env false) labels (fun e he => List.mem_map.mpr ⟨e, he, rfl⟩) images 0 w
        (List.replicate (images.length - labels.length) 0) 0 hw
      split
      · rename_i w' e heq
        rw [heq] at h1
        exact h1
      · rename_i w' ll heq
        rw [heq] at h1
        split
        · exact h1
        · exact h.ownLoop _ _ _ _ h1
  | unsup env images =>
    simp only [cstep, ClusWisard.trainUnsupervised]
    split
    · split
      · exact hw
      · rename_i i0 is
        exact h.unsupLoop env _ _ 0 (h.reset w i0.length hw)
    · exact h.unsupLoop env _ _ 0 hw
  | mental it l =>
    simp only [cstep, ClusWisard.getMentalImage]
    split
    · exact hw
    · rename_i hl
      exact h.mental w l hl hw

theorem cplay_cons (f : Flt) (w : ClusWisard) (o : COp) (ops : List COp) :
    cplay f w (o :: ops) = ((cplay f (cstep f w o).1 ops).1, (cstep f w o).2 :: (cplay f (cstep f w o).1 ops).2) := rfl

theorem cplay_append (f : Flt) (a b : List COp) : ∀ w : ClusWisard, (cplay f w (a ++ b)).1 = (cplay f (cplay f w a).1 b).1 := by
  induction a with
  | nil => intro w; rfl
  | cons o a ih => intro w; rw [List.cons_append, cplay_cons, cplay_cons, ih]

theorem Closed.play {f : Flt} {P : ClusWisard → Prop} (ops : List COp) : ∀ (w : ClusWisard),
    Closed f (labelsOf ops) P → P w → P (cplay f w ops).1 := by
  induction ops with
  | nil => intro w _ hw; exact hw
  | cons o ops ih =>
    intro w h hw
    rw [cplay_cons]
    refine ih _ (h.sub ?_) ((h.sub ?_).step w hw)
    · intro l hl; unfold labelsOf; rw [List.flatMap_cons]; exact List.mem_append_right _ hl
    · intro l hl; unfold labelsOf; rw [List.flatMap_cons]; exact List.mem_append_left _ hl

/-- Invariant of a ClusWisard created as `w0` whose training calls used the labels `L`. -/
structure WInv (f : Flt) (w0 : ClusWisard) (L : List Str) (w : ClusWisard) : Prop where
  const : w = { w0 with clusters := w.clusters, unsupervisedCluster := w.unsupervisedCluster }
  sorted : SMap.Sorted w.clusters
  cl : ∀ l c, w.clusters.find l = some c → c = Cluster.default ∨ (l ∈ L ∧ ∃ n H, Reached f (w0.clusterCfg n) H c)
  un : w.unsupervisedCluster = Cluster.default ∨
    ∃ n H, Reached f { w0.clusterCfg n with base := 2 } H w.unsupervisedCluster

theorem WInv.cfg {f : Flt} {w0 w : ClusWisard} {L : List Str} (h : WInv f w0 L w) (n : Int) : w.clusterCfg n = w0.clusterCfg n := by
  rw [h.const]; rfl

theorem WInv.clusterStep {f : Flt} {w0 w : ClusWisard} {L : List Str} (h : WInv f w0 L w) (l : Str) (c' : Cluster)
    (hc : c' = Cluster.default ∨ (l ∈ L ∧ ∃ n H, Reached f (w0.clusterCfg n) H c')) :
    WInv f w0 L { w with clusters := w.clusters.set l c' } := by
  refine ⟨?_, SMap.sorted_set h.sorted _ _, ?_, h.un⟩
  · have := h.const
    simp only
    rw [this]
  · intro k c hk
    by_cases hkl : k = l
    · subst hkl
      simp only [SMap.find_set_self, Option.some.injEq] at hk
      subst hk
      exact hc
    · simp only [SMap.find_set_ne _ _ hkl] at hk
      exact h.cl k c hk

theorem WInv.closed (f : Flt) (w0 : ClusWisard) (L : List Str) : Closed f L (WInv f w0 L) := by
  refine ⟨?_, ?_, ?_, ?_, ?_⟩
  · intro w env img l hl h
    rw [ClusWisard.train1_eq]
    refine h.clusterStep l _ ?_
    unfold ClusWisard.target
    cases hf : w.clusters.find l with
    | none =>
      refine .inr ⟨hl, img.length, [.vec img], ?_⟩
      simp only [Option.getD_none, h.cfg]
      exact Reached.train env _ Reached.new
    | some c =>
      simp only [Option.getD_some]
      rcases h.cl l c hf with rfl | ⟨_, n, H, hr⟩
      · left; rw [default_train]
      · exact .inr ⟨hl, n, _, hr.train env _⟩
  · intro w env img l h
    rw [ClusWisard.trainIn_fst]
    refine h.clusterStep l _ ?_
    cases hf : w.clusters.find l with
    | none => left; rw [Option.getD_none, default_train]
    | some c =>
      simp only [Option.getD_some]
      rcases h.cl l c hf with rfl | ⟨h1, n, H, hr⟩
      · left; rw [default_train]
      · exact .inr ⟨h1, n, _, hr.train env _⟩
  · intro w n h
    refine ⟨?_, h.sorted, h.cl, .inr ⟨n, [], ?_⟩⟩
    · have := h.const; simp only; rw [this]
    · simp only [h.cfg]; exact Reached.new
  · intro w env img h
    refine ⟨?_, h.sorted, h.cl, ?_⟩
    · have := h.const; simp only; rw [this]
    · rcases h.un with hd | ⟨n, H, hr⟩
      · left; simp only; rw [hd, default_train]
      · exact .inr ⟨n, _, hr.train env _⟩
  · intro w l hl h
    exact h.clusterStep l _ (.inl rfl)

theorem create_shape {A : Int} {ms : Rat} {t dl : Int} {o : ClusOpts} {w0 : ClusWisard}
    (h : ClusWisard.create A ms t dl o = .ok w0) :
    w0 = ⟨A, ms, t, dl, o, [], Cluster.default⟩ ∧ 0 ≤ ms ∧ ms ≤ 1 ∧ 1 ≤ t ∧ 1 ≤ dl := by
  unfold ClusWisard.create ClusWisard.checkConfigInputs at h
  obtain ⟨_, h1, h2⟩ := bind_eq_ok h
  simp only [Except.ok.injEq] at h2
  refine ⟨h2.symm, ?_⟩
  split at h1
  · cases h1
  · split at h1
    · cases h1
    · split at h1
      · cases h1
      · rename_i g1 g2 g3
        push Not at g1
        exact ⟨g1.1, g1.2, by omega, by omega⟩

theorem WInv.init {f : Flt} {A : Int} {ms : Rat} {t dl : Int} {o : ClusOpts} {w0 : ClusWisard}
    (h : ClusWisard.create A ms t dl o = .ok w0) (L : List Str) : WInv f w0 L w0 := by
  obtain ⟨rfl, _⟩ := create_shape h
  exact ⟨rfl, SMap.sorted_nil, by intro l c hc; simp [SMap.find] at hc, .inl rfl⟩

theorem WInv.play {f : Flt} {A : Int} {ms : Rat} {t dl : Int} {o : ClusOpts} {w0 : ClusWisard}
    (h : ClusWisard.create A ms t dl o = .ok w0) (ops : List COp) : WInv f w0 (labelsOf ops) (cplay f w0 ops).1 :=
  Closed.play ops w0 (WInv.closed f w0 _) (WInv.init h _)

end Wis
