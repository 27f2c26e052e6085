import Verif.Props.ClusTotal
/-!
# C77: what the discriminators of a class were trained with
-/

namespace Wis
open Spec

/-- The images that a history may train with label `l`, in order: those given with label `l`; and in semi-supervised
training, after the images labelled `l`, all images of the call once more (each may be given label `l` by the model). -/
def Spec.imagesOf (l : Str) : List COp → List Image
  | [] => []
  | .train _ images labels :: ops =>
    ((images.zip labels).filter (fun e => decide (e.2 = l))).map (fun e => .vec e.1) ++ imagesOf l ops
  | .semi _ images labels :: ops =>
    ((supervised labels images 0).filter (fun e => decide (e.2.2 = l))).map (fun e => .vec e.2.1) ++
      (images.map Image.vec ++ imagesOf l ops)
  | _ :: ops => imagesOf l ops

/-- The cluster of `l` was trained with part of `H`. -/
def PartOf (f : Flt) (w0 : ClusWisard) (l : Str) (H : List Image) (w : ClusWisard) : Prop :=
  (∀ n, w.clusterCfg n = w0.clusterCfg n) ∧
  ∀ c, w.clusters.find l = some c → c = Cluster.default ∨ ∃ (n : Int) (H' : List Image),
    Reached f (w0.clusterCfg n) H' c ∧ H'.Sublist H ∧ ∃ x ∈ H', n = (x.size : Int)

theorem PartOf.mono {f : Flt} {w0 w : ClusWisard} {l : Str} {H : List Image} (h : PartOf f w0 l H w) (K : List Image) :
    PartOf f w0 l (H ++ K) w := by
  refine ⟨h.1, ?_⟩
  intro c hc
  rcases h.2 c hc with h | ⟨n, H', h1, h2, h3⟩
  · exact .inl h
  · exact .inr ⟨n, H', h1, h2.trans (List.sublist_append_left _ _), h3⟩

theorem PartOf.train1 {f : Flt} {w0 w : ClusWisard} {l : Str} {H : List Image} (h : PartOf f w0 l H w) (env : Env)
    (img : List Int) (k : Str) : PartOf f w0 l (H ++ if k = l then [.vec img] else []) (w.train1 f env img k).1 := by
  rw [ClusWisard.train1_eq]
  refine ⟨h.1, ?_⟩
  intro c hc
  by_cases hk : k = l
  · subst hk
    simp only [SMap.find_set_self, Option.some.injEq] at hc
    subst hc
    rw [if_pos rfl]
    unfold ClusWisard.target
    cases hf : w.clusters.find k with
    | none =>
      refine .inr ⟨img.length, [.vec img], ?_, List.sublist_append_right _ _, .vec img, by simp, rfl⟩
      simp only [Option.getD_none, h.1]
      exact Reached.train env _ Reached.new
    | some c =>
      rw [Option.getD_some]
      rcases h.2 c hf with rfl | ⟨n, H', h1, h2, x, hx, h3⟩
      · left; rw [default_train]
      · exact .inr ⟨n, _, h1.train env _, h2.append (List.Sublist.refl _), x, by simp [hx], h3⟩
  · simp only [SMap.find_set_ne _ _ (Ne.symm hk)] at hc
    rw [if_neg hk, List.append_nil]
    exact h.2 c hc

theorem PartOf.trainLoop {f : Flt} {w0 : ClusWisard} {l : Str} (env : Nat → Env) (es : List (List Int × Str)) :
    ∀ {w : ClusWisard} {H : List Image} (i : Nat), PartOf f w0 l H w →
      PartOf f w0 l (H ++ (es.filter (fun e => decide (e.2 = l))).map (fun e => .vec e.1)) (w.trainLoop f env es i).1 := by
  induction es with
  | nil => intro w H i h; simp only [List.filter_nil, List.map_nil, List.append_nil]; exact h
  | cons e es ih =>
    intro w H i h
    obtain ⟨img, k⟩ := e
    have h1 := h.train1 (env i) img k
    have hlist : H ++ (((img, k) :: es).filter (fun e => decide (e.2 = l))).map (fun e => Image.vec e.1) =
        (H ++ if k = l then [.vec img] else []) ++ (es.filter (fun e => decide (e.2 = l))).map (fun e => .vec e.1) := by
      rw [List.filter_cons]
      by_cases hk : k = l
      · simp [hk]
      · simp [hk]
    rw [hlist]
    cases ht : w.train1 f (env i) img k with
    | mk w1 r =>
      rw [ht] at h1
      cases r with
      | ok u => simp only [ClusWisard.trainLoop, ht]; exact ih (i + 1) h1
      | error e => simp only [ClusWisard.trainLoop, ht]; exact h1.mono _

theorem PartOf.semiLoop {f : Flt} {w0 : ClusWisard} {l : Str} (env : Nat → Env) (labels : LabelMap) (imgs : List (List Int)) :
    ∀ {w : ClusWisard} {H : List Image} (i : Nat) (ll : List Int) (j : Nat), PartOf f w0 l H w →
      PartOf f w0 l (H ++ ((supervised labels imgs i).filter (fun e => decide (e.2.2 = l))).map (fun e => .vec e.2.1))
        (ClusWisard.semiLoop f env labels imgs i w ll j).1 := by
  induction imgs with
  | nil => intro w H i ll j h; simp only [supervised, List.filter_nil, List.map_nil, List.append_nil]; exact h
  | cons img imgs ih =>
    intro w H i ll j h
    simp only [ClusWisard.semiLoop, supervised]
    cases hf : labels.find i with
    | none =>
      simp only
      split
      · exact h.mono _
      · exact ih _ _ _ h
    | some k =>
      simp only
      have h1 := h.train1 (env i) img k
      have hlist : ∀ es : List (Nat × (List Int × Str)), H ++ (((i, (img, k)) :: es).filter (fun e => decide (e.2.2 = l))).map (fun e => Image.vec e.2.1) =
          (H ++ if k = l then [.vec img] else []) ++ (es.filter (fun e => decide (e.2.2 = l))).map (fun e => .vec e.2.1) := by
        intro es
        rw [List.filter_cons]
        by_cases hk : k = l
        · simp [hk]
        · simp [hk]
      rw [hlist]
      cases ht : w.train1 f (env i) img k with
      | mk w1 r =>
        rw [ht] at h1
        cases r with
        | ok u => exact ih _ _ _ h1
        | error e => exact h1.mono _

theorem PartOf.trainIn {f : Flt} {w0 w : ClusWisard} {l : Str} {H : List Image} (h : PartOf f w0 l H w) (env : Env)
    (img : List Int) (k : Str) : PartOf f w0 l (H ++ [.vec img]) (w.trainIn f env img k).1 := by
  rw [ClusWisard.trainIn_fst]
  refine ⟨h.1, ?_⟩
  intro c hc
  by_cases hk : k = l
  · subst hk
    simp only [SMap.find_set_self, Option.some.injEq] at hc
    subst hc
    cases hf : w.clusters.find k with
    | none => left; rw [Option.getD_none, default_train]
    | some c =>
      rw [Option.getD_some]
      rcases h.2 c hf with rfl | ⟨n, H', h1, h2, x, hx, h3⟩
      · left; rw [default_train]
      · exact .inr ⟨n, _, h1.train env _, h2.append (List.Sublist.refl _), x, by simp [hx], h3⟩
  · simp only [SMap.find_set_ne _ _ (Ne.symm hk)] at hc
    exact (h.mono [.vec img]).2 c hc

theorem PartOf.ownLoop {f : Flt} {w0 : ClusWisard} {l : Str} (env : Nat → Env) (imgs : List (List Int)) :
    ∀ {w : ClusWisard} {H : List Image} (i : Nat), PartOf f w0 l H w →
      PartOf f w0 l (H ++ imgs.map Image.vec) (w.ownLoop f env imgs i).1 := by
  induction imgs with
  | nil => intro w H i h; simp only [List.map_nil, List.append_nil]; exact h
  | cons img imgs ih =>
    intro w H i h
    have h1 : PartOf f w0 l (H ++ [.vec img]) (w.trainOwn f (env i) img).1 := by
      unfold ClusWisard.trainOwn
      split
      · exact h.mono _
      · exact h.trainIn _ _ _
    rw [List.map_cons, show H ++ Image.vec img :: imgs.map Image.vec = (H ++ [.vec img]) ++ imgs.map Image.vec by simp]
    cases ht : w.trainOwn f (env i) img with
    | mk w1 r =>
      rw [ht] at h1
      cases r with
      | ok u => simp only [ClusWisard.ownLoop, ht]; exact ih (i + 1) h1
      | error e => simp only [ClusWisard.ownLoop, ht]; exact h1.mono _

theorem PartOf.play {f : Flt} {w0 : ClusWisard} {l : Str} (ops : List COp) :
    ∀ {w : ClusWisard} {H : List Image}, PartOf f w0 l H w → PartOf f w0 l (H ++ imagesOf l ops) (cplay f w ops).1 := by
  induction ops with
  | nil => intro w H h; rw [imagesOf, List.append_nil]; exact h
  | cons o ops ih =>
    intro w H h
    have ih' := @ih
    rw [cplay_cons]
    cases o with
    | semi env images labels =>
      simp only [imagesOf]
      rw [← List.append_assoc, ← List.append_assoc]
      refine ih' ?_
      simp only [cstep, ClusWisard.trainSemi]
      split
      · rw [List.append_assoc]; exact h.mono _
      · have h1 := PartOf.semiLoop (env false) labels images 0 (List.replicate (images.length - labels.length) 0) 0 h
        split
        · rename_i w' e heq
          rw [heq] at h1
          exact h1.mono _
        · rename_i w' ll heq
          rw [heq] at h1
          split
          · exact h1.mono _
          · have h2 := PartOf.ownLoop (env true) (images.take ll.length) 0 h1
            refine ⟨h2.1, ?_⟩
            intro c hc
            rcases h2.2 c hc with h3 | ⟨n, H', h3, h4, h5⟩
            · exact .inl h3
            · exact .inr ⟨n, H', h3, h4.trans (List.Sublist.append (List.Sublist.refl _) ((List.take_sublist _ _).map _)), h5⟩
    | train env images labels =>
      simp only [imagesOf]
      rw [← List.append_assoc]
      refine ih' ?_
      simp only [cstep, ClusWisard.train]
      split
      · exact h.mono _
      · exact PartOf.trainLoop env _ 0 h
    | unsup env images =>
      simp only [imagesOf]
      refine ih' ?_
      have hu : ∃ c, (cstep f w (.unsup env images)).1 = { w with unsupervisedCluster := c } := by
        simp only [cstep, ClusWisard.trainUnsupervised]
        split
        · split
          · exact ⟨_, rfl⟩
          · exact ⟨_, unsupLoop_clusters (f := f) env _ _ 0⟩
        · exact ⟨_, unsupLoop_clusters (f := f) env _ _ 0⟩
      obtain ⟨c, hc⟩ := hu
      rw [hc]
      exact h
    | mental it k =>
      simp only [imagesOf]
      refine ih' ?_
      simp only [cstep, ClusWisard.getMentalImage]
      split
      · exact h
      · refine ⟨h.1, ?_⟩
        intro c hc
        by_cases hk : k = l
        · subst hk
          simp only [SMap.find_set_self, Option.some.injEq] at hc
          exact .inl hc.symm
        · simp only [SMap.find_set_ne _ _ (Ne.symm hk)] at hc
          exact h.2 c hc

/-- C77: after any calls (failing ones included), every discriminator of class `l` is in the state of a new
`Discriminator` with the model's parameters, for the size of one of these images, that was trained, one by one, with some of the images given for training
with label `l` or without label, in their order, and with at least one. -/
theorem C77_discriminators (f : Flt) {A : Int} {ms : Rat} {t dl : Int} {o : ClusOpts} {w0 : ClusWisard}
    (h0 : ClusWisard.create A ms t dl o = .ok w0) (ops : List COp) (l : Str)
    {d : Discriminator} (hd : some d ∈ discs (cplay f w0 ops).1 l) :
    ∃ (imgs : List Image) (n : Int) (rnd : Rnd) (d0 : Discriminator), imgs ≠ [] ∧ imgs.Sublist (imagesOf l ops) ∧
      (∃ x ∈ imagesOf l ops, n = (x.size : Int)) ∧
      Discriminator.create rnd A n { ignoreZero := o.ignoreZero, completeAddressing := o.completeAddressing, base := o.base } = .ok d0 ∧
      (play d0 (imgs.map Op.train)).1 = d := by
  obtain ⟨rfl, _⟩ := create_shape h0
  have h := PartOf.play (f := f) (w0 := ⟨A, ms, t, dl, o, [], Cluster.default⟩) (l := l) ops
    (w := ⟨A, ms, t, dl, o, [], Cluster.default⟩) (H := []) ⟨fun _ => rfl, by intro c hc; simp [SMap.find] at hc⟩
  rw [List.nil_append] at h
  unfold discs at hd
  cases hf : (cplay f (⟨A, ms, t, dl, o, [], Cluster.default⟩ : ClusWisard) ops).1.clusters.find l with
  | none => rw [hf] at hd; simp at hd
  | some c =>
    rw [hf] at hd
    rcases h.2 c hf with rfl | ⟨n, H', h1, h2, x, h3, h4⟩
    · simp [Cluster.default] at hd
    · obtain ⟨imgs, i1, i2, rnd, d0, i3, i4⟩ := h1.made d hd
      exact ⟨imgs, n, rnd, d0, i1, i2.trans h2, ⟨x, h2.subset h3, h4⟩, i3, i4⟩

/-- C77: without semi-supervised training these are exactly the images given with label `l`. -/
theorem C77_supervised (l : Str) (ops : List COp) (hs : ∀ o ∈ ops, ∀ env images labels, o ≠ .semi env images labels) :
    imagesOf l ops = ops.flatMap (fun o => match o with
      | .train _ images labels => ((images.zip labels).filter (fun e => decide (e.2 = l))).map (fun e => Image.vec e.1)
      | _ => []) := by
  induction ops with
  | nil => rfl
  | cons o ops ih =>
    have ih := ih (fun o ho => hs o (by simp [ho]))
    rw [List.flatMap_cons, ← ih]
    cases o with
    | semi env images labels => exact absurd rfl (hs _ (by simp) env images labels)
    | train => rfl
    | unsup => rfl
    | mental => rfl

/-- There are such discriminators. -/
example : (discs (cplay Flt.exact cw0 [.train (fun _ => env0) [[1, 1, 1, 1], [0, 0, 0, 0]] [b!"a", b!"a"]]).1 b!"a").length = 2 := by
  decide +kernel

end Wis
