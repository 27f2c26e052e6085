import Verif.Lemmas.ClusSemi
/-!
# C59, C60: semi-supervised training

`labels` is a `std::map<int, string>`: its keys are distinct (`UniqueKeys`).
-/

namespace Wis
open Spec

/-- The keys of the map are distinct. -/
def Spec.UniqueKeys (labels : LabelMap) : Prop := (labels.map (·.1)).Nodup

instance (labels : LabelMap) : Decidable (UniqueKeys labels) := by unfold UniqueKeys; exact inferInstance

/-! ## Helper lemmas -/

theorem Closed.trainEach {f : Flt} {L : List Str} {P : ClusWisard → Prop} (h : Closed f L P) (env : Nat → Env)
    (es : List (Nat × (List Int × Str))) (hL : ∀ e ∈ es, e.2.2 ∈ L) : ∀ (w : ClusWisard), P w → P (trainEach f w env es).1 := by
  induction es with
  | nil => intro w hw; exact hw
  | cons e es ih =>
    intro w hw
    obtain ⟨i, img, l⟩ := e
    have h1 := h.train w (env i) img l (hL (i, img, l) (by simp)) hw
    rw [trainEach_cons]
    split
    · rename_i w' heq
      rw [heq] at h1
      exact ih (fun e he => hL e (by simp [he])) w' h1
    · rename_i w' e heq
      rw [heq] at h1
      exact h1

theorem supervised_labels (labels : LabelMap) (imgs : List (List Int)) : ∀ i, ∀ e ∈ supervised labels imgs i,
    e.2.2 ∈ labels.map (·.2) := by
  induction imgs with
  | nil => intro i e he; simp [supervised] at he
  | cons img imgs ih =>
    intro i e he
    simp only [supervised] at he
    cases hf : labels.find i with
    | none => rw [hf] at he; exact ih _ e he
    | some l =>
      rw [hf] at he
      rcases List.mem_cons.mp he with rfl | he
      · exact List.mem_map.mpr ⟨_, LabelMap.find_mem hf, rfl⟩
      · exact ih _ e he

theorem supervised_length (labels : LabelMap) (imgs : List (List Int)) : ∀ i,
    (supervised labels imgs i).length + nUn labels imgs i = imgs.length := by
  induction imgs with
  | nil => intro i; simp [supervised, nUn, unlabelled]
  | cons img imgs ih =>
    intro i
    have := ih (i + 1)
    simp only [nUn, supervised, unlabelled] at this ⊢
    cases hf : labels.find i with
    | none => simp only [List.length_cons]; omega
    | some l => simp only [List.length_cons]; omega

theorem trainEach_nonempty {f : Flt} (env : Nat → Env) {es : List (Nat × (List Int × Str))} (hne : es ≠ [])
    {w w' : ClusWisard} (h : trainEach f w env es = (w', .ok ())) : ∃ l, 1 ≤ (discs w' l).length := by
  cases es with
  | nil => exact absurd rfl hne
  | cons e es =>
    obtain ⟨i, img, l⟩ := e
    rw [trainEach_cons] at h
    split at h
    · rename_i w1 h1
      have hs := (size_closed f (l :: es.map (fun e => e.2.2)) l 1).trainEach env es (fun e he => by
        simp only [List.mem_cons, List.mem_map]; exact .inr ⟨e, he, rfl⟩) w1 (by
        rw [ClusWisard.train1_eq] at h1
        simp only [Prod.mk.injEq] at h1
        rw [← h1.1]
        unfold discs
        simp only [SMap.find_set_self]
        exact train_ok_size (Prod.ext rfl h1.2))
      rw [h] at hs
      exact ⟨l, hs⟩
    · cases h

theorem classify1_sb (w : ClusWisard) (img : List Int) (a b : Bool) : w.classify1 img a = w.classify1 img b := by
  unfold ClusWisard.classify1 Bleaching.make Bleaching.makeWithConfidence
  simp only [ite_self]

/-- Training with the model's own label is training with the label that `classify` returns. -/
theorem trainOwn_eq {f : Flt} {w0 w : ClusWisard} {L : List Str} (hi : WInv f w0 L w) (hsafe : ∀ l ∈ L, SafeLabel l)
    (hne : ∃ l, 1 ≤ (discs w l).length) (env : Env) (img : List Int) :
    w.trainOwn f env img =
      match w.classify [img] with
      | .error e => (w, .error e)
      | .ok ls => w.train1 f env img (ls.headD []) := by
  unfold ClusWisard.trainOwn ClusWisard.classify
  rw [classify1_sb w img false w.opts.searchBestConfidence]
  cases hc : w.classify1 img w.opts.searchBestConfidence with
  | error e => rfl
  | ok s =>
    simp only [Except.bind_ok, ClusWisard.classify, List.headD_cons]
    rcases classify1_label hi.sorted hc with ⟨l, c, j, h1, h2, h3⟩ | ⟨h1, _⟩
    · rcases hi.cl l c h1 with rfl | ⟨hl, _⟩
      · simp [Cluster.getSize, Cluster.default] at h2
      · rw [h3]
        unfold dname
        rw [beforeSep_safe (hsafe l hl)]
        unfold ClusWisard.train1
        rw [h1]
    · obtain ⟨l, hl⟩ := hne
      unfold discs at hl
      cases hf : w.clusters.find l with
      | none => rw [hf] at hl; simp at hl
      | some c =>
        rw [hf] at hl
        have := h1 l c hf
        simp only [Cluster.getSize] at this
        simp only at hl
        omega

theorem ownLoop_eq {f : Flt} {w0 : ClusWisard} {L : List Str} (hsafe : ∀ l ∈ L, SafeLabel l) (env : Nat → Env)
    (imgs : List (List Int)) : ∀ (w : ClusWisard) (i : Nat), WInv f w0 L w → (∃ l, 1 ≤ (discs w l).length) →
      w.ownLoop f env imgs i = trainByOwnLabel f w env imgs i := by
  induction imgs with
  | nil => intro w i _ _; rfl
  | cons img imgs ih =>
    intro w i hi hne
    have hstep := trainOwn_eq hi hsafe hne (env i) img
    have hi' := (WInv.closed f w0 L).trainOwn w (env i) img hi
    have hne' : ∃ l, 1 ≤ (discs (w.trainOwn f (env i) img).1 l).length := by
      obtain ⟨l, hl⟩ := hne
      exact ⟨l, (size_closed f L l 1).trainOwn w (env i) img hl⟩
    simp only [ClusWisard.ownLoop, trainByOwnLabel]
    cases ho : w.trainOwn f (env i) img with
    | mk w1 r =>
      rw [ho] at hstep hi' hne'
      cases hc : w.classify [img] with
      | error e =>
        rw [hc] at hstep
        simp only [Prod.mk.injEq] at hstep
        obtain ⟨rfl, rfl⟩ := hstep
        rfl
      | ok ls =>
        rw [hc] at hstep
        simp only at hstep
        simp only [← hstep]
        cases r with
        | error e => rfl
        | ok u => exact ih w1 (i + 1) hi' hne'

theorem nUn_valid {images : List (List Int)} {labels : LabelMap} (hu : UniqueKeys labels)
    (hv : ∀ e ∈ labels, ValidKey images e) : nUn labels images 0 + labels.length = images.length := by
  have h1 := nUn_labelled labels images 0
  have h2 := labelled_valid hu hv
  have h3 := labelled_le (labels := labels) images.length
  omega

/-! ## C59 -/

/-- What semi-supervised training does, for labels without `"::"` that do not end in `':'`: with at least one
label, all of them for images of the batch, it trains the labelled images with their labels; then, if there are `U`
images without label, it trains the *first `U` images of the batch* with the labels the model gives them at
that moment. -/
theorem C59_actual (f : Flt) {A : Int} {ms : Rat} {t dl : Int} {o : ClusOpts} {w0 : ClusWisard}
    (h0 : ClusWisard.create A ms t dl o = .ok w0) (ops : List COp) (env : Bool → Nat → Env) (images : List (List Int))
    (labels : LabelMap) (hu : UniqueKeys labels) (hv : ∀ e ∈ labels, ValidKey images e) (hne : labels ≠ [])
    (hsafe : ∀ l ∈ labelsOf ops ++ labels.map (·.2), SafeLabel l) :
    let w := (cplay f w0 ops).1
    w.trainSemi f env images labels =
      match w.confidenceCheck images with
      | .error e => (w, .error e)
      | .ok () => semiWith f w env images labels (images.take (unlabelled labels images 0).length) := by
  intro w
  cases hc : w.confidenceCheck images with
  | error e =>
    unfold ClusWisard.trainSemi
    rw [hc]
    rfl
  | ok u =>
    have hcount := nUn_valid hu hv
    have hlpos : 0 < labels.length := List.length_pos_iff.mpr hne
    rw [trainSemi_eq f w env images labels hc (by omega) (by omega)]
    unfold semiWith
    cases ht : trainEach f w (env false) (supervised labels images 0) with
    | mk w1 r =>
      cases r with
      | error e => rfl
      | ok u =>
        simp only
        rw [if_neg (by omega)]
        have hL : ∀ e ∈ supervised labels images 0, e.2.2 ∈ labelsOf ops ++ labels.map (·.2) :=
          fun e he => List.mem_append_right _ (supervised_labels labels images 0 e he)
        have hi : WInv f w0 (labelsOf ops ++ labels.map (·.2)) w := by
          have := WInv.play (f := f) h0 ops
          exact ⟨this.const, this.sorted, fun l c hc => (this.cl l c hc).imp _root_.id
            (fun ⟨a, b⟩ => ⟨List.mem_append_left _ a, b⟩), this.un⟩
        have hi1 := (WInv.closed f w0 _).trainEach (env false) _ hL w hi
        rw [ht] at hi1
        have hs := supervised_length labels images 0
        have hn1 := trainEach_nonempty (env false) (es := supervised labels images 0)
          (by intro h; rw [h] at hs; simp at hs; omega) ht
        exact ownLoop_eq hsafe (env true) _ w1 0 hi1 hn1

/-- C59, the part that holds: if the images without label come first in the batch, semi-supervised training does what
is documented: it trains the labelled images with their labels first and then each unlabelled image with the label the
model gives it. Missing: batches where a labelled image precedes an unlabelled one, see `C59_refuted`. -/
theorem C59_documented_partial (f : Flt) {A : Int} {ms : Rat} {t dl : Int} {o : ClusOpts} {w0 : ClusWisard}
    (h0 : ClusWisard.create A ms t dl o = .ok w0) (ops : List COp) (env : Bool → Nat → Env) (images : List (List Int))
    (labels : LabelMap) (hu : UniqueKeys labels) (hv : ∀ e ∈ labels, ValidKey images e) (hne : labels ≠ [])
    (hsafe : ∀ l ∈ labelsOf ops ++ labels.map (·.2), SafeLabel l)
    (hfirst : unlabelled labels images 0 = images.take (unlabelled labels images 0).length)
    (hconf : (cplay f w0 ops).1.confidenceCheck images = .ok ()) :
    (cplay f w0 ops).1.trainSemi f env images labels = Documented f (cplay f w0 ops).1 env images labels := by
  have := C59_actual f h0 ops env images labels hu hv hne hsafe
  simp only [hconf] at this
  rw [this, ← hfirst]
  rfl

/-- C59 is false: with a first image labelled and a second one not, the second image has no influence at all on what is
learnt (the first one is learnt twice). -/
theorem C59_refuted (f : Flt) (w : ClusWisard) (env : Bool → Nat → Env) (x y y' : List Int) (l : Str) :
    w.trainSemi f env [x, y] [(0, l)] = w.trainSemi f env [x, y'] [(0, l)] := by
  have hcc : ∀ y, w.confidenceCheck [x, y] = w.confidenceCheck [x] := fun _ => rfl
  cases hc : w.confidenceCheck [x] with
  | error e =>
    unfold ClusWisard.trainSemi
    rw [hcc, hcc, hc]
    rfl
  | ok u =>
    have hU : ∀ y, nUn [(0, l)] [x, y] 0 = 1 := by
      intro y
      simp [nUn, unlabelled, LabelMap.find]
    have hS : ∀ y, supervised [(0, l)] [x, y] 0 = [(0, (x, l))] := by
      intro y
      simp [supervised, LabelMap.find]
    rw [trainSemi_eq f w env [x, y] [(0, l)] (by rw [hcc]; exact hc) (.inl (by simp)) (by rw [hU]; simp),
      trainSemi_eq f w env [x, y'] [(0, l)] (by rw [hcc]; exact hc) (.inl (by simp)) (by rw [hU]; simp), hU, hU, hS, hS]
    simp

/-! ### Concrete cases -/

example : ClusWisard.create 2 (1/2) 10 3 {} = .ok cw0 := by decide +kernel

/-- The documented result depends on the second image, so the documentation is violated. -/
theorem C59_refuted_concrete :
    cw0.trainSemi Flt.exact (fun _ _ => env0) [[1, 1, 1, 1], [0, 0, 0, 0]] [(0, b!"a")] ≠
      Documented Flt.exact cw0 (fun _ _ => env0) [[1, 1, 1, 1], [0, 0, 0, 0]] [(0, b!"a")] ∧
    (Documented Flt.exact cw0 (fun _ _ => env0) [[1, 1, 1, 1], [0, 0, 0, 0]] [(0, b!"a")]).2 = .ok () := by
  decide +kernel

/-- The hypotheses of `C59_documented_partial` on a batch of three images. -/
example : let images := [[1, 1, 1, 0], [0, 0, 0, 1], [1, 1, 1, 1]]
    let labels : LabelMap := [(1, b!"b"), (2, b!"a")]
    UniqueKeys labels ∧ (∀ e ∈ labels, ValidKey images e) ∧
    unlabelled labels images 0 = images.take (unlabelled labels images 0).length ∧
    cw0.confidenceCheck images = .ok () ∧
    (cw0.trainSemi Flt.exact (fun _ _ => env0) images labels).2 = .ok () := by
  decide +kernel

example : SafeLabel b!"a" := by
  refine ⟨?_, ?_⟩
  · rintro ⟨a, b, h⟩
    have := congrArg List.length h
    rw [sep_eq] at this
    simp at this
    omega
  · rintro ⟨a, h⟩
    cases a with
    | nil => exact absurd h (by decide)
    | cons x a =>
      have h2 := congrArg List.length h
      simp at h2

/-! ## C60 -/

/-- C60, first part: more labels than images are rejected and nothing is learnt. -/
theorem C60_too_many (f : Flt) (w : ClusWisard) (env : Bool → Nat → Env) (images : List (List Int)) (labels : LabelMap)
    (hc : w.confidenceCheck images = .ok ()) (h : images.length < labels.length) :
    w.trainSemi f env images labels = (w, .error (.throw .labelsTooMany)) := by
  unfold ClusWisard.trainSemi
  simp only [hc, Except.bind_ok, if_pos h]

theorem supervised_none {labels : LabelMap} (imgs : List (List Int)) : ∀ i : Nat,
    (∀ k : Nat, i ≤ k → k < i + imgs.length → labels.find k = none) → supervised labels imgs i = [] := by
  induction imgs with
  | nil => intro i _; rfl
  | cons img imgs ih =>
    intro i h
    have h1 := h i (Nat.le_refl _) (by simp)
    simp only [supervised, h1]
    refine ih (i + 1) ?_
    intro k hk hk2
    refine h k (by omega) ?_
    simp only [List.length_cons]
    omega

theorem find_none_of_invalid {images : List (List Int)} {labels : LabelMap} (hv : ∀ e ∈ labels, ¬ ValidKey images e)
    (k : Nat) (hk : k < images.length) : labels.find k = none := by
  cases hf : labels.find k with
  | none => rfl
  | some l =>
    exact absurd ⟨by simp, by simp only; omega⟩ (hv _ (LabelMap.find_mem hf))

/-- C60, second part: if no key is the index of an image (in particular if there is no label at all), the call throws
and nothing is learnt, provided there are fewer labels than images. -/
theorem C60_none_valid (f : Flt) (w : ClusWisard) (env : Bool → Nat → Env) (images : List (List Int)) (labels : LabelMap)
    (hc : w.confidenceCheck images = .ok ()) (h : labels.length < images.length)
    (hv : ∀ e ∈ labels, ¬ ValidKey images e) :
    w.trainSemi f env images labels = (w, .error (.throw .noValidIndex)) := by
  have hs := supervised_none (labels := labels) images 0 (fun k _ hk => find_none_of_invalid hv k (by omega))
  have hlen := supervised_length labels images 0
  rw [hs] at hlen
  simp only [List.length_nil] at hlen
  rw [trainSemi_eq f w env images labels hc (.inl h) (by omega), hs]
  simp only [trainEach]
  rw [if_pos (by omega)]

theorem find_filter {images : List (List Int)} (labels : LabelMap) (k : Nat) (hk : k < images.length) :
    LabelMap.find (labels.filter (fun e => decide (ValidKey images e))) k = labels.find k := by
  induction labels with
  | nil => rfl
  | cons e m ih =>
    obtain ⟨i, l⟩ := e
    rw [List.filter_cons]
    by_cases hi : i = (k : Int)
    · subst hi
      rw [if_pos (by simp [ValidKey]; omega)]
      simp [LabelMap.find]
    · split
      · simp only [LabelMap.find, if_neg hi]; exact ih
      · simp only [LabelMap.find, if_neg hi]; exact ih

theorem supervised_congr {a b : LabelMap} (imgs : List (List Int)) : ∀ i : Nat,
    (∀ k : Nat, k < i + imgs.length → a.find k = b.find k) →
      supervised a imgs i = supervised b imgs i ∧ unlabelled a imgs i = unlabelled b imgs i := by
  induction imgs with
  | nil => intro i _; exact ⟨rfl, rfl⟩
  | cons img imgs ih =>
    intro i h
    have h1 := h i (by simp)
    obtain ⟨i1, i2⟩ := ih (i + 1) (fun k hk => h k (by simp only [List.length_cons]; omega))
    simp only [supervised, unlabelled, h1, i1, i2, and_self]

/-- C60, third part: with fewer labels than images, labels for indexes outside the batch are ignored. Missing:
as many labels as images, see `C60_refuted`. -/
theorem C60_ignored_partial (f : Flt) (w : ClusWisard) (env : Bool → Nat → Env) (images : List (List Int)) (labels : LabelMap)
    (h : labels.length < images.length) :
    w.trainSemi f env images labels =
      w.trainSemi f env images (labels.filter (fun e => decide (ValidKey images e))) := by
  have hlen : (labels.filter (fun e => decide (ValidKey images e))).length ≤ labels.length := List.length_filter_le _ _
  cases hc : w.confidenceCheck images with
  | error e => unfold ClusWisard.trainSemi; rw [hc]; rfl
  | ok u =>
    obtain ⟨c1, c2⟩ := supervised_congr (a := labels.filter (fun e => decide (ValidKey images e))) (b := labels) images 0
      (fun k hk => find_filter labels k (by omega))
    have c3 : nUn (labels.filter (fun e => decide (ValidKey images e))) images 0 = nUn labels images 0 := by
      unfold nUn; rw [c2]
    have h1 := nUn_labelled labels images 0
    have h2 := labelled_le (labels := labels) images.length
    have h3 := nUn_labelled (labels.filter (fun e => decide (ValidKey images e))) images 0
    have h4 := labelled_le (labels := labels.filter (fun e => decide (ValidKey images e))) images.length
    rw [trainSemi_eq f w env images labels hc (.inl h) (by omega),
      trainSemi_eq f w env images (labels.filter (fun e => decide (ValidKey images e))) hc (.inl (by omega)) (by omega),
      c1, c3]

/-- C60 fails when there are as many labels as images: any key outside the batch makes the call write outside a vector
(undefined behaviour), unless training a labelled image failed before. -/
theorem C60_refuted (f : Flt) (w : ClusWisard) (env : Bool → Nat → Env) (images : List (List Int)) (labels : LabelMap)
    (hc : w.confidenceCheck images = .ok ()) (hu : UniqueKeys labels) (h : labels.length = images.length)
    {e : Int × Str} (he : e ∈ labels) (hv : ¬ ValidKey images e)
    (hok : (trainEach f w (env false) (supervised labels images 0)).2 = .ok ()) :
    IsUB (w.trainSemi f env images labels).2 := by
  have h1 := nUn_labelled labels images 0
  have h2 := labelled_invalid hu he hv
  have hub := semiLoop_ub f (env false) labels images 0 w (by omega) hok
  unfold ClusWisard.trainSemi
  have hle : ¬ labels.length > images.length := by omega
  have h0 : images.length - labels.length = 0 := by omega
  simp only [hc, Except.bind_ok, if_neg hle, h0, List.replicate_zero]
  cases hs : ClusWisard.semiLoop f (env false) labels images 0 w [] 0 with
  | mk w1 r =>
    rw [hs] at hub
    simp only at hub
    subst hub
    exact ⟨_, rfl⟩

/-- The hypotheses of `C60_refuted` on a concrete batch. -/
example : let images := [[1, 1, 1, 0], [0, 0, 0, 1]]
    let labels : LabelMap := [(0, b!"b"), (7, b!"a")]
    cw0.confidenceCheck images = .ok () ∧ UniqueKeys labels ∧ ¬ ValidKey images (7, b!"a") ∧
    (trainEach Flt.exact cw0 (fun _ => env0) (supervised labels images 0)).2 = .ok () := by
  decide +kernel

/-- The hypotheses of `C60_ignored_partial`: the call succeeds. -/
example : let images := [[1, 1, 1, 0], [0, 0, 0, 1], [1, 1, 1, 1]]
    let labels : LabelMap := [(-1, b!"c"), (2, b!"a")]
    labels.length < images.length ∧
    (cw0.trainSemi Flt.exact (fun _ _ => env0) images labels).2 = .ok () := by
  decide +kernel

end Wis
