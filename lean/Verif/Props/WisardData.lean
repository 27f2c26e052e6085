import Verif.Props.MentalImages
import Verif.Spec.WisardJson
/-!
# C88: data sets and lists are interchangeable for a whole Wisard
-/

namespace Wis
open Spec

/-- Every class is wired inside its images, and new classes get the default wiring. (`sorted`: the map of classes
is a map, which a plain list of pairs need not be.) -/
structure Spec.InsideModel (w : Wisard) : Prop where
  sorted : w.discriminators.Sorted
  wired : ∀ l d, w.discriminators.find l = some d → WiredInside d.entrySize d.mapping
  mapping : w.opts.mapping = []
  indexes : w.opts.indexes = []

theorem newDiscriminator_inside {rnd : Rnd} {A : Int} {o : WisardOpts} {l : Str} {n : Nat} {d : Discriminator}
    (hm : o.mapping = []) (hi : o.indexes = []) (h : Wisard.newDiscriminator rnd A o l n = .ok d) :
    WiredInside d.entrySize d.mapping := by
  have hA : 2 ≤ A ∧ A ≤ n := by
    have h' := h
    unfold Wisard.newDiscriminator at h'
    rw [hm, hi] at h'
    simp only [SMap.find, List.length_nil, ne_eq, not_true_eq_false, if_false] at h'
    unfold Discriminator.setRAMShuffle at h'
    obtain ⟨_, ha, _⟩ := bind_eq_ok h'
    exact checkAddressSize_ok ha
  obtain ⟨A', rfl⟩ : ∃ A' : Nat, A = A' := ⟨A.toNat, by omega⟩
  have hf := newDiscriminator_fresh h
  rw [newDiscriminator_default hm hi] at h
  rw [hf.entry]
  exact ((C18_default_wiring rnd A' n _ rfl rfl).2 d h).2.2.1

theorem trainKnown_inside {w : Wisard} (h : InsideModel w) (img : Image) (l : Str) : InsideModel (w.trainKnown img l).1 := by
  unfold Wisard.trainKnown
  refine ⟨SMap.sorted_set h.sorted _ _, ?_, h.mapping, h.indexes⟩
  intro k d hd
  simp only at hd
  by_cases hk : k = l
  · subst hk
    rw [SMap.find_set_self] at hd
    simp only [Option.some.injEq] at hd
    subst hd
    have hw : WiredInside ((w.discriminators.find k).getD Discriminator.default).entrySize
        ((w.discriminators.find k).getD Discriminator.default).mapping := by
      cases hf : w.discriminators.find k with
      | none => simp [Discriminator.default, Discriminator.mapping, WiredInside]
      | some d => exact h.wired k d hf
    have hle := train_le ((w.discriminators.find k).getD Discriminator.default) img
    rw [hle.1, hle.mapping]
    exact hw
  · rw [SMap.find_set_ne _ _ hk] at hd
    exact h.wired k d hd

theorem makeDiscriminator_inside {w : Wisard} (h : InsideModel w) (env : Env) (l : Str) (n : Nat) :
    InsideModel (w.makeDiscriminator env l n).1 := by
  have hset : ∀ d', WiredInside d'.entrySize d'.mapping → InsideModel { w with discriminators := w.discriminators.set l d' } := by
    intro d' hd'
    refine ⟨SMap.sorted_set h.sorted _ _, ?_, h.mapping, h.indexes⟩
    intro k d hd
    simp only at hd
    by_cases hk : k = l
    · subst hk
      rw [SMap.find_set_self] at hd
      simp only [Option.some.injEq] at hd
      subst hd
      exact hd'
    · rw [SMap.find_set_ne _ _ hk] at hd
      exact h.wired k d hd
  unfold Wisard.makeDiscriminator
  split
  · rename_i d hd
    exact hset d (newDiscriminator_inside h.mapping h.indexes hd)
  · split
    · exact hset _ (by simp [Discriminator.default, Discriminator.mapping, WiredInside])
    · exact h

theorem train1_inside {w : Wisard} (h : InsideModel w) (env : Env) (img : Image) (l : Str) :
    InsideModel (w.train1 env img l).1 := by
  unfold Wisard.train1
  split
  · exact trainKnown_inside h _ _
  · have h1 := makeDiscriminator_inside h env l img.size
    split
    · rename_i w' heq
      rw [heq] at h1
      exact trainKnown_inside h1 _ _
    · rename_i w' e heq
      rw [heq] at h1
      exact h1

theorem leave_inside {w : Wisard} (h : InsideModel w) (img : List Int) (l : Str) : InsideModel (w.leaveOneOut img l).1 := by
  unfold Wisard.leaveOneOut
  split
  · exact h
  · rename_i d hd
    have hw := h.wired l d hd
    have hle := untrain_le d (.vec img)
    refine ⟨SMap.sorted_set h.sorted _ _, ?_, h.mapping, h.indexes⟩
    intro k d' hd'
    by_cases hk : k = l
    · subst hk
      simp only [SMap.find_set_self, Option.some.injEq] at hd'
      subst hd'
      rw [hle.1, hle.mapping]
      exact hw
    · simp only [SMap.find_set_ne _ _ hk] at hd'
      exact h.wired k d' hd'

/-- Every default-wired Wisard is such a model after any calls, failing ones included. -/
theorem C88_inside (A : Int) (o : WisardOpts) (hm : o.mapping = []) (hi : o.indexes = []) (ops : List WOp) :
    InsideModel (wplay (Wisard.create A o) ops).1 := by
  have gen : ∀ (ops : List WOp) (w : Wisard), InsideModel w → InsideModel (wplay w ops).1 := by
    intro ops
    induction ops with
    | nil => intro w h; exact h
    | cons op ops ih =>
      intro w h
      simp only [wplay]
      refine ih _ ?_
      cases op with
      | train env img l => exact train1_inside h env img l
      | leave img l => exact leave_inside h img l
  exact gen ops _ ⟨List.Pairwise.nil, by intro l d hd; simp [Wisard.create, SMap.find] at hd, hm, hi⟩

theorem train1_same {w : Wisard} (h : InsideModel w) (env : Env) {x y : Image} (hxy : Same x y) (l : Str) :
    w.train1 env x l = w.train1 env y l := by
  have hk : ∀ {w : Wisard}, InsideModel w → ∀ l, w.trainKnown x l = w.trainKnown y l := by
    intro w h l
    unfold Wisard.trainKnown
    have hw : WiredInside ((w.discriminators.find l).getD Discriminator.default).entrySize
        ((w.discriminators.find l).getD Discriminator.default).mapping := by
      cases hf : w.discriminators.find l with
      | none => simp [Discriminator.default, Discriminator.mapping, WiredInside]
      | some d => exact h.wired l d hf
    simp only [(train_same hw hxy).1]
  unfold Wisard.train1
  rw [hxy.1]
  cases w.discriminators.find l with
  | some d => exact hk h l
  | none =>
    simp only
    have h1 := makeDiscriminator_inside h env l y.size
    split
    · rename_i w' heq
      rw [heq] at h1
      exact hk h1 l
    · rfl

theorem trainLoop_same (env : Nat → Env) {es es' : List (Image × Str)}
    (hs : List.Forall₂ (fun e e' => Same e.1 e'.1 ∧ e.2 = e'.2) es es') :
    ∀ {w : Wisard} (i : Nat), InsideModel w → w.trainLoop env es i = w.trainLoop env es' i := by
  induction hs with
  | nil => intro w i _; rfl
  | @cons e e' es es' he _ ih =>
    intro w i h
    obtain ⟨x, l⟩ := e
    obtain ⟨y, l'⟩ := e'
    obtain ⟨h1, h2⟩ := he
    simp only at h1 h2
    subst h2
    have h3 := train1_inside h (env i) y l
    simp only [Wisard.trainLoop, train1_same h (env i) h1 l]
    split
    · rename_i w' heq
      rw [heq] at h3
      exact ih (i + 1) h3
    · rfl

theorem allvotes_same {x y : Image} (hxy : Same x y) (m : SMap Discriminator)
    (h : ∀ e ∈ m, WiredInside e.2.entrySize e.2.mapping) : Wisard.allvotes x m = Wisard.allvotes y m := by
  induction m with
  | nil => rfl
  | cons e m ih =>
    obtain ⟨l, d⟩ := e
    simp only [Wisard.allvotes, (train_same (h (l, d) (by simp)) hxy).2.2, ih (fun e he => h e (by simp [he]))]

/-- The data set that holds these images and labels, added one by one. -/
def Spec.dataSetOf (es : List (BinInput × Str)) : DataSet := es.foldl (fun d e => d.add e.1 e.2) {}

theorem forall₂_length {α β : Type} {R : α → β → Prop} {a : List α} {b : List β} (h : List.Forall₂ R a b) :
    a.length = b.length := h.length_eq

/-- C88 (training): for a model as above, training with a data set built from 0/1 lists with non-empty labels has
exactly the effect and result of training with the lists and labels, for the same random choices. -/
theorem C88_train {w : Wisard} (h : InsideModel w) (env : Nat → Env) (es : List (BinInput × Str)) (ls : List (List Int))
    (labels : List Str) (hes : es.map (·.2) = labels) (hlab : ∀ l ∈ labels, l ≠ [])
    (hls : List.Forall₂ (fun e l => BinInput.ofList l = .ok e.1) es ls) (hlen : ∀ l ∈ ls, l.length < 2 ^ 62)
    (h01 : ∀ l ∈ ls, ∀ v ∈ l, v = 0 ∨ v = 1) :
    w.trainDataSet env (dataSetOf es) = w.train env ls labels := by
  have hb := DataSet.build_inv es
  have hds : dataSetOf es = DataSet.build es := rfl
  rw [hds]
  have hsame : List.Forall₂ (fun e l => Same (.bin e.1) (.vec l)) es ls := by
    clear hes hlab hb hds
    induction hls with
    | nil => exact .nil
    | @cons e l es ls he _ ih =>
      refine .cons ?_ (ih (fun l hl => hlen l (by simp [hl])) (fun l hl => h01 l (by simp [hl])))
      obtain ⟨b, h1, h2⟩ := same_ofList (hlen l (by simp)) (h01 l (by simp))
      rw [he] at h1
      cases h1
      exact h2
  have hll : labels.length = ls.length := by rw [← hes, List.length_map, hls.length_eq]
  have hget : ∀ i (hi : i < labels.length), (DataSet.build es).getLabel i = .ok labels[i] := by
    intro i hi
    have hi' : i < es.length := by rw [← hes, List.length_map] at hi; exact hi
    have hl : labels[i] = es[i].2 := by simp only [← hes, List.getElem_map]
    have hne := hlab _ (List.getElem_mem hi)
    rw [hl] at hne
    unfold DataSet.getLabel
    rw [hb.2.2 i, List.getElem?_eq_getElem hi', hl]
    simp [hne]
  have hpairs : List.Forall₂ (fun (e e' : Image × Str) => Same e.1 e'.1 ∧ e.2 = e'.2)
      (((DataSet.build es).data.map Image.bin).zip labels) ((ls.map Image.vec).zip labels) := by
    rw [hb.1, ← hes]
    clear hes hlab hb hds hll hget hls hlen h01
    induction hsame with
    | nil => exact .nil
    | cons he _ ih => exact .cons ⟨he, rfl⟩ ih
  have hloop := trainLoop_same env hpairs 0 h
  cases hsame with
  | nil =>
    subst hes
    rfl
  | @cons e l es ls he _ =>
    have hsz : (e.1.size : Int) = l.length := by
      have := he.1
      simp only [Image.size] at this
      exact_mod_cast this
    have hd : (DataSet.build (e :: es)).data = e.1 :: es.map (·.1) := by rw [hb.1]; rfl
    have hg0 : (DataSet.build (e :: es)).get 0 = .ok e.1 := by simp [DataSet.get, hd]
    cases hk : calculateNumberOfRams l.length w.addressSize w.opts.completeAddressing with
    | error x =>
      simp only [Wisard.trainDataSet, Wisard.train, Wisard.trainChecks, hg0, Except.bind_ok, hsz, hk, Except.bind_error]
    | ok k =>
      by_cases hc : w.opts.confidence ≤ k
      · rw [(C74_train_dataset w env _ e.1 _ hd k (by rw [hsz]; exact hk) hc).1 labels
          (by rw [DataSet.size, hd, hll]; simp [(List.forall₂_cons.mp hls).2.length_eq]) hget, hloop]
        simp only [Wisard.train, Wisard.trainChecks, Except.bind_ok, hk, Wisard.checkConfidence,
          Wisard.checkInputSizes, hll]
        rw [if_neg (by omega), if_neg (by simp)]
        rfl
      · simp only [Wisard.trainDataSet, Wisard.train, Wisard.trainChecks, hg0, Except.bind_ok, hsz, hk,
          Wisard.checkConfidence]
        rw [if_pos (by omega)]
        rfl

theorem classify_same {w : Wisard} (h : ∀ e ∈ w.discriminators, WiredInside e.2.entrySize e.2.mapping)
    {xs ys : List Image} (hs : List.Forall₂ Same xs ys) : w.classify xs = w.classify ys := by
  induction hs with
  | nil => rfl
  | cons hxy _ ih => simp only [Wisard.classify, Wisard.classify1, allvotes_same hxy _ h, ih]

/-- C88 (classification): and classifying with a data set of the images gives the same labels, or the same failure, as
classifying with the lists. -/
theorem C88_classify {w : Wisard} (h : InsideModel w) (es : List (BinInput × Str))
    (ls : List (List Int)) (hls : List.Forall₂ (fun e l => BinInput.ofList l = .ok e.1) es ls)
    (hlen : ∀ l ∈ ls, l.length < 2 ^ 62) (h01 : ∀ l ∈ ls, ∀ v ∈ l, v = 0 ∨ v = 1) :
    w.classify ((dataSetOf es).data.map .bin) = w.classify (ls.map .vec) := by
  have hds : dataSetOf es = DataSet.build es := rfl
  rw [hds, (DataSet.build_inv es).1]
  refine classify_same (fun e he => h.wired e.1 e.2 (SMap.find_of_mem h.sorted he)) ?_
  clear hds
  induction hls with
  | nil => exact .nil
  | @cons e l es ls he _ ih =>
    refine .cons ?_ (ih (fun l hl => hlen l (by simp [hl])) (fun l hl => h01 l (by simp [hl])))
    obtain ⟨b, h1, h2⟩ := same_ofList (hlen l (by simp)) (h01 l (by simp))
    rw [he] at h1
    cases h1
    exact h2

/-- Two images in two classes: they have byte encodings, and the two ways of training agree on them and succeed, while
the trained model tells the classes apart. -/
example : ∃ es : List (BinInput × Str),
    List.Forall₂ (fun (e : BinInput × Str) l => BinInput.ofList l = .ok e.1) es [[1, 0, 1, 1], [0, 1, 0, 0]] ∧
    es.map (·.2) = [b!"a", b!"b"] ∧
    ((Wisard.create 2 {}).trainDataSet (fun _ => ⟨Rnd.id, true⟩) (dataSetOf es)).2 = .ok () ∧
    ((Wisard.create 2 {}).trainDataSet (fun _ => ⟨Rnd.id, true⟩) (dataSetOf es)).1.classify
      ((dataSetOf es).data.map .bin) = .ok [b!"a", b!"b"] := by
  obtain ⟨b1, h1, _⟩ := same_ofList (l := [1, 0, 1, 1]) (by decide) (by decide)
  obtain ⟨b2, h2, _⟩ := same_ofList (l := [0, 1, 0, 0]) (by decide) (by decide)
  have hl : List.Forall₂ (fun (e : BinInput × Str) l => BinInput.ofList l = .ok e.1)
      [(b1, b!"a"), (b2, b!"b")] [[1, 0, 1, 1], [0, 1, 0, 0]] := .cons h1 (.cons h2 .nil)
  have hi : InsideModel (Wisard.create 2 {}) := C88_inside 2 {} rfl rfl []
  have ht := C88_train hi (fun _ => ⟨Rnd.id, true⟩) _ _ [b!"a", b!"b"] rfl (by decide) hl (by decide) (by decide)
  refine ⟨[(b1, b!"a"), (b2, b!"b")], hl, rfl, by rw [ht]; rfl, ?_⟩
  have hw : ((Wisard.create 2 {}).train (fun _ => ⟨Rnd.id, true⟩) [[1, 0, 1, 1], [0, 1, 0, 0]] [b!"a", b!"b"]).1 =
      (wplay (Wisard.create 2 {}) [.train ⟨Rnd.id, true⟩ (.vec [1, 0, 1, 1]) b!"a",
        .train ⟨Rnd.id, true⟩ (.vec [0, 1, 0, 0]) b!"b"]).1 := rfl
  rw [ht, hw, C88_classify (C88_inside 2 {} rfl rfl _) _ _ hl (by decide) (by decide)]
  decide +kernel

end Wis
