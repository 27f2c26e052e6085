import Verif.Props.Pipeline
import Verif.Props.NoiseClus
import Verif.Props.PyClusSession
import Verif.Props.Single
/-!
# Property C185: from sequences of points to clusters

A KernelCanvas turns sequences of points into images, a ClusWisard learns them with labels, with some labels or without labels. Every call succeeds
whatever the points are (`C185_program`), and some discriminator of the class of a sequence loses, for another sequence, at most
`bitsByKernel` RAMs per kernel that is active for one of the two only (`C185_similar`); in between, the pixel form of C175 (`C185_pixels`).
-/

namespace Wis
open Spec Dbl KernelCanvas

/-- A training call with sequences of points instead of images. -/
inductive Spec.SeqCall where
  | train (env : Nat → Env) (seqs : List (List (List Dbl))) (labels : List Str)
  | semi (env : Bool → Nat → Env) (seqs : List (List (List Dbl))) (labels : LabelMap)
  | unsup (env : Nat → Env) (seqs : List (List (List Dbl)))

/-- The sequences of a call. -/
def Spec.SeqCall.seqs : SeqCall → List (List (List Dbl))
  | .train _ s _ => s
  | .semi _ s _ => s
  | .unsup _ s => s

/-- The labels of a call. -/
def Spec.SeqCall.labels : SeqCall → List Str
  | .train _ _ l => l
  | .semi _ _ m => m.map (·.2)
  | .unsup _ _ => []

/-- The call has no labels. -/
def Spec.SeqCall.blind : SeqCall → Bool
  | .unsup _ _ => true
  | _ => false

/-- The call with the images `outs` in place of the sequences. -/
def Spec.SeqCall.withImages : SeqCall → List (List Int) → COp
  | .train env _ l, outs => .train env outs l
  | .semi env _ l, outs => .semi env outs l
  | .unsup env _, outs => .unsup env outs

/-- The call is a reasonable one: one label for each sequence; labels for some of the sequences, by their positions; at least one sequence. -/
def Spec.SeqCall.Sensible : SeqCall → Prop
  | .train _ s l => s ≠ [] ∧ s.length = l.length
  | .semi _ s l => UniqueKeys l ∧ l ≠ [] ∧ ∀ e ∈ l, 0 ≤ e.1 ∧ e.1 < s.length
  | .unsup _ s => s ≠ []

/-- The images are those of the sequences of the call, whatever the sort. -/
def Spec.SeqCall.Images {t : Tanh} (c : KernelCanvas (ops t)) (call : SeqCall) (outs : List (List Int)) : Prop :=
  List.Forall₂ (fun seq out => ∃ sorter : Nat → Sorter (Nat × Dbl), c.transform sorter seq = .ok out) call.seqs outs

/-- An image of a sequence is a valid image of 0 and 1. -/
theorem canvas_valid {t : Tanh} {dim : Int} {N bits : Nat} {c : KernelCanvas (ops t)} (hc : IsCanvas t dim N bits c) (hN : (N : Int) ≤ 2 ^ 24)
    (hsize : (N : Int) * bits ≤ 2147483647) {sorter : Nat → Sorter (Nat × Dbl)} {seq : List (List Dbl)} (hseq : AllDim c seq) {out : List Int}
    (h : c.transform sorter seq = .ok out) {base : Int} (hb : 2 ≤ base) : ValidImage (N * bits : Nat) base (.vec out) := by
  obtain ⟨_, _, out', act, h1, h2⟩ := canvas_image hc hN hsize sorter hseq
  rw [h] at h1
  cases h1
  exact pattern_valid (bits := bits) (N := N) h2 hb

theorem SeqCall.valid {t : Tanh} {dim : Int} {N bits : Nat} {c : KernelCanvas (ops t)} (hc : IsCanvas t dim N bits c) (hN : (N : Int) ≤ 2 ^ 24)
    (hsize : (N : Int) * bits ≤ 2147483647) {base : Int} (hb : 2 ≤ base) {call : SeqCall} (hs : call.Sensible) (hd : ∀ seq ∈ call.seqs, AllDim c seq)
    {outs : List (List Int)} (ho : call.Images c outs) : ValidTraining (N * bits : Nat) base (call.withImages outs) := by
  have hlen : call.seqs.length = outs.length := ho.length_eq
  have hval : ∀ (base : Int), 2 ≤ base → ∀ x ∈ outs, ValidImage (N * bits : Nat) base (.vec x) := by
    intro base hb x hx
    obtain ⟨i, hi, rfl⟩ := List.getElem_of_mem hx
    obtain ⟨sorter, h⟩ := List.Forall₂.get ho (by rw [hlen]; exact hi) hi
    exact canvas_valid hc hN hsize (hd _ (List.getElem_mem _)) h hb
  cases call with
  | train env s l =>
    obtain ⟨h1, h2⟩ := hs
    have hlen : s.length = outs.length := hlen
    exact ⟨fun e => h1 (List.length_eq_zero_iff.mp (by rw [hlen, e]; rfl)), by rw [← hlen]; exact h2, hval base hb⟩
  | semi env s l =>
    obtain ⟨h1, h2, h3⟩ := hs
    have hlen : s.length = outs.length := hlen
    refine ⟨h1, h2, fun e he => ?_, hval base hb⟩
    obtain ⟨a, b⟩ := h3 e he
    exact ⟨a, by rw [← hlen]; exact b⟩
  | unsup env s =>
    have hlen : s.length = outs.length := hlen
    exact ⟨fun e => hs (List.length_eq_zero_iff.mp (by rw [hlen, e]; rfl)), hval 2 (le_refl _)⟩

/-- The history of the calls with their images. -/
def Spec.history (calls : List SeqCall) (outss : List (List (List Int))) : List COp := List.zipWith SeqCall.withImages calls outss

theorem history_cases {calls : List SeqCall} {outss : List (List (List Int))} {op : COp} (h : op ∈ history calls outss) :
    ∃ call outs, (call, outs) ∈ calls.zip outss ∧ op = call.withImages outs := by
  unfold history at h
  rw [← List.map_uncurry_zip_eq_zipWith, List.mem_map] at h
  obtain ⟨⟨call, outs⟩, h1, h2⟩ := h
  exact ⟨call, outs, h1, h2.symm⟩

theorem history_labels {R : SeqCall → List (List Int) → Prop} {calls : List SeqCall} {outss : List (List (List Int))} (h : List.Forall₂ R calls outss) :
    labelsOf (history calls outss) = calls.flatMap SeqCall.labels := by
  induction h with
  | nil => rfl
  | cons _ _ ih =>
    rename_i call outs calls outss _ _
    have hh : history (call :: calls) (outs :: outss) = call.withImages outs :: history calls outss := rfl
    rw [hh]
    unfold labelsOf at ih ⊢
    rw [List.flatMap_cons, List.flatMap_cons, ih]
    congr 1
    cases call <;> rfl

theorem withImages_unsup (call : SeqCall) (outs : List (List Int)) : (call.withImages outs).isUnsup = call.blind := by cases call <;> rfl

theorem history_weight {t : Tanh} {c : KernelCanvas (ops t)} {calls : List SeqCall} {outss : List (List (List Int))}
    (h : List.Forall₂ (SeqCall.Images c) calls outss) :
    ((history calls outss).map COp.weight).sum ≤ 2 * (calls.map (fun q => q.seqs.length)).sum := by
  induction h with
  | nil => simp [history]
  | cons h1 _ ih =>
    rename_i call outs calls outss _
    have hl : call.seqs.length = outs.length := h1.length_eq
    have hh : history (call :: calls) (outs :: outss) = call.withImages outs :: history calls outss := rfl
    rw [hh, List.map_cons, List.sum_cons, List.map_cons, List.sum_cons]
    have : (call.withImages outs).weight ≤ 2 * call.seqs.length := by
      rw [hl]
      cases call <;> simp only [SeqCall.withImages, COp.weight] <;> omega
    omega

theorem history_first {calls : List SeqCall} {R : SeqCall → List (List Int) → Prop} {outss : List (List (List Int))} (h : List.Forall₂ R calls outss)
    (hfirst : (∃ q ∈ calls, q.blind = true) → ∃ q rest, calls = q :: rest ∧ q.blind = true) : UnsupFirst (history calls outss) := by
  rintro ⟨op, hop, hu⟩
  obtain ⟨call, outs, h1, rfl⟩ := history_cases hop
  rw [withImages_unsup] at hu
  obtain ⟨q, rest, rfl, hq⟩ := hfirst ⟨call, (List.of_mem_zip h1).1, hu⟩
  cases h with
  | cons _ _ => exact ⟨_, _, rfl, by rw [withImages_unsup]; exact hq⟩

/-- C185: a program that transforms sequences of points, trains a new ClusWisard with the images (with labels, with some labels, without labels; if there are
calls without labels, the first call is one) and asks for the classes of sequences. `transform` never fails; whatever images it
gives, no training fails, and every question is answered: with a label that was given, or, if no class was learned, with the empty label. -/
theorem C185_program {t : Tanh} {dim : Int} {N bits : Nat} {c : KernelCanvas (ops t)} (hc : IsCanvas t dim N bits c) (hN : (N : Int) ≤ 2 ^ 24) (f : Flt)
    {A : Nat} {ms : Rat} {th dl : Int} {o : ClusOpts} {w0 : ClusWisard} (h0 : ClusWisard.create A ms th dl o = .ok w0) (hA : 2 ≤ A) (hAn : A ≤ N * bits)
    (hn : N * bits + A ≤ 2147483647) (hb : 2 ≤ o.base) (hp : o.base ^ A < 2 ^ 63) (hcf : o.confidence ≤ ramsOf (N * bits) A o.completeAddressing)
    (calls : List SeqCall) (hs : ∀ q ∈ calls, q.Sensible) (hd : ∀ q ∈ calls, ∀ seq ∈ q.seqs, AllDim c seq)
    (hfirst : (∃ q ∈ calls, q.blind = true) → ∃ q rest, calls = q :: rest ∧ q.blind = true)
    (hsafe : ∀ q ∈ calls, ∀ l ∈ q.labels, SafeLabel l) (hlen : (calls.map (fun q => q.seqs.length)).sum ≤ 1073741822) :
    (∀ (sorter : Nat → Sorter (Nat × Dbl)) (seq : List (List Dbl)), AllDim c seq → ∃ out, c.transform sorter seq = .ok out) ∧
    ∀ outss : List (List (List Int)), List.Forall₂ (SeqCall.Images c) calls outss →
      (∀ r ∈ (cplay f w0 (history calls outss)).2, r = .ok ()) ∧
      ∀ (sorter : Nat → Sorter (Nat × Dbl)) (seq : List (List Dbl)) (out : List Int), AllDim c seq → c.transform sorter seq = .ok out →
        (∃ l, (cplay f w0 (history calls outss)).1.classify [out] = .ok [l] ∧
          ((∃ q ∈ calls, l ∈ q.labels) ∨ (l = [] ∧ ∀ k, discs (cplay f w0 (history calls outss)).1 k = []))) ∧
        ((∃ q ∈ calls, q.blind = true) → ∃ l, (cplay f w0 (history calls outss)).1.classifyUnsupervised [out] = .ok [l]) := by
  have hsize : (N : Int) * bits ≤ 2147483647 := by
    have : ((N * bits : Nat) : Int) ≤ 2147483647 := by omega
    rwa [Nat.cast_mul] at this
  refine ⟨fun sorter seq hseq => ?_, fun outss ho => ?_⟩
  · obtain ⟨_, _, out, _, h, _⟩ := canvas_image hc hN hsize sorter hseq
    exact ⟨out, h⟩
  have hlab := history_labels ho
  have hsafe' : ∀ l ∈ labelsOf (history calls outss), SafeLabel l := by
    intro l hl
    rw [hlab, List.mem_flatMap] at hl
    obtain ⟨q, hq, hl⟩ := hl
    exact hsafe q hq l hl
  obtain ⟨h1, h2, h3⟩ := C153_all_trainings f h0 hA hAn hn hb hp (rams_number (o := { base := o.base, completeAddressing := o.completeAddressing }) rfl rfl hA hAn hn hb hp) hcf (history calls outss) (by
    intro op hop
    obtain ⟨call, outs, hz, rfl⟩ := history_cases hop
    have hm := (List.of_mem_zip hz).1
    exact SeqCall.valid hc hN hsize hb (hs call hm) (hd call hm) ((List.forall₂_iff_zip.mp ho).2 hz)) (history_first ho hfirst) hsafe' (by
    have := history_weight ho
    omega)
  refine ⟨h1, fun sorter seq out hseq hout => ⟨?_, fun hu => ?_⟩⟩
  · obtain ⟨ls, e1, e2⟩ := h2 [out] (by
      intro x hx
      rw [List.mem_singleton.mp hx]
      exact canvas_valid hc hN hsize hseq hout hb)
    obtain ⟨l, rfl⟩ := List.length_eq_one_iff.mp e2
    refine ⟨l, e1, ?_⟩
    rcases (C58_trained_label_partial f h0 _ hsafe' e1).2 l (by simp) with ⟨g, _⟩ | g
    · rw [hlab, List.mem_flatMap] at g
      exact .inl g
    · exact .inr g
  · obtain ⟨q, hq, hqb⟩ := hu
    obtain ⟨i, hi, rfl⟩ := List.getElem_of_mem hq
    have hi' : i < outss.length := by rw [← ho.length_eq]; exact hi
    obtain ⟨ls, e1, e2⟩ := h3 ⟨(calls[i]).withImages outss[i], by
        unfold history
        rw [List.mem_iff_getElem]
        exact ⟨i, by rw [List.length_zipWith]; omega, List.getElem_zipWith⟩, by rw [withImages_unsup]; exact hqb⟩ [out] (by
      intro x hx
      rw [List.mem_singleton.mp hx]
      exact canvas_valid hc hN hsize hseq hout (le_refl _))
    obtain ⟨l, rfl⟩ := List.length_eq_one_iff.mp e2
    exact ⟨l, e1⟩

/-- The wiring of a discriminator made by a cluster: inside the image, no pixel read by more than one RAM, plus the pixels that fill up the last RAM. -/
theorem cluster_wiring {cfg : ClusterCfg} {A n : Nat} (ha : cfg.addressSize = A) (he : cfg.entrySize = n) {H : List Image} {d : Discriminator}
    (g : GoodD cfg n H d) : WiredInside n d.mapping ∧ ReadAtMost (if cfg.completeAddressing then (n + A - 1) / A * A - n + 1 else 1) d.mapping := by
  obtain ⟨rnd, d0, imgs, hnew, _, hrep⟩ := g
  have hmap : d.mapping = d0.mapping := by
    unfold Discriminator.mapping
    have h := hrep.rams
    generalize d0.rams = rs0 at h
    generalize d.rams = rs at h
    induction h with
    | nil => rfl
    | cons h1 _ ih => rw [List.map_cons, List.map_cons, h1.addr, ih]
  unfold IsNew at hnew
  rw [ha, he] at hnew
  obtain ⟨c1, c2, c3, c4, c5⟩ := (C18_default_wiring rnd A n _ rfl rfl).2 d0 hnew
  rw [hmap]
  refine ⟨c3, ?_⟩
  cases hca : cfg.completeAddressing with
  | false =>
    rw [if_neg (by simp)]
    exact nodup_readAtMost (c5 hca)
  | true =>
    have hN : d0.mapping.length = (n + A - 1) / A := by
      simp only [hca, if_true] at c1
      simp only [Discriminator.getNumberOfRAMS] at c1
      unfold Discriminator.mapping
      rw [List.length_map]
      exact_mod_cast c1
    rw [if_pos rfl]
    intro i
    refine Nat.le_trans (readers_le_count _ i) ?_
    have := count_cover (c4 hca) i
    rw [flatten_length_const _ c2, hN] at this
    exact this

theorem cplay_results (f : Flt) (a b : List COp) : ∀ w : ClusWisard, (cplay f w (a ++ b)).2 = (cplay f w a).2 ++ (cplay f (cplay f w a).1 b).2 := by
  induction a with
  | nil => intro w; rfl
  | cons x xs ih =>
    intro w
    simp only [List.cons_append, cplay]
    rw [ih]

/-- C185: pixels and discriminators of a class (C175 in pixels). A new ClusWisard without bleaching and `ignoreZero`, any valid training calls, one of which
learned the image `x` with the label `l`: for any valid image `y`, some discriminator of class `l` activates all its RAMs except at most as many as pixels
of `x` and `y` differ (times the number of RAMs that may read one pixel, which is 1 unless the address size does not divide the image and
`completeAddressing` is on). -/
theorem C185_pixels (f : Flt) {A n : Nat} {ms : Rat} {th dl : Int} {o : ClusOpts} {w0 : ClusWisard} (h0 : ClusWisard.create A ms th dl o = .ok w0)
    (hA : 2 ≤ A) (hAn : A ≤ n) (hn : n + A ≤ 2147483647) (hb : 2 ≤ o.base) (hp : o.base ^ A < 2 ^ 63) (hcf : o.confidence ≤ ramsOf n A o.completeAddressing)
    (hz : o.ignoreZero = false) (hbl : o.bleachingActivated = false) (ops later : List COp) {env : Nat → Env} {images : List (List Int)} {labels : List Str}
    (hv : ∀ op ∈ ops ++ .train env images labels :: later, ValidTraining n o.base op) (hfirst : UnsupFirst (ops ++ .train env images labels :: later))
    (hsafe : ∀ l ∈ labelsOf (ops ++ .train env images labels :: later), SafeLabel l)
    (hlen : ((ops ++ .train env images labels :: later).map COp.weight).sum ≤ 2147483645)
    {x : List Int} {l : Str} (hmem : (x, l) ∈ images.zip labels) {y : List Int} (hy : ValidImage n o.base (.vec y)) :
    let w := (cplay f w0 (ops ++ .train env images labels :: later)).1
    ∃ (s : Scores) (j : Nat) (d : Discriminator) (v : Int), w.classify1 y w.opts.searchBestConfidence = .ok s ∧ (discs w l)[j]? = some (some d) ∧
      s.find (dname l j) = some v ∧ (d.getNumberOfRAMS : Int) ≤ v +
        ((if o.completeAddressing then (n + A - 1) / A * A - n + 1 else 1) * (changed n (.vec x) (.vec y)).length : Nat) := by
  have hk := rams_number (o := { base := o.base, completeAddressing := o.completeAddressing }) rfl rfl hA hAn hn hb hp
  obtain ⟨_, _, hok, hgood, _⟩ := good_play f h0 hA hAn hn hb hp hk hcf _ hv hfirst hsafe hlen
  obtain ⟨_, hcl, _⟩ := C153_all_trainings f h0 hA hAn hn hb hp hk hcf _ hv hfirst hsafe hlen
  obtain ⟨ls, hls, _⟩ := hcl [y] (by
    intro q hq
    rw [List.mem_singleton.mp hq]
    exact hy)
  obtain ⟨s, _, hs, _⟩ := classify_cons hls
  have hsplit : (cplay f w0 (ops ++ .train env images labels :: later)).1 =
      (cplay f ((cplay f w0 ops).1.train f env images labels).1 later).1 := by
    rw [cplay_append]
    rfl
  have hres : ((cplay f w0 ops).1.train f env images labels).2 = .ok () := by
    apply hok
    rw [cplay_results]
    simp [cplay, cstep]
  intro w
  obtain ⟨j, d, v, e1, e2, e3⟩ := C175_trained f h0 hz hbl ops (w1 := ((cplay f w0 ops).1.train f env images labels).1) (by rw [← hres]) later hmem
    (by rw [hsplit] at hs; exact hs)
  rw [← hsplit] at e1
  refine ⟨s, j, d, v, hs, e1, e2, ?_⟩
  have hg : ∃ H, GoodD (w0.clusterCfg n) n H d := by
    unfold discs at e1
    cases hf : w.clusters.find l with
    | none => rw [hf] at e1; simp at e1
    | some cl =>
      rw [hf] at e1
      obtain ⟨_, ds, H, rfl, _, g, _⟩ := hgood.cl l cl hf
      have := List.mem_of_getElem? e1
      simp at this
      exact ⟨H, g.disc d this⟩
  obtain ⟨H, hg⟩ := hg
  obtain ⟨rfl, _⟩ := create_shape h0
  obtain ⟨c1, c2⟩ := cluster_wiring (A := A) rfl rfl hg
  have h1 := C170_pixels c1 c2 (.vec x) (.vec y)
  have h2 : touched d.mapping (.vec x) (.vec y) ≤ (if o.completeAddressing then (n + A - 1) / A * A - n + 1 else 1) * (changed n (.vec x) (.vec y)).length := h1
  omega

/-- C185: a program as in `C185_program`, without bleaching and `ignoreZero`, one of whose calls learned a sequence with the label `l`, with the kernels
`act` active. For a sequence with the kernels `act'` active, some discriminator of class `l` activates all its RAMs except at most `bits` for each kernel
that is active for one of the two only (times the number of RAMs that may read one pixel). -/
theorem C185_similar {t : Tanh} {dim : Int} {N bits : Nat} {c : KernelCanvas (ops t)} (hc : IsCanvas t dim N bits c) (hN : (N : Int) ≤ 2 ^ 24) (f : Flt)
    {A : Nat} {ms : Rat} {th dl : Int} {o : ClusOpts} {w0 : ClusWisard} (h0 : ClusWisard.create A ms th dl o = .ok w0) (hA : 2 ≤ A) (hAn : A ≤ N * bits)
    (hn : N * bits + A ≤ 2147483647) (hb : 2 ≤ o.base) (hp : o.base ^ A < 2 ^ 63) (hcf : o.confidence ≤ ramsOf (N * bits) A o.completeAddressing)
    (hz : o.ignoreZero = false) (hbl : o.bleachingActivated = false)
    (calls later : List SeqCall) {env : Nat → Env} {seqs : List (List (List Dbl))} {labels : List Str}
    (hs : ∀ q ∈ calls ++ .train env seqs labels :: later, q.Sensible) (hd : ∀ q ∈ calls ++ .train env seqs labels :: later, ∀ seq ∈ q.seqs, AllDim c seq)
    (hfirst : (∃ q ∈ calls ++ .train env seqs labels :: later, q.blind = true) →
      ∃ q rest, calls ++ .train env seqs labels :: later = q :: rest ∧ q.blind = true)
    (hsafe : ∀ q ∈ calls ++ .train env seqs labels :: later, ∀ l ∈ q.labels, SafeLabel l)
    (hlen : ((calls ++ .train env seqs labels :: later).map (fun q => q.seqs.length)).sum ≤ 1073741822)
    {outss later' : List (List (List Int))} {outs : List (List Int)}
    (ho : List.Forall₂ (SeqCall.Images c) (calls ++ .train env seqs labels :: later) (outss ++ outs :: later')) (ho' : calls.length = outss.length)
    {x : List Int} {l : Str} (hmem : (x, l) ∈ outs.zip labels) {act act' : Nat → Bool} (hx : Pattern bits act N x)
    {y : List Int} (hy : Pattern bits act' N y) :
    let w := (cplay f w0 (history (calls ++ .train env seqs labels :: later) (outss ++ outs :: later'))).1
    ∃ (s : Scores) (j : Nat) (d : Discriminator) (v : Int), w.classify1 y w.opts.searchBestConfidence = .ok s ∧ (discs w l)[j]? = some (some d) ∧
      s.find (dname l j) = some v ∧ (d.getNumberOfRAMS : Int) ≤ v +
        ((if o.completeAddressing then (N * bits + A - 1) / A * A - N * bits + 1 else 1) * (bits * unlike act act' N) : Nat) := by
  have hsize : (N : Int) * bits ≤ 2147483647 := by
    have : ((N * bits : Nat) : Int) ≤ 2147483647 := by omega
    rwa [Nat.cast_mul] at this
  have hh : history (calls ++ .train env seqs labels :: later) (outss ++ outs :: later') =
      history calls outss ++ .train env outs labels :: history later later' := by
    unfold history
    rw [List.zipWith_append ho']
    rfl
  have hlab := history_labels ho
  have hvalid : ∀ op ∈ history (calls ++ .train env seqs labels :: later) (outss ++ outs :: later'), ValidTraining (N * bits : Nat) o.base op := by
    intro op hop
    obtain ⟨call, outs, hz, rfl⟩ := history_cases hop
    have hm := (List.of_mem_zip hz).1
    exact SeqCall.valid hc hN hsize hb (hs call hm) (hd call hm) ((List.forall₂_iff_zip.mp ho).2 hz)
  have hf := history_first ho hfirst
  have hw := history_weight ho
  have hsafe' : ∀ l ∈ labelsOf (history (calls ++ .train env seqs labels :: later) (outss ++ outs :: later')), SafeLabel l := by
    intro l hl
    rw [hlab, List.mem_flatMap] at hl
    obtain ⟨q, hq, hl⟩ := hl
    exact hsafe q hq l hl
  rw [hh] at hvalid hf hw hsafe'
  have := C185_pixels f h0 hA hAn hn hb hp hcf hz hbl (history calls outss) (history later later') hvalid hf hsafe' (by omega) hmem
    (pattern_valid hy hb)
  rw [pattern_changed hx hy] at this
  rw [hh]
  exact this

/-! ### The hypotheses can be met -/

/-- A program with unlabelled sequences first, then labelled ones, one of them empty, and then a call with a label for the second of two sequences. -/
def exSeqCalls : List SeqCall :=
  [.unsup (fun _ => env0) [[[.fin 1, .inf true], [.nan, .fin 3]], []],
   .train (fun _ => env0) [[[.fin 1, .fin 2]], []] [b!"a", b!"b"],
   .semi (fun _ _ => env0) [[[.fin 1, .fin 2]], [[.nan, .nan]]] [(1, b!"a")]]

example : ∃ (c : KernelCanvas (ops exTanh)) (w0 : ClusWisard), IsCanvas exTanh 2 256 3 c ∧ ClusWisard.create 8 (1 / 10) 10 5 {} = .ok w0 ∧
    (∀ q ∈ exSeqCalls, q.Sensible) ∧ (∀ q ∈ exSeqCalls, ∀ seq ∈ q.seqs, AllDim c seq) ∧ (∃ q rest, exSeqCalls = q :: rest ∧ q.blind = true) ∧
    (∀ q ∈ exSeqCalls, ∀ l ∈ q.labels, SafeLabel l) ∧ (({} : ClusOpts).confidence ≤ ramsOf (256 * 3) 8 ({} : ClusOpts).completeAddressing) := by
  obtain ⟨c, hc, hd⟩ := ex_canvas 2 256 3 (7/100) (by norm_num) (by norm_num) (by norm_num) (by norm_num) (by norm_num) (by norm_num)
  refine ⟨c, ⟨8, 1 / 10, 10, 5, {}, [], Cluster.default⟩, ⟨exRand, 1700000000, (0 : Nat), 7/100, false, exRand_max, .inl rfl, hc⟩, by decide +kernel, ?_, ?_, ⟨_, _, rfl, rfl⟩, ?_, by decide⟩
  · intro q hq
    fin_cases hq
    · simp [SeqCall.Sensible]
    · simp [SeqCall.Sensible]
    · refine ⟨by decide, by decide, ?_⟩
      intro e he
      rw [List.mem_singleton.mp he]
      simp
  · intro q hq seq hs r hr
    rw [hd]
    fin_cases hq <;> fin_cases hs <;> fin_cases hr <;> rfl
  · have ha : ∀ k : Str, k = b!"a" ∨ k = b!"b" → SafeLabel k := by
      intro k hk
      rcases hk with rfl | rfl
      · exact safe_of_noColon (by decide)
      · exact safe_of_noColon (by decide)
    intro q hq l hl
    fin_cases hq
    · cases hl
    · simp [SeqCall.labels] at hl
      exact ha l hl
    · simp [SeqCall.labels] at hl
      exact ha l (.inl hl)

theorem forall₂_exists {α β : Type} {R : α → β → Prop} (l : List α) (h : ∀ a ∈ l, ∃ b, R a b) : ∃ m, List.Forall₂ R l m := by
  induction l with
  | nil => exact ⟨[], .nil⟩
  | cons a l ih =>
    obtain ⟨b, hb⟩ := h a (by simp)
    obtain ⟨m, hm⟩ := ih (fun x hx => h x (by simp [hx]))
    exact ⟨b :: m, .cons hb hm⟩

/-- There are images for every program. -/
example {t : Tanh} {dim : Int} {N bits : Nat} {c : KernelCanvas (ops t)} (hc : IsCanvas t dim N bits c) (hN : (N : Int) ≤ 2 ^ 24)
    (hsize : (N : Int) * bits ≤ 2147483647) (sorter : Nat → Sorter (Nat × Dbl)) (calls : List SeqCall) (hd : ∀ q ∈ calls, ∀ seq ∈ q.seqs, AllDim c seq) :
    ∃ outss, List.Forall₂ (SeqCall.Images c) calls outss := by
  refine forall₂_exists calls (fun q hq => ?_)
  refine forall₂_exists q.seqs (fun seq hs => ?_)
  obtain ⟨_, _, out, _, h, _⟩ := canvas_image hc hN hsize sorter (hd q hq seq hs)
  exact ⟨out, sorter, h⟩

end Wis
