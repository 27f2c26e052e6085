import Verif.Props.Double
import Verif.Props.Noise
import Verif.Props.PySession
import Verif.Props.KernelCanvas
import Verif.Props.LeaveOut
/-!
# Property C177: from sequences of points to classes

A KernelCanvas turns sequences of points into images, a Wisard learns them. Whatever the sequences are (any doubles, infinite ones and NaN included, any
lengths, even empty ones), every call succeeds and every sequence is answered with a trained label (`C177_program`); and the score of a class that was
trained with a sequence falls, for another sequence, by at most `bitsByKernel` per kernel that is active for one of the two sequences only
(`C177_similar`).
-/

namespace Wis
open Spec Dbl KernelCanvas

/-- `c` is a result of the constructor of KernelCanvas in IEEE arithmetic for dimension `dim`, `N` kernels and `bits` bits by kernel, for some generator,
time, activation degree and, for dimension 1, `useDirection`. -/
def Spec.IsCanvas (t : Tanh) (dim N bits : Int) (c : KernelCanvas (ops t)) : Prop :=
  ∃ (g : CRand) (now : Nat) (s : g.S) (deg : Rat) (ud : Bool), (∀ s, (g.rand s).1 ≤ 2147483647) ∧ (ud = false ∨ dim = 1) ∧
    (KernelCanvas.createG Flt.single (ops t) g now s (.fin (-1)) (.fin 1) dim N bits deg ud).1 = .ok c

/-- Number of kernels that are active for one of the two only. -/
def Spec.unlike (act act' : Nat → Bool) (N : Nat) : Nat := (List.range N).countP (fun k => act k != act' k)

theorem canvas_image {t : Tanh} {dim N bits : Int} {c : KernelCanvas (ops t)} (hc : IsCanvas t dim N bits c) (hN : N ≤ 2 ^ 24)
    (hsize : N * bits ≤ 2147483647) (sorter : Nat → Sorter (Nat × Dbl)) {seq : List (List Dbl)} (hseq : AllDim c seq) :
    1 ≤ N ∧ 1 ≤ bits ∧ ∃ out act, c.transform sorter seq = .ok out ∧ Pattern bits.toNat act N.toNat out := by
  obtain ⟨g, now, s, deg, ud, hg, hd, hc⟩ := hc
  have h := (C129_ieee t g hg now s dim N bits deg ud c hc hN hsize hd).2.2 sorter seq hseq
  obtain ⟨_, S, _, out, h1, h2⟩ := h
  obtain ⟨rand, _, h⟩ := createG_unit t g hg Flt.single now s dim N bits deg ud
  rw [h] at hc
  obtain ⟨g1, _, g3, _⟩ := create_inv hc
  exact ⟨g1, g3, out, _, h1, h2⟩

theorem pattern_valid {bits N : Nat} {act : Nat → Bool} {out : List Int} (h : Pattern bits act N out) {base : Int} (hb : 2 ≤ base) :
    ValidImage (N * bits : Nat) base (.vec out) := by
  refine ⟨by simp only [Image.size, h.1], fun i hi => ?_⟩
  change i < out.length at hi
  rw [h.1] at hi
  have hbits : 0 < bits := by
    rcases Nat.eq_zero_or_pos bits with e | e
    · rw [e, Nat.mul_zero] at hi; omega
    · exact e
  have hv := h.2 (i / bits) (i % bits) (Nat.div_lt_of_lt_mul (by rw [Nat.mul_comm]; exact hi)) (Nat.mod_lt _ hbits)
  rw [Nat.div_add_mod'] at hv
  refine ⟨if act (i / bits) = true then 1 else 0, ?_, ?_⟩
  · simp only [Image.read, Int.toNat_natCast, hv, if_neg (show ¬ ((i : Int) < 0) by omega)]
  · split <;> omega

theorem changed_range (n : Nat) (x y : Image) : (changed n x y).length = (List.range n).countP (fun i : Nat => decide (x.read i ≠ y.read i)) := by
  unfold changed
  rw [List.countP_eq_length_filter]

/-- Images that differ in `unlike` kernels differ in `bits` pixels for each of them. -/
theorem pattern_changed {bits N : Nat} {act act' : Nat → Bool} {out out' : List Int} (h : Pattern bits act N out) (h' : Pattern bits act' N out') :
    (changed (N * bits) (.vec out) (.vec out')).length = bits * unlike act act' N := by
  rw [changed_range]
  have key : ∀ M ≤ N, (List.range (M * bits)).countP (fun i : Nat => decide (Image.read (.vec out) i ≠ Image.read (.vec out') i)) = bits * unlike act act' M := by
    intro M
    induction M with
    | zero => intro _; simp [unlike]
    | succ M ih =>
      intro hM
      have ih := ih (by omega)
      have : (M + 1) * bits = M * bits + bits := by rw [Nat.add_mul, Nat.one_mul]
      rw [this, List.range_add, List.countP_append, ih, List.countP_map]
      unfold unlike
      rw [List.range_succ, List.countP_append, Nat.mul_add]
      congr 1
      have hcg : ∀ b ∈ List.range bits, ((fun i : Nat => decide (Image.read (.vec out) i ≠ Image.read (.vec out') i)) ∘ fun b => M * bits + b) b =
          (act M != act' M) := by
        intro b hb
        have hb := List.mem_range.mp hb
        simp only [Function.comp]
        simp only [Image.read, Int.toNat_natCast, h.2 M b (by omega) hb, h'.2 M b (by omega) hb, if_neg (show ¬ (((M * bits + b : Nat) : Int) < 0) by omega)]
        cases act M <;> cases act' M <;> rfl
      rw [List.countP_congr (q := fun _ => act M != act' M) (fun b hb => by rw [hcg b hb])]
      simp only [List.countP_singleton]
      generalize (act M != act' M) = q
      cases q <;> simp
  exact key N (le_refl N)

theorem trainOps_train (env : Nat → Env) (es : List (Image × Str)) : ∀ (i : Nat), ∀ op ∈ trainOps env es i, op.isTrain = true := by
  induction es with
  | nil => intro i op hop; cases hop
  | cons e es ih =>
    intro i op hop
    simp only [trainOps, List.mem_cons] at hop
    rcases hop with rfl | hop
    · rfl
    · exact ih _ op hop

/-- C177: the sequences `seqs` are transformed and learned with `labels` by a new Wisard with default wiring and an admissible address size; then any
sequence is transformed and classified. No call fails and the answer is one of the labels. -/
theorem C177_program {t : Tanh} {dim N bits : Int} {c : KernelCanvas (ops t)} (hc : IsCanvas t dim N bits c) (hN : N ≤ 2 ^ 24) {A : Nat} {o : WisardOpts}
    (hm : o.mapping = []) (hi : o.indexes = []) (hA : 2 ≤ A) (hAn : A ≤ N * bits) (hn : N * bits + A ≤ 2147483647) (hb : 2 ≤ o.base)
    (hp : o.base ^ A < 2 ^ 63) (hcf : o.confidence ≤ ramsOf (N * bits).toNat A o.completeAddressing)
    (seqs : List (List (List Dbl))) (hseqs : ∀ seq ∈ seqs, AllDim c seq) (hne : seqs ≠ []) (labels : List Str) (hl : labels.length = seqs.length)
    (hlen : seqs.length ≤ 2147483645) (sorter : Nat → Nat → Sorter (Nat × Dbl)) (env : Nat → Env) :
    ∃ outs : List (List Int), List.Forall₂ (fun (p : List (List Dbl) × Nat) out => c.transform (sorter p.2) p.1 = .ok out) seqs.zipIdx outs ∧
    ∃ w, (Wisard.create A o).train env outs labels = (w, .ok ()) ∧
      GoodHistory (Wisard.create A o) (trainOps env ((outs.map Image.vec).zip labels) 0) w (N * bits) ∧
      ∀ (sorter' : Nat → Sorter (Nat × Dbl)) (seq : List (List Dbl)), AllDim c seq →
        ∃ out l, c.transform sorter' seq = .ok out ∧ w.classify [.vec out] = .ok [l] ∧ l ∈ labels := by
  obtain ⟨hN1, hb1, _⟩ := canvas_image hc hN (by omega) (sorter 0) (seq := []) (by simp [AllDim])
  obtain ⟨N, rfl⟩ := Int.eq_ofNat_of_zero_le (show 0 ≤ N by omega)
  obtain ⟨bits, rfl⟩ := Int.eq_ofNat_of_zero_le (show 0 ≤ bits by omega)
  have himg : ∀ (sorter : Nat → Sorter (Nat × Dbl)) (seq : List (List Dbl)), AllDim c seq →
      ∃ out, c.transform sorter seq = .ok out ∧ ValidImage (N * bits : Nat) o.base (.vec out) := by
    intro sorter seq hseq
    obtain ⟨_, _, out, act, h1, h2⟩ := canvas_image hc hN (by omega) sorter hseq
    exact ⟨out, h1, pattern_valid h2 hb⟩
  have houts : ∀ (seqs : List (List (List Dbl))) (k : Nat), (∀ seq ∈ seqs, AllDim c seq) → ∃ outs : List (List Int),
      List.Forall₂ (fun (p : List (List Dbl) × Nat) out => c.transform (sorter p.2) p.1 = .ok out) (seqs.zipIdx k) outs ∧
      ∀ out ∈ outs, ValidImage (N * bits : Nat) o.base (.vec out) := by
    intro seqs
    induction seqs with
    | nil => intro k _; exact ⟨[], .nil, by simp⟩
    | cons seq seqs ih =>
      intro k h
      obtain ⟨out, h1, h2⟩ := himg (sorter k) seq (h seq (by simp))
      obtain ⟨outs, h3, h4⟩ := ih (k + 1) (fun s hs => h s (List.mem_cons_of_mem _ hs))
      refine ⟨out :: outs, .cons h1 h3, ?_⟩
      intro x hx
      rcases List.mem_cons.mp hx with rfl | hx
      · exact h2
      · exact h4 x hx
  obtain ⟨outs, ho1, ho2⟩ := houts seqs 0 hseqs
  have hpos : 0 < seqs.length := List.length_pos_iff.mpr hne
  have hol : outs.length = seqs.length := by rw [← ho1.length_eq, List.length_zipIdx]
  refine ⟨outs, ho1, ?_⟩
  have hAn' : A ≤ N * bits := by exact_mod_cast hAn
  have hn' : N * bits + A ≤ 2147483647 := by exact_mod_cast hn
  have hR := rams_number hm hi hA hAn' hn' hb hp
  have hcast : ((N : Int) * (bits : Int)).toNat = N * bits := by norm_cast
  rw [hcast] at hcf
  have hvalid : ∀ op ∈ trainOps env ((outs.map Image.vec).zip labels) 0, ValidImage (N * bits : Nat) o.base op.img := by
    intro op hop
    obtain ⟨i, hi', rfl⟩ := List.mem_iff_getElem.mp hop
    have hg := trainOps_get env ((outs.map Image.vec).zip labels) 0 i
    rw [List.getElem?_eq_getElem hi'] at hg
    obtain ⟨e, he, heq⟩ := Option.map_eq_some_iff.mp hg.symm
    obtain ⟨img, g1, _, g3⟩ := zip_entry he
    rw [← heq, g3]
    exact ho2 img (List.mem_of_getElem? g1)
  have hopl : (trainOps env ((outs.map Image.vec).zip labels) 0).length ≤ 2147483645 := by
    rw [trainOps_length]
    simp only [List.length_zip, List.length_map]
    omega
  obtain ⟨w, g, hcl⟩ := C73_valid_calls_succeed hm hi hA hAn' hn' hb hp _ hvalid hopl
  have htrain : (Wisard.create A o).train env outs labels = (w, .ok ()) := by
    unfold Wisard.train
    have hchk : (Wisard.create A o).trainChecks outs labels = .ok () := by
      cases hos : outs with
      | nil => rw [hos] at hol; exact absurd (List.length_eq_zero_iff.mp hol.symm) hne
      | cons img os =>
        have hsz := (ho2 img (by rw [hos]; simp)).1
        simp only [Image.size] at hsz
        unfold Wisard.trainChecks
        dsimp only
        have hsz' : (img.length : Int) = ((N * bits : Nat) : Int) := hsz
        simp only [Except.bind_ok, hsz']
        rw [show calculateNumberOfRams ((N * bits : Nat) : Int) (Wisard.create A o).addressSize (Wisard.create A o).opts.completeAddressing = _ from hR]
        simp only [Except.bind_ok]
        unfold Wisard.checkConfidence
        rw [if_neg (show ¬ (Wisard.create A o).opts.confidence > _ from not_lt.mpr hcf)]
        simp only [Except.bind_ok]
        unfold Wisard.checkInputSizes
        rw [if_neg (by rw [← hos, hol, hl]; simp)]
    rw [hchk]
    dsimp only
    rw [trainLoop_run]
    exact g.ran
  refine ⟨w, htrain, by exact_mod_cast g, ?_⟩
  intro sorter' seq hseq
  obtain ⟨out, h1, h2⟩ := himg sorter' seq hseq
  obtain ⟨ls, h3⟩ := hcl [.vec out] (by simpa using h2)
  obtain ⟨h4, h5⟩ := C48_one_known_label_per_image w _ ls h3
  match ls, h4 with
  | [l], _ =>
    refine ⟨out, l, h1, h3, ?_⟩
    have h6 := (h5 0 (by simp) (by simp)).2
    simp only [List.getElem_cons_zero] at h6
    have hlab : ∀ k, (∃ op ∈ trainOps env ((outs.map Image.vec).zip labels) 0, op.isTrain = true ∧ op.label = k) → k ∈ labels := by
      rintro k ⟨op, hop, _, rfl⟩
      obtain ⟨i, hi', rfl⟩ := List.mem_iff_getElem.mp hop
      have hg := trainOps_get env ((outs.map Image.vec).zip labels) 0 i
      rw [List.getElem?_eq_getElem hi'] at hg
      obtain ⟨e, he, heq⟩ := Option.map_eq_some_iff.mp hg.symm
      obtain ⟨img, _, g2, _⟩ := zip_entry he
      rw [← heq]
      exact List.mem_of_getElem? g2
    rcases h6 with h6 | ⟨h6, _⟩
    · exact hlab l (C48_classes_are_trained_labels _ w g.start _ g.ran l h6)
    · exfalso
      have hop : .train (env 0) (.vec (outs[0]'(by omega))) (labels[0]'(by omega)) ∈ trainOps env ((outs.map Image.vec).zip labels) 0 := by
        apply List.mem_of_getElem? (i := 0)
        rw [trainOps_get]
        simp [List.getElem?_zip_eq_some, List.getElem?_eq_getElem (show 0 < outs.length by omega), List.getElem?_eq_getElem (show 0 < labels.length by omega)]
      have ht : ∀ op ∈ trainOps env ((outs.map Image.vec).zip labels) 0, op.isTrain = true := trainOps_train _ _ _
      have := (g.class_iff ht (labels[0]'(by omega))).mp (by rw [h6]; rfl)
      have hm' := mem_trainedWith.mpr (trained_of_mem hop)
      rw [this] at hm'
      cases hm'

/-- C177: in a Wisard with default wiring, without bleaching and `ignoreZero`, that was trained with the image `out` of a sequence, the class `l` of this
sequence gets for the image `out'` of another sequence all its RAMs except at most `bits` for each kernel that is active for one of the two only (times
the number of RAMs that may read one pixel, which is 1 unless the address size does not divide the image and `completeAddressing` is on). Sequences with
the same active kernels have the same image. -/
theorem C177_similar {A N bits : Nat} {o : WisardOpts} (hm : o.mapping = []) (hi : o.indexes = []) {ops : List WOp} {w : Wisard}
    (g : GoodHistory (Wisard.create A o) ops w (N * bits : Nat)) (ht : ∀ q ∈ ops, q.isTrain = true) (hb : o.bleachingActivated = false)
    (hz : o.ignoreZero = false) (hb2 : 2 ≤ o.base) {env : Env} {out out' : List Int} {l : Str} (hmem : .train env (.vec out) l ∈ ops) {act act' : Nat → Bool}
    (hp : Pattern bits act N out) (hp' : Pattern bits act' N out') :
    (∃ d s v, w.discriminators.find l = some d ∧ w.classify1 (.vec out') = .ok s ∧ s.find l = some v ∧
      (d.getNumberOfRAMS : Int) ≤ v +
        ((if o.completeAddressing then (N * bits + A - 1) / A * A - N * bits + 1 else 1) * (bits * unlike act act' N) : Nat) ∧
      ((N * bits + A - 1) / A * A = N * bits ∨ o.completeAddressing = false → (d.getNumberOfRAMS : Int) ≤ v + (bits * unlike act act' N : Nat))) ∧
    (unlike act act' N = 0 → out = out') := by
  refine ⟨?_, ?_⟩
  · obtain ⟨d, s, v, h1, h2, h3, h4, h5⟩ := C170_noise hm hi g ht hb hz hmem (pattern_valid hp' hb2)
    rw [pattern_changed hp hp'] at h4 h5
    exact ⟨d, s, v, h1, h2, h3, h4, h5⟩
  · intro h0
    have hact : ∀ k < N, act k = act' k := by
      intro k hk
      unfold unlike at h0
      rw [List.countP_eq_zero] at h0
      have := h0 k (List.mem_range.mpr hk)
      simpa using this
    apply List.ext_getElem?
    intro i
    by_cases hi : i < N * bits
    · have hbits : 0 < bits := by
        rcases Nat.eq_zero_or_pos bits with e | e
        · rw [e, Nat.mul_zero] at hi; omega
        · exact e
      have hk := Nat.div_lt_of_lt_mul (show i < bits * N by rw [Nat.mul_comm]; exact hi)
      have a := hp.2 (i / bits) (i % bits) hk (Nat.mod_lt _ hbits)
      have b := hp'.2 (i / bits) (i % bits) hk (Nat.mod_lt _ hbits)
      rw [Nat.div_add_mod'] at a b
      rw [a, b, hact _ hk]
    · rw [List.getElem?_eq_none (by rw [hp.1]; omega), List.getElem?_eq_none (by rw [hp'.1]; omega)]

/-! ### The hypotheses can be met -/

/-- 256 kernels of 3 bits, a Wisard with address size 8, sequences with infinite coordinates and NaN and an empty one. -/
example : ∃ c : KernelCanvas (ops exTanh), IsCanvas exTanh 2 256 3 c ∧
    (∀ seq ∈ [[[.fin 1, .inf true], [.nan, .fin 3]], [], [[.fin 1, .fin 2]]], AllDim c seq) ∧
    (({} : WisardOpts).confidence ≤ ramsOf (256 * 3 : Int).toNat 8 ({} : WisardOpts).completeAddressing) := by
  obtain ⟨c, hc, hd⟩ := ex_canvas 2 256 3 (7/100) (by norm_num) (by norm_num) (by norm_num) (by norm_num) (by norm_num) (by norm_num)
  refine ⟨c, ⟨exRand, 1700000000, (0 : Nat), 7/100, false, exRand_max, .inl rfl, hc⟩, ?_, by decide⟩
  intro seq hs r hr
  rw [hd]
  fin_cases hs <;> fin_cases hr <;> rfl

/-- Two images of 4 kernels with 2 bits, active kernels 0, 1 and 1, 2, 3: they differ in 3 kernels. -/
example : Pattern 2 (fun k => decide (k < 2)) 4 [1, 1, 1, 1, 0, 0, 0, 0] ∧ Pattern 2 (fun k => decide (0 < k)) 4 [0, 0, 1, 1, 1, 1, 1, 1] ∧
    unlike (fun k => decide (k < 2)) (fun k => decide (0 < k)) 4 = 3 := by
  refine ⟨⟨rfl, ?_⟩, ⟨rfl, ?_⟩, by decide⟩
  · intro k b hk hb; interval_cases k <;> interval_cases b <;> rfl
  · intro k b hk hb; interval_cases k <;> interval_cases b <;> rfl

end Wis
