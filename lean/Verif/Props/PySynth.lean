import Verif.Props.PyResults
/-!
# C160: from training data to synthetic images in Python
-/

namespace Wis
open Spec PyBind

/-- The wires of a class with default wiring. -/
theorem good_wires {n A : Nat} {o : WisardOpts} (hm : o.mapping = []) (hi : o.indexes = [])
    {ops : List WOp} {w : Wisard} (g : GoodHistory (Wisard.create A o) ops w n) {l : Str} {d : Discriminator}
    (hd : w.discriminators.find l = some d) :
    (∀ m ∈ d.mapping, m.length = A) ∧ d.mapping.flatten.length = ramsOf n A o.completeAddressing * A ∧
    (o.completeAddressing = true → ∀ i : Nat, i < n → 0 < d.mapping.flatten.count (i : Int)) := by
  obtain ⟨_, _, _, h4⟩ := wrun_find g.start ops g.ran
  rcases h4 l with ⟨h, _⟩ | ⟨d', d0, rnd, img, rest, h1, h2, h3, h5⟩
  · rw [h] at hd; cases hd
  rw [h1] at hd
  obtain rfl : d' = d := by simpa using hd
  have himg : ValidImage n o.base img := g.valid_ops l (.train img) (by rw [h2]; simp)
  have hmap : d'.mapping = d0.mapping := by
    have hle := run_le (opsOf l ops) d0
    rw [h5] at hle
    exact hle.mapping
  rw [himg.1] at h3
  simp only [Wisard.create] at h3
  rw [newDiscriminator_default hm hi] at h3
  obtain ⟨c1, c2, _, c3, _⟩ := (C18_default_wiring rnd A n
    { completeAddressing := o.completeAddressing, ignoreZero := o.ignoreZero, base := o.base } rfl rfl).2 d0 h3
  rw [hmap]
  refine ⟨c2, ?_, ?_⟩
  · rw [List.length_flatten, List.map_eq_replicate_iff.mpr c2]
    have : d0.mapping.length = d0.getNumberOfRAMS := by simp [Discriminator.mapping, Discriminator.getNumberOfRAMS]
    rw [this, c1]
    simp [ramsOf]
  · intro hc i hi'
    exact List.count_pos_iff.mpr (c3 hc i hi')

/-- What was trained with the label `l` and is not zero at pixel `i`. -/
def Spec.litAt (ops : List WOp) (l : Str) (i : Nat) : List (Image × Str) :=
  (trained ops).filter (fun e => decide (e.2 = l) && decide (NonZeroAt i e.1))

/-- **C160**: `w = Wisard(A, **kws)` without `mapping` and `indexes`, then calls of `train` with images of `n ≥ A` values in
`[0, base)` and labels that are `str`s. `w.getMentalImages()` returns a `dict` whose keys are the labels trained; the image of a
label has `n` values, at pixel `i` the number of wires to `i` times the number of images trained with this label that are not zero
there (with `completeAddressing` there is a wire to each pixel). If it is not blank, `Synthesizer(image).make()` returns `n`
zeros and ones, with a one only at pixels where some image trained with this label is not zero. Conditions as in C151, and the
numbers fit (`base^A ≤ 2^31`, `(n + A) * images < 2^31`). -/
theorem C160_program (L : PyLib) (ft : FloatText) {fs0 : Fs} {A n : Nat} {kws : List (Str × PyVal)} {w0 : Wisard}
    (h0 : Wisard.py L ft fs0 [.int A] kws = some (.ok w0)) (hm : w0.opts.mapping = []) (hi : w0.opts.indexes = [])
    (hA : 2 ≤ A) (hAn : A ≤ n) (hn : n + A ≤ 2147483647) (hb : 2 ≤ w0.opts.base) (hp : w0.opts.base ^ A ≤ 2 ^ 31)
    (hc : w0.opts.confidence ≤ ramsOf n A w0.opts.completeAddressing) (calls : List PyCall) (ks : List Nat)
    (hg : List.Forall₂ (GoodCall n w0.opts.base) calls ks) (ht : ∀ c ∈ calls, ∃ env args, c = .train env args)
    (hsize : (n + A) * ks.sum ≤ 2147483647) (it : IterOrder) :
    let w := (w0.pySession L calls).1
    ∃ parts : List (List WOp),
      List.Forall₂ (fun c (ops : List WOp) => Count c ops.length ∧ ∀ (i : Nat) op, ops[i]? = some op → Entry c i op) calls parts ∧
      ∃ dict, w.pyMentalImages L it [] = .ok dict ∧
        (∀ k, k ∈ dict.map (·.1) ↔ ∃ e ∈ trained parts.flatten, Utf8Of k e.2) ∧
        ∀ k m, (k, m) ∈ dict → ∃ (l : Str) (wires : Nat → Nat), Utf8Of k l ∧ m.length = n ∧
          (w0.opts.completeAddressing = true → ∀ i < n, 0 < wires i) ∧
          (∀ i (h : i < m.length), m[i] = (wires i : Int) * (litAt parts.flatten l i).length) ∧
          ((∃ x ∈ m, x ≠ 0) → ∀ rnd : Nat → Rnd, ∃ s, Synthesizer.py L rnd [.list (m.map .int)] = .ok s ∧
            ∀ r : Nat, ∃ out, s.pyMake L r [] = .ok out ∧ out.length = n ∧ (∀ v ∈ out, v = 0 ∨ v = 1) ∧
              ∀ i : Nat, out[i]? = some 1 → litAt parts.flatten l i ≠ []) := by
  rcases (C145_wisard L ft fs0 [.int A] kws (.ok w0)).mp h0 with ⟨x, s, h, _, h', _⟩ | ⟨x, a, h, h1, h2, h3, h4⟩
  · cases h; cases h'
  cases h
  cases h1
  obtain ⟨o, ho, rfl⟩ := ofKw_wisard _ h4.symm
  simp only [Wisard.create] at hm hi hb hp hc
  have hp' : o.base ^ A < 2 ^ 63 := lt_of_le_of_lt hp (by norm_num)
  have hN : ks.sum ≤ 2147483645 := by
    have := Nat.mul_le_mul_right ks.sum (show 4 ≤ n + A by omega)
    omega
  obtain ⟨parts, g1, g2, g3, g, g6⟩ := good_session L hm hi hA hAn hn hb hp' hc calls ks hg hN
  intro w
  refine ⟨parts, g1.imp (fun c ops ⟨k, q1, q2, q3⟩ => ⟨by rw [q2]; exact q1, q3⟩), ?_⟩
  have htr : ∀ op ∈ parts.flatten, op.isTrain = true := by
    have : ∀ ops ∈ parts, ∀ op ∈ ops, op.isTrain = true := by
      clear g2 g3 g hg hsize g6
      induction g1 with
      | nil => simp
      | @cons c ops calls parts h _ ih =>
        intro ops' hops'
        rcases List.mem_cons.mp hops' with rfl | hops'
        · intro op hop
          obtain ⟨k, _, _, q⟩ := h
          obtain ⟨j, hj, rfl⟩ := List.mem_iff_getElem.mp hop
          have he := q j _ (List.getElem?_eq_getElem hj)
          obtain ⟨env, args, rfl⟩ := ht c (by simp)
          generalize ops'[j] = op at he
          cases he <;> rfl
        · exact ih (fun c hc => ht c (by simp [hc])) ops' hops'
    intro op hop
    obtain ⟨ops, h1, h2⟩ := List.mem_flatten.mp hop
    exact this ops h1 op h2
  have hlen : parts.flatten.length = ks.sum := g3
  have hram : ramsOf n A o.completeAddressing * A ≤ n + A := by
    unfold ramsOf
    split
    · exact le_trans (Nat.div_mul_le_self _ _) (by omega)
    · exact le_trans (Nat.div_mul_le_self _ _) (by omega)
  have hcount : ∀ l d, w.discriminators.find l = some d → ∀ i : Int, d.mapping.flatten.count i ≤ n + A := by
    intro l d hd i
    obtain ⟨_, q2, _⟩ := good_wires hm hi g hd
    exact le_trans List.count_le_length (by rw [q2]; exact hram)
  obtain ⟨ms, m1, m2, m3⟩ := C87_trained g (by omega) htr
    (fun l d hd m hm' => by rw [(good_wires hm hi g hd).1 m hm']; exact hp)
    (fun l d hd i => by
      have q1 := hcount l d hd i
      have q2 := Nat.mul_le_mul_right ks.sum q1
      rw [hlen]
      exact_mod_cast le_trans q2 hsize) it
  have hutf : ∀ l ∈ ms.keys, Utf8 l := by
    intro l hl
    obtain ⟨e, he, rfl⟩ := List.mem_map.mp ((m2 l).mp hl)
    have : ∀ ops : List WOp, e ∈ trained ops → ∃ op ∈ ops, op.label = e.2 := by
      intro ops
      induction ops with
      | nil => intro h; cases h
      | cons op ops ih =>
        cases op with
        | train env img l =>
          intro h
          rcases List.mem_cons.mp h with rfl | h
          · exact ⟨_, List.mem_cons_self, rfl⟩
          · obtain ⟨op, h1, h2⟩ := ih h; exact ⟨op, by simp [h1], h2⟩
        | leave img l => intro h; obtain ⟨op, h1, h2⟩ := ih h; exact ⟨op, by simp [h1], h2⟩
    obtain ⟨op, h1, h2⟩ := this _ he
    rw [← h2]
    exact (g2 op h1).2
  obtain ⟨dict, d1, d2⟩ := (C159_wisard_mental L it _ ms m1).1 hutf
  refine ⟨dict, d1, ?_, ?_⟩
  · intro k
    constructor
    · intro hk
      obtain ⟨p, hp1, rfl⟩ := List.mem_map.mp hk
      obtain ⟨e, he, hu, _⟩ := forall₂_mem_right d2 hp1
      obtain ⟨e', he', h⟩ := List.mem_map.mp ((m2 e.1).mp (List.mem_map.mpr ⟨e, he, rfl⟩))
      exact ⟨e', he', by rw [h]; exact hu⟩
    · rintro ⟨e, he, hu⟩
      obtain ⟨e', he', h⟩ := List.mem_map.mp ((m2 e.2).mpr (List.mem_map.mpr ⟨e, he, rfl⟩))
      obtain ⟨p, hp1, hu', _⟩ := forall₂_mem_left d2 he'
      rw [h] at hu'
      exact List.mem_map.mpr ⟨p, hp1, hu'.unique hu⟩
  · intro k m hkm
    obtain ⟨⟨l, m'⟩, he, hu, hm'⟩ := forall₂_mem_right d2 hkm
    dsimp only at hu hm'
    subst hm'
    obtain ⟨d, hd, hml, hval⟩ := m3 l m he
    have hml' : m.length = n := by exact_mod_cast hml
    refine ⟨l, fun i => d.mapping.flatten.count (i : Int), hu, hml', ?_, hval, ?_⟩
    · intro hca i hin
      exact (good_wires hm hi g hd).2.2 hca i hin
    · intro hx rnd
      have hrange : ∀ x ∈ m, InI32 x ∧ 0 ≤ x := by
        intro x hx
        obtain ⟨i, hi', rfl⟩ := List.mem_iff_getElem.mp hx
        rw [hval i hi']
        have q1 := hcount l d hd i
        have q2 : ((trained parts.flatten).filter (fun e => decide (e.2 = l) && decide (NonZeroAt i e.1))).length ≤ ks.sum := by
          refine le_trans (List.length_filter_le _ _) ?_
          rw [← hlen]
          clear * -
          induction parts.flatten with
          | nil => simp [trained]
          | cons op ops ih => cases op <;> simp only [trained, List.length_cons] <;> omega
        have q3 := le_trans (Nat.mul_le_mul q1 q2) hsize
        have q4 : ((d.mapping.flatten.count (i : Int) : Int) *
          (((trained parts.flatten).filter (fun e => decide (e.2 = l) && decide (NonZeroAt i e.1))).length : Int)) ≤ 2147483647 := by exact_mod_cast q3
        have q5 : 0 ≤ ((d.mapping.flatten.count (i : Int) : Int) *
          (((trained parts.flatten).filter (fun e => decide (e.2 = l) && decide (NonZeroAt i e.1))).length : Int)) := by positivity
        exact ⟨⟨by omega, q4⟩, q5⟩
      have hpos : 0 < brightest m := by
        obtain ⟨x, hx, hne⟩ := hx
        have := (foldl_max_ge m 0).2 x hx
        have := (hrange x hx).2
        unfold brightest
        omega
      obtain ⟨s, s1, s2⟩ := C66_make rnd m hrange hpos
      obtain ⟨t1, _, _⟩ := C66_intensity m (fun x hx => (hrange x hx).2)
      have himg : PyImage (.list (m.map PyVal.int)) m := by
        refine ⟨_, rfl, ?_, fun i hi' => (hrange i hi').1⟩
        clear * -
        induction m with
        | nil => exact .nil
        | cons x m ih => exact .cons (.int x) ih
      refine ⟨s, ((C145_synthesizer L rnd s 0).1 _).1 _ ⟨_, m, rfl, himg, by rw [s1]; rfl⟩, ?_⟩
      intro r
      refine ⟨_, ((C145_synthesizer L rnd s r).2 []).1 _ ⟨rfl, by rw [s2 r]; rfl⟩, ?_, (t1 _).2, ?_⟩
      · rw [(t1 _).1, hml']
      · intro i hout hnil
        have hi' : i < m.length := by
          have := (List.getElem?_eq_some_iff.mp hout).1
          rwa [(t1 _).1] at this
        have hz : m[i] = 0 := by
          rw [hval i hi']
          unfold litAt at hnil
          rw [hnil]; simp
        unfold thresholded at hout
        rw [List.getElem?_map, List.getElem?_eq_getElem hi', hz, Option.map_some, if_neg (not_lt.mpr (Int.natCast_nonneg _))] at hout
        cases hout

/-! `w = Wisard(2)`, `w.train([[1, 0, 1, 1], [0, 0, 1, 0]], ["é", "b"])`. -/

example (ft : FloatText) (fs : Fs) : ∃ w0, Wisard.py exPy ft fs [.int (2 : Nat)] [] = some (.ok w0) ∧ w0.opts.mapping = [] ∧ w0.opts.indexes = [] ∧
    2 ≤ w0.opts.base ∧ w0.opts.base ^ 2 ≤ 2 ^ 31 ∧ w0.opts.confidence ≤ ramsOf 4 2 w0.opts.completeAddressing ∧
    List.Forall₂ (GoodCall 4 w0.opts.base) (exCalls.take 1) [2] ∧ (∀ c ∈ exCalls.take 1, ∃ env args, c = .train env args) ∧
    (4 + 2) * ([2] : List Nat).sum ≤ 2147483647 := by
  refine ⟨Wisard.create 2 {}, rfl, rfl, rfl, by decide, by decide, by decide, ?_, ?_, by decide⟩
  · cases ex_good with
    | cons h _ => exact .cons h .nil
  · intro c hc
    simp only [exCalls, List.take_succ_cons, List.take_zero, List.mem_singleton] at hc
    exact ⟨_, _, hc⟩

end Wis
