import Verif.Props.ClusPython
/-!
# C86, C87: the mental images of whole models
-/

namespace Wis
open Spec

theorem wires_le {rnd : Rnd} {A n : Nat} {o : Options} (hm : o.mapping = []) (hi : o.indexes = []) (hA : 0 < A)
    {d : Discriminator} (h : Discriminator.create rnd A n o = .ok d) (i : Int) : d.mapping.flatten.count i ≤ n + A := by
  obtain ⟨h1, h2, _⟩ := (C18_default_wiring rnd A n o hm hi).2 d h
  have hlen : d.mapping.flatten.length = d.getNumberOfRAMS * A := by
    rw [List.length_flatten, show d.mapping.map List.length = List.replicate d.mapping.length A from ?_]
    · simp [Discriminator.getNumberOfRAMS, Discriminator.mapping]
    · rw [List.eq_replicate_iff]
      refine ⟨by simp, ?_⟩
      intro b hb
      obtain ⟨m, hm, rfl⟩ := List.mem_map.mp hb
      exact h2 m hm
  have h3 : d.getNumberOfRAMS * A ≤ n + A := by
    rw [h1]
    have ha := Nat.div_mul_le_self (n + A - 1) A
    have hb := Nat.div_mul_le_self n A
    split <;> omega
  have := List.count_le_length (a := i) (l := d.mapping.flatten)
  omega

theorem play_run {ops : List Op} : ∀ {d d' : Discriminator}, run d ops = (d', .ok ()) → (play d ops).1 = d' := by
  induction ops with
  | nil => intro d d' h; simp only [run, Prod.mk.injEq, and_true] at h; exact h
  | cons o ops ih =>
    intro d d' h
    cases o with
    | train img =>
      simp only [run] at h
      split at h
      · rename_i d1 h1
        simp only [play, h1]
        exact ih h
      · cases h
    | untrain img =>
      simp only [run] at h
      split at h
      · rename_i d1 h1
        simp only [play, h1]
        exact ih h
      · cases h

/-! ## C87: Wisard -/

theorem wMentalLoop_ok {it : IterOrder} (m : SMap Discriminator) (h : ∀ e ∈ m, ∃ i, e.2.getMentalImage it = .ok i) :
    ∃ ms, Wisard.mentalImagesLoop it m = .ok ms ∧ List.Forall₂ (fun e e' => e'.1 = e.1 ∧ e.2.getMentalImage it = .ok e'.2) m ms := by
  induction m with
  | nil => exact ⟨[], rfl, .nil⟩
  | cons e m ih =>
    obtain ⟨l, d⟩ := e
    obtain ⟨i, hi⟩ := h (l, d) (by simp)
    obtain ⟨ms, h1, h2⟩ := ih (fun e he => h e (by simp [he]))
    refine ⟨(l, i) :: ms, ?_, .cons ⟨rfl, hi⟩ h2⟩
    simp only [Wisard.mentalImagesLoop, h1]
    simp only at hi
    rw [hi]
    rfl

/-- C87: after every valid history (with untrainings only of trained images, addresses below 2^31 and values that fit an
`int`), `getMentalImages` returns one mental image for each class, and the one of class `l` has, at each position `i`,
(wires of class `l` to `i`) × (trainings − untrainings with label `l` of images that are non-zero at `i`). -/
theorem C87_mental_images {w0 w : Wisard} {ops : List WOp} {n : Int} (g : GoodHistory w0 ops w n) (hn : 0 ≤ n)
    (hl : ∀ l, Legal (opsOf l ops))
    (hfit : ∀ l d, w.discriminators.find l = some d → ∀ m ∈ d.mapping, w0.opts.base ^ m.length ≤ 2 ^ 31)
    (hsum : ∀ l d, w.discriminators.find l = some d → ∀ i : Int, (d.mapping.flatten.count i : Int) * ops.length ≤ 2147483647)
    (it : IterOrder) :
    ∃ ms, w.getMentalImages it = .ok ms ∧ ms.keys = w.discriminators.keys ∧
      ∀ l m, (l, m) ∈ ms → ∃ d, w.discriminators.find l = some d ∧ ∃ _ : (m.length : Int) = n, ∀ i (h : i < m.length),
        m[i] = (d.mapping.flatten.count (i : Int) : Int) *
          net ((opsOf l ops).filter (fun op => decide (NonZeroAt i op.img))) := by
  have hS := (wrun_find g.start ops g.ran).2.2.1
  have key : ∀ l d, w.discriminators.find l = some d → ∃ m, d.getMentalImage it = .ok m ∧
      ∃ _ : (m.length : Int) = n, ∀ i (h : i < m.length), m[i] = (d.mapping.flatten.count (i : Int) : Int) *
          net ((opsOf l ops).filter (fun op => decide (NonZeroAt i op.img))) := by
    intro l d hd
    obtain ⟨d0, h1, h2, h3, _, h5⟩ := g.rep hd
    have hlen := opsOf_length l ops
    obtain ⟨m, h6, h7⟩ := mental_rep h1 h3 h5 (hl l) hn (g.valid_ops l) (by rw [h2]; exact hfit l d hd)
      (by have := g.len; omega) (by
        intro i
        rw [h2]
        refine le_trans ?_ (hsum l d hd i)
        exact Int.mul_le_mul_of_nonneg_left (by exact_mod_cast hlen) (by simp)) it
    rw [h2] at h7
    exact ⟨m, h6, h7⟩
  obtain ⟨ms, h1, h2⟩ := wMentalLoop_ok (it := it) w.discriminators (by
    rintro ⟨l, d⟩ he
    obtain ⟨m, hm, _⟩ := key l d (SMap.find_of_mem hS he)
    exact ⟨m, hm⟩)
  refine ⟨ms, h1, ?_, ?_⟩
  · have : ∀ {a : SMap Discriminator} {b : SMap (List Int)}, List.Forall₂ (fun e e' => e'.1 = e.1 ∧ e.2.getMentalImage it = .ok e'.2) a b →
        b.keys = a.keys := by
      intro a b h
      induction h with
      | nil => rfl
      | cons h _ ih => simp only [SMap.keys, List.map_cons, h.1] at ih ⊢; rw [ih]
    exact this h2
  · intro l m hm
    obtain ⟨⟨l', d⟩, he, h3, h4⟩ := forall₂_mem_right h2 hm
    simp only at h3 h4
    subst h3
    have hf := SMap.find_of_mem hS he
    obtain ⟨m', h5, h6⟩ := key l d hf
    rw [h4] at h5
    cases h5
    exact ⟨d, hf, h6⟩

/-- C87, trainings only: position `i` of the mental image of class `l` is (wires of class `l` to `i`) × (number of images
trained with label `l` that are non-zero at `i`), and the classes are exactly the trained labels. -/
theorem C87_trained {w0 w : Wisard} {ops : List WOp} {n : Int} (g : GoodHistory w0 ops w n) (hn : 0 ≤ n)
    (ht : ∀ o ∈ ops, o.isTrain = true)
    (hfit : ∀ l d, w.discriminators.find l = some d → ∀ m ∈ d.mapping, w0.opts.base ^ m.length ≤ 2 ^ 31)
    (hsum : ∀ l d, w.discriminators.find l = some d → ∀ i : Int, (d.mapping.flatten.count i : Int) * ops.length ≤ 2147483647)
    (it : IterOrder) :
    ∃ ms, w.getMentalImages it = .ok ms ∧ (∀ l, l ∈ ms.keys ↔ l ∈ (trained ops).map (·.2)) ∧
      ∀ l m, (l, m) ∈ ms → ∃ d, w.discriminators.find l = some d ∧ ∃ _ : (m.length : Int) = n, ∀ i (h : i < m.length),
        m[i] = (d.mapping.flatten.count (i : Int) : Int) *
          ((trained ops).filter (fun e => decide (e.2 = l) && decide (NonZeroAt i e.1))).length := by
  obtain ⟨ms, h1, h2, h3⟩ := C87_mental_images g hn (by
    intro l; rw [opsOf_trains ht l]; exact legal_trains _) hfit hsum it
  refine ⟨ms, h1, ?_, ?_⟩
  · intro l
    rw [h2]
    obtain ⟨_, _, _, hF⟩ := wrun_find g.start ops g.ran
    have hmem : opsOf l ops ≠ [] ↔ l ∈ (trained ops).map (·.2) := by
      rw [opsOf_trains ht l]
      simp only [ne_eq, List.map_eq_nil_iff, List.filter_eq_nil_iff, decide_eq_true_eq, not_forall, List.mem_map]
      constructor
      · rintro ⟨e, he, h⟩; exact ⟨e, he, by simpa using h⟩
      · rintro ⟨e, he, h⟩; exact ⟨e, he, by simpa using h⟩
    rw [← hmem, SMap.mem_keys_iff]
    rcases hF l with ⟨q1, q2⟩ | ⟨d, _, _, img, rest, q1, q2, _⟩
    · rw [q1, q2]; simp
    · rw [q1, q2]; simp
  · intro l m hm
    obtain ⟨d, h4, h5, h6⟩ := h3 l m hm
    refine ⟨d, h4, h5, fun i hi => ?_⟩
    rw [h6 i hi, opsOf_trains ht l, net_filter_trains (fun x => decide (NonZeroAt i x)), List.filter_map, List.length_map,
      List.filter_filter]
    congr 3
    apply List.filter_congr
    intro e _
    simp only [Function.comp, Bool.and_comm]

/-- Two classes (`GoodHistory` follows from C73). -/
example : ∃ w, wrun (Wisard.create 2 {}) [.train ⟨Rnd.id, true⟩ (.vec [1, 0, 1, 1]) b!"a",
      .train ⟨Rnd.id, true⟩ (.vec [1, 0, 0, 0]) b!"a", .train ⟨Rnd.id, true⟩ (.vec [0, 1, 0, 0]) b!"b"] = (w, .ok ()) ∧
    (∀ l d, w.discriminators.find l = some d → ∀ m ∈ d.mapping, (2 : Int) ^ m.length ≤ 2 ^ 31) ∧
    w.getMentalImages IterOrder.id = .ok [(b!"a", [2, 0, 1, 1]), (b!"b", [0, 1, 0, 0])] := by
  refine ⟨(wrun (Wisard.create 2 {}) [.train ⟨Rnd.id, true⟩ (.vec [1, 0, 1, 1]) b!"a",
      .train ⟨Rnd.id, true⟩ (.vec [1, 0, 0, 0]) b!"a", .train ⟨Rnd.id, true⟩ (.vec [0, 1, 0, 0]) b!"b"]).1, by decide +kernel, ?_, by decide +kernel⟩
  intro l d hd m hm
  have h : ∀ e ∈ (wrun (Wisard.create 2 {}) [.train ⟨Rnd.id, true⟩ (.vec [1, 0, 1, 1]) b!"a",
      .train ⟨Rnd.id, true⟩ (.vec [1, 0, 0, 0]) b!"a", .train ⟨Rnd.id, true⟩ (.vec [0, 1, 0, 0]) b!"b"]).1.discriminators,
      ∀ m ∈ e.2.mapping, (2 : Int) ^ m.length ≤ 2 ^ 31 := by decide +kernel
  exact h _ (SMap.mem_of_find hd) m hm

/-! ## C86: ClusWisard -/

theorem mentalLoop_get {it : IterOrder} (ds : List (Option Discriminator)) : ∀ {ms : List (List Int)},
    Cluster.mentalLoop it ds = .ok ms → ms.length = ds.length ∧ ∀ (j : Nat) (m : List Int), ms[j]? = some m →
      ∃ d, ds[j]? = some (some d) ∧ d.getMentalImage it = .ok m := by
  induction ds with
  | nil =>
    intro ms h
    simp only [Cluster.mentalLoop, Except.ok.injEq] at h
    subst h
    simp
  | cons o ds ih =>
    intro ms h
    cases o with
    | none => simp [Cluster.mentalLoop] at h
    | some d =>
      simp only [Cluster.mentalLoop] at h
      obtain ⟨m0, h0, h⟩ := bind_eq_ok h
      obtain ⟨ms', h', h⟩ := bind_eq_ok h
      simp only [Except.ok.injEq] at h
      subst h
      obtain ⟨i1, i2⟩ := ih h'
      refine ⟨by simp [i1], ?_⟩
      intro j m hj
      cases j with
      | zero =>
        simp only [List.getElem?_cons_zero, Option.some.injEq] at hj ⊢
        subst hj
        exact ⟨d, rfl, h0⟩
      | succ j =>
        simp only [List.getElem?_cons_succ] at hj ⊢
        exact i2 j m hj

theorem mentalLoop_ok {it : IterOrder} (ds : List (Option Discriminator))
    (h : ∀ o ∈ ds, ∃ d m, o = some d ∧ d.getMentalImage it = .ok m) : ∃ ms, Cluster.mentalLoop it ds = .ok ms := by
  induction ds with
  | nil => exact ⟨[], rfl⟩
  | cons o ds ih =>
    obtain ⟨d, m, rfl, hm⟩ := h o (by simp)
    obtain ⟨ms, hms⟩ := ih (fun o ho => h o (by simp [ho]))
    exact ⟨m :: ms, by simp only [Cluster.mentalLoop, hm, hms, Except.bind_ok]⟩

/-- C86: for every history, if all images that may have been trained with label `l` are valid images of `n` pixels, and
class `l` holds no null pointers (C75 gives a sufficient condition), then `getMentalImage(l)` succeeds with one image for
each discriminator of `l`; the one of discriminator `j` has, at each position `i`, (wires of `j` to `i`) × (number of
images that `j` learned and that are non-zero at `i`), where `j` learned part of the images given to class `l`, in order,
and at least one. (Addresses below 2^31, values that fit an `int`.) -/
theorem C86_mental_image (f : Flt) {A n : Nat} {ms : Rat} {t dl : Int} {o : ClusOpts} {w0 : ClusWisard}
    (h0 : ClusWisard.create A ms t dl o = .ok w0) (ops : List COp) (l : Str)
    (hv : ∀ x ∈ imagesOf l ops, ValidImage n o.base x) (hfit : o.base ^ A ≤ 2 ^ 31)
    (hsmall : ((n : Int) + A) * (imagesOf l ops).length ≤ 2147483647)
    (hnull : none ∉ discs (cplay f w0 ops).1 l) (it : IterOrder) :
    ∃ imgs, ((cplay f w0 ops).1.getMentalImage it l).2 = .ok imgs ∧ imgs.length = (discs (cplay f w0 ops).1 l).length ∧
      ∀ (j : Nat) (m : List Int), imgs[j]? = some m → ∃ d learned, (discs (cplay f w0 ops).1 l)[j]? = some (some d) ∧
        learned ≠ [] ∧ learned.Sublist (imagesOf l ops) ∧
        (∃ rnd d0, Discriminator.create rnd A n { ignoreZero := o.ignoreZero, completeAddressing := o.completeAddressing, base := o.base } = .ok d0 ∧
          d0.trainAll learned = (d, .ok ())) ∧
        ∃ _ : m.length = n, ∀ i (h : i < m.length), m[i] = (d.mapping.flatten.count (i : Int) : Int) *
          (learned.filter (fun x => decide (NonZeroAt i x))).length := by
  have key : ∀ d, some d ∈ discs (cplay f w0 ops).1 l → ∃ learned m, learned ≠ [] ∧ learned.Sublist (imagesOf l ops) ∧
      (∃ rnd d0, Discriminator.create rnd A n { ignoreZero := o.ignoreZero, completeAddressing := o.completeAddressing, base := o.base } = .ok d0 ∧
        d0.trainAll learned = (d, .ok ())) ∧ d.getMentalImage it = .ok m ∧
      ∃ _ : m.length = n, ∀ i (h : i < m.length), m[i] = (d.mapping.flatten.count (i : Int) : Int) *
          (learned.filter (fun x => decide (NonZeroAt i x))).length := by
    intro d hd
    obtain ⟨learned, n', rnd, d0, c1, c2, ⟨x, hx, hn'⟩, c3, c4⟩ := C77_discriminators f h0 ops l hd
    have : n' = n := by rw [hn']; exact (hv x hx).1
    subst this
    have hA : 2 ≤ (A : Int) := by
      have h' := c3
      unfold Discriminator.create at h'
      rw [if_neg (by simp), if_neg (by simp)] at h'
      unfold Discriminator.setRAMShuffle at h'
      obtain ⟨_, ha, _⟩ := bind_eq_ok h'
      exact (checkAddressSize_ok ha).1
    obtain ⟨_, w2, w3, _⟩ := (C18_default_wiring rnd A n _ rfl rfl).2 d0 c3
    have hle := c2.length_le
    have hN : ((n : Int) + A) * learned.length ≤ 2147483647 :=
      le_trans (Int.mul_le_mul_of_nonneg_left (by exact_mod_cast hle) (by omega)) hsmall
    have hlen : learned.length ≤ 2147483647 := by
      have h2 : (2 : Int) * learned.length ≤ ((n : Int) + A) * learned.length :=
        Int.mul_le_mul_of_nonneg_right (by omega) (by omega)
      omega
    obtain ⟨d', m, e1, e2, e3, e4⟩ := C17_mental_image_counts c3 w3 (by omega) (by
      intro m hm; rw [w2 m hm]; exact hfit) learned (fun x hx => hv x (c2.subset hx)) hlen (by
        intro i
        refine le_trans (Int.mul_le_mul_of_nonneg_right ?_ (by omega)) hN
        have := wires_le rfl rfl (by omega) c3 i
        exact_mod_cast this) it
    have hd' : d' = d := by
      rw [trainAll_eq_run] at e1
      rw [← c4, play_run e1]
    subst hd'
    have hmap : d'.mapping = d0.mapping := by
      have := play_le (learned.map Op.train) d0
      rw [c4] at this
      exact this.mapping
    refine ⟨learned, m, c1, c2, ⟨rnd, d0, c3, e1⟩, e2, by exact_mod_cast e3, ?_⟩
    rw [hmap]
    exact e4
  have hloop : ((cplay f w0 ops).1.getMentalImage it l).2 = Cluster.mentalLoop it (discs (cplay f w0 ops).1 l) := by
    unfold ClusWisard.getMentalImage discs
    cases (cplay f w0 ops).1.clusters.find l <;> rfl
  rw [hloop]
  obtain ⟨imgs, hi⟩ := mentalLoop_ok (it := it) (discs (cplay f w0 ops).1 l) (by
    intro o ho
    cases o with
    | none => exact absurd ho hnull
    | some d =>
      obtain ⟨_, m, _, _, _, hm, _⟩ := key d ho
      exact ⟨d, m, rfl, hm⟩)
  obtain ⟨g1, g2⟩ := mentalLoop_get _ hi
  refine ⟨imgs, hi, g1, ?_⟩
  intro j m hj
  obtain ⟨d, hd, hm⟩ := g2 j m hj
  obtain ⟨learned, m', k1, k2, k3, k4, k5⟩ := key d (List.mem_of_getElem? hd)
  rw [hm] at k4
  cases k4
  exact ⟨d, learned, hd, k1, k2, k3, k5⟩

theorem cMentalLoop_spec {it : IterOrder} (cs : SMap Cluster) : ∀ {ms : SMap (List (List Int))},
    ClusWisard.mentalImagesLoop it cs = .ok ms → ms.keys = cs.keys ∧
      ∀ l x, (l, x) ∈ ms → ∃ c, (l, c) ∈ cs ∧ c.getMentalImages it = .ok x := by
  induction cs with
  | nil => intro ms h; simp only [ClusWisard.mentalImagesLoop, Except.ok.injEq] at h; subst h; exact ⟨rfl, by simp⟩
  | cons e cs ih =>
    intro ms h
    obtain ⟨l, c⟩ := e
    simp only [ClusWisard.mentalImagesLoop] at h
    obtain ⟨m, h1, h⟩ := bind_eq_ok h
    obtain ⟨ms', h2, h⟩ := bind_eq_ok h
    simp only [Except.ok.injEq] at h
    subst h
    obtain ⟨i1, i2⟩ := ih h2
    refine ⟨by simp only [SMap.keys, List.map_cons] at i1 ⊢; rw [i1], ?_⟩
    intro l' x hx
    rcases List.mem_cons.mp hx with hx | hx
    · cases hx; exact ⟨c, by simp, h1⟩
    · obtain ⟨c', h3, h4⟩ := i2 l' x hx
      exact ⟨c', by simp [h3], h4⟩

/-- C86: `getMentalImages` returns, for each class and under its label, what `getMentalImage` returns for it. -/
theorem C86_mental_images (w : ClusWisard) (hS : SMap.Sorted w.clusters) (it : IterOrder) {ms : SMap (List (List Int))}
    (h : w.getMentalImages it = .ok ms) :
    ms.keys = w.clusters.keys ∧ ∀ l, l ∈ w.clusters.keys → ∃ x, (l, x) ∈ ms ∧ w.getMentalImage it l = (w, .ok x) := by
  obtain ⟨h1, h2⟩ := cMentalLoop_spec w.clusters h
  refine ⟨h1, ?_⟩
  intro l hl
  rw [← h1] at hl
  obtain ⟨⟨l', x⟩, hx, rfl⟩ := List.mem_map.mp hl
  obtain ⟨c, h3, h4⟩ := h2 l' x hx
  refine ⟨x, hx, ?_⟩
  unfold ClusWisard.getMentalImage
  rw [SMap.find_of_mem hS h3]
  simp only [h4]

/-- The example model: class `"a"` has two discriminators, each trained with one image. -/
example : imagesOf b!"a" [op0] = [.vec [1, 1, 1, 1], .vec [0, 0, 0, 0]] ∧ none ∉ discs (cplay Flt.exact cw0 [op0]).1 b!"a" ∧
    (cplay Flt.exact cw0 [op0]).1.getMentalImages IterOrder.id =
      .ok [(b!"a", [[1, 1, 1, 1], [0, 0, 0, 0]]), (b!"b", [[1, 0, 1, 0]])] := by
  decide +kernel

end Wis
