import Verif.Props.Teach
import Verif.Props.TeachClus
import Verif.Props.RecodeClus
import Verif.Spec.Noise
/-!
# Properties C170, C171: noise

C170: a RAM that reads no changed pixel gives the same vote, so without bleaching the score of a class changes by at most
the number of its RAMs that read a changed pixel; with every pixel read once, by at most the number of changed pixels. A
noisy version of a trained image keeps all but as many RAMs of its class active. C171: an answer that leads by more than
twice that number stays the same. With bleaching only a lead *before* bleaching is stable: the lead in the scores that are
returned can be that of all RAMs, and one pixel flips the answer (`C171_needs_plain`).
-/

namespace Wis
open Spec

/-! ## C170: votes -/

theorem indexLoop_agree {x y : Image} (base : Int) (as : List Int) : ∀ (i p : Addr), Agree as x y →
    Ram.indexLoop x base as i p = Ram.indexLoop y base as i p := by
  induction as with
  | nil => intro i p _; rfl
  | cons a as ih =>
    intro i p h
    unfold Ram.indexLoop
    rw [h a (by simp)]
    cases y.read a with
    | error e => simp only [Except.bind_error]
    | ok v =>
      simp only [Except.bind_ok]
      split
      · rfl
      · exact ih _ _ (fun b hb => h b (List.mem_cons_of_mem _ hb))

theorem getVote_agree {x y : Image} (r : Ram) (h : Agree r.addresses x y) : r.getVote x = r.getVote y := by
  unfold Ram.getVote Ram.getIndex
  rw [indexLoop_agree _ _ _ _ h]

theorem votes_agree {x y : Image} (rs : List Ram) : ∀ {vs vs' : List Int}, Discriminator.votes x rs = .ok vs →
    Discriminator.votes y rs = .ok vs' → vs.length = rs.length ∧ vs'.length = rs.length ∧
    (∀ (j : Nat) (r : Ram), rs[j]? = some r → Agree r.addresses x y → vs[j]? = vs'[j]?) ∧
    (vs.zip vs').countP (fun p => decide (p.1 ≠ p.2)) ≤ touched (rs.map (·.addresses)) x y := by
  induction rs with
  | nil =>
    intro vs vs' h h'
    cases h; cases h'
    exact ⟨rfl, rfl, fun j r h => by simp at h, Nat.le_refl _⟩
  | cons r rs ih =>
    intro vs vs' h h'
    unfold Discriminator.votes at h h'
    obtain ⟨v, h1, h⟩ := bind_eq_ok h
    obtain ⟨us, h2, h⟩ := bind_eq_ok h
    obtain ⟨v', h1', h'⟩ := bind_eq_ok h'
    obtain ⟨us', h2', h'⟩ := bind_eq_ok h'
    cases h; cases h'
    obtain ⟨a1, a2, a3, a4⟩ := ih h2 h2'
    have hv : Agree r.addresses x y → v = v' := by
      intro ha
      rw [getVote_agree r ha, h1'] at h1
      cases h1
      rfl
    refine ⟨by simp [a1], by simp [a2], ?_, ?_⟩
    · intro j q hj ha
      cases j with
      | zero =>
        simp only [List.getElem?_cons_zero, Option.some.injEq] at hj ⊢
        subst hj
        exact hv ha
      | succ j =>
        simp only [List.getElem?_cons_succ] at hj ⊢
        exact a3 j q hj ha
    · unfold touched at a4 ⊢
      simp only [List.zip_cons_cons, List.map_cons, List.countP_cons]
      by_cases ha : Agree r.addresses x y
      · have := hv ha
        subst this
        rw [if_neg (by simp)]
        omega
      · rw [if_pos (show decide (¬ Agree r.addresses x y) = true by simpa using ha)]
        split <;> omega

/-- C170: for two images that a discriminator, in any state, accepts, the votes have one entry per RAM, those of the RAMs
that read no changed pixel are the same, and no more votes differ than RAMs read a changed pixel. -/
theorem C170_votes (d : Discriminator) {x y : Image} {vs vs' : List Int} (hx : d.classify x = .ok vs)
    (hy : d.classify y = .ok vs') : vs.length = d.mapping.length ∧ vs'.length = d.mapping.length ∧
    (∀ (j : Nat) (m : List Int), d.mapping[j]? = some m → Agree m x y → vs[j]? = vs'[j]?) ∧
    (vs.zip vs').countP (fun p => decide (p.1 ≠ p.2)) ≤ touched d.mapping x y := by
  unfold Discriminator.classify at hx hy
  obtain ⟨_, _, hx⟩ := bind_eq_ok hx
  obtain ⟨_, _, hy⟩ := bind_eq_ok hy
  obtain ⟨a1, a2, a3, a4⟩ := votes_agree d.rams hx hy
  unfold Discriminator.mapping
  refine ⟨by rw [List.length_map]; exact a1, by rw [List.length_map]; exact a2, ?_, a4⟩
  intro j m hj ha
  rw [List.getElem?_map] at hj
  cases hr : d.rams[j]? with
  | none => rw [hr] at hj; cases hj
  | some r =>
    rw [hr] at hj
    cases hj
    exact a3 j r hr ha

theorem active_close (b : Int) : ∀ (vs vs' : List Int), vs.length = vs'.length →
    (active b vs : Int) ≤ active b vs' + (vs.zip vs').countP (fun p => decide (p.1 ≠ p.2)) := by
  intro vs
  induction vs with
  | nil => intro vs' h; cases vs' with
    | nil => simp [active]
    | cons _ _ => cases h
  | cons v vs ih =>
    intro vs' h
    cases vs' with
    | nil => cases h
    | cons v' vs' =>
      have := ih vs' (by simpa using h)
      unfold active at this ⊢
      simp only [List.zip_cons_cons, List.countP_cons]
      by_cases hv : v = v'
      · subst hv
        rw [if_neg (show ¬ decide (v ≠ v) = true by simp)]
        split <;> omega
      · rw [if_pos (show decide (v ≠ v') = true by simpa using hv)]
        split <;> split <;> omega

theorem zip_swap_count (vs vs' : List Int) :
    (vs.zip vs').countP (fun p => decide (p.1 ≠ p.2)) = (vs'.zip vs).countP (fun p => decide (p.1 ≠ p.2)) := by
  induction vs generalizing vs' with
  | nil => cases vs' <;> rfl
  | cons v vs ih =>
    cases vs' with
    | nil => rfl
    | cons v' vs' =>
      simp only [List.zip_cons_cons, List.countP_cons, ih vs']
      have : decide (v ≠ v') = decide (v' ≠ v) := by simp only [ne_comm]
      rw [this]

/-! ## C170: scores -/

theorem allvotes_find {x : Image} (ds : SMap Discriminator) : ∀ {V : Votes}, Wisard.allvotes x ds = .ok V →
    SMap.keys V = SMap.keys ds ∧ ∀ l d, ds.find l = some d → ∃ vs, d.classify x = .ok vs ∧ V.find l = some vs := by
  induction ds with
  | nil => intro V h; cases h; exact ⟨rfl, fun l d h => by cases h⟩
  | cons e ds ih =>
    obtain ⟨k, dk⟩ := e
    intro V h
    unfold Wisard.allvotes at h
    obtain ⟨v, h1, h⟩ := bind_eq_ok h
    obtain ⟨vs, h2, h⟩ := bind_eq_ok h
    cases h
    obtain ⟨i1, i2⟩ := ih h2
    refine ⟨by simp only [SMap.keys, List.map_cons] at i1 ⊢; rw [i1], ?_⟩
    intro l d hl
    simp only [SMap.find] at hl ⊢
    by_cases hk : k = l
    · rw [if_pos hk] at hl ⊢
      cases hl
      exact ⟨v, h1, rfl⟩
    · rw [if_neg hk] at hl ⊢
      exact i2 l d hl

theorem find_activeAll (b : Int) (V : Votes) (l : Str) :
    SMap.find (activeAll b V) l = (V.find l).map (fun vs => (active b vs : Int)) := by
  unfold activeAll
  exact find_map_key V (fun _ vs => (active b vs : Int)) l

/-- The scores of two images at a threshold differ by at most the touched RAMs. -/
theorem scores_close {w : Wisard} {x y : Image} {V V' : Votes} (hx : Wisard.allvotes x w.discriminators = .ok V)
    (hy : Wisard.allvotes y w.discriminators = .ok V') (b : Int) {l : Str} {d : Discriminator}
    (hd : w.discriminators.find l = some d) :
    ∃ v v', SMap.find (activeAll b V) l = some v ∧ SMap.find (activeAll b V') l = some v' ∧
      v ≤ v' + touched d.mapping x y ∧ v' ≤ v + touched d.mapping x y := by
  obtain ⟨vs, a1, a2⟩ := (allvotes_find _ hx).2 l d hd
  obtain ⟨vs', b1, b2⟩ := (allvotes_find _ hy).2 l d hd
  obtain ⟨c1, c2, _, c4⟩ := C170_votes d a1 b1
  refine ⟨active b vs, active b vs', by rw [find_activeAll, a2]; rfl, by rw [find_activeAll, b2]; rfl, ?_, ?_⟩
  · have := active_close b vs vs' (by omega); omega
  · have := active_close b vs' vs (by omega)
    rw [zip_swap_count] at this
    omega

theorem classify1_plain {w : Wisard} {x : Image} {s : Scores} (hb : w.opts.bleachingActivated = false) (h : w.classify1 x = .ok s) :
    ∃ V, Wisard.allvotes x w.discriminators = .ok V ∧ s = activeAll 1 V := by
  unfold Wisard.classify1 at h
  obtain ⟨V, h1, h⟩ := bind_eq_ok h
  rw [hb, C38_without_bleaching] at h
  cases h
  exact ⟨V, h1, rfl⟩

/-- C170: a Wisard in any state, without bleaching: the scores of a class for two images differ by at most the number of
the class's RAMs that read a changed pixel. -/
theorem C170_scores {w : Wisard} (hb : w.opts.bleachingActivated = false) {x y : Image} {s s' : Scores}
    (hx : w.classify1 x = .ok s) (hy : w.classify1 y = .ok s') {l : Str} {d : Discriminator}
    (hd : w.discriminators.find l = some d) :
    ∃ v v', s.find l = some v ∧ s'.find l = some v' ∧
      v ≤ v' + touched d.mapping x y ∧ v' ≤ v + touched d.mapping x y := by
  obtain ⟨V, a1, rfl⟩ := classify1_plain hb hx
  obtain ⟨V', b1, rfl⟩ := classify1_plain hb hy
  exact scores_close a1 b1 1 hd

/-! ## C170: pixels -/

theorem readers_count {k : Nat} {wiring : List (List Int)} (h : ReadAtMost k wiring) (L : List Nat) :
    wiring.countP (fun m => decide (∃ i ∈ L, ((i : Nat) : Int) ∈ m)) ≤ k * L.length := by
  induction L with
  | nil => simp
  | cons i L ih =>
    have h1 : wiring.countP (fun m => decide (∃ j ∈ i :: L, ((j : Nat) : Int) ∈ m)) ≤
        wiring.countP (fun m => decide ((i : Int) ∈ m)) + wiring.countP (fun m => decide (∃ j ∈ L, ((j : Nat) : Int) ∈ m)) := by
      clear ih h
      induction wiring with
      | nil => simp
      | cons m ms ih =>
        simp only [List.countP_cons]
        by_cases p : ((i : Int) ∈ m)
        · simp only [p, decide_true, if_true]
          split <;> split <;> omega
        · have : decide (∃ j ∈ i :: L, ((j : Nat) : Int) ∈ m) = decide (∃ j ∈ L, ((j : Nat) : Int) ∈ m) := by
            apply decide_eq_decide.mpr
            constructor
            · rintro ⟨j, hj, hm⟩
              rcases List.mem_cons.mp hj with rfl | q
              · exact absurd hm p
              · exact ⟨j, q, hm⟩
            · rintro ⟨j, hj, hm⟩
              exact ⟨j, List.mem_cons_of_mem _ hj, hm⟩
          rw [this]
          split <;> split <;> omega
    have := h i
    rw [List.length_cons, Nat.mul_add, Nat.mul_one]
    omega

/-- C170: with no pixel read by more than `k` RAMs, at most `k` RAMs per changed pixel read a changed pixel. -/
theorem C170_pixels {n k : Nat} {wiring : List (List Int)} (hw : WiredInside n wiring) (hk : ReadAtMost k wiring) (x y : Image) :
    touched wiring x y ≤ k * (changed n x y).length := by
  refine Nat.le_trans ?_ (readers_count hk (changed n x y))
  unfold touched
  apply List.countP_mono_left
  intro m hm h
  have h := of_decide_eq_true h
  apply decide_eq_true
  unfold Agree at h
  simp only [not_forall] at h
  obtain ⟨a, ha, hne⟩ := h
  obtain ⟨h0, h1⟩ := hw m hm a ha
  obtain ⟨i, rfl⟩ := Int.eq_ofNat_of_zero_le h0
  exact ⟨i, List.mem_filter.mpr ⟨List.mem_range.mpr (by omega), by simpa using hne⟩, ha⟩

theorem nodup_readAtMost {wiring : List (List Int)} (h : wiring.flatten.Nodup) : ReadAtMost 1 wiring := by
  intro i
  induction wiring with
  | nil => simp
  | cons m ms ih =>
    rw [List.flatten_cons, List.nodup_append] at h
    have := ih h.2.1
    simp only [List.countP_cons]
    by_cases p : ((i : Int) ∈ m)
    · have : ms.countP (fun m => decide ((i : Int) ∈ m)) = 0 := by
        rw [List.countP_eq_zero]
        intro q hq hc
        exact h.2.2 i p i (List.mem_flatten.mpr ⟨q, hq, of_decide_eq_true hc⟩) rfl
      rw [this]
      split <;> omega
    · simp only [p, decide_false, Bool.false_eq_true, if_false]
      omega

theorem count_cover {n : Nat} {F : List Int} (h : ∀ i : Nat, i < n → (i : Int) ∈ F) (i : Nat) : F.count (i : Int) ≤ F.length - n + 1 := by
  have hR : ((List.range n).map Int.ofNat).Nodup := by
    refine List.Nodup.map (fun a b h => Int.ofNat.inj h) List.nodup_range
  have hsub : ((List.range n).map Int.ofNat).filter (fun a => decide (a ≠ (i : Int))) ⊆ F.filter (fun a => decide (a ≠ (i : Int))) := by
    intro a ha
    obtain ⟨h1, h2⟩ := List.mem_filter.mp ha
    obtain ⟨k, hk, rfl⟩ := List.mem_map.mp h1
    exact List.mem_filter.mpr ⟨h k (List.mem_range.mp hk), h2⟩
  have hle := (List.subperm_of_subset (hR.filter _) hsub).length_le
  have e1 := List.length_eq_countP_add_countP (fun a => decide (a ≠ (i : Int))) (l := F)
  have e2 := List.length_eq_countP_add_countP (fun a => decide (a ≠ (i : Int))) (l := (List.range n).map Int.ofNat)
  have c1 : F.countP (fun a => decide ¬ decide (a ≠ (i : Int)) = true) = F.count (i : Int) := by
    rw [List.count]
    apply List.countP_congr
    intro a _
    simp
  have c2 : ((List.range n).map Int.ofNat).countP (fun a => decide ¬ decide (a ≠ (i : Int)) = true) ≤ 1 := by
    have : ((List.range n).map Int.ofNat).countP (fun a => decide ¬ decide (a ≠ (i : Int)) = true) =
        ((List.range n).map Int.ofNat).count (i : Int) := by
      rw [List.count]
      apply List.countP_congr
      intro a _
      simp
    rw [this]
    exact List.nodup_iff_count_le_one.mp hR _
  rw [← List.countP_eq_length_filter, ← List.countP_eq_length_filter] at hle
  rw [List.length_map, List.length_range] at e2
  omega

theorem readers_le_count (wiring : List (List Int)) (i : Nat) :
    wiring.countP (fun m => decide ((i : Int) ∈ m)) ≤ wiring.flatten.count (i : Int) := by
  induction wiring with
  | nil => simp
  | cons m ms ih =>
    rw [List.flatten_cons, List.count_append, List.countP_cons]
    by_cases p : ((i : Int) ∈ m)
    · have := List.count_pos_iff.mpr p
      split <;> omega
    · rw [if_neg (by simpa using p)]; omega

theorem flatten_length_const {A : Nat} (ms : List (List Int)) (h : ∀ m ∈ ms, m.length = A) : ms.flatten.length = ms.length * A := by
  induction ms with
  | nil => simp
  | cons m ms ih =>
    rw [List.flatten_cons, List.length_append, h m (by simp), ih (fun q hq => h q (List.mem_cons_of_mem _ hq)), List.length_cons,
      Nat.add_mul, Nat.one_mul, Nat.add_comm]

/-- C170: with default wiring no pixel is read by more than one RAM, plus the pixels that fill up the last RAM (none if the
address size divides the entry size). -/
theorem C170_default {A n : Nat} {o : WisardOpts} (hm : o.mapping = []) (hi : o.indexes = []) {ops : List WOp} {w : Wisard}
    (g : GoodHistory (Wisard.create A o) ops w n) {l : Str} {d : Discriminator} (hd : w.discriminators.find l = some d) :
    ReadAtMost (if o.completeAddressing then (n + A - 1) / A * A - n + 1 else 1) d.mapping := by
  have hN := default_rams hm hi g hd
  rcases (wrun_find g.start ops g.ran).2.2.2 l with ⟨h, _⟩ | ⟨d', d0, rnd, img, rest, h1, h2, h3, h5⟩
  · rw [h] at hd; cases hd
  · rw [h1] at hd
    cases hd
    have hsz : (img.size : Int) = n := (g.valid_ops l (.train img) (by rw [h2]; simp)).1
    rw [hsz] at h3
    have hmap : d.mapping = d0.mapping := by
      have := run_le (opsOf l ops) d0
      rw [h5] at this
      exact this.mapping
    have hc : Discriminator.create rnd A n { ignoreZero := o.ignoreZero, completeAddressing := o.completeAddressing, base := o.base } = .ok d0 := by
      unfold Wisard.newDiscriminator at h3
      simp only [Wisard.create, hm, hi, SMap.find] at h3
      unfold Discriminator.create
      simp only [List.length_nil]
      exact h3
    obtain ⟨_, c2, _, c4, c5⟩ := (C18_default_wiring rnd A n _ rfl rfl).2 d0 hc
    rw [hmap] at hN ⊢
    cases hca : o.completeAddressing with
    | false =>
      rw [if_neg (by simp)]
      exact nodup_readAtMost (c5 hca)
    | true =>
      rw [hca, if_pos rfl] at hN
      rw [if_pos rfl]
      intro i
      refine Nat.le_trans (readers_le_count _ i) ?_
      have := count_cover (c4 hca) i
      rw [flatten_length_const _ c2, hN] at this
      exact this

/-! ## C170: noisy training images -/

/-- C170: without bleaching, an image that differs from a training image of class `l` activates all RAMs of `l` except at
most those that read a changed pixel. -/
theorem C170_trained {w0 w : Wisard} {ops : List WOp} {n : Int} (g : GoodHistory w0 ops w n)
    (t : ∀ o ∈ ops, o.isTrain = true) (hb : w0.opts.bleachingActivated = false) (hz : w0.opts.ignoreZero = false)
    {env : Env} {img : Image} {l : Str} (hmem : .train env img l ∈ ops) {y : Image} (hy : ValidImage n w0.opts.base y) :
    ∃ d s v, w.discriminators.find l = some d ∧ w.classify1 y = .ok s ∧ s.find l = some v ∧
      (d.getNumberOfRAMS : Int) ≤ v + touched d.mapping img y := by
  obtain ⟨d, h1, _, h3⟩ := C44_trained_image_fully_active w0 w g.start hz ops t g.ran env img l hmem
  have hopt := (wrun_find g.start ops g.ran).2.1
  have hb' : w.opts.bleachingActivated = false := by rw [hopt]; exact hb
  obtain ⟨s, a1, _⟩ := C106_score_plain g t hb (g.valid _ hmem)
  obtain ⟨s', b1, _⟩ := C106_score_plain g t hb hy
  obtain ⟨v, v', e1, e2, e3, _⟩ := C170_scores hb' a1 b1 h1
  have := (h3 hb' s a1).1
  rw [e1] at this
  cases this
  exact ⟨d, s', v', h1, b1, e2, e3⟩

/-- C170 for default wiring, in pixels: an image that differs in `k` pixels from a training image of class `l` activates all
RAMs of `l` except at most `k` (times the number of RAMs that may read one pixel, which is 1 if the address size divides the
entry size). -/
theorem C170_noise {A n : Nat} {o : WisardOpts} (hm : o.mapping = []) (hi : o.indexes = []) {ops : List WOp} {w : Wisard}
    (g : GoodHistory (Wisard.create A o) ops w n) (t : ∀ q ∈ ops, q.isTrain = true) (hb : o.bleachingActivated = false)
    (hz : o.ignoreZero = false) {env : Env} {img : Image} {l : Str} (hmem : .train env img l ∈ ops) {y : Image}
    (hy : ValidImage n o.base y) :
    ∃ d s v, w.discriminators.find l = some d ∧ w.classify1 y = .ok s ∧ s.find l = some v ∧
      (d.getNumberOfRAMS : Int) ≤ v +
        ((if o.completeAddressing then (n + A - 1) / A * A - n + 1 else 1) * (changed n img y).length : Nat) ∧
      ((n + A - 1) / A * A = n ∨ o.completeAddressing = false → (d.getNumberOfRAMS : Int) ≤ v + (changed n img y).length) := by
  obtain ⟨d, s, v, h1, h2, h3, h4⟩ := C170_trained g t hb hz hmem hy
  have hp := C170_pixels (g.wired l d h1) (C170_default hm hi g h1) img y
  refine ⟨d, s, v, h1, h2, h3, by omega, ?_⟩
  intro hk
  have : (if o.completeAddressing then (n + A - 1) / A * A - n + 1 else 1) = 1 := by
    rcases hk with hk | hk
    · rw [hk]; split <;> omega
    · rw [hk]; rfl
  rw [this, Nat.one_mul] at hp
  omega

/-! ## C171 -/

theorem top_wins {V : Votes} (hs : SMap.Sorted V) {b : Int} {l : Str} {v : Int} (hl : SMap.find (activeAll b V) l = some v)
    (h : ∀ k u, k ≠ l → SMap.find (activeAll b V) k = some u → u < v) : Bleaching.getBiggestCandidate (activeAll b V) = l := by
  have hs' := Bleaching.activeAll_sorted hs b
  obtain ⟨p, p1, p2, p3, _⟩ := C39_winner _ hs' (by intro h; rw [h] at hl; cases hl) (Bleaching.activeAll_nonneg b V)
  rw [p2]
  by_contra hne
  have := h p.1 p.2 hne (SMap.find_of_mem hs' p1)
  have := p3 _ (SMap.mem_of_find hl)
  omega

/-- C171: the scores without bleaching of `x` show the class `l` leading every other class by more than the RAMs of both
classes that read a changed pixel; then the answer for `y` is `l`. With bleaching the lead must also contain the confidence.
For any state of the model. -/
theorem C171_stable {w : Wisard} (hsort : SMap.Sorted w.discriminators) {x y : Image} {s s' : Scores}
    (hx : ({ w with opts := { w.opts with bleachingActivated := false } } : Wisard).classify1 x = .ok s)
    (hy : ({ w with opts := { w.opts with bleachingActivated := false } } : Wisard).classify1 y = .ok s')
    {l : Str} {d : Discriminator} {v : Int} (hd : w.discriminators.find l = some d) (hv : s.find l = some v)
    (hlead : ∀ k u dk, k ≠ l → s.find k = some u → w.discriminators.find k = some dk →
      u + touched d.mapping x y + touched dk.mapping x y < v ∧
      (w.opts.bleachingActivated = true → u + touched d.mapping x y + touched dk.mapping x y + w.opts.confidence ≤ v)) :
    w.classify [y] = .ok [l] := by
  obtain ⟨V, a1, rfl⟩ := classify1_plain rfl hx
  obtain ⟨V', b1, rfl⟩ := classify1_plain rfl hy
  obtain ⟨ka, _⟩ := allvotes_find _ a1
  obtain ⟨kb, fb⟩ := allvotes_find _ b1
  have hsV' : SMap.Sorted V' := sorted_of_keys hsort kb
  obtain ⟨v0, v', e1, e2, e3, _⟩ := scores_close (w := w) a1 b1 1 hd
  rw [hv] at e1
  cases e1
  have lead : ∀ k u', k ≠ l → SMap.find (activeAll 1 V') k = some u' → u' < v' ∧ (w.opts.bleachingActivated = true → u' + w.opts.confidence ≤ v') := by
    intro k u' hk hu'
    have hmem : k ∈ SMap.keys w.discriminators := by
      have : k ∈ SMap.keys (activeAll 1 V') := SMap.mem_keys_iff.mpr ⟨u', hu'⟩
      rw [Bleaching.activeAll_keys, kb] at this
      exact this
    obtain ⟨dk, hdk⟩ := SMap.mem_keys_iff.mp hmem
    obtain ⟨u, u'', q1, q2, _, q4⟩ := scores_close (w := w) a1 b1 1 hdk
    rw [hu'] at q2
    cases q2
    obtain ⟨r1, r2⟩ := hlead k u dk hk q1 hdk
    refine ⟨by omega, fun h => ?_⟩
    have := r2 h
    omega
  have hwin := top_wins hsV' e2 (fun k u h1 h2 => (lead k u h1 h2).1)
  have hmake : Bleaching.make V' w.opts.bleachingActivated w.opts.searchBestConfidence w.opts.confidence = .ok (activeAll 1 V') := by
    cases hb : w.opts.bleachingActivated with
    | false => exact C38_without_bleaching _ _ _
    | true =>
      apply loop_stops
      rintro ⟨pre, z, post, h0, h1, h2, h3, e, he, h5⟩
      have hS := Bleaching.activeAll_sorted hsV' 1
      have fz : SMap.find (activeAll 1 V') z.1 = some z.2 := SMap.find_of_mem hS (by rw [h0]; simp)
      have fe : SMap.find (activeAll 1 V') e.1 = some e.2 := SMap.find_of_mem hS (by rw [h0]; simp [he])
      have hzl : z.1 = l := by
        by_contra hne
        have hlt := (lead _ _ hne fz).1
        have hml : (l, v') ∈ activeAll 1 V' := SMap.mem_of_find e2
        rw [h0] at hml
        rcases List.mem_append.mp hml with q | q
        · have := h1 _ q; simp only at this; omega
        · rcases List.mem_cons.mp q with q | q
          · exact hne (by rw [← q])
          · have := h2 _ q; simp only at this; omega
      have hzv : z.2 = v' := by rw [hzl, e2] at fz; cases fz; rfl
      have hel : e.1 ≠ l := by
        intro h
        rw [h0] at hS
        have hp := List.pairwise_append.mp hS
        have := (List.pairwise_cons.mp hp.2.1).1 e he
        simp only [hzl, h] at this
        exact absurd this (strLt_irr _)
      have := (lead _ _ hel fe).2 hb
      omega
  simp only [Wisard.classify, Wisard.classify1, b1, Except.bind_ok, hmake, hwin]

/-- The calls of the counterexample: "a" is trained with two images, "b" twice with the first of them. -/
def flipOps : List WOp :=
  [.train ⟨Rnd.id, true⟩ (.vec [1, 0, 1, 0, 1, 0]) b!"a", .train ⟨Rnd.id, true⟩ (.vec [1, 1, 0, 1, 0, 1]) b!"a",
   .train ⟨Rnd.id, true⟩ (.vec [1, 0, 1, 0, 1, 0]) b!"b", .train ⟨Rnd.id, true⟩ (.vec [1, 0, 1, 0, 1, 0]) b!"b"]

/-- The model of the counterexample: address size 2, entry size 6, default options. -/
def flipW : Wisard := (wrun (Wisard.create 2 {}) flipOps).1

/-- C171 is false for the scores that are returned with bleaching: this model gives "b" the score 3 (of 3 RAMs) and "a" the
score 0 for the image `[1, 0, 1, 0, 1, 0]`; with one pixel changed, read by one RAM of each class, it answers "a". -/
theorem C171_needs_plain : (wrun (Wisard.create 2 {}) flipOps).2 = .ok () ∧
    flipW.classify1 (.vec [1, 0, 1, 0, 1, 0]) = .ok [(b!"a", 0), (b!"b", 3)] ∧
    flipW.classify [.vec [1, 0, 1, 0, 1, 0]] = .ok [b!"b"] ∧
    changed 6 (.vec [1, 0, 1, 0, 1, 0]) (.vec [1, 1, 1, 0, 1, 0]) = [1] ∧
    (∀ e ∈ flipW.discriminators, touched e.2.mapping (.vec [1, 0, 1, 0, 1, 0]) (.vec [1, 1, 1, 0, 1, 0]) = 1) ∧
    flipW.classify [.vec [1, 1, 1, 0, 1, 0]] = .ok [b!"a"] := by
  have ho : flipW.opts = {} := by decide +kernel
  have hc : flipW.classify1 (.vec [1, 0, 1, 0, 1, 0]) = .ok [(b!"a", 0), (b!"b", 3)] := by
    have hv : Wisard.allvotes (.vec [1, 0, 1, 0, 1, 0]) flipW.discriminators = .ok [(b!"a", [1, 1, 1]), (b!"b", [2, 2, 2])] := by
      decide +kernel
    have hm := make_twice (V := [(b!"a", [1, 1, 1]), (b!"b", [2, 2, 2])]) (c := 1) (sbc := false) (by decide +kernel) (by decide +kernel)
    simp only [Wisard.classify1, hv, Except.bind_ok, ho, hm]
    decide +kernel
  refine ⟨by decide +kernel, hc, ?_, by decide +kernel, by decide +kernel, ?_⟩
  · simp only [Wisard.classify, hc, Except.bind_ok]
    decide +kernel
  · have hv : Wisard.allvotes (.vec [1, 1, 1, 0, 1, 0]) flipW.discriminators = .ok [(b!"a", [1, 1, 1]), (b!"b", [0, 2, 2])] := by
      decide +kernel
    have hm := make_once (V := [(b!"a", [1, 1, 1]), (b!"b", [0, 2, 2])]) (c := 1) (sbc := false) (by decide +kernel)
    simp only [Wisard.classify, Wisard.classify1, hv, Except.bind_ok, ho, hm]
    decide +kernel

/-! ## The hypotheses are met -/

/-- Four images in two classes, six pixels, three RAMs; one pixel of a training image of "b" is changed: at least two of the
three RAMs of "b" know it. -/
example : ∃ w d s v, GoodHistory (Wisard.create 2 { bleachingActivated := false }) flipOps w 6 ∧ w.discriminators.find b!"b" = some d ∧
    w.classify1 (.vec [1, 1, 1, 0, 1, 0]) = .ok s ∧ s.find b!"b" = some v ∧ (d.getNumberOfRAMS : Int) ≤ v + 1 := by
  have hv : ∀ q ∈ flipOps, ValidImage 6 2 q.img := by
    intro q hq
    simp only [flipOps, List.mem_cons, List.not_mem_nil, or_false] at hq
    rcases hq with rfl | rfl | rfl | rfl <;> exact bits_valid _ (by decide)
  obtain ⟨w, g, _⟩ := C73_valid_calls_succeed (A := 2) (n := 6) (o := { bleachingActivated := false }) rfl rfl (by omega) (by omega)
    (by omega) (show (2 : Int) ≤ 2 by decide) (show (2 : Int) ^ 2 < 2 ^ 63 by decide) flipOps hv (by decide)
  obtain ⟨d, s, v, h1, h2, h3, _, h5⟩ := C170_noise rfl rfl g (by decide) rfl rfl (l := b!"b") (img := .vec [1, 0, 1, 0, 1, 0])
    (env := ⟨Rnd.id, true⟩) (by simp [flipOps]) (y := .vec [1, 1, 1, 0, 1, 0]) (bits_valid _ (by decide))
  refine ⟨w, d, s, v, g, h1, h2, h3, ?_⟩
  have := h5 (.inl (by decide))
  rw [show changed 6 (.vec [1, 0, 1, 0, 1, 0]) (.vec [1, 1, 1, 0, 1, 0]) = [1] by decide] at this
  exact this

/-- One class knows the image, the other nothing like it; one pixel is changed: the answer stays, also with bleaching. -/
example : ((wrun (Wisard.create 2 {}) [.train ⟨Rnd.id, true⟩ (.vec [1, 0, 1, 0, 1, 0]) b!"a",
      .train ⟨Rnd.id, true⟩ (.vec [0, 1, 0, 1, 0, 1]) b!"b"]).1).classify [.vec [1, 1, 1, 0, 1, 0]] = .ok [b!"a"] := by
  refine C171_stable (x := .vec [1, 0, 1, 0, 1, 0]) (s := [(b!"a", 3), (b!"b", 0)]) (s' := [(b!"a", 2), (b!"b", 0)]) (l := b!"a") (v := 3)
    (d := ⟨6, 1, [⟨[0, 1], [(1, 1)], false, 2⟩, ⟨[2, 3], [(1, 1)], false, 2⟩, ⟨[4, 5], [(1, 1)], false, 2⟩]⟩)
    ?_ (by decide +kernel) (by decide +kernel) (by decide +kernel) (by decide +kernel) ?_
  · exact (wrun_find rfl _ (show wrun (Wisard.create 2 {}) [.train ⟨Rnd.id, true⟩ (.vec [1, 0, 1, 0, 1, 0]) b!"a",
      .train ⟨Rnd.id, true⟩ (.vec [0, 1, 0, 1, 0, 1]) b!"b"] = (_, .ok ()) from Prod.ext rfl (by decide +kernel))).2.2.1
  · intro k u dk hk hu hdk
    have hd : ∀ e ∈ (wrun (Wisard.create 2 {}) [.train ⟨Rnd.id, true⟩ (.vec [1, 0, 1, 0, 1, 0]) b!"a",
        .train ⟨Rnd.id, true⟩ (.vec [0, 1, 0, 1, 0, 1]) b!"b"]).1.discriminators,
        touched e.2.mapping (.vec [1, 0, 1, 0, 1, 0]) (.vec [1, 1, 1, 0, 1, 0]) = 1 := by decide +kernel
    rw [hd _ (SMap.mem_of_find hdk)]
    have : u = 0 := by
      have := SMap.mem_of_find hu
      simp only [List.mem_cons, Prod.mk.injEq, List.not_mem_nil, or_false] at this
      rcases this with ⟨q, _⟩ | ⟨_, q⟩
      · exact absurd q hk
      · exact q
    subst this
    constructor
    · decide +kernel
    · intro _
      decide +kernel

end Wis
