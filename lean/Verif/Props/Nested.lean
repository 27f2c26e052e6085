import Verif.Spec.Nested
import Verif.Props.MentalImages
import Verif.Props.Synthesizer
import Verif.Props.Semantics
import Verif.Props.PySynth
/-!
# C189: synthetic images of a class with nested samples are its samples

C66 says what `Synthesizer.make` draws from one mental image, C87 what is in the mental images of a Wisard. Together they say how
good the synthetic images are: pixels that all samples share are always there, and if the samples are nested, a synthetic image is
one of them, so the class knows it.
-/

namespace Wis
open Spec

/-! ## Counting -/

theorem least_of_chain {α : Type} {R : α → α → Prop} (ht : ∀ x y z, R x y → R y z → R x z) (hr : ∀ x, R x x) : ∀ L : List α, L ≠ [] →
    (∀ x ∈ L, ∀ y ∈ L, R x y ∨ R y x) → ∃ x ∈ L, ∀ y ∈ L, R x y := by
  intro L
  induction L with
  | nil => intro h; exact absurd rfl h
  | cons a L ih =>
    intro _ hc
    by_cases hL : L = []
    · subst hL
      exact ⟨a, by simp, by simpa using hr a⟩
    · obtain ⟨x, hx, hmin⟩ := ih hL (fun x hx y hy => hc x (by simp [hx]) y (by simp [hy]))
      rcases hc a (by simp) x (by simp [hx]) with h | h
      · refine ⟨a, by simp, ?_⟩
        intro y hy
        rcases List.mem_cons.mp hy with rfl | hy
        · exact hr _
        · exact ht _ _ _ h (hmin y hy)
      · refine ⟨x, by simp [hx], ?_⟩
        intro y hy
        rcases List.mem_cons.mp hy with rfl | hy
        · exact h
        · exact hmin y hy

theorem filter_le_filter {α : Type} {P Q : α → Bool} : ∀ L : List α, (∀ y ∈ L, P y = true → Q y = true) →
    (L.filter P).length ≤ (L.filter Q).length := by
  intro L h
  rw [← List.countP_eq_length_filter, ← List.countP_eq_length_filter]
  exact List.countP_mono_left h

theorem filter_lt_filter {α : Type} {P Q : α → Bool} : ∀ L : List α, (∀ y ∈ L, P y = true → Q y = true) →
    (∃ x ∈ L, Q x = true ∧ P x = false) → (L.filter P).length < (L.filter Q).length := by
  intro L
  induction L with
  | nil => rintro _ ⟨x, hx, _⟩; cases hx
  | cons a L ih =>
    rintro h ⟨x, hx, h1, h2⟩
    have hle := filter_le_filter L (fun y hy => h y (List.mem_cons_of_mem _ hy))
    rcases List.mem_cons.mp hx with rfl | hx
    · rw [List.filter_cons_of_neg (by rw [h2]; decide), List.filter_cons_of_pos h1, List.length_cons]
      omega
    · have hlt := ih (fun y hy => h y (List.mem_cons_of_mem _ hy)) ⟨x, hx, h1, h2⟩
      cases hp : P a with
      | true =>
        rw [List.filter_cons_of_pos hp, List.filter_cons_of_pos (h a (by simp) hp), List.length_cons, List.length_cons]
        omega
      | false =>
        rw [List.filter_cons_of_neg (by rw [hp]; decide), List.filter_cons]
        split
        · rw [List.length_cons]; omega
        · exact hlt

/-- In a chain of sets, the elements that lie in more than `t` of them form one of the sets. -/
theorem level_of_chain {α : Type} (n : Nat) (P : Nat → α → Bool) (imgs : List α)
    (hc : ∀ x ∈ imgs, ∀ y ∈ imgs, (∀ i < n, P i x = true → P i y = true) ∨ (∀ i < n, P i y = true → P i x = true))
    (t : Nat) (h : ∃ i < n, t < (imgs.filter (P i)).length) :
    ∃ x ∈ imgs, ∀ i < n, P i x = true ↔ t < (imgs.filter (P i)).length := by
  classical
  have hv : ∃ v, ∃ i < n, t < v ∧ (imgs.filter (P i)).length = v := by
    obtain ⟨i, h1, h2⟩ := h
    exact ⟨_, i, h1, h2, rfl⟩
  obtain ⟨i0, hi0, hlt, hv0⟩ := Nat.find_spec hv
  have hmin : ∀ i < n, t < (imgs.filter (P i)).length → (imgs.filter (P i0)).length ≤ (imgs.filter (P i)).length := by
    intro i h1 h2
    rw [hv0]
    exact Nat.find_min' hv ⟨i, h1, h2, rfl⟩
  rw [← hv0] at hlt
  have hne : imgs.filter (P i0) ≠ [] := by
    intro e
    rw [e] at hlt
    exact absurd hlt (Nat.not_lt_zero _)
  obtain ⟨x, hx, hx2⟩ := least_of_chain (R := fun x y => ∀ i < n, P i x = true → P i y = true)
    (fun x y z h1 h2 i hi hp => h2 i hi (h1 i hi hp)) (fun x i _ hp => hp) _ hne
    (fun x hx y hy => hc x (List.mem_filter.mp hx).1 y (List.mem_filter.mp hy).1)
  obtain ⟨hxm, hxi⟩ := List.mem_filter.mp hx
  refine ⟨x, hxm, fun i hi => ⟨fun hp => ?_, fun hp => ?_⟩⟩
  · refine lt_of_lt_of_le hlt (filter_le_filter imgs ?_)
    intro y hy hy0
    exact hx2 y (List.mem_filter.mpr ⟨hy, hy0⟩) i hi hp
  · by_contra hxn
    have hxn : P i x = false := by simpa using hxn
    have := filter_lt_filter (P := P i) (Q := P i0) imgs (fun y hy hyi => by
      rcases hc x hxm y hy with h1 | h1
      · exact h1 i0 hi0 hxi
      · rw [h1 i hi hyi] at hxn
        cases hxn) ⟨x, hxm, hxi, hxn⟩
    exact absurd (hmin i hi hp) (by omega)

theorem brightest_mem {m : List Int} (h : 0 < brightest m) : brightest m ∈ m := by
  rcases foldl_max_mem m 0 with h1 | h1
  · unfold brightest at h
    omega
  · exact h1

/-! ## The theorems -/

/-- The mental image of a class whose pixels are all wired `k` times, and what is drawn from it. -/
theorem synth_of_class {w0 w : Wisard} {ops : List WOp} {n : Nat} (g : GoodHistory w0 ops w n) (ht : ∀ o ∈ ops, o.isTrain = true)
    (hfit : ∀ l d, w.discriminators.find l = some d → ∀ m ∈ d.mapping, w0.opts.base ^ m.length ≤ 2 ^ 31)
    (hsum : ∀ l d, w.discriminators.find l = some d → ∀ i : Int, (d.mapping.flatten.count i : Int) * ops.length ≤ 2147483647)
    {l : Str} {d : Discriminator} (hd : w.discriminators.find l = some d) {k : Nat} (hk : 0 < k)
    (hw : ∀ i : Nat, i < n → d.mapping.flatten.count (i : Int) = k)
    (hlit : ∃ x ∈ trainedWith l ops, ∃ i : Nat, i < n ∧ NonZeroAt i x) (it : IterOrder) :
    ∃ ms m, w.getMentalImages it = .ok ms ∧ SMap.find ms l = some m ∧ m.length = n ∧ ∀ rnd : Nat → Rnd,
      ∃ s, Synthesizer.create rnd m = .ok s ∧ ∀ r : Nat, ∃ out t, s.make r = .ok out ∧ out.length = n ∧
        (∃ i < n, t < ((trainedWith l ops).filter (fun x => decide (NonZeroAt i x))).length) ∧
        ∀ i (h : i < out.length), out[i] =
          if t < ((trainedWith l ops).filter (fun x => decide (NonZeroAt i x))).length then 1 else 0 := by
  obtain ⟨ms, h1, h2, h3⟩ := C87_trained g (by omega) ht hfit hsum it
  have hl : l ∈ ms.keys := by
    rw [h2]
    obtain ⟨x, hx, _⟩ := hlit
    unfold trainedWith at hx
    obtain ⟨e, he, _⟩ := List.mem_map.mp hx
    obtain ⟨he1, he2⟩ := List.mem_filter.mp he
    exact List.mem_map.mpr ⟨e, he1, by simpa using he2⟩
  obtain ⟨m, hm⟩ := SMap.mem_keys_iff.mp hl
  obtain ⟨d', hd', hml, hval⟩ := h3 l m (SMap.mem_of_find hm)
  rw [hd] at hd'
  obtain rfl : d = d' := by simpa using hd'
  have hml : m.length = n := by exact_mod_cast hml
  have hcnt : ∀ i : Nat, ((trained ops).filter (fun e => decide (e.2 = l) && decide (NonZeroAt i e.1))).length =
      ((trainedWith l ops).filter (fun x => decide (NonZeroAt i x))).length := by
    intro i
    unfold trainedWith
    rw [List.filter_map, List.length_map, List.filter_filter]
    congr 1
    apply List.filter_congr
    intro e _
    simp only [Function.comp, Bool.and_comm]
  have hval : ∀ i (h : i < m.length), m[i] =
      ((k * ((trainedWith l ops).filter (fun x => decide (NonZeroAt i x))).length : Nat) : Int) := by
    intro i h
    rw [hval i h, hcnt, hw i (by omega)]
    push_cast
    rfl
  have hops : (trainedWith l ops).length ≤ ops.length := by
    unfold trainedWith
    rw [List.length_map]
    refine le_trans (List.length_filter_le _ _) ?_
    clear * -
    induction ops with
    | nil => simp [trained]
    | cons op ops ih => cases op <;> simp only [trained, List.length_cons] <;> omega
  have hrange : ∀ x ∈ m, InI32 x ∧ 0 ≤ x := by
    intro x hx
    obtain ⟨i, hi, rfl⟩ := List.mem_iff_getElem.mp hx
    rw [hval i hi]
    have q := hsum l d hd (i : Int)
    rw [hw i (by omega)] at q
    have q2 : k * ((trainedWith l ops).filter (fun x => decide (NonZeroAt i x))).length ≤ k * ops.length :=
      Nat.mul_le_mul_left _ (le_trans (List.length_filter_le _ _) hops)
    have q3 : ((k * ((trainedWith l ops).filter (fun x => decide (NonZeroAt i x))).length : Nat) : Int) ≤ 2147483647 :=
      le_trans (by exact_mod_cast q2) q
    exact ⟨⟨by omega, q3⟩, by omega⟩
  have hpos : 0 < brightest m := by
    obtain ⟨x, hx, i, hi, hn⟩ := hlit
    have := (foldl_max_ge m 0).2 (m[i]'(by omega)) (List.getElem_mem _)
    have hlen : 0 < ((trainedWith l ops).filter (fun x => decide (NonZeroAt i x))).length :=
      List.length_pos_iff.mpr (List.ne_nil_of_mem (List.mem_filter.mpr ⟨hx, by simpa using hn⟩))
    have hp := Nat.mul_pos hk hlen
    rw [hval i (by omega)] at this
    unfold brightest
    omega
  refine ⟨ms, m, h1, hm, hml, fun rnd => ?_⟩
  obtain ⟨s, s1, s2⟩ := C66_make rnd m hrange hpos
  refine ⟨s, s1, fun r => ⟨_, (r % (brightest m).toNat) / k, s2 r, ?_, ?_, ?_⟩⟩
  · simp only [thresholded, List.length_map, hml]
  · have hlt : r % (brightest m).toNat < (brightest m).toNat := Nat.mod_lt _ (by omega)
    have hmem : brightest m ∈ m := brightest_mem hpos
    obtain ⟨i, hi, he⟩ := List.mem_iff_getElem.mp hmem
    refine ⟨i, by omega, ?_⟩
    rw [hval i hi] at he
    rw [Nat.div_lt_iff_lt_mul hk, Nat.mul_comm]
    omega
  · intro i h
    simp only [thresholded, List.length_map] at h
    simp only [thresholded, List.getElem_map, hval i h]
    have : (((r % (brightest m).toNat : Nat) : Int) <
        ((k * ((trainedWith l ops).filter (fun x => decide (NonZeroAt i x))).length : Nat) : Int)) ↔
        (r % (brightest m).toNat) / k < ((trainedWith l ops).filter (fun x => decide (NonZeroAt i x))).length := by
      rw [Nat.div_lt_iff_lt_mul hk, Nat.mul_comm]
      exact Int.ofNat_lt
    by_cases hq : (r % (brightest m).toNat) / k < ((trainedWith l ops).filter (fun x => decide (NonZeroAt i x))).length
    · rw [if_pos hq, if_pos (this.mpr hq)]
    · rw [if_neg hq, if_neg (fun hh => hq (this.mp hh))]

/-- C189: what all samples of a class have in common is in every synthetic image of the class. -/
theorem C189_common {w0 w : Wisard} {ops : List WOp} {n : Nat} (g : GoodHistory w0 ops w n) (ht : ∀ o ∈ ops, o.isTrain = true)
    (hfit : ∀ l d, w.discriminators.find l = some d → ∀ m ∈ d.mapping, w0.opts.base ^ m.length ≤ 2 ^ 31)
    (hsum : ∀ l d, w.discriminators.find l = some d → ∀ i : Int, (d.mapping.flatten.count i : Int) * ops.length ≤ 2147483647)
    {l : Str} {d : Discriminator} (hd : w.discriminators.find l = some d) {k : Nat} (hk : 0 < k)
    (hw : ∀ i : Nat, i < n → d.mapping.flatten.count (i : Int) = k)
    (hlit : ∃ x ∈ trainedWith l ops, ∃ i : Nat, i < n ∧ NonZeroAt i x) (it : IterOrder) :
    ∃ ms m, w.getMentalImages it = .ok ms ∧ SMap.find ms l = some m ∧ ∀ rnd : Nat → Rnd,
      ∃ s, Synthesizer.create rnd m = .ok s ∧ ∀ r : Nat, ∃ out, s.make r = .ok out ∧ out.length = n ∧
        ∀ i (h : i < out.length), ((∀ x ∈ trainedWith l ops, NonZeroAt i x) → out[i] = 1) ∧
          ((∀ x ∈ trainedWith l ops, ¬ NonZeroAt i x) → out[i] = 0) := by
  obtain ⟨ms, m, h1, h2, _, h3⟩ := synth_of_class g ht hfit hsum hd hk hw hlit it
  refine ⟨ms, m, h1, h2, fun rnd => ?_⟩
  obtain ⟨s, s1, s2⟩ := h3 rnd
  refine ⟨s, s1, fun r => ?_⟩
  obtain ⟨out, t, o1, o2, ⟨j, _, hj⟩, o4⟩ := s2 r
  refine ⟨out, o1, o2, fun i h => ⟨fun hall => ?_, fun hall => ?_⟩⟩
  · rw [o4 i h, if_pos]
    refine lt_of_lt_of_le hj (filter_le_filter _ ?_)
    intro y hy _
    simpa using hall y hy
  · rw [o4 i h, if_neg]
    have : (trainedWith l ops).filter (fun x => decide (NonZeroAt i x)) = [] := by
      rw [List.filter_eq_nil_iff]
      intro y hy
      simpa using hall y hy
    rw [this]
    exact Nat.not_lt_zero _

/-- C189: if the samples of a class are nested 0/1 images, not all blank, and all pixels are wired equally often, then every
synthetic image of the class is one of its samples, so (without `ignoreZero`) every RAM of the class knows it. -/
theorem C189_nested {w0 w : Wisard} {ops : List WOp} {n : Nat} (g : GoodHistory w0 ops w n) (ht : ∀ o ∈ ops, o.isTrain = true)
    (hfit : ∀ l d, w.discriminators.find l = some d → ∀ m ∈ d.mapping, w0.opts.base ^ m.length ≤ 2 ^ 31)
    (hsum : ∀ l d, w.discriminators.find l = some d → ∀ i : Int, (d.mapping.flatten.count i : Int) * ops.length ≤ 2147483647)
    {l : Str} {d : Discriminator} (hd : w.discriminators.find l = some d) {k : Nat} (hk : 0 < k)
    (hw : ∀ i : Nat, i < n → d.mapping.flatten.count (i : Int) = k)
    (hbin : ∀ x ∈ trainedWith l ops, Binary n x) (hnest : Nested n (trainedWith l ops))
    (hlit : ∃ x ∈ trainedWith l ops, ∃ i : Nat, i < n ∧ NonZeroAt i x) (it : IterOrder) :
    ∃ ms m, w.getMentalImages it = .ok ms ∧ SMap.find ms l = some m ∧ ∀ rnd : Nat → Rnd,
      ∃ s, Synthesizer.create rnd m = .ok s ∧ ∀ r : Nat, ∃ out, s.make r = .ok out ∧
        (∃ x ∈ trainedWith l ops, Shows x out) ∧
        (w0.opts.ignoreZero = false → ∃ vs, d.classify (.vec out) = .ok vs ∧ vs.length = d.getNumberOfRAMS ∧ ∀ v ∈ vs, 1 ≤ v) := by
  obtain ⟨ms, m, h1, h2, _, h3⟩ := synth_of_class g ht hfit hsum hd hk hw hlit it
  refine ⟨ms, m, h1, h2, fun rnd => ?_⟩
  obtain ⟨s, s1, s2⟩ := h3 rnd
  refine ⟨s, s1, fun r => ?_⟩
  obtain ⟨out, t, o1, o2, o3, o4⟩ := s2 r
  obtain ⟨x, hx, hlev⟩ := level_of_chain n (fun i x => decide (NonZeroAt i x)) (trainedWith l ops)
    (fun x hx y hy => by simpa using hnest x hx y hy) t o3
  obtain ⟨op, hop, env, rfl⟩ : ∃ op ∈ ops, ∃ env, op = .train env x l := by
    unfold trainedWith at hx
    obtain ⟨e, he, rfl⟩ := List.mem_map.mp hx
    obtain ⟨he1, he2⟩ := List.mem_filter.mp he
    have he2 : e.2 = l := by simpa using he2
    clear * - he1 he2
    induction ops with
    | nil => cases he1
    | cons op ops ih =>
      cases op with
      | train env img l' =>
        rcases List.mem_cons.mp he1 with rfl | he1
        · exact ⟨_, List.mem_cons_self, env, by rw [← he2]⟩
        · obtain ⟨op, h1, h2⟩ := ih he1; exact ⟨op, List.mem_cons_of_mem _ h1, h2⟩
      | leave img l' => obtain ⟨op, h1, h2⟩ := ih he1; exact ⟨op, List.mem_cons_of_mem _ h1, h2⟩
  have hsize : x.size = out.length := by
    have := (g.valid _ hop).1
    simp only [WOp.img] at this
    omega
  have hshow : Shows x out := by
    refine ⟨hsize, fun i hi => ?_⟩
    have hi' : i < n := by omega
    have hl := hlev i hi'
    simp only [decide_eq_true_eq] at hl
    rw [o4 i hi]
    rcases hbin x hx i hi' with hb | hb
    · rw [if_neg (fun hh => (hl.mpr hh) hb)]
      exact hb
    · rw [if_pos (hl.mp (fun e => by rw [hb] at e; cases e))]
      exact hb
  refine ⟨out, o1, ⟨x, hx, hshow⟩, fun hz => ?_⟩
  obtain ⟨d', hd', hvs, _⟩ := C44_trained_image_fully_active w0 w g.start hz ops ht g.ran env x l hop
  rw [hd] at hd'
  obtain rfl : d = d' := by simpa using hd'
  have hsame : Same x (.vec out) := by
    refine ⟨hsize, fun i hi => ?_⟩
    have hi' : i < out.length := by omega
    rw [hshow.2 i hi']
    simp only [Image.read]
    rw [if_neg (by omega)]
    simp only [Int.toNat_natCast, List.getElem?_eq_getElem hi']
  have hcl : d.classify x = d.classify (.vec out) := by
    obtain ⟨vs, hv, _⟩ := hvs
    have hes : d.entrySize = n := by
      unfold Discriminator.classify Discriminator.checkEntrySize at hv
      split at hv
      · cases hv
      · rename_i hne
        have := (g.valid _ hop).1
        simp only [WOp.img] at this
        push Not at hne
        omega
    exact (train_same (by rw [hes]; exact g.wired l d hd) hsame).2.2
  rw [← hcl]
  exact hvs

/-- C189 with default wiring of whole RAMs (`addressSize` divides the number of pixels): the images of C189_nested are the samples
of the class, for every wiring that may be drawn, and everything succeeds. -/
theorem C189_default {A n : Nat} {o : WisardOpts} (hm : o.mapping = []) (hi : o.indexes = []) (hca : o.completeAddressing = true)
    (hA : 2 ≤ A) (hAn : A ≤ n) (hdiv : A ∣ n) (hb : 2 ≤ o.base) (hp : o.base ^ A ≤ 2 ^ 31) (ops : List WOp)
    (ht : ∀ op ∈ ops, op.isTrain = true) (hv : ∀ op ∈ ops, ValidImage n o.base op.img) (hn : (n + A) * (ops.length + 1) ≤ 2147483647)
    {l : Str} (hbin : ∀ x ∈ trainedWith l ops, Binary n x) (hnest : Nested n (trainedWith l ops))
    (hlit : ∃ x ∈ trainedWith l ops, ∃ i : Nat, i < n ∧ NonZeroAt i x) (it : IterOrder) :
    ∃ w d ms m, wrun (Wisard.create A o) ops = (w, .ok ()) ∧ w.discriminators.find l = some d ∧ w.getMentalImages it = .ok ms ∧
      SMap.find ms l = some m ∧ ∀ rnd : Nat → Rnd, ∃ s, Synthesizer.create rnd m = .ok s ∧ ∀ r : Nat, ∃ out, s.make r = .ok out ∧
        (∃ x ∈ trainedWith l ops, Shows x out) ∧
        (o.ignoreZero = false → ∃ vs, d.classify (.vec out) = .ok vs ∧ vs.length = d.getNumberOfRAMS ∧ ∀ v ∈ vs, 1 ≤ v) := by
  have hn1 : n + A ≤ 2147483647 := le_trans (Nat.le_mul_of_pos_right _ (by omega)) hn
  have hlen : ops.length ≤ 2147483645 := by
    have : 2 * (ops.length + 1) ≤ (n + A) * (ops.length + 1) := Nat.mul_le_mul_right _ (by omega)
    omega
  obtain ⟨w, g, _⟩ := C73_valid_calls_succeed hm hi hA hAn hn1 hb (lt_of_le_of_lt hp (by norm_num)) ops hv hlen
  have hwires : ∀ l d, w.discriminators.find l = some d → ∀ i : Nat, i < n → d.mapping.flatten.count (i : Int) = 1 := by
    intro l d hd
    obtain ⟨_, q2, q3⟩ := good_wires hm hi g hd
    have hlen : d.mapping.flatten.length = n := by
      rw [q2]
      unfold ramsOf
      rw [if_pos hca]
      obtain ⟨c, rfl⟩ := hdiv
      rw [show A * c + A - 1 = A * c + (A - 1) by omega, Nat.mul_add_div (by omega), Nat.div_eq_of_lt (by omega)]
      rw [Nat.add_zero, Nat.mul_comm]
    have hnd : ((List.range n).map Int.ofNat).Nodup := List.Nodup.map (fun a b h => Int.ofNat.inj h) List.nodup_range
    have hsub : ∀ x ∈ (List.range n).map Int.ofNat, x ∈ d.mapping.flatten := by
      intro x hx
      obtain ⟨i, hi', rfl⟩ := List.mem_map.mp hx
      exact List.count_pos_iff.mp (q3 hca i (List.mem_range.mp hi'))
    have hperm : ((List.range n).map Int.ofNat).Perm d.mapping.flatten :=
      (List.subperm_of_subset hnd hsub).perm_of_length_le (by rw [hlen]; simp)
    intro i hi'
    rw [← hperm.count_eq]
    exact List.count_eq_one_of_mem hnd (List.mem_map.mpr ⟨i, List.mem_range.mpr hi', rfl⟩)
  obtain ⟨d, hd⟩ : ∃ d, w.discriminators.find l = some d := by
    obtain ⟨x, hx, _⟩ := hlit
    unfold trainedWith at hx
    obtain ⟨e, he, rfl⟩ := List.mem_map.mp hx
    obtain ⟨he1, he2⟩ := List.mem_filter.mp he
    have he2 : e.2 = l := by simpa using he2
    obtain ⟨ms', _, hk, h3⟩ := C87_trained g (by omega) ht
      (fun l d hd m hm' => by rw [(good_wires hm hi g hd).1 m hm']; exact hp)
      (fun l d hd i => by
        have q1 : d.mapping.flatten.count i ≤ n + A := by
          refine le_trans List.count_le_length ?_
          rw [(good_wires hm hi g hd).2.1]
          unfold ramsOf
          split
          · exact le_trans (Nat.div_mul_le_self _ _) (by omega)
          · exact le_trans (Nat.div_mul_le_self _ _) (by omega)
        have q2 := Nat.mul_le_mul q1 (Nat.le_succ ops.length)
        exact_mod_cast le_trans q2 hn) IterOrder.id
    have hl : l ∈ ms'.keys := (hk l).mpr (List.mem_map.mpr ⟨e, he1, he2⟩)
    obtain ⟨m, hm'⟩ := SMap.mem_keys_iff.mp hl
    obtain ⟨d, hd, _⟩ := h3 l m (SMap.mem_of_find hm')
    exact ⟨d, hd⟩
  obtain ⟨ms, m, h1, h2, h3⟩ := C189_nested g ht
    (fun l d hd m hm' => by rw [(good_wires hm hi g hd).1 m hm']; exact hp)
    (fun l d hd i => by
        have q1 : d.mapping.flatten.count i ≤ n + A := by
          refine le_trans List.count_le_length ?_
          rw [(good_wires hm hi g hd).2.1]
          unfold ramsOf
          split
          · exact le_trans (Nat.div_mul_le_self _ _) (by omega)
          · exact le_trans (Nat.div_mul_le_self _ _) (by omega)
        have q2 := Nat.mul_le_mul q1 (Nat.le_succ ops.length)
        exact_mod_cast le_trans q2 hn) hd Nat.one_pos (hwires l d hd) hbin hnest hlit it
  exact ⟨w, d, ms, m, g.ran, hd, h1, h2, h3⟩

/-- Class `a`: a bar that fills up; class `b`: something else. -/
def barOps : List WOp :=
  [.train ⟨Rnd.id, true⟩ (.vec [1, 1, 0, 0]) b!"a", .train ⟨Rnd.id, true⟩ (.vec [0, 1, 1, 0]) b!"b",
    .train ⟨Rnd.id, true⟩ (.vec [1, 0, 0, 0]) b!"a", .train ⟨Rnd.id, true⟩ (.vec [1, 1, 1, 0]) b!"a"]

/-- It meets the hypotheses of `C189_default` (and so of `C189_nested` and `C189_common`). -/
example : (2 : Nat) ∣ 4 ∧ (∀ op ∈ barOps, op.isTrain = true) ∧ (∀ op ∈ barOps, ValidImage (4 : Nat) 2 op.img) ∧
    (4 + 2) * (barOps.length + 1) ≤ 2147483647 ∧ (∀ x ∈ trainedWith b!"a" barOps, Binary 4 x) ∧ Nested 4 (trainedWith b!"a" barOps) ∧
    (∃ x ∈ trainedWith b!"a" barOps, ∃ i : Nat, i < 4 ∧ NonZeroAt i x) ∧ (trainedWith b!"a" barOps).length = 3 := by
  refine ⟨by decide, by decide, ?_, by decide, ?_, ?_, ?_, by decide⟩
  · intro op hop
    simp only [barOps, List.mem_cons, List.not_mem_nil, or_false] at hop
    rcases hop with rfl | rfl | rfl | rfl <;> refine ⟨rfl, fun i hi => ?_⟩ <;>
      simp only [WOp.img, Image.size, List.length_cons, List.length_nil] at hi <;>
      (interval_cases i) <;> exact ⟨_, rfl, by decide, by decide⟩
  · intro x hx i hi
    have hx : x ∈ ([.vec [1, 1, 0, 0], .vec [1, 0, 0, 0], .vec [1, 1, 1, 0]] : List Image) := hx
    simp only [List.mem_cons, List.not_mem_nil, or_false] at hx
    rcases hx with rfl | rfl | rfl <;> (interval_cases i) <;> decide
  · have h : ∀ x ∈ trainedWith b!"a" barOps, ∀ y ∈ trainedWith b!"a" barOps, (∀ i : Fin 4, NonZeroAt i.val x → NonZeroAt i.val y) ∨
        (∀ i : Fin 4, NonZeroAt i.val y → NonZeroAt i.val x) := by decide
    intro x hx y hy
    exact (h x hx y hy).imp (fun h i hi => h ⟨i, hi⟩) (fun h i hi => h ⟨i, hi⟩)
  · exact ⟨.vec [1, 1, 0, 0], by decide, 0, by decide, by decide⟩

/-- C189: without nesting, nobody may have seen the synthetic image, and a RAM of the class may not know it. -/
theorem C189_needs_nesting :
    let ops : List WOp := [.train ⟨Rnd.id, true⟩ (.vec [1, 0, 0, 0]) b!"a", .train ⟨Rnd.id, true⟩ (.vec [0, 1, 0, 0]) b!"a"]
    ∃ w, wrun (Wisard.create 2 {}) ops = (w, .ok ()) ∧ w.getMentalImages IterOrder.id = .ok [(b!"a", [1, 1, 0, 0])] ∧
      ∃ s, Synthesizer.create (fun _ => Rnd.id) [1, 1, 0, 0] = .ok s ∧ s.make 0 = .ok [1, 1, 0, 0] ∧
        (∀ x ∈ trainedWith b!"a" ops, ¬ Shows x [1, 1, 0, 0]) ∧
        ∃ d, w.discriminators.find b!"a" = some d ∧ d.classify (.vec [1, 1, 0, 0]) = .ok [0, 2] := by
  intro ops
  refine ⟨(wrun (Wisard.create 2 {}) ops).1, by decide +kernel, by decide +kernel,
    ((Synthesizer.create (fun _ => Rnd.id) [1, 1, 0, 0]).toOption.getD ⟨[], 0⟩), by decide +kernel, by decide +kernel, ?_,
    (((wrun (Wisard.create 2 {}) ops).1.discriminators.find b!"a").getD Discriminator.default), by decide +kernel, by decide +kernel⟩
  intro x hx
  have hx : x ∈ ([.vec [1, 0, 0, 0], .vec [0, 1, 0, 0]] : List Image) := hx
  simp only [List.mem_cons, List.not_mem_nil, or_false] at hx
  rcases hx with rfl | rfl
  · intro h
    have := h.2 1 (by decide)
    revert this
    decide
  · intro h
    have := h.2 0 (by decide)
    revert this
    decide

/-- C189: if `addressSize` does not divide the number of pixels, some pixels are wired twice and are drawn twice as often: even the
synthetic images of a single sample need not be that sample. -/
theorem C189_needs_whole_rams :
    let ops : List WOp := [.train ⟨Rnd.id, true⟩ (.vec [1, 1, 0]) b!"a"]
    ∃ w, wrun (Wisard.create 2 {}) ops = (w, .ok ()) ∧ w.getMentalImages IterOrder.id = .ok [(b!"a", [2, 1, 0])] ∧
      ∃ s, Synthesizer.create (fun _ => Rnd.id) [2, 1, 0] = .ok s ∧ s.make 0 = .ok [1, 1, 0] ∧ s.make 1 = .ok [1, 0, 0] := by
  intro ops
  exact ⟨(wrun (Wisard.create 2 {}) ops).1, by decide +kernel, by decide +kernel,
    ((Synthesizer.create (fun _ => Rnd.id) [2, 1, 0]).toOption.getD ⟨[], 0⟩), by decide +kernel, by decide +kernel, by decide +kernel⟩

end Wis
