import Verif.Props.ScrambleClus
import Verif.Props.MentalImages
import Verif.Props.Synthesizer
import Mathlib.Data.List.Count
/-!
# C193: the mental images of scrambled images are the scrambled mental images
-/

namespace Wis
open Spec

theorem moved_kind {n : Nat} {c : Int} {σ : Equiv.Perm Int} {a b : Op} (h : MovedCall n c σ a b) : a.isTrain = b.isTrain := by
  cases h <;> rfl

theorem moved_img {n : Nat} {c : Int} {σ : Equiv.Perm Int} {a b : Op} (h : MovedCall n c σ a b) : Moved n c σ a.img b.img := by
  cases h <;> assumption

/-- The histories of one class correspond. -/
theorem opsOf_moved {n : Nat} {c : Int} {σ : Equiv.Perm Int} {tr : Rnd → Rnd} (l : Str) {ops ops' : List WOp}
    (h : List.Forall₂ (ScrambledOp n σ tr) ops ops') (hv : ∀ o ∈ ops, ValidImage n c o.img) (hv' : ∀ o ∈ ops', ValidImage n c o.img) :
    List.Forall₂ (MovedCall n c σ) (opsOf l ops) (opsOf l ops') := by
  unfold opsOf
  refine forall₂_dropWhile (fun a b h => by rw [moved_kind h]) ?_
  induction h with
  | nil => exact .nil
  | @cons p q ps qs h1 _ ih =>
    have ih := ih (fun o ho => hv o (List.mem_cons_of_mem _ ho)) (fun o ho => hv' o (List.mem_cons_of_mem _ ho))
    have v1 := hv p (by simp)
    have v2 := hv' q (by simp)
    cases h1 with
    | train env l' hs =>
      by_cases hl : l' = l
      · simp only [List.filterMap_cons, WOp.on, hl, if_true]
        exact .cons (.train ⟨v1, v2, hs⟩) ih
      · simp only [List.filterMap_cons, WOp.on, hl, if_false]
        exact ih
    | leave l' hs =>
      by_cases hl : l' = l
      · simp only [List.filterMap_cons, WOp.on, hl, if_true]
        exact .cons (.untrain ⟨v1, v2, hs⟩) ih
      · simp only [List.filterMap_cons, WOp.on, hl, if_false]
        exact ih

theorem net_moved {n : Nat} {c : Int} {σ : Equiv.Perm Int} {p q : Op → Bool} (hpq : ∀ a b, MovedCall n c σ a b → p a = q b) {xs ys : List Op}
    (h : List.Forall₂ (MovedCall n c σ) xs ys) : net (ys.filter q) = net (xs.filter p) := by
  induction h with
  | nil => rfl
  | @cons a b as bs h1 _ ih =>
    rw [List.filter_cons, List.filter_cons, hpq a b h1]
    split
    · cases h1 <;> simp only [net, ih]
    · exact ih

theorem moved_same {n : Nat} {c : Int} {σ : Equiv.Perm Int} (hσ : Scrambling n σ) {x y x' y' : Image} (hx : Moved n c σ x x')
    (hy : Moved n c σ y y') : Same x y ↔ Same x' y' := by
  have s1 := hx.left.1
  have s2 := hy.left.1
  have s3 := hx.right.1
  have s4 := hy.right.1
  constructor
  · intro h
    refine ⟨by omega, fun i hi => ?_⟩
    obtain ⟨p1, p2⟩ := (hσ.symm i).mp ⟨by omega, by omega⟩
    obtain ⟨a, ha⟩ := Int.eq_ofNat_of_zero_le p1
    have e : (i : Int) = σ a := by
      have e0 : σ (σ.symm (i : Int)) = σ (a : Int) := congrArg σ ha
      rwa [Equiv.apply_symm_apply] at e0
    have han : a < n := by omega
    obtain ⟨v, hv, _⟩ := hx.left.2 a (by omega)
    have := h.2 a (by omega)
    rw [hv] at this
    rw [e, hx.moved a han v hv, hy.moved a han v this.symm]
  · intro h
    refine ⟨by omega, fun i hi => ?_⟩
    obtain ⟨v, hv, _⟩ := hx.left.2 i (by omega)
    obtain ⟨u, hu, _⟩ := hy.left.2 i (by omega)
    obtain ⟨p1, p2⟩ := (hσ i).mp ⟨by omega, by omega⟩
    have := h.read p1 (by omega)
    rw [hx.moved i (by omega) v hv, hy.moved i (by omega) u hu] at this
    rw [hv, hu, this]

theorem moved_nonZero {n : Nat} {c : Int} {σ : Equiv.Perm Int} {x y : Image} (h : Moved n c σ x y) {a : Nat} (ha : a < n) :
    NonZeroAt a x ↔ NonZeroAt (σ a) y := by
  obtain ⟨v, hv, _⟩ := h.left.2 a (by have := h.left.1; omega)
  unfold NonZeroAt
  rw [hv, h.moved a ha v hv]

theorem legal_moved {n : Nat} {c : Int} {σ : Equiv.Perm Int} (hσ : Scrambling n σ) {xs ys : List Op} (h : List.Forall₂ (MovedCall n c σ) xs ys)
    (hl : Legal xs) : Legal ys := by
  intro pre img post e
  subst e
  have h1 := List.forall₂_take_append _ _ _ h
  have h2 := List.forall₂_drop_append _ _ _ h
  obtain ⟨o, post', h3, h4, h5⟩ := List.forall₂_cons_right_iff.mp h2
  cases h3 with
  | @untrain x _ hm =>
    have := hl _ _ _ ((List.take_append_drop pre.length xs).symm.trans (by rw [h5]))
    rwa [net_moved (p := fun o => decide (Same x o.img)) (fun a b hab => by
      rw [decide_eq_decide]; exact moved_same hσ hm (moved_img hab)) h1]

theorem count_moved (σ : Equiv.Perm Int) (M : List (List Int)) (i : Int) :
    (M.map (·.map σ)).flatten.count (σ i) = M.flatten.count i := by
  rw [← List.map_flatten]
  exact List.count_map_of_injective _ σ σ.injective i

/-- The wiring of a class of a Wisard with default wiring. -/
theorem default_wires {A n : Nat} {o : WisardOpts} (hm : o.mapping = []) (hi : o.indexes = []) (hA : 2 ≤ A) {ops : List WOp} {w : Wisard}
    (g : GoodHistory (Wisard.create A o) ops w n) {l : Str} {d : Discriminator} (hd : w.discriminators.find l = some d) :
    (∀ m ∈ d.mapping, m.length = A) ∧ d.mapping.flatten.length ≤ n + A := by
  obtain ⟨_, _, _, h4⟩ := wrun_find g.start ops g.ran
  rcases h4 l with ⟨h, _⟩ | ⟨d', d0, rnd, img, rest, h1, h2, h3, h5⟩
  · rw [h] at hd; cases hd
  · rw [hd] at h1
    cases h1
    have hsz : (img.size : Int) = n := (g.valid_ops l (.train img) (by rw [h2]; simp)).1
    unfold Wisard.newDiscriminator at h3
    simp only [Wisard.create, hm, hi, SMap.find, List.length_nil, ne_eq, not_true_eq_false, if_false] at h3
    rw [hsz] at h3
    have hw := shuffle_wiring h3
    have hmap : d.mapping = d0.mapping := by
      have := (run_le (opsOf l ops) d0).mapping
      rwa [h5] at this
    rw [hmap]
    refine ⟨hw.size, ?_⟩
    rw [List.length_flatten, List.map_eq_replicate_iff.mpr hw.size, List.sum_replicate_nat, hw.number]
    split
    · have := Nat.div_mul_le_self (n + A - 1) A; omega
    · have := Nat.div_mul_le_self n A; omega

theorem mental_forall {n : Nat} {σ : Equiv.Perm Int} : ∀ {ms ms' : SMap (List Int)}, ms'.keys = ms.keys → SMap.Sorted ms → SMap.Sorted ms' →
    (∀ l m m', (l, m) ∈ ms → (l, m') ∈ ms' → Scrambled n σ (.vec m) (.vec m')) →
    List.Forall₂ (fun e e' => e'.1 = e.1 ∧ Scrambled n σ (.vec e.2) (.vec e'.2)) ms ms' := by
  intro ms
  induction ms with
  | nil =>
    intro ms' hk _ _ _
    cases ms' with
    | nil => exact .nil
    | cons e es => simp [SMap.keys] at hk
  | cons e ms ih =>
    intro ms' hk hs hs' h
    cases ms' with
    | nil => simp [SMap.keys] at hk
    | cons e' ms' =>
      simp only [SMap.keys, List.map_cons, List.cons.injEq] at hk
      refine .cons ⟨hk.1, h e.1 e.2 e'.2 (by simp) (by rw [← hk.1]; simp)⟩ (ih hk.2 (List.Pairwise.of_cons hs) (List.Pairwise.of_cons hs')
        fun l m m' hm hm' => h l m m' (List.mem_cons_of_mem _ hm) (List.mem_cons_of_mem _ hm'))

/-- **C193**: the mental images of scrambled images are the scrambled mental images. A Wisard with default wiring, trained with the
moved images and the translated random numbers, has the same classes, and the mental image of each class is the moved mental
image of that class of the first Wisard, whatever the order in which the RAMs store their contents. -/
theorem C193_mental {n : Nat} {σ : Equiv.Perm Int} (hσ : Scrambling n σ) {tr : Rnd → Rnd} (ht : Translates n σ tr) {A : Nat} {o : WisardOpts}
    (hm : o.mapping = []) (hi : o.indexes = []) (hA : 2 ≤ A) (hAn : A ≤ n) (hn : n + A ≤ 2147483647) (hb : 2 ≤ o.base)
    (hp : o.base ^ A ≤ 2 ^ 31) {ops ops' : List WOp} (hlen : (n + A) * ops.length ≤ 2147483647)
    (hv : ∀ op ∈ ops, ValidImage n o.base op.img) (hv' : ∀ op ∈ ops', ValidImage n o.base op.img) (hl : ∀ l, Legal (opsOf l ops))
    (hops : List.Forall₂ (ScrambledOp n σ tr) ops ops') (it it' : IterOrder) :
    ∃ w w' ms ms', wrun (Wisard.create A o) ops = (w, .ok ()) ∧ wrun (Wisard.create A o) ops' = (w', .ok ()) ∧
      w.getMentalImages it = .ok ms ∧ w'.getMentalImages it' = .ok ms' ∧
      List.Forall₂ (fun e e' => e'.1 = e.1 ∧ Scrambled n σ (.vec e.2) (.vec e'.2)) ms ms' := by
  have hp2 : o.base ^ A < 2 ^ 63 := lt_of_le_of_lt hp (by decide)
  have hle : ops.length ≤ 2147483647 := le_trans (Nat.le_mul_of_pos_left _ (by omega)) hlen
  obtain ⟨w, g⟩ := default_good hm hi hA hAn hn hb hp2 ops hv hle
  obtain ⟨w', g'⟩ := default_good hm hi hA hAn hn hb hp2 ops' hv' (by rw [← hops.length_eq]; exact hle)
  have hw : WiredAlike σ w w' := scr_run ht hops (fun o ho => by have := (hv o ho).1; omega) (fun o ho => by have := (hv' o ho).1; omega)
    (w1 := Wisard.create A o) (w2 := Wisard.create A o) (by intro l; rfl) rfl rfl hm hi g.ran g'.ran
  have hmv := fun l => opsOf_moved (c := o.base) l hops hv hv'
  have fits : ∀ {ops : List WOp} {w : Wisard}, GoodHistory (Wisard.create A o) ops w n → (n + A) * ops.length ≤ 2147483647 →
      (∀ l d, w.discriminators.find l = some d → ∀ m ∈ d.mapping, (Wisard.create A o).opts.base ^ m.length ≤ 2 ^ 31) ∧
      ∀ l d, w.discriminators.find l = some d → ∀ i : Int, (d.mapping.flatten.count i : Int) * ops.length ≤ 2147483647 := by
    intro ops w g hlen
    refine ⟨fun l d hd m hmm => ?_, fun l d hd i => ?_⟩
    · rw [(default_wires hm hi hA g hd).1 m hmm]; exact hp
    · have h1 := (default_wires hm hi hA g hd).2
      have h2 : d.mapping.flatten.count i ≤ n + A := le_trans List.count_le_length h1
      have h3 := le_trans (Nat.mul_le_mul_right ops.length h2) hlen
      exact_mod_cast h3
  have f := fits g hlen
  have f' := fits g' (by rw [← hops.length_eq]; exact hlen)
  obtain ⟨ms, a1, a2, a3⟩ := C87_mental_images g (by omega) hl f.1 f.2 it
  obtain ⟨ms', b1, b2, b3⟩ := C87_mental_images g' (by omega) (fun l => legal_moved hσ (hmv l) (hl l)) f'.1 f'.2 it'
  have hS := (wrun_find g.start ops g.ran).2.2.1
  have hS' := (wrun_find g'.start ops' g'.ran).2.2.1
  have hkeys : w'.discriminators.keys = w.discriminators.keys := by
    have e : w'.discriminators.map (fun e => (e.1, ())) = w.discriminators.map (fun e => (e.1, ())) := by
      refine SMap.ext (SMap.sorted_map hS' _) (SMap.sorted_map hS _) fun k => ?_
      have h1 := SMap.find_map w'.discriminators (fun _ => ()) k
      have h2 := SMap.find_map w.discriminators (fun _ => ()) k
      refine h1.trans (Eq.trans ?_ h2.symm)
      have hk := hw k
      cases e1 : w.discriminators.find k <;> cases e2 : w'.discriminators.find k <;> rw [e1, e2] at hk <;> simp at hk ⊢
    have := congrArg (List.map Prod.fst) e
    simpa [SMap.keys, Function.comp_def] using this
  refine ⟨w, w', ms, ms', g.ran, g'.ran, a1, b1, mental_forall (by rw [b2, a2, hkeys]) (sorted_of_keys hS a2) (sorted_of_keys hS' b2) ?_⟩
  intro l m m' hmm hmm' a ha v hv
  obtain ⟨d, hd, hs, hc⟩ := a3 l m hmm
  obtain ⟨d', hd', hs', hc'⟩ := b3 l m' hmm'
  have hw := hw l
  rw [hd, hd'] at hw
  simp only [Option.map_some, Option.some.injEq] at hw
  obtain ⟨p1, p2⟩ := (hσ a).mp ⟨by omega, by omega⟩
  have hma : a < m.length := by omega
  have hr : ∀ (k : List Int) (j : Nat) (h : j < k.length), (Image.vec k).read (j : Int) = .ok k[j] := by
    intro k j h; simp [Image.read, h]
  rw [hr m a hma, hc a hma] at hv
  cases hv
  obtain ⟨b, hb⟩ := Int.eq_ofNat_of_zero_le p1
  have hmb : b < m'.length := by omega
  replace hb : σ a = (b : Int) := hb
  rw [hb]
  rw [hr m' b hmb, hc' b hmb, hw, ← hb, count_moved,
    net_moved (p := fun o => decide (NonZeroAt (a : Int) o.img)) (fun x y hxy => by rw [decide_eq_decide]; exact moved_nonZero (moved_img hxy) ha) (hmv l)]

/-- **C193**: the same for the mental image of a Discriminator. -/
theorem C193_discriminator {n : Nat} {σ : Equiv.Perm Int} (hσ : Scrambling n σ) {tr : Rnd → Rnd} (ht : Translates n σ tr) {rnd : Rnd} {A : Nat}
    {o : Options} (hm : o.mapping = []) (hi : o.indexes = []) {d0 d0' : Discriminator} (h : Discriminator.create rnd A n o = .ok d0)
    (h' : Discriminator.create (tr rnd) A n o = .ok d0') (hp : o.base ^ A ≤ 2 ^ 31) {ops ops' : List Op}
    (hlen : (n + A) * ops.length ≤ 2147483647) (hlen' : ops.length ≤ 2147483647) (hl : Legal ops)
    (hops : List.Forall₂ (MovedCall n o.base σ) ops ops') (it it' : IterOrder) :
    ∃ d d' m m', run d0 ops = (d, .ok ()) ∧ run d0' ops' = (d', .ok ()) ∧ d.getMentalImage it = .ok m ∧ d'.getMentalImage it' = .ok m' ∧
      m.length = n ∧ m'.length = n ∧ Scrambled n σ (.vec m) (.vec m') := by
  have wires : ∀ {rnd : Rnd} {d : Discriminator}, Discriminator.create rnd A n o = .ok d →
      (∀ m ∈ d.mapping, m.length = A) ∧ WiredInside n d.mapping ∧ d.mapping.flatten.length ≤ n + A := by
    intro rnd d h
    have hcr : Discriminator.create rnd A n o = Discriminator.setRAMShuffle rnd n A o.ignoreZero o.completeAddressing o.base := by
      unfold Discriminator.create
      rw [hm, hi]
      simp
    rw [hcr] at h
    have hw := shuffle_wiring h
    refine ⟨hw.size, hw.inside, ?_⟩
    rw [List.length_flatten, List.map_eq_replicate_iff.mpr hw.size, List.sum_replicate_nat, hw.number]
    split
    · have := Nat.div_mul_le_self (n + A - 1) A; omega
    · have := Nat.div_mul_le_self n A; omega
  have fits : ∀ {d : Discriminator} {k : Nat}, d.mapping.flatten.length ≤ n + A → (n + A) * k ≤ 2147483647 →
      ∀ i : Int, (d.mapping.flatten.count i : Int) * k ≤ 2147483647 := by
    intro d k h1 hk i
    have h3 := le_trans (Nat.mul_le_mul_right k (le_trans (List.count_le_length (a := i)) h1)) hk
    exact_mod_cast h3
  obtain ⟨w1, w2, w3⟩ := wires h
  obtain ⟨w1', w2', w3'⟩ := wires h'
  have hv : ∀ op ∈ ops, ValidImage n o.base op.img := fun op ho => by
    obtain ⟨op', _, hh⟩ := forall₂_mem_left hops ho
    exact (moved_img hh).left
  have hv' : ∀ op ∈ ops', ValidImage n o.base op.img := fun op ho => by
    obtain ⟨op', _, hh⟩ := forall₂_mem_right hops ho
    exact (moved_img hh).right
  obtain ⟨d, m, a1, a2, a3, a4⟩ := C17_mental_image_history h w2 (by omega) (fun m hm => by rw [w1 m hm]; exact hp) ops hl hv hlen'
    (fits w3 hlen) it
  obtain ⟨d', m', b1, b2, b3, b4⟩ := C17_mental_image_history h' w2' (by omega) (fun m hm => by rw [w1' m hm]; exact hp) ops'
    (legal_moved hσ hops hl) hv' (by rw [← hops.length_eq]; exact hlen') (fits w3' (by rw [← hops.length_eq]; exact hlen)) it'
  refine ⟨d, d', m, m', a1, b1, a2, b2, by omega, by omega, ?_⟩
  intro a ha v hv
  obtain ⟨p1, p2⟩ := (hσ a).mp ⟨by omega, by omega⟩
  have hma : a < m.length := by omega
  have hr : ∀ (k : List Int) (j : Nat) (h : j < k.length), (Image.vec k).read (j : Int) = .ok k[j] := by
    intro k j h; simp [Image.read, h]
  rw [hr m a hma, a4 a hma] at hv
  cases hv
  obtain ⟨b, hb⟩ := Int.eq_ofNat_of_zero_le p1
  have hmb : b < m'.length := by omega
  replace hb : σ a = (b : Int) := hb
  rw [hb]
  rw [hr m' b hmb, b4 b hmb, create_scr ht hm hi h h', ← hb, count_moved,
    net_moved (p := fun o => decide (NonZeroAt (a : Int) o.img)) (fun x y hxy => by rw [decide_eq_decide]; exact moved_nonZero (moved_img hxy) ha) hops]

theorem read_vec (k : List Int) (j : Nat) (h : j < k.length) : (Image.vec k).read (j : Int) = .ok k[j] := by
  simp [Image.read, h]

/-- The move takes each pixel inside the picture to one inside it, and each pixel comes from one. -/
theorem scrambling_nat {n : Nat} {σ : Equiv.Perm Int} (hσ : Scrambling n σ) :
    (∀ a : Nat, a < n → ∃ b : Nat, b < n ∧ σ a = b) ∧ ∀ b : Nat, b < n → ∃ a : Nat, a < n ∧ σ a = b := by
  constructor
  · intro a ha
    obtain ⟨p1, p2⟩ := (hσ a).mp ⟨by omega, by omega⟩
    obtain ⟨b, hb⟩ := Int.eq_ofNat_of_zero_le p1
    exact ⟨b, by omega, hb⟩
  · intro b hb
    obtain ⟨p1, p2⟩ := (hσ.symm b).mp ⟨by omega, by omega⟩
    obtain ⟨a, ha⟩ := Int.eq_ofNat_of_zero_le p1
    refine ⟨a, by omega, ?_⟩
    have e0 : σ (σ.symm (b : Int)) = σ (a : Int) := congrArg σ ha
    rw [Equiv.apply_symm_apply] at e0
    exact e0.symm

theorem scrambled_mem {n : Nat} {σ : Equiv.Perm Int} (hσ : Scrambling n σ) {m m' : List Int} (hl : m.length = n) (hl' : m'.length = n)
    (h : Scrambled n σ (.vec m) (.vec m')) (v : Int) : v ∈ m' ↔ v ∈ m := by
  obtain ⟨f, g⟩ := scrambling_nat hσ
  have at' : ∀ (a b : Nat) (ha : a < m.length) (hb : b < m'.length), σ a = b → m'[b] = m[a] := by
    intro a b ha hb e
    have := h a (by omega) _ (read_vec m a ha)
    rw [e, read_vec m' b hb] at this
    exact Except.ok.inj this
  constructor
  · intro hv
    obtain ⟨b, hb, rfl⟩ := List.mem_iff_getElem.mp hv
    obtain ⟨a, ha, e⟩ := g b (by omega)
    rw [at' a b (by omega) hb e]
    exact List.getElem_mem _
  · intro hv
    obtain ⟨a, ha, rfl⟩ := List.mem_iff_getElem.mp hv
    obtain ⟨b, hb, e⟩ := f a (by omega)
    rw [← at' a b ha (by omega) e]
    exact List.getElem_mem _

theorem brightest_le {m m' : List Int} (h : ∀ v ∈ m, v ∈ m') : brightest m ≤ brightest m' := by
  unfold brightest
  rcases foldl_max_mem m 0 with e | e
  · rw [e]; exact (foldl_max_ge m' 0).1
  · exact (foldl_max_ge m' 0).2 _ (h _ e)

/-- **C193**: synthetic images. Two mental images of `n` pixels, the second moved, not black: whatever is shuffled, both
synthesizers can be made, and for each random number the image made from the second is the moved image made from the first. -/
theorem C193_synthetic {n : Nat} {σ : Equiv.Perm Int} (hσ : Scrambling n σ) {m m' : List Int} (hl : m.length = n) (hl' : m'.length = n)
    (h : Scrambled n σ (.vec m) (.vec m')) (hm : ∀ x ∈ m, InI32 x ∧ 0 ≤ x) (hpos : ∃ x ∈ m, 0 < x) (rnd rnd' : Nat → Rnd) :
    ∃ s s', Synthesizer.create rnd m = .ok s ∧ Synthesizer.create rnd' m' = .ok s' ∧
      ∀ r : Nat, ∃ p p', s.make r = .ok p ∧ s'.make r = .ok p' ∧ p.length = n ∧ p'.length = n ∧ Scrambled n σ (.vec p) (.vec p') := by
  have hmem := scrambled_mem hσ hl hl' h
  have hb : brightest m' = brightest m := le_antisymm (brightest_le fun v hv => (hmem v).mp hv) (brightest_le fun v hv => (hmem v).mpr hv)
  have hp : 0 < brightest m := by
    obtain ⟨x, hx, h0⟩ := hpos
    exact lt_of_lt_of_le h0 ((foldl_max_ge m 0).2 x hx)
  obtain ⟨s, a1, a2⟩ := C66_make rnd m hm hp
  obtain ⟨s', b1, b2⟩ := C66_make rnd' m' (fun x hx => hm x ((hmem x).mp hx)) (by rw [hb]; exact hp)
  refine ⟨s, s', a1, b1, fun r => ⟨_, _, a2 r, b2 r, by simp [thresholded, hl], by simp [thresholded, hl'], ?_⟩⟩
  rw [hb]
  intro a ha v hv
  obtain ⟨b, hbn, e⟩ := (scrambling_nat hσ).1 a ha
  have h1 := h a ha _ (read_vec m a (by omega))
  rw [e, read_vec m' b (by omega)] at h1
  rw [read_vec _ a (by simp [thresholded]; omega)] at hv
  rw [e, read_vec _ b (by simp [thresholded]; omega), ← Except.ok.inj hv]
  simp only [thresholded, List.getElem_map, Except.ok.inj h1]

/-- The hypotheses of `C193_synthetic` are met: a mental image and its mirror image. -/
example : Scrambling 4 (Equiv.subLeft 3) ∧ Scrambled 4 (Equiv.subLeft 3) (.vec [2, 0, 1, 3]) (.vec [3, 1, 0, 2]) ∧
    (∀ x ∈ ([2, 0, 1, 3] : List Int), InI32 x ∧ 0 ≤ x) ∧ ∃ x ∈ ([2, 0, 1, 3] : List Int), 0 < x := by
  refine ⟨by intro a; simp only [Equiv.subLeft_apply]; omega, ?_, by decide, ⟨2, by decide, by decide⟩⟩
  intro a ha v hv
  rw [← hv, Equiv.subLeft_apply]
  match a, ha with
  | 0, _ => rfl
  | 1, _ => rfl
  | 2, _ => rfl
  | 3, _ => rfl

/-- The hypotheses of `C193_mental` are met: two trainings and a `leaveOneOut` of a trained image, mirrored. -/
example (tr : Rnd → Rnd) :
    let ops : List WOp := [.train ⟨Rnd.id, true⟩ (.vec [1, 0, 1, 1]) b!"a", .train ⟨rotRnd, false⟩ (.vec [0, 0, 1, 0]) b!"a", .leave [1, 0, 1, 1] b!"a"]
    let ops' : List WOp := [.train ⟨tr Rnd.id, true⟩ (.vec [1, 1, 0, 1]) b!"a", .train ⟨tr rotRnd, false⟩ (.vec [0, 1, 0, 0]) b!"a",
      .leave [1, 1, 0, 1] b!"a"]
    List.Forall₂ (ScrambledOp 4 (Equiv.subLeft 3) tr) ops ops' ∧ ∀ l, Legal (opsOf l ops) := by
  have mv := fun (x y : List Int) h1 h2 h3 h4 h5 => (mirror_moved x y h1 h2 h3 h4 h5).moved
  intro ops ops'
  refine ⟨.cons (.train _ _ (mv _ _ rfl rfl (by decide) (by decide) (by decide))) (.cons (.train _ _ (mv _ _ rfl rfl (by decide) (by decide) (by decide)))
    (.cons (.leave _ (mv _ _ rfl rfl (by decide) (by decide) (by decide))) .nil)), fun l => ?_⟩
  by_cases hl : b!"a" = l
  · subst hl
    intro pre img post e
    have e : [Op.train (.vec [1, 0, 1, 1]), .train (.vec [0, 0, 1, 0]), .untrain (.vec [1, 0, 1, 1])] = pre ++ .untrain img :: post := e
    match pre, e with
    | [], e => simp at e
    | [_], e => simp at e
    | [a, b], e =>
      simp only [List.cons_append, List.nil_append, List.cons.injEq, Op.untrain.injEq] at e
      obtain ⟨rfl, rfl, rfl, _⟩ := e
      decide
    | _ :: _ :: _ :: p, e => simp at e
  · have : opsOf l ops = [] := by
      simp [opsOf, ops, WOp.on, hl]
    rw [this]
    intro pre img post e
    simp at e

end Wis
