import Verif.Props.Recode
import Verif.Spec.Scramble
/-!
# C191: the default wiring does not know which pixels are neighbours
-/

namespace Wis
open Spec

/-! ## Translated random numbers -/

theorem Spec.Scrambling.symm {n : Nat} {σ : Equiv.Perm Int} (h : Scrambling n σ) : Scrambling n σ.symm := by
  intro a
  have := h (σ.symm a)
  rw [Equiv.apply_symm_apply] at this
  exact this.symm

theorem pixels_map_perm {n : Nat} {σ : Equiv.Perm Int} (h : Scrambling n σ) : ((pixels n).map σ).Perm (pixels n) := by
  have hnd : (pixels n).Nodup := List.nodup_range.map (fun a b h => by simpa using h)
  refine (List.perm_ext_iff_of_nodup (hnd.map σ.injective) hnd).mpr fun a => ?_
  unfold pixels
  rw [range_int_mem, List.mem_map]
  constructor
  · rintro ⟨b, hb, rfl⟩
    exact (h b).mp (range_int_mem.mp hb)
  · intro ha
    exact ⟨σ.symm a, range_int_mem.mpr ((h.symm a).mp ha), by simp⟩

/-- The translation of one source of random numbers. -/
def trRnd {n : Nat} {σ : Equiv.Perm Int} (h : Scrambling n σ) (r : Rnd) : Rnd where
  rand i := if n = 0 then r.rand i else r.rand i / n * n + (σ ((r.rand i % n : Nat) : Int)).toNat
  shuffle l := if l.take n = pixels n then (r.shuffle (pixels n ++ (l.drop n).map σ.symm)).map σ else r.shuffle l
  perm l := by
    split
    · rename_i hl
      refine ((r.perm _).map σ).trans ?_
      rw [List.map_append, List.map_map]
      have he : (l.drop n).map (σ ∘ σ.symm) = l.drop n := by simp
      rw [he]
      refine ((pixels_map_perm h).append_right _).trans ?_
      rw [← hl, List.take_append_drop]
    · exact r.perm l

theorem take_pixels (n : Nat) (e : List Int) : (pixels n ++ e).take n = pixels n ∧ (pixels n ++ e).drop n = e := by
  have hl : (pixels n).length = n := by simp [pixels]
  constructor
  · rw [List.take_append_of_le_length (by omega), List.take_of_length_le (by omega)]
  · rw [List.drop_append_of_le_length (by omega), List.drop_of_length_le (by omega), List.nil_append]

theorem trRnd_shuffle {n : Nat} {σ : Equiv.Perm Int} (h : Scrambling n σ) (r : Rnd) (e : List Int) :
    (trRnd h r).shuffle (pixels n ++ e.map σ) = (r.shuffle (pixels n ++ e)).map σ := by
  obtain ⟨h1, h2⟩ := take_pixels n (e.map σ)
  simp only [trRnd]
  rw [if_pos h1, h2, List.map_map]
  simp

theorem scr_mod {n : Nat} {σ : Equiv.Perm Int} (h : Scrambling n σ) (hn : n ≠ 0) (k : Nat) :
    0 ≤ σ ((k % n : Nat) : Int) ∧ (σ ((k % n : Nat) : Int)).toNat < n := by
  have := (h ((k % n : Nat) : Int)).mp ⟨by omega, by have := Nat.mod_lt k (Nat.pos_of_ne_zero hn); omega⟩
  omega

theorem trRnd_rand {n : Nat} {σ : Equiv.Perm Int} (h : Scrambling n σ) (hn : n ≠ 0) (r : Rnd) (i : Nat) :
    (((trRnd h r).rand i % n : Nat) : Int) = σ ((r.rand i % n : Nat) : Int) ∧ (trRnd h r).rand i / n = r.rand i / n := by
  obtain ⟨h1, h2⟩ := scr_mod h hn (r.rand i)
  simp only [trRnd, if_neg hn]
  constructor
  · rw [Nat.mul_comm, Nat.mul_add_mod, Nat.mod_eq_of_lt h2]
    omega
  · rw [Nat.mul_comm, Nat.mul_add_div (Nat.pos_of_ne_zero hn), Nat.div_eq_of_lt h2, Nat.add_zero]

theorem trRnd_symm {n : Nat} {σ : Equiv.Perm Int} (h : Scrambling n σ) (r : Rnd) : trRnd h.symm (trRnd h r) = r := by
  have e1 : (trRnd h.symm (trRnd h r)).rand = r.rand := by
    funext i
    by_cases hn : n = 0
    · simp [trRnd, hn]
    · obtain ⟨a1, a2⟩ := trRnd_rand h.symm hn (trRnd h r) i
      obtain ⟨b1, b2⟩ := trRnd_rand h hn r i
      rw [b1, Equiv.symm_apply_apply] at a1
      rw [b2] at a2
      rw [← Nat.div_add_mod ((trRnd h.symm (trRnd h r)).rand i) n, ← Nat.div_add_mod (r.rand i) n, a2]
      omega
  have e2 : (trRnd h.symm (trRnd h r)).shuffle = r.shuffle := by
    funext l
    by_cases hl : l.take n = pixels n
    · have hl2 : l = pixels n ++ l.drop n := by
        rw [← hl, List.take_append_drop]
      have k1 := trRnd_shuffle h.symm (trRnd h r) ((l.drop n).map σ)
      have k2 := trRnd_shuffle h r (l.drop n)
      rw [List.map_map, k2, List.map_map] at k1
      have es : ⇑σ.symm ∘ ⇑σ = id := by funext x; simp
      rw [es, List.map_id, List.map_id, ← hl2] at k1
      exact k1
    · simp only [trRnd]
      rw [if_neg hl, if_neg hl]
  cases hr : trRnd h.symm (trRnd h r) with
  | mk a b c =>
    rw [hr] at e1 e2
    cases r
    simp only at e1 e2
    subst e1 e2
    rfl

/-- The translation as a one-to-one correspondence of all sources of random numbers. -/
def trEquiv {n : Nat} {σ : Equiv.Perm Int} (h : Scrambling n σ) : Rnd ≃ Rnd where
  toFun := trRnd h
  invFun := trRnd h.symm
  left_inv := trRnd_symm h
  right_inv r := trRnd_symm h.symm r

theorem trRnd_draw {n : Nat} {σ : Equiv.Perm Int} (h : Scrambling n σ) (r : Rnd) (i : Nat) (v : Int)
    (hv : randint (r.rand i) 0 (n - 1) = .ok v) : randint ((trRnd h r).rand i) 0 (n - 1) = .ok (σ v) := by
  unfold randint at hv ⊢
  have e : ((n : Int) - 1 - 0 + 1) = n := by omega
  rw [e] at hv ⊢
  split at hv
  · cases hv
  · rename_i hn
    rw [if_neg hn]
    cases hv
    have hn' : n ≠ 0 := by omega
    have em : ∀ a b : Nat, (a : Int).tmod b = ((a % b : Nat) : Int) := fun _ _ => rfl
    rw [zero_add, zero_add, em, em, (trRnd_rand h hn' r i).1]

theorem translates {n : Nat} {σ : Equiv.Perm Int} (h : Scrambling n σ) : Translates n σ (trEquiv h) :=
  ⟨trRnd_draw h, trRnd_shuffle h⟩

/-! ## Wirings -/

theorem fillers_scr {n : Nat} {σ : Equiv.Perm Int} {tr : Rnd → Rnd} (ht : Translates n σ tr) (r : Rnd) : ∀ (k i : Nat) (xs : List Int),
    Discriminator.fillers r n k i = .ok xs → Discriminator.fillers (tr r) n k i = .ok (xs.map σ) := by
  intro k
  induction k with
  | zero => intro i xs h; cases h; rfl
  | succ k ih =>
    intro i xs h
    unfold Discriminator.fillers at h ⊢
    obtain ⟨v, h1, h⟩ := bind_eq_ok h
    obtain ⟨vs, h2, h⟩ := bind_eq_ok h
    cases h
    rw [ht.draw r i v h1, Except.bind_ok, ih _ _ h2]
    rfl

theorem shuffle_scr {n : Nat} {σ : Equiv.Perm Int} {tr : Rnd → Rnd} (ht : Translates n σ tr) {r : Rnd} {A : Int} {iz1 iz2 c : Bool}
    {b1 b2 : Int} {d1 d2 : Discriminator} (h1 : Discriminator.setRAMShuffle r n A iz1 c b1 = .ok d1)
    (h2 : Discriminator.setRAMShuffle (tr r) n A iz2 c b2 = .ok d2) : d2.mapping = d1.mapping.map (·.map σ) := by
  unfold Discriminator.setRAMShuffle at h1 h2
  obtain ⟨_, _, h1⟩ := bind_eq_ok h1
  obtain ⟨_, k1, h1⟩ := bind_eq_ok h1
  obtain ⟨s1, e1, h1⟩ := bind_eq_ok h1
  obtain ⟨x1, f1, h1⟩ := bind_eq_ok h1
  obtain ⟨r1, g1, h1⟩ := bind_eq_ok h1
  obtain ⟨_, _, h2⟩ := bind_eq_ok h2
  obtain ⟨_, k2, h2⟩ := bind_eq_ok h2
  obtain ⟨s2, e2, h2⟩ := bind_eq_ok h2
  obtain ⟨x2, f2, h2⟩ := bind_eq_ok h2
  obtain ⟨r2, g2, h2⟩ := bind_eq_ok h2
  cases h1
  cases h2
  rw [e1] at e2
  cases e2
  rw [fillers_scr ht r _ _ _ f1] at f2
  cases f2
  have hs := ht.shuffle r x1
  unfold pixels at hs
  have g2 := (ramsFrom_mapping (checkBase_ok k2) g2).1
  have g1 := (ramsFrom_mapping (checkBase_ok k1) g1).1
  rw [show ((n : Int).toNat) = n from Int.toNat_natCast n] at g1 g2
  rw [hs] at g2
  refine g2.trans ?_
  show _ = (r1.map (·.addresses)).map _
  rw [g1, List.map_map]
  apply List.map_congr_left
  intro j _
  simp only [Function.comp_apply, List.map_drop, List.map_take]

theorem scr_kind {n : Nat} {σ : Equiv.Perm Int} {tr : Rnd → Rnd} {p q : WOp} (h : ScrambledOp n σ tr p q) :
    p.isTrain = q.isTrain ∧ p.label = q.label ∧ Scrambled n σ p.img q.img := by
  cases h with
  | train env l h => exact ⟨rfl, rfl, h⟩
  | leave l h => exact ⟨rfl, rfl, h⟩

theorem scr_step {n : Nat} {σ : Equiv.Perm Int} {tr : Rnd → Rnd} (ht : Translates n σ tr) {w1 w2 w1' w2' : Wisard} {p q : WOp}
    (hw : WiredAlike σ w1 w2) (hA : w2.addressSize = w1.addressSize) (ho : w2.opts = w1.opts) (hm : w1.opts.mapping = [])
    (hi : w1.opts.indexes = []) (hp : p.img.size = n) (hq : q.img.size = n) (hpq : ScrambledOp n σ tr p q)
    (h1 : wstep w1 p = (w1', .ok ())) (h2 : wstep w2 q = (w2', .ok ())) : WiredAlike σ w1' w2' := by
  intro l
  by_cases hne : l = p.label
  · subst hne
    have hw0 := hw p.label
    cases hpq with
    | train env l1 hs =>
      rename_i x y
      simp only [WOp.label, WOp.img] at *
      obtain ⟨_, _, _, a⟩ := train1_find w1 env x l1 h1
      obtain ⟨_, _, _, b⟩ := train1_find w2 ⟨tr env.rnd, env.lhsFirst⟩ y l1 h2
      rcases a with ⟨d, d', a1, a2, a3⟩ | ⟨d, d', a1, a2, a3, a4⟩
      · rcases b with ⟨f, f', b1, b2, b3⟩ | ⟨f, f', b1, b2, b3, b4⟩
        · rw [a1, b1] at hw0
          rw [a3, b3]
          simp only [Option.map_some, Option.some.injEq] at hw0 ⊢
          rw [train_mapping a2, train_mapping b2, hw0]
        · rw [a1, b1] at hw0; simp at hw0
      · rcases b with ⟨f, f', b1, b2, b3⟩ | ⟨f, f', b1, b2, b3, b4⟩
        · rw [a1, b1] at hw0; simp at hw0
        · rw [a4, b4]
          simp only [Option.map_some, Option.some.injEq]
          rw [train_mapping a3, train_mapping b3]
          rw [hA, ho] at b2
          unfold Wisard.newDiscriminator at a2 b2
          rw [hm, hi] at a2 b2
          simp only [SMap.find, List.length_nil, ne_eq, not_true_eq_false, if_false] at a2 b2
          rw [hp] at a2
          rw [hq] at b2
          exact shuffle_scr ht a2 b2
    | leave l1 hs =>
      rename_i x y
      simp only [WOp.label] at *
      rcases leave_find w1 x l1 h1 with ⟨a1, a2⟩ | ⟨d, d', a1, a2, a3⟩
      · rcases leave_find w2 y l1 h2 with ⟨b1, b2⟩ | ⟨f, f', b1, b2, b3⟩
        · rw [a2, b2]; exact hw0
        · rw [a1, b1] at hw0; simp at hw0
      · rcases leave_find w2 y l1 h2 with ⟨b1, b2⟩ | ⟨f, f', b1, b2, b3⟩
        · rw [a1, b1] at hw0; simp at hw0
        · rw [a1, b1] at hw0
          rw [a3, b3]
          simp only [Option.map_some, Option.some.injEq] at hw0 ⊢
          rw [untrain_mapping a2, untrain_mapping b2, hw0]
  · have k1 := (wstep_other w1 p).2.2.1 l hne
    have k2 := (wstep_other w2 q).2.2.1 l (by rw [← (scr_kind hpq).2.1]; exact hne)
    rw [h1] at k1
    rw [h2] at k2
    simp only at k1 k2
    rw [k1, k2]
    exact hw l

theorem scr_run {n : Nat} {σ : Equiv.Perm Int} {tr : Rnd → Rnd} (ht : Translates n σ tr) {ops1 ops2 : List WOp}
    (hops : List.Forall₂ (ScrambledOp n σ tr) ops1 ops2) : (∀ o ∈ ops1, o.img.size = n) → (∀ o ∈ ops2, o.img.size = n) →
    ∀ {w1 w2 w1' w2' : Wisard}, WiredAlike σ w1 w2 → w2.addressSize = w1.addressSize → w2.opts = w1.opts → w1.opts.mapping = [] →
      w1.opts.indexes = [] → wrun w1 ops1 = (w1', .ok ()) → wrun w2 ops2 = (w2', .ok ()) → WiredAlike σ w1' w2' := by
  induction hops with
  | nil => intro _ _ w1 w2 w1' w2' hw _ _ _ _ h1 h2; cases h1; cases h2; exact hw
  | @cons p q ps qs h _ ih =>
    intro hs1 hs2 w1 w2 w1' w2' hw hA ho hm hi h1 h2
    unfold wrun at h1 h2
    have k1 := wstep_other w1 p
    have k2 := wstep_other w2 q
    cases e1 : wstep w1 p with
    | mk v1 s1 =>
      cases e2 : wstep w2 q with
      | mk v2 s2 =>
        rw [e1] at h1 k1
        rw [e2] at h2 k2
        simp only at h1 h2 k1 k2
        cases s1 with
        | error e => cases h1
        | ok u1 =>
          cases s2 with
          | error e => cases h2
          | ok u2 =>
            exact ih (fun o ho => hs1 o (List.mem_cons_of_mem _ ho)) (fun o ho => hs2 o (List.mem_cons_of_mem _ ho))
              (scr_step ht hw hA ho hm hi (hs1 p (by simp)) (hs2 q (by simp)) h e1 e2)
              (by rw [k1.1, k2.1, hA]) (by rw [k1.2.1, k2.2.1, ho]) (by rw [k1.2.1, hm]) (by rw [k1.2.1, hi]) h1 h2

/-- **C191**: the default wiring does not know which pixels are neighbours. Move the pixels of all images, the same way in all of
them. The sources of random numbers correspond to each other one to one (what one run draws, the other draws after the move), and a
model that is wired from corresponding random numbers and trained with the moved images answers every moved image as the first
answers the original. The correspondence depends on nothing but the move. -/
theorem C191_scrambled (n : Nat) {σ : Equiv.Perm Int} (hσ : Scrambling n σ) :
    ∃ tr : Rnd ≃ Rnd, Translates n σ tr ∧ ∀ {A : Nat} {o : WisardOpts}, o.mapping = [] → o.indexes = [] → 2 ≤ A → A ≤ n →
      n + A ≤ 2147483647 → 2 ≤ o.base → o.base ^ A < 2 ^ 63 → ∀ {ops ops' : List WOp}, ops.length ≤ 2147483645 →
      (∀ op ∈ ops, ValidImage n o.base op.img) → (∀ op ∈ ops', ValidImage n o.base op.img) →
      List.Forall₂ (ScrambledOp n σ tr) ops ops' →
      ∃ w w', wrun (Wisard.create A o) ops = (w, .ok ()) ∧ wrun (Wisard.create A o) ops' = (w', .ok ()) ∧
        ∀ xs ys : List Image, (∀ x ∈ xs, ValidImage n o.base x) → (∀ y ∈ ys, ValidImage n o.base y) →
          List.Forall₂ (Scrambled n σ) xs ys →
          List.Forall₂ (fun x y => w.classify1 x = w'.classify1 y) xs ys ∧ w.classify xs = w'.classify ys := by
  refine ⟨trEquiv hσ, translates hσ, ?_⟩
  intro A o hm hi hA hAn hn hb hp ops ops' hlen hv hv' hops
  obtain ⟨w, g⟩ := default_good hm hi hA hAn hn hb hp ops hv (by omega)
  obtain ⟨w', g'⟩ := default_good hm hi hA hAn hn hb hp ops' hv' (by rw [← hops.length_eq]; omega)
  refine ⟨w, w', g.ran, g'.ran, fun xs ys hx hy hxy => ?_⟩
  have hall : ∀ {x y : Image}, Scrambled n σ x y → Recoded σ (fun _ v => v) (pixels n) x y := by
    intro x y h a ha v hv
    obtain ⟨k, hk, rfl⟩ := List.mem_map.mp ha
    exact h k (List.mem_range.mp hk) v hv
  have hw : WiredAlike σ w w' := scr_run (translates hσ) hops
    (fun o ho => by have := (hv o ho).1; omega)
    (fun o ho => by have := (hv' o ho).1; omega)
    (w1 := Wisard.create A o) (w2 := Wisard.create A o) (by intro l; rfl) rfl rfl hm hi g.ran g'.ran
  refine C161_recoding g g' ⟨rfl, rfl, rfl, rfl⟩ ⟨fun _ _ _ _ _ _ _ h => h, fun _ _ _ _ _ => Iff.rfl⟩ (addrs := pixels n) ?_ ?_
    ?_ hx hy (hxy.imp fun _ _ h => hall h)
  · rintro a ⟨l, d, m, h1, h2, h3⟩
    exact range_int_mem.mpr (g.wired l d h1 m h2 a h3)
  · exact hops.imp fun p q h => ⟨(scr_kind h).1, (scr_kind h).2.1, hall (scr_kind h).2.2⟩
  · intro l d1 d2 h1 h2
    have h := hw l
    rw [h1, h2] at h
    simpa using h

/-- Images of four pixels, mirrored. -/
example : Scrambling 4 (Equiv.subLeft 3) := by
  intro a
  simp only [Equiv.subLeft_apply]
  omega

/-- The hypotheses of `C191_scrambled` are met: two trainings and a `leaveOneOut` with mirrored images. -/
example (tr : Rnd → Rnd) :
    let ops : List WOp := [.train ⟨Rnd.id, true⟩ (.vec [1, 0, 1, 1]) b!"a", .train ⟨rotRnd, false⟩ (.vec [0, 0, 1, 0]) b!"b", .leave [1, 0, 1, 1] b!"a"]
    let ops' : List WOp := [.train ⟨tr Rnd.id, true⟩ (.vec [1, 1, 0, 1]) b!"a", .train ⟨tr rotRnd, false⟩ (.vec [0, 1, 0, 0]) b!"b",
      .leave [1, 1, 0, 1] b!"a"]
    (∀ op ∈ ops, ValidImage (4 : Nat) 2 op.img) ∧ (∀ op ∈ ops', ValidImage (4 : Nat) 2 op.img) ∧
      List.Forall₂ (ScrambledOp 4 (Equiv.subLeft 3) tr) ops ops' := by
  have val : ∀ (l : List Int), l.length = 4 → (∀ v ∈ l, v = 0 ∨ v = 1) → ValidImage (4 : Nat) 2 (.vec l) := by
    intro l h4 h
    refine ⟨by simp [Image.size, h4], fun i hi => ?_⟩
    change i < l.length at hi
    refine ⟨l[i], by simp [Image.read, hi], ?_⟩
    rcases h l[i] (List.getElem_mem hi) with e | e <;> rw [e] <;> decide
  have scr : ∀ x y : List Int, (∀ a : Nat, a < 4 → (Image.vec y).read (3 - (a : Int)) = (Image.vec x).read a) →
      Scrambled 4 (Equiv.subLeft 3) (.vec x) (.vec y) := by
    intro x y h a ha v hv
    rw [Equiv.subLeft_apply, h a ha, hv]
  intro ops ops'
  refine ⟨?_, ?_, ?_⟩
  · intro op h
    simp only [ops, List.mem_cons, List.not_mem_nil, or_false] at h
    rcases h with rfl | rfl | rfl <;> exact val _ rfl (by decide)
  · intro op h
    simp only [ops', List.mem_cons, List.not_mem_nil, or_false] at h
    rcases h with rfl | rfl | rfl <;> exact val _ rfl (by decide)
  · exact .cons (.train _ _ (scr _ _ (by decide))) (.cons (.train _ _ (scr _ _ (by decide))) (.cons (.leave _ (scr _ _ (by decide))) .nil))

end Wis
