import Verif.Spec.Fair
import Verif.Spec.Scramble
import Verif.Lemmas.Rand
import Verif.Lemmas.Wiring
import Verif.Props.Rand
/-!
# C192: the shuffle favours no wiring
-/

namespace Wis
open Spec

section
variable {S : Type} (rand : S → Nat × S)

/-- The loop, one step more at its end. -/
theorem shuffleLoop_snoc (n : Nat) : ∀ (i : Nat) (v : Array Int) (s : S),
    (shuffleLoop rand (n + 1) i v s).1 =
      (shuffleLoop rand n i v s).1.swapIfInBounds (i + n) (drawn rand s n % (i + n + 1)) := by
  induction n with
  | zero => intro i v s; rfl
  | succ n ih =>
    intro i v s
    have := ih (i + 1) (v.swapIfInBounds i ((rand s).1 % (i + 1))) (rand s).2
    rw [show i + 1 + n = i + (n + 1) by omega] at this
    exact this

theorem swap_get {v : Array Int} {a b : Nat} (ha : a < v.size) (hb : b < v.size) (k : Nat) :
    (v.swapIfInBounds a b)[k]? = v[Equiv.swap a b k]? := by
  unfold Array.swapIfInBounds
  rw [dif_pos ha, dif_pos hb, Array.getElem?_swap]
  by_cases h2 : k = b
  · subst h2
    rw [if_pos rfl, Equiv.swap_apply_right, Array.getElem?_eq_getElem ha]
  · by_cases h1 : k = a
    · subst h1
      rw [if_neg (fun e => h2 e.symm), if_pos rfl, Equiv.swap_apply_left, Array.getElem?_eq_getElem hb]
    · rw [if_neg (fun e => h2 e.symm), if_neg (fun e => h1 e.symm), Equiv.swap_apply_of_ne_of_ne h1 h2]

theorem swap_swap {v : Array Int} {a b : Nat} (ha : a < v.size) (hb : b < v.size) :
    (v.swapIfInBounds a b).swapIfInBounds a b = v := by
  apply Array.ext_getElem?
  intro k
  rw [swap_get (by simpa using ha) (by simpa using hb), swap_get ha hb, Equiv.swap_apply_self]

theorem swap_size (v : Array Int) (a b : Nat) : (v.swapIfInBounds a b).size = v.size := by
  simp

theorem loop_size (n : Nat) (i : Nat) (v : Array Int) (s : S) : (shuffleLoop rand n i v s).1.size = v.size :=
  (shuffleLoop_perm rand n i v s).size_eq

/-- Elements that are not reached stay. -/
theorem loop_stays (n : Nat) (v : Array Int) (s : S) (hn : n + 1 ≤ v.size) (k : Nat) (hk : n < k) :
    (shuffleLoop rand n 1 v s).1[k]? = v[k]? := by
  induction n with
  | zero => rfl
  | succ n ih =>
    rw [shuffleLoop_snoc, swap_get (by rw [loop_size]; omega)
      (by rw [loop_size]; have := Nat.mod_lt (drawn rand s n) (show 0 < 1 + n + 1 by omega); omega)]
    have := Nat.mod_lt (drawn rand s n) (show 0 < 1 + n + 1 by omega)
    rw [Equiv.swap_apply_of_ne_of_ne (by omega) (by omega)]
    exact ih (by omega) (by omega)

end

theorem get_inj {v : Array Int} (h : v.toList.Nodup) {i j : Nat} (hi : i < v.size) (e : v[i]? = v[j]?) : i = j := by
  rw [← Array.getElem?_toList, ← Array.getElem?_toList] at e
  exact (List.getElem?_inj (by simpa using hi) h).mp e

theorem loop_fair (v : Array Int) (hv : v.toList.Nodup) : ∀ (n : Nat), n + 1 ≤ v.size → ∀ t : Array Int, t.Perm v →
    (∀ k, n < k → t[k]? = v[k]?) →
    ∃ d : Nat → Nat, (∀ i < n, d i < i + 2) ∧ ∀ (S : Type) (rand : S → Nat × S) (s : S),
      (shuffleLoop rand n 1 v s).1 = t ↔ ∀ i < n, drawn rand s i % (i + 2) = d i := by
  intro n
  induction n with
  | zero =>
    intro hn t ht hk
    refine ⟨fun _ => 0, by simp, fun S rand s => ?_⟩
    have : t = v := by
      obtain ⟨a, ha⟩ : ∃ a, v.toList = a :: v.toList.drop 1 := by
        cases e : v.toList with
        | nil => have := congrArg List.length e; simp at this; subst this; simp at hn
        | cons a l => exact ⟨a, rfl⟩
      have hs := ht.size_eq
      have hd : t.toList.drop 1 = v.toList.drop 1 := by
        apply List.ext_getElem?
        intro k
        rw [List.getElem?_drop, List.getElem?_drop, Array.getElem?_toList, Array.getElem?_toList]
        exact hk _ (by omega)
      obtain ⟨b, hb⟩ : ∃ b, t.toList = b :: t.toList.drop 1 := by
        cases e : t.toList with
        | nil => have := congrArg List.length e; simp at this; subst this; simp at hs; omega
        | cons a l => exact ⟨a, rfl⟩
      have hp := ht.toList
      rw [ha, hb, hd] at hp
      have hm : b ∈ a :: v.toList.drop 1 := hp.subset (by simp)
      have hnd : (b :: v.toList.drop 1).Nodup := by
        have := hp.nodup_iff.mpr (by rw [← ha]; exact hv)
        exact this
      rcases List.mem_cons.mp hm with e | e
      · apply Array.toList_inj.mp
        rw [hb, hd, ha, e]; simp
      · exact absurd e (List.nodup_cons.mp hnd).1
    subst this
    simp [shuffleLoop]
  | succ n ih =>
    intro hn t ht hk
    have hts := ht.size_eq
    have htn : t.toList.Nodup := ht.toList.nodup_iff.mpr hv
    obtain ⟨e, he, hte⟩ : ∃ e, e < t.size ∧ t[e]? = v[n + 1]? := by
      have hm : v[n + 1] ∈ t.toList := ht.toList.symm.subset (by simp)
      obtain ⟨e, he, h⟩ := List.getElem_of_mem hm
      have he' : e < t.size := by simpa using he
      refine ⟨e, he', ?_⟩
      rw [← Array.getElem?_toList, List.getElem?_eq_getElem he, h, Array.getElem?_eq_getElem (by omega)]
    have hen : e ≤ n + 1 := by
      by_contra hc
      have h1 := hk e (by omega)
      rw [hte] at h1
      have := get_inj hv (by omega) h1
      omega
    obtain ⟨d, d1, d2⟩ := ih (by omega) (t.swapIfInBounds (n + 1) e) (by
        refine Array.Perm.trans ?_ ht
        unfold Array.swapIfInBounds
        rw [dif_pos (by omega), dif_pos he]
        exact Array.swap_perm ..) (by
        intro k hkn
        rw [swap_get (by omega) he]
        by_cases hk1 : k = n + 1
        · subst hk1; rw [Equiv.swap_apply_left, hte]
        · rw [Equiv.swap_apply_of_ne_of_ne hk1 (by omega)]
          exact hk k (by omega))
    refine ⟨fun i => if i = n then e else d i, ?_, fun S rand s => ?_⟩
    · intro i hi
      by_cases h : i = n
      · simp only [h, if_true]; omega
      · simp only [h, if_false]; exact d1 i (by omega)
    · rw [shuffleLoop_snoc]
      have hj := Nat.mod_lt (drawn rand s n) (show 0 < 1 + n + 1 by omega)
      have hs := loop_size rand n 1 v s
      have hst := loop_stays rand n v s (by omega) (n + 1) (by omega)
      have hd2 := d2 S rand s
      have hsplit : (∀ i < n + 1, drawn rand s i % (i + 2) = if i = n then e else d i) ↔
          (drawn rand s n % (n + 2) = e ∧ ∀ i < n, drawn rand s i % (i + 2) = d i) := by
        constructor
        · intro h
          refine ⟨by simpa using h n (by omega), fun i hi => ?_⟩
          have := h i (by omega)
          rwa [if_neg (by omega)] at this
        · rintro ⟨h1, h2⟩ i hi
          by_cases h : i = n
          · subst h; simpa using h1
          · rw [if_neg h]; exact h2 i (by omega)
      rw [hsplit, ← hd2]
      rw [show 1 + n + 1 = n + 2 by omega] at hj ⊢
      rw [show 1 + n = n + 1 by omega]
      generalize drawn rand s n % (n + 2) = j at hj
      generalize (shuffleLoop rand n 1 v s).1 = out at hs hst
      constructor
      · intro h
        have hje : j = e := by
          refine get_inj htn (by omega) ?_
          rw [hte, ← hst, ← h, swap_get (by omega) (by omega), Equiv.swap_apply_right]
        subst hje
        exact ⟨rfl, by rw [← h, swap_swap (by omega) (by omega)]⟩
      · rintro ⟨rfl, h⟩
        rw [h, swap_swap (by omega) (by omega)]

/-- **C192**: libstdc++'s shuffle favours no ordering. For every ordering `t` of the values there is one sequence of remainders (of the
first number drawn modulo 2, of the second modulo 3, and so on) with which every generator shuffles them into `t`, and with no other. -/
theorem C192_shuffle {l t : List Int} (hl : l.Nodup) (ht : t.Perm l) : ∃ d : Nat → Nat, (∀ i < l.length - 1, d i < i + 2) ∧
    ∀ (S : Type) (srand : Nat → S) (rand : S → Nat × S) (s : S),
      ((stdRand S srand rand).shuffle s l).1 = t ↔ ∀ i < l.length - 1, drawn rand s i % (i + 2) = d i := by
  have hlen := ht.length_eq
  rcases Nat.eq_zero_or_pos l.length with h0 | h0
  · have e1 : l = [] := List.length_eq_zero_iff.mp h0
    subst e1
    have e2 : t = [] := List.length_eq_zero_iff.mp hlen
    subst e2
    exact ⟨fun _ => 0, by simp, fun S srand rand s => by simp [stdRand, shuffleLoop]⟩
  · obtain ⟨d, h1, h2⟩ := loop_fair l.toArray (by simpa using hl) (l.length - 1) (by simp; omega) t.toArray
      (by simpa [List.perm_iff_toArray_perm] using ht) (by
        intro k hk
        have a : l.toArray[k]? = none := by simp; omega
        have b : t.toArray[k]? = none := by simp; omega
        rw [a, b])
    refine ⟨d, h1, fun S srand rand s => ?_⟩
    rw [← h2 S rand s]
    show ((shuffleLoop rand (l.length - 1) 1 l.toArray s).1.toList = t) ↔ _
    constructor
    · intro h; rw [← h]
    · intro h; rw [h]

/-- The tuples of the default wiring, one after the other, are the shuffled pixels. -/
theorem createG_flat (g : CRand) (now : Nat) (s : g.S) {A k : Nat} {o : Options} (hm : o.mapping = []) (hi : o.indexes = [])
    {e : Discriminator} (h : (Discriminator.createG g now s A ((A * k : Nat) : Int) o).1 = .ok e) :
    0 < A ∧ e.mapping.length = k ∧ (∀ m ∈ e.mapping, m.length = A) ∧ e.mapping.flatten = (g.shuffle (reseed g now s 100000) (pixels (A * k))).1 := by
  have hl : (pixels (A * k)).length = A * k := by simp [pixels]
  obtain ⟨rnd, hr⟩ := createG_eq g now s A ((A * k : Nat) : Int) o
  have hlen := ((C18_default_wiring rnd A (A * k) o hm hi).2 e (hr.symm.trans h)).2.1
  unfold Discriminator.createG at h
  simp only [hm, hi, List.length_nil, ne_eq, not_true_eq_false, if_false] at h
  generalize reseed g now s 100000 = z at h ⊢
  unfold Discriminator.setRAMShuffleG at h
  cases hca : Discriminator.checkAddressSize ((A * k : Nat) : Int) A with
  | error x => rw [hca] at h; cases h
  | ok u =>
    rw [hca] at h
    simp only at h
    cases hcb : Discriminator.checkBase o.base with
    | error x => rw [hcb] at h; cases h
    | ok u =>
      rw [hcb] at h
      have hA2 := (checkAddressSize_ok hca).1
      have htm : (((A * k : Nat) : Int)).tmod A = 0 := by
        rw [show (((A * k : Nat) : Int)).tmod A = ((A * k % A : Nat) : Int) from rfl, Nat.mul_mod_right]; rfl
      have htd : (((A * k : Nat) : Int)).tdiv A = k := by
        rw [show (((A * k : Nat) : Int)).tdiv A = ((A * k / A : Nat) : Int) from rfl, Nat.mul_div_cancel_left _ (by omega)]
      simp only [htm, htd, gt_iff_lt, lt_self_iff_false, decide_false, Bool.and_false, Bool.false_eq_true, if_false, sub_self,
        Int.toNat_zero, Discriminator.fillersG, List.append_nil, Int.toNat_natCast] at h
      have hil := (g.perm z (pixels (A * k))).length_eq
      rw [hl] at hil
      unfold pixels at hil ⊢
      change (match Discriminator.ramsFrom (g.shuffle z ((List.range (A * k)).map Int.ofNat)).1 A o.ignoreZero o.base k 0 with
        | .ok rams => ((.ok ⟨((A * k : Nat) : Int), 0, rams⟩ : Res Discriminator), (g.shuffle z ((List.range (A * k)).map Int.ofNat)).2)
        | .error e => (.error e, (g.shuffle z ((List.range (A * k)).map Int.ofNat)).2)).1 = _ at h
      generalize (g.shuffle z ((List.range (A * k)).map Int.ofNat)) = q at h hil ⊢
      obtain ⟨ix, z'⟩ := q
      simp only at h hil ⊢
      cases hrf : Discriminator.ramsFrom ix A o.ignoreZero o.base k 0 with
      | error x => rw [hrf] at h; cases h
      | ok rams =>
        rw [hrf] at h
        cases h
        obtain ⟨g1, g2⟩ := ramsFrom_mapping (checkBase_ok hcb) hrf
        have hfl : Discriminator.mapping ⟨((A * k : Nat) : Int), 0, rams⟩ = (List.range k).map (fun j => (ix.take ((j + 1) * A)).drop (j * A)) := g1
        refine ⟨by omega, ?_, hlen, ?_⟩
        · rw [hfl, List.length_map, List.length_range]
        · rw [hfl, chunks_flatten _ _ _ g2, List.take_of_length_le (by rw [hil, Nat.mul_comm])]

/-- **C192**: the default wiring of a Discriminator whose RAMs divide the image evenly, with libstdc++'s shuffle. For every wiring
`M` (tuples of `A` pixels, every pixel used once) there is one sequence of remainders with which the constructor draws `M`, and
it draws it with no other, whatever the generator, the clock and the history of the process. (`reseed` is the state of the
generator after the constructor has seeded it.) -/
theorem C192_wiring {A k : Nat} {o : Options} (hm : o.mapping = []) (hi : o.indexes = []) {M : List (List Int)}
    (hA : ∀ m ∈ M, m.length = A) (hM : M.flatten.Perm (pixels (A * k))) :
    ∃ d : Nat → Nat, (∀ i < A * k - 1, d i < i + 2) ∧
      ∀ (S : Type) (srand : Nat → S) (rand : S → Nat × S) (now : Nat) (s : S) (e : Discriminator),
        (Discriminator.createG (stdRand S srand rand) now s A ((A * k : Nat) : Int) o).1 = .ok e →
        (e.mapping = M ↔ ∀ i < A * k - 1, drawn rand (reseed (stdRand S srand rand) now s 100000) i % (i + 2) = d i) := by
  have hnd : (pixels (A * k)).Nodup := List.nodup_range.map (fun a b h => by simpa using h)
  have hl : (pixels (A * k)).length = A * k := by simp [pixels]
  obtain ⟨d, h1, h2⟩ := C192_shuffle hnd hM
  rw [hl] at h1 h2
  refine ⟨d, h1, fun S srand rand now s e h => ?_⟩
  refine Iff.trans ?_ (h2 S srand rand (reseed (stdRand S srand rand) now s 100000))
  obtain ⟨hA0, hk, hlen, hflat⟩ := createG_flat _ now s hm hi h
  refine Iff.trans ?_ (Eq.congr_left hflat.symm).symm
  constructor
  · rintro rfl; rfl
  · intro hh
    have hML : M.length = k := by
      have e1 := hM.length_eq
      rw [hl, List.length_flatten, List.map_eq_replicate_iff.mpr hA, List.sum_replicate_nat, Nat.mul_comm A k] at e1
      exact Nat.eq_of_mul_eq_mul_right hA0 e1
    refine List.eq_iff_flatten_eq.mpr ⟨hh, ?_⟩
    rw [List.map_eq_replicate_iff.mpr hA, List.map_eq_replicate_iff.mpr hlen, hML, hk]

/-- A generator that returns the numbers of a list one after the other, and then zeros; seeding starts it again. -/
def listRand (xs : List Nat) : CRand := stdRand (List Nat) (fun _ => xs) (fun l => (l.headD 0, l.tail))

/-- Three values: the six sequences of remainders give the six orderings. -/
example : (([0, 1].flatMap fun a => [0, 1, 2].map fun b => ((listRand []).shuffle [a, b] [7, 8, 9]).1)) =
    [[9, 7, 8], [8, 9, 7], [8, 7, 9], [9, 8, 7], [7, 9, 8], [7, 8, 9]] := by decide +kernel

/-- The hypotheses of `C192_wiring` are met, and the constructor draws the wiring. -/
example : (∀ m ∈ [[2, 0], [1, 3]], m.length = 2) ∧ ([[2, 0], [1, 3]] : List (List Int)).flatten.Perm (pixels (2 * 2)) ∧
    ∃ e, (Discriminator.createG (stdRand (List Nat) (fun _ => [4, 0, 2, 3, 5]) (fun l => (l.headD 0, l.tail))) 7 [] (2 : Nat) ((2 * 2 : Nat) : Int) {}).1 = .ok e :=
  ⟨by decide, by decide, by
    obtain ⟨rnd, h⟩ := createG_eq (stdRand (List Nat) (fun _ => [4, 0, 2, 3, 5]) (fun l => (l.headD 0, l.tail))) 7 [] (2 : Nat) ((2 * 2 : Nat) : Int) {}
    obtain ⟨e, he⟩ := (C18_default_wiring rnd 2 (2 * 2) {} rfl rfl).1 (by decide) (by decide) (by decide) (by decide) (by decide)
    exact ⟨e, h.trans he⟩⟩

end Wis
