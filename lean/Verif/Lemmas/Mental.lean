import Verif.Lemmas.Discriminator
import Mathlib.Data.List.Induction
/-! Helper lemmas: legal histories and mental images. -/

namespace Wis
open Spec

/-! ## Same images -/

theorem Spec.Same.refl (x : Image) : Same x x := ⟨rfl, fun _ _ => rfl⟩
theorem Spec.Same.symm {x y : Image} (h : Same x y) : Same y x :=
  ⟨h.1.symm, fun i hi => (h.2 i (by rw [h.1]; exact hi)).symm⟩
theorem Spec.Same.trans {x y z : Image} (h1 : Same x y) (h2 : Same y z) : Same x z :=
  ⟨h1.1.trans h2.1, fun i hi => (h1.2 i hi).trans (h2.2 i (by rw [← h1.1]; exact hi))⟩

theorem Spec.Same.read {x y : Image} (h : Same x y) {a : Int} (h0 : 0 ≤ a) (h1 : a < x.size) :
    x.read a = y.read a := by
  have := h.2 a.toNat (by omega)
  rwa [Int.toNat_of_nonneg h0] at this

theorem Spec.Same.agree {n : Int} {x y y' : Image} (h : Same y y') {as : List Int}
    (ha : ∀ a ∈ as, 0 ≤ a ∧ a < n) (hn : (y.size : Int) = n) : Agree as x y ↔ Agree as x y' := by
  unfold Agree
  constructor
  · intro hh a hm
    rw [hh a hm, h.read (ha a hm).1 (by have := ha a hm; omega)]
  · intro hh a hm
    rw [hh a hm, h.read (ha a hm).1 (by have := ha a hm; omega)]

/-! ## Legal histories -/

theorem Spec.Legal.prefix {ops : List Op} {o : Op} (h : Legal (ops ++ [o])) : Legal ops := by
  intro pre img post he
  exact h pre img (post ++ [o]) (by rw [he]; simp)

theorem legal_trains (imgs : List Image) : Legal (imgs.map Op.train) := by
  intro pre img post he
  exfalso
  have : Op.untrain img ∈ imgs.map Op.train := by rw [he]; simp
  simp at this

theorem countP_erase' (P : Image → Bool) (M : List Image) (z : Image) (hz : z ∈ M) :
    ((M.erase z).countP P : Int) = M.countP P - if P z then 1 else 0 := by
  have hp := List.perm_cons_erase hz
  have := hp.countP_eq P
  rw [List.countP_cons] at this
  split at this <;> rename_i h <;> simp [h] <;> omega

/-- A legal history behaves like a bag of images. -/
theorem legal_bag (ops : List Op) (h : Legal ops) : ∃ M : List Image, ∀ P : Image → Bool,
    (∀ a b, Same a b → P a = P b) → net (ops.filter (fun o => P o.img)) = M.countP P := by
  induction ops using List.reverseRecOn with
  | nil => exact ⟨[], fun P _ => by simp [net]⟩
  | append_singleton ops o ih =>
    obtain ⟨M, hM⟩ := ih h.prefix
    cases o with
    | train y =>
      refine ⟨y :: M, fun P hP => ?_⟩
      rw [List.filter_append, net_append, hM P hP, List.countP_cons]
      by_cases hy : P y <;> simp [hy, Op.img, net]
    | untrain y =>
      have hpos := h ops y [] rfl
      have hc : ∀ a b, Same a b → decide (Same y a) = decide (Same y b) := by
        intro a b hab
        rw [decide_eq_decide]
        exact ⟨fun e => e.trans hab, fun e => e.trans hab.symm⟩
      have hMs := hM (fun z => decide (Same y z)) hc
      rw [hMs] at hpos
      have : 0 < M.countP (fun z => decide (Same y z)) := by omega
      obtain ⟨z, hz, hs⟩ := List.countP_pos_iff.mp this
      have hs : Same y z := by simpa using hs
      refine ⟨M.erase z, fun P hP => ?_⟩
      rw [List.filter_append, net_append, hM P hP, countP_erase' P M z hz, ← hP y z hs]
      by_cases hy : P y <;> simp [hy, Op.img, net] <;> omega

/-- In a legal history, the calls satisfying a predicate that does not distinguish same images start with a
training, and their net count is not negative. -/
theorem legal_pred {n : Int} {ops : List Op} (h : Legal ops) (hv : ∀ o ∈ ops, (o.img.size : Int) = n)
    (Q : Image → Bool) (hQ : ∀ a b : Image, (a.size : Int) = n → Same a b → Q a = Q b) :
    (ops.filter (fun o => Q o.img)).dropWhile (fun o => !o.isTrain) = ops.filter (fun o => Q o.img) ∧
      0 ≤ net (ops.filter (fun o => Q o.img)) := by
  constructor
  · cases hm : ops.filter (fun o => Q o.img) with
    | nil => rfl
    | cons o rest =>
      cases o with
      | train i => rfl
      | untrain img =>
        exfalso
        rw [List.filter_eq_cons_iff] at hm
        obtain ⟨l1, l2, he, h1, h2, _⟩ := hm
        have hpos := h l1 img l2 he
        have hvi : (img.size : Int) = n := hv (.untrain img) (by rw [he]; simp)
        have hnil : l1.filter (fun o => decide (Same img o.img)) = [] := by
          rw [List.filter_eq_nil_iff]
          intro o ho hs
          have hs : Same img o.img := by simpa using hs
          have := hQ _ _ hvi hs
          exact h1 o ho (by rw [← this]; exact h2)
        rw [hnil] at hpos
        simp [net] at hpos
  · obtain ⟨M, hM⟩ := legal_bag ops h
    have := hM (fun y => decide ((y.size : Int) = n) && Q y) (by
      intro a b hab
      by_cases hn : (a.size : Int) = n
      · have hb : (b.size : Int) = n := by rw [← hab.1]; exact hn
        simp only [hn, hb, decide_true, Bool.true_and]
        exact hQ _ _ hn hab
      · have hb : ¬ (b.size : Int) = n := by rw [← hab.1]; exact hn
        simp [hn, hb])
    have hm : ops.filter (fun o => Q o.img) = ops.filter (fun o => decide ((o.img.size : Int) = n) && Q o.img) := by
      apply List.filter_congr
      intro o ho
      simp [hv o ho]
    rw [hm, this]
    omega

/-- In a legal history the vote is simply trainings minus untrainings, and not negative. -/
theorem legal_vote {n base : Int} {ops : List Op} (h : Legal ops)
    (hv : ∀ o ∈ ops, ValidImage n base o.img) {as : List Int} (ha : ∀ a ∈ as, 0 ≤ a ∧ a < n)
    (x : Image) : vote as ops x = net (matching as x ops) ∧ 0 ≤ net (matching as x ops) := by
  have := legal_pred h (fun o ho => (hv o ho).1) (fun y => decide (Agree as x y)) (by
    intro a b hn hab
    rw [decide_eq_decide]
    exact hab.agree ha hn)
  refine ⟨?_, this.2⟩
  unfold vote matching
  rw [this.1]

theorem net_filter_trains (P : Image → Bool) (imgs : List Image) :
    net ((imgs.map Op.train).filter (fun o => P o.img)) = (imgs.filter P).length := by
  induction imgs with
  | nil => rfl
  | cons i imgs ih =>
    simp only [List.map_cons, List.filter_cons]
    have e : (Op.train i).img = i := rfl
    rw [e]
    by_cases h : P i
    · rw [if_pos h, if_pos h, net, ih]; simp
    · rw [if_neg h, if_neg h, ih]

theorem vote_trains {n base : Int} {imgs : List Image} (hv : ∀ i ∈ imgs, ValidImage n base i)
    {as : List Int} (ha : ∀ a ∈ as, 0 ≤ a ∧ a < n) (x : Image) :
    vote as (imgs.map Op.train) x = matchCount as imgs x := by
  have := (legal_vote (n := n) (base := base) (legal_trains imgs) (by
    intro o ho
    obtain ⟨i, hi, rfl⟩ := List.mem_map.mp ho
    exact hv i hi) ha x).1
  rw [this]
  unfold matching matchCount
  exact net_filter_trains (fun y => decide (Agree as x y)) imgs

/-! ## Mental image of one RAM -/

/-- Digit `j` of a narrowed address. -/
def dig (base : Int) : Nat → Int → Int
  | 0, z => z.tmod base
  | j + 1, z => dig base j (z.tdiv base)

theorem baseDigits_eq {base : Int} (hb : 1 ≤ base) (n : Nat) (z : Int) :
    Ram.baseDigits base n z = .ok ((List.range n).map (fun j => dig base j z)) := by
  induction n generalizing z with
  | zero => rfl
  | succ n ih =>
    simp only [Ram.baseDigits, show base ≠ 0 by omega, show ¬ (base = -1 ∧ z = -2147483648) by omega, if_false, ih, Except.bind_ok, List.range_succ_eq_map, List.map_cons,
      List.map_map]
    rfl

theorem i32_eq {x : Int} (h0 : 0 ≤ x) : i32 x = if x ≤ 2147483647 then .ok x else .error (.ub .overflow) := by
  by_cases h : x ≤ 2147483647
  · rw [if_pos h, i32_ok (by omega)]
  · have : ¬ InI32 x := by unfold InI32; omega
    unfold i32
    rw [if_neg h, if_neg this]

theorem addPiece_eq (c : Int) (hc : 0 ≤ c) (f g : Nat → Int) (l : List Nat) (hf : ∀ j ∈ l, 0 ≤ f j) :
    Ram.addPiece c (l.map f) (l.map g) =
      if ∀ j ∈ l, 0 < g j → f j + c ≤ 2147483647 then
        .ok (l.map (fun j => f j + if 0 < g j then c else 0))
      else .error (.ub .overflow) := by
  induction l with
  | nil => simp [Ram.addPiece]
  | cons j l ih =>
    have ih := ih (fun j hj => hf j (List.mem_cons_of_mem _ hj))
    have h0 := hf j (by simp)
    simp only [List.map_cons, Ram.addPiece]
    by_cases hg : 0 < g j
    · rw [if_pos hg, i32_eq (by omega)]
      by_cases hle : f j + c ≤ 2147483647
      · rw [if_pos hle, Except.bind_ok, ih]
        by_cases hall : ∀ j ∈ l, 0 < g j → f j + c ≤ 2147483647
        · rw [if_pos hall, if_pos (by simp; exact ⟨fun _ => hle, hall⟩)]
          simp [Except.bind_ok, hg]
        · rw [if_neg hall, if_neg (by simp only [List.forall_mem_cons]; exact fun h => hall h.2)]
          rfl
      · rw [if_neg hle, if_neg (by simp only [List.forall_mem_cons]; exact fun h => hle (h.1 hg))]
        rfl
    · rw [if_neg hg, Except.bind_ok, ih]
      by_cases hall : ∀ j ∈ l, 0 < g j → f j + c ≤ 2147483647
      · rw [if_pos hall, if_pos (by simp only [List.forall_mem_cons]; exact ⟨fun h => absurd h hg, hall⟩)]
        simp [Except.bind_ok, hg]
      · rw [if_neg hall, if_neg (by simp only [List.forall_mem_cons]; exact fun h => hall h.2)]
        rfl

/-- Whether the pixel at wire `j` is on in the pattern of address `k`. -/
def digitOn (base : Int) (j : Nat) (k : Addr) : Bool := decide (0 < dig base j (k.setWidth 32).toInt)

theorem dig_zero (base : Int) (j : Nat) : dig base j 0 = 0 := by
  induction j with
  | zero => simp [dig]
  | succ j ih => simp [dig, ih]

theorem mentalLoop_eq (r : Ram) (hb : 1 ≤ r.base) (es : RamT) : ∀ (f : Nat → Int),
    (∀ e ∈ es, 0 ≤ e.2) → (∀ j ∈ List.range r.addresses.length, 0 ≤ f j ∧ f j ≤ 2147483647) →
    r.mentalLoop es ((List.range r.addresses.length).map f) =
      if ∀ j ∈ List.range r.addresses.length, f j + RamT.wsum (digitOn r.base j) es ≤ 2147483647 then
        .ok ((List.range r.addresses.length).map (fun j => f j + RamT.wsum (digitOn r.base j) es))
      else .error (.ub .overflow) := by
  induction es with
  | nil =>
    intro f _ hf
    have : ∀ j, RamT.wsum (digitOn r.base j) [] = 0 := fun j => rfl
    simp only [Ram.mentalLoop, this, Int.add_zero]
    rw [if_pos (fun j hj => (hf j hj).2)]
  | cons e es ih =>
    intro f he hf
    obtain ⟨k, c⟩ := e
    have hc : 0 ≤ c := he (k, c) (by simp)
    have he' : ∀ e ∈ es, 0 ≤ e.2 := fun e h => he e (List.mem_cons_of_mem _ h)
    have hw : ∀ j, RamT.wsum (digitOn r.base j) ((k, c) :: es) =
        (if digitOn r.base j k then c else 0) + RamT.wsum (digitOn r.base j) es := by
      intro j; simp [RamT.wsum]
    have hnn : ∀ j, 0 ≤ RamT.wsum (digitOn r.base j) es := by
      intro j
      unfold RamT.wsum
      apply List.sum_nonneg
      intro x hx
      obtain ⟨e, h1, rfl⟩ := List.mem_map.mp hx
      have := he' e h1
      split <;> omega
    by_cases hk : k = 0
    · subst hk
      simp only [Ram.mentalLoop, if_true]
      rw [ih f he' hf]
      have hz : ∀ j, digitOn r.base j 0 = false := by
        intro j
        unfold digitOn
        have : (BitVec.setWidth 32 (0 : Addr)).toInt = 0 := by decide
        rw [this, dig_zero]; decide
      simp only [hw, hz, Bool.false_eq_true, if_false, Int.zero_add]
    · simp only [Ram.mentalLoop, hk, if_false, Ram.convertToBase, baseDigits_eq hb, Except.bind_ok]
      rw [addPiece_eq c hc f _ _ (fun j hj => (hf j hj).1)]
      by_cases hall : ∀ j ∈ List.range r.addresses.length,
          0 < dig r.base j (BitVec.setWidth 32 k).toInt → f j + c ≤ 2147483647
      · rw [if_pos hall, Except.bind_ok]
        rw [ih _ he' (by
          intro j hj
          have := hf j hj
          have h2 := hall j hj
          split
          · rename_i h3; have := h2 h3; omega
          · omega)]
        simp only [hw, digitOn, decide_eq_true_eq, Int.add_assoc]
      · rw [if_neg hall, Except.bind_error, if_neg]
        intro hcon
        apply hall
        intro j hj hd
        have := hcon j hj
        rw [hw] at this
        have h2 := hnn j
        have hon : digitOn r.base j k = true := decide_eq_true hd
        rw [hon, if_pos rfl] at this
        omega

/-- Values of the mental piece of a RAM. -/
def mentalVals (r : Ram) : List Int :=
  (List.range r.addresses.length).map (fun j => RamT.wsum (digitOn r.base j) r.positions)

theorem ramMental_eq (r : Ram) (hb : 1 ≤ r.base) (hn : ∀ e ∈ r.positions, 0 ≤ e.2) (it : IterOrder) :
    r.getMentalImage it =
      if ∀ v ∈ mentalVals r, v ≤ 2147483647 then .ok (r.addresses.zip (mentalVals r))
      else .error (.ub .overflow) := by
  unfold Ram.getMentalImage
  have hrep : List.replicate r.addresses.length (0 : Int) = (List.range r.addresses.length).map (fun _ => 0) := by
    simp
  rw [hrep, mentalLoop_eq r hb _ _ (fun e he => hn e ((it.perm _).mem_iff.mp he)) (by simp)]
  have hp : ∀ j, RamT.wsum (digitOn r.base j) (it.ord r.positions) =
      RamT.wsum (digitOn r.base j) r.positions := fun j => RamT.wsum_perm _ (it.perm _)
  simp only [hp, Int.zero_add]
  by_cases h : ∀ v ∈ mentalVals r, v ≤ 2147483647
  · rw [if_pos h, if_pos (by
      intro j hj
      exact h _ (List.mem_map.mpr ⟨j, hj, rfl⟩))]
    rfl
  · rw [if_neg h, if_neg]
    · rfl
    · intro hh
      apply h
      intro v hv
      obtain ⟨j, hj, rfl⟩ := List.mem_map.mp hv
      exact hh j hj

/-! ## Mental image of a discriminator -/

/-- Total contributed to position `i`. -/
def psum (i : Nat) (ps : List (Int × Int)) : Int :=
  (ps.map (fun p => if p.1 = (i : Int) then p.2 else 0)).sum

theorem psum_nonneg (i : Nat) (ps : List (Int × Int)) (h : ∀ p ∈ ps, 0 ≤ p.2) : 0 ≤ psum i ps := by
  unfold psum
  apply List.sum_nonneg
  intro x hx
  obtain ⟨e, h1, rfl⟩ := List.mem_map.mp hx
  have := h e h1
  split <;> omega

theorem addPieces_ok (n : Nat) (ps : List (Int × Int)) : ∀ (m : List Int), m.length = n →
    (∀ p ∈ ps, 0 ≤ p.1 ∧ p.1 < n ∧ 0 ≤ p.2) → (∀ i (h : i < m.length), 0 ≤ m[i]) →
    (∀ i (h : i < m.length), m[i] + psum i ps ≤ 2147483647) →
    ∃ m', Discriminator.addPieces ps m = .ok m' ∧ ∃ hl : m'.length = m.length,
      ∀ i (h : i < m.length), m'[i] = m[i] + psum i ps := by
  induction ps with
  | nil => intro m hm _ _ _; exact ⟨m, rfl, rfl, fun i h => by simp [psum]⟩
  | cons p ps ih =>
    intro m hm hp h0 hb
    obtain ⟨a, v⟩ := p
    obtain ⟨h1, h2, h3⟩ := hp (a, v) (by simp)
    have hps : ∀ p ∈ ps, 0 ≤ p.1 ∧ p.1 < n ∧ 0 ≤ p.2 := fun p h => hp p (List.mem_cons_of_mem _ h)
    have ha : a.toNat < m.length := by omega
    have hcons : ∀ i, psum i ((a, v) :: ps) = (if a = (i : Int) then v else 0) + psum i ps := by
      intro i; simp [psum]
    have hnn : ∀ i, 0 ≤ psum i ps := fun i => psum_nonneg i ps (fun p h => (hps p h).2.2)
    have hle := hb a.toNat ha
    rw [hcons, if_pos (by omega)] at hle
    have h0a := h0 a.toNat ha
    have hna := hnn a.toNat
    simp only [Discriminator.addPieces]
    rw [if_neg (by omega), List.getElem?_eq_getElem ha]
    simp only
    rw [i32_ok (by omega), Except.bind_ok]
    have hset : ∀ i (h : i < m.length), (m.set a.toNat (m[a.toNat] + v))[i]'(by simpa using h) =
        m[i] + if a = (i : Int) then v else 0 := by
      intro i h
      rw [List.getElem_set]
      by_cases he : a.toNat = i
      · subst he
        rw [if_pos rfl, if_pos (by omega)]
      · rw [if_neg he, if_neg (by omega)]; omega
    obtain ⟨m', e1, e2, e3⟩ := ih (m.set a.toNat (m[a.toNat] + v)) (by simpa using hm) hps (by
      intro i h
      have h : i < m.length := by simpa using h
      rw [hset i h]
      have := h0 i h
      split <;> omega) (by
      intro i h
      have h : i < m.length := by simpa using h
      rw [hset i h]
      have := hb i h
      rw [hcons] at this
      omega)
    have e2' : m'.length = m.length := by simpa using e2
    refine ⟨m', e1, e2', ?_⟩
    intro i h
    have := e3 i (by simpa using h)
    rw [this, hset i h, hcons]
    omega

/-- The pieces of a RAM, as a pure function. -/
def pieces (r : Ram) : List (Int × Int) := r.addresses.zip (mentalVals r)

theorem psum_append (i : Nat) (a b : List (Int × Int)) : psum i (a ++ b) = psum i a + psum i b := by
  simp [psum]

theorem dmental_ok (it : IterOrder) (n : Nat) (rs : List Ram) : ∀ (m : List Int), m.length = n →
    (∀ r ∈ rs, 1 ≤ r.base ∧ (∀ e ∈ r.positions, 0 ≤ e.2) ∧ (∀ v ∈ mentalVals r, 0 ≤ v ∧ v ≤ 2147483647) ∧
      ∀ a ∈ r.addresses, 0 ≤ a ∧ a < n) →
    (∀ i (h : i < m.length), 0 ≤ m[i]) →
    (∀ i (h : i < m.length), m[i] + psum i (rs.flatMap pieces) ≤ 2147483647) →
    ∃ m', Discriminator.mentalLoop it rs m = .ok m' ∧ ∃ hl : m'.length = m.length,
      ∀ i (h : i < m.length), m'[i] = m[i] + psum i (rs.flatMap pieces) := by
  induction rs with
  | nil => intro m hm _ _ _; exact ⟨m, rfl, rfl, fun i h => by simp [psum]⟩
  | cons r rs ih =>
    intro m hm hr h0 hb
    obtain ⟨r1, r2, r3, r4⟩ := hr r (by simp)
    have hpv : ∀ (r : Ram), (∀ v ∈ mentalVals r, 0 ≤ v ∧ v ≤ 2147483647) →
        (∀ a ∈ r.addresses, 0 ≤ a ∧ a < (n : Int)) → ∀ p ∈ pieces r, 0 ≤ p.1 ∧ p.1 < n ∧ 0 ≤ p.2 := by
      intro r r3 r4 p hp
      obtain ⟨h1, h2⟩ := List.of_mem_zip hp
      exact ⟨(r4 _ h1).1, (r4 _ h1).2, (r3 _ h2).1⟩
    have hrest : ∀ i, 0 ≤ psum i (rs.flatMap pieces) := by
      intro i
      apply psum_nonneg
      intro p hp
      obtain ⟨r', h1, h2⟩ := List.mem_flatMap.mp hp
      have := hr r' (List.mem_cons_of_mem _ h1)
      exact (hpv r' this.2.2.1 this.2.2.2 p h2).2.2
    obtain ⟨m1, e1, e2, e3⟩ := addPieces_ok n (pieces r) m hm (hpv r r3 r4) h0 (by
      intro i h
      have := hb i h
      rw [List.flatMap_cons, psum_append] at this
      have := hrest i
      omega)
    simp only [Discriminator.mentalLoop]
    rw [ramMental_eq r r1 r2 it, if_pos (fun v hv => (r3 v hv).2), Except.bind_ok]
    rw [show r.addresses.zip (mentalVals r) = pieces r from rfl, e1, Except.bind_ok]
    obtain ⟨m2, f1, f2, f3⟩ := ih m1 (by rw [e2, hm]) (fun r h => hr r (List.mem_cons_of_mem _ h)) (by
      intro i h
      have h' : i < m.length := by omega
      rw [e3 i h']
      have := psum_nonneg i (pieces r) (fun p hp => (hpv r r3 r4 p hp).2.2)
      have := h0 i h'
      omega) (by
      intro i h
      have h' : i < m.length := by omega
      rw [e3 i h']
      have := hb i h'
      rw [List.flatMap_cons, psum_append] at this
      omega)
    refine ⟨m2, f1, by rw [f2, e2], ?_⟩
    intro i h
    rw [f3 i (by omega), e3 i h, List.flatMap_cons, psum_append]
    omega

/-! ## Mental image as a function of the history -/

theorem sum_single {K : List Addr} (hn : K.Nodup) (P : Addr → Bool) (k0 : Addr) (hk : k0 ∈ K) (δ : Int) :
    (K.map (fun k => if P k then (if k0 = k then δ else 0) else 0)).sum = if P k0 then δ else 0 := by
  induction K with
  | nil => simp at hk
  | cons k K ih =>
    simp only [List.nodup_cons] at hn
    simp only [List.map_cons, List.sum_cons]
    by_cases h : k0 = k
    · subst h
      have hz : (K.map (fun k => if P k then (if k0 = k then δ else 0) else 0)).sum = 0 := by
        apply List.sum_eq_zero
        intro x hx
        obtain ⟨k, h1, rfl⟩ := List.mem_map.mp hx
        have : k0 ≠ k := fun e => hn.1 (e ▸ h1)
        simp [this]
      rw [hz]; simp
    · rw [ih hn.2 (by simpa [h] using hk)]
      simp [h]

theorem sum_exchange {K : List Addr} (hn : K.Nodup) (P : Addr → Bool) (κ : Op → Addr) (ops : List Op)
    (hk : ∀ o ∈ ops, κ o ∈ K) :
    (K.map (fun k => if P k then net (ops.filter (fun o => decide (κ o = k))) else 0)).sum =
      net (ops.filter (fun o => P (κ o))) := by
  induction ops with
  | nil =>
    simp only [List.filter_nil, net, ite_self]
    apply List.sum_eq_zero
    intro x hx
    obtain ⟨k, _, rfl⟩ := List.mem_map.mp hx
    rfl
  | cons o ops ih =>
    have ih := ih (fun o h => hk o (List.mem_cons_of_mem _ h))
    have hd : ∃ δ : Int, ∀ l, net (o :: l) = net l + δ := by
      cases o with
      | train i => exact ⟨1, fun l => rfl⟩
      | untrain i => exact ⟨-1, fun l => rfl⟩
    obtain ⟨δ, hδ⟩ := hd
    have h1 : ∀ k, (if P k then net ((o :: ops).filter (fun o => decide (κ o = k))) else 0) =
        (if P k then net (ops.filter (fun o => decide (κ o = k))) else 0) +
        (if P k then (if κ o = k then δ else 0) else 0) := by
      intro k
      by_cases hp : P k
      · simp only [hp, if_true]
        by_cases he : κ o = k
        · rw [List.filter_cons_of_pos (by simpa using he), hδ, if_pos he]
        · rw [List.filter_cons_of_neg (by simpa using he), if_neg he]; omega
      · simp [hp]
    simp only [h1]
    rw [List.sum_map_add, ih, sum_single hn P (κ o) (hk o (by simp))]
    by_cases hp : P (κ o)
    · rw [List.filter_cons_of_pos (by simpa using hp), hδ, if_pos hp]
    · rw [List.filter_cons_of_neg (by simpa using hp), if_neg hp]; omega

theorem key_same {n base : Int} {as : List Int} (ha : ∀ a ∈ as, 0 ≤ a ∧ a < n) {a b : Image}
    (hn : (a.size : Int) = n) (h : Same a b) : key base as a = key base as b := by
  have : readVals a as = readVals b as := by
    unfold readVals
    apply List.map_congr_left
    intro p hp
    rw [h.read (ha p hp).1 (by have := ha p hp; omega)]
  unfold key
  rw [this]

/-- Counters after a legal history. -/
theorem legal_positions {n : Int} {r0 r : Ram} {ops : List Op} (h : RamRep n r0 r ops)
    (hin : InsideRam n r0) (hl : Legal ops) (hv : ∀ o ∈ ops, (o.img.size : Int) = n) :
    (∀ e ∈ r.positions, 0 ≤ e.2) ∧
    ∀ P : Addr → Bool, RamT.wsum P r.positions =
      net (ops.filter (fun o => P (key r0.base r0.addresses o.img))) := by
  have hp := fun k => legal_pred hl hv (fun y => decide (key r0.base r0.addresses y = k)) (by
    intro a b hn hab
    rw [key_same hin hn hab])
  have hval : ∀ e ∈ r.positions, e.2 = net (ops.filter (fun o => decide (key r0.base r0.addresses o.img = e.1))) := by
    intro e he
    have h1 := RamT.find_of_mem h.nodup (k := e.1) (c := e.2) he
    have h2 := h.find e.1
    have h3 := cell_getD (ops.filter (fun o => decide (key r0.base r0.addresses o.img = e.1)))
    rw [(hp e.1).1, ← h2, h1] at h3
    exact h3
  constructor
  · intro e he
    rw [hval e he]
    exact (hp e.1).2
  · intro P
    have hmem : ∀ o ∈ ops, key r0.base r0.addresses o.img ∈ r.positions.keys := by
      intro o ho
      by_contra hno
      have h1 := (RamT.find_none_iff _ _).mpr hno
      rw [h.find, cell_eq] at h1
      split at h1
      · simp at h1
      · rename_i hany
        have h2 := (hp (key r0.base r0.addresses o.img)).1
        rw [dropWhile_all _ (by simpa using hany)] at h2
        have : o ∈ ops.filter (fun o' => decide (key r0.base r0.addresses o'.img = key r0.base r0.addresses o.img)) := by
          simp [ho]
        rw [← h2] at this
        simp at this
    rw [← sum_exchange h.nodup P (fun o => key r0.base r0.addresses o.img) ops hmem]
    unfold RamT.wsum RamT.keys
    rw [List.map_map]
    congr 1
    apply List.map_congr_left
    intro e he
    simp only [Function.comp]
    rw [hval e he]

theorem dig_dval {base : Int} (hb : 1 ≤ base) (vs : List Int) (hv : ∀ v ∈ vs, 0 ≤ v ∧ v < base) :
    ∀ j (h : j < vs.length), dig base j (dval base vs) = vs[j] := by
  induction vs with
  | nil => intro j h; simp at h
  | cons v vs ih =>
    intro j h
    have h1 := (dval_bound hb (v :: vs) hv).1
    obtain ⟨e1, e2⟩ := dval_emod (hv v (by simp)) vs
    cases j with
    | zero =>
      simp only [dig, List.getElem_cons_zero]
      rw [Int.tmod_eq_emod_of_nonneg h1, e1]
    | succ j =>
      simp only [dig, List.getElem_cons_succ]
      rw [Int.tdiv_eq_ediv_of_nonneg h1, e2]
      exact ih (fun x hx => hv x (List.mem_cons_of_mem _ hx)) j (by simpa using h)

theorem narrow_ofInt {z : Int} (h0 : 0 ≤ z) (h1 : z < 2 ^ 31) :
    ((BitVec.ofInt 64 z).setWidth 32).toInt = z := by
  have e : (BitVec.ofInt 64 z).toNat = z.toNat := by
    have := toNat_ofInt h0 (by omega)
    omega
  rw [BitVec.toInt_eq_toNat_of_lt]
  · rw [BitVec.toNat_setWidth, e]
    have : z.toNat % 2 ^ 32 = z.toNat := Nat.mod_eq_of_lt (by omega)
    omega
  · rw [BitVec.toNat_setWidth, e]
    have : z.toNat % 2 ^ 32 = z.toNat := Nat.mod_eq_of_lt (by omega)
    omega

theorem digitOn_key {n base : Int} (hb : 2 ≤ base) {x : Image} (hx : ValidImage n base x) {as : List Int}
    (ha : ∀ a ∈ as, 0 ≤ a ∧ a < n) (hfit : base ^ as.length ≤ 2 ^ 31) (j : Nat) (hj : j < as.length) :
    digitOn base j (key base as x) = decide (NonZeroAt as[j] x) := by
  obtain ⟨h1, h2⟩ := readVals_spec hx ha
  obtain ⟨a1, a2⟩ := dval_bound (by omega) _ h2
  have l1 : (readVals x as).length = as.length := by simp [readVals]
  rw [l1] at a2
  unfold digitOn key
  rw [narrow_ofInt a1 (by omega), dig_dval (by omega) _ h2 j (by omega)]
  obtain ⟨v, r1, r2, _⟩ := read_of_valid hx (ha _ (List.getElem_mem hj))
  have : (readVals x as)[j]'(by omega) = v := by simp [readVals, r1]
  rw [this]
  rw [decide_eq_decide]
  unfold NonZeroAt
  rw [r1]
  simp only [ne_eq, Except.ok.injEq]
  omega

theorem mentalVals_rep {n : Int} {r0 r : Ram} {ops : List Op} (h : RamRep n r0 r ops)
    (hin : InsideRam n r0) (hb : 2 ≤ r0.base) (hfit : r0.base ^ r0.addresses.length ≤ 2 ^ 31)
    (hl : Legal ops) (hv : ∀ o ∈ ops, ValidImage n r0.base o.img) :
    mentalVals r = r0.addresses.map (fun a => net (ops.filter (fun o => decide (NonZeroAt a o.img)))) := by
  have hsum := (legal_positions h hin hl (fun o ho => (hv o ho).1)).2
  unfold mentalVals
  rw [h.addr, h.base]
  apply List.ext_getElem
  · simp
  · intro j h1 h2
    have hj : j < r0.addresses.length := by simpa using h1
    simp only [List.getElem_map, List.getElem_range]
    rw [hsum]
    congr 1
    apply List.filter_congr
    intro o ho
    exact digitOn_key hb (hv o ho) hin hfit j hj

theorem psum_map (i : Nat) (as : List Int) (N : Int → Int) :
    psum i (as.zip (as.map N)) = (as.count (i : Int) : Int) * N i := by
  induction as with
  | nil => simp [psum]
  | cons a as ih =>
    have : psum i ((a :: as).zip ((a :: as).map N)) = (if a = (i : Int) then N a else 0) + psum i (as.zip (as.map N)) := by
      simp [psum]
    rw [this, ih, List.count_cons]
    by_cases h : a = (i : Int)
    · subst h
      simp
      rw [Int.add_mul]; omega
    · simp [h]

theorem psum_rep {n : Int} {rs0 rs : List Ram} {ops : List Op} (N : Int → Int)
    (h : List.Forall₂ (fun r0 r => RamRep n r0 r ops) rs0 rs)
    (hm : ∀ r0 ∈ rs0, ∀ r, RamRep n r0 r ops → mentalVals r = r0.addresses.map N) (i : Nat) :
    psum i (rs.flatMap pieces) = ((rs0.map (·.addresses)).flatten.count (i : Int) : Int) * N i := by
  induction h with
  | nil => simp [psum]
  | @cons r0 r _ _ h1 _ ih =>
    rw [List.flatMap_cons, psum_append, ih (fun r0 h => hm r0 (List.mem_cons_of_mem _ h))]
    unfold pieces
    rw [hm r0 (by simp) r h1, h1.addr, psum_map]
    simp only [List.map_cons, List.flatten_cons, List.count_append]
    push_cast
    rw [Int.add_mul]

theorem net_filter_bound (ops : List Op) (Q : Op → Bool) : net (ops.filter Q) ≤ ops.length := by
  have h1 := net_bound (ops.filter Q)
  have h2 := List.length_filter_le Q ops
  omega

theorem forall₂_mem_right {α β : Type} {R : α → β → Prop} {l1 : List α} {l2 : List β}
    (h : List.Forall₂ R l1 l2) {b : β} (hb : b ∈ l2) : ∃ a ∈ l1, R a b := by
  induction h with
  | nil => simp at hb
  | @cons a b' _ _ h1 _ ih =>
    rcases List.mem_cons.mp hb with e | e
    · exact ⟨a, by simp, e ▸ h1⟩
    · obtain ⟨x, hx, hr⟩ := ih e
      exact ⟨x, by simp [hx], hr⟩

theorem mental_rep {n base : Int} {iz : Bool} {d0 d : Discriminator} {ops : List Op} (hf : Fresh d0 n base iz)
    (hin : WiredInside n d0.mapping) (h : DRep n d0 d ops) (hl : Legal ops) (hn : 0 ≤ n)
    (hv : ∀ o ∈ ops, ValidImage n base o.img) (hfit : ∀ m ∈ d0.mapping, base ^ m.length ≤ 2 ^ 31)
    (hlen : ops.length ≤ 2147483647)
    (hsum : ∀ i : Int, (d0.mapping.flatten.count i : Int) * ops.length ≤ 2147483647) (it : IterOrder) :
    ∃ m, d.getMentalImage it = .ok m ∧ ∃ hl : (m.length : Int) = n, ∀ i (h : i < m.length),
      m[i] = (d0.mapping.flatten.count (i : Int) : Int) *
        net (ops.filter (fun o => decide (NonZeroAt i o.img))) := by
  have hnn : ∀ a : Int, 0 ≤ a → a < n → 0 ≤ net (ops.filter (fun o => decide (NonZeroAt a o.img))) := by
    intro a h0 h1
    exact (legal_pred hl (fun o ho => (hv o ho).1) (fun y => decide (NonZeroAt a y)) (by
      intro x y hx hxy
      rw [decide_eq_decide]
      unfold NonZeroAt
      rw [hxy.read h0 (by omega)])).2
  have hmv : ∀ r0 ∈ d0.rams, ∀ r, RamRep n r0 r ops → mentalVals r = r0.addresses.map
      (fun a => net (ops.filter (fun o => decide (NonZeroAt a o.img)))) := by
    intro r0 hr0 r hr
    have hbase := (hf.rams r0 hr0).2.1
    exact mentalVals_rep hr (inside_of hin r0 hr0) (by rw [hbase]; exact hf.base2)
      (by rw [hbase]; exact hfit _ (List.mem_map.mpr ⟨r0, hr0, rfl⟩)) hl (by rw [hbase]; exact hv)
  have hps := psum_rep _ h.rams hmv
  unfold Discriminator.getMentalImage
  rw [if_neg (by rw [h.entry]; omega), h.entry]
  obtain ⟨m', e1, e2, e3⟩ := dmental_ok it n.toNat d.rams (List.replicate n.toNat 0) (by simp) (by
    intro r hr
    obtain ⟨r0, hr0, hrep⟩ := forall₂_mem_right h.rams hr
    have hbase := (hf.rams r0 hr0).2.1
    have hb2 := hf.base2
    refine ⟨by rw [hrep.base, hbase]; omega, ?_, ?_, ?_⟩
    · exact (legal_positions hrep (inside_of hin r0 hr0) hl (fun o ho => (hv o ho).1)).1
    · rw [hmv r0 hr0 r hrep]
      intro v hvm
      obtain ⟨a, ha, rfl⟩ := List.mem_map.mp hvm
      have hai := inside_of hin r0 hr0 a ha
      refine ⟨hnn a hai.1 hai.2, ?_⟩
      have := net_filter_bound ops (fun o => decide (NonZeroAt a o.img))
      omega
    · rw [hrep.addr]
      intro a ha
      have := inside_of hin r0 hr0 a ha
      omega) (by simp) (by
    intro i hi
    have hi' : (i : Int) < n := by simp at hi; omega
    rw [hps i]
    simp only [List.getElem_replicate, Int.zero_add]
    have h1 := net_filter_bound ops (fun o => decide (NonZeroAt (i : Int) o.img))
    have h2 := hsum (i : Int)
    have h3 : ((d0.mapping.flatten.count (i : Int) : Nat) : Int) *
        net (ops.filter (fun o => decide (NonZeroAt (i : Int) o.img))) ≤
        (d0.mapping.flatten.count (i : Int) : Int) * ops.length :=
      Int.mul_le_mul_of_nonneg_left h1 (by omega)
    unfold Discriminator.mapping at h2 h3
    omega)
  refine ⟨m', e1, by rw [e2]; simp; omega, ?_⟩
  intro i hi
  rw [e3 i (by omega), hps i]
  simp [Discriminator.mapping]

end Wis
