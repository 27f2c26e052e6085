import Verif.Spec.Json
import Verif.Lemmas.DiscState
import Verif.Lemmas.Mental
/-! Two discriminators whose RAMs hold the same contents (in another order) behave alike. -/

namespace Wis
open Spec

theorem RamT.mem_iff_find {m : RamT} (hn : m.keys.Nodup) (k : Addr) (c : Int) : (k, c) ∈ m ↔ m.find k = some c :=
  ⟨RamT.find_of_mem hn, RamT.mem_keys_of_find⟩

theorem RamT.nodup {m : RamT} (hn : m.keys.Nodup) : m.Nodup := List.Nodup.of_map _ hn

theorem RamT.perm_of_find {m m' : RamT} (hn : m.keys.Nodup) (hn' : m'.keys.Nodup)
    (h : ∀ k, m'.find k = m.find k) : m'.Perm m := by
  rw [List.perm_ext_iff_of_nodup (RamT.nodup hn') (RamT.nodup hn)]
  rintro ⟨k, c⟩
  rw [RamT.mem_iff_find hn, RamT.mem_iff_find hn', h]

/-- Same wiring and options, same contents. -/
structure RamSim (r r' : Ram) : Prop where
  addr : r'.addresses = r.addresses
  iz : r'.ignoreZero = r.ignoreZero
  base : r'.base = r.base
  base2 : 2 ≤ r.base
  nodup : r.positions.keys.Nodup
  nodup' : r'.positions.keys.Nodup
  find : ∀ k, r'.positions.find k = r.positions.find k

theorem RamSim.perm {r r' : Ram} (h : RamSim r r') : r'.positions.Perm r.positions :=
  RamT.perm_of_find h.nodup h.nodup' h.find

theorem RamSim.set {r r' : Ram} (h : RamSim r r') (k : Addr) (c : Int) :
    RamSim { r with positions := r.positions.set k c } { r' with positions := r'.positions.set k c } where
  addr := h.addr
  iz := h.iz
  base := h.base
  base2 := h.base2
  nodup := RamT.nodup_set h.nodup k c
  nodup' := RamT.nodup_set h.nodup' k c
  find k' := by simp only [RamT.find_set, h.find]

theorem RamSim.getIndex {r r' : Ram} (h : RamSim r r') (img : Image) : r'.getIndex img = r.getIndex img := by
  unfold Ram.getIndex; rw [h.base, h.addr]

theorem RamSim.getVote {r r' : Ram} (h : RamSim r r') (img : Image) : r'.getVote img = r.getVote img := by
  unfold Ram.getVote; rw [h.getIndex, h.iz]; simp only [h.find]

theorem RamSim.train {r r' : Ram} (h : RamSim r r') (img : Image) :
    RamSim (r.train img).1 (r'.train img).1 ∧ (r'.train img).2 = (r.train img).2 := by
  unfold Ram.train
  rw [h.getIndex]
  cases hg : r.getIndex img with
  | error e => exact ⟨h, rfl⟩
  | ok k =>
    simp only [h.find]
    cases hf : r.positions.find k with
    | none => exact ⟨h.set k 1, rfl⟩
    | some c =>
      simp only
      cases i32 (c + 1) with
      | error e => exact ⟨h, rfl⟩
      | ok c' => exact ⟨h.set k c', rfl⟩

theorem RamSim.untrain {r r' : Ram} (h : RamSim r r') (img : Image) :
    RamSim (r.untrain img).1 (r'.untrain img).1 ∧ (r'.untrain img).2 = (r.untrain img).2 := by
  unfold Ram.untrain
  rw [h.getIndex]
  cases hg : r.getIndex img with
  | error e => exact ⟨h, rfl⟩
  | ok k =>
    simp only [h.find]
    cases hf : r.positions.find k with
    | none => exact ⟨h, rfl⟩
    | some c =>
      simp only
      cases i32 (c - 1) with
      | error e => exact ⟨h, rfl⟩
      | ok c' => exact ⟨h.set k c', rfl⟩

theorem addPiece_inv (c : Int) (f g : Nat → Int) (l : List Nat) {vs : List Int}
    (h : Ram.addPiece c (l.map f) (l.map g) = .ok vs) :
    vs = l.map (fun j => if g j > 0 then f j + c else f j) := by
  induction l generalizing vs with
  | nil => simp [Ram.addPiece] at h; simp [h]
  | cons j l ih =>
    simp only [List.map_cons, Ram.addPiece] at h
    obtain ⟨v', h1, h⟩ := bind_eq_ok h
    obtain ⟨vs', h2, h⟩ := bind_eq_ok h
    simp only [Except.ok.injEq] at h
    subst h
    rw [ih h2, List.map_cons]
    congr 1
    split at h1
    · rename_i hg
      unfold i32 at h1
      split at h1
      · simp only [Except.ok.injEq] at h1; rw [if_pos hg]; exact h1.symm
      · cases h1
    · rename_i hg
      simp only [Except.ok.injEq] at h1
      rw [if_neg hg]; exact h1.symm

theorem baseDigits_inv {base : Int} (n : Nat) : ∀ {z : Int} {ds : List Int}, Ram.baseDigits base n z = .ok ds →
    ds = (List.range n).map (fun j => dig base j z) := by
  induction n with
  | zero => intro z ds h; simp only [Ram.baseDigits, Except.ok.injEq] at h; exact h.symm
  | succ n ih =>
    intro z ds h
    rw [Ram.baseDigits] at h
    split at h
    · cases h
    split at h
    · cases h
    obtain ⟨ds', h1, h⟩ := bind_eq_ok h
    simp only [Except.ok.injEq] at h
    rw [← h, ih h1, List.range_succ_eq_map, List.map_cons, List.map_map]
    rfl

theorem mentalLoop_inv (r : Ram) (es : RamT) : ∀ (f : Nat → Int) (vs : List Int),
    r.mentalLoop es ((List.range r.addresses.length).map f) = .ok vs →
    vs = (List.range r.addresses.length).map (fun j => f j + RamT.wsum (digitOn r.base j) es) := by
  induction es with
  | nil =>
    intro f vs h
    have : ∀ j, RamT.wsum (digitOn r.base j) [] = 0 := fun j => rfl
    simp only [Ram.mentalLoop, Except.ok.injEq] at h
    simp only [this, Int.add_zero]
    exact h.symm
  | cons e es ih =>
    intro f vs h
    obtain ⟨k, c⟩ := e
    have hw : ∀ j, RamT.wsum (digitOn r.base j) ((k, c) :: es) =
        (if digitOn r.base j k then c else 0) + RamT.wsum (digitOn r.base j) es := by
      intro j; simp [RamT.wsum]
    by_cases hk : k = 0
    · subst hk
      simp only [Ram.mentalLoop, if_true] at h
      have hz : ∀ j, digitOn r.base j 0 = false := by
        intro j
        unfold digitOn
        have : (BitVec.setWidth 32 (0 : Addr)).toInt = 0 := by decide
        rw [this, dig_zero]; decide
      simp only [hw, hz, Bool.false_eq_true, if_false, Int.zero_add]
      exact ih f vs h
    · simp only [Ram.mentalLoop, hk, if_false, Ram.convertToBase] at h
      obtain ⟨dgs, h0, h⟩ := bind_eq_ok h
      rw [baseDigits_inv _ h0] at h
      obtain ⟨vs', h1, h⟩ := bind_eq_ok h
      rw [addPiece_inv c f _ _ h1] at h
      rw [ih _ _ h]
      apply List.map_congr_left
      intro j _
      simp only [hw, digitOn, decide_eq_true_eq, gt_iff_lt]
      split <;> omega

theorem RamSim.mental {r r' : Ram} (h : RamSim r r') {it it' : IterOrder} {p p' : List (Int × Int)}
    (h1 : r.getMentalImage it = .ok p) (h2 : r'.getMentalImage it' = .ok p') : p' = p := by
  unfold Ram.getMentalImage at h1 h2
  obtain ⟨vs, h1, e1⟩ := bind_eq_ok h1
  obtain ⟨vs', h2, e2⟩ := bind_eq_ok h2
  simp only [Except.ok.injEq] at e1 e2
  have hrep : ∀ n, List.replicate n (0 : Int) = (List.range n).map (fun _ => 0) := by simp
  rw [hrep] at h1 h2
  have g1 := mentalLoop_inv r _ _ _ h1
  have g2 := mentalLoop_inv r' _ _ _ h2
  rw [← e1, ← e2, h.addr, g1, g2, h.addr, h.base]
  congr 1
  apply List.map_congr_left
  intro j _
  congr 1
  rw [RamT.wsum_perm _ (it.perm _), RamT.wsum_perm _ (it'.perm _), RamT.wsum_perm _ h.perm]

abbrev RamsSim := List.Forall₂ RamSim

theorem RamsSim.train {rs rs' : List Ram} (h : RamsSim rs rs') (img : Image) :
    RamsSim (Discriminator.trainRams img rs).1 (Discriminator.trainRams img rs').1 ∧
    (Discriminator.trainRams img rs').2 = (Discriminator.trainRams img rs).2 := by
  induction h with
  | nil => exact ⟨.nil, rfl⟩
  | @cons r r' rs rs' h1 h2 ih =>
    obtain ⟨a, b⟩ := h1.train img
    simp only [Discriminator.trainRams]
    rcases hr : r.train img with ⟨s, _ | _⟩ <;> rcases hr' : r'.train img with ⟨s', _ | _⟩ <;>
      rw [hr, hr'] at a b <;> simp only at a b
    · cases b; exact ⟨.cons a h2, rfl⟩
    · cases b
    · cases b
    · exact ⟨.cons a ih.1, ih.2⟩

theorem RamsSim.untrain {rs rs' : List Ram} (h : RamsSim rs rs') (img : Image) :
    RamsSim (Discriminator.untrainRams img rs).1 (Discriminator.untrainRams img rs').1 ∧
    (Discriminator.untrainRams img rs').2 = (Discriminator.untrainRams img rs).2 := by
  induction h with
  | nil => exact ⟨.nil, rfl⟩
  | @cons r r' rs rs' h1 h2 ih =>
    obtain ⟨a, b⟩ := h1.untrain img
    simp only [Discriminator.untrainRams]
    rcases hr : r.untrain img with ⟨s, _ | _⟩ <;> rcases hr' : r'.untrain img with ⟨s', _ | _⟩ <;>
      rw [hr, hr'] at a b <;> simp only at a b
    · cases b; exact ⟨.cons a h2, rfl⟩
    · cases b
    · cases b
    · exact ⟨.cons a ih.1, ih.2⟩

theorem RamsSim.votes {rs rs' : List Ram} (h : RamsSim rs rs') (img : Image) :
    Discriminator.votes img rs' = Discriminator.votes img rs := by
  induction h with
  | nil => rfl
  | cons h1 h2 ih => simp only [Discriminator.votes, h1.getVote, ih]

theorem RamsSim.mental {rs rs' : List Ram} (h : RamsSim rs rs') {it it' : IterOrder} : ∀ {m a a' : List Int},
    Discriminator.mentalLoop it rs m = .ok a → Discriminator.mentalLoop it' rs' m = .ok a' → a' = a := by
  induction h with
  | nil => intro m a a' h1 h2; simp only [Discriminator.mentalLoop, Except.ok.injEq] at h1 h2; rw [← h1, ← h2]
  | cons hr hrs ih =>
    intro m a a' h1 h2
    simp only [Discriminator.mentalLoop] at h1 h2
    obtain ⟨p, hp, h1⟩ := bind_eq_ok h1
    obtain ⟨q, hq, h1⟩ := bind_eq_ok h1
    obtain ⟨p', hp', h2⟩ := bind_eq_ok h2
    obtain ⟨q', hq', h2⟩ := bind_eq_ok h2
    rw [hr.mental hp hp', hq] at hq'
    simp only [Except.ok.injEq] at hq'
    rw [← hq'] at h2
    exact ih h1 h2

/-- Same counter, same entry size, RAMs with the same contents. -/
structure DSim (d d' : Discriminator) : Prop where
  entry : d'.entrySize = d.entrySize
  count : d'.count = d.count
  rams : RamsSim d.rams d'.rams

theorem DSim.train {d d' : Discriminator} (h : DSim d d') (img : Image) :
    DSim (d.train img).1 (d'.train img).1 ∧ (d'.train img).2 = (d.train img).2 := by
  unfold Discriminator.train Discriminator.checkEntrySize
  rw [h.entry, h.count]
  split
  · exact ⟨h, rfl⟩
  · split
    · exact ⟨h, rfl⟩
    · have := h.rams.train img
      exact ⟨⟨rfl, rfl, this.1⟩, this.2⟩

theorem DSim.untrain {d d' : Discriminator} (h : DSim d d') (img : Image) :
    DSim (d.untrain img).1 (d'.untrain img).1 ∧ (d'.untrain img).2 = (d.untrain img).2 := by
  unfold Discriminator.untrain Discriminator.checkEntrySize
  rw [h.entry, h.count]
  split
  · exact ⟨h, rfl⟩
  · split
    · exact ⟨h, rfl⟩
    · have := h.rams.untrain img
      exact ⟨⟨rfl, rfl, this.1⟩, this.2⟩

theorem DSim.classify {d d' : Discriminator} (h : DSim d d') (x : Image) : d'.classify x = d.classify x := by
  unfold Discriminator.classify Discriminator.checkEntrySize
  rw [h.entry, h.rams.votes]

theorem DSim.mental {d d' : Discriminator} (h : DSim d d') {it it' : IterOrder} {m m' : List Int}
    (h1 : d.getMentalImage it = .ok m) (h2 : d'.getMentalImage it' = .ok m') : m' = m := by
  unfold Discriminator.getMentalImage at h1 h2
  rw [h.entry] at h2
  split at h1
  · cases h1
  · rename_i hn
    rw [if_neg hn] at h2
    exact h.rams.mental h1 h2

theorem DSim.size {d d' : Discriminator} (h : DSim d d') (sd sr : Int) : d'.getsizeof sd sr = d.getsizeof sd sr := by
  rw [size_eq, size_eq]
  congr 1
  have := h.rams
  generalize d.rams = rs at this
  generalize d'.rams = rs' at this
  induction this with
  | nil => rfl
  | cons h1 _ ih =>
    rw [List.map_cons, List.map_cons, List.sum_cons, List.sum_cons, ih]
    simp only [Ram.getsizeof, h1.addr, h1.perm.length_eq]

theorem DSim.mapping {d d' : Discriminator} (h : DSim d d') : d'.mapping = d.mapping := by
  unfold Discriminator.mapping
  have := h.rams
  generalize d.rams = rs at this
  generalize d'.rams = rs' at this
  induction this with
  | nil => rfl
  | cons h1 _ ih => simp only [List.map_cons, ih, h1.addr]

theorem DSim.getConfig {d d' : Discriminator} (h : DSim d d') (all : Bool) : d'.getConfig all = d.getConfig all := by
  unfold Discriminator.getConfig
  rw [h.entry, h.mapping, h.count]

theorem DSim.jsonConfig {d d' : Discriminator} (h : DSim d d') : d'.jsonConfig = d.jsonConfig := by
  unfold Discriminator.jsonConfig
  rw [h.getConfig]
  have hr : ∀ c, d'.withRamConfig c = d.withRamConfig c := by
    intro c
    have hs := h.rams
    unfold Discriminator.withRamConfig
    generalize d.rams = rs at hs
    generalize d'.rams = rs' at hs
    cases hs with
    | nil => rfl
    | cons h1 _ =>
      simp only
      unfold Ram.getConfig
      rw [h1.iz, h1.base]
  rw [hr]

theorem DSim.observe {d d' : Discriminator} (h : DSim d d') : Observe d d' where
  count := h.count
  rams := h.rams.length_eq.symm
  wiring := h.mapping
  classify := h.classify
  size := h.size
  mental _ _ _ _ := h.mental
  config ft := by unfold Discriminator.jsonConfigText; rw [h.jsonConfig]

theorem DSim.play (ops : List Op) : ∀ {d d' : Discriminator}, DSim d d' →
    DSim (Spec.play d ops).1 (Spec.play d' ops).1 ∧ (Spec.play d' ops).2 = (Spec.play d ops).2 := by
  induction ops with
  | nil => intro d d' h; exact ⟨h, rfl⟩
  | cons o ops ih =>
    intro d d' h
    cases o with
    | train img =>
      obtain ⟨a, b⟩ := h.train img
      obtain ⟨c, e⟩ := ih a
      exact ⟨c, by simp only [Spec.play, b, e]⟩
    | untrain img =>
      obtain ⟨a, b⟩ := h.untrain img
      obtain ⟨c, e⟩ := ih a
      exact ⟨c, by simp only [Spec.play, b, e]⟩

theorem DSim.indistinguishable {d d' : Discriminator} (h : DSim d d') : Indistinguishable d d' := fun ops =>
  ⟨(h.play ops).2, (h.play ops).1.observe⟩

end Wis
