import Verif.Lemmas.Threads
/-!
# The accesses of training, of the constructor and of `getMentalImage` of a ClusWisard, without interruption
-/

namespace Wis
open Spec

/-- The discriminator that a location belongs to. -/
def Loc.place : Loc → Option Ref
  | .disc r | .count r | .ram r _ => some r
  | _ => none

/-- Strictly increasing keys. -/
def SortedKeys (ks : List Str) : Prop := ks.Pairwise fun a b => Str.lt a b = true

theorem find_keys {V : Type} (f : Str → V) (ks : List Str) (l : Str) :
    SMap.find (ks.map fun k => (k, f k)) l = if l ∈ ks then some (f l) else none := by
  induction ks with
  | nil => rfl
  | cons k ks ih =>
    show (if k = l then some (f k) else SMap.find (ks.map fun k => (k, f k)) l) = _
    by_cases h : k = l
    · subst h; rw [if_pos rfl, if_pos List.mem_cons_self]
    · rw [if_neg h, ih]
      by_cases hl : l ∈ ks
      · rw [if_pos hl, if_pos (List.mem_cons_of_mem _ hl)]
      · rw [if_neg hl, if_neg]
        intro hc
        rcases List.mem_cons.mp hc with e | e
        · exact h e.symm
        · exact hl e

theorem mem_insertKey {k l : Str} {ks : List Str} : k ∈ insertKey l ks ↔ k = l ∨ k ∈ ks := by
  induction ks with
  | nil => simp [insertKey]
  | cons x ks ih =>
    unfold insertKey
    by_cases h : x = l
    · subst h; rw [if_pos rfl]; simp
    · rw [if_neg h]
      by_cases h' : Str.lt l x = true
      · rw [if_pos h']; simp
      · rw [if_neg h', List.mem_cons, ih, List.mem_cons]
        constructor
        · rintro (e | e | e)
          · exact .inr (.inl e)
          · exact .inl e
          · exact .inr (.inr e)
        · rintro (e | e | e)
          · exact .inr (.inl e)
          · exact .inl e
          · exact .inr (.inr e)

theorem sorted_insertKey {l : Str} {ks : List Str} (h : SortedKeys ks) : SortedKeys (insertKey l ks) := by
  induction ks with
  | nil => exact List.pairwise_singleton _ _
  | cons x ks ih =>
    obtain ⟨h1, h2⟩ := List.pairwise_cons.mp h
    unfold insertKey
    by_cases e : x = l
    · rw [if_pos e]; exact h
    · rw [if_neg e]
      by_cases h' : Str.lt l x = true
      · rw [if_pos h']
        refine List.pairwise_cons.mpr ⟨fun y hy => ?_, h⟩
        rcases List.mem_cons.mp hy with rfl | hy
        · exact h'
        · exact Str.lt_trans h' (h1 y hy)
      · rw [if_neg h']
        refine List.pairwise_cons.mpr ⟨fun y hy => ?_, ih h2⟩
        rcases mem_insertKey.mp hy with rfl | hy
        · have h' : Str.lt y x = false := by simpa using h'
          exact Str.lt_total (fun hh => e hh.symm) h'
        · exact h1 y hy

theorem insertKey_of_mem {l : Str} {ks : List Str} (h : SortedKeys ks) (hl : l ∈ ks) : insertKey l ks = ks := by
  induction ks with
  | nil => cases hl
  | cons x ks ih =>
    obtain ⟨h1, h2⟩ := List.pairwise_cons.mp h
    unfold insertKey
    by_cases e : x = l
    · rw [if_pos e]
    · rw [if_neg e]
      have hl' : l ∈ ks := by
        rcases List.mem_cons.mp hl with rfl | hl
        · exact absurd rfl e
        · exact hl
      rw [if_neg (by rw [Str.lt_asymm (h1 l hl')]; simp), ih h2 hl']

theorem set_keys {V : Type} {f f' : Str → V} {l : Str} (hf : ∀ k, k ≠ l → f' k = f k) {ks : List Str} (h : SortedKeys ks) :
    (insertKey l ks).map (fun k => (k, f' k)) = SMap.set (ks.map fun k => (k, f k)) l (f' l) := by
  have same : ∀ ks : List Str, l ∉ ks → ks.map (fun k => (k, f' k)) = ks.map fun k => (k, f k) := by
    intro ks hn
    apply List.map_congr_left
    intro k hk
    rw [hf k (by rintro rfl; exact hn hk)]
  induction ks with
  | nil => rfl
  | cons x ks ih =>
    obtain ⟨h1, h2⟩ := List.pairwise_cons.mp h
    show List.map _ (insertKey l (x :: ks)) = (if x = l then (l, f' l) :: ks.map (fun k => (k, f k))
      else if Str.lt l x then (l, f' l) :: (x, f x) :: ks.map (fun k => (k, f k))
      else (x, f x) :: SMap.set (ks.map fun k => (k, f k)) l (f' l))
    unfold insertKey
    by_cases e : x = l
    · subst e
      rw [if_pos rfl, if_pos rfl]
      have : x ∉ ks := fun hx => by have := h1 x hx; rw [Str.lt_irrefl] at this; cases this
      rw [List.map_cons, same ks this]
    · rw [if_neg e, if_neg e]
      by_cases h' : Str.lt l x = true
      · rw [if_pos h', if_pos h', List.map_cons, same]
        · rfl
        · intro hl
          rcases List.mem_cons.mp hl with rfl | hl
          · exact e rfl
          · have := Str.lt_trans h' (h1 l hl)
            rw [Str.lt_irrefl] at this; cases this
      · rw [if_neg h', if_neg h', List.map_cons, ih h2, hf x e]

namespace Mem
variable {g : CRand}

theorem ramsFrom_congr {m m' : Mem g} {r : Ref} (ws : List Wire) : ∀ {i : Nat}, (∀ j, i ≤ j → m' (.ram r j) = m (.ram r j)) →
    m'.ramsFrom r i ws = m.ramsFrom r i ws := by
  induction ws with
  | nil => intro i _; rfl
  | cons w ws ih =>
    intro i h
    show w.ram (m' (.ram r i)) :: m'.ramsFrom r (i + 1) ws = w.ram (m (.ram r i)) :: m.ramsFrom r (i + 1) ws
    rw [h i (Nat.le_refl _), ih (fun j hj => h j (by omega))]

theorem disc_congr {m m' : Mem g} {r : Ref} (h : ∀ l : Loc, l.place = some r → m' l = m l) : m'.disc r = m.disc r := by
  unfold Mem.disc
  rw [h (.disc r) rfl, h (.count r) rfl, ramsFrom_congr _ (fun j _ => h (.ram r j) rfl)]

theorem discsFrom_congr {m m' : Mem g} {ref : Nat → Ref} (h : ∀ j, m'.disc (ref j) = m.disc (ref j)) (bs : List Bool) : ∀ i,
    m'.discsFrom ref i bs = m.discsFrom ref i bs := by
  induction bs with
  | nil => intro i; rfl
  | cons b bs ih =>
    intro i
    show (if b then some (m'.disc (ref i)) else none) :: m'.discsFrom ref (i + 1) bs = (if b then some (m.disc (ref i)) else none) :: m.discsFrom ref (i + 1) bs
    rw [h, ih]

theorem find_wisard (m : Mem g) (o : Nat) (l : Str) : (m.wisard o).discriminators.find l =
    if l ∈ m (.map o) then some (m.disc (.wis o l)) else none := find_keys _ _ _

/-- Only the entry of one label differs (and the label may be new). -/
theorem wisard_put {m m' : Mem g} {o : Nat} {l : Str} (hs : SortedKeys (m (.map o))) (hk : m' (.map o) = insertKey l (m (.map o)))
    (ho : m' (.opts o) = m (.opts o)) (hd : ∀ k, k ≠ l → m'.disc (.wis o k) = m.disc (.wis o k)) :
    m'.wisard o = { m.wisard o with discriminators := (m.wisard o).discriminators.set l (m'.disc (.wis o l)) } := by
  unfold Mem.wisard
  rw [ho, hk, set_keys (f := fun k => m.disc (.wis o k)) (f' := fun k => m'.disc (.wis o k)) hd hs]

end Mem

namespace Impl
variable {c : Impl} {α : Type}

theorem trainRamsP_run (r : Ref) (img : Image) (ws : List Wire) : ∀ (i : Nat) (k : c.P α) (m : Mem c.g), ∃ m' : Mem c.g,
    (c.trainRamsP r img ws i k).run m = c.go (Discriminator.trainRams img (m.ramsFrom r i ws)).2 (fun _ => k) m' ∧
    m'.ramsFrom r i ws = (Discriminator.trainRams img (m.ramsFrom r i ws)).1 ∧
    ∀ l : Loc, (∀ j, i ≤ j → l ≠ .ram r j) → m' l = m l := by
  induction ws with
  | nil => intro i k m; exact ⟨m, rfl, rfl, fun _ _ => rfl⟩
  | cons w ws ih =>
    intro i k m
    unfold trainRamsP trainRamP Mem.ramsFrom Discriminator.trainRams Ram.train
    rw [wire_index w (m (.ram r i)) img]
    cases hix : (w.ram []).getIndex img with
    | error e => exact ⟨m, rfl, rfl, fun _ _ => rfl⟩
    | ok index =>
      have go : ∀ v : Int, ∃ m' : Mem c.g,
          (c.trainRamsP r img ws (i + 1) k).run (m.upd (.ram r i) (fun pos : RamT => RamT.set pos index v)) =
            c.go (Discriminator.trainRams img (m.ramsFrom r (i + 1) ws)).2 (fun _ => k) m' ∧
          w.ram (m' (.ram r i)) :: m'.ramsFrom r (i + 1) ws =
            { (w.ram (m (.ram r i))) with positions := RamT.set (m (.ram r i)) index v } :: (Discriminator.trainRams img (m.ramsFrom r (i + 1) ws)).1 ∧
          ∀ l : Loc, (∀ j, i ≤ j → l ≠ .ram r j) → m' l = m l := by
        intro v
        obtain ⟨m', e1, e2, e3⟩ := ih (i + 1) k (m.upd (.ram r i) (fun pos : RamT => RamT.set pos index v))
        have hr : Mem.ramsFrom (g := c.g) (Store.upd m (.ram r i) (fun pos : RamT => RamT.set pos index v)) r (i + 1) ws = m.ramsFrom r (i + 1) ws :=
          Mem.ramsFrom_congr ws (fun j hj => Store.upd_ne _ _ (by intro e; injection e with _ e; omega))
        rw [hr] at e1 e2
        refine ⟨m', e1, ?_, ?_⟩
        · rw [e2, e3 (.ram r i) (fun j hj e => by injection e with _ e; omega), Store.upd_self]
          rfl
        · intro l hl
          rw [e3 l (fun j hj => hl j (by omega)), Store.upd_ne _ _ (hl i (Nat.le_refl _))]
      show ∃ m' : Mem c.g, Prog.run (match RamT.find (m (.ram r i)) index with
        | none => .write (.ram r i) (fun pos : RamT => RamT.set pos index 1) (c.trainRamsP r img ws (i + 1) k)
        | some v =>
          match i32 (v + 1) with
          | .error e => .done (.error e)
          | .ok v' => .write (.ram r i) (fun pos : RamT => RamT.set pos index v') (c.trainRamsP r img ws (i + 1) k)) m = _ ∧ _
      have hp : (w.ram (m (.ram r i))).positions = m (.ram r i) := rfl
      simp only [hp]
      cases RamT.find (m (.ram r i)) index with
      | none =>
        obtain ⟨m', e1, e2, e3⟩ := go 1
        refine ⟨m', e1, e2, e3⟩
      | some v =>
        simp only
        cases i32 (v + 1) with
        | error e => exact ⟨m, rfl, rfl, fun _ _ => rfl⟩
        | ok v' =>
          obtain ⟨m', e1, e2, e3⟩ := go v'
          exact ⟨m', e1, e2, e3⟩

theorem discTrainP_run (r : Ref) (img : Image) (k : c.P α) (m : Mem c.g) : ∃ m' : Mem c.g,
    (c.discTrainP r img k).run m = c.go ((m.disc r).train img).2 (fun _ => k) m' ∧ m'.disc r = ((m.disc r).train img).1 ∧
    ∀ l : Loc, l.place ≠ some r → m' l = m l := by
  unfold discTrainP Discriminator.train
  show ∃ m' : Mem c.g, Prog.run (match checkEntry (m (.disc r)).1 img with
    | .error e => .done (.error e)
    | .ok () => .read (.count r) fun n : Int =>
        match i32 (n + 1) with
        | .error e => .done (.error e)
        | .ok n' => .write (.count r) (fun _ => n') (c.trainRamsP r img (m (.disc r)).2 0 k)) m = _ ∧ _
  have : checkEntry (m (.disc r)).1 img = (m.disc r).checkEntrySize img.size := rfl
  rw [this]
  cases (m.disc r).checkEntrySize img.size with
  | error e => exact ⟨m, rfl, rfl, fun _ _ => rfl⟩
  | ok _ =>
    show ∃ m' : Mem c.g, Prog.run (match i32 ((m.disc r).count + 1) with
        | .error e => .done (.error e)
        | .ok n' => .write (.count r) (fun _ => n') (c.trainRamsP r img (m (.disc r)).2 0 k)) m = _ ∧ _
    simp only
    cases i32 ((m.disc r).count + 1) with
    | error e => exact ⟨m, rfl, rfl, fun _ _ => rfl⟩
    | ok n =>
      obtain ⟨m', e1, e2, e3⟩ := trainRamsP_run (c := c) r img (m (.disc r)).2 0 k (m.upd (.count r) (fun _ => n))
      have hr : Mem.ramsFrom (g := c.g) (Store.upd m (.count r) (fun _ => n)) r 0 (m (.disc r)).2 = (m.disc r).rams :=
        Mem.ramsFrom_congr _ (fun j _ => Store.upd_ne _ _ (by intro e; cases e))
      rw [hr] at e1 e2
      refine ⟨m', e1, ?_, ?_⟩
      · have h1 : m' (.disc r) = m (.disc r) := by
          rw [e3 (.disc r) (fun j _ e => by cases e), Store.upd_ne _ _ (by intro e; cases e)]
        have h2 : m' (.count r) = n := by
          rw [e3 (.count r) (fun j _ e => by cases e), Store.upd_self]
        show Discriminator.mk (m' (.disc r)).1 (m' (.count r)) (m'.ramsFrom r 0 (m' (.disc r)).2) = _
        rw [h1, h2, e2]
        rfl
      · intro l hl
        rw [e3 l (fun j _ e => by subst e; exact hl rfl), Store.upd_ne _ _ (by rintro rfl; exact hl rfl)]

theorem untrainRamsP_run (r : Ref) (img : Image) (ws : List Wire) : ∀ (i : Nat) (k : c.P α) (m : Mem c.g), ∃ m' : Mem c.g,
    (c.untrainRamsP r img ws i k).run m = c.go (Discriminator.untrainRams img (m.ramsFrom r i ws)).2 (fun _ => k) m' ∧
    m'.ramsFrom r i ws = (Discriminator.untrainRams img (m.ramsFrom r i ws)).1 ∧
    ∀ l : Loc, (∀ j, i ≤ j → l ≠ .ram r j) → m' l = m l := by
  induction ws with
  | nil => intro i k m; exact ⟨m, rfl, rfl, fun _ _ => rfl⟩
  | cons w ws ih =>
    intro i k m
    unfold untrainRamsP untrainRamP Mem.ramsFrom Discriminator.untrainRams Ram.untrain
    rw [wire_index w (m (.ram r i)) img]
    cases hix : (w.ram []).getIndex img with
    | error e => exact ⟨m, rfl, rfl, fun _ _ => rfl⟩
    | ok index =>
      have go : ∀ v : Int, ∃ m' : Mem c.g,
          (c.untrainRamsP r img ws (i + 1) k).run (m.upd (.ram r i) (fun pos : RamT => RamT.set pos index v)) =
            c.go (Discriminator.untrainRams img (m.ramsFrom r (i + 1) ws)).2 (fun _ => k) m' ∧
          w.ram (m' (.ram r i)) :: m'.ramsFrom r (i + 1) ws =
            { (w.ram (m (.ram r i))) with positions := RamT.set (m (.ram r i)) index v } :: (Discriminator.untrainRams img (m.ramsFrom r (i + 1) ws)).1 ∧
          ∀ l : Loc, (∀ j, i ≤ j → l ≠ .ram r j) → m' l = m l := by
        intro v
        obtain ⟨m', e1, e2, e3⟩ := ih (i + 1) k (m.upd (.ram r i) (fun pos : RamT => RamT.set pos index v))
        have hr : Mem.ramsFrom (g := c.g) (Store.upd m (.ram r i) (fun pos : RamT => RamT.set pos index v)) r (i + 1) ws = m.ramsFrom r (i + 1) ws :=
          Mem.ramsFrom_congr ws (fun j hj => Store.upd_ne _ _ (by intro e; injection e with _ e; omega))
        rw [hr] at e1 e2
        refine ⟨m', e1, ?_, ?_⟩
        · rw [e2, e3 (.ram r i) (fun j hj e => by injection e with _ e; omega), Store.upd_self]
          rfl
        · intro l hl
          rw [e3 l (fun j hj => hl j (by omega)), Store.upd_ne _ _ (hl i (Nat.le_refl _))]
      show ∃ m' : Mem c.g, Prog.run (match RamT.find (m (.ram r i)) index with
        | none => c.untrainRamsP r img ws (i + 1) k
        | some v =>
          match i32 (v - 1) with
          | .error e => .done (.error e)
          | .ok v' => .write (.ram r i) (fun pos : RamT => RamT.set pos index v') (c.untrainRamsP r img ws (i + 1) k)) m = _ ∧ _
      have hp : (w.ram (m (.ram r i))).positions = m (.ram r i) := rfl
      simp only [hp]
      cases RamT.find (m (.ram r i)) index with
      | none =>
        obtain ⟨m', e1, e2, e3⟩ := ih (i + 1) k m
        refine ⟨m', e1, ?_, fun l hl => e3 l (fun j hj => hl j (by omega))⟩
        show w.ram (m' (.ram r i)) :: m'.ramsFrom r (i + 1) ws = _
        rw [e2, e3 (.ram r i) (fun j hj e => by injection e with _ e; omega)]
      | some v =>
        simp only
        cases i32 (v - 1) with
        | error e => exact ⟨m, rfl, rfl, fun _ _ => rfl⟩
        | ok v' =>
          obtain ⟨m', e1, e2, e3⟩ := go v'
          exact ⟨m', e1, e2, e3⟩

theorem discUntrainP_run (r : Ref) (img : Image) (k : c.P α) (m : Mem c.g) : ∃ m' : Mem c.g,
    (c.discUntrainP r img k).run m = c.go ((m.disc r).untrain img).2 (fun _ => k) m' ∧ m'.disc r = ((m.disc r).untrain img).1 ∧
    ∀ l : Loc, l.place ≠ some r → m' l = m l := by
  unfold discUntrainP Discriminator.untrain
  show ∃ m' : Mem c.g, Prog.run (match checkEntry (m (.disc r)).1 img with
    | .error e => .done (.error e)
    | .ok () => .read (.count r) fun n : Int =>
        match i32 (n - 1) with
        | .error e => .done (.error e)
        | .ok n' => .write (.count r) (fun _ => n') (c.untrainRamsP r img (m (.disc r)).2 0 k)) m = _ ∧ _
  have : checkEntry (m (.disc r)).1 img = (m.disc r).checkEntrySize img.size := rfl
  rw [this]
  cases (m.disc r).checkEntrySize img.size with
  | error e => exact ⟨m, rfl, rfl, fun _ _ => rfl⟩
  | ok _ =>
    show ∃ m' : Mem c.g, Prog.run (match i32 ((m.disc r).count - 1) with
        | .error e => .done (.error e)
        | .ok n' => .write (.count r) (fun _ => n') (c.untrainRamsP r img (m (.disc r)).2 0 k)) m = _ ∧ _
    simp only
    cases i32 ((m.disc r).count - 1) with
    | error e => exact ⟨m, rfl, rfl, fun _ _ => rfl⟩
    | ok n =>
      obtain ⟨m', e1, e2, e3⟩ := untrainRamsP_run (c := c) r img (m (.disc r)).2 0 k (m.upd (.count r) (fun _ => n))
      have hr : Mem.ramsFrom (g := c.g) (Store.upd m (.count r) (fun _ => n)) r 0 (m (.disc r)).2 = (m.disc r).rams :=
        Mem.ramsFrom_congr _ (fun j _ => Store.upd_ne _ _ (by intro e; cases e))
      rw [hr] at e1 e2
      refine ⟨m', e1, ?_, ?_⟩
      · have h1 : m' (.disc r) = m (.disc r) := by
          rw [e3 (.disc r) (fun j _ e => by cases e), Store.upd_ne _ _ (by intro e; cases e)]
        have h2 : m' (.count r) = n := by
          rw [e3 (.count r) (fun j _ e => by cases e), Store.upd_self]
        show Discriminator.mk (m' (.disc r)).1 (m' (.count r)) (m'.ramsFrom r 0 (m' (.disc r)).2) = _
        rw [h1, h2, e2]
        rfl
      · intro l hl
        rw [e3 l (fun j _ e => by subst e; exact hl rfl), Store.upd_ne _ _ (by rintro rfl; exact hl rfl)]

theorem assignRamsP_run (r : Ref) (xs : List Ram) : ∀ (i : Nat) (k : c.P α) (m : Mem c.g), ∃ m' : Mem c.g,
    (c.assignRamsP r xs i k).run m = k.run m' ∧ m'.ramsFrom r i (xs.map Ram.wire) = xs ∧
    ∀ l : Loc, (∀ j, i ≤ j → l ≠ .ram r j) → m' l = m l := by
  induction xs with
  | nil => intro i k m; exact ⟨m, rfl, rfl, fun _ _ => rfl⟩
  | cons x xs ih =>
    intro i k m
    obtain ⟨m', e1, e2, e3⟩ := ih (i + 1) k (m.upd (.ram r i) (fun _ => x.positions))
    refine ⟨m', e1, ?_, ?_⟩
    · show (Ram.wire x).ram (m' (.ram r i)) :: m'.ramsFrom r (i + 1) (xs.map Ram.wire) = x :: xs
      rw [e2, e3 (.ram r i) (fun j hj e => by injection e with _ e; omega), Store.upd_self]
      rfl
    · intro l hl
      rw [e3 l (fun j hj => hl j (by omega)), Store.upd_ne _ _ (hl i (Nat.le_refl _))]

theorem assignP_run (r : Ref) (d : Discriminator) (k : c.P α) (m : Mem c.g) : ∃ m' : Mem c.g,
    (c.assignP r d k).run m = k.run m' ∧ m'.disc r = d ∧ ∀ l : Loc, l.place ≠ some r → m' l = m l := by
  obtain ⟨m', e1, e2, e3⟩ := assignRamsP_run (c := c) r d.rams 0 k
    (Store.upd (Store.upd m (.disc r) (fun _ => (d.entrySize, d.rams.map Ram.wire))) (.count r) (fun _ => d.count))
  refine ⟨m', e1, ?_, ?_⟩
  · have h1 : m' (.disc r) = (d.entrySize, d.rams.map Ram.wire) := by
      rw [e3 (.disc r) (fun j _ e => by cases e), Store.upd_ne _ _ (by intro e; cases e), Store.upd_self]
    have h2 : m' (.count r) = d.count := by
      rw [e3 (.count r) (fun j _ e => by cases e), Store.upd_self]
    unfold Mem.disc
    rw [h1, h2]
    show Discriminator.mk d.entrySize d.count (m'.ramsFrom r 0 (d.rams.map Ram.wire)) = d
    rw [e2]
  · intro l hl
    rw [e3 l (fun j _ e => by subst e; exact hl rfl), Store.upd_ne _ _ (by rintro rfl; exact hl rfl),
      Store.upd_ne _ _ (by rintro rfl; exact hl rfl)]

theorem bracketP_run (o : Nat) (label : Str) (k : c.P α) (m : Mem c.g) (hs : SortedKeys (m (.map o))) : ∃ m' : Mem c.g,
    (c.bracketP o label k).run m = k.run m' ∧ m' (.map o) = insertKey label (m (.map o)) ∧
    (label ∈ m (.map o) → m' = m) ∧ (label ∉ m (.map o) → m'.disc (.wis o label) = Discriminator.default) ∧
    ∀ l : Loc, l ≠ .map o → l.place ≠ some (.wis o label) → m' l = m l := by
  unfold bracketP
  show ∃ m' : Mem c.g, Prog.run (if label ∈ m (.map o) then (if c.bracketWrites then .write (.map o) (fun ls => ls) k else k)
    else c.insertP o label k) m = _ ∧ _
  by_cases h : label ∈ m (.map o)
  · rw [if_pos h]
    refine ⟨m, ?_, (insertKey_of_mem hs h).symm, fun _ => rfl, fun hn => absurd h hn, fun _ _ _ => rfl⟩
    by_cases hb : c.bracketWrites = true
    · rw [if_pos hb]
      show k.run (Store.upd m (.map o) (fun ls => ls)) = _
      rw [Store.upd_id]
    · rw [if_neg hb]
  · rw [if_neg h]
    refine ⟨_, rfl, ?_, fun hn => absurd hn h, fun _ => ?_, ?_⟩
    · rw [Store.upd_self, Store.upd_ne _ _ (by intro e; cases e), Store.upd_ne _ _ (by intro e; cases e)]
    · unfold Mem.disc
      rw [Store.upd_ne _ _ (by intro e; cases e), Store.upd_ne _ _ (by intro e; cases e), Store.upd_self,
        Store.upd_ne _ _ (by intro e; cases e), Store.upd_self]
      rfl
    · intro l h1 h2
      rw [Store.upd_ne _ _ h1, Store.upd_ne _ _ (by rintro rfl; exact h2 rfl), Store.upd_ne _ _ (by rintro rfl; exact h2 rfl)]

theorem newDiscP_run (A : Int) (os : WisardOpts) (label : Str) (n : Int) (k : Res Discriminator → c.P α) (m : Mem c.g) : ∃ m' : Mem c.g,
    (c.newDiscP A os label n k).run m = (k (Wisard.newDiscriminatorG c.g (m .gen) A os label n).1).run m' ∧
    m' .gen = (Wisard.newDiscriminatorG c.g (m .gen) A os label n).2 ∧ ∀ l : Loc, l ≠ .gen → m' l = m l := by
  unfold newDiscP Wisard.newDiscriminatorG
  cases os.mapping.find label with
  | some mp => exact ⟨m, rfl, rfl, fun _ _ => rfl⟩
  | none =>
    simp only
    by_cases h : os.indexes.length ≠ 0
    · rw [if_pos h, if_pos h]
      exact ⟨m, rfl, rfl, fun _ _ => rfl⟩
    · rw [if_neg h, if_neg h]
      exact ⟨_, rfl, Store.upd_self _ _ _, fun l hl => Store.upd_ne _ _ hl⟩

/-- Locations that training of Wisard `o` may change. -/
def Mine (o : Nat) (l : Loc) : Prop := l = .map o ∨ l = .gen ∨ ∃ lab, l.place = some (.wis o lab)

theorem known_run (o : Nat) (label : Str) (img : Image) (k : c.P α) (m : Mem c.g) (hs : SortedKeys (m (.map o)))
    (hm : label ∈ m (.map o)) : ∃ m' : Mem c.g,
    (c.bracketP o label (c.discTrainP (.wis o label) img k)).run m = c.go ((m.wisard o).trainKnown img label).2 (fun _ => k) m' ∧
    m'.wisard o = ((m.wisard o).trainKnown img label).1 ∧ m' (.map o) = m (.map o) ∧
    ∀ l : Loc, l.place ≠ some (.wis o label) → m' l = m l := by
  obtain ⟨m1, e1, _, e3, _, _⟩ := bracketP_run (c := c) o label (c.discTrainP (.wis o label) img k) m hs
  have := e3 hm
  subst this
  obtain ⟨m', f1, f2, f3⟩ := discTrainP_run (c := c) (.wis o label) img k m1
  have hf : ((m1.wisard o).discriminators.find label).getD Discriminator.default = m1.disc (.wis o label) := by
    rw [Mem.find_wisard, if_pos hm]; rfl
  refine ⟨m', ?_, ?_, f3 _ (by intro e; cases e), f3⟩
  · rw [e1, f1]
    unfold Wisard.trainKnown
    rw [hf]
  · unfold Wisard.trainKnown
    rw [hf, Mem.wisard_put hs (l := label) ((f3 _ (by intro e; cases e)).trans (insertKey_of_mem hs hm).symm) (f3 _ (by intro e; cases e))
      (fun k hk => Mem.disc_congr (fun l hl => f3 l (by rw [hl]; intro e; injection e with e; injection e with _ e; exact hk e))), f2]

theorem train1P_run (o : Nat) (img : Image) (label : Str) (k : c.P α) (m : Mem c.g) (hs : SortedKeys (m (.map o))) : ∃ m' : Mem c.g,
    (c.train1P o img label k).run m = c.go (Wisard.train1G c.g c.lhsFirst (m .gen) (m.wisard o) img label).1.2 (fun _ => k) m' ∧
    m'.wisard o = (Wisard.train1G c.g c.lhsFirst (m .gen) (m.wisard o) img label).1.1 ∧
    m' .gen = (Wisard.train1G c.g c.lhsFirst (m .gen) (m.wisard o) img label).2 ∧
    SortedKeys (m' (.map o)) ∧ ∀ l : Loc, ¬ Mine o l → m' l = m l := by
  unfold train1P Wisard.train1G
  rw [Mem.find_wisard]
  show ∃ m' : Mem c.g, Prog.run (if label ∈ m (.map o) then c.bracketP o label (c.discTrainP (.wis o label) img k)
    else c.makeP o label img.size (c.bracketP o label (c.discTrainP (.wis o label) img k))) m = _ ∧ _
  by_cases hm : label ∈ m (.map o)
  · rw [if_pos hm, if_pos hm]
    obtain ⟨m', e1, e2, e3, e4⟩ := known_run (c := c) o label img k m hs hm
    refine ⟨m', e1, e2, e4 _ (by intro e; cases e), by rw [e3]; exact hs, fun l hl => e4 l (fun e => hl (.inr (.inr ⟨_, e⟩)))⟩
  · rw [if_neg hm, if_neg hm]
    -- from the memory in which the new discriminator is in place
    have fin : ∀ (m2 : Mem c.g) (d : Discriminator), m2 (.map o) = insertKey label (m (.map o)) → m2 (.opts o) = m (.opts o) →
        m2.disc (.wis o label) = d → (∀ l : Loc, ¬ Mine o l → m2 l = m l) →
        (∀ kk, kk ≠ label → m2.disc (.wis o kk) = m.disc (.wis o kk)) → ∃ m' : Mem c.g,
        (c.bracketP o label (c.discTrainP (.wis o label) img k)).run m2 =
          c.go (Wisard.trainKnown { m.wisard o with discriminators := (m.wisard o).discriminators.set label d } img label).2 (fun _ => k) m' ∧
        m'.wisard o = (Wisard.trainKnown { m.wisard o with discriminators := (m.wisard o).discriminators.set label d } img label).1 ∧
        m' .gen = m2 .gen ∧ SortedKeys (m' (.map o)) ∧ ∀ l : Loc, ¬ Mine o l → m' l = m l := by
      intro m2 d h1 h2 h3 h4 h5
      have hs2 : SortedKeys (m2 (.map o)) := by rw [h1]; exact sorted_insertKey hs
      obtain ⟨m', e1, e2, e3, e4⟩ := known_run (c := c) o label img k m2 hs2 (by rw [h1]; exact mem_insertKey.mpr (.inl rfl))
      have hw : m2.wisard o = { m.wisard o with discriminators := (m.wisard o).discriminators.set label d } := by
        rw [Mem.wisard_put hs h1 h2 h5, h3]
      rw [hw] at e1 e2
      exact ⟨m', e1, e2, e4 _ (by intro e; cases e), by rw [e3]; exact hs2,
        fun l hl => (e4 l (fun e => hl (.inr (.inr ⟨_, e⟩)))).trans (h4 l hl)⟩
    have hopts : ((m.wisard o).addressSize, (m.wisard o).opts) = m (.opts o) := rfl
    unfold makeP
    show ∃ m' : Mem c.g, Prog.run (if c.lhsFirst then
      c.bracketP o label <| c.newDiscP (m.wisard o).addressSize (m.wisard o).opts label img.size fun r =>
        match r with
        | .error e => .done (.error e)
        | .ok d => c.assignP (.wis o label) d (c.bracketP o label (c.discTrainP (.wis o label) img k))
    else
      c.newDiscP (m.wisard o).addressSize (m.wisard o).opts label img.size fun r =>
        match r with
        | .error e => .done (.error e)
        | .ok d => c.bracketP o label (c.assignP (.wis o label) d (c.bracketP o label (c.discTrainP (.wis o label) img k)))) m = _ ∧ _
    have notgen : (Loc.map o : Loc) ≠ .gen := by intro e; cases e
    by_cases hl : c.lhsFirst = true
    · rw [if_pos hl]
      obtain ⟨m1, b1, b2, _, b4, b5⟩ := bracketP_run (c := c) o label (c.newDiscP (m.wisard o).addressSize (m.wisard o).opts label img.size
        fun r => match r with
        | .error e => .done (.error e)
        | .ok d => c.assignP (.wis o label) d (c.bracketP o label (c.discTrainP (.wis o label) img k))) m hs
      obtain ⟨m2, n1, n2, n3⟩ := newDiscP_run (c := c) (m.wisard o).addressSize (m.wisard o).opts label img.size
        (fun r => match r with
        | .error e => .done (.error e)
        | .ok d => c.assignP (.wis o label) d (c.bracketP o label (c.discTrainP (.wis o label) img k))) m1
      have hg : m1 .gen = m .gen := b5 _ (by intro e; cases e) (by intro e; cases e)
      rw [hg] at n1 n2
      rw [b1, n1]
      revert n2
      rcases Wisard.newDiscriminatorG c.g (m .gen) (m.wisard o).addressSize (m.wisard o).opts label img.size with ⟨r, gs⟩
      intro n2
      cases r with
      | error e =>
        rw [hl]
        refine ⟨m2, rfl, ?_, n2, ?_, ?_⟩
        · show m2.wisard o = { m.wisard o with discriminators := (m.wisard o).discriminators.set label Discriminator.default }
          have hd2 : ∀ r, m2.disc r = m1.disc r := fun r => Mem.disc_congr (fun l h => n3 l (by rintro rfl; cases h))
          rw [Mem.wisard_put hs (l := label) ((n3 _ notgen).trans b2) ((n3 _ (by intro e; cases e)).trans (b5 _ (by intro e; cases e) (by intro e; cases e)))
            (fun kk hk => (hd2 _).trans (Mem.disc_congr (fun l h => b5 l (by rintro rfl; cases h)
              (by rw [h]; intro e; injection e with e; injection e with _ e; exact hk e)))), hd2, b4 hm]
        · rw [n3 _ notgen, b2]; exact sorted_insertKey hs
        · intro l h
          rw [n3 l (fun e => h (.inr (.inl e))), b5 l (fun e => h (.inl e)) (fun e => h (.inr (.inr ⟨_, e⟩)))]
      | ok d =>
        obtain ⟨m3, a1, a2, a3⟩ := assignP_run (c := c) (.wis o label) d (c.bracketP o label (c.discTrainP (.wis o label) img k)) m2
        obtain ⟨m', f1, f2, f3, f4, f5⟩ := fin m3 d
          ((a3 _ (by intro e; cases e)).trans ((n3 _ notgen).trans b2))
          ((a3 _ (by intro e; cases e)).trans ((n3 _ (by intro e; cases e)).trans (b5 _ (by intro e; cases e) (by intro e; cases e)))) a2
          (fun l h => by rw [a3 l (fun e => h (.inr (.inr ⟨_, e⟩))), n3 l (fun e => h (.inr (.inl e))),
            b5 l (fun e => h (.inl e)) (fun e => h (.inr (.inr ⟨_, e⟩)))])
          (fun kk hk => Mem.disc_congr (fun l h => by
            have hne : l.place ≠ some (.wis o label) := by rw [h]; intro e; injection e with e; injection e with _ e; exact hk e
            rw [a3 l hne, n3 l (by rintro rfl; cases h), b5 l (by rintro rfl; cases h) hne]))
        refine ⟨m', a1.trans f1, f2, ?_, f4, f5⟩
        rw [f3, a3 _ (by intro e; cases e), n2]
    · rw [if_neg hl]
      obtain ⟨m1, n1, n2, n3⟩ := newDiscP_run (c := c) (m.wisard o).addressSize (m.wisard o).opts label img.size
        (fun r => match r with
        | .error e => .done (.error e)
        | .ok d => c.bracketP o label (c.assignP (.wis o label) d (c.bracketP o label (c.discTrainP (.wis o label) img k)))) m
      rw [n1]
      revert n2
      rcases Wisard.newDiscriminatorG c.g (m .gen) (m.wisard o).addressSize (m.wisard o).opts label img.size with ⟨r, gs⟩
      intro n2
      have hd1 : ∀ r, m1.disc r = m.disc r := fun r => Mem.disc_congr (fun l h => n3 l (by rintro rfl; cases h))
      cases r with
      | error e =>
        have hl' : c.lhsFirst = false := by simpa using hl
        rw [hl']
        refine ⟨m1, rfl, ?_, n2, ?_, ?_⟩
        · show m1.wisard o = m.wisard o
          unfold Mem.wisard
          rw [n3 _ notgen, n3 (.opts o) (by intro e; cases e)]
          simp only [hd1]
        · rw [n3 _ notgen]; exact hs
        · intro l h
          exact n3 l (fun e => h (.inr (.inl e)))
      | ok d =>
        have hs1 : SortedKeys (m1 (.map o)) := by rw [n3 _ notgen]; exact hs
        obtain ⟨m2, b1, b2, _, _, b5⟩ := bracketP_run (c := c) o label (c.assignP (.wis o label) d (c.bracketP o label (c.discTrainP (.wis o label) img k))) m1 hs1
        obtain ⟨m3, a1, a2, a3⟩ := assignP_run (c := c) (.wis o label) d (c.bracketP o label (c.discTrainP (.wis o label) img k)) m2
        obtain ⟨m', f1, f2, f3, f4, f5⟩ := fin m3 d
          ((a3 _ (by intro e; cases e)).trans (b2.trans (by rw [n3 _ notgen])))
          ((a3 _ (by intro e; cases e)).trans ((b5 _ (by intro e; cases e) (by intro e; cases e)).trans (n3 _ (by intro e; cases e)))) a2
          (fun l h => by rw [a3 l (fun e => h (.inr (.inr ⟨_, e⟩))),
            b5 l (fun e => h (.inl e)) (fun e => h (.inr (.inr ⟨_, e⟩))), n3 l (fun e => h (.inr (.inl e)))])
          (fun kk hk => Mem.disc_congr (fun l h => by
            have hne : l.place ≠ some (.wis o label) := by rw [h]; intro e; injection e with e; injection e with _ e; exact hk e
            rw [a3 l hne, b5 l (by rintro rfl; cases h) hne, n3 l (by rintro rfl; cases h)]))
        refine ⟨m', b1.trans (a1.trans f1), f2, ?_, f4, f5⟩
        rw [f3, a3 _ (by intro e; cases e), b5 _ (by intro e; cases e) (by intro e; cases e), n2]

theorem trainLoopP_run (o : Nat) (es : List (Image × Str)) : ∀ (k : c.P α) (m : Mem c.g), SortedKeys (m (.map o)) → ∃ m' : Mem c.g,
    (c.trainLoopP o es k).run m = c.go (Wisard.trainLoopG c.g c.lhsFirst (m .gen) (m.wisard o) es).1.2 (fun _ => k) m' ∧
    m'.wisard o = (Wisard.trainLoopG c.g c.lhsFirst (m .gen) (m.wisard o) es).1.1 ∧
    m' .gen = (Wisard.trainLoopG c.g c.lhsFirst (m .gen) (m.wisard o) es).2 ∧
    SortedKeys (m' (.map o)) ∧ ∀ l : Loc, ¬ Mine o l → m' l = m l := by
  induction es with
  | nil => intro k m hs; exact ⟨m, rfl, rfl, rfl, hs, fun _ _ => rfl⟩
  | cons e es ih =>
    intro k m hs
    obtain ⟨img, l⟩ := e
    unfold trainLoopP Wisard.trainLoopG
    obtain ⟨m1, e1, e2, e3, e4, e5⟩ := train1P_run (c := c) o img l (c.trainLoopP o es k) m hs
    rw [e1]
    revert e2 e3
    rcases Wisard.train1G c.g c.lhsFirst (m .gen) (m.wisard o) img l with ⟨⟨w', r⟩, gs⟩
    intro e2 e3
    cases r with
    | error e => exact ⟨m1, rfl, e2, e3, e4, e5⟩
    | ok _ =>
      obtain ⟨m', f1, f2, f3, f4, f5⟩ := ih k m1 e4
      rw [e2, e3] at f1 f2 f3
      exact ⟨m', f1, f2, f3, f4, fun l hl => (f5 l hl).trans (e5 l hl)⟩

theorem trainP_run (o : Nat) (images : List (List Int)) (labels : List Str) (k : c.P α) (m : Mem c.g) (hs : SortedKeys (m (.map o))) :
    ∃ m' : Mem c.g,
    (c.trainP o images labels k).run m = c.go (Wisard.trainG c.g c.lhsFirst (m .gen) (m.wisard o) images labels).1.2 (fun _ => k) m' ∧
    m'.wisard o = (Wisard.trainG c.g c.lhsFirst (m .gen) (m.wisard o) images labels).1.1 ∧
    m' .gen = (Wisard.trainG c.g c.lhsFirst (m .gen) (m.wisard o) images labels).2 ∧
    SortedKeys (m' (.map o)) ∧ ∀ l : Loc, ¬ Mine o l → m' l = m l := by
  unfold trainP Wisard.trainG
  show ∃ m' : Mem c.g, Prog.run (match Wisard.trainChecks ⟨(m.wisard o).addressSize, (m.wisard o).opts, []⟩ images labels with
    | .error e => .done (.error e)
    | .ok () => c.trainLoopP o ((images.map Image.vec).zip labels) k) m = _ ∧ _
  have : Wisard.trainChecks ⟨(m.wisard o).addressSize, (m.wisard o).opts, []⟩ images labels = (m.wisard o).trainChecks images labels := rfl
  rw [this]
  cases (m.wisard o).trainChecks images labels with
  | error e => exact ⟨m, rfl, rfl, rfl, hs, fun _ _ => rfl⟩
  | ok _ => exact trainLoopP_run o _ k m hs

theorem trainDataLoopP_run (o : Nat) (ds : DataSet) (bs : List BinInput) : ∀ (i : Nat) (k : c.P α) (m : Mem c.g), SortedKeys (m (.map o)) → ∃ m' : Mem c.g,
    (c.trainDataLoopP o ds bs i k).run m = c.go (Wisard.trainDataLoopG c.g c.lhsFirst ds (m .gen) (m.wisard o) bs i).1.2 (fun _ => k) m' ∧
    m'.wisard o = (Wisard.trainDataLoopG c.g c.lhsFirst ds (m .gen) (m.wisard o) bs i).1.1 ∧
    m' .gen = (Wisard.trainDataLoopG c.g c.lhsFirst ds (m .gen) (m.wisard o) bs i).2 ∧
    SortedKeys (m' (.map o)) ∧ ∀ l : Loc, ¬ Mine o l → m' l = m l := by
  induction bs with
  | nil => intro i k m hs; exact ⟨m, rfl, rfl, rfl, hs, fun _ _ => rfl⟩
  | cons b bs ih =>
    intro i k m hs
    unfold trainDataLoopP Wisard.trainDataLoopG
    cases ds.getLabel i with
    | error e => exact ⟨m, rfl, rfl, rfl, hs, fun _ _ => rfl⟩
    | ok l =>
      dsimp only
      obtain ⟨m1, e1, e2, e3, e4, e5⟩ := train1P_run (c := c) o (.bin b) l (c.trainDataLoopP o ds bs (i + 1) k) m hs
      rw [e1]
      revert e2 e3
      rcases Wisard.train1G c.g c.lhsFirst (m .gen) (m.wisard o) (.bin b) l with ⟨⟨w', r⟩, gs⟩
      intro e2 e3
      cases r with
      | error e => exact ⟨m1, rfl, e2, e3, e4, e5⟩
      | ok _ =>
        obtain ⟨m', f1, f2, f3, f4, f5⟩ := ih (i + 1) k m1 e4
        rw [e2, e3] at f1 f2 f3
        exact ⟨m', f1, f2, f3, f4, fun l hl => (f5 l hl).trans (e5 l hl)⟩

theorem trainDataP_run (o : Nat) (ds : DataSet) (k : c.P α) (m : Mem c.g) (hs : SortedKeys (m (.map o))) :
    ∃ m' : Mem c.g,
    (c.trainDataP o ds k).run m = c.go (Wisard.trainDataSetG c.g c.lhsFirst (m .gen) (m.wisard o) ds).1.2 (fun _ => k) m' ∧
    m'.wisard o = (Wisard.trainDataSetG c.g c.lhsFirst (m .gen) (m.wisard o) ds).1.1 ∧
    m' .gen = (Wisard.trainDataSetG c.g c.lhsFirst (m .gen) (m.wisard o) ds).2 ∧
    SortedKeys (m' (.map o)) ∧ ∀ l : Loc, ¬ Mine o l → m' l = m l := by
  unfold trainDataP Wisard.trainDataSetG
  show ∃ m' : Mem c.g, Prog.run (match Wisard.dataChecks ⟨(m.wisard o).addressSize, (m.wisard o).opts, []⟩ ds with
    | .error e => .done (.error e)
    | .ok () => c.trainDataLoopP o ds ds.data 0 k) m = _ ∧ _
  have : Wisard.dataChecks ⟨(m.wisard o).addressSize, (m.wisard o).opts, []⟩ ds = (m.wisard o).dataChecks ds := rfl
  rw [this]
  cases (m.wisard o).dataChecks ds with
  | error e => exact ⟨m, rfl, rfl, rfl, hs, fun _ _ => rfl⟩
  | ok _ => exact trainDataLoopP_run o ds _ 0 k m hs

theorem leave1P_run (o : Nat) (img : List Int) (label : Str) (k : c.P α) (m : Mem c.g) (hs : SortedKeys (m (.map o))) : ∃ m' : Mem c.g,
    (c.leave1P o img label k).run m = c.go ((m.wisard o).leaveOneOut img label).2 (fun _ => k) m' ∧
    m'.wisard o = ((m.wisard o).leaveOneOut img label).1 ∧ m' (.map o) = m (.map o) ∧
    ∀ l : Loc, (∀ lab, l.place ≠ some (.wis o lab)) → m' l = m l := by
  unfold leave1P Wisard.leaveOneOut
  rw [Mem.find_wisard]
  show ∃ m' : Mem c.g, Prog.run (if label ∈ m (.map o) then c.discUntrainP (.wis o label) (.vec img) k else k) m = _ ∧ _
  by_cases hm : label ∈ m (.map o)
  · rw [if_pos hm, if_pos hm]
    obtain ⟨m', f1, f2, f3⟩ := discUntrainP_run (c := c) (.wis o label) (.vec img) k m
    refine ⟨m', f1, ?_, f3 _ (by intro e; cases e), fun l hl => f3 l (hl label)⟩
    rw [Mem.wisard_put hs (l := label) ((f3 _ (by intro e; cases e)).trans (insertKey_of_mem hs hm).symm) (f3 _ (by intro e; cases e))
      (fun k hk => Mem.disc_congr (fun l hl => f3 l (by rw [hl]; intro e; injection e with e; injection e with _ e; exact hk e))), f2]
  · rw [if_neg hm, if_neg hm]
    exact ⟨m, rfl, rfl, rfl, fun _ _ => rfl⟩

theorem leaveLoopP_run (o : Nat) (es : List (List Int × Str)) : ∀ (k : c.P α) (m : Mem c.g), SortedKeys (m (.map o)) → ∃ m' : Mem c.g,
    (c.leaveLoopP o es k).run m = c.go ((m.wisard o).leaveLoop es).2 (fun _ => k) m' ∧
    m'.wisard o = ((m.wisard o).leaveLoop es).1 ∧ m' (.map o) = m (.map o) ∧
    ∀ l : Loc, (∀ lab, l.place ≠ some (.wis o lab)) → m' l = m l := by
  induction es with
  | nil => intro k m hs; exact ⟨m, rfl, rfl, rfl, fun _ _ => rfl⟩
  | cons e es ih =>
    intro k m hs
    obtain ⟨img, l⟩ := e
    unfold leaveLoopP Wisard.leaveLoop
    obtain ⟨m1, e1, e2, e4, e5⟩ := leave1P_run (c := c) o img l (c.leaveLoopP o es k) m hs
    rw [e1]
    revert e2
    rcases (m.wisard o).leaveOneOut img l with ⟨w', r⟩
    intro e2
    cases r with
    | error e => exact ⟨m1, rfl, e2, e4, e5⟩
    | ok _ =>
      obtain ⟨m', f1, f2, f4, f5⟩ := ih k m1 (by rw [e4]; exact hs)
      rw [e2] at f1 f2
      exact ⟨m', f1, f2, f4.trans e4, fun l hl => (f5 l hl).trans (e5 l hl)⟩

theorem leaveMoreP_run (o : Nat) (images : List (List Int)) (labels : List Str) (k : c.P α) (m : Mem c.g) (hs : SortedKeys (m (.map o))) :
    ∃ m' : Mem c.g,
    (c.leaveMoreP o images labels k).run m = c.go ((m.wisard o).leaveMoreOut images labels).2 (fun _ => k) m' ∧
    m'.wisard o = ((m.wisard o).leaveMoreOut images labels).1 ∧ m' (.map o) = m (.map o) ∧
    ∀ l : Loc, (∀ lab, l.place ≠ some (.wis o lab)) → m' l = m l := by
  unfold leaveMoreP Wisard.leaveMoreOut
  cases Wisard.checkInputSizes images.length labels.length with
  | error e => exact ⟨m, rfl, rfl, rfl, fun _ _ => rfl⟩
  | ok _ => exact leaveLoopP_run o _ k m hs

end Impl
end Wis
