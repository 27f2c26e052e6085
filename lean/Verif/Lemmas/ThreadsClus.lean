import Verif.Lemmas.ThreadsTrain
/-!
# Training of a ClusWisard, without interruption
-/

namespace Wis
open Spec

namespace Mem
variable {g : CRand}

theorem wisard_congr {m m' : Mem g} {o : Nat} (h1 : m' (.map o) = m (.map o)) (h2 : m' (.opts o) = m (.opts o))
    (h3 : ∀ k, m'.disc (.wis o k) = m.disc (.wis o k)) : m'.wisard o = m.wisard o := by
  unfold Mem.wisard
  rw [h1, h2]
  simp only [h3]

theorem cluster_congr {m m' : Mem g} {ref : Nat → Ref} (h : ∀ j, m'.disc (ref j) = m.disc (ref j)) (x : Option ClusterCfg × List Bool) :
    m'.cluster ref x = m.cluster ref x := by
  unfold Mem.cluster
  rw [discsFrom_congr h]

theorem clusWisard_congr {m m' : Mem g} {o : Nat} (h1 : m' (.clusters o) = m (.clusters o)) (h2 : m' (.copts o) = m (.copts o))
    (h3 : m' (.ucluster o) = m (.ucluster o)) (h4 : ∀ k j, m'.disc (.clus o k j) = m.disc (.clus o k j))
    (h5 : ∀ j, m'.disc (.unsup o j) = m.disc (.unsup o j)) : m'.clusWisard o = m.clusWisard o := by
  unfold Mem.clusWisard
  rw [h1, h2, h3, cluster_congr h5]
  have : ∀ k x, m'.cluster (Ref.clus o k) x = m.cluster (Ref.clus o k) x := fun k x => cluster_congr (fun j => h4 k j) x
  simp only [this]

/-- `Ordered`, of the memory. -/
theorem ordered_iff {m : Mem g} : Ordered (world m) ↔ ∀ o, SortedKeys (m (.map o)) ∧ SMap.Sorted (m (.clusters o)) := by
  have a : ∀ o, SMap.Sorted (m.wisard o).discriminators ↔ SortedKeys (m (.map o)) := by
    intro o
    show List.Pairwise _ (List.map _ _) ↔ _
    rw [List.pairwise_map]
    exact Iff.rfl
  have b : ∀ o, SMap.Sorted (m.clusWisard o).clusters ↔ SMap.Sorted (m (.clusters o)) := by
    intro o
    show List.Pairwise _ (List.map _ _) ↔ _
    rw [List.pairwise_map]
    exact Iff.rfl
  exact forall_congr' fun o => and_congr (a o) (b o)

theorem find_clus (m : Mem g) (o : Nat) (l : Str) : (m.clusWisard o).clusters.find l =
    (SMap.find (m (.clusters o)) l).map (m.cluster (Ref.clus o l)) := by
  show SMap.find (List.map _ _) l = _
  generalize m (.clusters o) = cs
  induction cs with
  | nil => rfl
  | cons e cs ih =>
    obtain ⟨k, x⟩ := e
    show (if k = l then some (m.cluster (Ref.clus o k) x) else SMap.find (List.map _ cs) l) = (if k = l then some x else SMap.find cs l).map _
    by_cases h : k = l
    · subst h; rw [if_pos rfl, if_pos rfl]; rfl
    · rw [if_neg h, if_neg h]; exact ih

theorem set_map {V U : Type} (f : Str → V → U) (l : Str) (x : V) (cs : SMap V) :
    (SMap.set cs l x).map (fun e => (e.1, f e.1 e.2)) = SMap.set (cs.map fun e => (e.1, f e.1 e.2)) l (f l x) := by
  induction cs with
  | nil => rfl
  | cons e cs ih =>
    obtain ⟨k, y⟩ := e
    show List.map _ (if k = l then (l, x) :: cs else if Str.lt l k then (l, x) :: (k, y) :: cs else (k, y) :: SMap.set cs l x) =
      (if k = l then (l, f l x) :: cs.map (fun e => (e.1, f e.1 e.2))
       else if Str.lt l k then (l, f l x) :: (k, f k y) :: cs.map (fun e => (e.1, f e.1 e.2))
       else (k, f k y) :: SMap.set (cs.map fun e => (e.1, f e.1 e.2)) l (f l x))
    by_cases h : k = l
    · rw [if_pos h, if_pos h]; rfl
    · rw [if_neg h, if_neg h]
      by_cases h' : Str.lt l k = true
      · rw [if_pos h', if_pos h']; rfl
      · rw [if_neg h', if_neg h', List.map_cons, ih]

end Mem

theorem slotRef_inj {o : Nat} {p : Option Str} {i j : Nat} (h : slotRef o p i = slotRef o p j) : i = j := by
  cases p with
  | none => injection h
  | some l => injection h

theorem slotLoc_place (o : Nat) (p : Option Str) : (slotLoc o p).place = none := by cases p <;> rfl

theorem slotLoc_gen (o : Nat) (p : Option Str) : slotLoc o p ≠ .gen := by cases p <;> (intro e; cases e)

namespace Mem
variable {g : CRand}

/-- The cluster of a label, or the unsupervised cluster. -/
def slot (m : Mem g) (o : Nat) : Option Str → Option ClusterCfg × List Bool
  | some l => (SMap.find (m (.clusters o)) l).getD (none, [])
  | none => m (.ucluster o)

theorem slot_congr {m m' : Mem g} {o : Nat} {p : Option Str} (h : m' (slotLoc o p) = m (slotLoc o p)) : m'.slot o p = m.slot o p := by
  cases p with
  | none => exact h
  | some l => show (SMap.find (m' (.clusters o)) l).getD _ = _; rw [show m' (.clusters o) = m (.clusters o) from h]; rfl

theorem discsFrom_congr' {m m' : Mem g} {ref : Nat → Ref} (bs : List Bool) : ∀ i : Nat, (∀ j, i ≤ j → j < i + bs.length → m'.disc (ref j) = m.disc (ref j)) →
    m'.discsFrom ref i bs = m.discsFrom ref i bs := by
  induction bs with
  | nil => intro i _; rfl
  | cons b bs ih =>
    intro i h
    rw [List.length_cons] at h
    show (if b then some (m'.disc (ref i)) else none) :: m'.discsFrom ref (i + 1) bs = _
    rw [h i (Nat.le_refl _) (by omega), ih (i + 1) (fun j h1 h2 => h j (by omega) (by omega))]
    rfl

theorem discsFrom_length (m : Mem g) (ref : Nat → Ref) (bs : List Bool) : ∀ i : Nat, (m.discsFrom ref i bs).length = bs.length := by
  induction bs with
  | nil => intro i; rfl
  | cons b bs ih => intro i; show (m.discsFrom ref (i + 1) bs).length + 1 = _; rw [ih, List.length_cons]

theorem discsFrom_append (m : Mem g) (ref : Nat → Ref) (bs bs' : List Bool) : ∀ i : Nat,
    m.discsFrom ref i (bs ++ bs') = m.discsFrom ref i bs ++ m.discsFrom ref (i + bs.length) bs' := by
  induction bs with
  | nil => intro i; rfl
  | cons b bs ih =>
    intro i
    show (if b then some (m.disc (ref i)) else none) :: m.discsFrom ref (i + 1) (bs ++ bs') = _
    rw [ih, List.length_cons, show i + 1 + bs.length = i + (bs.length + 1) by omega]
    rfl

theorem discsFrom_get (m : Mem g) (ref : Nat → Ref) (bs : List Bool) : ∀ i n : Nat,
    (m.discsFrom ref i bs)[n]? = bs[n]?.map fun b => if b then some (m.disc (ref (i + n))) else none := by
  induction bs with
  | nil => intro i n; rfl
  | cons b bs ih =>
    intro i n
    cases n with
    | zero => rfl
    | succ n =>
      show (m.discsFrom ref (i + 1) bs)[n]? = _
      rw [ih, show i + 1 + n = i + (n + 1) by omega]
      rfl

theorem discsFrom_set {m m' : Mem g} {ref : Nat → Ref} {bs : List Bool} {n : Nat} (hb : bs[n]? = some true)
    (h : ∀ j, j ≠ n → m'.disc (ref j) = m.disc (ref j)) : m'.discsFrom ref 0 bs = (m.discsFrom ref 0 bs).set n (some (m'.disc (ref n))) := by
  apply List.ext_getElem?
  intro j
  rw [discsFrom_get, List.getElem?_set, discsFrom_length, discsFrom_get, Nat.zero_add]
  by_cases e : n = j
  · subst e
    rw [if_pos rfl, hb]
    have : n < bs.length := by
      by_cases hn : n < bs.length
      · exact hn
      · rw [List.getElem?_eq_none (by omega)] at hb; cases hb
    rw [if_pos this]
    rfl
  · rw [if_neg e, h j (fun k => e k.symm)]

end Mem

/-- What training of one cluster may change. -/
structure KeepsMem {g : CRand} (m m' : Mem g) (o : Nat) (p : Option Str) : Prop where
  frame : ∀ l : Loc, l ≠ slotLoc o p → l ≠ .gen → (∀ j, l.place ≠ some (slotRef o p j)) → m' l = m l
  sorted : SMap.Sorted (m (.clusters o)) → SMap.Sorted (m' (.clusters o))
  other : ∀ k, p ≠ some k → SMap.find (m' (.clusters o)) k = SMap.find (m (.clusters o)) k
  known : ∀ k, (SMap.find (m (.clusters o)) k).isSome → (SMap.find (m' (.clusters o)) k).isSome

namespace KeepsMem
variable {g : CRand} {m m' m'' : Mem g} {o : Nat} {p : Option Str}

theorem of_frame (h : ∀ l : Loc, l ≠ .gen → (∀ j, l.place ≠ some (slotRef o p j)) → m' l = m l) : KeepsMem m m' o p := by
  have e : m' (.clusters o) = m (.clusters o) := h _ (by intro e; cases e) (by intro _ e; cases e)
  refine ⟨fun l _ h2 h3 => h l h2 h3, ?_, ?_, ?_⟩
  · rw [e]; exact fun h => h
  · intro k _; rw [e]
  · intro k; rw [e]; exact fun h => h

theorem rfl' : KeepsMem m m o p := of_frame fun _ _ _ => rfl

theorem trans (h : KeepsMem m m' o p) (h' : KeepsMem m' m'' o p) : KeepsMem m m'' o p :=
  ⟨fun l h1 h2 h3 => (h'.frame l h1 h2 h3).trans (h.frame l h1 h2 h3), fun hs => h'.sorted (h.sorted hs),
    fun k hk => (h'.other k hk).trans (h.other k hk), fun k hk => h'.known k (h.known k hk)⟩

end KeepsMem

namespace Impl
variable {c : Impl} {α : Type}

theorem readSlotP_run (o : Nat) (p : Option Str) (k : Option ClusterCfg × List Bool → c.P α) (m : Mem c.g) :
    (c.readSlotP o p k).run m = (k (m.slot o p)).run m := by cases p <;> rfl

theorem writeSlotP_run (o : Nat) (p : Option Str) (u : Option ClusterCfg × List Bool → Option ClusterCfg × List Bool) (k : c.P α) (m : Mem c.g) :
    ∃ m' : Mem c.g, (c.writeSlotP o p u k).run m = k.run m' ∧ m'.slot o p = u (m.slot o p) ∧ KeepsMem m m' o p ∧ ∀ l : Loc, l ≠ slotLoc o p → m' l = m l := by
  cases p with
  | none =>
    refine ⟨_, rfl, Store.upd_self _ _ _, ?_, fun l hl => Store.upd_ne _ _ hl⟩
    have e : ∀ l : Loc, l ≠ .ucluster o → Store.upd m (.ucluster o) (fun cl : Option ClusterCfg × List Bool => u cl) l = m l :=
      fun l hl => Store.upd_ne _ _ hl
    have e' := e (.clusters o) (by intro e; cases e)
    refine ⟨fun l h1 _ _ => e l h1, ?_, ?_, ?_⟩
    · rw [e']; exact fun h => h
    · intro k _; rw [e']
    · intro k; rw [e']; exact fun h => h
  | some l =>
    refine ⟨_, rfl, ?_, ?_, fun l hl => Store.upd_ne _ _ hl⟩
    · show (SMap.find (Store.upd m (.clusters o) _ (.clusters o)) l).getD _ = _
      rw [Store.upd_self, SMap.find_set_self]
      rfl
    · refine ⟨fun l h1 _ _ => Store.upd_ne _ _ h1, ?_, ?_, ?_⟩
      · intro h; rw [Store.upd_self]; exact SMap.sorted_set h _ _
      · intro k hk; rw [Store.upd_self, SMap.find_set_ne _ _ (fun e => hk (by rw [e]))]
      · intro k hk
        rw [Store.upd_self]
        by_cases e : k = l
        · subst e; rw [SMap.find_set_self]; rfl
        · rw [SMap.find_set_ne _ _ e]; exact hk

theorem newClusterDiscP_run (cf : ClusterCfg) (k : Discriminator → c.P α) (m : Mem c.g) : ∃ m' : Mem c.g,
    (c.newClusterDiscP cf k).run m =
      c.go (Discriminator.setRAMShuffleG c.g (m .gen) cf.entrySize cf.addressSize cf.ignoreZero cf.completeAddressing cf.base).1 k m' ∧
    m' .gen = (Discriminator.setRAMShuffleG c.g (m .gen) cf.entrySize cf.addressSize cf.ignoreZero cf.completeAddressing cf.base).2 ∧
    ∀ l : Loc, l ≠ .gen → m' l = m l := by
  refine ⟨Store.upd m .gen (fun _ => (Discriminator.setRAMShuffleG c.g (m .gen) cf.entrySize cf.addressSize cf.ignoreZero cf.completeAddressing cf.base).2),
    ?_, Store.upd_self _ _ _, fun _ hl => Store.upd_ne _ _ hl⟩
  show Prog.run (match (Discriminator.setRAMShuffleG c.g (m .gen) cf.entrySize cf.addressSize cf.ignoreZero cf.completeAddressing cf.base).1 with
      | .error e => .done (.error e)
      | .ok d => k d) _ = _
  cases (Discriminator.setRAMShuffleG c.g (m .gen) cf.entrySize cf.addressSize cf.ignoreZero cf.completeAddressing cf.base).1 <;> rfl

theorem insertAt_new (bs : List Bool) : insertAt bs bs.length = bs ++ [false] := by
  unfold insertAt
  rw [if_neg (Nat.lt_irrefl _), show bs.length + 1 - bs.length = 1 by omega]
  rfl

/-- A new discriminator is in place and is trained. -/
theorem finish_run {o : Nat} {p : Option Str} {cf : ClusterCfg} {bs : List Bool} {d : Discriminator} {m m4 : Mem c.g} (img : Image) (k : c.P α)
    (h1 : m4.slot o p = (some cf, bs ++ [true])) (h2 : m4.disc (slotRef o p bs.length) = d)
    (h3 : ∀ j, j ≠ bs.length → m4.disc (slotRef o p j) = m.disc (slotRef o p j)) (h4 : KeepsMem m m4 o p) : ∃ m' : Mem c.g,
    (c.touchP (slotLoc o p) (c.discTrainP (slotRef o p bs.length) img k)).run m4 = c.go (d.train img).2 (fun _ => k) m' ∧
    m'.cluster (slotRef o p) (m'.slot o p) = ⟨some cf, m.discsFrom (slotRef o p) 0 bs ++ [some (d.train img).1]⟩ ∧ m' .gen = m4 .gen ∧ KeepsMem m m' o p := by
  rw [touchP_run]
  obtain ⟨m', e1, e2, e3⟩ := discTrainP_run (c := c) (slotRef o p bs.length) img k m4
  rw [h2] at e1 e2
  refine ⟨m', e1, ?_, e3 .gen (by intro e; cases e), h4.trans (KeepsMem.of_frame fun l _ hl => e3 l (hl _))⟩
  rw [Mem.slot_congr (m := m4) (m' := m') (e3 _ (by rw [slotLoc_place]; intro e; cases e)), h1]
  unfold Mem.cluster
  dsimp only
  rw [Mem.discsFrom_append, Nat.zero_add]
  show Cluster.mk _ (_ ++ [some (m'.disc (slotRef o p bs.length))]) = _
  rw [e2, Mem.discsFrom_congr' (m := m) (m' := m')]
  intro j _ hj
  rw [Mem.disc_congr (m := m4) (m' := m'), h3 j (by omega)]
  intro l hl
  refine e3 l ?_
  rw [hl]
  intro e
  injection e with e
  have := slotRef_inj e
  omega

theorem trainNewP_run (o : Nat) (p : Option Str) (img : Image) (k : c.P α) (m : Mem c.g) : ∃ m' : Mem c.g,
    (c.trainNewP o p (m.slot o p).1 (m.slot o p).2.length img k).run m =
      c.go (Cluster.trainNewG c.g c.lhsFirst (m .gen) (m.cluster (slotRef o p) (m.slot o p)) img).1.2 (fun _ => k) m' ∧
    m'.cluster (slotRef o p) (m'.slot o p) = (Cluster.trainNewG c.g c.lhsFirst (m .gen) (m.cluster (slotRef o p) (m.slot o p)) img).1.1 ∧
    m' .gen = (Cluster.trainNewG c.g c.lhsFirst (m .gen) (m.cluster (slotRef o p) (m.slot o p)) img).2 ∧ KeepsMem m m' o p := by
  generalize hs : m.slot o p = cl
  obtain ⟨cfg, bs⟩ := cl
  unfold trainNewP Cluster.trainNewG Mem.cluster
  cases cfg with
  | none => exact ⟨m, rfl, by rw [hs], rfl, KeepsMem.rfl'⟩
  | some cf =>
    dsimp only
    have place : ∀ {j : Nat} {l : Loc}, l.place = some (slotRef o p j) → l ≠ slotLoc o p ∧ l ≠ .gen := by
      intro j l h
      refine ⟨fun e => ?_, fun e => ?_⟩
      · rw [e, slotLoc_place] at h; cases h
      · rw [e] at h; cases h
    unfold makeDiscP
    by_cases hl : c.lhsFirst = true
    · rw [if_pos hl]
      simp only [hl, if_true]
      obtain ⟨m1, a1, a2, a3, a4⟩ := writeSlotP_run (c := c) o p (fun cl => (cl.1, insertAt cl.2 bs.length))
        (c.newClusterDiscP cf fun d => c.assignP (slotRef o p bs.length) d <| c.writeSlotP o p (fun cl => (cl.1, cl.2.set bs.length true))
              (c.touchP (slotLoc o p) (c.discTrainP (slotRef o p bs.length) img k))) m
      rw [a1]
      obtain ⟨m2, b1, b2, b3⟩ := newClusterDiscP_run (c := c) cf (fun d => c.assignP (slotRef o p bs.length) d <| c.writeSlotP o p (fun cl => (cl.1, cl.2.set bs.length true))
              (c.touchP (slotLoc o p) (c.discTrainP (slotRef o p bs.length) img k))) m1
      rw [b1]
      rw [a4 .gen (slotLoc_gen o p).symm] at b2 ⊢
      rw [hs] at a2
      dsimp only at a2
      rw [insertAt_new] at a2
      have s2 : m2.slot o p = (some cf, bs ++ [false]) := by
        rw [Mem.slot_congr (m := m1) (m' := m2) (b3 _ (slotLoc_gen o p)), a2]
      have d2 : ∀ j, m2.disc (slotRef o p j) = m.disc (slotRef o p j) := fun j => Mem.disc_congr fun l h => by
        rw [b3 l (place h).2, a4 l (place h).1]
      have k2 : KeepsMem m m2 o p := a3.trans (KeepsMem.of_frame fun l h1 _ => b3 l h1)
      revert b2
      rcases Discriminator.setRAMShuffleG c.g (m .gen) cf.entrySize cf.addressSize cf.ignoreZero cf.completeAddressing cf.base with ⟨r, s'⟩
      intro b2
      cases r with
      | error e =>
        refine ⟨m2, rfl, ?_, b2, k2⟩
        rw [s2]
        dsimp only
        rw [Mem.discsFrom_append, Mem.discsFrom_congr' (m := m) (m' := m2) bs 0 (fun j _ _ => d2 j)]
        rfl
      | ok d =>
        dsimp only [go]
        obtain ⟨m3, f1, f2, f3⟩ := assignP_run (c := c) (slotRef o p bs.length) d (c.writeSlotP o p (fun cl => (cl.1, cl.2.set bs.length true))
              (c.touchP (slotLoc o p) (c.discTrainP (slotRef o p bs.length) img k))) m2
        rw [f1]
        obtain ⟨m4, g1, g2, g3, g4⟩ := writeSlotP_run (c := c) o p (fun cl => (cl.1, cl.2.set bs.length true))
              (c.touchP (slotLoc o p) (c.discTrainP (slotRef o p bs.length) img k)) m3
        rw [g1]
        rw [Mem.slot_congr (m := m2) (m' := m3) (f3 _ (by rw [slotLoc_place]; intro e; cases e)), s2] at g2
        have g2 : m4.slot o p = (some cf, bs ++ [true]) := by
          rw [g2]; dsimp only; rw [List.set_append_right _ _ (Nat.le_refl _), Nat.sub_self]; rfl
        obtain ⟨m', z1, z2, z3, z4⟩ := finish_run (c := c) (m := m) (m4 := m4) (d := d) img k g2
          ((Mem.disc_congr fun l h => g4 l (place h).1).trans f2) (fun j hj => by
            rw [Mem.disc_congr (m := m3) (m' := m4) fun l h => g4 l (place h).1, Mem.disc_congr (m := m2) (m' := m3), d2 j]
            intro l h
            refine f3 l ?_
            rw [h]; intro e; injection e with e; exact hj (slotRef_inj e))
          (k2.trans ((KeepsMem.of_frame fun l _ h => f3 l (h _)).trans g3))
        refine ⟨m', z1, z2, ?_, z4⟩
        rw [z3, g4 _ (slotLoc_gen o p).symm, f3 _ (by intro e; cases e), b2]
    · rw [if_neg hl]
      simp only [hl]
      obtain ⟨m2, b1, b2, b3⟩ := newClusterDiscP_run (c := c) cf (fun d => c.assignP (slotRef o p bs.length) d <| c.writeSlotP o p (fun cl => (cl.1, (insertAt cl.2 bs.length).set bs.length true))
              (c.touchP (slotLoc o p) (c.discTrainP (slotRef o p bs.length) img k))) m
      rw [b1]
      have s2 : m2.slot o p = (some cf, bs) := by
        rw [Mem.slot_congr (m := m) (m' := m2) (b3 _ (slotLoc_gen o p)), hs]
      have d2 : ∀ j, m2.disc (slotRef o p j) = m.disc (slotRef o p j) := fun j => Mem.disc_congr fun l h => b3 l (place h).2
      have k2 : KeepsMem m m2 o p := KeepsMem.of_frame fun l h1 _ => b3 l h1
      revert b2
      rcases Discriminator.setRAMShuffleG c.g (m .gen) cf.entrySize cf.addressSize cf.ignoreZero cf.completeAddressing cf.base with ⟨r, s'⟩
      intro b2
      cases r with
      | error e =>
        refine ⟨m2, rfl, ?_, b2, k2⟩
        rw [s2]
        dsimp only
        rw [Mem.discsFrom_congr' (m := m) (m' := m2) bs 0 (fun j _ _ => d2 j)]
        rfl
      | ok d =>
        dsimp only [go]
        obtain ⟨m3, f1, f2, f3⟩ := assignP_run (c := c) (slotRef o p bs.length) d (c.writeSlotP o p (fun cl => (cl.1, (insertAt cl.2 bs.length).set bs.length true))
              (c.touchP (slotLoc o p) (c.discTrainP (slotRef o p bs.length) img k))) m2
        rw [f1]
        obtain ⟨m4, g1, g2, g3, g4⟩ := writeSlotP_run (c := c) o p (fun cl => (cl.1, (insertAt cl.2 bs.length).set bs.length true))
              (c.touchP (slotLoc o p) (c.discTrainP (slotRef o p bs.length) img k)) m3
        rw [g1]
        rw [Mem.slot_congr (m := m2) (m' := m3) (f3 _ (by rw [slotLoc_place]; intro e; cases e)), s2] at g2
        have g2 : m4.slot o p = (some cf, bs ++ [true]) := by
          rw [g2]; dsimp only; rw [insertAt_new, List.set_append_right _ _ (Nat.le_refl _), Nat.sub_self]; rfl
        obtain ⟨m', z1, z2, z3, z4⟩ := finish_run (c := c) (m := m) (m4 := m4) (d := d) img k g2
          ((Mem.disc_congr fun l h => g4 l (place h).1).trans f2) (fun j hj => by
            rw [Mem.disc_congr (m := m3) (m' := m4) fun l h => g4 l (place h).1, Mem.disc_congr (m := m2) (m' := m3), d2 j]
            intro l h
            refine f3 l ?_
            rw [h]; intro e; injection e with e; exact hj (slotRef_inj e))
          (k2.trans ((KeepsMem.of_frame fun l _ h => f3 l (h _)).trans g3))
        refine ⟨m', z1, z2, ?_, z4⟩
        rw [z3, g4 _ (slotLoc_gen o p).symm, f3 _ (by intro e; cases e), b2]

theorem scanP_run (o : Nat) (p : Option Str) (cf : ClusterCfg) (img : Image) (bs : List Bool) : ∀ (i : Nat) (bv : Rat) (best : Option Nat) (tr : Bool)
    (k : Option Nat × Bool → c.P α) (m : Mem c.g), ∃ m' : Mem c.g,
    (c.scanP o p cf img bs i bv best tr k).run m = c.go (Cluster.scan c.f cf img (m.discsFrom (slotRef o p) i bs) i bv best tr).2 k m' ∧
    m'.discsFrom (slotRef o p) i bs = (Cluster.scan c.f cf img (m.discsFrom (slotRef o p) i bs) i bv best tr).1 ∧
    ∀ l : Loc, (∀ j, i ≤ j → l.place ≠ some (slotRef o p j)) → m' l = m l := by
  induction bs with
  | nil => intro i bv best tr k m; exact ⟨m, rfl, rfl, fun _ _ => rfl⟩
  | cons b bs ih =>
    intro i bv best tr k m
    cases b with
    | false => exact ⟨m, rfl, rfl, fun _ _ => rfl⟩
    | true =>
      show ∃ m' : Mem c.g, _ = c.go (Cluster.scan c.f cf img (some (m.disc (slotRef o p i)) :: m.discsFrom (slotRef o p) (i + 1) bs) i bv best tr).2 k m' ∧
        some (m'.disc (slotRef o p i)) :: m'.discsFrom (slotRef o p) (i + 1) bs = (Cluster.scan c.f cf img (some (m.disc (slotRef o p i)) :: m.discsFrom (slotRef o p) (i + 1) bs) i bv best tr).1 ∧ _
      unfold scanP Cluster.scan
      rw [touchP_run, discClassifyP_run]
      cases (m.disc (slotRef o p i)).classify img with
      | error e => exact ⟨m, rfl, rfl, fun _ _ => rfl⟩
      | ok votes =>
        dsimp only [go]
        rw [touchP_run]
        show ∃ m' : Mem c.g, Prog.run (if Cluster.getScore c.f votes ≥ Cluster.limit c.f cf (m.disc (slotRef o p i)).getNumberOfTrainings then _ else _) m = _ ∧ _
        have low : ∀ {m1 : Mem c.g}, (∀ l : Loc, l.place ≠ some (slotRef o p i) → m1 l = m l) →
            m1.discsFrom (slotRef o p) (i + 1) bs = m.discsFrom (slotRef o p) (i + 1) bs := fun {m1} h =>
          Mem.discsFrom_congr' bs (i + 1) (fun j hj _ => Mem.disc_congr fun l hl => h l (by
            rw [hl]; intro e; injection e with e; have := slotRef_inj e; omega))
        by_cases hl : Cluster.getScore c.f votes ≥ Cluster.limit c.f cf (m.disc (slotRef o p i)).getNumberOfTrainings
        · simp only [if_pos hl]
          rw [touchP_run]
          obtain ⟨m1, e1, e2, e3⟩ := discTrainP_run (c := c) (slotRef o p i) img (.read (slotLoc o p) fun _ => c.scanP o p cf img bs (i + 1)
            (if Cluster.getScore c.f votes ≥ bv then Cluster.getScore c.f votes else bv)
            (if Cluster.getScore c.f votes ≥ bv then some i else best) true k) m
          rw [e1]
          have lw := low e3
          revert e2
          rcases (m.disc (slotRef o p i)).train img with ⟨d', r⟩
          intro e2
          cases r with
          | error e =>
            refine ⟨m1, rfl, ?_, fun l hl => e3 l (hl i (Nat.le_refl _))⟩
            rw [e2, lw]
          | ok _ =>
            obtain ⟨m2, f1, f2, f3⟩ := ih (i + 1) (if Cluster.getScore c.f votes ≥ bv then Cluster.getScore c.f votes else bv)
              (if Cluster.getScore c.f votes ≥ bv then some i else best) true k m1
            rw [lw] at f1 f2
            refine ⟨m2, f1, ?_, fun l hl => ?_⟩
            · dsimp only
              rw [f2, Mem.disc_congr (m := m1) (m' := m2), e2]
              intro l hl
              refine f3 l (fun j hj => ?_)
              rw [hl]; intro e; injection e with e; have := slotRef_inj e; omega
            · rw [f3 l (fun j hj => hl j (by omega)), e3 l (hl i (Nat.le_refl _))]
        · simp only [if_neg hl]
          obtain ⟨m2, f1, f2, f3⟩ := ih (i + 1) (if Cluster.getScore c.f votes ≥ bv then Cluster.getScore c.f votes else bv)
              (if Cluster.getScore c.f votes ≥ bv then some i else best) tr k m
          refine ⟨m2, f1, ?_, fun l hl => f3 l (fun j hj => hl j (by omega))⟩
          rw [f2, Mem.disc_congr (m := m) (m' := m2)]
          intro l hl
          refine f3 l (fun j hj => ?_)
          rw [hl]; intro e; injection e with e; have := slotRef_inj e; omega

theorem trainAtP_run (o : Nat) (p : Option Str) (bs : List Bool) (i : Nat) (img : Image) (k : c.P α) (m : Mem c.g) : ∃ m' : Mem c.g,
    (c.trainAtP o p bs i img k).run m = c.go (Cluster.trainAt (m.discsFrom (slotRef o p) 0 bs) i img).2 (fun _ => k) m' ∧
    m'.discsFrom (slotRef o p) 0 bs = (Cluster.trainAt (m.discsFrom (slotRef o p) 0 bs) i img).1 ∧
    ∀ l : Loc, (∀ j, l.place ≠ some (slotRef o p j)) → m' l = m l := by
  unfold trainAtP Cluster.trainAt
  rw [Mem.discsFrom_get, Nat.zero_add]
  cases hb : bs[i]? with
  | none => exact ⟨m, rfl, rfl, fun _ _ => rfl⟩
  | some b =>
    cases b with
    | false => exact ⟨m, rfl, rfl, fun _ _ => rfl⟩
    | true =>
      obtain ⟨m', e1, e2, e3⟩ := discTrainP_run (c := c) (slotRef o p i) img k m
      refine ⟨m', e1, ?_, fun l hl => e3 l (hl i)⟩
      show _ = (m.discsFrom (slotRef o p) 0 bs).set i (some ((m.disc (slotRef o p i)).train img).1)
      rw [← e2]
      exact Mem.discsFrom_set hb (fun j hj => Mem.disc_congr fun l hl => e3 l (by
        rw [hl]; intro e; injection e with e; exact hj (slotRef_inj e)))

theorem clusterTrainP_run (o : Nat) (p : Option Str) (img : Image) (k : c.P α) (m : Mem c.g) : ∃ m' : Mem c.g,
    (c.clusterTrainP o p img k).run m =
      c.go (Cluster.trainG c.f c.g c.lhsFirst (m .gen) (m.cluster (slotRef o p) (m.slot o p)) img).1.2 (fun _ => k) m' ∧
    m'.cluster (slotRef o p) (m'.slot o p) = (Cluster.trainG c.f c.g c.lhsFirst (m .gen) (m.cluster (slotRef o p) (m.slot o p)) img).1.1 ∧
    m' .gen = (Cluster.trainG c.f c.g c.lhsFirst (m .gen) (m.cluster (slotRef o p) (m.slot o p)) img).2 ∧ KeepsMem m m' o p := by
  unfold clusterTrainP Cluster.trainG
  rw [readSlotP_run]
  have len : (m.cluster (slotRef o p) (m.slot o p)).discriminators.length = (m.slot o p).2.length := Mem.discsFrom_length m _ _ 0
  rw [len]
  by_cases h0 : (m.slot o p).2.length = 0
  · rw [if_pos h0, if_pos h0]
    have := trainNewP_run (c := c) o p img k m
    rw [h0] at this
    exact this
  · rw [if_neg h0, if_neg h0]
    generalize hs : m.slot o p = cl
    obtain ⟨cfg, bs⟩ := cl
    unfold Mem.cluster
    cases cfg with
    | none => exact ⟨m, rfl, by rw [hs], rfl, KeepsMem.rfl'⟩
    | some cf =>
      dsimp only
      obtain ⟨m1, e1, e2, e3⟩ := scanP_run (c := c) o p cf img bs 0 0 none false (fun r =>
          if r.2 then k
          else if (bs.length : Int) < cf.discriminatorsLimit then c.trainNewP o p (some cf) bs.length img k
          else
            match r.1 with
            | none => k
            | some i => c.trainAtP o p bs i img k) m
      have run : Prog.run (c.scanP o p cf img bs 0 0 none false fun r =>
          if r.2 then k
          else if (bs.length : Int) < cf.discriminatorsLimit then c.trainNewP o p (some cf) bs.length img k
          else
            match r.1 with
            | none => k
            | some i => c.trainAtP o p bs i img k) m = _ := e1
      have k1 : KeepsMem m m1 o p := KeepsMem.of_frame fun l _ hl => e3 l (fun j _ => hl j)
      have s1 : m1.slot o p = (some cf, bs) := by
        rw [Mem.slot_congr (m := m) (m' := m1) (e3 _ (fun j _ => by rw [slotLoc_place]; intro e; cases e)), hs]
      have g1 : m1 .gen = m .gen := e3 _ (fun j _ => by intro e; cases e)
      refine Exists.imp (fun m' h => ⟨run.trans h.1, h.2⟩) (?_ : ∃ m' : Mem c.g, _ ∧ _)
      revert e2
      rcases Cluster.scan c.f cf img (m.discsFrom (slotRef o p) 0 bs) 0 0 none false with ⟨ds, r⟩
      intro e2
      dsimp only at e2
      subst e2
      cases r with
      | error e => exact ⟨m1, rfl, by rw [s1], g1, k1⟩
      | ok r =>
        obtain ⟨best, tr⟩ := r
        dsimp only [go]
        cases tr with
        | true => exact ⟨m1, rfl, by rw [s1]; rfl, g1, k1⟩
        | false =>
          rw [Mem.discsFrom_length]
          simp only [Bool.false_eq_true, if_false]
          by_cases hl : (bs.length : Int) < cf.discriminatorsLimit
          · simp only [if_pos hl]
            obtain ⟨m', f1, f2, f3, f4⟩ := trainNewP_run (c := c) o p img k m1
            rw [s1, g1] at f1 f2 f3
            exact ⟨m', f1, f2, f3, k1.trans f4⟩
          · simp only [if_neg hl]
            cases best with
            | none => exact ⟨m1, rfl, by rw [s1], g1, k1⟩
            | some i =>
              obtain ⟨m', f1, f2, f3⟩ := trainAtP_run (c := c) o p bs i img k m1
              refine ⟨m', f1, ?_, ?_, k1.trans (KeepsMem.of_frame fun l _ hl => f3 l hl)⟩
              · rw [Mem.slot_congr (m := m1) (m' := m') (f3 _ (fun j => by rw [slotLoc_place]; intro e; cases e)), s1]
                dsimp only
                rw [f2]
              · rw [f3 _ (fun j => by intro e; cases e), g1]

end Impl

/-- Locations that training of ClusWisard `o` may change. -/
def MineC (o : Nat) (l : Loc) : Prop := l = .clusters o ∨ l = .ucluster o ∨ l = .gen ∨ ∃ p j, l.place = some (slotRef o p j)

theorem MineC.frame {o : Nat} {p : Option Str} {g : CRand} {m m' : Mem g} (h : KeepsMem m m' o p) {l : Loc} (hl : ¬ MineC o l) : m' l = m l := by
  refine h.frame l ?_ (fun e => hl (.inr (.inr (.inl e)))) (fun j e => hl (.inr (.inr (.inr ⟨p, j, e⟩))))
  intro e
  cases p with
  | none => exact hl (.inr (.inl e))
  | some k => exact hl (.inl e)

namespace Mem
variable {g : CRand}

theorem disc_other {m m' : Mem g} {o : Nat} {p : Option Str} (h : KeepsMem m m' o p) {r : Ref} (hr : ∀ j, r ≠ slotRef o p j) : m'.disc r = m.disc r :=
  disc_congr fun l hl => h.frame l (by rintro rfl; rw [slotLoc_place] at hl; cases hl) (by rintro rfl; cases hl)
    (fun j => by rw [hl]; intro e; injection e with e; exact hr j e)

/-- Training of the cluster of a label. -/
theorem clusWisard_label {m m' : Mem g} {o : Nat} {l : Str} (h : KeepsMem m m' o (some l)) (hs : SMap.Sorted (m (.clusters o)))
    (hk : (SMap.find (m (.clusters o)) l).isSome) : m'.clusWisard o =
      { m.clusWisard o with clusters := (m.clusWisard o).clusters.set l (m'.cluster (slotRef o (some l)) (m'.slot o (some l))) } := by
  have e1 : (m'.clusWisard o).clusters = (m.clusWisard o).clusters.set l (m'.cluster (slotRef o (some l)) (m'.slot o (some l))) := by
    have srt : ∀ m : Mem g, SMap.Sorted (m (.clusters o)) → SMap.Sorted (m.clusWisard o).clusters := fun m h => by
      show List.Pairwise _ (List.map _ _)
      rw [List.pairwise_map]
      exact h
    apply SMap.ext (srt m' (h.sorted hs)) (SMap.sorted_set (srt m hs) _ _)
    intro k
    rw [find_clus]
    by_cases e : k = l
    · subst e
      rw [SMap.find_set_self]
      have := h.known k hk
      unfold slot
      cases hf : SMap.find (m' (.clusters o)) k with
      | none => rw [hf] at this; cases this
      | some x => dsimp only; rw [hf]; rfl
    · rw [SMap.find_set_ne _ _ e, find_clus, h.other k (by intro e'; injection e' with e'; exact e e'.symm)]
      cases SMap.find (m (.clusters o)) k with
      | none => rfl
      | some x =>
        show some _ = some _
        rw [cluster_congr (m := m) (m' := m') (fun j => disc_other h (by
          intro j' e'; injection e' with _ e'; exact e e'))]
  have e2 : m' (.copts o) = m (.copts o) := h.frame _ (by intro e; cases e) (by intro e; cases e) (by intro j e; cases e)
  have e3 : m' (.ucluster o) = m (.ucluster o) := h.frame _ (by intro e; cases e) (by intro e; cases e) (by intro j e; cases e)
  have e4 : (m'.clusWisard o).unsupervisedCluster = (m.clusWisard o).unsupervisedCluster := by
    show m'.cluster (Ref.unsup o) (m' (.ucluster o)) = m.cluster (Ref.unsup o) (m (.ucluster o))
    rw [e3]
    exact cluster_congr (fun j => disc_other h (by intro j' e'; cases e')) _
  show ClusWisard.mk _ _ _ _ _ (m'.clusWisard o).clusters (m'.clusWisard o).unsupervisedCluster = _
  rw [e1, e2, e4]
  rfl

/-- Training of the unsupervised cluster. -/
theorem clusWisard_unsup {m m' : Mem g} {o : Nat} (h : KeepsMem m m' o none) : m'.clusWisard o =
      { m.clusWisard o with unsupervisedCluster := m'.cluster (slotRef o none) (m'.slot o none) } := by
  have e1 : m' (.clusters o) = m (.clusters o) := h.frame _ (by intro e; cases e) (by intro e; cases e) (by intro j e; cases e)
  have e2 : m' (.copts o) = m (.copts o) := h.frame _ (by intro e; cases e) (by intro e; cases e) (by intro j e; cases e)
  unfold clusWisard
  rw [e1, e2]
  have e3 : ∀ k x, m'.cluster (Ref.clus o k) x = m.cluster (Ref.clus o k) x := fun k x =>
    cluster_congr (fun j => disc_other h (by intro j' e'; cases e')) x
  simp only [e3]
  rfl

/-- A new cluster without discriminators. -/
theorem clusWisard_insert (m : Mem g) (o : Nat) (l : Str) (x : Option ClusterCfg) (m' : Mem g)
    (hm : m' = Store.upd m (.clusters o) (fun cs : SMap (Option ClusterCfg × List Bool) => SMap.set cs l (x, []))) :
    m'.clusWisard o = { m.clusWisard o with clusters := (m.clusWisard o).clusters.set l ⟨x, []⟩ } := by
  have h0 : m' (.clusters o) = SMap.set (m (.clusters o)) l (x, []) := by rw [hm]; exact Store.upd_self _ _ _
  have h1 : ∀ l : Loc, l ≠ .clusters o → m' l = m l := fun l hl => by rw [hm]; exact Store.upd_ne _ _ hl
  have hd : ∀ r : Ref, m'.disc r = m.disc r := fun r => disc_congr (fun l hl => h1 l (by rintro rfl; cases hl))
  unfold clusWisard
  rw [h0, h1 (.copts o) (by intro e; cases e), h1 (.ucluster o) (by intro e; cases e), cluster_congr (m := m) (m' := m') (fun j => hd _)]
  have hc : ∀ k x, m'.cluster (Ref.clus o k) x = m.cluster (Ref.clus o k) x := fun k x => cluster_congr (m := m) (m' := m') (fun j => hd _) x
  simp only [hc]
  congr 1
  exact set_map (fun k x => m.cluster (Ref.clus o k) x) l (x, []) (m (.clusters o))

end Mem

namespace Impl
variable {c : Impl} {α : Type}

/-- What is said of a program that trains ClusWisard `o`: it does what the function does. -/
def Trains (o : Nat) (p : c.P α → c.P α) (f : c.g.S → ClusWisard → (ClusWisard × Res Unit) × c.g.S) : Prop :=
  ∀ (k : c.P α) (m : Mem c.g), SMap.Sorted (m (.clusters o)) → ∃ m' : Mem c.g,
    (p k).run m = c.go (f (m .gen) (m.clusWisard o)).1.2 (fun _ => k) m' ∧ m'.clusWisard o = (f (m .gen) (m.clusWisard o)).1.1 ∧
    m' .gen = (f (m .gen) (m.clusWisard o)).2 ∧ SMap.Sorted (m' (.clusters o)) ∧ ∀ l : Loc, ¬ MineC o l → m' l = m l

theorem clusTrainInP_run (o : Nat) (img : List Int) (l : Str) :
    Trains (α := α) o (c.clusTrainInP o img l) (fun s w => ClusWisard.trainInG c.f c.g c.lhsFirst s w img l) := by
  intro k m hs
  have known : ∀ m : Mem c.g, SMap.Sorted (m (.clusters o)) → (SMap.find (m (.clusters o)) l).isSome → ∃ m' : Mem c.g,
      (c.clusterTrainP o (some l) (.vec img) k).run m = c.go (ClusWisard.trainInG c.f c.g c.lhsFirst (m .gen) (m.clusWisard o) img l).1.2 (fun _ => k) m' ∧
      m'.clusWisard o = (ClusWisard.trainInG c.f c.g c.lhsFirst (m .gen) (m.clusWisard o) img l).1.1 ∧
      m' .gen = (ClusWisard.trainInG c.f c.g c.lhsFirst (m .gen) (m.clusWisard o) img l).2 ∧ SMap.Sorted (m' (.clusters o)) ∧
      ∀ l : Loc, ¬ MineC o l → m' l = m l := by
    intro m hs hk
    obtain ⟨m', e1, e2, e3, e4⟩ := clusterTrainP_run (c := c) o (some l) (.vec img) k m
    have hc : ((m.clusWisard o).clusters.find l).getD Cluster.default = m.cluster (slotRef o (some l)) (m.slot o (some l)) := by
      rw [Mem.find_clus]
      unfold Mem.slot
      cases hf : SMap.find (m (.clusters o)) l with
      | none => rw [hf] at hk; cases hk
      | some x => dsimp only; rw [hf]; rfl
    have hw := Mem.clusWisard_label e4 hs hk
    refine ⟨m', ?_, ?_, ?_, e4.sorted hs, fun l' hl => MineC.frame e4 hl⟩
    · rw [e1]; unfold ClusWisard.trainInG; rw [hc]
    · rw [hw, e2]; unfold ClusWisard.trainInG; rw [hc]
    · rw [e3]; unfold ClusWisard.trainInG; rw [hc]
  unfold clusTrainInP
  show ∃ m' : Mem c.g, Prog.run (match SMap.find (m (.clusters o)) l with
    | some _ => c.touchP (.clusters o) <| c.clusterTrainP o (some l) (.vec img) k
    | none => .write (.clusters o) (fun cs : SMap (Option ClusterCfg × List Bool) => SMap.set cs l (none, [])) <|
        c.clusterTrainP o (some l) (.vec img) k) m = _ ∧ _
  cases hf : SMap.find (m (.clusters o)) l with
  | some x =>
    dsimp only
    rw [touchP_run]
    exact known m hs (by rw [hf]; rfl)
  | none =>
    obtain ⟨m1, hm⟩ : ∃ m1 : Mem c.g, Store.upd m (.clusters o) (fun cs : SMap (Option ClusterCfg × List Bool) => SMap.set cs l (none, [])) = m1 := ⟨_, rfl⟩
    have c1 : m1 (.clusters o) = SMap.set (m (.clusters o)) l (none, []) := by rw [← hm]; exact Store.upd_self _ _ _
    have f1 : ∀ l : Loc, l ≠ .clusters o → m1 l = m l := fun l hl => by rw [← hm]; exact Store.upd_ne _ _ hl
    obtain ⟨m', e1, e2, e3, e4, e5⟩ := known m1 (by rw [c1]; exact SMap.sorted_set hs _ _) (by rw [c1, SMap.find_set_self]; rfl)
    have hw := Mem.clusWisard_insert m o l none m1 hm.symm
    have hn : (m.clusWisard o).clusters.find l = none := by rw [Mem.find_clus, hf]; rfl
    have eq : ClusWisard.trainInG c.f c.g c.lhsFirst (m1 .gen) (m1.clusWisard o) img l =
        ClusWisard.trainInG c.f c.g c.lhsFirst (m .gen) (m.clusWisard o) img l := by
      rw [hw, f1 .gen (by intro e; cases e)]
      unfold ClusWisard.trainInG
      dsimp only
      rw [SMap.find_set_self, hn, SMap.set_set]
      rfl
    rw [eq] at e1 e2 e3
    refine ⟨m', ?_, e2, e3, e4, fun l' hl => (e5 l' hl).trans (f1 l' (fun e => hl (.inl e)))⟩
    rw [← e1, ← hm]
    rfl

theorem clusTrain1P_run (o : Nat) (img : List Int) (l : Str) :
    Trains (α := α) o (c.clusTrain1P o img l) (fun s w => ClusWisard.train1G c.f c.g c.lhsFirst s w img l) := by
  intro k m hs
  unfold clusTrain1P
  show ∃ m' : Mem c.g, Prog.run (match SMap.find (m (.clusters o)) l with
    | some _ => c.clusTrainInP o img l k
    | none => .read (.copts o) fun p : (Int × Rat × Int × Int) × ClusOpts =>
        .write (.clusters o) (fun cs : SMap (Option ClusterCfg × List Bool) => SMap.set cs l (some ((members p).clusterCfg img.length), [])) <|
          c.clusTrainInP o img l k) m = _ ∧ _
  unfold ClusWisard.train1G
  dsimp only
  rw [Mem.find_clus]
  cases hf : SMap.find (m (.clusters o)) l with
  | some x => exact clusTrainInP_run o img l k m hs
  | none =>
    obtain ⟨m1, hm⟩ : ∃ m1 : Mem c.g, Store.upd m (.clusters o) (fun cs : SMap (Option ClusterCfg × List Bool) =>
      SMap.set cs l (some ((m.clusWisard o).clusterCfg img.length), [])) = m1 := ⟨_, rfl⟩
    have c1 : m1 (.clusters o) = SMap.set (m (.clusters o)) l (some ((m.clusWisard o).clusterCfg img.length), []) := by
      rw [← hm]; exact Store.upd_self _ _ _
    have f1 : ∀ l : Loc, l ≠ .clusters o → m1 l = m l := fun l hl => by rw [← hm]; exact Store.upd_ne _ _ hl
    obtain ⟨m', e1, e2, e3, e4, e5⟩ := clusTrainInP_run o img l k m1 (by rw [c1]; exact SMap.sorted_set hs _ _)
    have hw := Mem.clusWisard_insert m o l (some ((m.clusWisard o).clusterCfg img.length)) m1 hm.symm
    rw [hw, f1 .gen (by intro e; cases e)] at e1 e2 e3
    refine ⟨m', ?_, e2, e3, e4, fun l' hl => (e5 l' hl).trans (f1 l' (fun e => hl (.inl e)))⟩
    refine Eq.trans ?_ e1
    rw [← hm]
    rfl

/-- One training after another. -/
theorem Trains.seq {o : Nat} {p q : c.P α → c.P α} {f h : c.g.S → ClusWisard → (ClusWisard × Res Unit) × c.g.S} (hp : Trains o p f) (hq : Trains o q h) :
    Trains o (fun k => p (q k)) (fun s w => match f s w with
      | ((w', .ok ()), s') => h s' w'
      | ((w', .error e), s') => ((w', .error e), s')) := by
  intro k m hs
  obtain ⟨m1, e1, e2, e3, e4, e5⟩ := hp (q k) m hs
  obtain ⟨m2, f1, f2, f3, f4, f5⟩ := hq k m1 e4
  rw [e2, e3] at f1 f2 f3
  dsimp only
  revert e1 e2 e3 f1 f2 f3
  rcases f (m .gen) (m.clusWisard o) with ⟨⟨w', r⟩, s'⟩
  intro e1 e2 e3 f1 f2 f3
  cases r with
  | error e => exact ⟨m1, e1, e2, e3, e4, e5⟩
  | ok _ => exact ⟨m2, e1.trans f1, f2, f3, f4, fun l hl => (f5 l hl).trans (e5 l hl)⟩

theorem Trains.of_eq {o : Nat} {p : c.P α → c.P α} {f h : c.g.S → ClusWisard → (ClusWisard × Res Unit) × c.g.S} (hp : Trains o p f)
    (e : ∀ s w, h s w = f s w) : Trains o p h := by
  have : h = f := by funext s w; exact e s w
  rw [this]; exact hp

theorem Trains.nop {o : Nat} : Trains (c := c) (α := α) o (fun k => k) (fun s w => ((w, .ok ()), s)) :=
  fun _ m hs => ⟨m, rfl, rfl, rfl, hs, fun _ _ => rfl⟩

theorem clusTrainLoopP_run (o : Nat) (es : List (List Int × Str)) :
    Trains (α := α) o (c.clusTrainLoopP o es) (fun s w => ClusWisard.trainLoopG c.f c.g c.lhsFirst s w es) := by
  induction es with
  | nil => exact Trains.nop
  | cons e es ih =>
    have hq := Trains.seq (clusTrain1P_run (c := c) (α := α) o e.1 e.2) ih
    refine Trains.of_eq (p := c.clusTrainLoopP o (e :: es)) hq fun s w => ?_
    rw [ClusWisard.trainLoopG]
    rcases ClusWisard.train1G c.f c.g c.lhsFirst s w e.1 e.2 with ⟨⟨w', r⟩, s'⟩
    cases r <;> rfl

theorem clusTrainP_run (o : Nat) (images : List (List Int)) (labels : List Str) :
    Trains (α := α) o (c.clusTrainP o images labels) (fun s w => ClusWisard.trainG c.f c.g c.lhsFirst s w images labels) := by
  intro k m hs
  unfold clusTrainP ClusWisard.trainG
  show ∃ m' : Mem c.g, Prog.run (match (m.clusWisard o).trainChecks images labels with
    | .error e => .done (.error e)
    | .ok () => c.clusTrainLoopP o (images.zip labels) k) m = _ ∧ _
  dsimp only
  cases (m.clusWisard o).trainChecks images labels with
  | error e => exact ⟨m, rfl, rfl, rfl, hs, fun _ _ => rfl⟩
  | ok _ => exact clusTrainLoopP_run o _ k m hs

theorem clusTrainOwnP_run (o : Nat) (img : List Int) :
    Trains (α := α) o (c.clusTrainOwnP o img) (fun s w => ClusWisard.trainOwnG c.f c.g c.lhsFirst s w img) := by
  intro k m hs
  unfold clusTrainOwnP ClusWisard.trainOwnG
  rw [clusClassify1P_run]
  dsimp only
  cases (m.clusWisard o).classify1 img false with
  | error e => exact ⟨m, rfl, rfl, rfl, hs, fun _ _ => rfl⟩
  | ok cs => exact clusTrainInP_run o img _ k m hs

theorem ownLoopP_run (o : Nat) (imgs : List (List Int)) :
    Trains (α := α) o (c.ownLoopP o imgs) (fun s w => ClusWisard.ownLoopG c.f c.g c.lhsFirst s w imgs) := by
  induction imgs with
  | nil => exact Trains.nop
  | cons img imgs ih =>
    have hq := Trains.seq (clusTrainOwnP_run (c := c) (α := α) o img) ih
    refine Trains.of_eq (p := c.ownLoopP o (img :: imgs)) hq fun s w => ?_
    rw [ClusWisard.ownLoopG]
    rcases ClusWisard.trainOwnG c.f c.g c.lhsFirst s w img with ⟨⟨w', r⟩, s'⟩
    cases r <;> rfl

theorem semiLoopP_run (o : Nat) (labels : LabelMap) (imgs : List (List Int)) : ∀ (i : Nat) (labelless : List Int) (j : Nat) (k : List Int → c.P α)
    (m : Mem c.g), SMap.Sorted (m (.clusters o)) → ∃ m' : Mem c.g,
    (c.semiLoopP o labels imgs i labelless j k).run m =
      c.go (ClusWisard.semiLoopG c.f c.g c.lhsFirst labels (m .gen) imgs i (m.clusWisard o) labelless j).1.2 k m' ∧
    m'.clusWisard o = (ClusWisard.semiLoopG c.f c.g c.lhsFirst labels (m .gen) imgs i (m.clusWisard o) labelless j).1.1 ∧
    m' .gen = (ClusWisard.semiLoopG c.f c.g c.lhsFirst labels (m .gen) imgs i (m.clusWisard o) labelless j).2 ∧
    SMap.Sorted (m' (.clusters o)) ∧ ∀ l : Loc, ¬ MineC o l → m' l = m l := by
  induction imgs with
  | nil => intro i ll j k m hs; exact ⟨m, rfl, rfl, rfl, hs, fun _ _ => rfl⟩
  | cons img imgs ih =>
    intro i ll j k m hs
    unfold semiLoopP ClusWisard.semiLoopG
    cases labels.find i with
    | none =>
      dsimp only
      cases ClusWisard.noteLabelless ll j i with
      | error e => exact ⟨m, rfl, rfl, rfl, hs, fun _ _ => rfl⟩
      | ok ll' => exact ih (i + 1) ll' (j + 1) k m hs
    | some l =>
      dsimp only
      obtain ⟨m1, e1, e2, e3, e4, e5⟩ := clusTrain1P_run (c := c) o img l (c.semiLoopP o labels imgs (i + 1) ll j k) m hs
      obtain ⟨m2, f1, f2, f3, f4, f5⟩ := ih (i + 1) ll j k m1 e4
      rw [e2, e3] at f1 f2 f3
      dsimp only at e1 e2 e3 f1 f2 f3
      revert e1 e2 e3 f1 f2 f3
      rcases ClusWisard.train1G c.f c.g c.lhsFirst (m .gen) (m.clusWisard o) img l with ⟨⟨w', r⟩, s'⟩
      intro e1 e2 e3 f1 f2 f3
      cases r with
      | error e => exact ⟨m1, e1, e2, e3, e4, e5⟩
      | ok _ => exact ⟨m2, e1.trans f1, f2, f3, f4, fun l hl => (f5 l hl).trans (e5 l hl)⟩

theorem semiP_run (o : Nat) (images : List (List Int)) (labels : LabelMap) :
    Trains (α := α) o (c.semiP o images labels) (fun s w => ClusWisard.trainSemiG c.f c.g c.lhsFirst s w images labels) := by
  intro k m hs
  unfold semiP ClusWisard.trainSemiG
  show ∃ m' : Mem c.g, Prog.run (match (m.clusWisard o).semiChecks images labels with
    | .error e => .done (.error e)
    | .ok () => c.semiLoopP o labels images 0 (List.replicate (images.length - labels.length) 0) 0 fun labelless =>
        if labelless.length = images.length then .done (.error (.throw .noValidIndex))
        else c.ownLoopP o (images.take labelless.length) k) m = _ ∧ _
  dsimp only
  cases (m.clusWisard o).semiChecks images labels with
  | error e => exact ⟨m, rfl, rfl, rfl, hs, fun _ _ => rfl⟩
  | ok _ =>
    dsimp only
    obtain ⟨m1, e1, e2, e3, e4, e5⟩ := semiLoopP_run (c := c) o labels images 0 (List.replicate (images.length - labels.length) 0) 0 (fun labelless =>
        if labelless.length = images.length then .done (.error (.throw .noValidIndex))
        else c.ownLoopP o (images.take labelless.length) k) m hs
    revert e1 e2 e3
    rcases ClusWisard.semiLoopG c.f c.g c.lhsFirst labels (m .gen) images 0 (m.clusWisard o) (List.replicate (images.length - labels.length) 0) 0
      with ⟨⟨w', r⟩, s'⟩
    intro e1 e2 e3
    cases r with
    | error e => exact ⟨m1, e1, e2, e3, e4, e5⟩
    | ok ll =>
      dsimp only [go] at e1 e2 e3 ⊢
      by_cases hl : ll.length = images.length
      · simp only [if_pos hl] at e1 ⊢
        exact ⟨m1, e1, e2, e3, e4, e5⟩
      · simp only [if_neg hl] at e1 ⊢
        obtain ⟨m2, f1, f2, f3, f4, f5⟩ := ownLoopP_run (c := c) o (images.take ll.length) k m1 e4
        rw [e2, e3] at f1 f2 f3
        exact ⟨m2, e1.trans f1, f2, f3, f4, fun l hl => (f5 l hl).trans (e5 l hl)⟩

theorem unsupLoopP_run (o : Nat) (imgs : List (List Int)) :
    Trains (α := α) o (c.unsupLoopP o imgs) (fun s w => ClusWisard.unsupLoopG c.f c.g c.lhsFirst s w imgs) := by
  induction imgs with
  | nil => exact Trains.nop
  | cons img imgs ih =>
    intro k m hs
    unfold unsupLoopP ClusWisard.unsupLoopG
    obtain ⟨m1, e1, e2, e3, e4⟩ := clusterTrainP_run (c := c) o none (.vec img) (c.unsupLoopP o imgs k) m
    have hw := Mem.clusWisard_unsup e4
    rw [e2] at hw
    obtain ⟨m2, f1, f2, f3, f4, f5⟩ := ih k m1 (e4.sorted hs)
    rw [hw, e3] at f1 f2 f3
    have ec : m.cluster (slotRef o none) (m.slot o none) = (m.clusWisard o).unsupervisedCluster := rfl
    rw [ec] at e1 e2 e3 hw f1 f2 f3
    dsimp only
    revert e1 e2 e3 hw f1 f2 f3
    rcases Cluster.trainG c.f c.g c.lhsFirst (m .gen) (m.clusWisard o).unsupervisedCluster (.vec img) with ⟨⟨w', r⟩, s'⟩
    intro e1 e2 e3 hw f1 f2 f3
    cases r with
    | error e => exact ⟨m1, e1, hw, e3, e4.sorted hs, fun l hl => MineC.frame e4 hl⟩
    | ok _ => exact ⟨m2, e1.trans f1, f2, f3, f4, fun l hl => (f5 l hl).trans (MineC.frame e4 hl)⟩

theorem unsupP_run (o : Nat) (images : List (List Int)) :
    Trains (α := α) o (c.unsupP o images) (fun s w => ClusWisard.trainUnsupervisedG c.f c.g c.lhsFirst s w images) := by
  intro k m hs
  unfold unsupP ClusWisard.trainUnsupervisedG
  have len : (m.clusWisard o).clusters.length = List.length (m (.clusters o)) := by
    show (List.map _ _).length = _
    rw [List.length_map]
  dsimp only
  rw [len]
  show ∃ m' : Mem c.g, Prog.run (if List.length (m (.clusters o)) = 0 then
      match images with
      | [] => .done (.error (.ub .outOfBounds))
      | i0 :: _ => .read (.copts o) fun p : (Int × Rat × Int × Int) × ClusOpts =>
          .write (.ucluster o) (fun _ => ((some { (members p).clusterCfg i0.length with base := 2 }, []) : Option ClusterCfg × List Bool)) <|
            c.unsupLoopP o images k
    else c.unsupLoopP o images k) m = _ ∧ _
  by_cases h0 : List.length (m (.clusters o)) = 0
  · simp only [if_pos h0]
    cases images with
    | nil => exact ⟨m, rfl, rfl, rfl, hs, fun _ _ => rfl⟩
    | cons i0 images =>
      dsimp only
      obtain ⟨m1, hm⟩ : ∃ m1 : Mem c.g, Store.upd m (.ucluster o) (fun _ =>
        ((some { (m.clusWisard o).clusterCfg i0.length with base := 2 }, []) : Option ClusterCfg × List Bool)) = m1 := ⟨_, rfl⟩
      have c1 : m1 (.ucluster o) = (some { (m.clusWisard o).clusterCfg i0.length with base := 2 }, []) := by rw [← hm]; exact Store.upd_self _ _ _
      have f1 : ∀ l : Loc, l ≠ .ucluster o → m1 l = m l := fun l hl => by rw [← hm]; exact Store.upd_ne _ _ hl
      have hd : ∀ r : Ref, m1.disc r = m.disc r := fun r => Mem.disc_congr (fun l hl => f1 l (by rintro rfl; cases hl))
      have hw : m1.clusWisard o = { m.clusWisard o with unsupervisedCluster := Cluster.create { (m.clusWisard o).clusterCfg i0.length with base := 2 } } := by
        have hc : ∀ k x, m1.cluster (Ref.clus o k) x = m.cluster (Ref.clus o k) x := fun k x => Mem.cluster_congr (fun j => hd _) x
        have e0 : m1.cluster (Ref.unsup o) (m1 (.ucluster o)) = Cluster.create { (m.clusWisard o).clusterCfg i0.length with base := 2 } := by
          rw [c1]; rfl
        unfold Mem.clusWisard at e0 ⊢
        rw [e0, f1 (.clusters o) (by intro e; cases e), f1 (.copts o) (by intro e; cases e)]
        simp only [hc]
      obtain ⟨m', e1, e2, e3, e4, e5⟩ := unsupLoopP_run o (i0 :: images) k m1 (by rw [f1 _ (by intro e; cases e)]; exact hs)
      rw [hw, f1 .gen (by intro e; cases e)] at e1 e2 e3
      refine ⟨m', ?_, e2, e3, e4, fun l' hl => (e5 l' hl).trans (f1 l' (fun e => hl (.inr (.inl e))))⟩
      refine Eq.trans ?_ e1
      rw [← hm]
      rfl
  · simp only [if_neg h0]
    exact unsupLoopP_run o images k m hs

end Impl
end Wis
