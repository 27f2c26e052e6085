import Verif.Lemmas.ThreadsClus
/-!
# Whole calls, without interruption
-/

namespace Wis
open Spec

/-- Locations of Wisard `o`, and the generator. -/
def OfWisard (o : Nat) (l : Loc) : Prop := l = .map o ∨ l = .opts o ∨ l = .gen ∨ ∃ lab, l.place = some (.wis o lab)

theorem world_wis {g : CRand} {m m' : Mem g} {o : Nat} (h : ∀ l : Loc, ¬ OfWisard o l → m' l = m l) :
    world m' = { world m with wis := put (world m).wis o (m'.wisard o), gen := m' .gen } := by
  have hd : ∀ r : Ref, (∀ lab, r ≠ .wis o lab) → m'.disc r = m.disc r := fun r hr => Mem.disc_congr (fun l hl => h l (by
    rintro (rfl | rfl | rfl | ⟨lab, e⟩)
    · cases hl
    · cases hl
    · cases hl
    · rw [hl] at e; injection e with e; exact hr lab e))
  unfold world
  congr 1
  · funext k; exact hd _ (by intro _ e; cases e)
  · funext k
    by_cases e : k = o
    · subst e; show _ = put _ _ _ _; unfold put; rw [if_pos rfl]
    · show _ = put _ _ _ _
      unfold put
      rw [if_neg e]
      refine Mem.wisard_congr (h _ ?_) (h _ ?_) (fun lab => hd _ ?_)
      · rintro (e' | e' | e' | ⟨_, e'⟩)
        · injection e' with e'; exact e e'
        · cases e'
        · cases e'
        · cases e'
      · rintro (e' | e' | e' | ⟨_, e'⟩)
        · cases e'
        · injection e' with e'; exact e e'
        · cases e'
        · cases e'
      · intro lab' e'; injection e' with e'; exact e e'
  · funext k
    refine Mem.clusWisard_congr (h _ ?_) (h _ ?_) (h _ ?_) (fun _ _ => hd _ (by intro _ e; cases e)) (fun _ => hd _ (by intro _ e; cases e))
    all_goals
      rintro (e' | e' | e' | ⟨_, e'⟩) <;> cases e'

theorem world_disc {g : CRand} {m m' : Mem g} {o : Nat} (h : ∀ l : Loc, l.place ≠ some (.own o) → m' l = m l) :
    world m' = { world m with discs := put (world m).discs o (m'.disc (.own o)) } := by
  have hd : ∀ r : Ref, r ≠ .own o → m'.disc r = m.disc r := fun r hr => Mem.disc_congr (fun l hl => h l (by
    intro e; rw [hl] at e; injection e with e; exact hr e))
  unfold world
  congr 1
  · funext k
    show _ = put _ _ _ _
    unfold put
    by_cases e : k = o
    · subst e; rw [if_pos rfl]
    · rw [if_neg e]; exact hd _ (by intro e'; injection e' with e'; exact e e')
  · funext k
    exact Mem.wisard_congr (h _ (by intro e; cases e)) (h _ (by intro e; cases e)) (fun lab => hd _ (by intro e; cases e))
  · funext k
    exact Mem.clusWisard_congr (h _ (by intro e; cases e)) (h _ (by intro e; cases e)) (h _ (by intro e; cases e))
      (fun _ _ => hd _ (by intro e; cases e)) (fun _ => hd _ (by intro e; cases e))
  · exact h _ (by intro e; cases e)

/-- Locations of ClusWisard `o`, and the generator. -/
def OfClus (o : Nat) (l : Loc) : Prop := l = .copts o ∨ MineC o l

theorem world_clus {g : CRand} {m m' : Mem g} {o : Nat} (h : ∀ l : Loc, ¬ OfClus o l → m' l = m l) :
    world m' = { world m with clus := put (world m).clus o (m'.clusWisard o), gen := m' .gen } := by
  have hd : ∀ r : Ref, (∀ p j, r ≠ slotRef o p j) → m'.disc r = m.disc r := fun r hr => Mem.disc_congr (fun l hl => h l (by
    rintro (rfl | rfl | rfl | rfl | ⟨p, j, e⟩)
    · cases hl
    · cases hl
    · cases hl
    · cases hl
    · rw [hl] at e; injection e with e; exact hr p j e))
  have hw : ∀ (k : Nat) (p : Option Str) (j : Nat), k ≠ o → ∀ p' j', slotRef k p j ≠ slotRef o p' j' := by
    intro k p j hk p' j' e
    cases p <;> cases p' <;> first | (injection e with e; exact hk e) | cases e
  have hl : ∀ l : Loc, l.place = none → l ≠ .gen → l ≠ .copts o → l ≠ .clusters o → l ≠ .ucluster o → m' l = m l := by
    intro l h0 h1 h2 h3 h4
    refine h l ?_
    rintro (e | e | e | e | ⟨p, j, e⟩)
    · exact h2 e
    · exact h3 e
    · exact h4 e
    · exact h1 e
    · rw [h0] at e; cases e
  have ns : ∀ (k : Nat), k ≠ o → Loc.copts k ≠ Loc.copts o ∧ Loc.clusters k ≠ Loc.clusters o ∧ Loc.ucluster k ≠ Loc.ucluster o := by
    intro k hk
    refine ⟨?_, ?_, ?_⟩ <;> (intro e; injection e with e; exact hk e)
  unfold world
  congr 1
  · funext k; exact hd _ (by intro p j e; cases p <;> cases e)
  · funext k
    exact Mem.wisard_congr (hl _ rfl (by intro e; cases e) (by intro e; cases e) (by intro e; cases e) (by intro e; cases e))
      (hl _ rfl (by intro e; cases e) (by intro e; cases e) (by intro e; cases e) (by intro e; cases e))
      (fun lab => hd _ (by intro p j e; cases p <;> cases e))
  · funext k
    show _ = put _ _ _ _
    unfold put
    by_cases e : k = o
    · subst e; rw [if_pos rfl]
    · rw [if_neg e]
      obtain ⟨n1, n2, n3⟩ := ns k e
      exact Mem.clusWisard_congr (hl _ rfl (by intro e; cases e) (by first | exact n1 | (intro e; cases e)) (by first | exact n2 | (intro e; cases e)) (by first | exact n3 | (intro e; cases e)))
        (hl _ rfl (by intro e; cases e) (by first | exact n1 | (intro e; cases e)) (by first | exact n2 | (intro e; cases e)) (by first | exact n3 | (intro e; cases e)))
        (hl _ rfl (by intro e; cases e) (by first | exact n1 | (intro e; cases e)) (by first | exact n2 | (intro e; cases e)) (by first | exact n3 | (intro e; cases e)))
        (fun l j => hd _ (hw k (some l) j e)) (fun j => hd _ (hw k none j e))

theorem put_self {α : Type} (f : Nat → α) (o : Nat) : put f o (f o) = f := by
  funext k
  unfold put
  by_cases e : k = o
  · subst e; rw [if_pos rfl]
  · rw [if_neg e]

namespace Impl
variable {c : Impl} {α : Type}

theorem clusMentalP_run (o : Nat) (l : Str) (it : IterOrder) (k : List (List Int) → c.P α) (m : Mem c.g) (hs : SMap.Sorted (m (.clusters o))) :
    ∃ m' : Mem c.g,
    (c.clusMentalP o l it k).run m = c.go ((m.clusWisard o).getMentalImage it l).2 k m' ∧
    m'.clusWisard o = ((m.clusWisard o).getMentalImage it l).1 ∧ SMap.Sorted (m' (.clusters o)) ∧
    ∀ l : Loc, l ≠ .clusters o → m' l = m l := by
  unfold clusMentalP ClusWisard.getMentalImage
  rw [Mem.find_clus]
  show ∃ m' : Mem c.g, Prog.run (match SMap.find (m (.clusters o)) l with
    | some cl =>
      if c.bracketWrites then .write (.clusters o) (fun cs => cs) (c.clusterMentalP o l it cl.2 0 k)
      else c.clusterMentalP o l it cl.2 0 k
    | none => .write (.clusters o) (fun cs : SMap (Option ClusterCfg × List Bool) => SMap.set cs l (none, [])) (k [])) m = _ ∧ _
  cases SMap.find (m (.clusters o)) l with
  | some cl =>
    refine ⟨m, ?_, rfl, hs, fun _ _ => rfl⟩
    have : (c.clusterMentalP o l it cl.2 0 k).run m = c.go ((m.cluster (Ref.clus o l) cl).getMentalImages it) k m := clusterMentalP_run o l it _ 0 k m
    simp only
    by_cases hb : c.bracketWrites = true
    · rw [if_pos hb]
      show (c.clusterMentalP o l it cl.2 0 k).run (Store.upd m (.clusters o) (fun cs => cs)) = _
      rw [Store.upd_id]
      exact this
    · rw [if_neg hb]
      exact this
  | none =>
    refine ⟨_, rfl, ?_, ?_, fun l hl => Store.upd_ne _ _ hl⟩
    · generalize hm : Store.upd m (.clusters o) (fun cs : SMap (Option ClusterCfg × List Bool) => SMap.set cs l (none, [])) = m'
      have h0 : m' (.clusters o) = SMap.set (m (.clusters o)) l (none, []) := by rw [← hm]; exact Store.upd_self _ _ _
      have h1 : ∀ l : Loc, l ≠ .clusters o → m' l = m l := fun l hl => by rw [← hm]; exact Store.upd_ne _ _ hl
      have hd : ∀ r : Ref, Mem.disc (g := c.g) m' r = m.disc r := fun r => Mem.disc_congr (fun l hl => h1 l (by rintro rfl; cases hl))
      show Mem.clusWisard (g := c.g) m' o = { m.clusWisard o with clusters := (m.clusWisard o).clusters.set l Cluster.default }
      unfold Mem.clusWisard
      rw [h0, h1 (.copts o) (by intro e; cases e), h1 (.ucluster o) (by intro e; cases e),
        Mem.cluster_congr (m := m) (m' := m') (fun j => hd _)]
      have hc : ∀ k x, Mem.cluster (g := c.g) m' (Ref.clus o k) x = m.cluster (Ref.clus o k) x :=
        fun k x => Mem.cluster_congr (m := m) (m' := m') (fun j => hd _) x
      simp only [hc]
      congr 1
      exact Mem.set_map (fun k x => m.cluster (Ref.clus o k) x) l (none, []) (m (.clusters o))
    · rw [Store.upd_self]
      exact SMap.sorted_set hs _ _

theorem reseedP_run (now : Nat) (bound : Int) (k : c.P α) (m : Mem c.g) : ∃ m' : Mem c.g, (c.reseedP now bound k).run m = k.run m' ∧
    m' .gen = reseed c.g now (m .gen) bound ∧ ∀ l : Loc, l ≠ .gen → m' l = m l := by
  unfold reseedP reseed randintG
  have e0 : Store.upd m .gen (fun _ => c.g.srand now) .gen = c.g.srand now := Store.upd_self _ _ _
  show ∃ m' : Mem c.g, Prog.run (match randint (c.g.rand (Store.upd m .gen (fun _ => c.g.srand now) .gen)).1 0 bound with
    | .error _ => k
    | .ok n => .write .gen (fun _ => c.g.srand n.toNat) k)
    (Store.upd (Store.upd m .gen (fun _ => c.g.srand now)) .gen
      (fun _ => (c.g.rand (Store.upd m .gen (fun _ => c.g.srand now) .gen)).2)) = _ ∧ _
  rw [e0]
  simp only [if_true]
  cases randint (c.g.rand (c.g.srand now)).1 0 bound with
  | error e =>
    exact ⟨_, rfl, Store.upd_self _ _ _, fun l hl => by rw [Store.upd_ne _ _ hl, Store.upd_ne _ _ hl]⟩
  | ok n =>
    exact ⟨_, rfl, Store.upd_self _ _ _, fun l hl => by rw [Store.upd_ne _ _ hl, Store.upd_ne _ _ hl, Store.upd_ne _ _ hl]⟩

theorem newWisardP_run (o now : Nat) (A : Int) (opts : WisardOpts) (k : c.P α) (m : Mem c.g) : ∃ m' : Mem c.g,
    (c.newWisardP o now A opts k).run m = k.run m' ∧
    m' .gen = reseed c.g now (m .gen) 1000000 ∧ m' (.opts o) = (A, opts) ∧ m' (.map o) = [] ∧
    ∀ l : Loc, l ≠ .gen → l ≠ .opts o → l ≠ .map o → m' l = m l := by
  unfold newWisardP
  obtain ⟨m1, e1, e2, e3⟩ := reseedP_run (c := c) now 1000000 (.write (.opts o) (fun _ => ((A, opts) : Int × WisardOpts)) <|
    .write (.map o) (fun _ => ([] : List Str)) k) m
  refine ⟨_, e1.trans rfl, ?_, ?_, Store.upd_self _ _ _, fun l h1 h2 h3 => ?_⟩
  · rw [Store.upd_ne _ _ (by intro e; cases e), Store.upd_ne _ _ (by intro e; cases e), e2]
  · rw [Store.upd_ne _ _ (by intro e; cases e), Store.upd_self]
  · rw [Store.upd_ne _ _ h3, Store.upd_ne _ _ h2, e3 l h1]

theorem newClusP_run (o now : Nat) (A : Int) (ms : Rat) (t dl : Int) (opts : ClusOpts) (k : c.P α) (m : Mem c.g) : ∃ m' : Mem c.g,
    (c.newClusP o now A ms t dl opts k).run m = c.go ((ClusWisard.createG c.g now (m .gen) A ms t dl opts).1.map fun _ => ()) (fun _ => k) m' ∧
    m' .gen = (ClusWisard.createG c.g now (m .gen) A ms t dl opts).2 ∧
    m'.clusWisard o = (match (ClusWisard.createG c.g now (m .gen) A ms t dl opts).1 with | .ok w => w | .error _ => m.clusWisard o) ∧
    (SMap.Sorted (m (.clusters o)) → SMap.Sorted (m' (.clusters o))) ∧ ∀ l : Loc, ¬ OfClus o l → m' l = m l := by
  unfold newClusP ClusWisard.createG
  dsimp only
  cases hc : ClusWisard.create A ms t dl opts with
  | error e =>
    obtain ⟨m1, e1, e2, e3⟩ := reseedP_run (c := c) now 1000000 (.done (.error e) : c.P α) m
    refine ⟨m1, e1, e2, ?_, ?_, fun l hl => e3 l (fun e => hl (.inr (.inr (.inr (.inl e)))))⟩
    · have hd : ∀ r : Ref, m1.disc r = m.disc r := fun r => Mem.disc_congr (fun l hl => e3 l (by rintro rfl; cases hl))
      exact Mem.clusWisard_congr (e3 _ (by intro e; cases e)) (e3 _ (by intro e; cases e)) (e3 _ (by intro e; cases e)) (fun _ _ => hd _) (fun _ => hd _)
    · intro hs; rw [e3 _ (by intro e; cases e)]; exact hs
  | ok w =>
    obtain ⟨m1, e1, e2, e3⟩ := reseedP_run (c := c) now 1000000 (.write (.copts o) (fun _ => (((A, ms, t, dl), opts) : (Int × Rat × Int × Int) × ClusOpts)) <|
        .write (.clusters o) (fun _ => ([] : SMap (Option ClusterCfg × List Bool))) <|
          .write (.ucluster o) (fun _ => ((none, []) : Option ClusterCfg × List Bool)) k) m
    have hw : w = ⟨A, ms, t, dl, opts, [], Cluster.default⟩ := by
      unfold ClusWisard.create at hc
      cases hk : ClusWisard.checkConfigInputs ms t dl with
      | error e => rw [hk] at hc; cases hc
      | ok _ => rw [hk] at hc; injection hc with hc; exact hc.symm
    obtain ⟨m2, hm⟩ : ∃ m2 : Mem c.g, Store.upd (Store.upd (Store.upd m1 (.copts o) (fun _ => (((A, ms, t, dl), opts) : (Int × Rat × Int × Int) × ClusOpts)))
      (.clusters o) (fun _ => ([] : SMap (Option ClusterCfg × List Bool)))) (.ucluster o) (fun _ => ((none, []) : Option ClusterCfg × List Bool)) = m2 := ⟨_, rfl⟩
    have h1 : m2 (.ucluster o) = (none, []) := by rw [← hm, Store.upd_self]
    have h2 : m2 (.clusters o) = [] := by rw [← hm, Store.upd_ne _ _ (by intro e; cases e), Store.upd_self]
    have h3 : m2 (.copts o) = ((A, ms, t, dl), opts) := by
      rw [← hm, Store.upd_ne _ _ (by intro e; cases e), Store.upd_ne _ _ (by intro e; cases e), Store.upd_self]
    have h4 : ∀ l : Loc, l ≠ .ucluster o → l ≠ .clusters o → l ≠ .copts o → m2 l = m1 l := fun l a b d => by
      rw [← hm, Store.upd_ne _ _ a, Store.upd_ne _ _ b, Store.upd_ne _ _ d]
    refine ⟨m2, ?_, ?_, ?_, ?_, fun l hl => (h4 l (fun e => hl (.inr (.inr (.inl e)))) (fun e => hl (.inr (.inl e))) (fun e => hl (.inl e))).trans
      (e3 l (fun e => hl (.inr (.inr (.inr (.inl e))))))⟩
    · rw [← hm]; exact e1
    · rw [h4 _ (by intro e; cases e) (by intro e; cases e) (by intro e; cases e)]; exact e2
    · dsimp only
      rw [hw]
      unfold Mem.clusWisard
      rw [h1, h2, h3]
      rfl
    · intro _; rw [h2]; exact List.Pairwise.nil

theorem go_nothing (r : Res Unit) (m : Mem c.g) : c.go r (fun _ => .done (.ok Reply.nothing)) m = (m, r.map fun _ => Reply.nothing) := by
  cases r <;> rfl

theorem go_reply {β : Type} (r : Res β) (f : β → Reply) (m : Mem c.g) : c.go r (fun x => .done (.ok (f x))) m = (m, r.map f) := by
  cases r <;> rfl

theorem callP_run (call : Call) (m : Mem c.g) (h : Ordered (world m)) :
    world ((c.callP call).run m).1 = (World.call c (world m) call).1 ∧
    ((c.callP call).run m).2 = (World.call c (world m) call).2 ∧ Ordered (world ((c.callP call).run m).1) := by
  have hs := Mem.ordered_iff.mp h
  have leave : ∀ {o : Nat} (p : c.P Reply → c.P Reply) (f : Wisard → Wisard × Res Unit), (∀ k : c.P Reply, ∃ m' : Mem c.g,
      (p k).run m = c.go (f (m.wisard o)).2 (fun _ => k) m' ∧ m'.wisard o = (f (m.wisard o)).1 ∧ m' (.map o) = m (.map o) ∧
      ∀ l : Loc, (∀ lab, l.place ≠ some (.wis o lab)) → m' l = m l) →
      world ((p (.done (.ok .nothing))).run m).1 = { world m with wis := put (world m).wis o (f ((world m).wis o)).1 } ∧
      ((p (.done (.ok .nothing))).run m).2 = (f ((world m).wis o)).2.map (fun _ => Reply.nothing) ∧
      Ordered (world ((p (.done (.ok .nothing))).run m).1) := by
    intro o p f hp
    obtain ⟨m', e1, e2, e3, e4⟩ := hp (.done (.ok Reply.nothing))
    rw [go_nothing] at e1
    rw [e1]
    refine ⟨?_, rfl, ?_⟩
    · show world m' = _
      rw [world_wis (o := o) (m := m) (m' := m') (fun l hl => e4 l (fun lab e => hl (.inr (.inr (.inr ⟨lab, e⟩))))), e2,
        e4 .gen (by intro _ e; cases e)]
      rfl
    · refine Mem.ordered_iff.mpr fun k => ?_
      show SortedKeys (m' (.map k)) ∧ SMap.Sorted (m' (.clusters k))
      rw [e4 _ (by intro _ e; cases e), e4 _ (by intro _ e; cases e)]
      exact hs k
  have teach : ∀ {o : Nat} (p : c.P Reply → c.P Reply) (f : c.g.S → ClusWisard → (ClusWisard × Res Unit) × c.g.S), Trains o p f →
      world ((p (.done (.ok .nothing))).run m).1 =
        { world m with clus := put (world m).clus o (f (world m).gen ((world m).clus o)).1.1, gen := (f (world m).gen ((world m).clus o)).2 } ∧
      ((p (.done (.ok .nothing))).run m).2 = (f (world m).gen ((world m).clus o)).1.2.map (fun _ => Reply.nothing) ∧
      Ordered (world ((p (.done (.ok .nothing))).run m).1) := by
    intro o p f hp
    obtain ⟨m', e1, e2, e3, e4, e5⟩ := hp (.done (.ok Reply.nothing)) m (hs o).2
    rw [go_nothing] at e1
    rw [e1]
    refine ⟨?_, rfl, ?_⟩
    · show world m' = _
      rw [world_clus (o := o) (m := m) (m' := m') (fun l hl => e5 l (fun e => hl (.inr e))), e2, e3]
      rfl
    · refine Mem.ordered_iff.mpr fun k => ?_
      show SortedKeys (m' (.map k)) ∧ SMap.Sorted (m' (.clusters k))
      rw [e5 (.map k) (by rintro (e | e | e | ⟨_, _, e⟩) <;> cases e)]
      refine ⟨(hs k).1, ?_⟩
      by_cases e : k = o
      · subst e; exact e4
      · rw [e5]
        · exact (hs k).2
        · rintro (e' | e' | e' | ⟨_, _, e'⟩)
          · injection e' with e'; exact e e'
          · cases e'
          · cases e'
          · cases e'
  cases call with
  | newClus o now A ms t dl opts =>
    obtain ⟨m', e1, e2, e3, e4, e5⟩ := newClusP_run (c := c) o now A ms t dl opts (.done (.ok Reply.nothing)) m
    rw [go_nothing] at e1
    show world ((c.newClusP o now A ms t dl opts (.done (.ok Reply.nothing))).run m).1 = _ ∧
      ((c.newClusP o now A ms t dl opts (.done (.ok Reply.nothing))).run m).2 = _ ∧
      Ordered (world ((c.newClusP o now A ms t dl opts (.done (.ok Reply.nothing))).run m).1)
    rw [e1]
    refine ⟨?_, ?_, ?_⟩
    · show world m' = _
      rw [world_clus (o := o) (m := m) (m' := m') e5, e2, e3]
      unfold World.call
      dsimp only
      show _ = World.mk _ _ _ _
      congr 1
      show put (world m).clus o _ = _
      cases hc : (ClusWisard.createG c.g now (m .gen) A ms t dl opts).1 with
      | ok w =>
        rw [show (ClusWisard.createG c.g now (world m).gen A ms t dl opts).1 = _ from hc]
      | error e =>
        rw [show (ClusWisard.createG c.g now (world m).gen A ms t dl opts).1 = _ from hc]
        exact put_self _ _
    · show Except.map _ (Except.map _ _) = Except.map _ _
      show Except.map _ (Except.map _ (ClusWisard.createG c.g now (m .gen) A ms t dl opts).1) =
        Except.map _ (ClusWisard.createG c.g now (m .gen) A ms t dl opts).1
      cases (ClusWisard.createG c.g now (m .gen) A ms t dl opts).1 <;> rfl
    · refine Mem.ordered_iff.mpr fun k => ?_
      show SortedKeys (m' (.map k)) ∧ SMap.Sorted (m' (.clusters k))
      rw [e5 (.map k) (by rintro (e | e | e | e | ⟨_, _, e⟩) <;> cases e)]
      refine ⟨(hs k).1, ?_⟩
      by_cases e : k = o
      · subst e; exact e4 (hs k).2
      · rw [e5]
        · exact (hs k).2
        · rintro (e' | e' | e' | e' | ⟨_, _, e'⟩)
          · cases e'
          · injection e' with e'; exact e e'
          · cases e'
          · cases e'
          · cases e'
  | clusTrain o images labels => exact teach (o := o) (c.clusTrainP o images labels) _ (clusTrainP_run o images labels)
  | clusSemi o images labels => exact teach (o := o) (c.semiP o images labels) _ (semiP_run o images labels)
  | clusUnsup o images => exact teach (o := o) (c.unsupP o images) _ (unsupP_run o images)
  | discTrain o img =>
    obtain ⟨m', e1, e2, e3⟩ := discTrainP_run (c := c) (.own o) img (.done (.ok Reply.nothing)) m
    rw [go_nothing] at e1
    show world ((c.discTrainP (.own o) img (.done (.ok Reply.nothing))).run m).1 = _ ∧
      ((c.discTrainP (.own o) img (.done (.ok Reply.nothing))).run m).2 = _ ∧ Ordered (world ((c.discTrainP (.own o) img (.done (.ok Reply.nothing))).run m).1)
    rw [e1]
    refine ⟨?_, rfl, ?_⟩
    · show world m' = _
      rw [world_disc e3, e2]; rfl
    · refine Mem.ordered_iff.mpr fun k => ?_
      show SortedKeys (m' (.map k)) ∧ SMap.Sorted (m' (.clusters k))
      rw [e3 _ (by intro e; cases e), e3 _ (by intro e; cases e)]
      exact hs k
  | discClassify o img =>
    show world ((c.discClassifyP (.own o) img fun v => .done (.ok (Reply.votes v))).run m).1 = _ ∧
      ((c.discClassifyP (.own o) img fun v => .done (.ok (Reply.votes v))).run m).2 = _ ∧
      Ordered (world ((c.discClassifyP (.own o) img fun v => .done (.ok (Reply.votes v))).run m).1)
    rw [discClassifyP_run, go_reply]
    exact ⟨rfl, rfl, h⟩
  | discMental o it =>
    show world ((c.discMentalP (.own o) it fun v => .done (.ok (Reply.image v))).run m).1 = _ ∧
      ((c.discMentalP (.own o) it fun v => .done (.ok (Reply.image v))).run m).2 = _ ∧
      Ordered (world ((c.discMentalP (.own o) it fun v => .done (.ok (Reply.image v))).run m).1)
    rw [discMentalP_run, go_reply]
    exact ⟨rfl, rfl, h⟩
  | discUntrain o img =>
    obtain ⟨m', e1, e2, e3⟩ := discUntrainP_run (c := c) (.own o) (.vec img) (.done (.ok Reply.nothing)) m
    rw [go_nothing] at e1
    show world ((c.discUntrainP (.own o) (.vec img) (.done (.ok Reply.nothing))).run m).1 = _ ∧
      ((c.discUntrainP (.own o) (.vec img) (.done (.ok Reply.nothing))).run m).2 = _ ∧ Ordered (world ((c.discUntrainP (.own o) (.vec img) (.done (.ok Reply.nothing))).run m).1)
    rw [e1]
    refine ⟨?_, rfl, ?_⟩
    · show world m' = _
      rw [world_disc e3, e2]; rfl
    · refine Mem.ordered_iff.mpr fun k => ?_
      show SortedKeys (m' (.map k)) ∧ SMap.Sorted (m' (.clusters k))
      rw [e3 _ (by intro e; cases e), e3 _ (by intro e; cases e)]
      exact hs k
  | newWisard o now A opts =>
    obtain ⟨m', e1, e2, e3, e4, e5⟩ := newWisardP_run (c := c) o now A opts (.done (.ok Reply.nothing)) m
    show world ((c.newWisardP o now A opts (.done (.ok Reply.nothing))).run m).1 = _ ∧
      ((c.newWisardP o now A opts (.done (.ok Reply.nothing))).run m).2 = _ ∧ Ordered (world ((c.newWisardP o now A opts (.done (.ok Reply.nothing))).run m).1)
    rw [e1]
    refine ⟨?_, rfl, ?_⟩
    · show world m' = _
      rw [world_wis (o := o) (m := m) (m' := m') (fun l hl => e5 l (fun e => hl (.inr (.inr (.inl e)))) (fun e => hl (.inr (.inl e))) (fun e => hl (.inl e)))]
      have : m'.wisard o = (Wisard.createG c.g now (world m).gen A opts).1 := by
        unfold Mem.wisard
        rw [e3, e4]; rfl
      rw [this, e2]
      rfl
    · refine Mem.ordered_iff.mpr fun k => ?_
      show SortedKeys (m' (.map k)) ∧ SMap.Sorted (m' (.clusters k))
      constructor
      · by_cases e : k = o
        · subst e; rw [e4]; exact List.Pairwise.nil
        · rw [e5 _ (by intro e; cases e) (by intro e; cases e) (by intro e'; injection e' with e'; exact e e')]
          exact (hs k).1
      · rw [e5 _ (by intro e; cases e) (by intro e; cases e) (by intro e; cases e)]
        exact (hs k).2
  | train o images labels =>
    obtain ⟨m', e1, e2, e3, e4, e5⟩ := trainP_run (c := c) o images labels (.done (.ok Reply.nothing)) m (hs o).1
    rw [go_nothing] at e1
    show world ((c.trainP o images labels (.done (.ok Reply.nothing))).run m).1 = _ ∧
      ((c.trainP o images labels (.done (.ok Reply.nothing))).run m).2 = _ ∧ Ordered (world ((c.trainP o images labels (.done (.ok Reply.nothing))).run m).1)
    rw [e1]
    refine ⟨?_, rfl, ?_⟩
    · show world m' = _
      rw [world_wis (o := o) (m := m) (m' := m') (fun l hl => e5 l (by
        rintro (e | e | e)
        · exact hl (.inl e)
        · exact hl (.inr (.inr (.inl e)))
        · exact hl (.inr (.inr (.inr e))))), e2, e3]
      rfl
    · refine Mem.ordered_iff.mpr fun k => ?_
      show SortedKeys (m' (.map k)) ∧ SMap.Sorted (m' (.clusters k))
      constructor
      · by_cases e : k = o
        · subst e; exact e4
        · rw [e5]
          · exact (hs k).1
          · rintro (e' | e' | ⟨_, e'⟩)
            · injection e' with e'; exact e e'
            · cases e'
            · cases e'
      · rw [e5]
        · exact (hs k).2
        · rintro (e' | e' | ⟨_, e'⟩) <;> cases e'
  | trainDataSet o ds =>
    obtain ⟨m', e1, e2, e3, e4, e5⟩ := trainDataP_run (c := c) o ds (.done (.ok Reply.nothing)) m (hs o).1
    rw [go_nothing] at e1
    show world ((c.trainDataP o ds (.done (.ok Reply.nothing))).run m).1 = _ ∧
      ((c.trainDataP o ds (.done (.ok Reply.nothing))).run m).2 = _ ∧ Ordered (world ((c.trainDataP o ds (.done (.ok Reply.nothing))).run m).1)
    rw [e1]
    refine ⟨?_, rfl, ?_⟩
    · show world m' = _
      rw [world_wis (o := o) (m := m) (m' := m') (fun l hl => e5 l (by
        rintro (e | e | e)
        · exact hl (.inl e)
        · exact hl (.inr (.inr (.inl e)))
        · exact hl (.inr (.inr (.inr e))))), e2, e3]
      rfl
    · refine Mem.ordered_iff.mpr fun k => ?_
      show SortedKeys (m' (.map k)) ∧ SMap.Sorted (m' (.clusters k))
      constructor
      · by_cases e : k = o
        · subst e; exact e4
        · rw [e5]
          · exact (hs k).1
          · rintro (e' | e' | ⟨_, e'⟩)
            · injection e' with e'; exact e e'
            · cases e'
            · cases e'
      · rw [e5]
        · exact (hs k).2
        · rintro (e' | e' | ⟨_, e'⟩) <;> cases e'
  | leaveOneOut o img l => exact leave (o := o) (c.leave1P o img l) (fun w => w.leaveOneOut img l) (fun k => leave1P_run o img l k m (hs o).1)
  | leaveMoreOut o images labels => exact leave (o := o) (c.leaveMoreP o images labels) (fun w => w.leaveMoreOut images labels) (fun k => leaveMoreP_run o images labels k m (hs o).1)
  | classify o images =>
    show world ((c.classifyP o images fun v => .done (.ok (Reply.labels v))).run m).1 = _ ∧
      ((c.classifyP o images fun v => .done (.ok (Reply.labels v))).run m).2 = _ ∧
      Ordered (world ((c.classifyP o images fun v => .done (.ok (Reply.labels v))).run m).1)
    rw [classifyP_run, go_reply]
    exact ⟨rfl, rfl, h⟩
  | mentalImages o it =>
    show world ((c.mentalImagesP o it fun v => .done (.ok (Reply.images v))).run m).1 = _ ∧
      ((c.mentalImagesP o it fun v => .done (.ok (Reply.images v))).run m).2 = _ ∧
      Ordered (world ((c.mentalImagesP o it fun v => .done (.ok (Reply.images v))).run m).1)
    rw [mentalImagesP_run, go_reply]
    exact ⟨rfl, rfl, h⟩
  | clusClassify o images =>
    show world ((c.clusClassifyP o images fun v => .done (.ok (Reply.labels v))).run m).1 = _ ∧
      ((c.clusClassifyP o images fun v => .done (.ok (Reply.labels v))).run m).2 = _ ∧
      Ordered (world ((c.clusClassifyP o images fun v => .done (.ok (Reply.labels v))).run m).1)
    rw [clusClassifyP_run, go_reply]
    exact ⟨rfl, rfl, h⟩
  | unsupClassify o images =>
    show world ((c.unsupClassifyP o images fun v => .done (.ok (Reply.labels v))).run m).1 = _ ∧
      ((c.unsupClassifyP o images fun v => .done (.ok (Reply.labels v))).run m).2 = _ ∧
      Ordered (world ((c.unsupClassifyP o images fun v => .done (.ok (Reply.labels v))).run m).1)
    rw [unsupClassifyP_run, go_reply]
    exact ⟨rfl, rfl, h⟩
  | clusMental o l it =>
    obtain ⟨m', e1, e2, e3, e4⟩ := clusMentalP_run (c := c) o l it (fun v => .done (.ok (Reply.clusImages v))) m (hs o).2
    rw [go_reply] at e1
    show world ((c.clusMentalP o l it fun v => .done (.ok (Reply.clusImages v))).run m).1 = _ ∧
      ((c.clusMentalP o l it fun v => .done (.ok (Reply.clusImages v))).run m).2 = _ ∧
      Ordered (world ((c.clusMentalP o l it fun v => .done (.ok (Reply.clusImages v))).run m).1)
    rw [e1]
    refine ⟨?_, rfl, ?_⟩
    · show world m' = _
      rw [world_clus (o := o) (m := m) (m' := m') (fun l hl => e4 l (fun e => hl (.inr (.inl e)))), e2, e4 .gen (by intro e; cases e)]; rfl
    · refine Mem.ordered_iff.mpr fun k => ?_
      show SortedKeys (m' (.map k)) ∧ SMap.Sorted (m' (.clusters k))
      rw [e4 _ (by intro e; cases e)]
      refine ⟨(hs k).1, ?_⟩
      by_cases e : k = o
      · subst e; exact e3
      · rw [e4 _ (by intro e'; injection e' with e'; exact e e')]
        exact (hs k).2

theorem scriptP_run (calls : List Call) : ∀ (m : Mem c.g), Ordered (world m) →
    world ((c.scriptP calls).run m).1 = (World.calls c (world m) calls).1 ∧
    ((c.scriptP calls).run m).2 = (World.calls c (world m) calls).2 ∧ Ordered (world ((c.scriptP calls).run m).1) := by
  induction calls with
  | nil => intro m h; exact ⟨rfl, rfl, h⟩
  | cons x xs ih =>
    intro m h
    obtain ⟨e1, e2, e3⟩ := callP_run (c := c) x m h
    obtain ⟨f1, f2, f3⟩ := ih _ e3
    unfold scriptP
    rw [Prog.run_bind, Prog.run_bind]
    refine ⟨f1.trans ?_, ?_, f3⟩
    · rw [e1]; rfl
    · show ((c.callP x).run m).2 :: ((c.scriptP xs).run ((c.callP x).run m).1).2 = _
      rw [f2, e1, e2]; rfl

end Impl
end Wis
