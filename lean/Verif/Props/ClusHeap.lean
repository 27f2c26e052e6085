import Verif.Lemmas.ClusHeap
/-!
# C124–C126: several ClusWisard objects in one process

`Model/ClusHeap.lean` has the pointers to discriminators that the C++ code keeps; these theorems say when a ClusWisard
may be thought of as a value (as `Model/ClusWisard.lean` does), and what happens when it may not.
-/

namespace Wis
open Spec

namespace Spec

/-- The object has no discriminators. -/
def NoDiscs (w : ClusWisard) : Prop :=
  (∀ e ∈ w.clusters, e.2.discriminators = []) ∧ w.unsupervisedCluster.discriminators = []

/-- Every copy made by the program is made of an object without discriminators. -/
def CopiesEmpty (f : Flt) (s : Proc) : List POp → Prop
  | [] => True
  | o :: ops => (∀ k w, o = .copy k → (seen s)[k]? = some (some w) → NoDiscs w) ∧ CopiesEmpty f (pstep f s o).1 ops

end Spec

/-- Every object keeps valid pointers, each only once. -/
def AllSole (s : Proc) : Prop := ∀ (i : Nat) (w : HClusWisard), s.models[i]? = some (some w) → Sole s.heap w

/-- No pointer belongs to two objects. -/
def Apart (s : Proc) : Prop := ∀ (i j : Nat) (w w' : HClusWisard) (p : Nat), s.models[i]? = some (some w) →
  s.models[j]? = some (some w') → w.Has p → w'.Has p → i = j

theorem seen_get (s : Proc) (k : Nat) : (seen s)[k]? = (s.models[k]?).map (·.map (·.view s.heap)) := by
  unfold seen; rw [List.getElem?_map]

theorem get_push {l : List (Option HClusWisard)} {x : Option HClusWisard} {i : Nat} {w : HClusWisard}
    (h : (l ++ [x])[i]? = some (some w)) : l[i]? = some (some w) ∨ (i = l.length ∧ x = some w) := by
  by_cases hl : i < l.length
  · rw [List.getElem?_append_left hl] at h; exact .inl h
  · rw [List.getElem?_append_right (by omega)] at h
    have h1 := (List.getElem?_eq_some_iff.mp h).1
    simp at h1
    have : i = l.length := by omega
    subst this
    simp at h
    exact .inr ⟨rfl, h⟩

theorem pstep_sole (f : Flt) {s : Proc} (hs : AllSole s) (o : POp) :
    AllSole (pstep f s o).1 ∧ s.heap.length ≤ (pstep f s o).1.heap.length := by
  cases o with
  | new a m t d o =>
    simp only [pstep, Proc.new, HClusWisard.create]
    cases ClusWisard.checkConfigInputs m t d with
    | error e => exact ⟨hs, Nat.le_refl _⟩
    | ok u =>
      refine ⟨fun i w hi => ?_, Nat.le_refl _⟩
      rcases get_push hi with h1 | ⟨_, h1⟩
      · exact hs i w h1
      · cases h1; exact Sole.empty _ _ _ _ _ _
  | load fs c =>
    simp only [pstep, Proc.load]
    obtain ⟨l1, l2, l3⟩ := load_view fs s.heap c
    cases hr : (HClusWisard.ofJson fs s.heap c).2 with
    | error e => exact ⟨fun i w hi => (hs i w hi).grow l1, l1.length_le⟩
    | ok w0 =>
      refine ⟨fun i w hi => ?_, l1.length_le⟩
      rcases get_push hi with h1 | ⟨_, h1⟩
      · exact (hs i w h1).grow l1
      · cases h1; exact (l3 _ hr).2.1
  | call k op =>
    simp only [pstep]
    cases hk : s.models[k]? with
    | none => exact ⟨hs, Nat.le_refl _⟩
    | some m =>
      cases m with
      | none => exact ⟨hs, Nat.le_refl _⟩
      | some w0 =>
        obtain ⟨_, st⟩ := hstep_view f (hs k w0 hk) op
        refine ⟨fun i w hi => ?_, st.len⟩
        simp only at hi
        by_cases hik : k = i
        · subst hik
          rw [List.getElem?_set_self (List.getElem?_eq_some_iff.mp hk).1] at hi
          cases hi
          exact st.sole
        · rw [List.getElem?_set_ne hik] at hi
          have := hs i w hi
          exact ⟨this.sorted, fun p hp => Nat.lt_of_lt_of_le (this.valid p hp) st.len, this.once⟩
  | copy k =>
    simp only [pstep, Proc.copy]
    cases hk : s.models[k]? with
    | none => exact ⟨hs, Nat.le_refl _⟩
    | some m =>
      cases m with
      | none => exact ⟨hs, Nat.le_refl _⟩
      | some w0 =>
        refine ⟨fun i w hi => ?_, Nat.le_refl _⟩
        rcases get_push hi with h1 | ⟨_, h1⟩
        · exact hs i w h1
        · cases h1; exact hs k _ hk
  | destroy k =>
    simp only [pstep, Proc.destroy]
    cases hk : s.models[k]? with
    | none => exact ⟨hs, Nat.le_refl _⟩
    | some m =>
      cases m with
      | none => exact ⟨hs, Nat.le_refl _⟩
      | some w0 =>
        refine ⟨fun i w hi => ?_, Nat.le_refl _⟩
        simp only at hi
        by_cases hik : k = i
        · subst hik
          rw [List.getElem?_set_self (List.getElem?_eq_some_iff.mp hk).1] at hi
          cases hi
        · rw [List.getElem?_set_ne hik] at hi
          exact hs i w hi

theorem start_sole : AllSole Proc.start := fun i w hi => by simp [Proc.start] at hi

theorem pplay_sole (f : Flt) : ∀ (ops : List POp) (s : Proc), AllSole s → AllSole (pplay f s ops).1 ∧ s.heap.length ≤ (pplay f s ops).1.heap.length := by
  intro ops
  induction ops with
  | nil => intro s hs; exact ⟨hs, Nat.le_refl _⟩
  | cons o ops ih =>
    intro s hs
    obtain ⟨h1, h2⟩ := pstep_sole f hs o
    obtain ⟨h3, h4⟩ := ih _ h1
    exact ⟨h3, Nat.le_trans h2 h4⟩

/-- What the other objects see is what it was, if the heap only changed where they have no pointers. -/
theorem seen_frame {s : Proc} {h' : Heap} (hs : AllSole s) (i : Nat)
    (e : ∀ w p, s.models[i]? = some (some w) → w.Has p → h'[p]? = s.heap[p]?) :
    (s.models[i]?).map (·.map (·.view h')) = (s.models[i]?).map (·.map (·.view s.heap)) := by
  cases hi : s.models[i]? with
  | none => rfl
  | some m =>
    cases m with
    | none => rfl
    | some w =>
      simp only [Option.map_some]
      rw [wview_congr (hs i w hi).sorted (fun p hp => e w p hi hp)]

theorem noDiscs_has {h : Heap} {w : HClusWisard} (hw : NoDiscs (w.view h)) (p : Nat) : ¬ w.Has p := by
  rintro ⟨k, c, hk, hm⟩
  have hc : c.ptrs = [] := by
    cases k with
    | none =>
      cases hk
      have := hw.2
      simpa [HClusWisard.view, HCluster.view] using this
    | some l =>
      have := hw.1 (l, c.view h) (by
        simp only [HClusWisard.view, List.mem_map]
        exact ⟨(l, c), SMap.mem_of_find hk, rfl⟩)
      simpa [HCluster.view] using this
  rw [hc] at hm
  simp at hm

theorem pstep_values (f : Flt) {s : Proc} (hs : AllSole s) (ha : Apart s) (o : POp)
    (hc : ∀ k w, o = .copy k → (seen s)[k]? = some (some w) → NoDiscs w) :
    seen (pstep f s o).1 = (vstep f (seen s) o).1 ∧ (pstep f s o).2 = (vstep f (seen s) o).2 ∧ Apart (pstep f s o).1 := by
  cases o with
  | new a m t d o =>
    simp only [pstep, Proc.new, HClusWisard.create, vstep, ClusWisard.create]
    cases ClusWisard.checkConfigInputs m t d with
    | error e => exact ⟨rfl, rfl, ha⟩
    | ok u =>
      refine ⟨by simp only [Except.bind_ok, Proc.push, seen, List.map_append]; rfl, rfl, ?_⟩
      have hno : ∀ p, ¬ (⟨a, m, t, d, o, [], HCluster.default⟩ : HClusWisard).Has p := by
        rintro p ⟨k, c, hk, hm⟩
        cases k with
        | none => cases hk; simp [HCluster.default] at hm
        | some l => cases hk
      intro i j w w' p hi hj hp hp'
      rcases get_push hi with h1 | ⟨_, h1⟩
      · rcases get_push hj with h2 | ⟨_, h2⟩
        · exact ha i j w w' p h1 h2 hp hp'
        · cases h2; exact absurd hp' (hno p)
      · cases h1; exact absurd hp (hno p)
  | load fs c =>
    simp only [pstep, Proc.load, vstep]
    obtain ⟨l1, l2, l3⟩ := load_view fs s.heap c
    have hframe : s.models.map (·.map (·.view (HClusWisard.ofJson fs s.heap c).1)) = s.models.map (·.map (·.view s.heap)) := by
      refine List.map_congr_left (fun m hm => ?_)
      cases m with
      | none => rfl
      | some w =>
        obtain ⟨i, hi⟩ := List.getElem?_of_mem hm
        simp only [Option.map_some]
        rw [(hs i w hi).view_grow l1]
    cases hr : (HClusWisard.ofJson fs s.heap c).2 with
    | error e =>
      rw [l2 e hr]
      exact ⟨hframe, rfl, ha⟩
    | ok w0 =>
      obtain ⟨v1, v2, v3⟩ := l3 w0 hr
      rw [v1]
      refine ⟨?_, rfl, ?_⟩
      · simp only [Proc.push, seen, List.map_append, hframe]; rfl
      · intro i j w w' p hi hj hp hp'
        rcases get_push hi with h1 | ⟨e1, h1⟩
        · rcases get_push hj with h2 | ⟨_, h2⟩
          · exact ha i j w w' p h1 h2 hp hp'
          · cases h2
            have := (hs i w h1).valid p hp
            have := v3 p hp'
            omega
        · rcases get_push hj with h2 | ⟨e2, h2⟩
          · cases h1
            have := (hs j w' h2).valid p hp'
            have := v3 p hp
            omega
          · rw [e1, e2]
  | call k op =>
    simp only [pstep, vstep, seen_get]
    cases hk : s.models[k]? with
    | none => exact ⟨rfl, rfl, ha⟩
    | some m =>
      cases m with
      | none => exact ⟨rfl, rfl, ha⟩
      | some w0 =>
        simp only [Option.map_some]
        obtain ⟨e1, st⟩ := hstep_view f (hs k w0 hk) op
        rw [e1]
        refine ⟨?_, rfl, ?_⟩
        · apply List.ext_getElem?
          intro i
          rw [seen_get]
          simp only
          by_cases hik : k = i
          · subst hik
            have hl := (List.getElem?_eq_some_iff.mp hk).1
            rw [List.getElem?_set_self hl, List.getElem?_set_self (by simpa [seen] using hl)]
            rfl
          · rw [List.getElem?_set_ne hik, List.getElem?_set_ne hik, seen_get]
            exact seen_frame hs i (fun w p hi hp => st.frame p ((hs i w hi).valid p hp)
              (fun hp' => hik (ha k i w0 w p hk hi hp' hp)))
        · intro i j w w' p hi hj hp hp'
          simp only at hi hj
          by_cases hik : k = i
          · by_cases hjk : k = j
            · rw [← hik, ← hjk]
            · subst hik
              rw [List.getElem?_set_self (List.getElem?_eq_some_iff.mp hk).1] at hi
              cases hi
              rw [List.getElem?_set_ne hjk] at hj
              rcases st.has p hp with h1 | h1
              · exact ha k j w0 w' p hk hj h1 hp'
              · have := (hs j w' hj).valid p hp'; omega
          · rw [List.getElem?_set_ne hik] at hi
            by_cases hjk : k = j
            · subst hjk
              rw [List.getElem?_set_self (List.getElem?_eq_some_iff.mp hk).1] at hj
              cases hj
              rcases st.has p hp' with h1 | h1
              · exact ha i k w w0 p hi hk hp h1
              · have := (hs i w hi).valid p hp; omega
            · rw [List.getElem?_set_ne hjk] at hj
              exact ha i j w w' p hi hj hp hp'
  | copy k =>
    simp only [pstep, Proc.copy, vstep, seen_get]
    cases hk : s.models[k]? with
    | none => exact ⟨rfl, rfl, ha⟩
    | some m =>
      cases m with
      | none => exact ⟨rfl, rfl, ha⟩
      | some w0 =>
        have hno : ∀ p, ¬ w0.Has p := fun p => noDiscs_has (hc k _ rfl (by rw [seen_get, hk]; rfl)) p
        refine ⟨?_, rfl, ?_⟩
        · simp only [Proc.push, seen, List.map_append]; rfl
        · intro i j w w' p hi hj hp hp'
          rcases get_push hi with h1 | ⟨_, h1⟩
          · rcases get_push hj with h2 | ⟨_, h2⟩
            · exact ha i j w w' p h1 h2 hp hp'
            · cases h2; exact absurd hp' (hno p)
          · cases h1; exact absurd hp (hno p)
  | destroy k =>
    simp only [pstep, Proc.destroy, vstep, seen_get]
    cases hk : s.models[k]? with
    | none => exact ⟨rfl, rfl, ha⟩
    | some m =>
      cases m with
      | none => exact ⟨rfl, rfl, ha⟩
      | some w0 =>
        refine ⟨?_, rfl, ?_⟩
        · simp only [seen, List.map_set]; rfl
        · intro i j w w' p hi hj hp hp'
          simp only at hi hj
          have hl := (List.getElem?_eq_some_iff.mp hk).1
          by_cases hik : k = i
          · subst hik; rw [List.getElem?_set_self hl] at hi; cases hi
          · by_cases hjk : k = j
            · subst hjk; rw [List.getElem?_set_self hl] at hj; cases hj
            · rw [List.getElem?_set_ne hik] at hi
              rw [List.getElem?_set_ne hjk] at hj
              exact ha i j w w' p hi hj hp hp'

theorem pplay_values (f : Flt) : ∀ (ops : List POp) (s : Proc), AllSole s → Apart s → CopiesEmpty f s ops →
    seen (pplay f s ops).1 = (vplay f (seen s) ops).1 ∧ (pplay f s ops).2 = (vplay f (seen s) ops).2 := by
  intro ops
  induction ops with
  | nil => intro s _ _ _; exact ⟨rfl, rfl⟩
  | cons o ops ih =>
    intro s hs ha hc
    obtain ⟨e1, e2, ha'⟩ := pstep_values f hs ha o hc.1
    obtain ⟨i1, i2⟩ := ih _ (pstep_sole f hs o).1 ha' hc.2
    simp only [pplay, vplay]
    rw [← e1, i1, i2, e2]
    exact ⟨rfl, rfl⟩

theorem start_apart : Apart Proc.start := fun i j w w' p hi => by simp [Proc.start] at hi

theorem noCopy_empty (f : Flt) : ∀ (ops : List POp) (s : Proc), (∀ o ∈ ops, o.NoCopy) → CopiesEmpty f s ops := by
  intro ops
  induction ops with
  | nil => intro s _; trivial
  | cons o ops ih =>
    intro s h
    refine ⟨fun k w ho => ?_, ih _ (fun o' ho' => h o' (List.mem_cons_of_mem _ ho'))⟩
    have := h o (by simp)
    rw [ho] at this
    exact this.elim

/-! ## C124: objects that were not copied share nothing -/

/-- C124. In every program that makes, loads, uses and destroys any number of ClusWisard objects in any order, but copies
none, every call returns, and every object shows, what it would if each object were a value of its own. -/
theorem C124_values (f : Flt) (ops : List POp) (h : ∀ o ∈ ops, o.NoCopy) :
    seen (pplay f Proc.start ops).1 = (vplay f [] ops).1 ∧ (pplay f Proc.start ops).2 = (vplay f [] ops).2 :=
  pplay_values f ops Proc.start start_sole start_apart (noCopy_empty f ops _ h)

theorem vstep_others (f : Flt) (s : List (Option ClusWisard)) (k j : Nat) (op : COp) (h : j ≠ k) :
    (vstep f s (.call k op)).1[j]? = s[j]? := by
  simp only [vstep]
  split
  · rw [List.getElem?_set_ne (Ne.symm h)]
  · rfl

theorem pplay_append (f : Flt) : ∀ (a b : List POp) (s : Proc), (pplay f s (a ++ b)).1 = (pplay f (pplay f s a).1 b).1 := by
  intro a
  induction a with
  | nil => intro b s; rfl
  | cons o a ih => intro b s; exact ih b _

theorem vplay_append (f : Flt) : ∀ (a b : List POp) (s : List (Option ClusWisard)),
    (vplay f s (a ++ b)).1 = (vplay f (vplay f s a).1 b).1 := by
  intro a
  induction a with
  | nil => intro b s; rfl
  | cons o a ih => intro b s; exact ih b _

/-- C124. A call on one object leaves every other object as it was. -/
theorem C124_others (f : Flt) (ops : List POp) (h : ∀ o ∈ ops, o.NoCopy) (k j : Nat) (op : COp) (hj : j ≠ k) :
    (seen (pplay f Proc.start (ops ++ [.call k op])).1)[j]? = (seen (pplay f Proc.start ops).1)[j]? := by
  have h' : ∀ o ∈ ops ++ [.call k op], o.NoCopy := by
    intro o ho
    rcases List.mem_append.mp ho with h1 | h1
    · exact h o h1
    · simp at h1; subst h1; trivial
  rw [(C124_values f _ h').1, (C124_values f ops h).1, vplay_append]
  exact vstep_others f _ k j op hj

/-- C124. Whatever a program does, copies included: no object ever keeps a pointer to something that is not a
discriminator made before. -/
theorem C124_no_dangling (f : Flt) (ops : List POp) (k : Nat) (w : HClusWisard) (l : Str) (c : HCluster) (p : Nat)
    (hw : (pplay f Proc.start ops).1.models[k]? = some (some w))
    (hc : w.clusters.find l = some c ∨ w.unsupervisedCluster = c) (hp : some p ∈ c.ptrs) :
    ∃ d, (pplay f Proc.start ops).1.heap[p]? = some d := by
  have s := (pplay_sole f ops Proc.start start_sole).1 k w hw
  have : p < (pplay f Proc.start ops).1.heap.length := by
    rcases hc with hc | rfl
    · exact s.valid p ⟨some l, c, hc, hp⟩
    · exact s.valid p ⟨none, _, rfl, hp⟩
  exact ⟨_, List.getElem?_eq_getElem this⟩

/-! ## C125: copies -/

/-- C125, partial: it holds when only objects without discriminators are copied. -/
theorem C125_copies_partial (f : Flt) (ops : List POp) (h : CopiesEmpty f Proc.start ops) :
    seen (pplay f Proc.start ops).1 = (vplay f [] ops).1 ∧ (pplay f Proc.start ops).2 = (vplay f [] ops).2 :=
  pplay_values f ops Proc.start start_sole start_apart h

/-- C125. A copy starts equal to its original, and the object on which a call is made does what it would do alone —
in every program. -/
theorem C125_own_calls (f : Flt) (ops : List POp) (k : Nat) (w : ClusWisard)
    (hw : (seen (pplay f Proc.start ops).1)[k]? = some (some w)) :
    (seen (pplay f Proc.start (ops ++ [.copy k])).1)[(seen (pplay f Proc.start ops).1).length]? = some (some w) ∧
    ∀ op, (seen (pplay f Proc.start (ops ++ [.call k op])).1)[k]? = some (some (cstep f w op).1) ∧
      (pstep f (pplay f Proc.start ops).1 (.call k op)).2 = (cstep f w op).2 := by
  have hs := (pplay_sole f ops Proc.start start_sole).1
  simp only [pplay_append]
  generalize (pplay f Proc.start ops).1 = s at hw hs ⊢
  rw [seen_get] at hw
  cases hk : s.models[k]? with
  | none => rw [hk] at hw; cases hw
  | some m =>
    cases m with
    | none => rw [hk] at hw; cases hw
    | some w0 =>
      rw [hk] at hw
      simp only [Option.map_some, Option.some.injEq] at hw
      subst hw
      refine ⟨?_, fun op => ?_⟩
      · simp only [pplay, pstep, Proc.copy, hk, Proc.push, seen, List.map_append, List.length_map]
        rw [List.getElem?_append_right (by simp)]
        simp
      · obtain ⟨e1, st⟩ := hstep_view f (hs k w0 hk) op
        rw [e1]
        simp only [pplay, pstep, hk, seen_get]
        rw [List.getElem?_set_self (List.getElem?_eq_some_iff.mp hk).1]
        exact ⟨rfl, trivial⟩

/-! ### What a copy shares -/

/-- The classes stay, and keep their pointers. -/
def Keeps (w w' : HClusWisard) : Prop :=
  ∀ l c, w.clusters.find l = some c → ∃ c', w'.clusters.find l = some c' ∧ c.ptrs <+: c'.ptrs

theorem Keeps.refl (w : HClusWisard) : Keeps w w := fun _ c hc => ⟨c, hc, List.prefix_refl _⟩

theorem Keeps.trans {a b c : HClusWisard} (h : Keeps a b) (h' : Keeps b c) : Keeps a c := by
  intro l x hx
  obtain ⟨y, hy, p⟩ := h l x hx
  obtain ⟨z, hz, q⟩ := h' l y hy
  exact ⟨z, hz, p.trans q⟩

theorem trainNew_ptrs (h : Heap) (cl : HCluster) (env : Env) (img : Image) : cl.ptrs <+: (HCluster.trainNew h cl env img).2.1.ptrs := by
  unfold HCluster.trainNew
  cases cl.cfg with
  | none => exact List.prefix_refl _
  | some c =>
    simp only
    cases Cluster.newDiscriminator env.rnd c with
    | error e =>
      simp only
      by_cases hl : env.lhsFirst
      · rw [if_pos hl]; exact List.prefix_append _ _
      · rw [if_neg hl]; exact List.prefix_refl _
    | ok d => exact List.prefix_append _ _

theorem ctrain_ptrs (f : Flt) (h : Heap) (cl : HCluster) (env : Env) (img : Image) : cl.ptrs <+: (HCluster.train f h cl env img).2.1.ptrs := by
  unfold HCluster.train
  by_cases h0 : cl.ptrs.length = 0
  · rw [if_pos h0]; exact trainNew_ptrs h cl env img
  · rw [if_neg h0]
    cases cl.cfg with
    | none => exact List.prefix_refl _
    | some c =>
      simp only
      rcases HCluster.scan f c img cl.ptrs h 0 none false with ⟨h', r⟩
      cases r with
      | error e => exact List.prefix_refl _
      | ok bt =>
        obtain ⟨b, t⟩ := bt
        cases t with
        | true => exact List.prefix_refl _
        | false =>
          simp only [Bool.false_eq_true, if_false]
          by_cases hl : (cl.ptrs.length : Int) < c.discriminatorsLimit
          · rw [if_pos hl]; exact trainNew_ptrs h' cl env img
          · rw [if_neg hl]
            cases b <;> exact List.prefix_refl _

theorem keeps_set {w : HClusWisard} {l : Str} {c : HCluster} (h : ∀ d, w.clusters.find l = some d → d.ptrs <+: c.ptrs) :
    Keeps w { w with clusters := w.clusters.set l c } := by
  intro k d hd
  by_cases e : k = l
  · subst e; exact ⟨c, SMap.find_set_self _ _ _, h d hd⟩
  · exact ⟨d, by rw [SMap.find_set_ne _ _ e]; exact hd, List.prefix_refl _⟩

theorem trainIn_keeps (f : Flt) (h : Heap) (w : HClusWisard) (env : Env) (img : List Int) (l : Str) :
    Keeps w (w.trainIn f h env img l).2.1 := by
  refine keeps_set (fun d hd => ?_)
  rw [hd]
  exact ctrain_ptrs f h d env _

theorem train1_keeps (f : Flt) (h : Heap) (w : HClusWisard) (env : Env) (img : List Int) (l : Str) :
    Keeps w (w.train1 f h env img l).2.1 := by
  unfold HClusWisard.train1
  cases hf : w.clusters.find l with
  | some c => exact trainIn_keeps f h w env img l
  | none => exact (keeps_set (fun d hd => by rw [hf] at hd; cases hd)).trans (trainIn_keeps f h _ env img l)

theorem trainOwn_keeps (f : Flt) (h : Heap) (w : HClusWisard) (env : Env) (img : List Int) :
    Keeps w (w.trainOwn f h env img).2.1 := by
  unfold HClusWisard.trainOwn
  cases (w.view h).classify1 img false with
  | error e => exact Keeps.refl w
  | ok cs => exact trainIn_keeps f h w env img _

theorem trainLoop_keeps (f : Flt) (env : Nat → Env) : ∀ (es : List (List Int × Str)) (i : Nat) (h : Heap) (w : HClusWisard),
    Keeps w (HClusWisard.trainLoop f env es i h w).2.1 := by
  intro es
  induction es with
  | nil => intro i h w; exact Keeps.refl w
  | cons a es ih =>
    obtain ⟨img, l⟩ := a
    intro i h w
    have k1 := train1_keeps f h w (env i) img l
    unfold HClusWisard.trainLoop
    revert k1
    rcases w.train1 f h (env i) img l with ⟨h', w', r⟩
    intro k1
    cases r with
    | error e => exact k1
    | ok u => exact k1.trans (ih (i + 1) h' w')

theorem semiLoop_keeps (f : Flt) (env : Nat → Env) (labels : LabelMap) : ∀ (imgs : List (List Int)) (i : Nat) (h : Heap) (w : HClusWisard)
    (ll : List Int) (j : Nat), Keeps w (HClusWisard.semiLoop f env labels imgs i h w ll j).2.1 := by
  intro imgs
  induction imgs with
  | nil => intro i h w ll j; exact Keeps.refl w
  | cons img imgs ih =>
    intro i h w ll j
    unfold HClusWisard.semiLoop
    cases labels.find i with
    | none =>
      simp only
      cases ClusWisard.noteLabelless ll j i with
      | error e => exact Keeps.refl w
      | ok ll' => exact ih (i + 1) h w ll' (j + 1)
    | some l =>
      simp only
      have k1 := train1_keeps f h w (env i) img l
      revert k1
      rcases w.train1 f h (env i) img l with ⟨h', w', r⟩
      intro k1
      cases r with
      | error e => exact k1
      | ok u => exact k1.trans (ih (i + 1) h' w' ll j)

theorem ownLoop_keeps (f : Flt) (env : Nat → Env) : ∀ (imgs : List (List Int)) (i : Nat) (h : Heap) (w : HClusWisard),
    Keeps w (HClusWisard.ownLoop f env imgs i h w).2.1 := by
  intro imgs
  induction imgs with
  | nil => intro i h w; exact Keeps.refl w
  | cons img imgs ih =>
    intro i h w
    have k1 := trainOwn_keeps f h w (env i) img
    unfold HClusWisard.ownLoop
    revert k1
    rcases w.trainOwn f h (env i) img with ⟨h', w', r⟩
    intro k1
    cases r with
    | error e => exact k1
    | ok u => exact k1.trans (ih (i + 1) h' w')

theorem hunsupLoop_clusters (f : Flt) (env : Nat → Env) : ∀ (imgs : List (List Int)) (i : Nat) (h : Heap) (w : HClusWisard),
    (HClusWisard.unsupLoop f env imgs i h w).2.1.clusters = w.clusters := by
  intro imgs
  induction imgs with
  | nil => intro i h w; rfl
  | cons img imgs ih =>
    intro i h w
    unfold HClusWisard.unsupLoop
    rcases HCluster.train f h w.unsupervisedCluster (env i) (.vec img) with ⟨h', c, r⟩
    cases r with
    | error e => rfl
    | ok u => exact ih (i + 1) h' _

theorem hstep_keeps (f : Flt) (h : Heap) (w : HClusWisard) (op : COp) : Keeps w (hstep f h w op).2.1 := by
  cases op with
  | train env images labels =>
    simp only [hstep]
    unfold HClusWisard.train
    simp only
    split
    · exact Keeps.refl w
    · exact trainLoop_keeps f env _ 0 h w
  | semi env images labels =>
    simp only [hstep]
    unfold HClusWisard.trainSemi
    simp only
    split
    · exact Keeps.refl w
    · have k1 := semiLoop_keeps f (env false) labels images 0 h w (List.replicate (images.length - labels.length) 0) 0
      revert k1
      rcases HClusWisard.semiLoop f (env false) labels images 0 h w (List.replicate (images.length - labels.length) 0) 0 with ⟨h', w', r⟩
      intro k1
      cases r with
      | error e => exact k1
      | ok ll =>
        simp only
        by_cases hl : ll.length = images.length
        · rw [if_pos hl]; exact k1
        · rw [if_neg hl]; exact k1.trans (ownLoop_keeps f (env true) _ 0 h' w')
  | unsup env images =>
    simp only [hstep]
    have : (HClusWisard.trainUnsupervised f h w env images).2.1.clusters = w.clusters := by
      unfold HClusWisard.trainUnsupervised
      by_cases h0 : w.clusters.length = 0
      · rw [if_pos h0]
        cases images with
        | nil => rfl
        | cons i0 imgs => exact hunsupLoop_clusters f env _ 0 h _
      · rw [if_neg h0]; exact hunsupLoop_clusters f env _ 0 h _
    intro l c hc
    exact ⟨c, by rw [this]; exact hc, List.prefix_refl _⟩
  | mental it l =>
    simp only [hstep]
    unfold HClusWisard.getMentalImage
    cases hf : w.clusters.find l with
    | some c => exact Keeps.refl w
    | none => exact keeps_set (fun d hd => by rw [hf] at hd; cases hd)

theorem calls_keep (f : Flt) (n : Nat) : ∀ (calls : List COp) (s : Proc) (w : HClusWisard), s.models[n]? = some (some w) →
    ∃ w', (pplay f s (calls.map (.call n))).1.models[n]? = some (some w') ∧ Keeps w w' ∧
      ∀ k, k ≠ n → (pplay f s (calls.map (.call n))).1.models[k]? = s.models[k]? := by
  intro calls
  induction calls with
  | nil => intro s w hn; exact ⟨w, hn, Keeps.refl w, fun _ _ => rfl⟩
  | cons op calls ih =>
    intro s w hn
    simp only [List.map_cons, pplay]
    have e : (pstep f s (.call n op)).1 = ⟨(hstep f s.heap w op).1, s.models.set n (some (hstep f s.heap w op).2.1)⟩ := by
      simp only [pstep, hn]
    rw [e]
    obtain ⟨w', h1, h2, h3⟩ := ih ⟨(hstep f s.heap w op).1, s.models.set n (some (hstep f s.heap w op).2.1)⟩ (hstep f s.heap w op).2.1
      (by simp only; rw [List.getElem?_set_self (List.getElem?_eq_some_iff.mp hn).1])
    refine ⟨w', h1, (hstep_keeps f s.heap w op).trans h2, fun k hk => ?_⟩
    rw [h3 k hk]
    simp only
    rw [List.getElem?_set_ne (Ne.symm hk)]

theorem discs_view (h : Heap) (w : HClusWisard) (l : Str) (c : HCluster) (hc : w.clusters.find l = some c) :
    discs (w.view h) l = derefs h c.ptrs := by
  unfold discs
  rw [view_find, hc]
  rfl

/-- C125 refuted in general: copy an object and train the copy with whatever calls; then for every class that the
original had, the discriminators of the original are the first ones of the copy — what the copy learnt, the original has learnt. -/
theorem C125_copy_trains_original (f : Flt) (ops : List POp) (k : Nat) (w : ClusWisard) (calls : List COp)
    (hw : (seen (pplay f Proc.start ops).1)[k]? = some (some w)) :
    ∃ original copy : ClusWisard,
      (seen (pplay f Proc.start (ops ++ .copy k :: calls.map (.call (seen (pplay f Proc.start ops).1).length))).1)[k]? = some (some original) ∧
      (seen (pplay f Proc.start (ops ++ .copy k :: calls.map (.call (seen (pplay f Proc.start ops).1).length))).1)[(seen (pplay f Proc.start ops).1).length]? =
        some (some copy) ∧
      ∀ l, w.clusters.find l ≠ none → discs original l <+: discs copy l := by
  rw [pplay_append]
  generalize (pplay f Proc.start ops).1 = s at hw ⊢
  rw [seen_get] at hw
  cases hk : s.models[k]? with
  | none => rw [hk] at hw; cases hw
  | some m =>
    cases m with
    | none => rw [hk] at hw; cases hw
    | some w0 =>
      rw [hk] at hw
      simp only [Option.map_some, Option.some.injEq] at hw
      subst hw
      have el : (seen s).length = s.models.length := by simp [seen]
      rw [el]
      simp only [pplay, pstep, Proc.copy, hk, Proc.push]
      obtain ⟨w', h1, h2, h3⟩ := calls_keep f s.models.length calls ⟨s.heap, s.models ++ [some w0]⟩ w0 (by simp)
      have hl : k < s.models.length := (List.getElem?_eq_some_iff.mp hk).1
      have h3k := h3 k (by omega)
      simp only at h3k
      rw [List.getElem?_append_left hl, hk] at h3k
      generalize (pplay f ⟨s.heap, s.models ++ [some w0]⟩ (calls.map (.call s.models.length))).1 = t at h1 h3k
      refine ⟨w0.view t.heap, w'.view t.heap, by rw [seen_get, h3k]; rfl, by rw [seen_get, h1]; rfl, fun l hf => ?_⟩
      cases hc : w0.clusters.find l with
      | none => rw [view_find, hc] at hf; exact absurd rfl hf
      | some c =>
        obtain ⟨c', hc', hp⟩ := h2 l c hc
        rw [discs_view _ _ l c hc, discs_view _ _ l c' hc']
        exact hp.map _

/-- The program of the examples: train a ClusWisard, copy it, train the copy. -/
def copyThenTrain : List POp :=
  [.new 2 (1/2) 10 3 {}, .call 0 op0, .copy 0, .call 1 (.train (fun _ => env0) [[1, 1, 1, 1]] [b!"a"])]

/-- C125 refuted: training the copy changes the original. -/
theorem C125_copy_refuted :
    (seen (pplay Flt.exact Proc.start copyThenTrain).1)[0]? ≠ (vplay Flt.exact [] copyThenTrain).1[0]? := by decide +kernel

/-! ## C126: the memory of the discriminators -/

/-- C126, the part that holds: nothing that an object may still use is ever freed, whatever other objects do. -/
theorem C126_not_freed_in_use_partial (f : Flt) (a b : List POp) :
    (pplay f Proc.start a).1.heap.length ≤ (pplay f Proc.start (a ++ b)).1.heap.length := by
  rw [pplay_append]
  exact (pplay_sole f b _ (pplay_sole f a _ start_sole).1).2

/-- Destroying an object frees no discriminator. -/
theorem C126_destroy_frees_nothing (f : Flt) (s : Proc) (k : Nat) : (pstep f s (.destroy k)).1.heap = s.heap := by
  simp only [pstep, Proc.destroy]
  split <;> rfl

/-- Make a ClusWisard, train one image, destroy it. -/
def useOnce (k : Nat) : List POp :=
  [.new 2 (1/2) 10 3 {}, .call k (.train (fun _ => env0) [[1, 1, 1, 1]] [b!"a"]), .destroy k]

/-- `n` objects, one after the other. -/
def useMany : Nat → List POp
  | 0 => []
  | n + 1 => useMany n ++ useOnce n

theorem train_once (f : Flt) (h : Heap) : ∃ d, hstep f h ⟨2, 1/2, 10, 3, {}, [], HCluster.default⟩ (.train (fun _ => env0) [[1, 1, 1, 1]] [b!"a"]) =
    (h ++ [d], ⟨2, 1/2, 10, 3, {}, [(b!"a", ⟨some ⟨2, 4, 1/2, 10, 3, true, false, 2⟩, [some h.length]⟩)], HCluster.default⟩, .ok ()) := by
  refine ⟨_, rfl⟩

theorem useOnce_run (f : Flt) (s : Proc) : ∃ d, (pplay f s (useOnce s.models.length)).1 = ⟨s.heap ++ [d], s.models ++ [none]⟩ := by
  obtain ⟨d, hd⟩ := train_once f s.heap
  have e1 : (pstep f s (.new 2 (1/2) 10 3 {})).1 = ⟨s.heap, s.models ++ [some ⟨2, 1/2, 10, 3, {}, [], HCluster.default⟩]⟩ := by
    simp only [pstep, Proc.new]
    have : HClusWisard.create 2 (1/2) 10 3 {} = .ok ⟨2, 1/2, 10, 3, {}, [], HCluster.default⟩ := by decide +kernel
    rw [this]
    rfl
  refine ⟨d, ?_⟩
  simp only [useOnce, pplay, e1]
  simp only [pstep]
  have g1 : (s.models ++ [some (⟨2, 1/2, 10, 3, {}, [], HCluster.default⟩ : HClusWisard)])[s.models.length]? =
      some (some ⟨2, 1/2, 10, 3, {}, [], HCluster.default⟩) := by simp
  simp only [g1, hd, Proc.destroy]
  simp

theorem useMany_run (f : Flt) : ∀ n, (pplay f Proc.start (useMany n)).1.heap.length = n ∧
    (pplay f Proc.start (useMany n)).1.models = List.replicate n none := by
  intro n
  induction n with
  | zero => exact ⟨rfl, rfl⟩
  | succ n ih =>
    obtain ⟨h1, h2⟩ := ih
    simp only [useMany, pplay_append]
    have hl : (pplay f Proc.start (useMany n)).1.models.length = n := by rw [h2]; simp
    have := useOnce_run f (pplay f Proc.start (useMany n)).1
    rw [hl] at this
    obtain ⟨d, hd⟩ := this
    rw [hd, h2]
    exact ⟨by simp [h1], by rw [List.replicate_succ']⟩

/-- C126 refuted: a program that makes, trains and destroys one object after the other keeps the discriminators of all
of them in memory, although no object is left: the memory grows without bound. -/
theorem C126_memory_given_back_refuted (f : Flt) (n : Nat) :
    ∃ ops : List POp, (∀ r ∈ (pplay f Proc.start ops).1.models, r = none) ∧ (pplay f Proc.start ops).1.heap.length = n :=
  ⟨useMany n, fun r hr => by rw [(useMany_run f n).2] at hr; exact (List.mem_replicate.mp hr).2, (useMany_run f n).1⟩

/-- One call of `trainUnsupervised` with one image. -/
def unsupOnce : POp := .call 0 (.unsup (fun _ => env0) [[1, 1, 1, 1]])

theorem unsup_once (f : Flt) (h : Heap) (c : HCluster) : ∃ d, hstep f h ⟨2, 1/2, 10, 3, {}, [], c⟩ (.unsup (fun _ => env0) [[1, 1, 1, 1]]) =
    (h ++ [d], ⟨2, 1/2, 10, 3, {}, [], ⟨some ⟨2, 4, 1/2, 10, 3, true, false, 2⟩, [some h.length]⟩⟩, .ok ()) := by
  refine ⟨_, rfl⟩

theorem unsup_many (f : Flt) : ∀ (n : Nat) (h : Heap) (c : HCluster), c.ptrs.length ≤ 1 →
    (pplay f ⟨h, [some ⟨2, 1/2, 10, 3, {}, [], c⟩]⟩ (List.replicate n unsupOnce)).1.heap.length = h.length + n ∧
    ∃ c', c'.ptrs.length ≤ 1 ∧ (pplay f ⟨h, [some ⟨2, 1/2, 10, 3, {}, [], c⟩]⟩ (List.replicate n unsupOnce)).1.models =
      [some ⟨2, 1/2, 10, 3, {}, [], c'⟩] := by
  intro n
  induction n with
  | zero => intro h c hc; exact ⟨rfl, c, hc, rfl⟩
  | succ n ih =>
    intro h c hc
    obtain ⟨d, hd⟩ := unsup_once f h c
    have e : (pstep f ⟨h, [some ⟨2, 1/2, 10, 3, {}, [], c⟩]⟩ unsupOnce).1 =
        ⟨h ++ [d], [some ⟨2, 1/2, 10, 3, {}, [], ⟨some ⟨2, 4, 1/2, 10, 3, true, false, 2⟩, [some h.length]⟩⟩]⟩ := by
      simp only [pstep, unsupOnce, List.getElem?_cons_zero, hd, List.set_cons_zero]
    simp only [List.replicate_succ, pplay, e]
    obtain ⟨i1, i2⟩ := ih (h ++ [d]) ⟨some ⟨2, 4, 1/2, 10, 3, true, false, 2⟩, [some h.length]⟩ (by simp)
    exact ⟨by rw [i1]; simp; omega, i2⟩

/-- C126 refuted: without supervised classes each call of `trainUnsupervised` starts afresh, and the discriminators of the
calls before stay in memory: after `n` calls of one image each, `n` discriminators for an object that has at most one. -/
theorem C126_unsupervised_refuted (f : Flt) (n : Nat) :
    (pplay f Proc.start (.new 2 (1/2) 10 3 {} :: List.replicate n unsupOnce)).1.heap.length = n ∧
    ∃ w, (seen (pplay f Proc.start (.new 2 (1/2) 10 3 {} :: List.replicate n unsupOnce)).1) = [some w] ∧ w.clusters = [] ∧
      w.unsupervisedCluster.discriminators.length ≤ 1 := by
  have e : (pstep f Proc.start (.new 2 (1/2) 10 3 {})).1 = ⟨[], [some ⟨2, 1/2, 10, 3, {}, [], HCluster.default⟩]⟩ := by
    simp only [pstep, Proc.new]
    have : HClusWisard.create 2 (1/2) 10 3 {} = .ok ⟨2, 1/2, 10, 3, {}, [], HCluster.default⟩ := by decide +kernel
    rw [this]
    rfl
  simp only [pplay, e]
  obtain ⟨i1, c', hc, i2⟩ := unsup_many f n [] HCluster.default (by simp [HCluster.default])
  refine ⟨by rw [i1]; simp, ⟨2, 1/2, 10, 3, {}, [], c'.view _⟩, by unfold seen; rw [i2]; rfl, rfl, ?_⟩
  simpa [HCluster.view] using hc

/-! ## Examples -/

/-- C124: two objects in turns; both hold discriminators, and the heap has those of both, interleaved. -/
def twoInTurns : List POp :=
  [.new 2 (1/2) 10 3 {}, .new 2 (1/2) 10 3 {}, .call 0 op0, .call 1 op0, .call 0 (.train (fun _ => env0) [[0, 1, 1, 0]] [b!"a"]), .destroy 1]

example : ∀ o ∈ twoInTurns, o.NoCopy := by
  intro o ho
  simp only [twoInTurns, List.mem_cons, List.not_mem_nil, or_false] at ho
  rcases ho with rfl | rfl | rfl | rfl | rfl | rfl <;> trivial

example : (pplay Flt.exact Proc.start twoInTurns).1.heap.length = 7 ∧
    ((pplay Flt.exact Proc.start twoInTurns).1.models.map (·.map (fun w => w.clusters.map (fun e => (e.1, e.2.ptrs))))) =
      [some [(b!"a", [some 0, some 1, some 6]), (b!"b", [some 2])], none] := by decide +kernel

/-- C125: an empty object is copied, then both are trained differently. -/
example : CopiesEmpty Flt.exact Proc.start [.new 2 (1/2) 10 3 {}, .copy 0, .call 1 op0] ∧
    (seen (pplay Flt.exact Proc.start [.new 2 (1/2) 10 3 {}, .copy 0, .call 1 op0]).1).map (·.map (fun w => (discs w b!"a").length)) =
      [some 0, some 2] := by
  refine ⟨⟨fun k w ho => (by cases ho), fun k w ho hw => ?_, fun k w ho => (by cases ho), trivial⟩, by decide +kernel⟩
  injection ho with ho
  subst ho
  have : (seen (pstep Flt.exact Proc.start (.new 2 (1/2) 10 3 {})).1)[0]? = some (some cw0) := by decide +kernel
  rw [this] at hw
  injection hw with hw
  injection hw with hw
  subst hw
  exact ⟨fun e he => (by cases he), rfl⟩

/-- C125: the original counts the training of the copy. -/
example : ((seen (pplay Flt.exact Proc.start copyThenTrain).1)[0]?).map (·.map (fun w => (discs w b!"a").map (·.map (·.getNumberOfTrainings)))) =
      some (some [some 2, some 1]) ∧
    ((vplay Flt.exact [] copyThenTrain).1[0]?).map (·.map (fun w => (discs w b!"a").map (·.map (·.getNumberOfTrainings)))) =
      some (some [some 1, some 1]) := by decide +kernel

end Wis
