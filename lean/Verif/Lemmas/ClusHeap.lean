import Verif.Spec.ClusHeap
import Verif.Lemmas.SMap
import Verif.Lemmas.Discriminator
/-! The ClusWisard with pointers refines the ClusWisard with values, as long as no pointer is shared. -/

namespace Wis
open Spec

/-- The discriminators behind the pointers. -/
def derefs (h : Heap) (ps : List (Option Nat)) : List (Option Discriminator) := ps.map (fun p => p.bind (h[·]?))

theorem derefs_congr {h h' : Heap} {ps : List (Option Nat)} (e : ∀ p, some p ∈ ps → h'[p]? = h[p]?) :
    derefs h' ps = derefs h ps := by
  unfold derefs
  refine List.map_congr_left (fun o ho => ?_)
  cases o with
  | none => rfl
  | some p => exact e p ho

theorem view_eq (h : Heap) (c : HCluster) : c.view h = ⟨c.cfg, derefs h c.ptrs⟩ := rfl

/-- No pointer twice in a cluster. -/
def Once (ps : List (Option Nat)) : Prop := ∀ (i j p : Nat), ps[i]? = some (some p) → ps[j]? = some (some p) → i = j

theorem Once.tail {o : Option Nat} {ps : List (Option Nat)} (h : Once (o :: ps)) : Once ps := by
  intro i j p hi hj
  have := h (i + 1) (j + 1) p (by simpa using hi) (by simpa using hj)
  omega

theorem Once.head {p : Nat} {ps : List (Option Nat)} (h : Once (some p :: ps)) : some p ∉ ps := by
  intro hm
  obtain ⟨i, hi, e⟩ := List.getElem_of_mem hm
  have := h 0 (i + 1) p rfl (by simp [List.getElem?_eq_getElem hi, e])
  omega

theorem once_one (o : Option Nat) : Once [o] := by
  intro i j p hi hj
  have h1 := (List.getElem?_eq_some_iff.mp hi).1
  have h2 := (List.getElem?_eq_some_iff.mp hj).1
  simp at h1 h2
  omega

/-- The best discriminator as a number and as a pointer. -/
def SameBest (all : List (Option Nat)) (bi bp : Option Nat) : Prop :=
  (bi = none ∧ bp = none) ∨ ∃ i p, bi = some i ∧ bp = some p ∧ all[i]? = some (some p)

theorem scan_view (f : Flt) (c : ClusterCfg) (img : Image) : ∀ (ps : List (Option Nat)) (h : Heap) (pre : List (Option Nat))
    (bv : Rat) (bi bp : Option Nat) (t : Bool), Once ps → (∀ p, some p ∈ ps → p < h.length) → SameBest (pre ++ ps) bi bp →
    (Cluster.scan f c img (derefs h ps) pre.length bv bi t).1 = derefs (HCluster.scan f c img ps h bv bp t).1 ps ∧
    (∀ e, (HCluster.scan f c img ps h bv bp t).2 = .error e → (Cluster.scan f c img (derefs h ps) pre.length bv bi t).2 = .error e) ∧
    (∀ bp' t', (HCluster.scan f c img ps h bv bp t).2 = .ok (bp', t') →
      ∃ bi', (Cluster.scan f c img (derefs h ps) pre.length bv bi t).2 = .ok (bi', t') ∧ SameBest (pre ++ ps) bi' bp') ∧
    (HCluster.scan f c img ps h bv bp t).1.length = h.length ∧
    (∀ q, some q ∉ ps → (HCluster.scan f c img ps h bv bp t).1[q]? = h[q]?) := by
  intro ps
  induction ps with
  | nil =>
    intro h pre bv bi bp t _ _ hb
    refine ⟨rfl, fun e he => ?_, fun bp' t' he => ?_, rfl, fun q _ => rfl⟩
    · cases he
    · cases he; exact ⟨bi, rfl, hb⟩
  | cons o ps ih =>
    intro h pre bv bi bp t ho hv hb
    cases o with
    | none =>
      refine ⟨rfl, fun e he => ?_, fun bp' t' he => ?_, rfl, fun q _ => rfl⟩
      · cases he; rfl
      · cases he
    | some p =>
      have hp : p < h.length := hv p (by simp)
      have hd : h[p]? = some h[p] := List.getElem?_eq_getElem hp
      generalize hdd : h[p] = d at hd
      have e0 : derefs h (some p :: ps) = some d :: derefs h ps := by
        show (some p).bind (h[·]?) :: derefs h ps = _
        rw [Option.bind_some, hd]
      have hnot : some p ∉ ps := ho.head
      have eL : pre.length + 1 = (pre ++ [some p]).length := by simp
      have eA : pre ++ some p :: ps = (pre ++ [some p]) ++ ps := by simp
      rw [e0]
      simp only [HCluster.scan, Cluster.scan, hd]
      cases hc : d.classify img with
      | error e =>
        refine ⟨e0.symm, fun e' he => ?_, fun bp' t' he => ?_, rfl, fun q _ => rfl⟩
        · cases he; rfl
        · cases he
      | ok votes =>
        simp only
        have hb' : SameBest ((pre ++ [some p]) ++ ps) (if Cluster.getScore f votes ≥ bv then some pre.length else bi)
            (if Cluster.getScore f votes ≥ bv then some p else bp) := by
          by_cases hs : Cluster.getScore f votes ≥ bv
          · rw [if_pos hs, if_pos hs]
            exact .inr ⟨pre.length, p, rfl, rfl, by simp⟩
          · rw [if_neg hs, if_neg hs, ← eA]; exact hb
        by_cases hl : Cluster.getScore f votes ≥ Cluster.limit f c d.getNumberOfTrainings
        · rw [if_pos hl, if_pos hl]
          cases ht : d.train img with
          | mk d' r =>
            have hset : derefs (h.set p d') ps = derefs h ps := derefs_congr (fun q hq => by
              have : p ≠ q := fun e => hnot (e ▸ hq)
              rw [List.getElem?_set_ne this])
            have hself : (h.set p d')[p]? = some d' := by simp [hp]
            cases r with
            | error e =>
              simp only
              refine ⟨?_, fun e' he => ?_, fun bp' t' he => ?_, by simp, fun q hq => ?_⟩
              · show _ = (some p).bind ((h.set p d')[·]?) :: derefs (h.set p d') ps
                rw [hset, Option.bind_some, hself]
              · cases he; rfl
              · cases he
              · have : p ≠ q := fun e => hq (by simp [e])
                rw [List.getElem?_set_ne this]
            | ok u =>
              simp only
              have := ih (h.set p d') (pre ++ [some p]) (if Cluster.getScore f votes ≥ bv then Cluster.getScore f votes else bv) _ _ true
                ho.tail (fun q hq => by have := hv q (List.mem_cons_of_mem _ hq); simpa using this) hb'
              rw [hset, ← eL, ← eA] at this
              obtain ⟨i1, i2, i3, i4, i5⟩ := this
              refine ⟨?_, i2, i3, by rw [i4]; simp, fun q hq => ?_⟩
              · show some d' :: _ = (some p).bind _ :: derefs _ ps
                rw [i1, Option.bind_some, i5 p hnot, hself]
              · rw [i5 q (fun hm => hq (List.mem_cons_of_mem _ hm))]
                have : p ≠ q := fun e => hq (by simp [e])
                rw [List.getElem?_set_ne this]
        · rw [if_neg hl, if_neg hl]
          have := ih h (pre ++ [some p]) (if Cluster.getScore f votes ≥ bv then Cluster.getScore f votes else bv) _ _ t
            ho.tail (fun q hq => hv q (List.mem_cons_of_mem _ hq)) hb'
          rw [← eL, ← eA] at this
          obtain ⟨i1, i2, i3, i4, i5⟩ := this
          refine ⟨?_, i2, i3, i4, fun q hq => i5 q (fun hm => hq (List.mem_cons_of_mem _ hm))⟩
          show some d :: _ = (some p).bind _ :: derefs _ ps
          rw [i1, Option.bind_some, i5 p hnot, hd]

/-- What a training call does to a cluster and the heap. -/
structure CStep (h : Heap) (c : HCluster) (h' : Heap) (c' : HCluster) : Prop where
  len : h.length ≤ h'.length
  frame : ∀ q, q < h.length → some q ∉ c.ptrs → h'[q]? = h[q]?
  ext : ∃ new, c'.ptrs = c.ptrs ++ new ∧ Once new ∧ ∀ p, some p ∈ new → h.length ≤ p ∧ p < h'.length

theorem ext_nil {h h' : Heap} {c c' : HCluster} (e : c'.ptrs = c.ptrs) :
    ∃ new, c'.ptrs = c.ptrs ++ new ∧ Once new ∧ ∀ p, some p ∈ new → h.length ≤ p ∧ p < h'.length :=
  ⟨[], by simp [e], fun i j p hi => by simp at hi, fun p hp => by simp at hp⟩

theorem trainNew_step (h : Heap) (cl : HCluster) (env : Env) (img : Image) :
    CStep h cl (HCluster.trainNew h cl env img).1 (HCluster.trainNew h cl env img).2.1 := by
  unfold HCluster.trainNew
  cases cl.cfg with
  | none => exact ⟨Nat.le_refl _, fun _ _ _ => rfl, ext_nil rfl⟩
  | some c =>
    simp only
    cases Cluster.newDiscriminator env.rnd c with
    | error e =>
      simp only
      by_cases hl : env.lhsFirst
      · rw [if_pos hl]; exact ⟨Nat.le_refl _, fun _ _ _ => rfl, ⟨[none], rfl, once_one _, fun p hp => by simp at hp⟩⟩
      · rw [if_neg hl]; exact ⟨Nat.le_refl _, fun _ _ _ => rfl, ext_nil rfl⟩
    | ok d => exact ⟨by simp, fun q hq _ => List.getElem?_append_left hq, ⟨[some h.length], rfl, once_one _, fun p hp => by simp at hp; simp [hp]⟩⟩

theorem trainNew_view {h : Heap} {cl : HCluster} (env : Env) (img : Image) (hv : ∀ p, some p ∈ cl.ptrs → p < h.length) :
    (cl.view h).trainNew env img =
      ((HCluster.trainNew h cl env img).2.1.view (HCluster.trainNew h cl env img).1, (HCluster.trainNew h cl env img).2.2) := by
  rw [view_eq]
  unfold Cluster.trainNew HCluster.trainNew
  obtain ⟨cfg, ps⟩ := cl
  simp only at hv ⊢
  cases cfg with
  | none => rfl
  | some c =>
    simp only
    cases Cluster.newDiscriminator env.rnd c with
    | error e =>
      simp only
      by_cases hl : env.lhsFirst
      · rw [if_pos hl, if_pos hl]; simp only [view_eq, derefs, List.map_append]; rfl
      · rw [if_neg hl, if_neg hl]; rfl
    | ok d =>
      simp only [view_eq]
      have e1 : derefs (h ++ [(d.train img).1]) (ps ++ [some h.length]) = derefs h ps ++ [some (d.train img).1] := by
        unfold derefs
        rw [List.map_append]
        congr 1
        · exact derefs_congr (fun p hp => List.getElem?_append_left (hv p hp))
        · simp
      rw [e1]

theorem ctrain_view (f : Flt) {h : Heap} {cl : HCluster} (env : Env) (img : Image) (ho : Once cl.ptrs)
    (hv : ∀ p, some p ∈ cl.ptrs → p < h.length) :
    (cl.view h).train f env img =
      ((HCluster.train f h cl env img).2.1.view (HCluster.train f h cl env img).1, (HCluster.train f h cl env img).2.2) ∧
    CStep h cl (HCluster.train f h cl env img).1 (HCluster.train f h cl env img).2.1 := by
  unfold Cluster.train HCluster.train
  have el : (cl.view h).discriminators.length = cl.ptrs.length := by simp [HCluster.view]
  rw [el]
  by_cases h0 : cl.ptrs.length = 0
  · rw [if_pos h0, if_pos h0]
    exact ⟨trainNew_view env img hv, trainNew_step h cl env img⟩
  rw [if_neg h0, if_neg h0]
  have ec : (cl.view h).cfg = cl.cfg := rfl
  rw [ec]
  cases hc : cl.cfg with
  | none => exact ⟨rfl, ⟨Nat.le_refl _, fun _ _ _ => rfl, ext_nil rfl⟩⟩
  | some c =>
    simp only
    obtain ⟨s1, s2, s3, s4, s5⟩ := scan_view f c img cl.ptrs h [] 0 none none false ho hv (.inl ⟨rfl, rfl⟩)
    have ed : (cl.view h).discriminators = derefs h cl.ptrs := rfl
    rw [ed]
    simp only [List.length_nil, List.nil_append] at s1 s2 s3
    revert s1 s2 s3 s4 s5
    cases HCluster.scan f c img cl.ptrs h 0 none false with
    | mk h' r =>
    cases Cluster.scan f c img (derefs h cl.ptrs) 0 0 none false with
    | mk ds r' =>
    intro s1 s2 s3 s4 s5
    simp only at s1 s2 s3 s4 s5
    subst s1
    have fr : ∀ q, q < h.length → some q ∉ cl.ptrs → h'[q]? = h[q]? := fun q _ hq => s5 q hq
    cases r with
    | error e =>
      rw [s2 e rfl]
      refine ⟨?_, ⟨Nat.le_of_eq s4.symm, fr, ext_nil rfl⟩⟩
      simp only [view_eq, hc]
    | ok bt =>
      obtain ⟨bp, t⟩ := bt
      obtain ⟨bi, e1, hb⟩ := s3 bp t rfl
      rw [e1]
      simp only
      cases t with
      | true =>
        simp only [if_true]
        exact ⟨by simp only [view_eq, hc], ⟨Nat.le_of_eq s4.symm, fr, ext_nil rfl⟩⟩
      | false =>
        have hv' : ∀ p, some p ∈ cl.ptrs → p < h'.length := fun p hp => s4 ▸ hv p hp
        have ev : ({ cfg := some c, discriminators := derefs h' cl.ptrs } : Cluster) = cl.view h' := by rw [view_eq, hc]
        have elen : (derefs h' cl.ptrs).length = cl.ptrs.length := by simp [derefs]
        rw [elen]
        simp only [Bool.false_eq_true, if_false]
        by_cases hl : (cl.ptrs.length : Int) < c.discriminatorsLimit
        · rw [if_pos hl, if_pos hl]
          have e2 := trainNew_view env img hv'
          obtain ⟨n1, n2, n3⟩ := trainNew_step h' cl env img
          refine ⟨?_, ⟨by omega, fun q hq hn => ?_, ?_⟩⟩
          · rw [← e2]; congr 1
          · rw [n2 q (by omega) hn, fr q hq hn]
          · obtain ⟨new, e, o, hn⟩ := n3; exact ⟨new, e, o, fun p hp => s4 ▸ hn p hp⟩
        · rw [if_neg hl, if_neg hl]
          rcases hb with ⟨rfl, rfl⟩ | ⟨i, p, rfl, rfl, hip⟩
          · exact ⟨by simp only [view_eq, hc], ⟨Nat.le_of_eq s4.symm, fr, ext_nil rfl⟩⟩
          · have hpm : some p ∈ cl.ptrs := List.mem_of_getElem? hip
            have hp : p < h'.length := hv' p hpm
            have hd : h'[p]? = some h'[p] := List.getElem?_eq_getElem hp
            generalize h'[p] = d at hd
            have hi : (derefs h' cl.ptrs)[i]? = some (some d) := by
              unfold derefs; rw [List.getElem?_map, hip, Option.map_some, Option.bind_some, hd]
            simp only [Cluster.trainAt, HCluster.trainAt, hi, hd]
            refine ⟨?_, ⟨by simp [s4], fun q hq hn => ?_, ext_nil rfl⟩⟩
            · simp only [view_eq]
              have : (derefs h' cl.ptrs).set i (some (d.train img).1) = derefs (h'.set p (d.train img).1) cl.ptrs := by
                apply List.ext_getElem?
                intro j
                by_cases hj : i = j
                · subst hj
                  have hlt : i < (derefs h' cl.ptrs).length := by
                    rw [elen]; exact (List.getElem?_eq_some_iff.mp hip).1
                  rw [List.getElem?_set_self hlt]
                  unfold derefs
                  rw [List.getElem?_map, hip, Option.map_some, Option.bind_some, List.getElem?_set_self hp]
                · rw [List.getElem?_set_ne hj]
                  unfold derefs
                  rw [List.getElem?_map, List.getElem?_map]
                  cases hq : cl.ptrs[j]? with
                  | none => rfl
                  | some o =>
                    cases o with
                    | none => rfl
                    | some q =>
                      have : p ≠ q := fun e => hj (ho i j p hip (e ▸ hq))
                      rw [Option.map_some, Option.map_some, Option.bind_some, Option.bind_some, List.getElem?_set_ne this]
              rw [this, hc]
            · have : p ≠ q := fun e => hn (e ▸ hpm)
              rw [List.getElem?_set_ne this]
              exact fr q hq hn

/-! ## The whole model -/

/-- The cluster of a class, or the unsupervised one. -/
def HClusWisard.part (w : HClusWisard) : Option Str → Option HCluster
  | none => some w.unsupervisedCluster
  | some l => w.clusters.find l

/-- The model has this pointer. -/
def HClusWisard.Has (w : HClusWisard) (p : Nat) : Prop := ∃ k c, w.part k = some c ∧ some p ∈ c.ptrs

/-- All pointers of the model are valid, and no two of them are the same. -/
structure Sole (h : Heap) (w : HClusWisard) : Prop where
  sorted : SMap.Sorted w.clusters
  valid : ∀ p, w.Has p → p < h.length
  once : ∀ (k : Option Str) (c : HCluster) (k' : Option Str) (c' : HCluster) (i j p : Nat), w.part k = some c → w.part k' = some c' → c.ptrs[i]? = some (some p) → c'.ptrs[j]? = some (some p) →
    k = k' ∧ i = j

theorem Sole.onceAt {h : Heap} {w : HClusWisard} (s : Sole h w) {k : Option Str} {c : HCluster} (hk : w.part k = some c) : Once c.ptrs :=
  fun i j p hi hj => (s.once k c k c i j p hk hk hi hj).2

theorem Sole.validAt {h : Heap} {w : HClusWisard} (s : Sole h w) {k : Option Str} {c : HCluster} (hk : w.part k = some c) :
    ∀ p, some p ∈ c.ptrs → p < h.length := fun p hp => s.valid p ⟨k, c, hk, hp⟩

/-- What a call does to a model and the heap: other pointers keep their discriminators, new pointers are fresh. -/
structure WStep (h : Heap) (w : HClusWisard) (h' : Heap) (w' : HClusWisard) : Prop where
  len : h.length ≤ h'.length
  frame : ∀ q, q < h.length → ¬ w.Has q → h'[q]? = h[q]?
  has : ∀ q, w'.Has q → w.Has q ∨ h.length ≤ q
  sole : Sole h' w'

theorem WStep.refl {h : Heap} {w : HClusWisard} (s : Sole h w) : WStep h w h w :=
  ⟨Nat.le_refl _, fun _ _ _ => rfl, fun _ hq => .inl hq, s⟩

theorem WStep.trans {h h' h'' : Heap} {w w' w'' : HClusWisard} (a : WStep h w h' w') (b : WStep h' w' h'' w'') : WStep h w h'' w'' where
  len := Nat.le_trans a.len b.len
  frame q hq hn := by
    have hn' : ¬ w'.Has q := fun h1 => by
      rcases a.has q h1 with h1 | h1
      · exact hn h1
      · omega
    rw [b.frame q (Nat.lt_of_lt_of_le hq a.len) hn', a.frame q hq hn]
  has q hq := by
    rcases b.has q hq with h1 | h1
    · exact a.has q h1
    · exact .inr (Nat.le_trans a.len h1)
  sole := b.sole

/-- Replace one cluster by what a step made of it. -/
theorem setPart {h h' : Heap} {w w' : HClusWisard} {k : Option Str} {c c' : HCluster} (s : Sole h w)
    (hk : w.part k = some c ∨ c.ptrs = []) (st : CStep h c h' c')
    (hs : SMap.Sorted w'.clusters) (hself : w'.part k = some c') (hne : ∀ k', k' ≠ k → w'.part k' = w.part k') :
    WStep h w h' w' := by
  obtain ⟨new, enew, onew, hnew⟩ := st.ext
  have hc : ∀ p, some p ∈ c.ptrs → w.Has p := by
    intro p hp
    rcases hk with hk | hk
    · exact ⟨k, c, hk, hp⟩
    · rw [hk] at hp; simp at hp
  have hc' : ∀ p, some p ∈ c'.ptrs → some p ∈ c.ptrs ∨ (h.length ≤ p ∧ p < h'.length) := by
    intro p hp
    rw [enew] at hp
    rcases List.mem_append.mp hp with hp | hp
    · exact .inl hp
    · exact .inr (hnew p hp)
  have hhas : ∀ q, w'.Has q → w.Has q ∨ (h.length ≤ q ∧ q < h'.length) := by
    rintro q ⟨k', d, hd, hq⟩
    by_cases he : k' = k
    · subst he
      rw [hself] at hd; cases hd
      rcases hc' q hq with h1 | h1
      · exact .inl (hc q h1)
      · exact .inr h1
    · rw [hne k' he] at hd; exact .inl ⟨k', d, hd, hq⟩
  refine ⟨st.len, fun q hq hn => st.frame q hq (fun hm => hn (hc q hm)), fun q hq => ?_, ⟨hs, fun q hq => ?_, ?_⟩⟩
  · rcases hhas q hq with h1 | h1
    · exact .inl h1
    · exact .inr h1.1
  · rcases hhas q hq with h1 | h1
    · exact Nat.lt_of_lt_of_le (s.valid q h1) st.len
    · exact h1.2
  · -- positions in the new cluster
    have hpos : ∀ (i p : Nat), c'.ptrs[i]? = some (some p) →
        c.ptrs[i]? = some (some p) ∨ (h.length ≤ p ∧ c.ptrs.length ≤ i ∧ new[i - c.ptrs.length]? = some (some p)) := by
      intro i p hi
      rw [enew] at hi
      by_cases hl : i < c.ptrs.length
      · rw [List.getElem?_append_left hl] at hi; exact .inl hi
      · rw [List.getElem?_append_right (by omega)] at hi
        exact .inr ⟨(hnew p (List.mem_of_getElem? hi)).1, by omega, hi⟩
    have hold : ∀ (i p : Nat), c.ptrs[i]? = some (some p) → w.part k = some c ∧ p < h.length := by
      intro i p hi
      have hm := List.mem_of_getElem? hi
      rcases hk with hk | hk
      · exact ⟨hk, s.valid p ⟨k, c, hk, hm⟩⟩
      · rw [hk] at hm; simp at hm
    -- one side is the changed cluster, the other side is not
    have mixed : ∀ (k2 : Option Str) (d : HCluster) (i j p : Nat), k2 ≠ k → w.part k2 = some d → c'.ptrs[i]? = some (some p) → d.ptrs[j]? = some (some p) → False := by
      intro k2 d i j p hk2 hd hi hj
      rcases hpos i p hi with h1 | ⟨h1, _⟩
      · exact hk2 (s.once k2 d k c j i p hd (hold i p h1).1 hj h1).1
      · have := s.valid p ⟨k2, d, hd, List.mem_of_getElem? hj⟩; omega
    intro k1 d1 k2 d2 i j p h1 h2 hi hj
    by_cases e1 : k1 = k
    · by_cases e2 : k2 = k
      · subst e1; subst e2
        rw [hself] at h1 h2
        cases h1; cases h2
        refine ⟨rfl, ?_⟩
        rcases hpos i p hi with a | ⟨a, a1, a2⟩ <;> rcases hpos j p hj with b | ⟨b, b1, b2⟩
        · exact (s.once _ c _ c i j p (hold i p a).1 (hold i p a).1 a b).2
        · have := (hold i p a).2; omega
        · have := (hold j p b).2; omega
        · have := onew _ _ p a2 b2; omega
      · subst e1
        rw [hself] at h1; cases h1
        rw [hne k2 e2] at h2
        exact (mixed k2 d2 i j p e2 h2 hi hj).elim
    · by_cases e2 : k2 = k
      · subst e2
        rw [hself] at h2; cases h2
        rw [hne k1 e1] at h1
        exact (mixed k1 d1 j i p e1 h1 hj hi).elim
      · rw [hne k1 e1] at h1
        rw [hne k2 e2] at h2
        exact s.once k1 d1 k2 d2 i j p h1 h2 hi hj

theorem cview_congr {h h' : Heap} {c : HCluster} (e : ∀ p, some p ∈ c.ptrs → h'[p]? = h[p]?) : c.view h' = c.view h := by
  rw [view_eq, view_eq, derefs_congr e]

theorem wview_congr {h h' : Heap} {w : HClusWisard} (hs : SMap.Sorted w.clusters) (e : ∀ p, w.Has p → h'[p]? = h[p]?) :
    w.view h' = w.view h := by
  unfold HClusWisard.view
  congr 1
  · refine List.map_congr_left (fun a ha => ?_)
    rw [cview_congr (fun p hp => e p ⟨some a.1, a.2, ?_, hp⟩)]
    exact SMap.find_of_mem hs ha
  · exact cview_congr (fun p hp => e p ⟨none, _, rfl, hp⟩)

theorem view_find (h : Heap) (w : HClusWisard) (l : Str) : (w.view h).clusters.find l = (w.clusters.find l).map (·.view h) :=
  SMap.find_map _ _ _

/-- The clusters seen after one of them was replaced. -/
theorem view_set {h h' : Heap} {m : SMap HCluster} (hs : SMap.Sorted m) (l : Str) (c : HCluster)
    (e : ∀ k d, k ≠ l → m.find k = some d → d.view h' = d.view h) :
    SMap.set (m.map (fun a => (a.1, a.2.view h))) l (c.view h') = (m.set l c).map (fun a => (a.1, a.2.view h')) := by
  refine SMap.ext (SMap.sorted_set (SMap.sorted_map hs _) _ _) (SMap.sorted_map (SMap.sorted_set hs _ _) _) (fun k => ?_)
  rw [SMap.find_map]
  by_cases hk : k = l
  · subst hk
    rw [SMap.find_set_self, SMap.find_set_self]; rfl
  · rw [SMap.find_set_ne _ _ hk, SMap.find_set_ne _ _ hk, SMap.find_map]
    cases hf : m.find k with
    | none => rfl
    | some d => rw [Option.map_some, Option.map_some, e k d hk hf]

theorem trainIn_view (f : Flt) {h : Heap} {w : HClusWisard} (s : Sole h w) (env : Env) (img : List Int) (label : Str) :
    (w.view h).trainIn f env img label =
      ((w.trainIn f h env img label).2.1.view (w.trainIn f h env img label).1, (w.trainIn f h env img label).2.2) ∧
    WStep h w (w.trainIn f h env img label).1 (w.trainIn f h env img label).2.1 := by
  unfold ClusWisard.trainIn HClusWisard.trainIn
  simp only
  rw [view_find]
  have eg : ((w.clusters.find label).map (·.view h)).getD Cluster.default = ((w.clusters.find label).getD HCluster.default).view h := by
    cases w.clusters.find label <;> rfl
  rw [eg]
  have hk : w.part (some label) = some ((w.clusters.find label).getD HCluster.default) ∨
      ((w.clusters.find label).getD HCluster.default).ptrs = [] := by
    show w.clusters.find label = _ ∨ _
    cases w.clusters.find label with
    | none => exact .inr rfl
    | some c => exact .inl rfl
  generalize (w.clusters.find label).getD HCluster.default = c at hk
  have ho : Once c.ptrs := by
    rcases hk with hk | hk
    · exact s.onceAt hk
    · rw [hk]; intro i j p hi; simp at hi
  have hv : ∀ p, some p ∈ c.ptrs → p < h.length := by
    rcases hk with hk | hk
    · exact s.validAt hk
    · rw [hk]; intro p hp; simp at hp
  obtain ⟨e1, st⟩ := ctrain_view f env (.vec img) ho hv
  rw [e1]
  simp only
  have ws : WStep h w (HCluster.train f h c env (.vec img)).1
      { w with clusters := w.clusters.set label (HCluster.train f h c env (.vec img)).2.1 } := by
    refine setPart s hk st (SMap.sorted_set s.sorted _ _) ?_ ?_
    · show SMap.find _ label = _
      rw [SMap.find_set_self]
    · intro k' hk'
      cases k' with
      | none => rfl
      | some l =>
        show SMap.find _ l = SMap.find _ l
        rw [SMap.find_set_ne _ _ (fun e => hk' (by rw [e]))]
  refine ⟨?_, ws⟩
  have hsame : ∀ k' d, k' ≠ some label → w.part k' = some d → d.view (HCluster.train f h c env (.vec img)).1 = d.view h := by
    intro k' d hk' hd
    refine cview_congr (fun p hp => st.frame p (s.validAt hd p hp) (fun hm => ?_))
    rcases hk with hk | hk
    · obtain ⟨i, hi⟩ := List.getElem?_of_mem hp
      obtain ⟨j, hj⟩ := List.getElem?_of_mem hm
      exact hk' (s.once k' d _ c i j p hd hk hi hj).1
    · rw [hk] at hm; simp at hm
  unfold HClusWisard.view
  simp only
  rw [view_set s.sorted label _ (fun k d hk' hd => hsame (some k) d (by simpa using hk') hd), hsame none _ (by simp) rfl]

theorem part_set {w : HClusWisard} {l : Str} {c : HCluster} (k : Option Str) :
    ({ w with clusters := w.clusters.set l c } : HClusWisard).part k = if k = some l then some c else w.part k := by
  cases k with
  | none => rw [if_neg (by simp)]; rfl
  | some l' =>
    show SMap.find _ l' = _
    by_cases e : l' = l
    · subst e; rw [SMap.find_set_self, if_pos rfl]
    · rw [SMap.find_set_ne _ _ e, if_neg (by simpa using e)]; rfl

/-- Make a new empty class. -/
theorem setEmpty {h : Heap} {w : HClusWisard} (s : Sole h w) {l : Str} {c : HCluster} (hc : c.ptrs = []) :
    WStep h w h { w with clusters := w.clusters.set l c } := by
  refine setPart (k := some l) (c := ⟨none, []⟩) s (.inr rfl) ⟨Nat.le_refl _, fun _ _ _ => rfl, ext_nil hc⟩
    (SMap.sorted_set s.sorted _ _) ?_ ?_
  · rw [part_set, if_pos rfl]
  · intro k' hk'; rw [part_set, if_neg hk']

theorem view_setEmpty {h : Heap} {w : HClusWisard} (s : Sole h w) (l : Str) (c : HCluster) :
    ({ w with clusters := w.clusters.set l c } : HClusWisard).view h = { w.view h with clusters := (w.view h).clusters.set l (c.view h) } := by
  unfold HClusWisard.view
  simp only
  rw [view_set s.sorted l c (fun _ _ _ _ => rfl)]

theorem train1_view (f : Flt) {h : Heap} {w : HClusWisard} (s : Sole h w) (env : Env) (img : List Int) (label : Str) :
    (w.view h).train1 f env img label =
      ((w.train1 f h env img label).2.1.view (w.train1 f h env img label).1, (w.train1 f h env img label).2.2) ∧
    WStep h w (w.train1 f h env img label).1 (w.train1 f h env img label).2.1 := by
  unfold ClusWisard.train1 HClusWisard.train1
  rw [view_find]
  cases hf : w.clusters.find label with
  | some c => exact trainIn_view f s env img label
  | none =>
    simp only [Option.map_none]
    have w1 : WStep h w h { w with clusters := w.clusters.set label (HCluster.create (w.clusterCfg img.length)) } := setEmpty s rfl
    have e1 := view_setEmpty s label (HCluster.create (w.clusterCfg img.length))
    obtain ⟨e2, w2⟩ := trainIn_view f w1.sole env img label
    refine ⟨?_, w1.trans w2⟩
    rw [← e2, e1]
    rfl

theorem trainOwn_view (f : Flt) {h : Heap} {w : HClusWisard} (s : Sole h w) (env : Env) (img : List Int) :
    (w.view h).trainOwn f env img =
      ((w.trainOwn f h env img).2.1.view (w.trainOwn f h env img).1, (w.trainOwn f h env img).2.2) ∧
    WStep h w (w.trainOwn f h env img).1 (w.trainOwn f h env img).2.1 := by
  unfold ClusWisard.trainOwn HClusWisard.trainOwn
  cases (w.view h).classify1 img false with
  | error e => exact ⟨rfl, WStep.refl s⟩
  | ok cs => exact trainIn_view f s env img _

theorem trainLoop_view (f : Flt) (env : Nat → Env) : ∀ (es : List (List Int × Str)) (i : Nat) (h : Heap) (w : HClusWisard), Sole h w →
    (w.view h).trainLoop f env es i =
      ((HClusWisard.trainLoop f env es i h w).2.1.view (HClusWisard.trainLoop f env es i h w).1, (HClusWisard.trainLoop f env es i h w).2.2) ∧
    WStep h w (HClusWisard.trainLoop f env es i h w).1 (HClusWisard.trainLoop f env es i h w).2.1 := by
  intro es
  induction es with
  | nil => intro i h w s; exact ⟨rfl, WStep.refl s⟩
  | cons a es ih =>
    obtain ⟨img, l⟩ := a
    intro i h w s
    obtain ⟨e1, w1⟩ := train1_view f s (env i) img l
    unfold ClusWisard.trainLoop HClusWisard.trainLoop
    rw [e1]
    revert w1
    rcases w.train1 f h (env i) img l with ⟨h', w', r⟩
    intro w1
    cases r with
    | error e => exact ⟨rfl, w1⟩
    | ok u =>
      obtain ⟨e2, w2⟩ := ih (i + 1) h' w' w1.sole
      exact ⟨e2, w1.trans w2⟩

theorem semiLoop_view (f : Flt) (env : Nat → Env) (labels : LabelMap) : ∀ (imgs : List (List Int)) (i : Nat) (h : Heap) (w : HClusWisard)
    (ll : List Int) (j : Nat), Sole h w →
    ClusWisard.semiLoop f env labels imgs i (w.view h) ll j =
      ((HClusWisard.semiLoop f env labels imgs i h w ll j).2.1.view (HClusWisard.semiLoop f env labels imgs i h w ll j).1,
        (HClusWisard.semiLoop f env labels imgs i h w ll j).2.2) ∧
    WStep h w (HClusWisard.semiLoop f env labels imgs i h w ll j).1 (HClusWisard.semiLoop f env labels imgs i h w ll j).2.1 := by
  intro imgs
  induction imgs with
  | nil => intro i h w ll j s; exact ⟨rfl, WStep.refl s⟩
  | cons img imgs ih =>
    intro i h w ll j s
    unfold ClusWisard.semiLoop HClusWisard.semiLoop
    cases labels.find i with
    | none =>
      simp only
      cases ClusWisard.noteLabelless ll j i with
      | error e => exact ⟨rfl, WStep.refl s⟩
      | ok ll' => exact ih (i + 1) h w ll' (j + 1) s
    | some l =>
      simp only
      obtain ⟨e1, w1⟩ := train1_view f s (env i) img l
      rw [e1]
      revert w1
      rcases w.train1 f h (env i) img l with ⟨h', w', r⟩
      intro w1
      cases r with
      | error e => exact ⟨rfl, w1⟩
      | ok u =>
        obtain ⟨e2, w2⟩ := ih (i + 1) h' w' ll j w1.sole
        exact ⟨e2, w1.trans w2⟩

theorem ownLoop_view (f : Flt) (env : Nat → Env) : ∀ (imgs : List (List Int)) (i : Nat) (h : Heap) (w : HClusWisard), Sole h w →
    (w.view h).ownLoop f env imgs i =
      ((HClusWisard.ownLoop f env imgs i h w).2.1.view (HClusWisard.ownLoop f env imgs i h w).1, (HClusWisard.ownLoop f env imgs i h w).2.2) ∧
    WStep h w (HClusWisard.ownLoop f env imgs i h w).1 (HClusWisard.ownLoop f env imgs i h w).2.1 := by
  intro imgs
  induction imgs with
  | nil => intro i h w s; exact ⟨rfl, WStep.refl s⟩
  | cons img imgs ih =>
    intro i h w s
    obtain ⟨e1, w1⟩ := trainOwn_view f s (env i) img
    unfold ClusWisard.ownLoop HClusWisard.ownLoop
    rw [e1]
    revert w1
    rcases w.trainOwn f h (env i) img with ⟨h', w', r⟩
    intro w1
    cases r with
    | error e => exact ⟨rfl, w1⟩
    | ok u =>
      obtain ⟨e2, w2⟩ := ih (i + 1) h' w' w1.sole
      exact ⟨e2, w1.trans w2⟩

/-- Replace the unsupervised cluster. -/
theorem setUnsup {h h' : Heap} {w : HClusWisard} (s : Sole h w) {c' : HCluster} (st : CStep h w.unsupervisedCluster h' c') :
    WStep h w h' { w with unsupervisedCluster := c' } ∧
      ({ w with unsupervisedCluster := c' } : HClusWisard).view h' = { w.view h with unsupervisedCluster := c'.view h' } := by
  have ws : WStep h w h' { w with unsupervisedCluster := c' } := by
    refine setPart (k := none) s (.inl rfl) st s.sorted rfl ?_
    intro k' hk'
    cases k' with
    | none => exact absurd rfl hk'
    | some l => rfl
  refine ⟨ws, ?_⟩
  unfold HClusWisard.view
  simp only
  congr 1
  refine List.map_congr_left (fun a ha => ?_)
  have hf : w.part (some a.1) = some a.2 := SMap.find_of_mem s.sorted ha
  rw [cview_congr (h := h) (h' := h') (fun p hp => st.frame p (s.validAt hf p hp) (fun hm => ?_))]
  obtain ⟨i, hi⟩ := List.getElem?_of_mem hp
  obtain ⟨j, hj⟩ := List.getElem?_of_mem hm
  exact absurd (s.once (some a.1) a.2 none _ i j p hf rfl hi hj).1 (by simp)

theorem unsupLoop_view (f : Flt) (env : Nat → Env) : ∀ (imgs : List (List Int)) (i : Nat) (h : Heap) (w : HClusWisard), Sole h w →
    (w.view h).unsupLoop f env imgs i =
      ((HClusWisard.unsupLoop f env imgs i h w).2.1.view (HClusWisard.unsupLoop f env imgs i h w).1, (HClusWisard.unsupLoop f env imgs i h w).2.2) ∧
    WStep h w (HClusWisard.unsupLoop f env imgs i h w).1 (HClusWisard.unsupLoop f env imgs i h w).2.1 := by
  intro imgs
  induction imgs with
  | nil => intro i h w s; exact ⟨rfl, WStep.refl s⟩
  | cons img imgs ih =>
    intro i h w s
    obtain ⟨e1, st⟩ := ctrain_view f (h := h) (cl := w.unsupervisedCluster) (env i) (.vec img) (s.onceAt (k := none) rfl) (s.validAt (k := none) rfl)
    unfold ClusWisard.unsupLoop HClusWisard.unsupLoop
    have eu : (w.view h).unsupervisedCluster = w.unsupervisedCluster.view h := rfl
    rw [eu, e1]
    revert st
    rcases HCluster.train f h w.unsupervisedCluster (env i) (.vec img) with ⟨h', c', r⟩
    intro st
    obtain ⟨w1, e3⟩ := setUnsup s st
    cases r with
    | error e => exact ⟨by simp only; rw [e3], w1⟩
    | ok u =>
      obtain ⟨e2, w2⟩ := ih (i + 1) h' _ w1.sole
      refine ⟨?_, w1.trans w2⟩
      simp only
      rw [← e3]
      exact e2

/-- Drop the unsupervised cluster. -/
theorem dropUnsup {h : Heap} {w : HClusWisard} (s : Sole h w) {c' : HCluster} (hc : c'.ptrs = []) :
    WStep h w h { w with unsupervisedCluster := c' } := by
  refine setPart (k := none) (c := ⟨none, []⟩) s (.inr rfl) ⟨Nat.le_refl _, fun _ _ _ => rfl, ext_nil hc⟩ s.sorted rfl ?_
  intro k' hk'
  cases k' with
  | none => exact absurd rfl hk'
  | some l => rfl

theorem hstep_view (f : Flt) {h : Heap} {w : HClusWisard} (s : Sole h w) (op : COp) :
    cstep f (w.view h) op = ((hstep f h w op).2.1.view (hstep f h w op).1, (hstep f h w op).2.2) ∧
    WStep h w (hstep f h w op).1 (hstep f h w op).2.1 := by
  cases op with
  | train env images labels =>
    simp only [cstep, hstep]
    unfold ClusWisard.train HClusWisard.train
    simp only
    generalize (do
      (w.view h).confidenceCheck images
      Wisard.checkInputSizes images.length labels.length : Res Unit) = ch
    cases ch with
    | error e => exact ⟨rfl, WStep.refl s⟩
    | ok u => exact trainLoop_view f env _ 0 h w s
  | semi env images labels =>
    simp only [cstep, hstep]
    unfold ClusWisard.trainSemi HClusWisard.trainSemi
    simp only
    generalize (do
      (w.view h).confidenceCheck images
      if labels.length > images.length then .error (.throw .labelsTooMany) else .ok () : Res Unit) = ch
    cases ch with
    | error e => exact ⟨rfl, WStep.refl s⟩
    | ok u =>
      simp only
      obtain ⟨e1, w1⟩ := semiLoop_view f (env false) labels images 0 h w (List.replicate (images.length - labels.length) 0) 0 s
      rw [e1]
      revert w1
      rcases HClusWisard.semiLoop f (env false) labels images 0 h w (List.replicate (images.length - labels.length) 0) 0 with ⟨h', w', r⟩
      intro w1
      cases r with
      | error e => exact ⟨rfl, w1⟩
      | ok ll =>
        simp only
        by_cases hl : ll.length = images.length
        · rw [if_pos hl, if_pos hl]; exact ⟨rfl, w1⟩
        · rw [if_neg hl, if_neg hl]
          obtain ⟨e2, w2⟩ := ownLoop_view f (env true) (images.take ll.length) 0 h' w' w1.sole
          exact ⟨e2, w1.trans w2⟩
  | unsup env images =>
    simp only [cstep, hstep]
    unfold ClusWisard.trainUnsupervised HClusWisard.trainUnsupervised
    have el : (w.view h).clusters.length = w.clusters.length := by simp [HClusWisard.view]
    rw [el]
    by_cases h0 : w.clusters.length = 0
    · rw [if_pos h0, if_pos h0]
      cases images with
      | nil => exact ⟨rfl, WStep.refl s⟩
      | cons i0 imgs =>
        have w1 := dropUnsup s (c' := HCluster.create { w.clusterCfg i0.length with base := 2 }) rfl
        obtain ⟨e2, w2⟩ := unsupLoop_view f env (i0 :: imgs) 0 h _ w1.sole
        exact ⟨e2, w1.trans w2⟩
    · rw [if_neg h0, if_neg h0]
      exact unsupLoop_view f env images 0 h w s
  | mental it l =>
    simp only [cstep, hstep]
    unfold ClusWisard.getMentalImage HClusWisard.getMentalImage
    rw [view_find]
    cases hf : w.clusters.find l with
    | some c => exact ⟨rfl, WStep.refl s⟩
    | none =>
      simp only [Option.map_none]
      refine ⟨?_, setEmpty s rfl⟩
      rw [view_setEmpty s]
      rfl

/-! ## Loading -/

/-- Pointers `a, a + 1, …, a + n - 1`. -/
def ptrRange (a n : Nat) : List (Option Nat) := (List.range' a n).map some

theorem ptrRange_get {a n i p : Nat} (h : (ptrRange a n)[i]? = some (some p)) : p = a + i ∧ i < n := by
  unfold ptrRange at h
  rw [List.getElem?_map] at h
  obtain ⟨q, h1, h2⟩ := Option.map_eq_some_iff.mp h
  injection h2 with h2
  subst h2
  obtain ⟨h3, h4⟩ := List.getElem?_eq_some_iff.mp h1
  simp at h3 h4
  omega

theorem ptrRange_once (a n : Nat) : Once (ptrRange a n) := by
  intro i j p hi hj
  have := ptrRange_get hi
  have := ptrRange_get hj
  omega

theorem ptrRange_mem {a n p : Nat} (h : some p ∈ ptrRange a n) : a ≤ p ∧ p < a + n := by
  obtain ⟨i, hi⟩ := List.getElem?_of_mem h
  have := ptrRange_get hi
  omega

theorem ptrRange_succ (a n : Nat) : ptrRange a n ++ [some (a + n)] = ptrRange a (n + 1) := by
  unfold ptrRange
  rw [List.range'_concat]
  simp

theorem hdiscs_view (fs : Fs) (dc : Json) : ∀ (js : List Json) (h : Heap) (a n : Nat), h.length = a + n →
    h <+: (HCluster.discsOfJson fs dc js h (ptrRange a n)).1 ∧
    (∀ e, (HCluster.discsOfJson fs dc js h (ptrRange a n)).2 = .error e →
      Cluster.discsOfJson fs dc js (derefs h (ptrRange a n)) = .error e) ∧
    (∀ ps, (HCluster.discsOfJson fs dc js h (ptrRange a n)).2 = .ok ps →
      ps = ptrRange a ((HCluster.discsOfJson fs dc js h (ptrRange a n)).1.length - a) ∧
      Cluster.discsOfJson fs dc js (derefs h (ptrRange a n)) = .ok (derefs (HCluster.discsOfJson fs dc js h (ptrRange a n)).1 ps)) := by
  intro js
  induction js with
  | nil =>
    intro h a n hl
    refine ⟨List.prefix_refl _, fun e he => (by cases he), fun ps hp => ?_⟩
    cases hp
    have : h.length - a = n := by omega
    simp only [HCluster.discsOfJson, Cluster.discsOfJson, this, and_self]
  | cons j js ih =>
    intro h a n hl
    simp only [HCluster.discsOfJson, Cluster.discsOfJson]
    cases Discriminator.ofJson fs (j.mergePatch dc) with
    | error e =>
      refine ⟨List.prefix_refl _, fun e' he => ?_, fun ps hp => by cases hp⟩
      cases he
      simp only [Except.bind_error]
    | ok d =>
      simp only [Except.bind_ok]
      have := ih (h ++ [d]) a (n + 1) (by simp; omega)
      rw [hl, ptrRange_succ]
      have e1 : derefs (h ++ [d]) (ptrRange a (n + 1)) = derefs h (ptrRange a n) ++ [some d] := by
        rw [← ptrRange_succ]
        unfold derefs
        rw [List.map_append]
        congr 1
        · exact derefs_congr (fun p hp => List.getElem?_append_left (by have := ptrRange_mem hp; omega))
        · simp [← hl]
      rw [e1] at this
      obtain ⟨i1, i2, i3⟩ := this
      exact ⟨(List.prefix_append h [d]).trans i1, i2, i3⟩

theorem readConfig_eq (fs : Fs) (options : Json) : Cluster.ofJson fs options =
    (HCluster.readConfig options).bind (fun r => (Cluster.discsOfJson fs r.2.1 r.2.2 []).bind (fun ds => .ok ⟨some r.1, ds⟩)) := by
  unfold Cluster.ofJson HCluster.readConfig
  generalize options.opt b!"addressSize" 2 Json.asInt = x1
  cases x1 with
  | error e => rfl
  | ok x1 =>
  generalize options.opt b!"entrySize" 2 Json.asInt = x2
  cases x2 with
  | error e => rfl
  | ok x2 =>
  generalize options.opt b!"minScore" 2 Json.asReal = x3
  cases x3 with
  | error e => rfl
  | ok x3 =>
  generalize options.opt b!"discriminatorsLimit" 2 Json.asInt = x4
  cases x4 with
  | error e => rfl
  | ok x4 =>
  generalize options.opt b!"threshold" 2 Json.asUInt = x5
  cases x5 with
  | error e => rfl
  | ok x5 =>
  generalize options.opt b!"ignoreZero" false Json.asBool = x6
  cases x6 with
  | error e => rfl
  | ok x6 =>
  generalize options.opt b!"completeAddressing" true Json.asBool = x7
  cases x7 with
  | error e => rfl
  | ok x7 =>
  generalize options.opt b!"base" 2 Json.asInt = x8
  cases x8 with
  | error e => rfl
  | ok x8 =>
  generalize options.key b!"discriminators" = x9
  cases x9 with
  | error e => rfl
  | ok x9 => rfl

/-- A cluster read from JSON: its pointers are the new part of the heap. -/
theorem hcluster_view (fs : Fs) (h : Heap) (options : Json) :
    h <+: (HCluster.ofJson fs h options).1 ∧
    (∀ e, (HCluster.ofJson fs h options).2 = .error e → Cluster.ofJson fs options = .error e) ∧
    (∀ c, (HCluster.ofJson fs h options).2 = .ok c →
      c.ptrs = ptrRange h.length ((HCluster.ofJson fs h options).1.length - h.length) ∧
      Cluster.ofJson fs options = .ok (c.view (HCluster.ofJson fs h options).1)) := by
  rw [readConfig_eq]
  unfold HCluster.ofJson
  cases HCluster.readConfig options with
  | error e =>
    refine ⟨List.prefix_refl _, fun e' he => ?_, fun c hc => by cases hc⟩
    cases he; rfl
  | ok r =>
    obtain ⟨cfg, dc, js⟩ := r
    simp only
    have := hdiscs_view fs dc js h h.length 0 rfl
    have e0 : ptrRange h.length 0 = [] := rfl
    rw [e0] at this
    revert this
    rcases HCluster.discsOfJson fs dc js h [] with ⟨h', r⟩
    rintro ⟨i1, i2, i3⟩
    have e1 : derefs h [] = [] := rfl
    rw [e1] at i2 i3
    cases r with
    | error e =>
      refine ⟨i1, fun e' he => ?_, fun c hc => by cases hc⟩
      cases he
      simp only [Except.bind]
      rw [i2 e rfl]
    | ok ps =>
      obtain ⟨p1, p2⟩ := i3 ps rfl
      refine ⟨i1, fun e' he => (by cases he), fun c hc => ?_⟩
      cases hc
      refine ⟨p1, ?_⟩
      simp only [Except.bind]
      rw [p2]
      rfl

theorem CStep.load {h h' : Heap} {c' : HCluster} (hp : h <+: h') (e : c'.ptrs = ptrRange h.length (h'.length - h.length)) :
    CStep h ⟨none, []⟩ h' c' := by
  obtain ⟨t, rfl⟩ := hp
  refine ⟨by simp, fun q hq _ => List.getElem?_append_left hq, ⟨_, by rw [e]; rfl, ptrRange_once _ _, fun p hp => ?_⟩⟩
  have := ptrRange_mem hp
  simp only [List.length_append] at this ⊢
  omega

theorem Sole.grow {h h' : Heap} {w : HClusWisard} (s : Sole h w) (hp : h <+: h') : Sole h' w :=
  ⟨s.sorted, fun p hh => Nat.lt_of_lt_of_le (s.valid p hh) hp.length_le, s.once⟩

theorem Sole.view_grow {h h' : Heap} {w : HClusWisard} (s : Sole h w) (hp : h <+: h') : w.view h' = w.view h :=
  wview_congr s.sorted (fun p hh => by
    obtain ⟨t, rfl⟩ := hp
    exact List.getElem?_append_left (s.valid p hh))

theorem hclusters_view (fs : Fs) (dc : Json) (w : HClusWisard) : ∀ (js : List (Str × Json)) (h : Heap) (m : SMap HCluster),
    Sole h { w with clusters := m } →
    h <+: (HClusWisard.clustersOfJson fs dc js h m).1 ∧
    (∀ e, (HClusWisard.clustersOfJson fs dc js h m).2 = .error e →
      ClusWisard.clustersOfJson fs dc js (m.map (fun e => (e.1, e.2.view h))) = .error e) ∧
    (∀ m', (HClusWisard.clustersOfJson fs dc js h m).2 = .ok m' →
      ClusWisard.clustersOfJson fs dc js (m.map (fun e => (e.1, e.2.view h))) =
        .ok (m'.map (fun e => (e.1, e.2.view (HClusWisard.clustersOfJson fs dc js h m).1))) ∧
      WStep h { w with clusters := m } (HClusWisard.clustersOfJson fs dc js h m).1 { w with clusters := m' }) := by
  intro js
  induction js with
  | nil =>
    intro h m s
    refine ⟨List.prefix_refl _, fun e he => (by cases he), fun m' hm => ?_⟩
    cases hm
    exact ⟨rfl, WStep.refl s⟩
  | cons a js ih =>
    obtain ⟨k, j⟩ := a
    intro h m s
    simp only [HClusWisard.clustersOfJson, ClusWisard.clustersOfJson]
    have := hcluster_view fs h (j.mergePatch dc)
    revert this
    rcases HCluster.ofJson fs h (j.mergePatch dc) with ⟨h', r⟩
    rintro ⟨c1, c2, c3⟩
    cases r with
    | error e =>
      refine ⟨c1, fun e' he => ?_, fun m' hm => by cases hm⟩
      cases he
      rw [c2 e rfl]
      simp only [Except.bind_error]
    | ok c =>
      obtain ⟨p1, p2⟩ := c3 c rfl
      rw [p2]
      simp only [Except.bind_ok]
      have w1 : WStep h { w with clusters := m } h' { w with clusters := m.set k c } := by
        refine setPart (k := some k) s (.inr rfl) (CStep.load c1 p1) (SMap.sorted_set s.sorted _ _) ?_ ?_
        · exact SMap.find_set_self _ _ _
        · intro k' hk'
          cases k' with
          | none => rfl
          | some l => exact SMap.find_set_ne _ _ (fun e => hk' (by rw [e]))
      have e2 : SMap.set (m.map (fun e => (e.1, e.2.view h))) k (c.view h') = (m.set k c).map (fun e => (e.1, e.2.view h')) :=
        view_set s.sorted k c (fun l d _ hd => cview_congr (fun p hp => by
          obtain ⟨t, rfl⟩ := c1
          exact List.getElem?_append_left (s.valid p ⟨some l, d, hd, hp⟩)))
      rw [e2]
      obtain ⟨i1, i2, i3⟩ := ih h' (m.set k c) w1.sole
      refine ⟨c1.trans i1, i2, fun m' hm => ?_⟩
      obtain ⟨q1, q2⟩ := i3 m' hm
      exact ⟨q1, w1.trans q2⟩

/-- A model without discriminators. -/
theorem Sole.empty (h : Heap) (a : Int) (m : Rat) (t d : Int) (o : ClusOpts) : Sole h ⟨a, m, t, d, o, [], HCluster.default⟩ := by
  have hp : ∀ k c, (⟨a, m, t, d, o, [], HCluster.default⟩ : HClusWisard).part k = some c → c.ptrs = [] := by
    intro k c hk
    cases k with
    | none => cases hk; rfl
    | some l => cases hk
  refine ⟨SMap.sorted_nil, ?_, ?_⟩
  · rintro p ⟨k, c, hk, hm⟩
    rw [hp k c hk] at hm; simp at hm
  · intro k c k' c' i j p hk _ hi
    rw [hp k c hk] at hi; simp at hi

theorem readConfigW_eq (fs : Fs) (c : Json) : ClusWisard.ofJson fs c =
    (HClusWisard.readConfig c).bind (fun r =>
      (ClusWisard.clustersOfJson fs (ClusWisard.clusterConfig r.1.addressSize r.1.minScore r.1.threshold r.1.discriminatorsLimit r.1.opts) r.2.1 []).bind
        (fun cs => (if r.2.2.isNull then (.ok Cluster.default : Res Cluster) else
            Cluster.ofJson fs (r.2.2.mergePatch (ClusWisard.clusterConfig r.1.addressSize r.1.minScore r.1.threshold r.1.discriminatorsLimit r.1.opts))).bind
          (fun u => .ok ⟨r.1.addressSize, r.1.minScore, r.1.threshold, r.1.discriminatorsLimit, r.1.opts, cs, u⟩))) := by
  unfold ClusWisard.ofJson HClusWisard.readConfig
  generalize ClusWisard.optsOfJson c = x1
  cases x1 with
  | error e => rfl
  | ok x1 =>
  generalize c.key b!"addressSize" = x2
  cases x2 with
  | error e => rfl
  | ok x2 =>
  simp only [Except.bind_ok]
  generalize x2.asInt = x3
  cases x3 with
  | error e => rfl
  | ok x3 =>
  generalize c.key b!"minScore" = x4
  cases x4 with
  | error e => rfl
  | ok x4 =>
  simp only [Except.bind_ok]
  generalize x4.asReal = x5
  cases x5 with
  | error e => rfl
  | ok x5 =>
  generalize c.key b!"threshold" = x6
  cases x6 with
  | error e => rfl
  | ok x6 =>
  simp only [Except.bind_ok]
  generalize x6.asInt = x7
  cases x7 with
  | error e => rfl
  | ok x7 =>
  generalize c.key b!"discriminatorsLimit" = x8
  cases x8 with
  | error e => rfl
  | ok x8 =>
  simp only [Except.bind_ok]
  generalize x8.asInt = x9
  cases x9 with
  | error e => rfl
  | ok x9 =>
  cases c with
  | obj m =>
    simp only [Json.key, Except.bind_ok]
    generalize ((SMap.find m b!"clusters").getD Json.null).items = y
    cases y with
    | error e => rfl
    | ok y => rfl
  | null => rfl
  | bool b => rfl
  | int i => rfl
  | real q => rfl
  | str s => rfl
  | arr l => rfl

theorem load_view (fs : Fs) (h : Heap) (c : Json) :
    h <+: (HClusWisard.ofJson fs h c).1 ∧
    (∀ e, (HClusWisard.ofJson fs h c).2 = .error e → ClusWisard.ofJson fs c = .error e) ∧
    (∀ w, (HClusWisard.ofJson fs h c).2 = .ok w →
      ClusWisard.ofJson fs c = .ok (w.view (HClusWisard.ofJson fs h c).1) ∧ Sole (HClusWisard.ofJson fs h c).1 w ∧
      ∀ p, w.Has p → h.length ≤ p) := by
  rw [readConfigW_eq]
  unfold HClusWisard.ofJson
  have hr : ∀ w items u, HClusWisard.readConfig c = .ok (w, items, u) →
      w = ⟨w.addressSize, w.minScore, w.threshold, w.discriminatorsLimit, w.opts, [], HCluster.default⟩ := by
    intro w items u hh
    unfold HClusWisard.readConfig at hh
    iterate 12 obtain ⟨_, _, hh⟩ := bind_eq_ok hh
    cases hh
    rfl
  cases hrc : HClusWisard.readConfig c with
  | error e =>
    refine ⟨List.prefix_refl _, fun e' he => ?_, fun w hw => by cases hw⟩
    cases he; rfl
  | ok r =>
    obtain ⟨w, items, u⟩ := r
    have ew := hr w items u hrc
    simp only [Except.bind]
    generalize ClusWisard.clusterConfig w.addressSize w.minScore w.threshold w.discriminatorsLimit w.opts = dc
    have s0 : Sole h { w with clusters := [] } := by rw [ew]; exact Sole.empty _ _ _ _ _ _
    have := hclusters_view fs dc w items h [] s0
    simp only [List.map_nil] at this
    revert this
    rcases HClusWisard.clustersOfJson fs dc items h [] with ⟨h', r⟩
    rintro ⟨c1, c2, c3⟩
    cases r with
    | error e =>
      refine ⟨c1, fun e' he => ?_, fun m' hm => by cases hm⟩
      cases he
      rw [c2 e rfl]
    | ok cs =>
      obtain ⟨q1, q2⟩ := c3 cs rfl
      rw [q1]
      simp only
      have hno : ∀ p, ({ w with clusters := [] } : HClusWisard).Has p → False := by
        rintro p ⟨k, d, hk, hm⟩
        cases k with
        | none =>
          have : d = HCluster.default := by
            rw [ew] at hk; cases hk; rfl
          rw [this] at hm; simp [HCluster.default] at hm
        | some l => cases hk
      have eu : w.unsupervisedCluster = HCluster.default := by rw [ew]
      cases hn : u.isNull with
      | true =>
        simp only [if_true]
        refine ⟨c1, fun e' he => (by cases he), fun w' hw => ?_⟩
        cases hw
        refine ⟨?_, q2.sole, fun p hp => (q2.has p hp).resolve_left (hno p)⟩
        simp only [HClusWisard.view, eu]
        rfl
      | false =>
        simp only [Bool.false_eq_true, if_false]
        have := hcluster_view fs h' (u.mergePatch dc)
        revert this
        rcases HCluster.ofJson fs h' (u.mergePatch dc) with ⟨h'', r⟩
        rintro ⟨d1, d2, d3⟩
        cases r with
        | error e =>
          refine ⟨c1.trans d1, fun e' he => ?_, fun m' hm => by cases hm⟩
          cases he
          rw [d2 e rfl]
        | ok v =>
          obtain ⟨p1, p2⟩ := d3 v rfl
          rw [p2]
          refine ⟨c1.trans d1, fun e' he => (by cases he), fun w' hw => ?_⟩
          cases hw
          have w2 : WStep h' { w with clusters := cs } h'' { w with clusters := cs, unsupervisedCluster := v } := by
            refine setPart (k := none) q2.sole (.inr rfl) (CStep.load d1 p1) q2.sole.sorted rfl ?_
            intro k' hk'
            cases k' with
            | none => exact absurd rfl hk'
            | some l => rfl
          have w3 := q2.trans w2
          refine ⟨?_, w3.sole, fun p hp => (w3.has p hp).resolve_left (hno p)⟩
          have := q2.sole.view_grow d1
          simp only [HClusWisard.view, ClusWisard.mk.injEq] at this
          simp only [HClusWisard.view]
          rw [this.2.2.2.2.2.1]

end Wis
