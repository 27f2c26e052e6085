import Verif.Spec.Life
import Verif.Props.SavedText
/-!
# Lives with reloads

One induction for all models: a relation between the object that was never reloaded and the one that lives, kept by calls and
by reloads. Then: what can be saved of one of two similar objects can be saved of the other.
-/

namespace Wis
open Spec JsonText

/-! ## The induction -/

theorem callsOf_append {ο : Type} : ∀ (a b : List (Step ο)), callsOf (a ++ b) = callsOf a ++ callsOf b := by
  intro a
  induction a with
  | nil => intro b; rfl
  | cons s a ih =>
    intro b
    cases s with
    | call o => simp only [List.cons_append, callsOf, ih]
    | reload r => simp only [List.cons_append, callsOf, ih]

theorem live_ok {σ ο : Type} {call : σ → ο → σ × Res Unit} {save : Reload → σ → Res (Fs × Str)}
    {load : Fs → Str → Res σ} {play : σ → List ο → σ × List (Res Unit)} (hnil : ∀ m, play m [] = (m, []))
    (hcons : ∀ m o os, play m (o :: os) = ((play (call m o).1 os).1, (call m o).2 :: (play (call m o).1 os).2))
    (J : List (Step ο) → σ → σ → Prop) (steps : List (Step ο))
    (hcall : ∀ a o b e d, steps = a ++ .call o :: b → J a e d →
      J (a ++ [.call o]) (call e o).1 (call d o).1 ∧ (call d o).2 = (call e o).2)
    (hload : ∀ a r b e d, steps = a ++ .reload r :: b → J a e d →
      ∃ s d', save r d = .ok s ∧ load (r.later s.1) s.2 = .ok d' ∧ J (a ++ [.reload r]) e d') :
    ∀ (b a : List (Step ο)) (e d : σ), steps = a ++ b → J a e d →
      ∃ d', live call save load d b = .ok (d', (play e (callsOf b)).2) ∧ J steps (play e (callsOf b)).1 d' := by
  intro b
  induction b with
  | nil =>
    intro a e d hs h
    rw [List.append_nil] at hs
    subst hs
    exact ⟨d, by rw [callsOf, hnil]; rfl, by rw [callsOf, hnil]; exact h⟩
  | cons s b ih =>
    intro a e d hs h
    cases s with
    | call o =>
      obtain ⟨h1, h2⟩ := hcall a o b e d hs h
      obtain ⟨d', h3, h4⟩ := ih (a ++ [.call o]) _ _ (by rw [hs, List.append_assoc]; rfl) h1
      refine ⟨d', ?_, ?_⟩
      · rw [live, h3, callsOf, hcons, h2]
        rfl
      · rw [callsOf, hcons]
        exact h4
    | reload r =>
      obtain ⟨s, d1, h1, h2, h3⟩ := hload a r b e d hs h
      obtain ⟨d', h4, h5⟩ := ih (a ++ [.reload r]) _ _ (by rw [hs, List.append_assoc]; rfl) h3
      refine ⟨d', ?_, h5⟩
      rw [live, h1, Except.bind_ok, h2, Except.bind_ok, h4]
      rfl

/-! ## Similar objects -/

theorem RamSim.trans {a b c : Ram} (h : RamSim a b) (k : RamSim b c) : RamSim a c where
  addr := k.addr.trans h.addr
  iz := k.iz.trans h.iz
  base := k.base.trans h.base
  base2 := h.base2
  nodup := h.nodup
  nodup' := k.nodup'
  find x := (k.find x).trans (h.find x)

theorem forall2_trans {α : Type} {R : α → α → Prop} (hR : ∀ x y z, R x y → R y z → R x z) : ∀ {a b c : List α},
    List.Forall₂ R a b → List.Forall₂ R b c → List.Forall₂ R a c := by
  intro a b c h
  induction h generalizing c with
  | nil => intro k; exact k
  | cons h1 _ ih =>
    intro k
    cases k with
    | cons k1 k2 => exact .cons (hR _ _ _ h1 k1) (ih k2)

theorem DSim.trans {a b c : Discriminator} (h : DSim a b) (k : DSim b c) : DSim a c :=
  ⟨k.entry.trans h.entry, k.count.trans h.count, forall2_trans (R := RamSim) (fun _ _ _ => RamSim.trans) h.rams k.rams⟩

theorem OptSim.trans {a b c : WisardOpts} (h : OptSim a b) (k : OptSim b c) : OptSim a c :=
  ⟨k.b.trans h.b, k.v.trans h.v, k.i.trans h.i, k.z.trans h.z, k.c.trans h.c, k.base.trans h.base, k.rc.trans h.rc,
    k.ra.trans h.ra, k.rd.trans h.rd, k.conf.trans h.conf⟩

theorem WSim.trans {a b c : Wisard} (h : WSim a b) (k : WSim b c) : WSim a c :=
  ⟨k.addr.trans h.addr, h.opts.trans k.opts,
    forall2_trans (fun _ _ _ h1 k1 => ⟨k1.1.trans h1.1, h1.2.trans k1.2⟩) h.cls k.cls⟩

theorem OSim.trans {a b c : Option Discriminator} (h : OSim a b) (k : OSim b c) : OSim a c := by
  cases h with
  | none => exact k
  | some h =>
    cases k with
    | some k => exact .some (h.trans k)

theorem ClSim.trans {a b c : Cluster} (h : ClSim a b) (k : ClSim b c) : ClSim a c :=
  ⟨k.cfg.trans h.cfg, forall2_trans (R := OSim) (fun _ _ _ => OSim.trans) h.discs k.discs⟩

theorem COptSim.trans {a b c : ClusOpts} (h : COptSim a b) (k : COptSim b c) : COptSim a c :=
  ⟨k.b.trans h.b, k.v.trans h.v, k.z.trans h.z, k.c.trans h.c, k.base.trans h.base, k.rc.trans h.rc,
    k.ra.trans h.ra, k.rd.trans h.rd, k.conf.trans h.conf⟩

theorem CWSim.trans {a b c : ClusWisard} (h : CWSim a b) (k : CWSim b c) : CWSim a c :=
  ⟨k.addr.trans h.addr, k.ms.trans h.ms, k.th.trans h.th, k.dl.trans h.dl, h.opts.trans k.opts,
    forall2_trans (fun _ _ _ h1 k1 => ⟨k1.1.trans h1.1, h1.2.trans k1.2⟩) h.cls k.cls, h.un.trans k.un⟩

/-! ## What can be saved -/

theorem RamSim.wf {iz : Bool} {base : Int} {r r' : Ram} (h : RamSim r r') (w : RamWF iz base r) : RamWF iz base r' where
  izEq := h.iz.trans w.izEq
  baseEq := h.base.trans w.baseEq
  nodup := h.nodup'
  range e he := w.range e (h.perm.mem_iff.mp he)
  limit := by rw [h.addr]; exact w.limit
  addr := by rw [h.addr]; exact w.addr

theorem forall2_all {α : Type} {R : α → α → Prop} {P Q : α → Prop} (hR : ∀ {x y}, R x y → P x → Q y) {a b : List α}
    (h : List.Forall₂ R a b) (hp : ∀ x ∈ a, P x) : ∀ y ∈ b, Q y := by
  induction h with
  | nil => simp
  | cons h1 _ ih =>
    intro y hy
    rcases List.mem_cons.mp hy with rfl | hy
    · exact hR h1 (hp _ (by simp))
    · exact ih (fun x hx => hp x (List.mem_cons_of_mem _ hx)) y hy

theorem DSim.sav {iz : Bool} {base : Int} {d d' : Discriminator} (h : DSim d d') (w : DSav iz base d) : DSav iz base d' where
  wf := ⟨w.wf.base2, w.wf.baseI, by rw [h.entry]; exact w.wf.entry, by rw [h.count]; exact w.wf.count,
    forall2_all (fun h1 => h1.wf) h.rams w.wf.rams⟩
  ne e := w.ne (by
    have := h.rams.length_eq
    rw [e] at this
    exact List.length_eq_zero_iff.mp this)
  full := forall2_all (P := fun r => r.positions ≠ []) (Q := fun r => r.positions ≠ []) (fun h1 hp e => hp (by
    have := h1.perm.length_eq
    rw [e] at this
    exact List.length_eq_zero_iff.mp this.symm)) h.rams w.full
  len := by
    have hl := h.rams.length_eq
    have hs : (d'.rams.map (fun r => r.positions.length)).sum = (d.rams.map (fun r => r.positions.length)).sum := by
      have := h.rams
      generalize d.rams = rs at this
      generalize d'.rams = rs' at this
      induction this with
      | nil => rfl
      | cons h1 _ ih => rw [List.map_cons, List.map_cons, List.sum_cons, List.sum_cons, ih, h1.perm.length_eq]
    rw [hs, ← hl]
    exact w.len

theorem sorted_congr {α β : Type} {m : SMap α} {m' : SMap β} (h : m'.keys = m.keys) (hs : SMap.Sorted m) : SMap.Sorted m' := by
  unfold SMap.Sorted at hs ⊢
  unfold SMap.keys at h
  have h1 : (m.map (·.1)).Pairwise (fun a b => Str.lt a b = true) := by
    rw [List.pairwise_map]; exact hs
  rw [← h, List.pairwise_map] at h1
  exact h1

theorem WSim.sav {w w' : Wisard} (h : WSim w w') (hs : ∀ e ∈ w.discriminators, DSav w.opts.ignoreZero w.opts.base e.2) :
    ∀ e ∈ w'.discriminators, DSav w'.opts.ignoreZero w'.opts.base e.2 := by
  rw [h.opts.z, h.opts.base]
  exact forall2_all (P := fun e : Str × Discriminator => DSav w.opts.ignoreZero w.opts.base e.2)
    (Q := fun e : Str × Discriminator => DSav w.opts.ignoreZero w.opts.base e.2) (fun h1 hp => h1.2.sav hp) h.cls hs

theorem ClSim.sav {c : ClusterCfg} {cl cl' : Cluster} (h : ClSim cl cl') (hs : CSav c cl) : CSav c cl' where
  cfg := h.cfg.trans hs.cfg
  discs := forall2_all (P := fun o => ∃ d, o = some d ∧ DSav c.ignoreZero c.base d)
    (Q := fun o => ∃ d, o = some d ∧ DSav c.ignoreZero c.base d) (fun {x y} h1 hp => by
      obtain ⟨d, rfl, hd⟩ := hp
      cases h1 with
      | some h1 => exact ⟨_, rfl, h1.sav hd⟩) h.discs hs.discs

theorem ClSim.eq_default {c : Cluster} (h : ClSim Cluster.default c) : c = Cluster.default := by
  obtain ⟨cfg, ds⟩ := c
  obtain ⟨h1, h2⟩ := h
  have h3 : cfg = none := h1
  cases h2
  subst h3
  rfl

theorem CWSim.sav {w w' : ClusWisard} (h : CWSim w w') (hs : WSav w) : WSav w' where
  range := by
    obtain ⟨h1, h2, h3, h4, h5⟩ := hs.range
    refine ⟨?_, ?_, ?_, ?_, ?_⟩
    · rw [h.addr]; exact h1
    · rw [h.th]; exact h2
    · rw [h.dl]; exact h3
    · rw [h.opts.base]; exact h4
    · rw [h.opts.conf]; exact h5
  th := by rw [h.th]; exact hs.th
  sorted := sorted_congr h.cls.keys hs.sorted
  cl := by
    refine forall2_all (P := fun e : Str × Cluster => ∃ n, InI32 n ∧ CSav (w.clusterCfg n) e.2)
      (Q := fun e : Str × Cluster => ∃ n, InI32 n ∧ CSav (w'.clusterCfg n) e.2) ?_ h.cls hs.cl
    rintro x y h1 ⟨n, hn, hc⟩
    exact ⟨n, hn, by rw [h.clusterCfg]; exact h1.2.sav hc⟩
  un := by
    rcases hs.un with hu | ⟨hu, n, hn, hc⟩
    · left
      have := h.un
      rw [hu] at this
      exact this.eq_default
    · right
      refine ⟨fun e => hu ?_, n, hn, by rw [h.clusterCfg]; exact h.un.sav hc⟩
      have := h.un.discs.length_eq
      rw [e] at this
      exact List.length_eq_zero_iff.mp this

/-! ## Reloads of objects that can be saved -/

theorem DSav.short {iz : Bool} {base : Int} {d : Discriminator} (h : DSav iz base d) :
    ∀ r ∈ d.rams, 16 * r.positions.length < 2147483648 := by
  have hl := h.len
  have hpos : 0 < d.rams.length := List.length_pos_iff.mpr h.ne
  intro r hr
  have : r.positions.length ≤ (d.rams.map (fun r => r.positions.length)).sum :=
    List.le_sum_of_mem (List.mem_map_of_mem (f := fun r => r.positions.length) hr)
  omega

theorem discriminator_reload (ft : FloatText) {iz : Bool} {base : Int} {d : Discriminator} (h : DSav iz base d) (r : Reload)
    (hf : FilesOk r (DiscriminatorFile r)) :
    ∃ s d', d.jsonText r.it ft r.fs r.huge r.path (r.random 0 0) = .ok s ∧ Discriminator.ofText ft (r.later s.1) s.2 = .ok d' ∧
      DSim d d' := by
  obtain ⟨fs1, j, hj, hd⟩ : ∃ fs1 j, d.json r.it r.fs r.huge r.path (r.random 0 0) = .ok (fs1, j) ∧
      Discriminator.ofJson (r.later fs1) j = .ok { d with rams := d.rams.map (reload r.it) } := by
    cases hh : r.huge with
    | false =>
      obtain ⟨j, hj, hd⟩ := roundtrip h.wf h.ne h.full h.len r.it r.fs (r.later r.fs) r.path (r.random 0 0)
      exact ⟨_, j, hj, hd⟩
    | true =>
      obtain ⟨_, _, _, h1, h2⟩ := hf hh
      obtain ⟨j, hj, hd⟩ := roundtrip_file h.wf h.ne h.full h.short r.it r.fs r.path (r.random 0 0)
      refine ⟨_, j, hj, hd _ ?_⟩
      have h1 : r.fs (r.path ++ r.random 0 0 ++ ramdataSufix) = none := h1 _ rfl
      refine (h2 _ _ rfl).trans ?_
      show (if (r.path ++ r.random 0 0 ++ ramdataSufix) = (r.path ++ r.random 0 0 ++ ramdataSufix) then
        some ((r.fs (r.path ++ r.random 0 0 ++ ramdataSufix)).getD [] ++ _) else _) = _
      rw [if_pos rfl, h1]
      rfl
  have hh : Held ft j := (held_closed ft).discriminator h.wf h.ne (fun _ => trivial) hj
  have hu : AllUtf8 j := utf8_closed.discriminator h.wf h.ne (fun hg => by
    obtain ⟨u1, u2, _⟩ := hf hg
    exact utf8_append (utf8_append u1 (u2 0 0)) (utf8_ascii (by decide))) hj
  obtain ⟨t, h1, h2⟩ := C89_roundtrip ft hh hu
  refine ⟨(fs1, t), _, dumped_ok hj h1, ?_, reload_dsim r.it h.wf.rams h.wf.base2⟩
  unfold Discriminator.ofText
  simp only [h2]
  exact hd

theorem wisard_reload (ft : FloatText) {w : Wisard} (oA : InI32 w.addressSize) (ob : InI32 w.opts.base)
    (oc : InI32 w.opts.confidence) (oi : ∀ a ∈ w.opts.indexes, InI32 a) (hs : SMap.Sorted w.discriminators)
    (hd : ∀ e ∈ w.discriminators, DSav w.opts.ignoreZero w.opts.base e.2) (hl : ∀ l ∈ w.discriminators.keys, Utf8 l)
    (r : Reload) (hf : FilesOk r (WisardFile r w.discriminators.keys)) :
    ∃ s w', w.jsonText r.it ft r.fs r.huge r.path (fun i => r.random i 0) = .ok s ∧ Wisard.ofText ft (r.later s.1) s.2 = .ok w' ∧
      WSim w w' ∧ w'.opts.mapping = [] := by
  have key := fun fs' hh => wisard_roundtrip r.it r.huge r.path (fun i => r.random i 0) w oA ob oc oi hs (fun e he => (hd e he).wf)
    (fun e he => (hd e he).ne) (fun e he => (hd e he).full) (fun e he => (hd e he).len) r.fs fs' hh
  obtain ⟨j, hj, hr⟩ := key (r.later (fsAfter r.it r.huge r.path (fun i => r.random i 0) w.discriminators 0 r.fs)) (by
    intro hh k l d hk
    obtain ⟨_, _, ⟨n, hn⟩, h1, h2⟩ := hf hh
    have hmem : l ∈ w.discriminators.keys := List.mem_map_of_mem (f := (·.1)) (List.mem_of_getElem? hk)
    rw [h2 _ (nameOf r.path (fun i => r.random i 0) k l) ⟨l, hmem, k, rfl⟩, hh]
    have := fsAfter_mine r.it r.path (fun i => r.random i 0) (fun i => hn i 0) w.discriminators 0 r.fs hs
      (fun k l d hk => h1 _ ⟨l, List.mem_map_of_mem (f := (·.1)) (List.mem_of_getElem? hk), 0 + k, rfl⟩) k l d hk
    rwa [Nat.zero_add] at this)
  have hh : Held ft j := (held_closed ft).wisard oA ob oc oi (fun e he => ⟨trivial, (hd e he).wf.ints⟩)
    (fun _ _ _ _ => trivial) hj
  have hu : AllUtf8 j := utf8_closed.wisard oA ob oc oi
    (fun e he => ⟨hl _ (List.mem_map_of_mem (f := (·.1)) he), (hd e he).wf.ints⟩) (fun hg e he i => by
      obtain ⟨u1, u2, _⟩ := hf hg
      exact utf8_append (utf8_append (utf8_append (utf8_append u1 (hl _ (List.mem_map_of_mem (f := (·.1)) he)))
        (utf8_ascii (by decide))) (u2 i 0)) (utf8_ascii (by decide))) hj
  obtain ⟨t, h1, h2⟩ := C89_roundtrip ft hh hu
  refine ⟨(_, t), _, dumped_ok hj h1, ?_, reload_wsim r.it (fun e he => (hd e he).wf), rfl⟩
  unfold Wisard.ofText
  simp only [h2]
  exact hr

theorem clus_reload (ft : FloatText) {w : ClusWisard} (h : WSav w) (hm : FloatOk ft w.minScore)
    (hl : ∀ l ∈ w.clusters.keys, Utf8 l) (r : Reload) (hf : FilesOk r (OwnFile r.path r.random w))
    (hname : r.huge = true → b!"unsupervised_cluster" ∉ w.clusters.keys ∨ w.unsupervisedCluster.getSize = 0) :
    ∃ s w', w.jsonText r.it ft r.fs r.huge r.path r.random = .ok s ∧ ClusWisard.ofText ft (r.later s.1) s.2 = .ok w' ∧
      CWSim w w' := by
  obtain ⟨j, hj, hr⟩ := clusWisard_roundtrip r.it r.huge r.path r.random h r.fs
  obtain ⟨hh, _, _, hu⟩ := clus_value h hj ft hm
  obtain ⟨t, h1, h2⟩ := C89_roundtrip ft hh (hu hl (fun hg => by
    obtain ⟨u1, u2, _⟩ := hf hg
    exact ⟨u1, u2⟩))
  refine ⟨(_, t), _, dumped_ok hj h1, ?_, reload_cwsim r.it h⟩
  unfold ClusWisard.ofText
  simp only [h2]
  refine hr _ ?_
  intro hg e he
  obtain ⟨_, _, ⟨n, hn⟩, k1, k2⟩ := hf hg
  rw [k2 _ _ (allFiles_names r.it r.path r.random w e.1 (List.mem_map_of_mem he)), if_pos hg]
  exact Fs.appendAll_mine _ r.fs (allFiles_nodup r.it r.path hn h.sorted (hname hg))
    (fun n hm => k1 n (allFiles_names r.it r.path r.random w n hm)) e he

theorem CsSim.get {m m' : SMap Cluster} (h : CsSim m m') : ∀ (i : Nat) (l : Str) (c' : Cluster), m'[i]? = some (l, c') →
    ∃ c, m[i]? = some (l, c) ∧ c'.getSize = c.getSize := by
  induction h with
  | nil => intro i l c' h; simp at h
  | @cons e e' m m' h1 _ ih =>
    intro i l c' h
    cases i with
    | zero =>
      simp only [List.getElem?_cons_zero, Option.some.injEq] at h
      subst h
      refine ⟨e.2, ?_, h1.2.discs.length_eq.symm⟩
      simp only [List.getElem?_cons_zero, Option.some.injEq]
      exact Prod.ext h1.1.symm rfl
    | succ i =>
      simp only [List.getElem?_cons_succ] at h ⊢
      exact ih i l c' h

theorem CWSim.ownFile {w w' : ClusWisard} (h : CWSim w w') {path : Str} {random : Nat → Nat → Str} {name : Str}
    (ho : OwnFile path random w' name) : OwnFile path random w name := by
  rcases ho with ⟨i, l, c, j, h1, h2, h3⟩ | ⟨j, h1, h2⟩
  · obtain ⟨c', k1, k2⟩ := h.cls.get i l c h1
    exact .inl ⟨i, l, c', j, k1, by rw [← k2]; exact h2, h3⟩
  · refine .inr ⟨j, ?_, ?_⟩
    · have : w.unsupervisedCluster.getSize = w'.unsupervisedCluster.getSize := h.un.discs.length_eq
      rw [this]; exact h1
    · rw [h.cls.length_eq]; exact h2

theorem FilesOk.mono {r : Reload} {P Q : Str → Prop} (h : FilesOk r P) (hq : ∀ n, Q n → P n) : FilesOk r Q := by
  intro hg
  obtain ⟨h1, h2, h3, h4, h5⟩ := h hg
  exact ⟨h1, h2, h3, fun n hn => h4 n (hq n hn), fun fs n hn => h5 fs n (hq n hn)⟩

end Wis
