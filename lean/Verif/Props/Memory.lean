import Verif.Props.Wisard
import Verif.Props.ClusMade
import Mathlib.Data.List.Dedup
/-!
# C96, C97: what `getsizeof` counts
-/

namespace Wis

namespace Spec

/-- The number of different patterns that the images show on the positions `addrs`. -/
def patterns (addrs : List Int) : List Image → Nat
  | [] => 0
  | x :: xs => patterns addrs xs + if ∃ y ∈ xs, Agree addrs x y then 0 else 1

/-- The images that were trained (whether or not untrained later). -/
def trainedImages : List Op → List Image
  | [] => []
  | .train i :: ops => i :: trainedImages ops
  | .untrain _ :: ops => trainedImages ops

/-- Bytes of a discriminator: the object, and for every RAM the object, 8 bytes for each wire and 12 bytes for each
different pattern it has been trained with. -/
def discBytes (sd sr : Int) (wiring : List (List Int)) (imgs : List Image) : Int :=
  sd + (wiring.map (fun m => sr + 8 * (m.length : Int) + 12 * (patterns m imgs : Int))).sum

end Spec

open Spec

/-! ## One RAM -/

theorem mem_trainedImages {ops : List Op} {x : Image} : x ∈ trainedImages ops ↔ Op.train x ∈ ops := by
  induction ops with
  | nil => simp [trainedImages]
  | cons o ops ih =>
    cases o with
    | train i => simp only [trainedImages, List.mem_cons, ih, Op.train.injEq]
    | untrain i => simp [trainedImages, ih]

theorem patterns_eq {n base : Int} (hb : 1 ≤ base) {as : List Int} (ha : ∀ a ∈ as, 0 ≤ a ∧ a < n)
    (hfit : base ^ as.length ≤ 2 ^ 64) : ∀ (imgs : List Image), (∀ x ∈ imgs, ValidImage n base x) →
    patterns as imgs = ((imgs.map (key base as)).dedup).length := by
  intro imgs
  induction imgs with
  | nil => intro _; rfl
  | cons x xs ih =>
    intro hv
    have hx := hv x (by simp)
    rw [patterns, List.map_cons, ih (fun y hy => hv y (by simp [hy]))]
    by_cases h : ∃ y ∈ xs, Agree as x y
    · rw [if_pos h, List.dedup_cons_of_mem]
      · rfl
      · obtain ⟨y, hy, hh⟩ := h
        exact List.mem_map.mpr ⟨y, hy, ((key_eq_iff hb hx (hv y (by simp [hy])) ha hfit).mpr hh).symm⟩
    · rw [if_neg h, List.dedup_cons_of_notMem]
      · rfl
      · intro hm
        obtain ⟨y, hy, hh⟩ := List.mem_map.mp hm
        exact h ⟨y, hy, (key_eq_iff hb hx (hv y (by simp [hy])) ha hfit).mp hh.symm⟩

theorem ramRep_length {n base : Int} {r0 r : Ram} {ops : List Op} (h : RamRep n r0 r ops) (hb : 1 ≤ base) (hr : r0.base = base)
    (ha : InsideRam n r0) (hfit : base ^ r0.addresses.length ≤ 2 ^ 64) (hv : ∀ o ∈ ops, ValidImage n base o.img) :
    r.positions.length = patterns r0.addresses (trainedImages ops) := by
  rw [patterns_eq hb ha hfit _ (fun x hx => hv (.train x) (mem_trainedImages.mp hx))]
  have hl : r.positions.length = r.positions.keys.length := by simp [RamT.keys]
  rw [hl]
  refine List.Perm.length_eq ((List.perm_ext_iff_of_nodup h.nodup (List.nodup_dedup _)).mpr ?_)
  intro k
  rw [List.mem_dedup, List.mem_map]
  have hk : k ∈ r.positions.keys ↔ r.positions.find k ≠ none := by
    rw [Ne, RamT.find_none_iff, not_not]
  rw [hk, h.find k, cell_eq, hr]
  constructor
  · intro hh
    split at hh
    · rename_i ht
      rw [List.any_eq_true] at ht
      obtain ⟨o, ho, h1⟩ := ht
      rw [List.mem_filter] at ho
      cases o with
      | train i => exact ⟨i, mem_trainedImages.mpr ho.1, of_decide_eq_true ho.2⟩
      | untrain i => cases h1
    · exact absurd rfl hh
  · rintro ⟨x, hx, hh⟩
    rw [if_pos]
    · simp
    · rw [List.any_eq_true]
      exact ⟨.train x, List.mem_filter.mpr ⟨mem_trainedImages.mp hx, decide_eq_true hh⟩, rfl⟩

/-! ## C96 -/

theorem rep_bytes {n base : Int} {iz : Bool} {d0 d : Discriminator} {ops : List Op} (hf : Fresh d0 n base iz)
    (hw : WiredInside n d0.mapping) (h : DRep n d0 d ops) (hv : ∀ o ∈ ops, ValidImage n base o.img) (sd sr : Int) :
    d.getsizeof sd sr = discBytes sd sr d0.mapping (trainedImages ops) := by
  rw [size_eq, discBytes]
  congr 1
  have hin : ∀ r ∈ d0.rams, InsideRam n r := inside_of hw
  have hr := hf.rams
  have hb := hf.base2
  have := h.rams
  unfold Discriminator.mapping
  generalize d0.rams = rs0 at this hin hr
  generalize d.rams = rs at this
  clear h hw hf
  induction this with
  | nil => rfl
  | @cons r0 r _ _ h1 _ ih =>
    have ih := ih (fun r hr => hin r (List.mem_cons_of_mem _ hr)) (fun r h => hr r (List.mem_cons_of_mem _ h))
    obtain ⟨_, b1, _, b3⟩ := hr r0 (by simp)
    have hl := ramRep_length h1 (by omega) b1 (hin r0 (by simp)) b3 hv
    simp only [List.map_cons, List.sum_cons]
    rw [ih]
    simp only [Ram.getsizeof, hl, h1.addr]
    omega

/-- C96 for a discriminator: after any trainings and untrainings of valid images, `getsizeof` is the size of the objects and
the wires, plus 12 bytes for every RAM and every different pattern on its wires among the images trained. -/
theorem C96_discriminator {rnd : Rnd} {A n : Int} {o : Options} {d0 : Discriminator}
    (hc : Discriminator.create rnd A n o = .ok d0) (hw : WiredInside n d0.mapping) (ops : List Op)
    (hv : ∀ op ∈ ops, ValidImage n o.base op.img) (hlen : ops.length ≤ 2147483647) (sd sr : Int) :
    ∃ d, run d0 ops = (d, .ok ()) ∧ d.getsizeof sd sr = discBytes sd sr d0.mapping (trainedImages ops) := by
  obtain ⟨d, h1, h2⟩ := run_created hc hw ops hv hlen
  exact ⟨d, h1, rep_bytes (create_fresh hc) hw h2 hv sd sr⟩

theorem wisard_foldl (sd sr : Int) (m : SMap Discriminator) (s : Int) :
    m.foldl (fun s e => s + ((e.1.length : Int) + e.2.getsizeof sd sr)) s
      = s + (m.map (fun e => (e.1.length : Int) + e.2.getsizeof sd sr)).sum := by
  induction m generalizing s with
  | nil => simp
  | cons e m ih => simp only [List.foldl_cons, List.map_cons, List.sum_cons]; rw [ih]; omega

/-- C96 for a Wisard: `getsizeof` is the size of the object, 4 bytes for every index given as option, and for every class the
bytes of its label and of a discriminator trained with the images of this class. -/
theorem C96_wisard {w0 w : Wisard} {ops : List WOp} {n : Int} (g : GoodHistory w0 ops w n) (sw sd sr : Int) :
    w.getsizeof sw sd sr = sw + 4 * (w0.opts.indexes.length : Int)
      + (w.discriminators.map (fun e => (e.1.length : Int) + discBytes sd sr e.2.mapping (trainedImages (opsOf e.1 ops)))).sum := by
  have ho : w.opts = w0.opts := (wrun_find g.start ops g.ran).2.1
  have hs : SMap.Sorted w.discriminators := (wrun_find g.start ops g.ran).2.2.1
  unfold Wisard.getsizeof
  rw [wisard_foldl, ho]
  congr 2
  refine List.map_congr_left ?_
  intro e he
  obtain ⟨d0, hf, hm, hw, _, hr⟩ := g.rep (SMap.find_of_mem hs he)
  rw [rep_bytes hf hw hr (g.valid_ops e.1) sd sr, hm]

/-! ## C96: growth, in every state -/

/-- A sum over the entries of a map. -/
def total {V : Type} (F : Str → V → Int) (m : SMap V) : Int := (m.map (fun e => F e.1 e.2)).sum

theorem total_cons {V : Type} (F : Str → V → Int) (k : Str) (v : V) (m : SMap V) :
    total F ((k, v) :: m) = F k v + total F m := by simp [total]

theorem total_set_none {V : Type} (F : Str → V → Int) {l : Str} (v : V) : ∀ {m : SMap V}, SMap.find m l = none →
    total F (SMap.set m l v) = total F m + F l v := by
  intro m
  induction m with
  | nil => intro _; simp [total, SMap.set]
  | cons e m ih =>
    intro h
    obtain ⟨k, x⟩ := e
    simp only [SMap.find] at h
    split at h
    · cases h
    · rename_i hk
      simp only [SMap.set]
      rw [if_neg hk]
      split
      · rw [total_cons, total_cons]; omega
      · rw [total_cons, total_cons, ih h]; omega

theorem total_set_some {V : Type} (F : Str → V → Int) {l : Str} (v : V) {x : V} {m : SMap V} (hs : SMap.Sorted m)
    (h : SMap.find m l = some x) : total F (SMap.set m l v) = total F m + (F l v - F l x) := by
  obtain ⟨a, b, rfl, hv⟩ := set_replace hs h (v' := v)
  rw [hv]
  simp [total]
  omega

theorem disc_nonneg {sd sr : Int} (hd : 0 ≤ sd) (hr : 0 ≤ sr) (d : Discriminator) : 0 ≤ d.getsizeof sd sr := by
  rw [size_eq]
  have : ∀ rs : List Ram, 0 ≤ (rs.map (fun r => r.getsizeof sr)).sum := by
    intro rs
    induction rs with
    | nil => simp
    | cons r rs ih =>
      have : 0 ≤ r.getsizeof sr := by unfold Ram.getsizeof; omega
      simp only [List.map_cons, List.sum_cons]; omega
  have := this d.rams
  omega

theorem wisard_total (sw sd sr : Int) (w : Wisard) : w.getsizeof sw sd sr
    = sw + 4 * (w.opts.indexes.length : Int) + total (fun l d => (l.length : Int) + d.getsizeof sd sr) w.discriminators := by
  unfold Wisard.getsizeof
  rw [wisard_foldl]
  rfl

/-- C96: in every state, a training (failing ones included) does not decrease `getsizeof`, and adds at most 12 bytes per RAM
if the class is known; `leaveOneOut` leaves it as it is. -/
theorem C96_growth (sw : Int) {sd sr : Int} (hd : 0 ≤ sd) (hr : 0 ≤ sr) {w : Wisard} (hs : SMap.Sorted w.discriminators) :
    (∀ env img l, w.getsizeof sw sd sr ≤ (w.train1 env img l).1.getsizeof sw sd sr)
    ∧ (∀ env img l d, w.discriminators.find l = some d →
        (w.train1 env img l).1.getsizeof sw sd sr ≤ w.getsizeof sw sd sr + 12 * d.getNumberOfRAMS)
    ∧ ∀ img l, (w.leaveOneOut img l).1.getsizeof sw sd sr = w.getsizeof sw sd sr := by
  have known : ∀ img l d, w.discriminators.find l = some d → (w.trainKnown img l).1.getsizeof sw sd sr
      = w.getsizeof sw sd sr + ((d.train img).1.getsizeof sd sr - d.getsizeof sd sr) := by
    intro img l d h
    unfold Wisard.trainKnown
    rw [wisard_total, wisard_total]
    simp only [h, Option.getD_some]
    rw [total_set_some _ _ hs h]
    omega
  refine ⟨fun env img l => ?_, fun env img l d h => ?_, fun img l => ?_⟩
  · unfold Wisard.train1
    split
    · rename_i d h
      rw [known img l d h]
      have := (C26_memory_accounting sd sr d img).1
      omega
    · rename_i h
      have hset : ∀ d, w.getsizeof sw sd sr ≤ ({ w with discriminators := w.discriminators.set l d } : Wisard).getsizeof sw sd sr := by
        intro d
        rw [wisard_total, wisard_total]
        simp only
        rw [total_set_none _ _ h]
        have := disc_nonneg hd hr d
        omega
      unfold Wisard.makeDiscriminator
      cases hn : Wisard.newDiscriminator env.rnd w.addressSize w.opts l img.size with
      | ok d =>
        simp only
        unfold Wisard.trainKnown
        simp only [SMap.find_set_self, SMap.set_set]
        exact hset _
      | error e =>
        simp only
        cases env.lhsFirst
        · simp
        · simp only [if_true]
          exact hset _
  · unfold Wisard.train1
    rw [h]
    simp only
    rw [known img l d h]
    have := (C26_memory_accounting sd sr d img).2.1
    omega
  · unfold Wisard.leaveOneOut
    split
    · rfl
    · rename_i d h
      rw [wisard_total, wisard_total]
      simp only
      rw [total_set_some _ _ hs h]
      have := (C26_memory_accounting sd sr d (.vec img)).2.2.1
      omega

/-! ## Examples for C96 -/

/-- Three images with two different patterns on the wires 0 and 1. -/
example : patterns [0, 1] [.vec [1, 0, 1], .vec [1, 0, 0], .vec [0, 0, 1]] = 2 := by decide

/-! ## C97: ClusWisard -/

namespace Spec

/-- Bytes of a cluster with the discriminators `ds`: the object, and 4 bytes (the key) for each discriminator, and its bytes. -/
def clusterBytes (sc sd sr : Int) (ds : List Discriminator) : Int :=
  sc + (ds.map (fun d => 4 + d.getsizeof sd sr)).sum

end Spec

theorem sizeLoop_eq (sd sr : Int) : ∀ (os : List (Option Discriminator)) (s t : Int),
    Cluster.sizeLoop sd sr os s = .ok t ↔ ∃ ds : List Discriminator, os = ds.map some ∧ t = s + (ds.map (fun d => 4 + d.getsizeof sd sr)).sum := by
  intro os
  induction os with
  | nil =>
    intro s t
    simp only [Cluster.sizeLoop, Except.ok.injEq]
    constructor
    · rintro rfl; exact ⟨[], rfl, by simp⟩
    · rintro ⟨ds, h, rfl⟩
      cases ds with
      | nil => simp
      | cons d ds => simp at h
  | cons o os ih =>
    intro s t
    cases o with
    | none =>
      simp only [Cluster.sizeLoop]
      constructor
      · intro h; cases h
      · rintro ⟨ds, h, _⟩
        cases ds <;> simp at h
    | some d =>
      simp only [Cluster.sizeLoop]
      rw [ih]
      constructor
      · rintro ⟨ds, rfl, rfl⟩
        exact ⟨d :: ds, rfl, by simp; omega⟩
      · rintro ⟨ds, h, rfl⟩
        cases ds with
        | nil => simp at h
        | cons d' ds =>
          simp only [List.map_cons, List.cons.injEq, Option.some.injEq] at h
          obtain ⟨rfl, rfl⟩ := h
          exact ⟨ds, rfl, by simp; omega⟩

theorem cluster_size_eq (sc sd sr : Int) (c : Cluster) (t : Int) : c.getsizeof sc sd sr = .ok t ↔
    ∃ ds : List Discriminator, c.discriminators = ds.map some ∧ t = clusterBytes sc sd sr ds := sizeLoop_eq sd sr _ _ _

theorem sizeLoop_err (sd sr : Int) : ∀ (os : List (Option Discriminator)) (s : Int) (e : Err),
    Cluster.sizeLoop sd sr os s = .error e → e = .ub .nullDeref := by
  intro os
  induction os with
  | nil => intro s e h; cases h
  | cons o os ih =>
    intro s e h
    cases o with
    | none => cases h; rfl
    | some d => exact ih _ _ h

theorem cSizeLoop_eq (sc sd sr : Int) : ∀ (m : SMap Cluster) (s t : Int),
    ClusWisard.sizeLoop sc sd sr m s = .ok t → t = s + (m.map (fun e => (e.1.length : Int)
      + clusterBytes sc sd sr (e.2.discriminators.filterMap id))).sum ∧ ∀ e ∈ m, none ∉ e.2.discriminators := by
  intro m
  induction m with
  | nil => intro s t h; cases h; simp
  | cons e m ih =>
    intro s t h
    obtain ⟨l, c⟩ := e
    simp only [ClusWisard.sizeLoop] at h
    obtain ⟨n, h1, h2⟩ := bind_eq_ok h
    obtain ⟨e1, e2⟩ := ih _ _ h2
    obtain ⟨ds, d1, d2⟩ := (cluster_size_eq sc sd sr c n).mp h1
    have hm : (ds.map some).filterMap id = ds := by
      rw [List.filterMap_map]
      exact List.filterMap_some
    refine ⟨?_, ?_⟩
    · rw [e1, d2, List.map_cons, List.sum_cons]
      simp only [d1, hm]
      omega
    · intro e he
      rcases List.mem_cons.mp he with rfl | he
      · simp [d1]
      · exact e2 e he

/-- C97: `getsizeof` of a ClusWisard, when it has a result, is the size of the object and of the unsupervised cluster, and for every
class the bytes of its label and of a cluster with the discriminators of the class. -/
theorem C97_size (f : Flt) {A : Int} {ms : Rat} {t dl : Int} {o : ClusOpts} {w0 : ClusWisard}
    (h0 : ClusWisard.create A ms t dl o = .ok w0) (ops : List COp) (sw sc sd sr s : Int) :
    let w := (cplay f w0 ops).1
    w.getsizeof sw sc sd sr = .ok s →
      s = sw + clusterBytes sc sd sr (w.unsupervisedCluster.discriminators.filterMap id)
        + (w.clusters.keys.map (fun l => (l.length : Int) + clusterBytes sc sd sr ((discs w l).filterMap id))).sum
      ∧ ∀ l, none ∉ discs w l := by
  intro w h
  have hs : SMap.Sorted w.clusters := (WInv.play (f := f) h0 ops).sorted
  unfold ClusWisard.getsizeof at h
  obtain ⟨n, h1, h2⟩ := bind_eq_ok h
  obtain ⟨e1, e2⟩ := cSizeLoop_eq sc sd sr _ _ _ h2
  obtain ⟨ds, d1, d2⟩ := (cluster_size_eq sc sd sr _ n).mp h1
  have hm : (ds.map some).filterMap id = ds := by
    rw [List.filterMap_map]
    exact List.filterMap_some
  refine ⟨?_, ?_⟩
  · rw [e1, d2, d1, hm]
    congr 2
    unfold SMap.keys
    rw [List.map_map]
    refine List.map_congr_left ?_
    intro e he
    simp only [Function.comp]
    unfold discs
    rw [SMap.find_of_mem hs he]
  · intro l
    unfold discs
    cases hf : w.clusters.find l with
    | none => simp
    | some c => exact e2 _ (SMap.mem_of_find hf)

theorem all_some (os : List (Option Discriminator)) (h : none ∉ os) : ∃ ds : List Discriminator, os = ds.map some := by
  induction os with
  | nil => exact ⟨[], rfl⟩
  | cons o os ih =>
    cases o with
    | none => simp at h
    | some d =>
      obtain ⟨ds, e⟩ := ih (by intro hh; exact h (by simp [hh]))
      exact ⟨d :: ds, by rw [e]; rfl⟩

theorem cSizeLoop_ok (sc sd sr : Int) : ∀ (m : SMap Cluster) (s : Int), (∀ e ∈ m, none ∉ e.2.discriminators) →
    ∃ t, ClusWisard.sizeLoop sc sd sr m s = .ok t := by
  intro m
  induction m with
  | nil => intro s _; exact ⟨s, rfl⟩
  | cons e m ih =>
    intro s h
    obtain ⟨l, c⟩ := e
    obtain ⟨n, hn⟩ : ∃ n, c.getsizeof sc sd sr = .ok n := by
      obtain ⟨ds, hds⟩ := all_some _ (h (l, c) (by simp))
      exact ⟨_, (cluster_size_eq sc sd sr c _).mpr ⟨ds, hds, rfl⟩⟩
    obtain ⟨t, ht⟩ := ih (s + ((l.length : Int) + n)) (fun e he => h e (by simp [he]))
    exact ⟨t, by simp only [ClusWisard.sizeLoop]; rw [hn]; exact ht⟩

/-- C97: `getsizeof` has a result exactly when no class and not the unsupervised cluster has a null pointer among its
discriminators; otherwise it is undefined behaviour. -/
theorem C97_defined (f : Flt) {A : Int} {ms : Rat} {t dl : Int} {o : ClusOpts} {w0 : ClusWisard}
    (h0 : ClusWisard.create A ms t dl o = .ok w0) (ops : List COp) (sw sc sd sr : Int) :
    let w := (cplay f w0 ops).1
    ((∃ s, w.getsizeof sw sc sd sr = .ok s) ↔ none ∉ w.unsupervisedCluster.discriminators ∧ ∀ l, none ∉ discs w l) ∧
    ∀ e, w.getsizeof sw sc sd sr = .error e → e = .ub .nullDeref := by
  intro w
  have hs : SMap.Sorted w.clusters := (WInv.play (f := f) h0 ops).sorted
  refine ⟨⟨?_, ?_⟩, ?_⟩
  · rintro ⟨s, h⟩
    refine ⟨?_, (C97_size f h0 ops sw sc sd sr s h).2⟩
    unfold ClusWisard.getsizeof at h
    obtain ⟨n, h1, _⟩ := bind_eq_ok h
    obtain ⟨ds, d1, _⟩ := (cluster_size_eq sc sd sr _ n).mp h1
    rw [d1]
    simp
  · rintro ⟨h1, h2⟩
    obtain ⟨ds, hds⟩ := all_some _ h1
    have hn := (cluster_size_eq sc sd sr w.unsupervisedCluster _).mpr ⟨ds, hds, rfl⟩
    obtain ⟨t, ht⟩ := cSizeLoop_ok sc sd sr w.clusters (sw + clusterBytes sc sd sr ds) (by
      intro e he
      have := h2 e.1
      unfold discs at this
      rw [SMap.find_of_mem hs he] at this
      exact this)
    exact ⟨t, by unfold ClusWisard.getsizeof; rw [hn]; exact ht⟩
  · intro e h
    unfold ClusWisard.getsizeof at h
    cases hn : w.unsupervisedCluster.getsizeof sc sd sr with
    | error e' =>
      rw [hn] at h
      cases h
      exact sizeLoop_err sd sr _ _ _ hn
    | ok n =>
      rw [hn, Except.bind_ok] at h
      have : ∀ (m : SMap Cluster) (s : Int), ClusWisard.sizeLoop sc sd sr m s = .error e → e = .ub .nullDeref := by
        intro m
        induction m with
        | nil => intro s h; cases h
        | cons c m ih =>
          intro s h
          obtain ⟨l, c⟩ := c
          simp only [ClusWisard.sizeLoop] at h
          cases hc : c.getsizeof sc sd sr with
          | error e' =>
            rw [hc] at h
            cases h
            exact sizeLoop_err sd sr _ _ _ hc
          | ok n =>
            rw [hc, Except.bind_ok] at h
            exact ih _ h
      exact this _ _ h

/-! ### Growth -/

/-- Kept by the elementary steps of supervised and semi-supervised training. -/
structure ClosedS (f : Flt) (P : ClusWisard → Prop) : Prop where
  train : ∀ w env img l, P w → P (w.train1 f env img l).1
  own : ∀ w env img l, P w → P (w.trainIn f env img l).1

theorem ClosedS.trainLoop {f : Flt} {P : ClusWisard → Prop} (h : ClosedS f P) (env : Nat → Env)
    (es : List (List Int × Str)) : ∀ (w : ClusWisard) (i : Nat), P w → P (w.trainLoop f env es i).1 := by
  induction es with
  | nil => intro w i hw; exact hw
  | cons e es ih =>
    intro w i hw
    obtain ⟨img, l⟩ := e
    have h1 := h.train w (env i) img l hw
    simp only [ClusWisard.trainLoop]
    split
    · rename_i w' heq
      rw [heq] at h1
      exact ih w' (i + 1) h1
    · rename_i w' e heq
      rw [heq] at h1
      exact h1

theorem ClosedS.semiLoop {f : Flt} {P : ClusWisard → Prop} (h : ClosedS f P) (env : Nat → Env)
    (labels : LabelMap) (imgs : List (List Int)) :
    ∀ (i : Nat) (w : ClusWisard) (ll : List Int) (j : Nat), P w → P (ClusWisard.semiLoop f env labels imgs i w ll j).1 := by
  induction imgs with
  | nil => intro i w ll j hw; exact hw
  | cons img imgs ih =>
    intro i w ll j hw
    simp only [ClusWisard.semiLoop]
    split
    · split
      · exact hw
      · exact ih _ _ _ _ hw
    · rename_i l hl
      have h1 := h.train w (env i) img l hw
      split
      · rename_i w' heq
        rw [heq] at h1
        exact ih _ _ _ _ h1
      · rename_i w' e heq
        rw [heq] at h1
        exact h1

theorem ClosedS.ownLoop {f : Flt} {P : ClusWisard → Prop} (h : ClosedS f P) (env : Nat → Env)
    (imgs : List (List Int)) : ∀ (w : ClusWisard) (i : Nat), P w → P (w.ownLoop f env imgs i).1 := by
  induction imgs with
  | nil => intro w i hw; exact hw
  | cons img imgs ih =>
    intro w i hw
    have h1 : P (w.trainOwn f (env i) img).1 := by
      unfold ClusWisard.trainOwn
      split
      · exact hw
      · exact h.own w (env i) img _ hw
    simp only [ClusWisard.ownLoop]
    split
    · rename_i w' heq
      rw [heq] at h1
      exact ih w' (i + 1) h1
    · rename_i w' e heq
      rw [heq] at h1
      exact h1

theorem ClosedS.trains {f : Flt} {P : ClusWisard → Prop} (h : ClosedS f P) {w : ClusWisard} (hw : P w) :
    (∀ env images labels, P (w.train f env images labels).1) ∧ ∀ env images labels, P (w.trainSemi f env images labels).1 := by
  refine ⟨fun env images labels => ?_, fun env images labels => ?_⟩
  · unfold ClusWisard.train
    simp only
    split
    · exact hw
    · exact h.trainLoop env _ w 0 hw
  · unfold ClusWisard.trainSemi
    simp only
    split
    · exact hw
    · have h1 := h.semiLoop (env false) labels images 0 w (List.replicate (images.length - labels.length) 0) 0 hw
      split
      · rename_i w' e heq
        rw [heq] at h1
        exact h1
      · rename_i w' ll heq
        rw [heq] at h1
        split
        · exact h1
        · exact h.ownLoop _ _ _ _ h1

/-- Size of a cluster where a null pointer counts as its key only. -/
def slots (sd sr : Int) (os : List (Option Discriminator)) : Int :=
  (os.map (fun o => 4 + (match o with | some d => d.getsizeof sd sr | none => 0))).sum

theorem slots_append (sd sr : Int) (a b : List (Option Discriminator)) : slots sd sr (a ++ b) = slots sd sr a + slots sd sr b := by
  simp [slots]

theorem kept_slots {sd sr : Int} {img : Image} {os os' : List (Option Discriminator)} (h : List.Forall₂ (Kept img) os os') :
    slots sd sr os ≤ slots sd sr os' := by
  induction h with
  | nil => exact Int.le_refl _
  | @cons o o' os os' h1 _ ih =>
    have e : ∀ (x : Option Discriminator) (xs : List (Option Discriminator)), slots sd sr (x :: xs) =
        (4 + (match x with | some d => d.getsizeof sd sr | none => 0)) + slots sd sr xs := by
      intro x xs; simp [slots]
    rw [e, e]
    rcases h1 with ⟨rfl, rfl⟩ | ⟨d, d', rfl, rfl, hh⟩
    · omega
    · rcases hh with rfl | rfl
      · simp only; omega
      · have := (C26_memory_accounting sd sr d img).1
        simp only
        omega

theorem train_slots (f : Flt) {sd sr : Int} (hd : 0 ≤ sd) (hr : 0 ≤ sr) (cl : Cluster) (env : Env) (img : Image) :
    slots sd sr cl.discriminators ≤ slots sd sr (cl.train f env img).1.discriminators := by
  have hnew : ∀ cl : Cluster, slots sd sr cl.discriminators ≤ slots sd sr (cl.trainNew env img).1.discriminators := by
    intro cl
    unfold Cluster.trainNew
    split
    · exact Int.le_refl _
    · split
      · rename_i d _
        simp only [slots_append]
        have := disc_nonneg hd hr (d.train img).1
        simp only [slots, List.map_cons, List.map_nil, List.sum_cons, List.sum_nil]
        omega
      · split
        · simp only [slots_append]
          simp [slots]
        · exact Int.le_refl _
  unfold Cluster.train
  split
  · exact hnew cl
  · split
    · exact Int.le_refl _
    · rename_i c hc
      have hk := kept_slots (sd := sd) (sr := sr) (scan_kept (f := f) (c := c) (img := img) cl.discriminators 0 0 none false)
      generalize Cluster.scan f c img cl.discriminators 0 0 none false = res at hk
      obtain ⟨ds, r⟩ := res
      simp only at hk
      cases r with
      | error e => exact hk
      | ok bt =>
        obtain ⟨b, t⟩ := bt
        simp only
        split
        · exact hk
        · split
          · exact Int.le_trans hk (hnew { cl with discriminators := ds })
          · cases b with
            | none => exact hk
            | some i => exact Int.le_trans hk (kept_slots (trainAt_kept ds i img))

/-- What supervised training can only let grow. -/
def Grown (sc sd sr : Int) (u : Cluster) (S : Int) (w : ClusWisard) : Prop :=
  SMap.Sorted w.clusters ∧ w.unsupervisedCluster = u ∧
    S ≤ total (fun l c => (l.length : Int) + (sc + slots sd sr c.discriminators)) w.clusters

theorem grown_closed (f : Flt) {sc sd sr : Int} (hc : 0 ≤ sc) (hd : 0 ≤ sd) (hr : 0 ≤ sr) (u : Cluster) (S : Int) :
    ClosedS f (Grown sc sd sr u S) := by
  have set : ∀ (w : ClusWisard) (l : Str) (c' : Cluster), (∀ c, w.clusters.find l = some c →
      slots sd sr c.discriminators ≤ slots sd sr c'.discriminators) → (w.clusters.find l = none → 0 ≤ slots sd sr c'.discriminators) →
      Grown sc sd sr u S w → Grown sc sd sr u S { w with clusters := w.clusters.set l c' } := by
    rintro w l c' h1 h2 ⟨g1, g2, g3⟩
    refine ⟨SMap.sorted_set g1 _ _, g2, ?_⟩
    cases hf : w.clusters.find l with
    | none =>
      simp only [total_set_none _ _ hf]
      have := h2 hf
      omega
    | some c =>
      simp only [total_set_some _ _ g1 hf]
      have := h1 c hf
      omega
  refine ⟨fun w env img l g => ?_, fun w env img l g => ?_⟩
  · rw [ClusWisard.train1_eq]
    refine set w l _ (fun c hf => ?_) (fun hf => ?_) g
    · unfold ClusWisard.target
      rw [hf, Option.getD_some]
      exact train_slots f hd hr c env _
    · unfold ClusWisard.target
      rw [hf, Option.getD_none]
      refine Int.le_trans ?_ (train_slots f hd hr _ env _)
      simp [Cluster.create, slots]
  · rw [ClusWisard.trainIn_fst]
    refine set w l _ (fun c hf => ?_) (fun hf => ?_) g
    · rw [hf, Option.getD_some]
      exact train_slots f hd hr c env _
    · rw [hf, Option.getD_none]
      refine Int.le_trans ?_ (train_slots f hd hr _ env _)
      simp [Cluster.default, slots]

theorem clusterBytes_slots (sc sd sr : Int) {os : List (Option Discriminator)} (h : none ∉ os) :
    clusterBytes sc sd sr (os.filterMap id) = sc + slots sd sr os := by
  obtain ⟨ds, rfl⟩ := all_some os h
  have hm : (ds.map some).filterMap id = ds := by
    rw [List.filterMap_map]
    exact List.filterMap_some
  rw [hm]
  unfold clusterBytes slots
  rw [List.map_map]
  rfl

theorem size_slots {sw sc sd sr s : Int} {w : ClusWisard} (h : w.getsizeof sw sc sd sr = .ok s) :
    s = sw + (sc + slots sd sr w.unsupervisedCluster.discriminators)
      + total (fun l c => (l.length : Int) + (sc + slots sd sr c.discriminators)) w.clusters := by
  unfold ClusWisard.getsizeof at h
  obtain ⟨n, h1, h2⟩ := bind_eq_ok h
  obtain ⟨e1, e2⟩ := cSizeLoop_eq sc sd sr _ _ _ h2
  obtain ⟨ds, d1, d2⟩ := (cluster_size_eq sc sd sr _ n).mp h1
  rw [e1, d2]
  have : clusterBytes sc sd sr ds = sc + slots sd sr w.unsupervisedCluster.discriminators := by
    rw [d1, ← clusterBytes_slots sc sd sr (by simp), List.filterMap_map]
    congr 1
    exact List.filterMap_some.symm
  rw [this]
  congr 1
  unfold total
  congr 1
  refine List.map_congr_left ?_
  intro e he
  rw [clusterBytes_slots sc sd sr (e2 e he)]

/-- C97: after any calls, a supervised or semi-supervised training call (failing ones included) does not decrease `getsizeof`. -/
theorem C97_growth (f : Flt) {A : Int} {ms : Rat} {t dl : Int} {o : ClusOpts} {w0 : ClusWisard}
    (h0 : ClusWisard.create A ms t dl o = .ok w0) (ops : List COp) (sw : Int) {sc sd sr s s' : Int} (hc : 0 ≤ sc) (hd : 0 ≤ sd) (hr : 0 ≤ sr) :
    let w := (cplay f w0 ops).1
    w.getsizeof sw sc sd sr = .ok s →
    (∀ env images labels, (w.train f env images labels).1.getsizeof sw sc sd sr = .ok s' → s ≤ s') ∧
    ∀ env images labels, (w.trainSemi f env images labels).1.getsizeof sw sc sd sr = .ok s' → s ≤ s' := by
  intro w h
  have hs : SMap.Sorted w.clusters := (WInv.play (f := f) h0 ops).sorted
  have g : Grown sc sd sr w.unsupervisedCluster (total (fun l c => (l.length : Int) + (sc + slots sd sr c.discriminators)) w.clusters) w :=
    ⟨hs, rfl, Int.le_refl _⟩
  have hh := (grown_closed f hc hd hr w.unsupervisedCluster _).trains g
  have e := size_slots h
  have fin : ∀ w' : ClusWisard, Grown sc sd sr w.unsupervisedCluster
      (total (fun l c => (l.length : Int) + (sc + slots sd sr c.discriminators)) w.clusters) w' →
      w'.getsizeof sw sc sd sr = .ok s' → s ≤ s' := by
    rintro w' ⟨_, g2, g3⟩ h'
    have e' := size_slots h'
    rw [g2] at e'
    omega
  exact ⟨fun env images labels h' => fin _ (hh.1 env images labels) h', fun env images labels h' => fin _ (hh.2 env images labels) h'⟩

/-- The size of the model trained with two images of class "a": a 1-byte label, two discriminators with two RAMs each,
two wires per RAM, one pattern in each RAM (the fixed sizes of the objects taken as 0). -/
example : (cplay Flt.exact cw0 [.train (fun _ => env0) [[1, 1, 1, 1], [0, 0, 0, 0]] [b!"a", b!"a"]]).1.getsizeof 0 0 0 0
    = .ok (1 + 2 * (4 + 2 * (2 * 8 + 12))) := by
  decide +kernel

/-- C97 needs its hypothesis: when the constructor of a discriminator throws (here: address size 2 for an image of length 1) and
the left-hand side of the assignment was evaluated first, a null pointer stays and `getsizeof` is undefined behaviour. -/
theorem C97_null : (cplay Flt.exact cw0 [.train (fun _ => { env0 with lhsFirst := true }) [[1]] [b!"a"]]).1.getsizeof 0 0 0 0
    = .error (.ub .nullDeref) := by
  decide +kernel

end Wis
