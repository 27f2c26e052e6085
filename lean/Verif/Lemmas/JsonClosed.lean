import Verif.Model.SavedText
import Verif.Lemmas.ClusReload
import Verif.Lemmas.JsonText
/-!
# What the JSON values of models are made of
-/

namespace Wis
open Spec

/-- A property of JSON values that the construction of objects keeps; `K` is what is required of strings and keys. -/
structure Closed2 (K : Str → Prop) (Q : Json → Prop) : Prop where
  ascii : ∀ s : Str, (∀ b ∈ s, b.toNat ≤ 0x7F) → K s
  null : Q .null
  bool : ∀ b, Q (.bool b)
  int : ∀ i, InI32 i → Q (.int i)
  str : ∀ s, K s → Q (.str s)
  arr : ∀ l : List Json, (∀ j ∈ l, Q j) → Q (.arr l)
  empty : Q (.obj [])
  set : ∀ (m : List (Str × Json)) k v, Q (.obj m) → K k → Q v → Q (.obj (SMap.set m k v))

namespace Closed2
variable {K : Str → Prop} {Q : Json → Prop} (h : Closed2 K Q)
include h

theorem ofInts {l : List Int} (hl : ∀ a ∈ l, InI32 a) : Q (Json.ofInts l) := by
  apply h.arr
  intro j hj
  obtain ⟨a, ha, rfl⟩ := List.mem_map.mp hj
  exact h.int a (hl a ha)

theorem ofIntss {l : List (List Int)} (hl : ∀ m ∈ l, ∀ a ∈ m, InI32 a) : Q (Json.ofIntss l) := by
  apply h.arr
  intro j hj
  obtain ⟨m, hm, rfl⟩ := List.mem_map.mp hj
  exact h.ofInts (hl m hm)

theorem setKey {c v j : Json} {k : Str} (hc : Q c) (hk : K k) (hv : Q v) (hj : c.setKey k v = .ok j) : Q j := by
  cases c with
  | null => cases hj; exact h.set [] k v h.empty hk hv
  | obj m => cases hj; exact h.set m k v hc hk hv
  | _ => cases hj

theorem ofList {l : List (Str × Json)} (hl : ∀ e ∈ l, K e.1 ∧ Q e.2) : Q (Json.ofList l) := by
  unfold Json.ofList
  have : ∀ (l : List (Str × Json)) (m : List (Str × Json)), (∀ e ∈ l, K e.1 ∧ Q e.2) → Q (.obj m) →
      Q (.obj (l.foldl (fun m e => SMap.set m e.1 e.2) m)) := by
    intro l
    induction l with
    | nil => intro m _ hm; exact hm
    | cons e l ih =>
      intro m hl hm
      rw [List.foldl_cons]
      exact ih _ (fun x hx => hl x (by simp [hx])) (h.set m _ _ hm (hl e (by simp)).1 (hl e (by simp)).2)
  exact this l [] hl h.empty

/-- A key written in the source. -/
theorem lit {s : Str} (hs : (s.all (fun b => decide (b.toNat ≤ 0x7F))) = true) : K s :=
  h.ascii s (fun b hb => of_decide_eq_true (List.all_eq_true.mp hs b hb))

end Closed2

theorem b64char_ascii : ∀ n : Fin 64, (b64char n.val).toNat ≤ 0x7F := by decide +kernel

theorem seg_ascii (m : RamT) : ∀ b ∈ RamData.seg m, b.toNat ≤ 0x7F := by
  intro b hb
  unfold RamData.seg at hb
  rcases Base64.isB64_of_mem _ _ hb with rfl | ⟨n, hn, rfl⟩
  · decide
  · exact b64char_ascii ⟨n, hn⟩

theorem dataText_ascii (it : IterOrder) : ∀ (rs : List Ram) (acc data : Str), (∀ b ∈ acc, b.toNat ≤ 0x7F) →
    Discriminator.dataText it rs acc = .ok data → ∀ b ∈ data, b.toNat ≤ 0x7F := by
  intro rs
  induction rs with
  | nil => intro acc data ha h; cases h; exact ha
  | cons r rs ih =>
    intro acc data ha h
    simp only [Discriminator.dataText, RamData.ramGetData, Except.bind_ok] at h
    refine ih _ _ ?_ h
    intro b hb
    rcases List.mem_append.mp hb with hb | hb
    · split at hb
      · rcases List.mem_append.mp hb with hb | hb
        · exact ha b hb
        · simp only [List.mem_singleton] at hb
          subst hb
          decide
      · exact ha b hb
    · exact seg_ascii _ b hb

theorem ramsData_kept {K : Str → Prop} (hK : ∀ s : Str, (∀ b ∈ s, b.toNat ≤ 0x7F) → K s) {it : IterOrder} {fs fs' : Fs}
    {d : Discriminator} {huge : Bool} {pre random data : Str} (hn : huge = true → K (pre ++ random ++ ramdataSufix))
    (h : d.getRAMsData it fs huge pre random = .ok (fs', data)) : K data := by
  unfold Discriminator.getRAMsData at h
  split at h
  · rename_i hh
    obtain ⟨c, _, h⟩ := bind_eq_ok h
    cases h
    exact hn hh
  · obtain ⟨c, hc, h⟩ := bind_eq_ok h
    cases h
    exact hK _ (dataText_ascii it _ _ _ (by simp) hc)

/-- The numbers of a discriminator are `int`s. -/
structure DInts (d : Discriminator) : Prop where
  entry : InI32 d.entrySize
  count : InI32 d.count
  mapping : ∀ m ∈ d.mapping, ∀ a ∈ m, InI32 a

theorem DWF.ints {iz : Bool} {base : Int} {d : Discriminator} (h : DWF iz base d) : DInts d where
  entry := h.entry
  count := h.count
  mapping := by
    intro m hm
    obtain ⟨r, hr, rfl⟩ := List.mem_map.mp hm
    exact (h.rams r hr).addr

namespace Closed2
variable {K : Str → Prop} {Q : Json → Prop} (h : Closed2 K Q)
include h

theorem getConfig {d : Discriminator} (hd : DInts d) : Q (.obj (d.getConfig true)) := by
  unfold Discriminator.getConfig
  simp only [if_true]
  exact h.set _ _ _ (h.set _ _ _ (h.set _ _ _ h.empty (h.lit rfl) (h.int _ hd.entry)) (h.lit rfl) (h.ofIntss hd.mapping))
    (h.lit rfl) (h.int _ hd.count)

theorem getJSON {it : IterOrder} {fs fs' : Fs} {d : Discriminator} {huge : Bool} {pre random : Str} {j : Json} (hd : DInts d)
    (hn : huge = true → K (pre ++ random ++ ramdataSufix)) (hj : d.getJSON it fs huge pre random = .ok (fs', j)) : Q j := by
  unfold Discriminator.getJSON at hj
  obtain ⟨⟨fs1, data⟩, hdata, hj⟩ := bind_eq_ok hj
  cases hj
  exact h.set _ _ _ (h.getConfig hd) (h.lit rfl) (h.str _ (ramsData_kept h.ascii hn hdata))

theorem discriminator {it : IterOrder} {fs fs' : Fs} {iz : Bool} {base : Int} {d : Discriminator} {huge : Bool} {pre random : Str}
    {j : Json} (hw : DWF iz base d) (hr : d.rams ≠ [])
    (hn : huge = true → K (pre ++ random ++ ramdataSufix)) (hj : d.json it fs huge pre random = .ok (fs', j)) : Q j := by
  rw [json_eq it fs huge pre random hw.rams hr] at hj
  cases hd : d.getRAMsData it fs huge pre random with
  | error e => rw [hd] at hj; cases hj
  | ok p =>
    rw [hd] at hj
    cases hj
    have hi := hw.ints
    have : members d.entrySize d.count d.mapping iz base p.2 = SMap.set (SMap.set (SMap.set (SMap.set (SMap.set
        (SMap.set (SMap.set [] b!"base" (.int base)) b!"count" (.int d.count)) b!"data" (.str p.2))
        b!"entrySize" (.int d.entrySize)) b!"ignoreZero" (.bool iz)) b!"mapping" (Json.ofIntss d.mapping))
        b!"version" (.str version) := rfl
    rw [this]
    exact h.set _ _ _ (h.set _ _ _ (h.set _ _ _ (h.set _ _ _ (h.set _ _ _ (h.set _ _ _ (h.set _ _ _ h.empty
      (h.lit rfl) (h.int _ hw.baseI)) (h.lit rfl) (h.int _ hi.count)) (h.lit rfl)
      (h.str _ (ramsData_kept h.ascii hn hd))) (h.lit rfl) (h.int _ hi.entry)) (h.lit rfl) (h.bool iz)) (h.lit rfl)
      (h.ofIntss hi.mapping)) (h.lit rfl) (h.str _ (h.lit rfl))

theorem classesJson {it : IterOrder} {huge : Bool} {path : Str} {random : Nat → Str} : ∀ (ds : SMap Discriminator) (i : Nat)
    (fs fs' : Fs) (c j : Json), Q c → (∀ e ∈ ds, K e.1 ∧ DInts e.2) →
    (huge = true → ∀ e ∈ ds, ∀ i, K (path ++ e.1 ++ b!"__" ++ random i ++ ramdataSufix)) →
    Wisard.classesJson it huge path random ds i fs c = .ok (fs', j) → Q j := by
  intro ds
  induction ds with
  | nil => intro i fs fs' c j hc _ _ hj; cases hj; exact hc
  | cons e ds ih =>
    intro i fs fs' c j hc hd hn hj
    obtain ⟨l, d⟩ := e
    rw [Wisard.classesJson] at hj
    obtain ⟨⟨fs1, j1⟩, h1, hj⟩ := bind_eq_ok hj
    obtain ⟨c1, h2, hj⟩ := bind_eq_ok hj
    have hd0 := hd (l, d) (by simp)
    have q1 := h.getJSON hd0.2 (fun hh => hn hh (l, d) (by simp) i) h1
    exact ih _ _ _ _ _ (h.setKey hc hd0.1 q1 h2) (fun e he => hd e (by simp [he])) (fun hh e he => hn hh e (by simp [he])) hj

/-- The JSON value of a Wisard. -/
theorem wisard {it : IterOrder} {huge : Bool} {path : Str} {random : Nat → Str} {fs fs' : Fs} {w : Wisard} {j : Json}
    (hA : InI32 w.addressSize) (hb : InI32 w.opts.base) (hc : InI32 w.opts.confidence) (hi : ∀ a ∈ w.opts.indexes, InI32 a)
    (hd : ∀ e ∈ w.discriminators, K e.1 ∧ DInts e.2)
    (hn : huge = true → ∀ e ∈ w.discriminators, ∀ i, K (path ++ e.1 ++ b!"__" ++ random i ++ ramdataSufix))
    (hj : w.json it fs huge path random = .ok (fs', j)) : Q j := by
  unfold Wisard.json at hj
  obtain ⟨⟨fs1, c⟩, h1, hj⟩ := bind_eq_ok hj
  obtain ⟨cfg, h2, hj⟩ := bind_eq_ok hj
  cases hj
  refine h.setKey ?_ (h.lit rfl) (h.classesJson _ _ _ _ _ _ h.null hd hn h1) h2
  unfold Wisard.getConfig
  apply h.ofList
  simp only [List.mem_cons, List.not_mem_nil, or_false, forall_eq_or_imp, forall_eq]
  exact ⟨⟨h.lit rfl, h.str _ (h.lit rfl)⟩, ⟨h.lit rfl, h.int _ hA⟩, ⟨h.lit rfl, h.bool _⟩, ⟨h.lit rfl, h.bool _⟩, ⟨h.lit rfl, h.ofInts hi⟩,
    ⟨h.lit rfl, h.bool _⟩, ⟨h.lit rfl, h.bool _⟩, ⟨h.lit rfl, h.int _ hb⟩, ⟨h.lit rfl, h.int _ hc⟩, ⟨h.lit rfl, h.bool _⟩,
    ⟨h.lit rfl, h.bool _⟩, ⟨h.lit rfl, h.bool _⟩⟩

theorem discsJson {it : IterOrder} {huge : Bool} {path : Str} {random : Nat → Str} : ∀ (ds : List (Option Discriminator)) (i : Nat)
    (fs fs' : Fs) (c l : List Json), (∀ j ∈ c, Q j) → (∀ d, some d ∈ ds → DInts d) →
    (huge = true → ∀ i, K (path ++ natStr i ++ b!"__" ++ random i ++ ramdataSufix)) →
    Cluster.discsJson it huge path random ds i fs c = .ok (fs', l) → ∀ j ∈ l, Q j := by
  intro ds
  induction ds with
  | nil => intro i fs fs' c l hc _ _ hj; cases hj; exact hc
  | cons o ds ih =>
    intro i fs fs' c l hc hd hn hj
    cases o with
    | none => cases hj
    | some d =>
      rw [Cluster.discsJson] at hj
      obtain ⟨⟨fs1, j1⟩, h1, hj⟩ := bind_eq_ok hj
      have q1 := h.getJSON (hd d (by simp)) (fun hh => hn hh i) h1
      refine ih _ _ _ _ _ ?_ (fun d hd' => hd d (by simp [hd'])) hn hj
      intro x hx
      rcases List.mem_append.mp hx with hx | hx
      · exact hc x hx
      · rw [List.mem_singleton.mp hx]; exact q1

/-- What is asked of a cluster. -/
theorem clusterJson {it : IterOrder} {huge : Bool} {path : Str} {random : Nat → Str} {fs fs' : Fs} {cl : Cluster} {j : Json}
    (hd : ∀ d, some d ∈ cl.discriminators → DInts d) (he : ∀ c, cl.cfg = some c → InI32 c.entrySize)
    (hn : huge = true → ∀ i, K (path ++ natStr i ++ b!"__" ++ random i ++ ramdataSufix))
    (hj : cl.getJson it fs huge path random = .ok (fs', j)) : Q j := by
  unfold Cluster.getJson at hj
  obtain ⟨⟨fs1, l⟩, h1, hj⟩ := bind_eq_ok hj
  have hl := h.discsJson _ _ _ _ _ _ (by simp) hd hn h1
  cases hc : cl.cfg with
  | none => rw [hc] at hj; cases hj
  | some c =>
    rw [hc] at hj
    cases hj
    apply h.ofList
    simp only [List.mem_cons, List.not_mem_nil, or_false, forall_eq_or_imp, forall_eq]
    refine ⟨⟨h.lit rfl, h.int _ (he c hc)⟩, h.lit rfl, ?_⟩
    split
    · exact h.null
    · exact h.arr _ hl

theorem clustersJson {it : IterOrder} {huge : Bool} {path : Str} {random : Nat → Nat → Str} : ∀ (cs : SMap Cluster) (i : Nat)
    (fs fs' : Fs) (c j : Json), Q c →
    (∀ e ∈ cs, K e.1 ∧ (∀ d, some d ∈ e.2.discriminators → DInts d) ∧ ∀ c, e.2.cfg = some c → InI32 c.entrySize) →
    (huge = true → ∀ e ∈ cs, ∀ i k, K (path ++ e.1 ++ b!"__" ++ natStr k ++ b!"__" ++ random i k ++ ramdataSufix)) →
    ClusWisard.clustersJson it huge path random cs i fs c = .ok (fs', j) → Q j := by
  intro cs
  induction cs with
  | nil => intro i fs fs' c j hc _ _ hj; cases hj; exact hc
  | cons e cs ih =>
    intro i fs fs' c j hc hd hn hj
    obtain ⟨l, cl⟩ := e
    rw [ClusWisard.clustersJson] at hj
    obtain ⟨⟨fs1, j1⟩, h1, hj⟩ := bind_eq_ok hj
    obtain ⟨c1, h2, hj⟩ := bind_eq_ok hj
    have hd0 := hd (l, cl) (by simp)
    have q1 := h.clusterJson hd0.2.1 hd0.2.2 (fun hh k => hn hh (l, cl) (by simp) i k) h1
    exact ih _ _ _ _ _ (h.setKey hc hd0.1 q1 h2) (fun e he => hd e (by simp [he])) (fun hh e he => hn hh e (by simp [he])) hj

/-- The JSON value of a ClusWisard. -/
theorem clusWisard {it : IterOrder} {huge : Bool} {path : Str} {random : Nat → Nat → Str} {fs fs' : Fs} {w : ClusWisard}
    {j : Json} (hr : CRange w.addressSize w.threshold w.discriminatorsLimit w.opts) (hms : Q (.real w.minScore))
    (hd : ∀ e ∈ w.clusters, K e.1 ∧ (∀ d, some d ∈ e.2.discriminators → DInts d) ∧ ∀ c, e.2.cfg = some c → InI32 c.entrySize)
    (hu : (∀ d, some d ∈ w.unsupervisedCluster.discriminators → DInts d) ∧
      ∀ c, w.unsupervisedCluster.cfg = some c → InI32 c.entrySize)
    (hn : huge = true → (∀ e ∈ w.clusters, ∀ i k, K (path ++ e.1 ++ b!"__" ++ natStr k ++ b!"__" ++ random i k ++ ramdataSufix)) ∧
      ∀ i k, K (path ++ b!"unsupervised_cluster__" ++ natStr k ++ b!"__" ++ random i k ++ ramdataSufix))
    (hj : w.json it fs huge path random = .ok (fs', j)) : Q j := by
  obtain ⟨hA, ht, hdl, hb, hc⟩ := hr
  have hcfg : Q w.getConfig := by
    unfold ClusWisard.getConfig
    apply h.ofList
    simp only [List.mem_cons, List.not_mem_nil, or_false, forall_eq_or_imp, forall_eq]
    exact ⟨⟨h.lit rfl, h.str _ (h.lit rfl)⟩, ⟨h.lit rfl, h.int _ hA⟩, ⟨h.lit rfl, hms⟩, ⟨h.lit rfl, h.int _ ht⟩,
      ⟨h.lit rfl, h.int _ hdl⟩, ⟨h.lit rfl, h.bool _⟩, ⟨h.lit rfl, h.bool _⟩, ⟨h.lit rfl, h.bool _⟩, ⟨h.lit rfl, h.bool _⟩, ⟨h.lit rfl, h.int _ hb⟩,
      ⟨h.lit rfl, h.int _ hc⟩, ⟨h.lit rfl, h.bool _⟩, ⟨h.lit rfl, h.bool _⟩, ⟨h.lit rfl, h.bool _⟩⟩
  unfold ClusWisard.json at hj
  obtain ⟨⟨fs1, c⟩, h1, hj⟩ := bind_eq_ok hj
  have hq : Q c := by
    unfold ClusWisard.jsonSupervised at h1
    split at h1
    · obtain ⟨⟨fs2, c2⟩, h2, h1⟩ := bind_eq_ok h1
      obtain ⟨c3, h3, h1⟩ := bind_eq_ok h1
      cases h1
      exact h.setKey hcfg (h.lit rfl) (h.clustersJson _ _ _ _ _ _ h.null hd (fun hh => (hn hh).1) h2) h3
    · cases h1; exact hcfg
  simp only at hj
  split at hj
  · obtain ⟨⟨fs2, c2⟩, h2, hj⟩ := bind_eq_ok hj
    obtain ⟨c3, h3, hj⟩ := bind_eq_ok hj
    cases hj
    exact h.setKey hq (h.lit rfl) (h.clusterJson hu.1 hu.2 (fun hh k => (hn hh).2 _ k) h2) h3
  · cases hj; exact hq

end Closed2

theorem held_closed (ft : FloatText) : Closed2 (fun _ => True) (Held ft) where
  ascii := fun _ _ => trivial
  null := .null
  bool := .bool
  int := fun i hi => .int (by have := hi.1; omega) (by have := hi.2; omega)
  str := fun s _ => .str s
  arr := fun l hl => .arr hl
  empty := .obj (by simp [SMap.Sorted]) (by simp)
  set := by
    intro m k v hm _ hv
    cases hm with
    | obj h1 h2 =>
      refine .obj (SMap.sorted_set h1 k v) ?_
      intro e he
      rcases SMap.mem_set he with rfl | he
      · exact hv
      · exact h2 e he

theorem utf8_ascii {s : Str} (h : ∀ b ∈ s, b.toNat ≤ 0x7F) : Utf8 s := by
  induction s with
  | nil => exact .nil
  | cons b s ih =>
    exact Utf8.cons (c := [b]) ⟨[(0x00, 0x7F)], by decide, .cons ⟨Nat.zero_le _, h b (by simp)⟩ .nil⟩
      (ih (fun x hx => h x (by simp [hx])))

theorem utf8_closed : Closed2 Utf8 AllUtf8 where
  ascii := fun _ h => utf8_ascii h
  null := .null
  bool := .bool
  int := fun i _ => .int i
  str := fun s h => .str h
  arr := fun l hl => .arr hl
  empty := .obj (by simp) (by simp)
  set := by
    intro m k v hm hk hv
    cases hm with
    | obj h1 h2 =>
      refine .obj ?_ ?_ <;> intro e he <;> rcases SMap.mem_set he with rfl | he
      · exact hk
      · exact h1 e he
      · exact hv
      · exact h2 e he

end Wis
