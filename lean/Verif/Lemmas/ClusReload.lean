import Verif.Lemmas.ClusSim
import Verif.Lemmas.WisardReload
import Verif.Model.ClusWisardJson
/-! `ClusWisard(w.json())`. -/

namespace Wis
open Spec

/-! ## Files -/

/-- Append to several files, one after the other. -/
def Fs.appendAll (fs : Fs) (files : List (Str × Str)) : Fs := files.foldl (fun fs e => fs.append e.1 e.2) fs

theorem Fs.appendAll_append (fs : Fs) (a b : List (Str × Str)) : fs.appendAll (a ++ b) = (fs.appendAll a).appendAll b := by
  unfold Fs.appendAll
  rw [List.foldl_append]

theorem Fs.appendAll_other (files : List (Str × Str)) : ∀ (fs : Fs) (n : Str), n ∉ files.map (·.1) → fs.appendAll files n = fs n := by
  induction files with
  | nil => intro fs n _; rfl
  | cons e files ih =>
    intro fs n h
    simp only [List.map_cons, List.mem_cons, not_or] at h
    show (fs.append e.1 e.2).appendAll files n = fs n
    rw [ih _ _ h.2]
    exact if_neg h.1

theorem Fs.appendAll_mine (files : List (Str × Str)) : ∀ (fs : Fs), (files.map (·.1)).Nodup → (∀ n ∈ files.map (·.1), fs n = none) →
    ∀ e ∈ files, fs.appendAll files e.1 = some e.2 := by
  induction files with
  | nil => intro fs _ _ e he; simp at he
  | cons x files ih =>
    intro fs hn hf e he
    simp only [List.map_cons, List.nodup_cons] at hn
    show (fs.append x.1 x.2).appendAll files e.1 = some e.2
    rcases List.mem_cons.mp he with rfl | he
    · rw [Fs.appendAll_other _ _ _ hn.1]
      simp only [Fs.append, if_true]
      rw [hf e.1 (by simp)]
      rfl
    · refine ih _ hn.2 ?_ e he
      intro n hm
      have : n ≠ x.1 := fun h => hn.1 (h ▸ hm)
      simp only [Fs.append, if_neg this]
      exact hf n (by simp only [List.map_cons]; exact List.mem_cons_of_mem _ hm)

/-! ## Clusters -/

/-- The discriminators of a cluster without null pointers. -/
def discFiles (it : IterOrder) (path : Str) (random : Nat → Str) : List (Option Discriminator) → Nat → List (Str × Str)
  | [], _ => []
  | none :: ds, i => discFiles it path random ds (i + 1)
  | some d :: ds, i => (nameOf path random i (natStr i), textOf it d) :: discFiles it path random ds (i + 1)

def discItems (it : IterOrder) (huge : Bool) (path : Str) (random : Nat → Str) : List (Option Discriminator) → Nat → List Json
  | [], _ => []
  | none :: ds, i => discItems it huge path random ds (i + 1)
  | some d :: ds, i => item d (dataOf it huge path random i (natStr i) d) :: discItems it huge path random ds (i + 1)

theorem discsJson_eq (it : IterOrder) (huge : Bool) (path : Str) (random : Nat → Str) (ds : List (Option Discriminator)) :
    ∀ (i : Nat) (fs : Fs) (acc : List Json), (∀ o ∈ ds, ∃ d, o = some d ∧ ∀ r ∈ d.rams, r.positions ≠ []) →
    Cluster.discsJson it huge path random ds i fs acc =
      .ok (if huge then fs.appendAll (discFiles it path random ds i) else fs, acc ++ discItems it huge path random ds i) := by
  induction ds with
  | nil => intro i fs acc _; simp [Cluster.discsJson, discFiles, discItems, Fs.appendAll]
  | cons o ds ih =>
    intro i fs acc h
    obtain ⟨d, rfl, hd⟩ := h o (by simp)
    simp only [Cluster.discsJson]
    rw [getJSON_eq it fs d huge path random i (natStr i) hd, Except.bind_ok]
    simp only
    rw [ih _ _ _ (fun o ho => h o (by simp [ho]))]
    cases huge with
    | true => simp only [if_true, discFiles, discItems, List.append_assoc, List.singleton_append]; rfl
    | false => simp only [discItems, List.append_assoc, List.singleton_append, Bool.false_eq_true, if_false]

theorem discsOfJson_eq (it : IterOrder) (huge : Bool) (path : Str) (random : Nat → Str) (fs' : Fs) (dc : Json)
    (ds : List (Option Discriminator)) : ∀ (i : Nat) (acc : List (Option Discriminator)),
    (∀ (k : Nat) (o : Option Discriminator), ds[k]? = some o → ∃ d, o = some d ∧
      Discriminator.ofJson fs' ((item d (dataOf it huge path random (i + k) (natStr (i + k)) d)).mergePatch dc) = .ok (reloadD it d)) →
    Cluster.discsOfJson fs' dc (discItems it huge path random ds i) acc = .ok (acc ++ ds.map (Option.map (reloadD it))) := by
  induction ds with
  | nil => intro i acc _; simp [Cluster.discsOfJson, discItems]
  | cons o ds ih =>
    intro i acc h
    obtain ⟨d, rfl, hd⟩ := h 0 o rfl
    rw [Nat.add_zero] at hd
    simp only [discItems, Cluster.discsOfJson, hd, Except.bind_ok]
    rw [ih]
    · simp
    · intro k o hk
      have := h (k + 1) o (by simpa using hk)
      rwa [show i + (k + 1) = i + 1 + k by omega] at this

/-- What the round trip needs of a discriminator. -/
structure DSav (iz : Bool) (base : Int) (d : Discriminator) : Prop where
  wf : DWF iz base d
  ne : d.rams ≠ []
  full : ∀ r ∈ d.rams, r.positions ≠ []
  len : 16 * (d.rams.map (fun r => r.positions.length)).sum + d.rams.length ≤ 2147483648

theorem DSav.reload {iz : Bool} {base : Int} {d : Discriminator} (h : DSav iz base d) (it : IterOrder) (huge : Bool) (path : Str)
    (random : Nat → Str) (fs' : Fs) (i : Nat) (l : Str)
    (hf : huge = true → fs' (nameOf path random i l) = some (textOf it d)) :
    Discriminator.ofJson fs' ((item d (dataOf it huge path random i l d)).mergePatch (rbase iz base)) = .ok (reloadD it d) := by
  rw [ofJson_item fs' h.wf]
  unfold dataOf
  cases huge with
  | false =>
    simp only [Bool.false_eq_true, if_false]
    unfold textOf
    rw [setRAMsData_joined fs' it h.wf.baseI d h.wf.rams h.ne h.full h.len]
    rfl
  | true =>
    simp only [if_true]
    have hl := h.len
    have : ∀ r ∈ d.rams, 16 * r.positions.length < 2147483648 := by
      intro r hr
      have h1 : r.positions.length ≤ (d.rams.map (fun r => r.positions.length)).sum :=
        List.single_le_sum (by simp) _ (List.mem_map_of_mem hr)
      have h2 : 0 < d.rams.length := List.length_pos_of_mem hr
      omega
    have hf := hf rfl
    unfold nameOf at hf ⊢
    rw [setRAMsData_file fs' it h.wf.baseI d h.wf.rams h.full this _ hf]
    rfl

/-- What the round trip needs of a cluster. -/
structure CSav (c : ClusterCfg) (cl : Cluster) : Prop where
  cfg : cl.cfg = some c
  discs : ∀ o ∈ cl.discriminators, ∃ d, o = some d ∧ DSav c.ignoreZero c.base d

def reloadC (it : IterOrder) (cl : Cluster) : Cluster := { cl with discriminators := cl.discriminators.map (Option.map (reloadD it)) }

def clusterItem (it : IterOrder) (huge : Bool) (path : Str) (random : Nat → Str) (n : Int) (cl : Cluster) : Json :=
  .obj [(b!"discriminators", if cl.discriminators.length = 0 then .null else .arr (discItems it huge path random cl.discriminators 0)),
    (b!"entrySize", .int n)]

theorem getJson_eq (it : IterOrder) (fs : Fs) (huge : Bool) (path : Str) (random : Nat → Str) {c : ClusterCfg} {cl : Cluster}
    (h : CSav c cl) :
    cl.getJson it fs huge path random =
      .ok (if huge then fs.appendAll (discFiles it path random cl.discriminators 0) else fs,
        clusterItem it huge path random c.entrySize cl) := by
  unfold Cluster.getJson
  rw [discsJson_eq it huge path random cl.discriminators 0 fs [] (fun o ho => by
    obtain ⟨d, h1, h2⟩ := h.discs o ho
    exact ⟨d, h1, h2.full⟩), Except.bind_ok]
  simp only [h.cfg, List.nil_append]
  rfl

theorem asUInt_int (t : Int) : (Json.int t).asUInt = .ok (BitVec.ofInt 32 t).toNat := rfl

/-- The merged configuration of a cluster. -/
def mergedOf (A : Int) (ms : Rat) (t dl : Int) (o : ClusOpts) (n : Int) (x : Json) : List (Str × Json) :=
  [(b!"addressSize", .int A), (b!"base", .int o.base), (b!"completeAddressing", .bool o.completeAddressing),
    (b!"discriminators", x), (b!"discriminatorsLimit", .int dl), (b!"entrySize", .int n), (b!"ignoreZero", .bool o.ignoreZero),
    (b!"minScore", .real ms), (b!"threshold", .int t)]

set_option maxHeartbeats 2000000 in
theorem merged_eq (A : Int) (ms : Rat) (t dl : Int) (o : ClusOpts) (n : Int) (x : Json) :
    (Json.obj [(b!"discriminators", x), (b!"entrySize", .int n)]).mergePatch (ClusWisard.clusterConfig A ms t dl o) =
      .obj (mergedOf A ms t dl o n x) := rfl

theorem elems_discs (it : IterOrder) (huge : Bool) (path : Str) (random : Nat → Str) (ds : List (Option Discriminator)) :
    (if ds.length = 0 then Json.null else .arr (discItems it huge path random ds 0)).elems = discItems it huge path random ds 0 := by
  cases ds with
  | nil => rfl
  | cons d ds => rfl

theorem clusterOfJson_eq (it : IterOrder) (huge : Bool) (path : Str) (random : Nat → Str) (fs' : Fs) {A : Int} {ms : Rat}
    {t dl : Int} {o : ClusOpts} {n : Int} (hA : InI32 A) (_ht : InI32 t) (_ht0 : 0 ≤ t) (hdl : InI32 dl) (hb : InI32 o.base)
    (hn : InI32 n) {cl : Cluster}
    (h : CSav ((⟨A, ms, t, dl, o, [], Cluster.default⟩ : ClusWisard).clusterCfg n) cl)
    (hf : huge = true → ∀ e ∈ discFiles it path random cl.discriminators 0, fs' e.1 = some e.2) :
    Cluster.ofJson fs' ((clusterItem it huge path random n cl).mergePatch (ClusWisard.clusterConfig A ms t dl o)) =
      .ok (reloadC it cl) := by
  unfold clusterItem
  rw [merged_eq]
  generalize hcfg : Json.obj (mergedOf A ms t dl o n (if cl.discriminators.length = 0 then .null
    else .arr (discItems it huge path random cl.discriminators 0))) = cfg
  have k1 : cfg.key b!"addressSize" = .ok (.int A) := by rw [← hcfg]; rfl
  have k2 : cfg.key b!"entrySize" = .ok (.int n) := by rw [← hcfg]; rfl
  have k3 : cfg.key b!"minScore" = .ok (.real ms) := by rw [← hcfg]; rfl
  have k4 : cfg.key b!"discriminatorsLimit" = .ok (.int dl) := by rw [← hcfg]; rfl
  have k5 : cfg.key b!"threshold" = .ok (.int t) := by rw [← hcfg]; rfl
  have k6 : cfg.key b!"ignoreZero" = .ok (.bool o.ignoreZero) := by rw [← hcfg]; rfl
  have k7 : cfg.key b!"completeAddressing" = .ok (.bool o.completeAddressing) := by rw [← hcfg]; rfl
  have k8 : cfg.key b!"base" = .ok (.int o.base) := by rw [← hcfg]; rfl
  have k9 : cfg.key b!"discriminators" = .ok (if cl.discriminators.length = 0 then .null
    else .arr (discItems it huge path random cl.discriminators 0)) := by rw [← hcfg]; rfl
  unfold Cluster.ofJson
  simp only [Json.opt, k1, k2, k3, k4, k5, k6, k7, k8, k9, Except.bind_ok, Json.isNull, Json.asBool, Json.asReal,
    Json.asInt_int hA, Json.asInt_int hn, Json.asInt_int hdl, Json.asInt_int hb, asUInt_int t, Bool.false_eq_true, if_false,
    elems_discs]
  have hlen : ∀ (ds : List (Option Discriminator)) (i : Nat), (∀ o' ∈ ds, ∃ d, o' = some d ∧ DSav o.ignoreZero o.base d) →
      (huge = true → ∀ e ∈ discFiles it path random ds i, fs' e.1 = some e.2) →
      ∀ (k : Nat) (o' : Option Discriminator), ds[k]? = some o' → ∃ d, o' = some d ∧
        Discriminator.ofJson fs' ((item d (dataOf it huge path random (i + k) (natStr (i + k)) d)).mergePatch (rbase o.ignoreZero o.base)) =
          .ok (reloadD it d) := by
    intro ds
    induction ds with
    | nil => intro i _ _ k o' hk; simp at hk
    | cons x ds ih =>
      intro i hd hf k o' hk
      obtain ⟨d, rfl, hs⟩ := hd x (by simp)
      cases k with
      | zero =>
        simp only [List.getElem?_cons_zero, Option.some.injEq] at hk
        subst hk
        rw [Nat.add_zero]
        exact ⟨d, rfl, hs.reload it huge path random fs' i (natStr i) (fun hh => hf hh (nameOf path random i (natStr i), textOf it d) (by simp [discFiles]))⟩
      | succ k =>
        rw [show i + (k + 1) = i + 1 + k by omega]
        exact ih (i + 1) (fun o ho => hd o (by simp [ho])) (fun hh e he => hf hh e (by simp [discFiles, he])) k o' (by simpa using hk)
  have := discsOfJson_eq it huge path random fs' (rbase o.ignoreZero o.base) cl.discriminators 0 []
    (hlen cl.discriminators 0 h.discs hf)
  show (Cluster.discsOfJson fs' (rbase o.ignoreZero o.base) _ [] >>= _) = _
  rw [this, Except.bind_ok]
  unfold reloadC
  rw [h.cfg]
  rfl

theorem reloadC_sim (it : IterOrder) {c : ClusterCfg} {cl : Cluster} (h : CSav c cl) : ClSim cl (reloadC it cl) := by
  refine ⟨rfl, ?_⟩
  have hd := h.discs
  unfold reloadC
  simp only
  generalize cl.discriminators = ds at hd
  induction ds with
  | nil => exact .nil
  | cons o ds ih =>
    obtain ⟨d, rfl, hs⟩ := hd o (by simp)
    exact .cons (.some (reload_dsim it hs.wf.rams hs.wf.base2)) (ih (fun o ho => hd o (by simp [ho])))

/-! ## The whole model -/

def clusterFiles (it : IterOrder) (path : Str) (random : Nat → Nat → Str) : SMap Cluster → Nat → List (Str × Str)
  | [], _ => []
  | (l, cl) :: cs, i => discFiles it (path ++ l ++ b!"__") (random i) cl.discriminators 0 ++ clusterFiles it path random cs (i + 1)

def clusterItems (it : IterOrder) (huge : Bool) (path : Str) (random : Nat → Nat → Str) (entry : Cluster → Int) :
    SMap Cluster → Nat → List (Str × Json)
  | [], _ => []
  | (l, cl) :: cs, i => (l, clusterItem it huge (path ++ l ++ b!"__") (random i) (entry cl) cl) :: clusterItems it huge path random entry cs (i + 1)

def entryOf (cl : Cluster) : Int := (cl.cfg.map (·.entrySize)).getD 0

theorem clustersJson_acc (it : IterOrder) (huge : Bool) (path : Str) (random : Nat → Nat → Str) (w0 : ClusWisard) (cs : SMap Cluster) :
    ∀ (i : Nat) (fs : Fs) (acc : List (Str × Json)), (∀ e ∈ cs, ∃ n, CSav (w0.clusterCfg n) e.2) → SMap.Sorted cs →
    (∀ a ∈ acc, ∀ e ∈ cs, Str.lt a.1 e.1 = true) →
    ClusWisard.clustersJson it huge path random cs i fs (.obj acc) =
      .ok (if huge then fs.appendAll (clusterFiles it path random cs i) else fs,
        .obj (acc ++ clusterItems it huge path random entryOf cs i)) := by
  induction cs with
  | nil => intro i fs acc _ _ _; simp [ClusWisard.clustersJson, clusterFiles, clusterItems, Fs.appendAll]
  | cons e cs ih =>
    obtain ⟨l, cl⟩ := e
    intro i fs acc hne hs hacc
    obtain ⟨h1, h2⟩ := SMap.sorted_cons.mp hs
    obtain ⟨n, hn⟩ := hne (l, cl) (by simp)
    have he : entryOf cl = (w0.clusterCfg n).entrySize := by unfold entryOf; rw [hn.cfg]; rfl
    simp only [ClusWisard.clustersJson, getJson_eq it fs huge _ _ hn, Except.bind_ok, Json.setKey]
    rw [SMap.set_last (fun a ha => hacc a ha (l, cl) (by simp)), ih _ _ _ (fun e he => hne e (List.mem_cons_of_mem _ he)) h2]
    · cases huge with
      | true => simp only [if_true, clusterFiles, clusterItems, List.append_assoc, List.singleton_append, Fs.appendAll_append, he]
      | false => simp only [clusterItems, List.append_assoc, List.singleton_append, Bool.false_eq_true, if_false, he]
    · intro a ha e he
      rcases List.mem_append.mp ha with ha | ha
      · exact hacc a ha e (List.mem_cons_of_mem _ he)
      · simp only [List.mem_singleton] at ha
        subst ha
        exact h1 e he

theorem clustersJson_eq (it : IterOrder) (huge : Bool) (path : Str) (random : Nat → Nat → Str) (w0 : ClusWisard) (cs : SMap Cluster) (fs : Fs)
    (hc : ∀ e ∈ cs, ∃ n, CSav (w0.clusterCfg n) e.2) (hs : SMap.Sorted cs) (hne : cs ≠ []) :
    ClusWisard.clustersJson it huge path random cs 0 fs .null =
      .ok (if huge then fs.appendAll (clusterFiles it path random cs 0) else fs,
        .obj (clusterItems it huge path random entryOf cs 0)) := by
  cases cs with
  | nil => exact absurd rfl hne
  | cons e cs =>
    have := clustersJson_acc it huge path random w0 (e :: cs) 0 fs [] hc hs (by simp)
    rw [List.nil_append] at this
    rw [← this]
    rfl

theorem clustersOfJson_eq (it : IterOrder) (huge : Bool) (path : Str) (random : Nat → Nat → Str) (fs' : Fs) {A : Int} {ms : Rat}
    {t dl : Int} {o : ClusOpts} (hA : InI32 A) (ht : InI32 t) (ht0 : 0 ≤ t) (hdl : InI32 dl) (hb : InI32 o.base)
    (cs : SMap Cluster) : ∀ (i : Nat) (acc : SMap Cluster),
    (∀ e ∈ cs, ∃ n, InI32 n ∧ CSav ((⟨A, ms, t, dl, o, [], Cluster.default⟩ : ClusWisard).clusterCfg n) e.2) →
    (huge = true → ∀ e ∈ clusterFiles it path random cs i, fs' e.1 = some e.2) →
    SMap.Sorted cs → (∀ a ∈ acc, ∀ e ∈ cs, Str.lt a.1 e.1 = true) →
    ClusWisard.clustersOfJson fs' (ClusWisard.clusterConfig A ms t dl o) (clusterItems it huge path random entryOf cs i) acc =
      .ok (acc ++ cs.map (fun e => (e.1, reloadC it e.2))) := by
  induction cs with
  | nil => intro i acc _ _ _ _; simp [clusterItems, ClusWisard.clustersOfJson]
  | cons e cs ih =>
    obtain ⟨l, cl⟩ := e
    intro i acc h hf hs hacc
    obtain ⟨h1, h2⟩ := SMap.sorted_cons.mp hs
    obtain ⟨n, hn, hcs⟩ := h (l, cl) (by simp)
    have he : entryOf cl = n := by unfold entryOf; rw [hcs.cfg]; rfl
    simp only [clusterItems, ClusWisard.clustersOfJson, he]
    rw [clusterOfJson_eq it huge _ _ fs' hA ht ht0 hdl hb hn hcs
      (fun hh e he => hf hh e (by simp only [clusterFiles]; exact List.mem_append_left _ he)), Except.bind_ok,
      SMap.set_last (fun a ha => hacc a ha (l, cl) (by simp)), ih _ _ (fun e he => h e (List.mem_cons_of_mem _ he))
        (fun hh e he => hf hh e (by simp only [clusterFiles]; exact List.mem_append_right _ he)) h2]
    · simp
    · intro a ha e he
      rcases List.mem_append.mp ha with ha | ha
      · exact hacc a ha e (List.mem_cons_of_mem _ he)
      · simp only [List.mem_singleton] at ha
        subst ha
        exact h1 e he

/-- All options that survive. -/
def keptC (o : ClusOpts) : ClusOpts := { o with searchBestConfidence := false }

/-- The configuration object, keys in order, with the two optional members. -/
def ccfgOf (A : Int) (ms : Rat) (t dl : Int) (o : ClusOpts) (cs un : List (Str × Json)) : List (Str × Json) :=
  [(b!"addressSize", .int A), (b!"base", .int o.base), (b!"bleachingActivated", .bool o.bleachingActivated)] ++ cs ++
    [(b!"completeAddressing", .bool o.completeAddressing), (b!"confidence", .int o.confidence),
    (b!"discriminatorsLimit", .int dl), (b!"ignoreZero", .bool o.ignoreZero), (b!"minScore", .real ms),
    (b!"returnActivationDegree", .bool o.returnActivationDegree), (b!"returnClassesDegrees", .bool o.returnClassesDegrees),
    (b!"returnConfidence", .bool o.returnConfidence), (b!"threshold", .int t)] ++ un ++
    [(b!"verbose", .bool o.verbose), (b!"version", .str version)]

set_option maxHeartbeats 2000000 in
theorem cconfig_eq (A : Int) (ms : Rat) (t dl : Int) (o : ClusOpts) (cs : SMap Cluster) (u : Cluster) :
    ClusWisard.getConfig ⟨A, ms, t, dl, o, cs, u⟩ = .obj (ccfgOf A ms t dl o [] []) := rfl

set_option maxHeartbeats 2000000 in
theorem cset_clusters (A : Int) (ms : Rat) (t dl : Int) (o : ClusOpts) (c : Json) :
    (Json.obj (ccfgOf A ms t dl o [] [])).setKey b!"clusters" c = .ok (.obj (ccfgOf A ms t dl o [(b!"clusters", c)] [])) := rfl

set_option maxHeartbeats 2000000 in
theorem cset_unsup0 (A : Int) (ms : Rat) (t dl : Int) (o : ClusOpts) (c : Json) :
    (Json.obj (ccfgOf A ms t dl o [] [])).setKey b!"unsupervisedCluster" c =
      .ok (.obj (ccfgOf A ms t dl o [] [(b!"unsupervisedCluster", c)])) := rfl

set_option maxHeartbeats 2000000 in
theorem cset_unsup1 (A : Int) (ms : Rat) (t dl : Int) (o : ClusOpts) (k c : Json) :
    (Json.obj (ccfgOf A ms t dl o [(b!"clusters", k)] [])).setKey b!"unsupervisedCluster" c =
      .ok (.obj (ccfgOf A ms t dl o [(b!"clusters", k)] [(b!"unsupervisedCluster", c)])) := rfl

/-- An optional member. -/
def member (k : Str) : Option Json → List (Str × Json)
  | none => []
  | some c => [(k, c)]

set_option maxHeartbeats 2000000 in
theorem ckeys (A : Int) (ms : Rat) (t dl : Int) (o : ClusOpts) (cs un : Option Json) (hb : InI32 o.base) (hc : InI32 o.confidence) :
    let cfg := Json.obj (ccfgOf A ms t dl o (member b!"clusters" cs) (member b!"unsupervisedCluster" un))
    ClusWisard.optsOfJson cfg = .ok (keptC o) ∧ cfg.key b!"addressSize" = .ok (.int A) ∧ cfg.key b!"minScore" = .ok (.real ms) ∧
      cfg.key b!"threshold" = .ok (.int t) ∧ cfg.key b!"discriminatorsLimit" = .ok (.int dl) ∧
      cfg.key b!"clusters" = .ok (cs.getD .null) ∧ cfg.key b!"unsupervisedCluster" = .ok (un.getD .null) := by
  intro cfg
  have k0 : cfg.key b!"addressSize" = .ok (.int A) ∧ cfg.key b!"minScore" = .ok (.real ms) ∧
      cfg.key b!"threshold" = .ok (.int t) ∧ cfg.key b!"discriminatorsLimit" = .ok (.int dl) ∧
      cfg.key b!"clusters" = .ok (cs.getD .null) ∧ cfg.key b!"unsupervisedCluster" = .ok (un.getD .null) := by
    cases cs <;> cases un <;> exact ⟨rfl, rfl, rfl, rfl, rfl, rfl⟩
  refine ⟨?_, k0⟩
  have k : cfg.key b!"bleachingActivated" = .ok (.bool o.bleachingActivated) ∧ cfg.key b!"verbose" = .ok (.bool o.verbose) ∧ cfg.key b!"ignoreZero" = .ok (.bool o.ignoreZero) ∧
      cfg.key b!"completeAddressing" = .ok (.bool o.completeAddressing) ∧ cfg.key b!"base" = .ok (.int o.base) ∧
      cfg.key b!"confidence" = .ok (.int o.confidence) ∧ cfg.key b!"searchBestConfidence" = .ok .null ∧
      cfg.key b!"returnConfidence" = .ok (.bool o.returnConfidence) ∧
      cfg.key b!"returnActivationDegree" = .ok (.bool o.returnActivationDegree) ∧
      cfg.key b!"returnClassesDegrees" = .ok (.bool o.returnClassesDegrees) := by
    cases cs <;> cases un <;> exact ⟨rfl, rfl, rfl, rfl, rfl, rfl, rfl, rfl, rfl, rfl⟩
  obtain ⟨k1, kv, k2, k3, k4, k5, k6, k7, k8, k9⟩ := k
  unfold ClusWisard.optsOfJson
  simp only [Json.opt, k1, kv, k2, k3, k4, k5, k6, k7, k8, k9, Except.bind_ok, Json.isNull, Json.asBool,
    Json.asInt_int hb, Json.asInt_int hc, Bool.false_eq_true, if_false, if_true]
  rfl

/-- All files of a model. -/
def allFiles (it : IterOrder) (path : Str) (random : Nat → Nat → Str) (w : ClusWisard) : List (Str × Str) :=
  clusterFiles it path random w.clusters 0 ++
    discFiles it (path ++ b!"unsupervised_cluster__") (random w.clusters.length) w.unsupervisedCluster.discriminators 0

/-- What the round trip needs. -/
structure WSav (w : ClusWisard) : Prop where
  range : CRange w.addressSize w.threshold w.discriminatorsLimit w.opts
  th : 0 ≤ w.threshold
  sorted : SMap.Sorted w.clusters
  cl : ∀ e ∈ w.clusters, ∃ n, InI32 n ∧ CSav (w.clusterCfg n) e.2
  un : w.unsupervisedCluster = Cluster.default ∨
    (w.unsupervisedCluster.discriminators ≠ [] ∧ ∃ n, InI32 n ∧ CSav (w.clusterCfg n) w.unsupervisedCluster)

/-- The loaded model. -/
def reloadW (it : IterOrder) (w : ClusWisard) : ClusWisard :=
  ⟨w.addressSize, w.minScore, w.threshold, w.discriminatorsLimit, keptC w.opts, w.clusters.map (fun e => (e.1, reloadC it e.2)),
    reloadC it w.unsupervisedCluster⟩

theorem clusWisard_roundtrip (it : IterOrder) (huge : Bool) (path : Str) (random : Nat → Nat → Str) {w : ClusWisard} (h : WSav w)
    (fs : Fs) :
    ∃ j, w.json it fs huge path random = .ok (if huge then fs.appendAll (allFiles it path random w) else fs, j) ∧
      ∀ fs' : Fs, (huge = true → ∀ e ∈ allFiles it path random w, fs' e.1 = some e.2) →
        ClusWisard.ofJson fs' j = .ok (reloadW it w) := by
  obtain ⟨A, ms, t, dl, o, cs, u⟩ := w
  obtain ⟨⟨hA, ht, hdl, hb, hc⟩, ht0, hs, hcl, hun⟩ := h
  simp only at hA ht hdl hb hc ht0 hs hcl hun ⊢
  have hcl1 : ∀ e ∈ cs, ∃ n, InI32 n ∧ CSav ((⟨A, ms, t, dl, o, [], Cluster.default⟩ : ClusWisard).clusterCfg n) e.2 := hcl
  have hcl2 : ∀ e ∈ cs, ∃ n, CSav ((⟨A, ms, t, dl, o, [], Cluster.default⟩ : ClusWisard).clusterCfg n) e.2 := fun e he => by
    obtain ⟨n, _, h⟩ := hcl1 e he
    exact ⟨n, h⟩
  -- the supervised part
  have hsup : ∃ x : Option Json, x = (if cs = [] then none else some (.obj (clusterItems it huge path random entryOf cs 0))) ∧
      ClusWisard.jsonSupervised it fs ⟨A, ms, t, dl, o, cs, u⟩ huge path random =
        .ok (if huge then fs.appendAll (clusterFiles it path random cs 0) else fs,
          .obj (ccfgOf A ms t dl o (member b!"clusters" x) [])) := by
    refine ⟨_, rfl, ?_⟩
    unfold ClusWisard.jsonSupervised
    simp only
    by_cases hne : cs = []
    · subst hne
      rw [if_neg (by simp), if_pos rfl, cconfig_eq]
      simp [clusterFiles, Fs.appendAll, member]
    · rw [if_pos (List.length_pos_iff.mpr hne), if_neg hne, clustersJson_eq it huge path random _ cs fs hcl2 hs hne, Except.bind_ok]
      simp only
      rw [cconfig_eq, cset_clusters, Except.bind_ok]
      rfl
  obtain ⟨x, hx, hsup⟩ := hsup
  have hitems : (x.getD .null).items = .ok (clusterItems it huge path random entryOf cs 0) := by
    rw [hx]
    by_cases hne : cs = []
    · subst hne; rw [if_pos rfl]; rfl
    · rw [if_neg hne]; rfl
  -- loading, whatever the unsupervised part is
  have hload : ∀ (y : Option Json) (fs' : Fs) (u' : Cluster),
      (huge = true → ∀ e ∈ clusterFiles it path random cs 0, fs' e.1 = some e.2) →
      (if (y.getD .null).isNull then .ok Cluster.default
        else Cluster.ofJson fs' ((y.getD .null).mergePatch (ClusWisard.clusterConfig A ms t dl o)) : Res Cluster) = .ok u' →
      ClusWisard.ofJson fs' (.obj (ccfgOf A ms t dl o (member b!"clusters" x) (member b!"unsupervisedCluster" y))) =
        .ok ⟨A, ms, t, dl, keptC o, cs.map (fun e => (e.1, reloadC it e.2)), u'⟩ := by
    intro y fs' u' hf hu
    obtain ⟨k1, k2, k3, k4, k5, k6, k7⟩ := ckeys A ms t dl o x y hb hc
    have hcc : ClusWisard.clusterConfig A ms t dl (keptC o) = ClusWisard.clusterConfig A ms t dl o := rfl
    unfold ClusWisard.ofJson
    simp only [k1, k2, k3, k4, k5, k6, k7, Except.bind_ok, Json.asInt_int hA, Json.asInt_int ht, Json.asInt_int hdl, Json.asReal,
      hitems, hcc]
    rw [clustersOfJson_eq it huge path random fs' hA ht ht0 hdl hb cs 0 [] hcl1 hf hs (by simp), Except.bind_ok, hu, Except.bind_ok]
    rfl
  by_cases hu : u.discriminators = []
  · refine ⟨.obj (ccfgOf A ms t dl o (member b!"clusters" x) []), ?_, ?_⟩
    · unfold ClusWisard.json
      rw [hsup, Except.bind_ok]
      simp only
      rw [if_neg (by simp [Cluster.getSize, hu])]
      unfold allFiles
      simp [hu, discFiles]
    · intro fs' hf
      rcases hun with rfl | ⟨h, _⟩
      · exact hload none fs' Cluster.default (fun hh e he => hf hh e (List.mem_append_left _ he)) rfl
      · exact absurd hu h
  · obtain ⟨n, hn, hsav⟩ : ∃ n, InI32 n ∧ CSav ((⟨A, ms, t, dl, o, [], Cluster.default⟩ : ClusWisard).clusterCfg n) u := by
      rcases hun with rfl | ⟨_, h⟩
      · exact absurd rfl hu
      · exact h
    refine ⟨.obj (ccfgOf A ms t dl o (member b!"clusters" x) (member b!"unsupervisedCluster"
      (some (clusterItem it huge (path ++ b!"unsupervised_cluster__") (random cs.length) n u)))), ?_, ?_⟩
    · unfold ClusWisard.json
      rw [hsup, Except.bind_ok]
      simp only
      rw [if_pos (by simpa [Cluster.getSize] using List.length_pos_iff.mpr hu), getJson_eq it _ huge _ _ hsav, Except.bind_ok]
      simp only
      have hset : (Json.obj (ccfgOf A ms t dl o (member b!"clusters" x) [])).setKey b!"unsupervisedCluster"
          (clusterItem it huge (path ++ b!"unsupervised_cluster__") (random cs.length) n u) =
          .ok (.obj (ccfgOf A ms t dl o (member b!"clusters" x) (member b!"unsupervisedCluster"
            (some (clusterItem it huge (path ++ b!"unsupervised_cluster__") (random cs.length) n u))))) := by
        cases x with
        | none => exact cset_unsup0 A ms t dl o _
        | some k => exact cset_unsup1 A ms t dl o k _
      rw [show ((⟨A, ms, t, dl, o, [], Cluster.default⟩ : ClusWisard).clusterCfg n).entrySize = n from rfl, hset, Except.bind_ok]
      unfold allFiles
      cases huge with
      | true => simp only [if_true, Fs.appendAll_append]
      | false => simp only [Bool.false_eq_true, if_false]
    · intro fs' hf
      refine hload _ fs' (reloadC it u) (fun hh e he => hf hh e (List.mem_append_left _ he)) ?_
      have := clusterOfJson_eq it huge (path ++ b!"unsupervised_cluster__") (random cs.length) fs' hA ht ht0 hdl hb hn hsav
        (fun hh e he => hf hh e (List.mem_append_right _ he))
      exact this

theorem reload_cwsim (it : IterOrder) {w : ClusWisard} (h : WSav w) :
    CWSim w (reloadW it w) where
  addr := rfl
  ms := rfl
  th := rfl
  dl := rfl
  opts := ⟨rfl, rfl, rfl, rfl, rfl, rfl, rfl, rfl, rfl⟩
  cls := by
    have hcl := h.cl
    unfold reloadW
    simp only
    generalize w.clusters = cs at hcl
    induction cs with
    | nil => exact .nil
    | cons e cs ih =>
      obtain ⟨n, _, hn⟩ := hcl e (by simp)
      exact .cons ⟨rfl, reloadC_sim it hn⟩ (ih (fun e he => hcl e (List.mem_cons_of_mem _ he)))
  un := by
    rcases h.un with h | ⟨_, n, _, hn⟩
    · unfold reloadW
      simp only
      rw [h]
      exact ClSim.default
    · exact reloadC_sim it hn

end Wis
