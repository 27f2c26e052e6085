import Verif.Lemmas.Disk
import Verif.Props.NamedFiles
import Verif.Props.TruncateRam
/-!
# C143, C144: saves on a disk that may fail, and saves interrupted by a crash
-/

namespace Wis
open Spec

theorem ramsData_saves (it : IterOrder) (d : Discriminator) (huge : Bool) (pre random : Str) :
    ∃ ws r, Saves (fun fs => d.getRAMsData it fs huge pre random) (fun k fs => d.getRAMsDataOn k it fs huge pre random) ws r ∧
      ws.map (·.1) = if huge then [pre ++ random ++ b!".wdpkg"] else [] := by
  unfold Discriminator.getRAMsData Discriminator.getRAMsDataOn
  cases huge with
  | false =>
    simp only [Bool.false_eq_true, if_false]
    cases Discriminator.dataText it d.rams [] with
    | error e => exact ⟨[], _, .error e [], rfl⟩
    | ok s => exact ⟨[], .ok s, .pure (.ok s), rfl⟩
  | true =>
    simp only [if_true]
    cases Discriminator.fileText it d.rams 0 with
    | error e => exact ⟨[(_, [])], _, .error e _, rfl⟩
    | ok s => exact ⟨[(_, s)], _, .write (pre ++ random ++ ramdataSufix) s (pre ++ random ++ ramdataSufix), rfl⟩

theorem getJSON_saves (it : IterOrder) (d : Discriminator) (huge : Bool) (pre random : Str) :
    ∃ ws r, Saves (fun fs => d.getJSON it fs huge pre random) (fun k fs => d.getJSONOn k it fs huge pre random) ws r ∧
      ws.map (·.1) = if huge then [pre ++ random ++ b!".wdpkg"] else [] := by
  obtain ⟨ws, r, h, hn⟩ := ramsData_saves it d huge pre random
  exact ⟨ws, _, (h.step fun data => (.ok (Json.obj (SMap.set (d.getConfig true) b!"data" (.str data))) : Res Json)).congr
    (fun _ => rfl) (fun _ _ => rfl) rfl rfl, hn⟩

theorem discriminator_saves (it : IterOrder) (d : Discriminator) (huge : Bool) (path random : Str) :
    ∃ ws r, Saves (fun fs => d.json it fs huge path random) (fun k fs => d.jsonOn k it fs huge path random) ws r ∧
      ws.map (·.1) = if huge then [path ++ random ++ b!".wdpkg"] else [] := by
  obtain ⟨ws, r, h, hn⟩ := ramsData_saves it d huge path random
  refine ⟨ws, _, (h.step fun data => (d.withRamConfig (d.getConfig true)).setKey b!"data" (.str data) >>= fun c =>
    c.setKey b!"version" (.str version)).congr (fun fs => ?_) (fun k fs => ?_) rfl rfl, hn⟩
  · unfold Discriminator.json
    dsimp only
    congr 1; funext p; obtain ⟨a, b⟩ := p
    simp only
    cases (d.withRamConfig (d.getConfig true)).setKey b!"data" (.str b) with
    | error e => rfl
    | ok c => simp only [Except.bind_ok]; cases c.setKey b!"version" (.str version) <;> rfl
  · unfold Discriminator.jsonOn
    dsimp only
    congr 1; funext p; obtain ⟨a, b⟩ := p
    simp only
    cases (d.withRamConfig (d.getConfig true)).setKey b!"data" (.str b) with
    | error e => rfl
    | ok c => simp only [Except.bind_ok]; cases c.setKey b!"version" (.str version) <;> rfl

theorem ite_append {b : Bool} {x y z : List Str} (h : z = x ++ y) :
    (if b then x else []) ++ (if b then y else []) = if b then z else [] := by
  cases b <;> simp [h]

theorem classes_saves (it : IterOrder) (huge : Bool) (path : Str) (random : Nat → Str) :
    ∀ (ds : SMap Discriminator) (i : Nat) (c : Json),
      ∃ ws r, Saves (fun fs => Wisard.classesJson it huge path random ds i fs c)
          (fun k fs => Wisard.classesJsonOn k it huge path random ds i fs c) ws r ∧
        ws.map (·.1) = if huge then classFiles path random ds.keys i else [] := by
  intro ds
  induction ds with
  | nil => intro i c; exact ⟨[], .ok c, .pure (.ok c), by cases huge <;> rfl⟩
  | cons e ds ih =>
    intro i c
    obtain ⟨l, d⟩ := e
    obtain ⟨ws, r, h, hn⟩ := getJSON_saves it d huge (path ++ l ++ b!"__") (random i)
    have hnames : ∀ ws' : List (Str × Str), (ws'.map (·.1) = if huge then classFiles path random (SMap.keys ds) (i + 1) else []) →
        (ws ++ ws').map (·.1) = if huge then classFiles path random (SMap.keys ((l, d) :: ds)) i else [] := by
      intro ws' h'
      rw [List.map_append, hn, h']
      exact ite_append rfl
    -- the writes of the other classes do not depend on the reply so far
    cases hr : r >>= fun j => c.setKey l j with
    | error e =>
      obtain ⟨ws', _, _, hn'⟩ := ih (i + 1) c
      refine ⟨ws ++ ws', .error e, ?_, hnames ws' hn'⟩
      refine ((h.bind (ws' := ws') (r' := fun j => c.setKey l j >>= fun _ => (.error e : Res Json))
        (f := fun p => c.setKey l p.2 >>= fun c => Wisard.classesJson it huge path random ds (i + 1) p.1 c)
        (g := fun k p => c.setKey l p.2 >>= fun c => Wisard.classesJsonOn k it huge path random ds (i + 1) p.1 c)
        (fun a ha => ?_)).congr (fun fs => rfl) (fun k fs => rfl) rfl ?_)
      · rw [ha, Except.bind_ok] at hr
        simp only [hr]
        exact .error e ws'
      · cases r with
        | error e' => exact hr.symm
        | ok a => rw [Except.bind_ok] at hr ⊢; rw [hr]; rfl
    | ok c' =>
      obtain ⟨ws', r', h', hn'⟩ := ih (i + 1) c'
      refine ⟨ws ++ ws', r', ?_, hnames ws' hn'⟩
      refine ((h.bind (ws' := ws') (r' := fun _ => r')
        (f := fun p => c.setKey l p.2 >>= fun c => Wisard.classesJson it huge path random ds (i + 1) p.1 c)
        (g := fun k p => c.setKey l p.2 >>= fun c => Wisard.classesJsonOn k it huge path random ds (i + 1) p.1 c)
        (fun a ha => ?_)).congr (fun fs => rfl) (fun k fs => rfl) rfl ?_)
      · rw [ha, Except.bind_ok] at hr
        simp only [hr]
        exact h'
      · cases r with
        | error e' => cases hr
        | ok a => rfl

theorem wisard_saves (it : IterOrder) (w : Wisard) (huge : Bool) (path : Str) (random : Nat → Str) :
    ∃ ws r, Saves (fun fs => w.json it fs huge path random) (fun k fs => w.jsonOn k it fs huge path random) ws r ∧
      ws.map (·.1) = if huge then classFiles path random w.discriminators.keys 0 else [] := by
  obtain ⟨ws, r, h, hn⟩ := classes_saves it huge path random w.discriminators 0 .null
  refine ⟨ws, _, (h.step fun c => w.getConfig.setKey b!"classes" c).congr (fun fs => ?_) (fun k fs => ?_) rfl rfl, hn⟩
  · unfold Wisard.json
    rfl
  · unfold Wisard.jsonOn
    rfl

theorem discs_saves (it : IterOrder) (huge : Bool) (path : Str) (random : Nat → Str) :
    ∀ (ds : List (Option Discriminator)) (i : Nat) (c : List Json),
      ∃ ws r, Saves (fun fs => Cluster.discsJson it huge path random ds i fs c)
          (fun k fs => Cluster.discsJsonOn k it huge path random ds i fs c) ws r ∧
        ws.map (·.1) = if huge then clusterDataFiles path random i ds.length else [] := by
  intro ds
  induction ds with
  | nil => intro i c; exact ⟨[], .ok c, .pure (.ok c), by cases huge <;> rfl⟩
  | cons e ds ih =>
    intro i c
    cases e with
    | none =>
      refine ⟨(if huge then clusterDataFiles path random i (ds.length + 1) else []).map fun n => (n, []), _, .error _ _, ?_⟩
      rw [List.map_map]
      exact List.map_id _
    | some d =>
      obtain ⟨ws, r, h, hn⟩ := getJSON_saves it d huge (path ++ natStr i ++ b!"__") (random i)
      have hnames : ∀ ws' : List (Str × Str), (ws'.map (·.1) = if huge then clusterDataFiles path random (i + 1) ds.length else []) →
          (ws ++ ws').map (·.1) = if huge then clusterDataFiles path random i (ds.length + 1) else [] := by
        intro ws' h'
        rw [List.map_append, hn, h']
        exact ite_append rfl
      cases r with
      | error e =>
        obtain ⟨ws', _, _, hn'⟩ := ih (i + 1) c
        refine ⟨ws ++ ws', .error e, ?_, hnames ws' hn'⟩
        exact (h.bind (ws' := ws') (r' := fun _ => (.error e : Res (List Json)))
          (f := fun p => Cluster.discsJson it huge path random ds (i + 1) p.1 (c ++ [p.2]))
          (g := fun k p => Cluster.discsJsonOn k it huge path random ds (i + 1) p.1 (c ++ [p.2]))
          (fun a ha => by cases ha)).congr (fun fs => rfl) (fun k fs => rfl) rfl rfl
      | ok j =>
        obtain ⟨ws', r', h', hn'⟩ := ih (i + 1) (c ++ [j])
        refine ⟨ws ++ ws', r', ?_, hnames ws' hn'⟩
        exact (h.bind (ws' := ws') (r' := fun _ => r')
          (f := fun p => Cluster.discsJson it huge path random ds (i + 1) p.1 (c ++ [p.2]))
          (g := fun k p => Cluster.discsJsonOn k it huge path random ds (i + 1) p.1 (c ++ [p.2]))
          (fun a ha => by cases ha; exact h')).congr (fun fs => rfl) (fun k fs => rfl) rfl rfl

theorem cluster_saves (it : IterOrder) (cl : Cluster) (huge : Bool) (path : Str) (random : Nat → Str) :
    ∃ ws r, Saves (fun fs => cl.getJson it fs huge path random) (fun k fs => cl.getJsonOn k it fs huge path random) ws r ∧
      ws.map (·.1) = if huge then clusterDataFiles path random 0 cl.getSize else [] := by
  obtain ⟨ws, r, h, hn⟩ := discs_saves it huge path random cl.discriminators 0 []
  refine ⟨ws, _, (h.step fun ds => (match cl.cfg with
    | none => (.error (.ub .uninitialised) : Res Json)
    | some c => .ok (Json.ofList [(b!"entrySize", .int c.entrySize),
      (b!"discriminators", if cl.discriminators.length = 0 then .null else .arr ds)]))).congr
    (fun fs => ?_) (fun k fs => ?_) rfl rfl, hn⟩
  · unfold Cluster.getJson
    congr 1; funext p; obtain ⟨a, b⟩ := p
    simp only
    cases cl.cfg <;> rfl
  · unfold Cluster.getJsonOn
    congr 1; funext p; obtain ⟨a, b⟩ := p
    simp only
    cases cl.cfg <;> rfl

theorem clusters_saves (it : IterOrder) (huge : Bool) (path : Str) (random : Nat → Nat → Str) :
    ∀ (cs : SMap Cluster) (i : Nat) (c : Json),
      ∃ ws r, Saves (fun fs => ClusWisard.clustersJson it huge path random cs i fs c)
          (fun k fs => ClusWisard.clustersJsonOn k it huge path random cs i fs c) ws r ∧
        ws.map (·.1) = if huge then clusWisardFiles path random cs i else [] := by
  intro cs
  induction cs with
  | nil => intro i c; exact ⟨[], .ok c, .pure (.ok c), by cases huge <;> rfl⟩
  | cons e cs ih =>
    intro i c
    obtain ⟨l, cl⟩ := e
    obtain ⟨ws, r, h, hn⟩ := cluster_saves it cl huge (path ++ l ++ b!"__") (random i)
    have hnames : ∀ ws' : List (Str × Str), (ws'.map (·.1) = if huge then clusWisardFiles path random cs (i + 1) else []) →
        (ws ++ ws').map (·.1) = if huge then clusWisardFiles path random ((l, cl) :: cs) i else [] := by
      intro ws' h'
      rw [List.map_append, hn, h']
      exact ite_append rfl
    cases hr : r >>= fun j => c.setKey l j with
    | error e =>
      obtain ⟨ws', _, _, hn'⟩ := ih (i + 1) c
      refine ⟨ws ++ ws', .error e, ?_, hnames ws' hn'⟩
      refine ((h.bind (ws' := ws') (r' := fun j => c.setKey l j >>= fun _ => (.error e : Res Json))
        (f := fun p => c.setKey l p.2 >>= fun c => ClusWisard.clustersJson it huge path random cs (i + 1) p.1 c)
        (g := fun k p => c.setKey l p.2 >>= fun c => ClusWisard.clustersJsonOn k it huge path random cs (i + 1) p.1 c)
        (fun a ha => ?_)).congr (fun fs => rfl) (fun k fs => rfl) rfl ?_)
      · rw [ha, Except.bind_ok] at hr
        simp only [hr]
        exact .error e ws'
      · cases r with
        | error e' => exact hr.symm
        | ok a => rw [Except.bind_ok] at hr ⊢; rw [hr]; rfl
    | ok c' =>
      obtain ⟨ws', r', h', hn'⟩ := ih (i + 1) c'
      refine ⟨ws ++ ws', r', ?_, hnames ws' hn'⟩
      refine ((h.bind (ws' := ws') (r' := fun _ => r')
        (f := fun p => c.setKey l p.2 >>= fun c => ClusWisard.clustersJson it huge path random cs (i + 1) p.1 c)
        (g := fun k p => c.setKey l p.2 >>= fun c => ClusWisard.clustersJsonOn k it huge path random cs (i + 1) p.1 c)
        (fun a ha => ?_)).congr (fun fs => rfl) (fun k fs => rfl) rfl ?_)
      · rw [ha, Except.bind_ok] at hr
        simp only [hr]
        exact h'
      · cases r with
        | error e' => cases hr
        | ok a => rfl

theorem supervised_saves (it : IterOrder) (w : ClusWisard) (huge : Bool) (path : Str) (random : Nat → Nat → Str) :
    ∃ ws r, Saves (fun fs => w.jsonSupervised it fs huge path random) (fun k fs => w.jsonSupervisedOn k it fs huge path random) ws r ∧
      ws.map (·.1) = if huge then clusWisardFiles path random w.clusters 0 else [] := by
  unfold ClusWisard.jsonSupervised ClusWisard.jsonSupervisedOn
  by_cases hl : w.clusters.length > 0
  · simp only [if_pos hl]
    obtain ⟨ws, r, h, hn⟩ := clusters_saves it huge path random w.clusters 0 .null
    refine ⟨ws, _, (h.step fun c => w.getConfig.setKey b!"clusters" c).congr (fun fs => ?_) (fun k fs => ?_) rfl rfl, hn⟩
    · rfl
    · rfl
  · simp only [if_neg hl]
    refine ⟨[], _, .pure (.ok w.getConfig), ?_⟩
    have : w.clusters = [] := List.length_eq_zero_iff.mp (by omega)
    rw [this]
    cases huge <;> rfl

theorem clusWisard_saves (it : IterOrder) (w : ClusWisard) (huge : Bool) (path : Str) (random : Nat → Nat → Str) :
    ∃ ws r, Saves (fun fs => w.json it fs huge path random) (fun k fs => w.jsonOn k it fs huge path random) ws r ∧
      ws.map (·.1) = if huge then clusWisardFiles path random w.clusters 0 ++
        clusterDataFiles (path ++ b!"unsupervised_cluster__") (random w.clusters.length) 0 w.unsupervisedCluster.getSize else [] := by
  obtain ⟨ws, r, h, hn⟩ := supervised_saves it w huge path random
  unfold ClusWisard.json ClusWisard.jsonOn
  by_cases hs : w.unsupervisedCluster.getSize > 0
  · simp only [if_pos hs]
    obtain ⟨ws', r', h', hn'⟩ := cluster_saves it w.unsupervisedCluster huge (path ++ b!"unsupervised_cluster__") (random w.clusters.length)
    refine ⟨ws ++ ws', _, (h.bind (ws' := ws') (r' := fun config => r' >>= fun j => config.setKey b!"unsupervisedCluster" j)
      (f := fun p => w.unsupervisedCluster.getJson it p.1 huge (path ++ b!"unsupervised_cluster__") (random w.clusters.length) >>=
        fun q => (p.2.setKey b!"unsupervisedCluster" q.2).map fun b => (q.1, b))
      (g := fun k p => w.unsupervisedCluster.getJsonOn k it p.1 huge (path ++ b!"unsupervised_cluster__") (random w.clusters.length) >>=
        fun q => (p.2.setKey b!"unsupervisedCluster" q.2).map fun b => (q.1, b))
      (fun a _ => h'.step fun j => a.setKey b!"unsupervisedCluster" j)).congr (fun fs => ?_) (fun k fs => ?_) rfl rfl, ?_⟩
    · rfl
    · rfl
    · rw [List.map_append, hn, hn']
      exact ite_append rfl
  · simp only [if_neg hs]
    refine ⟨ws, r, h.congr (fun fs => ?_) (fun k fs => ?_) rfl rfl, ?_⟩
    · cases w.jsonSupervised it fs huge path random <;> rfl
    · cases w.jsonSupervisedOn k it fs huge path random <;> rfl
    · rw [hn]
      have : w.unsupervisedCluster.getSize = 0 := by omega
      rw [this]
      cases huge <;> simp [clusterDataFiles]

theorem Spec.Saves.silent {α : Type} {plain : Fs → Res (Fs × α)} {on : Disk → Fs → Res (Fs × α)} {ws : List (Str × Str)} {r : Res α}
    (h : Saves plain on ws r) (k : Disk) (fs fs0 : Fs) : (on k fs).map (·.2) = (plain fs0).map (·.2) := by
  obtain ⟨fs', h1, _⟩ := h.stored k fs
  rw [h1, h.perfect]
  cases r <;> rfl

/-! ## C143: is a save that could not be written reported? -/

/-- C143, what holds: on a disk with room for the data files of the model (named as listed, none unless `huge`) saving is
the save without failures. -/
theorem C143_enough_room_partial (it : IterOrder) (huge : Bool) (path : Str) :
    (∀ (d : Discriminator) random, ∃ ws, (ws.map (·.1) = if huge then [path ++ random ++ b!".wdpkg"] else []) ∧
      ∀ k fs, HasRoom k ws → d.jsonOn k it fs huge path random = d.json it fs huge path random) ∧
    (∀ (w : Wisard) random, ∃ ws, (ws.map (·.1) = if huge then classFiles path random w.discriminators.keys 0 else []) ∧
      ∀ k fs, HasRoom k ws → w.jsonOn k it fs huge path random = w.json it fs huge path random) ∧
    (∀ (w : ClusWisard) random, ∃ ws, (ws.map (·.1) = if huge then clusWisardFiles path random w.clusters 0 ++
        clusterDataFiles (path ++ b!"unsupervised_cluster__") (random w.clusters.length) 0 w.unsupervisedCluster.getSize else []) ∧
      ∀ k fs, HasRoom k ws → w.jsonOn k it fs huge path random = w.json it fs huge path random) := by
  refine ⟨fun d random => ?_, fun w random => ?_, fun w random => ?_⟩
  · obtain ⟨ws, r, h, hn⟩ := discriminator_saves it d huge path random
    exact ⟨ws, hn, h.enough⟩
  · obtain ⟨ws, r, h, hn⟩ := wisard_saves it w huge path random
    exact ⟨ws, hn, h.enough⟩
  · obtain ⟨ws, r, h, hn⟩ := clusWisard_saves it w huge path random
    exact ⟨ws, hn, h.enough⟩

/-- C143 is false: whatever the disk does, `json` answers the same (document or exception) as without failures. -/
theorem C143_silent (k : Disk) (it : IterOrder) (fs fs0 : Fs) (huge : Bool) (path : Str) :
    (∀ (d : Discriminator) random, (d.jsonOn k it fs huge path random).map (·.2) = (d.json it fs0 huge path random).map (·.2)) ∧
    (∀ (w : Wisard) random, (w.jsonOn k it fs huge path random).map (·.2) = (w.json it fs0 huge path random).map (·.2)) ∧
    (∀ (w : ClusWisard) random, (w.jsonOn k it fs huge path random).map (·.2) = (w.json it fs0 huge path random).map (·.2)) := by
  refine ⟨fun d random => ?_, fun w random => ?_, fun w random => ?_⟩
  · obtain ⟨ws, r, h, _⟩ := discriminator_saves it d huge path random
    exact h.silent k fs fs0
  · obtain ⟨ws, r, h, _⟩ := wisard_saves it w huge path random
    exact h.silent k fs fs0
  · obtain ⟨ws, r, h, _⟩ := clusWisard_saves it w huge path random
    exact h.silent k fs fs0

/-- C143 is false for the data classes too: `save` leaves the object as without failures and never throws because of the
disk; the file holds what was there followed by nothing or a beginning of the text. -/
theorem C143_silent_data (k : Disk) (fs : Fs) (pre : Str) :
    (∀ (d d' : DataSet) fs', d.save fs pre = .ok (d', fs') → ∃ text,
      fs' = written [(pre ++ b!".wpkds", text)] fs ∧
      (HasRoom k [(pre ++ b!".wpkds", text)] → d.saveOn k fs pre = .ok (d', fs')) ∧
      ∃ fs'', d.saveOn k fs pre = .ok (d', fs'') ∧ Stored [(pre ++ b!".wpkds", text)] fs fs'') ∧
    (∀ (d : DataSet) e, d.save fs pre = .error e → d.saveOn k fs pre = .error e) ∧
    (∀ it fuel (h h' : RamData) fs', h.save it fuel fs pre = (h', some (.ok fs')) → ∃ text,
      fs' = written [(pre ++ b!".wdpkg", text)] fs ∧
      (HasRoom k [(pre ++ b!".wdpkg", text)] → h.saveOn k it fuel fs pre = (h', some (.ok fs'))) ∧
      ∃ fs'', h.saveOn k it fuel fs pre = (h', some (.ok fs'')) ∧ Stored [(pre ++ b!".wdpkg", text)] fs fs'') ∧
    (∀ it fuel (h h' : RamData) r, (∀ fs', r ≠ some (.ok fs')) → h.save it fuel fs pre = (h', r) →
      h.saveOn k it fuel fs pre = (h', r)) := by
  refine ⟨fun d d' fs' h => ?_, fun d e h => ?_, fun it fuel h h' fs' hs => ?_, fun it fuel h h' r hr hs => ?_⟩
  · unfold DataSet.save at h
    unfold DataSet.saveOn
    simp only at h ⊢
    obtain ⟨⟨ls, out⟩, h1, h2⟩ := bind_eq_ok h
    simp only [Except.ok.injEq, Prod.mk.injEq] at h2
    obtain ⟨rfl, rfl⟩ := h2
    have hw := Saves.write (pre ++ datasetSufix) out ({ d with labels := ls } : DataSet)
    refine ⟨out, rfl, fun hk => ?_, ?_⟩
    · have := hw.enough k fs hk
      simp only [Except.ok.injEq, Prod.mk.injEq, and_true] at this
      rw [h1, Except.bind_ok]
      simp only [this]
    · obtain ⟨fs'', h3, h4⟩ := hw.stored k fs
      simp only [Except.map, Except.ok.injEq, Prod.mk.injEq, and_true] at h3
      refine ⟨fs'', ?_, h4⟩
      rw [h1, Except.bind_ok]
      simp only [h3]
  · unfold DataSet.save at h
    unfold DataSet.saveOn
    simp only at h ⊢
    cases h1 : DataSet.saveLoop d.data 0 d.labels with
    | error e' => rw [h1] at h; exact h
    | ok p => obtain ⟨ls, out⟩ := p; rw [h1] at h; cases h
  · unfold RamData.save at hs
    unfold RamData.saveOn
    simp only at hs ⊢
    revert hs
    rcases RamData.dataLoop it fuel h 0 [] with ⟨h2, _ | (e | out)⟩ <;> intro hs
    · cases hs
    · cases hs
    · simp only [Prod.mk.injEq, Option.some.injEq, Except.ok.injEq] at hs
      obtain ⟨rfl, rfl⟩ := hs
      have hw := Saves.write (pre ++ ramdataSufix) out ()
      refine ⟨out, rfl, fun hk => ?_, ?_⟩
      · have := hw.enough k fs hk
        simp only [Except.ok.injEq, Prod.mk.injEq, and_true] at this
        simp only [this]
      · obtain ⟨fs'', h3, h4⟩ := hw.stored k fs
        simp only [Except.map, Except.ok.injEq, Prod.mk.injEq, and_true] at h3
        exact ⟨fs'', by simp only [h3], h4⟩
  · unfold RamData.save at hs
    unfold RamData.saveOn
    simp only at hs ⊢
    revert hs
    rcases RamData.dataLoop it fuel h 0 [] with ⟨h2, _ | (e | out)⟩ <;> intro hs
    · exact hs
    · exact hs
    · simp only [Prod.mk.injEq] at hs
      exact absurd hs.2.symm (hr _)

/-- C143 is false, with consequences: if the directory cannot be written, saving any discriminator with a data file
answers the usual document; loading it gives, without any error, a discriminator without RAMs that claims the same number
of trainings and has no votes for any image. -/
theorem C143_everything_lost {rnd : Rnd} {A n : Int} {o : Options} {d0 : Discriminator}
    (hc : Discriminator.create rnd A n o = .ok d0) (hr : IntRange n o.base d0.mapping) (ops : List Op)
    (k : Disk) (it : IterOrder) (fs : Fs) (path random : Str) (hf : fs (path ++ random ++ b!".wdpkg") = none)
    (hk : k.room fs (path ++ random ++ b!".wdpkg") = none) :
    let d := (play d0 ops).1
    ∃ j, d.jsonOn k it fs true path random = .ok (fs, j) ∧
      ∃ d', Discriminator.ofJson fs j = .ok d' ∧ d'.getNumberOfRAMS = 0 ∧ 0 < d.getNumberOfRAMS ∧
        d'.getNumberOfTrainings = d.getNumberOfTrainings ∧
        ∀ img w, d.classify img = .ok w → d'.classify img = .ok [] := by
  intro d
  obtain ⟨fs', j, h1, h2⟩ := C104_missing_model_file hc hr ops it fs path random
  refine ⟨j, ?_, h2 fs hf⟩
  have h1 : d.json it fs true path random = .ok (fs', j) := h1
  have h3 := (C143_silent k it fs fs true path).1 d random
  rw [h1] at h3
  cases h4 : d.jsonOn k it fs true path random with
  | error e => rw [h4] at h3; cases h3
  | ok p =>
    obtain ⟨fs2, j2⟩ := p
    rw [h4] at h3
    have h3 : Except.ok j2 = (Except.ok j : Res Json) := h3
    cases h3
    have : fs2 = fs := by
      unfold Discriminator.jsonOn Discriminator.getRAMsDataOn at h4
      simp only [if_true] at h4
      obtain ⟨⟨a, b⟩, h5, h6⟩ := bind_eq_ok h4
      obtain ⟨t, _, h8⟩ := bind_eq_ok h5
      obtain ⟨_, _, h9⟩ := bind_eq_ok h6
      obtain ⟨_, _, h10⟩ := bind_eq_ok h9
      cases h10
      have hk : k.room fs (path ++ random ++ ramdataSufix) = none := hk
      simp only [Disk.append, hk, Except.ok.injEq, Prod.mk.injEq] at h8
      exact h8.1.symm
    rw [this]

/-- A disk that refuses every file. -/
def fullDisk : Disk := ⟨fun _ _ => none⟩
/-- A disk with room for 10 bytes per file. -/
def smallDisk : Disk := ⟨fun _ _ => some 10⟩

/-- The hypotheses of `C143_everything_lost` are met by a trained discriminator that knows its image. -/
example : ∃ d0, Discriminator.create Rnd.id 2 4 {} = .ok d0 ∧ IntRange 4 2 d0.mapping ∧
    (play d0 [.train (.vec [1, 0, 1, 1])]).1.classify (.vec [1, 0, 1, 1]) = .ok [1, 1] ∧
    fullDisk.room (fun _ => none) (b!"m" ++ b!"abc" ++ b!".wdpkg") = none :=
  ⟨_, rfl, ⟨by decide, by decide, by decide⟩, by decide +kernel, rfl⟩

/-! ## C144: what an interrupted save leaves behind -/

theorem crashed_stored (ws : List (Str × Str)) : ∀ (i n : Nat) (fs : Fs), Stored ws fs (crashed ws i n fs) := by
  have full : ∀ (ws : List (Str × Str)) (fs : Fs), Stored ws fs (written ws fs) := by
    intro ws
    induction ws with
    | nil => exact fun fs => .done fs
    | cons e ws ih =>
      intro fs
      refine .part e.1 e.2 e.2.length ?_
      rw [List.take_length]
      exact ih _
  have none : ∀ (ws : List (Str × Str)) (fs : Fs), Stored ws fs fs := by
    intro ws
    induction ws with
    | nil => exact fun fs => .done fs
    | cons e ws ih => exact fun fs => .lost e.1 e.2 (ih fs)
  induction ws with
  | nil => intro i n fs; exact .done fs
  | cons e ws ih =>
    intro i n fs
    cases i with
    | zero => exact .part e.1 e.2 n (none ws _)
    | succ i =>
      refine .part e.1 e.2 e.2.length ?_
      rw [List.take_length]
      have : crashed (e :: ws) (i + 1) n fs = crashed ws i n (fs.append e.1 e.2) := by
        unfold crashed written
        simp only [List.getElem?_cons_succ, List.take_succ_cons, List.foldl_cons]
      rw [this]
      exact ih i n _

theorem stored_appends {ws : List (Str × Str)} {names : List Str} (hn : ws.map (·.1) = names) {fs fs' : Fs} (h : Stored ws fs fs') :
    OnlyAppends names fs fs' :=
  ⟨fun name hm => h.other name fun e he hc => hm (by rw [← hn, ← hc]; exact List.mem_map.mpr ⟨e, he, rfl⟩), h.keeps⟩

/-- C144 for a discriminator: `json(true, path)` makes one write; on any disk, and wherever the process stops, the files
are changed only by appending to the file of that name, and what other documents describe is loaded as before. -/
theorem C144_discriminator (it : IterOrder) (d : Discriminator) (path random : Str) :
    ∃ ws r, Saves (fun fs => d.json it fs true path random) (fun k fs => d.jsonOn k it fs true path random) ws r ∧
      (∀ i n fs, Stored ws fs (crashed ws i n fs)) ∧
      ∀ fs fs', Stored ws fs fs' → OnlyAppends [path ++ random ++ b!".wdpkg"] fs fs' ∧
        ∀ doc, valueOf (membersOf doc) b!"data" ≠ .str (path ++ random ++ b!".wdpkg") →
          Discriminator.ofJson fs' doc = Discriminator.ofJson fs doc := by
  obtain ⟨ws, r, h, hn⟩ := discriminator_saves it d true path random
  rw [if_pos rfl] at hn
  refine ⟨ws, r, h, crashed_stored ws, fun fs fs' hs => ?_⟩
  have ha := stored_appends hn hs
  refine ⟨ha, fun doc hdoc => C123_discriminator fs' fs doc fun data hd _ => ha.others data ?_⟩
  intro hm
  rw [List.mem_singleton] at hm
  exact hdoc (by rw [hd, hm])

/-- C144 for a Wisard: one write per class; on any disk, and wherever the process stops, the files are changed only by
appending to the files of these names, and a document that names none of them is loaded as before. -/
theorem C144_wisard (it : IterOrder) (w : Wisard) (path : Str) (random : Nat → Str) :
    ∃ ws r, Saves (fun fs => w.json it fs true path random) (fun k fs => w.jsonOn k it fs true path random) ws r ∧
      (∀ i n fs, Stored ws fs (crashed ws i n fs)) ∧
      ∀ fs fs', Stored ws fs fs' → OnlyAppends (classFiles path random w.discriminators.keys 0) fs fs' ∧
        ∀ doc, (∀ e ∈ membersOf (valueOf doc b!"classes"), ∀ name ∈ classFiles path random w.discriminators.keys 0,
            valueOf (membersOf e.2) b!"data" ≠ .str name) →
          Wisard.ofJson fs' (.obj doc) = Wisard.ofJson fs (.obj doc) := by
  obtain ⟨ws, r, h, hn⟩ := wisard_saves it w true path random
  rw [if_pos rfl] at hn
  refine ⟨ws, r, h, crashed_stored ws, fun fs fs' hs => ?_⟩
  have ha := stored_appends hn hs
  refine ⟨ha, fun doc hdoc => C123_wisard fs' fs doc fun e he data hd _ => ha.others data fun hm => hdoc e he data hm hd⟩

/-- C144 for a ClusWisard: one write per discriminator. -/
theorem C144_clusWisard (it : IterOrder) (w : ClusWisard) (path : Str) (random : Nat → Nat → Str) :
    let names := clusWisardFiles path random w.clusters 0 ++
      clusterDataFiles (path ++ b!"unsupervised_cluster__") (random w.clusters.length) 0 w.unsupervisedCluster.getSize
    ∃ ws r, Saves (fun fs => w.json it fs true path random) (fun k fs => w.jsonOn k it fs true path random) ws r ∧
      (∀ i n fs, Stored ws fs (crashed ws i n fs)) ∧
      ∀ fs fs', Stored ws fs fs' → OnlyAppends names fs fs' ∧
        ∀ doc, (∀ c ∈ valueOf doc b!"unsupervisedCluster" :: (membersOf (valueOf doc b!"clusters")).map (·.2),
            ∀ x ∈ elementsOf (valueOf (membersOf c) b!"discriminators"), ∀ name ∈ names,
            valueOf (membersOf x) b!"data" ≠ .str name) →
          ClusWisard.ofJson fs' (.obj doc) = ClusWisard.ofJson fs (.obj doc) := by
  intro names
  obtain ⟨ws, r, h, hn⟩ := clusWisard_saves it w true path random
  rw [if_pos rfl] at hn
  refine ⟨ws, r, h, crashed_stored ws, fun fs fs' hs => ?_⟩
  have ha := stored_appends hn hs
  refine ⟨ha, fun doc hdoc => C123_clusWisard fs' fs doc (fun e he x hx data hd _ => ha.others data fun hm => ?_)
    (fun x hx data hd _ => ha.others data fun hm => ?_)⟩
  · exact hdoc e.2 (List.mem_cons_of_mem _ (List.mem_map.mpr ⟨e, he, rfl⟩)) x hx data hm hd
  · exact hdoc _ List.mem_cons_self x hx data hm hd

/-- A Wisard of two classes, a crash in the middle of the second file: the file of the first class is complete, that of
the second is cut; the document of an earlier save (`twoFiles`, Props/NamedFiles.lean) is not affected. -/
example : ((Wisard.ofJson twoFilesFs (.obj twoFiles)).map fun w => classFiles b!"p" (fun i => natStr i) w.discriminators.keys 0) =
      .ok [b!"pa__0.wdpkg", b!"pb__1.wdpkg"] ∧
    (∀ e ∈ membersOf (valueOf twoFiles b!"classes"), ∀ name ∈ [b!"pa__0.wdpkg", b!"pb__1.wdpkg"],
      valueOf (membersOf e.2) b!"data" ≠ .str name) := by
  refine ⟨by decide +kernel, ?_⟩
  intro e he name hm
  have he : e ∈ [(b!"a", _), (b!"b", _)] := he
  simp only [List.mem_cons, List.not_mem_nil, or_false] at he hm
  rcases he with rfl | rfl <;> rcases hm with rfl | rfl <;>
    exact fun h => absurd (Json.str.inj h) (by decide)

/-- On a disk with room for 10 bytes per file the two files are cut, and the reply is the same as with room. -/
example : ((Wisard.ofJson twoFilesFs (.obj twoFiles) >>= fun w => w.jsonOn smallDisk IterOrder.id (fun _ => none) true b!"p" natStr).map
      fun r => (r.1 b!"pa__0.wdpkg", r.1 b!"pb__1.wdpkg")) = .ok (some b!"AwAAAAAAAA", some b!"AQAAAAAAAA") := by
  decide +kernel

end Wis
