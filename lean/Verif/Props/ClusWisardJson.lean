import Verif.Lemmas.ClusSave
/-!
# C36, C79: saving and loading a ClusWisard

As in Props/Json, `json()` yields the value that the text denotes; hash-table iteration order, file systems and
random file names are arbitrary.
-/

namespace Wis
open Spec

/-- The file of discriminator `j` of class `l`, or of the unsupervised cluster (`none`), with random string `r`. -/
def Spec.fileName (path : Str) (l : Option Str) (j : Nat) (r : Str) : Str :=
  path ++ l.getD b!"unsupervised_cluster" ++ b!"__" ++ natStr j ++ b!"__" ++ r ++ b!".wdpkg"

/-- The names that `json(true, path)` uses. -/
def Spec.OwnFile (path : Str) (random : Nat → Nat → Str) (w : ClusWisard) (name : Str) : Prop :=
  (∃ (i : Nat) (l : Str) (c : Cluster) (j : Nat), w.clusters[i]? = some (l, c) ∧ j < c.getSize ∧ name = fileName path (some l) j (random i j)) ∨
    ∃ j : Nat, j < w.unsupervisedCluster.getSize ∧ name = fileName path none j (random w.clusters.length j)

/-- C36, general form: a ClusWisard that was created with any options and used in any way (failed calls included), all
of whose clusters can be saved (and without unsupervised training unless `base` is 2), is rebuilt by
`ClusWisard(w.json())`: the result is indistinguishable from it under any further training and any queries. -/
theorem C36_json_roundtrip_partial (f : Flt) {A : Int} {ms : Rat} {t dl : Int} {o : ClusOpts} {w0 : ClusWisard}
    (h0 : ClusWisard.create A ms t dl o = .ok w0) (hr : CRange A t dl o) (ops : List COp)
    (hc : ∀ l c, (cplay f w0 ops).1.clusters.find l = some c → SavableC c)
    (hu : (cplay f w0 ops).1.unsupervisedCluster = Cluster.default ∨
      (o.base = 2 ∧ 0 < (cplay f w0 ops).1.unsupervisedCluster.getSize ∧ SavableC (cplay f w0 ops).1.unsupervisedCluster))
    (it : IterOrder) (fs fs' : Fs) :
    let w := (cplay f w0 ops).1
    ∃ j w', w.json it fs false [] (fun _ _ => []) = .ok (fs, j) ∧ ClusWisard.ofJson fs' j = .ok w' ∧
      CIndistinguishable f w w' := by
  intro w
  have hs : WSav w := winv_sav h0 (WInv.play h0 ops) hr hc hu
  obtain ⟨j, h1, h2⟩ := clusWisard_roundtrip it false [] (fun _ _ => []) hs fs
  exact ⟨j, _, h1, h2 fs' (by simp), (reload_cwsim it hs).indistinguishable f⟩

/-- A history of successful training calls leaves clusters that can be saved. -/
theorem successful_savable {f : Flt} {A : Int} {ms : Rat} {t dl : Int} {o : ClusOpts} {w0 : ClusWisard}
    (h0 : ClusWisard.create A ms t dl o = .ok w0) {ops : List COp} (ht : ∀ op ∈ ops, op.trains = true)
    (hok : AllSucceed f w0 ops) (hlen : ∀ op ∈ ops, ∀ img ∈ op.images, (img.length : Int) ≤ 2147483647)
    (hb : o.base = 2 ∨ ∀ op ∈ ops, op.isUnsup = false)
    (hsz : ∀ d, ((∃ l, some d ∈ discs (cplay f w0 ops).1 l) ∨ some d ∈ (cplay f w0 ops).1.unsupervisedCluster.discriminators) →
      (d.getNumberOfRAMS : Int) * (16 * d.getNumberOfTrainings + 1) ≤ 2147483648) :
    (∀ l c, (cplay f w0 ops).1.clusters.find l = some c → SavableC c) ∧
    ((cplay f w0 ops).1.unsupervisedCluster = Cluster.default ∨
      (o.base = 2 ∧ 0 < (cplay f w0 ops).1.unsupervisedCluster.getSize ∧ SavableC (cplay f w0 ops).1.unsupervisedCluster)) := by
  have hg : AllGood (cplay f w0 ops).1 := by
    refine (AllGood.closed f).play ops w0 (fun op ho => ⟨ht op ho, hlen op ho⟩) ?_ hok
    obtain ⟨rfl, _, _, _, hl⟩ := create_shape h0
    exact ⟨hl, by intro l c hc; simp [SMap.find] at hc, .inl rfl⟩
  refine ⟨?_, ?_⟩
  · intro l c hc
    refine ((hg.cl l c hc).savable fun d hd => hsz d (.inl ⟨l, ?_⟩)).2
    unfold discs
    rw [hc]
    exact hd
  · rcases hb with hb | hb
    · rcases hg.un with h | h
      · exact .inl h
      · obtain ⟨h1, h2⟩ := h.savable fun d hd => hsz d (.inr hd)
        exact .inr ⟨hb, h1, h2⟩
    · left
      rw [play_unsup_default ops w0 hb]
      obtain ⟨rfl, _⟩ := create_shape h0
      rfl

/-- C36 for the ordinary case: after any successful training calls of all three kinds (no unsupervised ones unless
`base` is 2), `ClusWisard(w.json())` exists and is indistinguishable from `w`. -/
theorem C36_successful_histories_partial (f : Flt) {A : Int} {ms : Rat} {t dl : Int} {o : ClusOpts} {w0 : ClusWisard}
    (h0 : ClusWisard.create A ms t dl o = .ok w0) (hr : CRange A t dl o) {ops : List COp} (ht : ∀ op ∈ ops, op.trains = true)
    (hok : AllSucceed f w0 ops) (hlen : ∀ op ∈ ops, ∀ img ∈ op.images, (img.length : Int) ≤ 2147483647)
    (hb : o.base = 2 ∨ ∀ op ∈ ops, op.isUnsup = false)
    (hsz : ∀ d, ((∃ l, some d ∈ discs (cplay f w0 ops).1 l) ∨ some d ∈ (cplay f w0 ops).1.unsupervisedCluster.discriminators) →
      (d.getNumberOfRAMS : Int) * (16 * d.getNumberOfTrainings + 1) ≤ 2147483648) (it : IterOrder) (fs fs' : Fs) :
    let w := (cplay f w0 ops).1
    ∃ j w', w.json it fs false [] (fun _ _ => []) = .ok (fs, j) ∧ ClusWisard.ofJson fs' j = .ok w' ∧
      CIndistinguishable f w w' := by
  obtain ⟨h1, h2⟩ := successful_savable h0 ht hok hlen hb hsz
  exact C36_json_roundtrip_partial f h0 hr ops h1 h2 it fs fs'

/-! ### Files -/

theorem natStr_noBar (n : Nat) : c!"_" ∉ natStr n := by
  unfold natStr
  intro h
  obtain ⟨c, hc, e⟩ := List.mem_map.mp h
  have := digit_byte n c hc
  have e := congrArg BitVec.toNat e
  rw [BitVec.toNat_ofNat, Nat.mod_eq_of_lt (by omega)] at e
  have : (c!"_" : Byte).toNat = 95 := by decide
  omega

theorem split_last {x : Byte} (a : Str) : ∀ (b s t : Str), x ∉ s → x ∉ t → a ++ [x] ++ s = b ++ [x] ++ t → a = b ∧ s = t := by
  induction a with
  | nil =>
    intro b s t hs ht h
    cases b with
    | nil => simpa using h
    | cons b0 b =>
      simp only [List.nil_append, List.cons_append, List.cons.injEq] at h
      exact absurd (by rw [h.2]; simp) hs
  | cons a0 a ih =>
    intro b s t hs ht h
    cases b with
    | nil =>
      simp only [List.nil_append, List.cons_append, List.cons.injEq] at h
      exact absurd (by rw [← h.2]; simp) ht
    | cons b0 b =>
      simp only [List.cons_append, List.cons.injEq] at h
      obtain ⟨h1, h2⟩ := ih b s t hs ht (by simpa using h.2)
      exact ⟨by rw [h.1, h1], h2⟩

theorem fileName_inj {path : Str} {a b : Option Str} {i j : Nat} {r r' : Str} (hr : r.length = r'.length)
    (h : fileName path a i r = fileName path b j r') : a.getD b!"unsupervised_cluster" = b.getD b!"unsupervised_cluster" ∧ i = j := by
  unfold fileName at h
  have h := (List.append_inj' h rfl).1
  have h := (List.append_inj' h hr).1
  have h := (List.append_inj' h rfl).1
  have e : (b!"__" : Str) = [c!"_"] ++ [c!"_"] := by decide
  rw [e, ← List.append_assoc, ← List.append_assoc] at h
  have h := split_last _ _ _ _ (natStr_noBar i) (natStr_noBar j) h
  refine ⟨?_, natStr_inj h.2⟩
  have h := (List.append_inj' h.1 rfl).1
  exact List.append_cancel_left h

theorem discFiles_names (it : IterOrder) (path : Str) (l : Option Str) (random : Nat → Str) (ds : List (Option Discriminator)) :
    ∀ (i : Nat), ∀ n ∈ (discFiles it (path ++ l.getD b!"unsupervised_cluster" ++ b!"__") random ds i).map (·.1),
      ∃ j, i ≤ j ∧ j < i + ds.length ∧ n = fileName path l j (random j) := by
  induction ds with
  | nil => intro i e he; simp [discFiles] at he
  | cons o ds ih =>
    intro i e he
    cases o with
    | none =>
      obtain ⟨j, h1, h2, h3⟩ := ih (i + 1) e he
      exact ⟨j, by omega, by simp only [List.length_cons]; omega, h3⟩
    | some d =>
      simp only [discFiles, List.map_cons, List.mem_cons] at he
      rcases he with rfl | he
      · exact ⟨i, by omega, by simp only [List.length_cons]; omega, rfl⟩
      · obtain ⟨j, h1, h2, h3⟩ := ih (i + 1) e he
        exact ⟨j, by omega, by simp only [List.length_cons]; omega, h3⟩

theorem discFiles_nodup (it : IterOrder) (path : Str) (l : Option Str) {random : Nat → Str} {n : Nat} (hr : ∀ j, (random j).length = n)
    (ds : List (Option Discriminator)) :
    ∀ (i : Nat), ((discFiles it (path ++ l.getD b!"unsupervised_cluster" ++ b!"__") random ds i).map (·.1)).Nodup := by
  induction ds with
  | nil => intro i; simp [discFiles]
  | cons o ds ih =>
    intro i
    cases o with
    | none => exact ih (i + 1)
    | some d =>
      simp only [discFiles, List.map_cons, List.nodup_cons]
      refine ⟨?_, ih (i + 1)⟩
      intro hm
      obtain ⟨j, h1, h2, h3⟩ := discFiles_names it path l random ds (i + 1) _ hm
      have := (fileName_inj (a := l) (b := l) (i := i) (j := j) (r := random i) (r' := random j) (by rw [hr, hr]) h3).2
      omega

theorem clusterFiles_names (it : IterOrder) (path : Str) (random : Nat → Nat → Str) (cs : SMap Cluster) :
    ∀ (i : Nat), ∀ n ∈ (clusterFiles it path random cs i).map (·.1),
      ∃ (k : Nat) (l : Str) (c : Cluster) (j : Nat), cs[k]? = some (l, c) ∧ j < c.getSize ∧ n = fileName path (some l) j (random (i + k) j) := by
  induction cs with
  | nil => intro i n hn; simp [clusterFiles] at hn
  | cons e cs ih =>
    obtain ⟨l, c⟩ := e
    intro i n hn
    simp only [clusterFiles, List.map_append, List.mem_append] at hn
    rcases hn with hn | hn
    · obtain ⟨j, h1, h2, h3⟩ := discFiles_names it path (some l) (random i) c.discriminators 0 n hn
      exact ⟨0, l, c, j, rfl, by unfold Cluster.getSize; omega, h3⟩
    · obtain ⟨k, l', c', j, h1, h2, h3⟩ := ih (i + 1) n hn
      exact ⟨k + 1, l', c', j, by simpa using h1, h2, by rw [h3, show i + 1 + k = i + (k + 1) by omega]⟩

theorem clusterFiles_nodup (it : IterOrder) (path : Str) {random : Nat → Nat → Str} {n : Nat} (hr : ∀ i j, (random i j).length = n)
    (cs : SMap Cluster) : SMap.Sorted cs → ∀ (i : Nat), ((clusterFiles it path random cs i).map (·.1)).Nodup := by
  induction cs with
  | nil => intro _ i; simp [clusterFiles]
  | cons e cs ih =>
    obtain ⟨l, c⟩ := e
    intro hs i
    obtain ⟨h1, h2⟩ := SMap.sorted_cons.mp hs
    simp only [clusterFiles, List.map_append]
    refine List.nodup_append'.mpr ⟨discFiles_nodup it path (some l) (hr i) c.discriminators 0, ih h2 (i + 1), ?_⟩
    intro x hx hy
    obtain ⟨j, _, _, h3⟩ := discFiles_names it path (some l) (random i) c.discriminators 0 x hx
    obtain ⟨k, l', c', j', h4, _, h5⟩ := clusterFiles_names it path random cs (i + 1) x hy
    rw [h3] at h5
    have := (fileName_inj (by rw [hr, hr]) h5).1
    exact Str.lt_ne (h1 _ (List.mem_of_getElem? h4)) this

theorem allFiles_names (it : IterOrder) (path : Str) (random : Nat → Nat → Str) (w : ClusWisard) :
    ∀ n ∈ (allFiles it path random w).map (·.1), OwnFile path random w n := by
  intro n hn
  unfold allFiles at hn
  rw [List.map_append, List.mem_append] at hn
  rcases hn with hn | hn
  · obtain ⟨k, l, c, j, h1, h2, h3⟩ := clusterFiles_names it path random w.clusters 0 n hn
    exact .inl ⟨k, l, c, j, h1, h2, by rw [h3, Nat.zero_add]⟩
  · have e : path ++ b!"unsupervised_cluster__" = path ++ (none : Option Str).getD b!"unsupervised_cluster" ++ b!"__" := by
      rw [List.append_assoc]; rfl
    rw [e] at hn
    obtain ⟨j, h1, h2, h3⟩ := discFiles_names it path none (random w.clusters.length) _ 0 n hn
    exact .inr ⟨j, by unfold Cluster.getSize; omega, h3⟩

theorem allFiles_nodup (it : IterOrder) (path : Str) {random : Nat → Nat → Str} {n : Nat} (hr : ∀ i j, (random i j).length = n)
    {w : ClusWisard} (hs : SMap.Sorted w.clusters) (hu : b!"unsupervised_cluster" ∉ w.clusters.keys ∨ w.unsupervisedCluster.getSize = 0) :
    ((allFiles it path random w).map (·.1)).Nodup := by
  unfold allFiles
  rw [List.map_append]
  have e : path ++ b!"unsupervised_cluster__" = path ++ (none : Option Str).getD b!"unsupervised_cluster" ++ b!"__" := by
    rw [List.append_assoc]; rfl
  rw [e]
  refine List.nodup_append'.mpr ⟨clusterFiles_nodup it path hr _ hs 0, discFiles_nodup it path none (hr _) _ 0, ?_⟩
  intro x hx hy
  obtain ⟨k, l, c, j, h1, h2, h3⟩ := clusterFiles_names it path random w.clusters 0 x hx
  obtain ⟨j', h4, h5, h6⟩ := discFiles_names it path none (random w.clusters.length) _ 0 x hy
  rcases hu with hu | hu
  · rw [h3] at h6
    have := (fileName_inj (by rw [hr, hr]) h6).1
    simp only [Option.getD_some, Option.getD_none] at this
    subst this
    exact hu (List.mem_map_of_mem (f := (·.1)) (List.mem_of_getElem? h1))
  · unfold Cluster.getSize at hu
    omega

/-- C36 with `huge=true`: the same through files, one for each discriminator. The files must not exist before, the
random strings have one length (10 in the code), and no class may be called `"unsupervised_cluster"` if there was
unsupervised training. Nothing else is written. -/
theorem C36_huge_roundtrip_partial (f : Flt) {A : Int} {ms : Rat} {t dl : Int} {o : ClusOpts} {w0 : ClusWisard}
    (h0 : ClusWisard.create A ms t dl o = .ok w0) (hr : CRange A t dl o) (ops : List COp)
    (hc : ∀ l c, (cplay f w0 ops).1.clusters.find l = some c → SavableC c)
    (hu : (cplay f w0 ops).1.unsupervisedCluster = Cluster.default ∨
      (o.base = 2 ∧ 0 < (cplay f w0 ops).1.unsupervisedCluster.getSize ∧ SavableC (cplay f w0 ops).1.unsupervisedCluster))
    (it : IterOrder) (fs : Fs) (path : Str) (random : Nat → Nat → Str) {n : Nat} (hn : ∀ i j, (random i j).length = n)
    (hname : b!"unsupervised_cluster" ∉ (cplay f w0 ops).1.clusters.keys ∨ (cplay f w0 ops).1.unsupervisedCluster.getSize = 0)
    (hf : ∀ name, OwnFile path random (cplay f w0 ops).1 name → fs name = none) :
    let w := (cplay f w0 ops).1
    ∃ fs' j, w.json it fs true path random = .ok (fs', j) ∧
      (∀ name, ¬ OwnFile path random w name → fs' name = fs name) ∧
      ∀ later : Fs, (∀ name, OwnFile path random w name → later name = fs' name) →
        ∃ w', ClusWisard.ofJson later j = .ok w' ∧ CIndistinguishable f w w' := by
  intro w
  have hw : WInv f w0 _ w := WInv.play h0 ops
  have hs : WSav w := winv_sav h0 hw hr hc hu
  obtain ⟨j, h1, h2⟩ := clusWisard_roundtrip it true path random hs fs
  rw [if_pos rfl] at h1
  have hmine := Fs.appendAll_mine (allFiles it path random w) fs (allFiles_nodup it path hn hw.sorted hname)
    (fun n hm => hf n (allFiles_names it path random w n hm))
  refine ⟨_, j, h1, ?_, ?_⟩
  · intro name hno
    exact Fs.appendAll_other _ _ _ (fun hm => hno (allFiles_names it path random w name hm))
  · intro later hl
    refine ⟨_, h2 later ?_, (reload_cwsim it hs).indistinguishable f⟩
    intro _ e he
    rw [hl e.1 (allFiles_names it path random w e.1 (List.mem_map_of_mem he))]
    exact hmine e he

/-! ### The hypotheses can be met -/

/-- Supervised, semi-supervised and unsupervised training, in this order (the last one must come before any class
exists, so it is first). -/
def exCOps : List COp :=
  [.unsup (fun _ => env0) [[1, 1, 1, 1], [0, 0, 0, 0]], op0,
    .semi (fun _ _ => env0) [[1, 0, 1, 0], [1, 1, 1, 0]] [(0, b!"b")]]

set_option maxRecDepth 20000 in
/-- A history that meets the hypotheses of `C36_successful_histories_partial`: two classes, three discriminators, and
two of the unsupervised cluster. -/
example : ClusWisard.create 2 (1/2) 10 3 {} = .ok cw0 ∧ CRange 2 10 3 {} ∧ (∀ op ∈ exCOps, op.trains = true) ∧
    AllSucceed Flt.exact cw0 exCOps ∧ (∀ op ∈ exCOps, ∀ img ∈ op.images, (img.length : Int) ≤ 2147483647) ∧
    ((cplay Flt.exact cw0 exCOps).1.clusters.map (fun e => (e.1, e.2.getSize)) = [(b!"a", 2), (b!"b", 1)]) ∧
    (cplay Flt.exact cw0 exCOps).1.unsupervisedCluster.getSize = 2 ∧
    ∀ e ∈ (cplay Flt.exact cw0 exCOps).1.clusters, ∀ o ∈ e.2.discriminators ++ (cplay Flt.exact cw0 exCOps).1.unsupervisedCluster.discriminators,
      ∀ d ∈ o, (d.getNumberOfRAMS : Int) * (16 * d.getNumberOfTrainings + 1) ≤ 2147483648 := by
  refine ⟨by decide +kernel, by unfold CRange; decide, by decide, ?_, by decide, by decide +kernel, by decide +kernel, ?_⟩
  · have : (cplay Flt.exact cw0 exCOps).2 = [.ok (), .ok (), .ok ()] := by decide +kernel
    unfold AllSucceed
    rw [this]
    simp
  · decide +kernel

/-! ### What goes wrong otherwise -/

/-- `base` 3: the images of the refutation. -/
def cw3 : ClusWisard := ⟨2, 1/2, 10, 3, { base := 3 }, [], Cluster.default⟩

/-- The model of the refutation: created with `base` 3, then trained without labels. -/
def cw3u : ClusWisard := (cplay Flt.exact cw3 [.unsup (fun _ => env0) [[1, 1, 1, 1], [0, 0, 0, 0]]]).1

/-- No iteration order is special: insertion order. -/
def it0 : IterOrder := IterOrder.id

set_option maxRecDepth 20000 in
/-- C36 fails for unsupervised training with another base: `trainUnsupervised` ignores the option `base`, loading does
not, so the loaded model classifies a trained image differently. -/
theorem C36_unsupervised_base_refuted :
    ClusWisard.create 2 (1/2) 10 3 { base := 3 } = .ok cw3 ∧
    (cstep Flt.exact cw3 (.unsup (fun _ => env0) [[1, 1, 1, 1], [0, 0, 0, 0]])).2 = .ok () ∧
    (cw3u.classifyUnsupervised [[1, 1, 1, 1]]) = .ok [b!"0"] ∧
    ∃ fs' j w', cw3u.json it0 (fun _ => none) false [] (fun _ _ => []) = .ok (fs', j) ∧
      ClusWisard.ofJson (fun _ => none) j = .ok w' ∧ w'.classifyUnsupervised [[1, 1, 1, 1]] = .ok [b!"1"] := by
  refine ⟨by decide +kernel, by decide +kernel, by decide +kernel, ?_⟩
  have h : (do
      let x ← cw3u.json it0 (fun _ => none) false [] (fun _ _ => [])
      let w' ← ClusWisard.ofJson (fun _ => none) x.2
      w'.classifyUnsupervised [[1, 1, 1, 1]]) = .ok [b!"1"] := by decide +kernel
  obtain ⟨⟨fs', j⟩, h1, h⟩ := bind_eq_ok h
  obtain ⟨w', h2, h⟩ := bind_eq_ok h
  exact ⟨fs', j, w', h1, h2, h⟩

theorem clustersJson_default (it : IterOrder) (huge : Bool) (path : Str) (random : Nat → Nat → Str) (cs : SMap Cluster) :
    ∀ (i : Nat) (fs : Fs) (c : Json), (∃ l, (l, Cluster.default) ∈ cs) → ∀ x, ClusWisard.clustersJson it huge path random cs i fs c ≠ .ok x := by
  induction cs with
  | nil => intro i fs c h; simp at h
  | cons e cs ih =>
    obtain ⟨k, cl⟩ := e
    intro i fs c ⟨l, hl⟩ x hx
    simp only [ClusWisard.clustersJson] at hx
    obtain ⟨y, h1, hx⟩ := bind_eq_ok hx
    obtain ⟨z, h2, hx⟩ := bind_eq_ok hx
    rcases List.mem_cons.mp hl with he | hl
    · cases he
      cases h1
    · exact ih _ _ _ ⟨l, hl⟩ _ hx

/-- C62, saving: after `getMentalImage` of an unknown label the model can never be saved with a defined result: `json`
reads the uninitialised `entrySize` of the inserted cluster (or fails before). -/
theorem C62_json_refuted (w : ClusWisard) (it it' : IterOrder) (l : Str) (hl : w.clusters.find l = none) (fs : Fs) (huge : Bool)
    (path : Str) (random : Nat → Nat → Str) : ∀ x, (w.getMentalImage it l).1.json it' fs huge path random ≠ .ok x := by
  intro x hx
  unfold ClusWisard.getMentalImage at hx
  rw [hl] at hx
  simp only at hx
  have hm : (l, Cluster.default) ∈ w.clusters.set l Cluster.default :=
    SMap.mem_of_find (SMap.find_set_self _ _ _)
  unfold ClusWisard.json at hx
  obtain ⟨y, h1, _⟩ := bind_eq_ok hx
  unfold ClusWisard.jsonSupervised at h1
  simp only at h1
  rw [if_pos (List.length_pos_of_mem hm)] at h1
  obtain ⟨z, h2, _⟩ := bind_eq_ok h1
  exact clustersJson_default it' huge path random _ 0 fs .null ⟨l, hm⟩ z h2

/-- A label for which it happens. -/
example : (cstep Flt.exact cw0 op0).2 = .ok () ∧ (cstep Flt.exact cw0 op0).1.clusters.find b!"c" = none :=
  ⟨by decide +kernel, by decide +kernel⟩

/-! ## C79 -/

/-- C79: `ClusWisard(w.jsonConfig())`, for a model with any history, is a new model with the parameters of `w`: it is
what the constructor makes (only `searchBestConfidence` is not kept) and is indistinguishable from a new `w`. -/
theorem C79_config_roundtrip (f : Flt) {A : Int} {ms : Rat} {t dl : Int} {o : ClusOpts} {w0 : ClusWisard}
    (h0 : ClusWisard.create A ms t dl o = .ok w0) (hr : CRange A t dl o) (ops : List COp) (fs : Fs) :
    ∃ w', ClusWisard.ofJson fs (cplay f w0 ops).1.jsonConfig = .ok w' ∧
      ClusWisard.create A ms t dl { o with searchBestConfidence := false } = .ok w' ∧ CIndistinguishable f w0 w' := by
  have hw : WInv f w0 _ (cplay f w0 ops).1 := WInv.play h0 ops
  have hs : WSav w0 := by
    refine winv_sav h0 (WInv.init (f := f) h0 []) hr ?_ ?_
    · obtain ⟨rfl, _⟩ := create_shape h0
      intro l c hc
      simp [SMap.find] at hc
    · left
      obtain ⟨rfl, _⟩ := create_shape h0
      rfl
  obtain ⟨h1, h2⟩ := create_shape h0
  obtain ⟨hA, ht, hdl, hb, hc⟩ := hr
  refine ⟨reloadW IterOrder.id w0, ?_, ?_, (reload_cwsim IterOrder.id hs).indistinguishable f⟩
  · rw [hw.const, h1]
    unfold ClusWisard.jsonConfig
    rw [cconfig_eq]
    obtain ⟨k1, k2, k3, k4, k5, k6, k7⟩ := ckeys A ms t dl o none none hb hc
    simp only [member] at k1 k2 k3 k4 k5 k6 k7
    unfold ClusWisard.ofJson
    simp only [k1, k2, k3, k4, k5, k6, k7, Except.bind_ok, Json.asInt_int hA, Json.asInt_int ht, Json.asInt_int hdl, Json.asReal,
      Option.getD_none, Json.isNull, if_true]
    rfl
  · rw [h1] at h0 ⊢
    unfold ClusWisard.create at h0 ⊢
    obtain ⟨u, h3, _⟩ := bind_eq_ok h0
    rw [h3]
    rfl

/-- A history for C79. -/
example : ClusWisard.create 2 (1/2) 10 3 {} = .ok cw0 ∧ CRange 2 10 3 {} ∧ (cplay Flt.exact cw0 exCOps).1 ≠ cw0 :=
  ⟨by decide +kernel, by unfold CRange; decide, by decide +kernel⟩

end Wis
