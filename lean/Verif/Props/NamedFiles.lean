import Verif.Props.LoadJson
import Verif.Props.Bleaching
/-!
# C123: loading a model reads only the files the document names
-/

namespace Wis
open Spec

/-- The file that the `data` member of a part names (if it names one) is the same in both file systems. -/
def Spec.SameFile (fs fs' : Fs) (j : Json) : Prop :=
  ∀ data, valueOf (membersOf j) b!"data" = .str data → b!".wdpkg" <:+ data → fs data = fs' data

theorem dotless_not_file {p : Str} (h : c!"." ∉ p) (b : Bool) (he : endsWith p ramdataSufix = .ok b) : b = false := by
  obtain ⟨_, h2⟩ := endsWith_iff.mp he
  cases b with
  | false => rfl
  | true =>
    obtain ⟨t, ht⟩ := h2.mp rfl
    exact absurd (by rw [← ht]; simp) h

theorem ofText_dotless (fs fs' : Fs) {p : Str} (h : c!"." ∉ p) : RamData.ofText fs p = RamData.ofText fs' p := by
  unfold RamData.ofText
  cases he : endsWith p ramdataSufix with
  | error e => rfl
  | ok b =>
    have := dotless_not_file h b he
    subst this
    rfl

theorem ramOfData_dotless (fs fs' : Fs) (rbase a : Json) {p : Str} (h : c!"." ∉ p) (hb : ∃ iz b, rbase = Json.ofList [(b!"ignoreZero", iz), (b!"base", b)]) :
    Discriminator.ramOfData fs rbase a p = Discriminator.ramOfData fs' rbase a p := by
  obtain ⟨iz, b, rfl⟩ := hb
  obtain ⟨k1, k2, ⟨z, k3, k3'⟩, ⟨y, k4, k4'⟩⟩ := ramDoc_keys a iz b p
  unfold Discriminator.ramOfData Ram.ofJson
  simp only [k1, k2, k3, k4, Except.bind_ok, Json.asStr, ofText_dotless fs fs' h]

theorem getline_dotless : ∀ s : Str, c!"." ∉ (getline s).1 := by
  intro s
  induction s with
  | nil => simp [getline]
  | cons b s ih =>
    rw [getline]
    split
    · simp
    · rename_i hb
      simp only [List.mem_cons, not_or]
      exact ⟨fun e => hb e.symm, ih⟩

theorem fileRams_files (fs fs' : Fs) {rbase : Json} (hb : ∃ iz b, rbase = Json.ofList [(b!"ignoreZero", iz), (b!"base", b)]) :
    ∀ (l : List Json) (rest : Option Str), Discriminator.fileRams fs rbase l rest = Discriminator.fileRams fs' rbase l rest := by
  intro l
  induction l with
  | nil => intro rest; rw [Discriminator.fileRams, Discriminator.fileRams]
  | cons a l ih =>
    intro rest
    cases rest with
    | none => rfl
    | some rest =>
      rw [Discriminator.fileRams, Discriminator.fileRams, ramOfData_dotless fs fs' rbase a (getline_dotless rest) hb, ih]

theorem findFrom_some_dotless {s : Str} {n : Nat} (h : Str.findFrom s c!"." 0 = some n) : c!"." ∉ s.take n := by
  unfold Str.findFrom at h
  rw [List.drop_zero] at h
  cases hf : s.findIdx? (· == c!".") with
  | none => rw [hf] at h; cases h
  | some k =>
    rw [hf] at h
    simp only [Option.some.injEq] at h
    have hk : k = n := by simpa using h
    subst hk
    intro hm
    obtain ⟨hlt, _, h3⟩ := List.findIdx?_eq_some_iff_getElem.mp hf
    obtain ⟨i, hi, e⟩ := List.mem_iff_getElem.mp hm
    rw [List.length_take] at hi
    have := h3 i (by omega)
    rw [List.getElem_take] at e
    rw [e] at this
    simp at this

theorem findFrom_none_dotless {s : Str} (h : Str.findFrom s c!"." 0 = none) : c!"." ∉ s := by
  unfold Str.findFrom at h
  rw [List.drop_zero] at h
  cases hf : s.findIdx? (· == c!".") with
  | some k => rw [hf] at h; cases h
  | none =>
    intro hm
    have := List.findIdx?_eq_none_iff.mp hf _ hm
    simp at this

theorem textRams_files (fs fs' : Fs) {rbase : Json} (hb : ∃ iz b, rbase = Json.ofList [(b!"ignoreZero", iz), (b!"base", b)])
    (data : Str) : ∀ (l : List Json) (rest : Str),
    Discriminator.textRams fs rbase data l rest = Discriminator.textRams fs' rbase data l rest := by
  intro l
  induction l with
  | nil => intro rest; rw [Discriminator.textRams, Discriminator.textRams]
  | cons a l ih =>
    intro rest
    rw [Discriminator.textRams, Discriminator.textRams]
    cases hf : Str.findFrom rest c!"." 0 with
    | none => simp only [ramOfData_dotless fs fs' rbase a (findFrom_none_dotless hf) hb, ih]
    | some n => simp only [ramOfData_dotless fs fs' rbase a (findFrom_some_dotless hf) hb, ih]

/-- C123: a discriminator is loaded from its document and the file named by `data`, and from no other file. -/
theorem C123_discriminator (fs fs' : Fs) (j : Json) (h : SameFile fs fs' j) :
    Discriminator.ofJson fs j = Discriminator.ofJson fs' j := by
  cases j with
  | obj m =>
    unfold Discriminator.ofJson
    simp only [key_obj, Except.bind_ok]
    cases (valueOf m b!"entrySize").asInt with
    | error e => simp only [Except.bind_error]
    | ok es =>
      cases (valueOf m b!"count").asInt with
      | error e => simp only [Except.bind_error]
      | ok ct =>
        cases hd : (valueOf m b!"data").asStr with
        | error e => simp only [Except.bind_error]
        | ok data =>
          have hv : valueOf m b!"data" = .str data := by
            revert hd
            cases valueOf m b!"data" <;> intro hd <;> cases hd
            rfl
          have : Discriminator.setRAMsData fs (valueOf m b!"mapping") (Json.ofList [(b!"ignoreZero", valueOf m b!"ignoreZero"),
              (b!"base", valueOf m b!"base")]) data = Discriminator.setRAMsData fs' (valueOf m b!"mapping")
              (Json.ofList [(b!"ignoreZero", valueOf m b!"ignoreZero"), (b!"base", valueOf m b!"base")]) data := by
            unfold Discriminator.setRAMsData
            cases he : endsWith data ramdataSufix with
            | error e => simp only [Except.bind_error]
            | ok b =>
              simp only [Except.bind_ok]
              rw [textRams_files fs fs' ⟨_, _, rfl⟩]
              cases b with
              | false => rfl
              | true =>
                rw [if_pos rfl, if_pos rfl, h data hv ((endsWith_iff.mp he).2.mp rfl)]
                cases fs' data with
                | none => rfl
                | some c => exact fileRams_files fs fs' ⟨_, _, rfl⟩ _ _
          simp only [Except.bind_ok, this]
  | _ => exact (C114_not_an_object fs (by intro m; simp)).1.trans (C114_not_an_object fs' (by intro m; simp)).1.symm

theorem class_files (fs fs' : Fs) {j : Json} (iz : Bool) (b : Int) (h : SameFile fs fs' j) :
    Discriminator.ofJson fs (j.mergePatch (Json.ofList [(b!"ignoreZero", .bool iz), (b!"base", .int b)])) =
      Discriminator.ofJson fs' (j.mergePatch (Json.ofList [(b!"ignoreZero", .bool iz), (b!"base", .int b)])) := by
  obtain ⟨mm, e1, e2⟩ := dConfig_merge j iz b
  rw [e1]
  apply C123_discriminator
  intro data hd
  refine h data ?_
  rw [← hd]
  show _ = valueOf mm b!"data"
  rw [e2]
  rfl

theorem classes_files (fs fs' : Fs) (iz : Bool) (b : Int) : ∀ (items : List (Str × Json)) (acc : SMap Discriminator),
    (∀ e ∈ items, SameFile fs fs' e.2) →
    Wisard.classesOfJson fs (Json.ofList [(b!"ignoreZero", .bool iz), (b!"base", .int b)]) items acc =
      Wisard.classesOfJson fs' (Json.ofList [(b!"ignoreZero", .bool iz), (b!"base", .int b)]) items acc := by
  intro items
  induction items with
  | nil => intro acc _; rfl
  | cons e items ih =>
    intro acc h
    obtain ⟨k, j⟩ := e
    rw [Wisard.classesOfJson, Wisard.classesOfJson, class_files fs fs' iz b (h (k, j) (by simp))]
    cases Discriminator.ofJson fs' (j.mergePatch (Json.ofList [(b!"ignoreZero", .bool iz), (b!"base", .int b)])) with
    | error e => simp only [Except.bind_error]
    | ok d => simp only [Except.bind_ok]; exact ih _ (fun e he => h e (by simp [he]))

/-- C123: a Wisard is loaded from its document and the files named by its classes. -/
theorem C123_wisard (fs fs' : Fs) (m : List (Str × Json)) (h : ∀ e ∈ membersOf (valueOf m b!"classes"), SameFile fs fs' e.2) :
    Wisard.ofJson fs (.obj m) = Wisard.ofJson fs' (.obj m) := by
  unfold Wisard.ofJson
  simp only [key_obj, Except.bind_ok]
  cases Wisard.optsOfJson (.obj m) with
  | error e => simp only [Except.bind_error]
  | ok o =>
    cases (valueOf m b!"addressSize").asInt with
    | error e => simp only [Except.bind_error]
    | ok A =>
      simp only [Except.bind_ok]
      cases hv : valueOf m b!"classes" with
      | obj l =>
        rw [hv] at h
        simp only [Json.items, Except.bind_ok, classes_files fs fs' o.ignoreZero o.base l [] h]
      | arr l => cases l <;> simp only [Json.items, Except.bind_ok, Except.bind_error, Wisard.classesOfJson]
      | _ => simp only [Json.items, Except.bind_ok, Except.bind_error, Wisard.classesOfJson]

/-- C123: the classes whose files are the same are loaded the same, whatever the files of the other classes are. -/
theorem C123_damage_is_local (fs fs' : Fs) (m : List (Str × Json)) (hs : SMap.Sorted (membersOf (valueOf m b!"classes")))
    {w w' : Wisard} (h : Wisard.ofJson fs (.obj m) = .ok w) (h' : Wisard.ofJson fs' (.obj m) = .ok w') :
    w'.addressSize = w.addressSize ∧ w'.opts = w.opts ∧ w'.discriminators.keys = w.discriminators.keys ∧
      ∀ l, (∀ e ∈ membersOf (valueOf m b!"classes"), e.1 = l → SameFile fs fs' e.2) →
        w'.discriminators.find l = w.discriminators.find l := by
  unfold Wisard.ofJson at h h'
  simp only [key_obj, Except.bind_ok] at h h'
  obtain ⟨o, h1, h⟩ := bind_eq_ok h
  obtain ⟨o', h1', h'⟩ := bind_eq_ok h'
  rw [h1] at h1'
  cases h1'
  obtain ⟨A, h2, h⟩ := bind_eq_ok h
  obtain ⟨A', h2', h'⟩ := bind_eq_ok h'
  rw [h2] at h2'
  cases h2'
  obtain ⟨items, h3, h⟩ := bind_eq_ok h
  obtain ⟨items', h3', h'⟩ := bind_eq_ok h'
  rw [h3] at h3'
  cases h3'
  have hi := items_iff.mp h3
  obtain ⟨ds, h4, h⟩ := bind_eq_ok h
  obtain ⟨ds', h4', h'⟩ := bind_eq_ok h'
  cases h
  cases h'
  have hsame : ∀ x ∈ items, x ∈ membersOf (valueOf m b!"classes") := by
    generalize valueOf m b!"classes" = v at hi
    cases hi with
    | obj _ => exact fun x hx => hx
    | _ => simp
  have hso : SMap.Sorted items := by
    generalize valueOf m b!"classes" = v at hi hs
    cases hi with
    | obj _ => exact hs
    | _ => exact SMap.sorted_nil
  obtain ⟨_, e, h5⟩ := (classesOfJson_iff hso SMap.sorted_nil (by simp)).mp h4
  obtain ⟨_, e', h5'⟩ := (classesOfJson_iff hso SMap.sorted_nil (by simp)).mp h4'
  rw [List.nil_append] at e e'
  subst e e'
  refine ⟨rfl, rfl, ?_, ?_⟩
  · clear * - h5 h5'
    show ds'.map (·.1) = ds.map (·.1)
    induction h5 generalizing ds' with
    | nil => cases h5'; rfl
    | cons hx _ ih =>
      cases h5' with
      | cons hy hr => simp only [List.map_cons, ih _ hr, hx.1, hy.1]
  · intro l hl
    have hl' : ∀ e ∈ items, e.1 = l → SameFile fs fs' e.2 := fun e he => hl e (hsame e he)
    show SMap.find ds' l = SMap.find ds l
    clear * - h5 h5' hl'
    induction h5 generalizing ds' with
    | nil => cases h5'; rfl
    | @cons x c items ds hx _ ih =>
      cases h5' with
      | @cons _ c' _ ds' hy hr =>
        have ih := ih _ hr (fun e he => hl' e (by simp [he]))
        obtain ⟨k, d⟩ := c
        obtain ⟨k', d'⟩ := c'
        obtain ⟨hx1, hx2⟩ := hx
        obtain ⟨hy1, hy2⟩ := hy
        simp only at hx1 hx2 hy1 hy2
        subst hx1
        subst hy1
        by_cases hk : x.1 = l
        · have hd := (C114_discriminator fs _ d).mpr hx2
          have hd' := (C114_discriminator fs' _ d').mpr hy2
          rw [C123_discriminator fs fs' _ (fun data hdat => hl' x (by simp) hk data (by
            rw [← hdat]; rfl)), hd'] at hd
          cases hd
          rw [SMap.find, SMap.find, if_pos hk, if_pos hk]
        · rw [SMap.find, SMap.find, if_neg hk, if_neg hk]
          exact ih

/-- C123: a file of a class is lost, those of the other classes are intact: loading goes on as if nothing had happened, the
class has no RAMs any more, the other classes are as before. -/
theorem C123_file_lost (fs later : Fs) (m : List (Str × Json)) (hs : SMap.Sorted (membersOf (valueOf m b!"classes")))
    {w : Wisard} (h : Wisard.ofJson fs (.obj m) = .ok w) {l data : Str} {d : Discriminator} (hd : w.discriminators.find l = some d)
    (hlost : ∀ e ∈ membersOf (valueOf m b!"classes"), e.1 = l → valueOf (membersOf e.2) b!"data" = .str data)
    (hsuf : b!".wdpkg" <:+ data) (hgone : later data = none)
    (hrest : ∀ e ∈ membersOf (valueOf m b!"classes"), e.1 ≠ l → SameFile fs later e.2) :
    ∃ w', Wisard.ofJson later (.obj m) = .ok w' ∧ w'.discriminators.find l = some { d with rams := [] } ∧
      SMap.Sorted w'.discriminators ∧ w'.discriminators.keys = w.discriminators.keys ∧
      ∀ l', l' ≠ l → w'.discriminators.find l' = w.discriminators.find l' := by
  have hcl : ∀ items, valueOf m b!"classes" = .obj items → SMap.Sorted items := by
    intro items e
    rw [e] at hs
    exact hs
  obtain ⟨h1, h2, items, h3, h4⟩ := (C114_wisard fs m w hcl).mp h
  have hsame : ∀ x ∈ items, x ∈ membersOf (valueOf m b!"classes") := by
    generalize valueOf m b!"classes" = v at h3
    cases h3 with
    | obj _ => exact fun x hx => hx
    | _ => simp
  have key : ∀ (items : List (Str × Json)) (ds : SMap Discriminator), (∀ x ∈ items, x ∈ membersOf (valueOf m b!"classes")) →
      List.Forall₂ (fun (e : Str × Json) (c : Str × Discriminator) => c.1 = e.1 ∧
        DiscReads fs (override (override (membersOf e.2) b!"ignoreZero" (.bool w.opts.ignoreZero)) b!"base" (.int w.opts.base)) c.2)
        items ds →
      List.Forall₂ (fun (e : Str × Json) (c : Str × Discriminator) => c.1 = e.1 ∧
        DiscReads later (override (override (membersOf e.2) b!"ignoreZero" (.bool w.opts.ignoreZero)) b!"base" (.int w.opts.base)) c.2)
        items (ds.map (fun c => (c.1, if c.1 = l then { c.2 with rams := [] } else c.2))) := by
    intro items ds hm hf
    induction hf with
    | nil => exact .nil
    | @cons e c items ds hx _ ih =>
      refine .cons ⟨hx.1, ?_⟩ (ih (fun x hx => hm x (by simp [hx])))
      have he := hm e (by simp)
      by_cases hk : c.1 = l
      · simp only [if_pos hk]
        obtain ⟨g1, g2, data', g3, g4, _⟩ := hx.2
        have g5 := hlost e he (hx.1 ▸ hk)
        have g3' : valueOf (membersOf e.2) b!"data" = .str data' := g3
        rw [g5] at g3'
        cases g3'
        exact ⟨g1, g2, data, g3, g4, Or.inl ⟨hsuf, Or.inl ⟨hgone, rfl⟩⟩⟩
      · simp only [if_neg hk]
        have := (C114_discriminator fs _ c.2).mpr hx.2
        rw [C123_discriminator fs later _ (fun dat hdat => hrest e he (fun e' => hk (hx.1.trans e')) dat (by rw [← hdat]; rfl))]
          at this
        exact (C114_discriminator later _ c.2).mp this
  refine ⟨{ w with discriminators := w.discriminators.map (fun c => (c.1, if c.1 = l then { c.2 with rams := [] } else c.2)) },
    (C114_wisard later m _ hcl).mpr ⟨h1, h2, items, h3, key items _ hsame h4⟩, ?_, ?_, ?_, ?_⟩
  rotate_left
  · have hso : SMap.Sorted items := by
      generalize valueOf m b!"classes" = v at h3 hs
      cases h3 with
      | obj _ => exact hs
      | _ => exact SMap.sorted_nil
    refine sorted_of_keys hso ?_
    have hf := key items _ hsame h4
    revert hf
    generalize w.discriminators.map (fun c => (c.1, if c.1 = l then { c.2 with rams := [] } else c.2)) = ds
    clear * -
    intro hf
    show ds.map (·.1) = items.map (·.1)
    induction hf with
    | nil => rfl
    | cons hx _ ih => simp only [List.map_cons, ih, hx.1]
  rotate_left 2
  · revert hd
    generalize w.discriminators = ds
    induction ds with
    | nil => intro hd; cases hd
    | cons c ds ih =>
      obtain ⟨k, dk⟩ := c
      intro hd
      rw [SMap.find] at hd
      rw [List.map_cons, SMap.find]
      by_cases hk : k = l
      · rw [if_pos hk] at hd
        cases hd
        simp only [if_pos hk]
      · rw [if_neg hk] at hd
        rw [if_neg hk]
        exact ih hd
  · simp only [SMap.keys, List.map_map]
    rfl
  · intro l' hne
    generalize w.discriminators = ds
    induction ds with
    | nil => rfl
    | cons c ds ih =>
      obtain ⟨k, dk⟩ := c
      rw [List.map_cons, SMap.find, SMap.find]
      by_cases hk : k = l'
      · rw [if_pos hk, if_pos hk]
        simp only [hk, if_neg hne]
      · rw [if_neg hk, if_neg hk]
        exact ih

/-- C123: a class without RAMs is silently never right: in every classification its score is 0, and it is the answer only if
no class scores. -/
theorem C123_lost_class_scores_zero {w : Wisard} (hsort : SMap.Sorted w.discriminators) {l : Str} {d : Discriminator}
    (hd : w.discriminators.find l = some d) (hr : d.rams = []) {img : Image} {s : Scores} (h : w.classify1 img = .ok s) :
    s.find l = some 0 ∧ (Bleaching.getBiggestCandidate s = l → ∀ e ∈ s, e.2 = 0) := by
  unfold Wisard.classify1 at h
  obtain ⟨votes, h1, h2⟩ := bind_eq_ok h
  obtain ⟨hk, hv⟩ := allvotes_ok h1
  obtain ⟨b, hb, rfl, _⟩ := C38_scores_at_least_threshold votes _ _ _ _ h2
  have hvs : SMap.Sorted votes := sorted_of_keys hsort hk
  have hl : SMap.find votes l = some [] := by
    rcases hv l with ⟨_, h⟩ | ⟨d', vs, h3, h4, h5⟩
    · rw [hd] at h; cases h
    · rw [hd] at h3
      cases h3
      rw [h4]
      unfold Discriminator.classify at h5
      rw [hr] at h5
      obtain ⟨_, _, h5⟩ := bind_eq_ok h5
      cases h5
      rfl
  have hs : SMap.find (activeAll b votes) l = some 0 := by
    have e := SMap.find_map votes (fun v => (active b v : Int)) l
    rw [hl] at e
    exact e
  refine ⟨hs, ?_⟩
  intro hw e he
  have hmem := SMap.mem_of_find hs
  obtain ⟨x, hx, h3, h4, _⟩ := C39_winner (activeAll b votes) (Bleaching.activeAll_sorted hvs b)
    (by intro e; rw [e] at hmem; cases hmem) (Bleaching.activeAll_nonneg b votes)
  have hx1 : SMap.find (activeAll b votes) x.1 = some x.2 := SMap.find_of_mem (Bleaching.activeAll_sorted hvs b) hx
  rw [← h3, hw, hs] at hx1
  have h0 := Option.some.inj hx1
  have := h4 e he
  have := Bleaching.activeAll_nonneg b votes e he
  omega

/-! ## ClusWisard -/

/-- The files of all discriminators of a cluster are the same. -/
def Spec.SameClusterFiles (fs fs' : Fs) (j : Json) : Prop :=
  ∀ x ∈ elementsOf (valueOf (membersOf j) b!"discriminators"), SameFile fs fs' x

theorem discs_files (fs fs' : Fs) (iz : Bool) (b : Int) : ∀ (l : List Json) (acc : List (Option Discriminator)),
    (∀ x ∈ l, SameFile fs fs' x) →
    Cluster.discsOfJson fs (Json.ofList [(b!"ignoreZero", .bool iz), (b!"base", .int b)]) l acc =
      Cluster.discsOfJson fs' (Json.ofList [(b!"ignoreZero", .bool iz), (b!"base", .int b)]) l acc := by
  intro l
  induction l with
  | nil => intro acc _; rfl
  | cons j l ih =>
    intro acc h
    rw [Cluster.discsOfJson, Cluster.discsOfJson, class_files fs fs' iz b (h j (by simp))]
    cases Discriminator.ofJson fs' (j.mergePatch (Json.ofList [(b!"ignoreZero", .bool iz), (b!"base", .int b)])) with
    | error e => simp only [Except.bind_error]
    | ok d => simp only [Except.bind_ok]; exact ih _ (fun e he => h e (by simp [he]))

theorem cluster_files (fs fs' : Fs) (w : ClusWisard) {j : Json} (h : SameClusterFiles fs fs' j) :
    Cluster.ofJson fs (j.mergePatch (ClusWisard.clusterConfig w.addressSize w.minScore w.threshold w.discriminatorsLimit w.opts)) =
      Cluster.ofJson fs' (j.mergePatch (ClusWisard.clusterConfig w.addressSize w.minScore w.threshold w.discriminatorsLimit w.opts)) := by
  obtain ⟨mm, e1, e2⟩ := clusterConfig_merge w j
  rw [e1]
  have hv : valueOf mm b!"discriminators" = valueOf (membersOf j) b!"discriminators" := by rw [e2]; rfl
  unfold Cluster.ofJson
  simp only [key_obj, Except.bind_ok, elements_eq, hv]
  have hd := fun iz b => discs_files fs fs' iz b (elementsOf (valueOf (membersOf j) b!"discriminators")) [] h
  simp only [hd]

theorem clusters_files (fs fs' : Fs) (w : ClusWisard) : ∀ (items : List (Str × Json)) (acc : SMap Cluster),
    (∀ e ∈ items, SameClusterFiles fs fs' e.2) →
    ClusWisard.clustersOfJson fs (ClusWisard.clusterConfig w.addressSize w.minScore w.threshold w.discriminatorsLimit w.opts) items acc =
      ClusWisard.clustersOfJson fs' (ClusWisard.clusterConfig w.addressSize w.minScore w.threshold w.discriminatorsLimit w.opts) items acc := by
  intro items
  induction items with
  | nil => intro acc _; rfl
  | cons e items ih =>
    intro acc h
    obtain ⟨k, j⟩ := e
    rw [ClusWisard.clustersOfJson, ClusWisard.clustersOfJson, cluster_files fs fs' w (h (k, j) (by simp))]
    cases Cluster.ofJson fs' (j.mergePatch (ClusWisard.clusterConfig w.addressSize w.minScore w.threshold w.discriminatorsLimit w.opts)) with
    | error e => simp only [Except.bind_error]
    | ok d => simp only [Except.bind_ok]; exact ih _ (fun e he => h e (by simp [he]))

/-- C123: a ClusWisard is loaded from its document and the files named by the discriminators of its clusters. -/
theorem C123_clusWisard (fs fs' : Fs) (m : List (Str × Json))
    (h : ∀ e ∈ membersOf (valueOf m b!"clusters"), SameClusterFiles fs fs' e.2)
    (hu : SameClusterFiles fs fs' (valueOf m b!"unsupervisedCluster")) :
    ClusWisard.ofJson fs (.obj m) = ClusWisard.ofJson fs' (.obj m) := by
  unfold ClusWisard.ofJson
  simp only [key_obj, Except.bind_ok]
  have hc : ∀ (A : Int) (ms : Rat) (t dl : Int) (o : ClusOpts) (items : List (Str × Json)),
      (valueOf m b!"clusters").items = .ok items →
      ClusWisard.clustersOfJson fs (ClusWisard.clusterConfig A ms t dl o) items [] =
        ClusWisard.clustersOfJson fs' (ClusWisard.clusterConfig A ms t dl o) items [] := by
    intro A ms t dl o items hi
    refine clusters_files fs fs' ⟨A, ms, t, dl, o, [], Cluster.default⟩ items [] (fun e he => h e ?_)
    have hi := items_iff.mp hi
    generalize valueOf m b!"clusters" = v at hi
    cases hi with
    | obj _ => exact he
    | _ => cases he
  have hun : ∀ (A : Int) (ms : Rat) (t dl : Int) (o : ClusOpts),
      Cluster.ofJson fs ((valueOf m b!"unsupervisedCluster").mergePatch (ClusWisard.clusterConfig A ms t dl o)) =
        Cluster.ofJson fs' ((valueOf m b!"unsupervisedCluster").mergePatch (ClusWisard.clusterConfig A ms t dl o)) :=
    fun A ms t dl o => cluster_files fs fs' ⟨A, ms, t, dl, o, [], Cluster.default⟩ hu
  cases hi : (valueOf m b!"clusters").items with
  | error e => simp only [Except.bind_error]
  | ok items =>
    have hc' := fun A ms t dl o => hc A ms t dl o items hi
    simp only [Except.bind_ok, hc', hun]

/-! ## Example: two classes with files; the file of one is lost -/

/-- The document. -/
def twoFiles : List (Str × Json) :=
  [(b!"addressSize", .int 2), (b!"classes", .obj [
    (b!"a", .obj [(b!"count", .int 1), (b!"data", .str b!"a.wdpkg"), (b!"entrySize", .int 2), (b!"mapping", .arr [.arr [.int 0, .int 1]])]),
    (b!"b", .obj [(b!"count", .int 1), (b!"data", .str b!"b.wdpkg"), (b!"entrySize", .int 2), (b!"mapping", .arr [.arr [.int 0, .int 1]])])])]

/-- The files: `a` knows the pattern 11, `b` knows 10. -/
def twoFilesFs : Fs := fun n => if n = b!"a.wdpkg" then some b!"AwAAAAAAAAABAAAA" else
  if n = b!"b.wdpkg" then some b!"AQAAAAAAAAABAAAA" else none

/-- The files without that of `a`. -/
def oneFileFs : Fs := fun n => if n = b!"b.wdpkg" then some b!"AQAAAAAAAAABAAAA" else none

/-- With both files 11 is an `a`; without the file of `a` it is a `b`, and nothing is reported. -/
example : (Wisard.ofJson twoFilesFs (.obj twoFiles) >>= fun w => w.classify1 (.vec [1, 1])) = .ok [(b!"a", 1), (b!"b", 0)] ∧
    (Wisard.ofJson oneFileFs (.obj twoFiles) >>= fun w => w.classify1 (.vec [1, 1])) = .ok [(b!"a", 0), (b!"b", 0)] := by
  decide +kernel

/-- The hypotheses of `C123_file_lost` are met. -/
example : SMap.Sorted (membersOf (valueOf twoFiles b!"classes")) ∧
    (∀ e ∈ membersOf (valueOf twoFiles b!"classes"), e.1 = b!"a" → valueOf (membersOf e.2) b!"data" = .str b!"a.wdpkg") ∧
    b!".wdpkg" <:+ b!"a.wdpkg" ∧ oneFileFs b!"a.wdpkg" = none ∧
    (∀ e ∈ membersOf (valueOf twoFiles b!"classes"), e.1 ≠ b!"a" → SameFile twoFilesFs oneFileFs e.2) := by
  refine ⟨?_, ?_, ⟨b!"a", rfl⟩, rfl, ?_⟩
  · show SMap.Sorted [(b!"a", _), (b!"b", _)]
    exact SMap.sorted_cons.mpr ⟨by simp; rfl, SMap.sorted_cons.mpr ⟨by simp, SMap.sorted_nil⟩⟩
  · intro e he hk
    have he : e ∈ [(b!"a", _), (b!"b", _)] := he
    simp only [List.mem_cons, List.not_mem_nil, or_false] at he
    rcases he with rfl | rfl
    · rfl
    · exact absurd hk (by decide)
  · intro e he hk data hd _
    have he : e ∈ [(b!"a", _), (b!"b", _)] := he
    simp only [List.mem_cons, List.not_mem_nil, or_false] at he
    rcases he with rfl | rfl
    · exact absurd rfl hk
    · have hd : Json.str b!"b.wdpkg" = .str data := hd
      cases hd
      rfl

end Wis
