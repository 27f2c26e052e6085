import Verif.Lemmas.JsonClosed
import Verif.Props.JsonTrunc
import Verif.Props.Json
import Verif.Props.WisardJson
import Verif.Props.ClusWisardJson
/-!
# C91, C93: saving to text and loading from text

C27, C33 and C36 speak about JSON values. Here the texts that `json()` returns and the constructors parse are compared,
including what happens with labels that are not UTF-8 and with texts of which only a beginning was kept.
-/

namespace Wis
open Spec JsonText

/-! ## Values and texts -/

/-- A text that was cut off somewhere is refused. -/
def CutRefused {α : Type} (load : Str → Res α) (t : Str) : Prop :=
  ∀ p q, t = p ++ q → q ≠ [] → load p = .error (.throw .jsonParse) ∨ load p = .error (.throw .jsonRange)

/-- An object. -/
def IsObj (j : Json) : Prop := ∃ m, j = .obj m

theorem setKey_obj {c v j : Json} {k : Str} (h : c.setKey k v = .ok j) : IsObj j := by
  cases c with
  | null => cases h; exact ⟨_, rfl⟩
  | obj m => cases h; exact ⟨_, rfl⟩
  | _ => cases h

/-- The value under a key. -/
def HasKey (j : Json) (k : Str) (v : Json) : Prop := ∃ m, j = .obj m ∧ SMap.find m k = some v

theorem setKey_self {c v j : Json} {k : Str} (h : c.setKey k v = .ok j) : HasKey j k v := by
  cases c with
  | null => cases h; exact ⟨_, rfl, SMap.find_set_self _ _ _⟩
  | obj m => cases h; exact ⟨_, rfl, SMap.find_set_self _ _ _⟩
  | _ => cases h

theorem setKey_other {c v v' j : Json} {k k' : Str} (h : c.setKey k v = .ok j) (hk : k' ≠ k) (hc : HasKey c k' v') :
    HasKey j k' v' := by
  obtain ⟨m, rfl, hm⟩ := hc
  cases h
  exact ⟨_, rfl, (SMap.find_set_ne m v hk).trans hm⟩

theorem HasKey.utf8 {j v : Json} {k : Str} (h : HasKey j k v) (hu : AllUtf8 j) : Utf8 k ∧ AllUtf8 v := by
  obtain ⟨m, rfl, hm⟩ := h
  cases hu with
  | obj h1 h2 => exact ⟨h1 _ (SMap.mem_of_find hm), h2 _ (SMap.mem_of_find hm)⟩

theorem cut_value {α : Type} {ft : FloatText} (hf : ∀ t q, ft.read t = some q → FloatOk ft q) {j : Json} (hh : Held ft j)
    (ho : IsObj j) {t : Str} (ht : dump ft j = .ok t) (load : Json → Res α) :
    CutRefused (fun s => parse ft s >>= load) t := by
  intro p q hpq hq
  obtain ⟨m, rfl⟩ := ho
  rw [hpq] at ht
  rcases C92_truncated hf hh (fun h => h) ht hq with h | h
  · left; simp only [h]; rfl
  · right; simp only [h]; rfl

theorem dumped_ok {ft : FloatText} {r : Res (Fs × Json)} {fs : Fs} {j : Json} {t : Str} (hr : r = .ok (fs, j))
    (ht : dump ft j = .ok t) : dumped ft r = .ok (fs, t) := by
  subst hr
  unfold dumped
  rw [Except.bind_ok]
  simp only [ht]
  rfl

theorem dumped_throw {ft : FloatText} {r : Res (Fs × Json)} {fs : Fs} {j : Json} {e : Err} (hr : r = .ok (fs, j))
    (ht : dump ft j = .error e) : dumped ft r = .error e := by
  subst hr
  unfold dumped
  rw [Except.bind_ok]
  simp only [ht]
  rfl

/-! ## Labels become keys -/

theorem classesJson_keys {it : IterOrder} {huge : Bool} {path : Str} {random : Nat → Str} : ∀ (ds : SMap Discriminator) (i : Nat)
    (fs fs' : Fs) (c j : Json), Wisard.classesJson it huge path random ds i fs c = .ok (fs', j) →
    ∀ l, (l ∈ ds.map (·.1) ∨ ∃ v, HasKey c l v) → ∃ v, HasKey j l v := by
  intro ds
  induction ds with
  | nil =>
    intro i fs fs' c j hj l hl
    cases hj
    rcases hl with hl | hl
    · simp at hl
    · exact hl
  | cons e ds ih =>
    intro i fs fs' c j hj l hl
    obtain ⟨k, d⟩ := e
    rw [Wisard.classesJson] at hj
    obtain ⟨⟨fs1, j1⟩, h1, hj⟩ := bind_eq_ok hj
    obtain ⟨c1, h2, hj⟩ := bind_eq_ok hj
    refine ih _ _ _ _ _ hj l ?_
    by_cases hk : l = k
    · right
      subst hk
      exact ⟨_, setKey_self h2⟩
    · rcases hl with hl | ⟨v, hv⟩
      · left
        simp only [List.map_cons, List.mem_cons] at hl
        exact hl.resolve_left hk
      · right
        exact ⟨v, setKey_other h2 hk hv⟩

theorem clustersJson_keys {it : IterOrder} {huge : Bool} {path : Str} {random : Nat → Nat → Str} : ∀ (ds : SMap Cluster) (i : Nat)
    (fs fs' : Fs) (c j : Json), ClusWisard.clustersJson it huge path random ds i fs c = .ok (fs', j) →
    ∀ l, (l ∈ ds.map (·.1) ∨ ∃ v, HasKey c l v) → ∃ v, HasKey j l v := by
  intro ds
  induction ds with
  | nil =>
    intro i fs fs' c j hj l hl
    cases hj
    rcases hl with hl | hl
    · simp at hl
    · exact hl
  | cons e ds ih =>
    intro i fs fs' c j hj l hl
    obtain ⟨k, d⟩ := e
    rw [ClusWisard.clustersJson] at hj
    obtain ⟨⟨fs1, j1⟩, h1, hj⟩ := bind_eq_ok hj
    obtain ⟨c1, h2, hj⟩ := bind_eq_ok hj
    refine ih _ _ _ _ _ hj l ?_
    by_cases hk : l = k
    · right
      subst hk
      exact ⟨_, setKey_self h2⟩
    · rcases hl with hl | ⟨v, hv⟩
      · left
        simp only [List.map_cons, List.mem_cons] at hl
        exact hl.resolve_left hk
      · right
        exact ⟨v, setKey_other h2 hk hv⟩

/-! ## Discriminator -/

/-- C91: the text of a trained discriminator (nothing in it can fail to be UTF-8) is loaded to an indistinguishable
discriminator, and no proper beginning of it is loaded. -/
theorem C91_discriminator (ft : FloatText) (hf : ∀ t q, ft.read t = some q → FloatOk ft q)
    {rnd : Rnd} {A n : Int} {o : Options} {d0 : Discriminator}
    (hc : Discriminator.create rnd A n o = .ok d0) (hr : IntRange n o.base d0.mapping) (ops : List Op)
    (ht : LearntSomething d0 ops) (hs : d0.getNumberOfRAMS * (16 * trains ops + 1) ≤ 2147483648)
    (it : IterOrder) (fs fs' : Fs) :
    let d := (play d0 ops).1
    ∃ t d', d.jsonText it ft fs false [] [] = .ok (fs, t) ∧ Discriminator.ofText ft fs' t = .ok d' ∧ Indistinguishable d d' ∧
      CutRefused (Discriminator.ofText ft fs') t := by
  intro d
  obtain ⟨j, d', hj, hd', hi⟩ := C27_json_roundtrip hc hr ops ht hs it fs fs'
  have hwf : DWF o.ignoreZero o.base d := (create_wf hc hr).play ops
  have hn : d.rams ≠ [] := (play_le ops d0).rams_ne (create_ne hc)
  have hh : Held ft j := (held_closed ft).discriminator hwf hn (fun _ => trivial) hj
  have hu : AllUtf8 j := utf8_closed.discriminator hwf hn (by simp) hj
  obtain ⟨t, h1, h2⟩ := C89_roundtrip ft hh hu
  have ho : IsObj j := by
    have hj' : d.json it fs false [] [] = .ok (fs, j) := hj
    rw [json_eq it fs false [] [] hwf.rams hn] at hj'
    obtain ⟨p, _, hj'⟩ := bind_eq_ok hj'
    cases hj'
    exact ⟨_, rfl⟩
  refine ⟨t, d', dumped_ok hj h1, ?_, hi, cut_value hf hh ho h1 _⟩
  unfold Discriminator.ofText
  simp only [h2]
  exact hd'

/-! ## Wisard -/

/-- What the text of a saved Wisard is made of. -/
theorem wisard_value {A : Int} {o : WisardOpts} (ho : OptRange A o) (ops : List WOp)
    (hs : ∀ l d, (wplay (Wisard.create A o) ops).1.discriminators.find l = some d → Savable (Wisard.create A o) ops l d)
    {it : IterOrder} {fs fs' : Fs} {huge : Bool} {path : Str} {random : Nat → Str} {j : Json}
    (hj : (wplay (Wisard.create A o) ops).1.json it fs huge path random = .ok (fs', j)) (ft : FloatText) :
    Held ft j ∧ IsObj j ∧
    (AllUtf8 j → ∀ l ∈ (wplay (Wisard.create A o) ops).1.discriminators.keys, Utf8 l) ∧
    ((∀ l ∈ (wplay (Wisard.create A o) ops).1.discriminators.keys, Utf8 l) → (huge = true → ∀ l ∈
      (wplay (Wisard.create A o) ops).1.discriminators.keys, ∀ i, Utf8 (path ++ l ++ b!"__" ++ random i ++ ramdataSufix)) →
      AllUtf8 j) := by
  obtain ⟨h1, h2, h3, h4⟩ := saved_facts ops hs
  obtain ⟨oA, ob, oc, oi⟩ := ho
  refine ⟨?_, ?_, ?_, ?_⟩
  · exact (held_closed ft).wisard (by rw [h1]; exact oA) (by rw [h2]; exact ob) (by rw [h2]; exact oc) (by rw [h2]; exact oi)
      (fun e he => ⟨trivial, (h4 e he).1.ints⟩) (fun _ _ _ _ => trivial) hj
  · unfold Wisard.json at hj
    obtain ⟨⟨fs1, c⟩, _, hj⟩ := bind_eq_ok hj
    obtain ⟨cfg, h, hj⟩ := bind_eq_ok hj
    cases hj
    exact setKey_obj h
  · intro hu l hl
    unfold Wisard.json at hj
    obtain ⟨⟨fs1, c⟩, hc, hj⟩ := bind_eq_ok hj
    obtain ⟨cfg, h, hj⟩ := bind_eq_ok hj
    cases hj
    obtain ⟨v, hv⟩ := classesJson_keys _ _ _ _ _ _ hc l (Or.inl hl)
    exact (hv.utf8 ((setKey_self h).utf8 hu).2).1
  · intro hl hn
    refine utf8_closed.wisard (by rw [h1]; exact oA) (by rw [h2]; exact ob) (by rw [h2]; exact oc) (by rw [h2]; exact oi)
      (fun e he => ⟨hl _ (List.mem_map_of_mem (f := (·.1)) he), (h4 e he).1.ints⟩)
      (fun hh e he i => hn hh _ (List.mem_map_of_mem (f := (·.1)) he) i) hj

/-- C91: the text of a trained Wisard whose labels are UTF-8 is loaded to an indistinguishable Wisard, and no proper
beginning of it is loaded. -/
theorem C91_wisard (ft : FloatText) (hf : ∀ t q, ft.read t = some q → FloatOk ft q)
    {A : Int} {o : WisardOpts} (ho : OptRange A o) (ops : List WOp)
    (hs : ∀ l d, (wplay (Wisard.create A o) ops).1.discriminators.find l = some d → Savable (Wisard.create A o) ops l d)
    (hl : ∀ l ∈ (wplay (Wisard.create A o) ops).1.discriminators.keys, Utf8 l)
    (it : IterOrder) (fs fs' : Fs) :
    let w := (wplay (Wisard.create A o) ops).1
    ∃ t w', w.jsonText it ft fs false [] (fun _ => []) = .ok (fs, t) ∧ Wisard.ofText ft fs' t = .ok w' ∧
      WIndistinguishable (fun l => l ∈ w.discriminators.keys ∨ o.mapping.find l = none) w w' ∧
      CutRefused (Wisard.ofText ft fs') t := by
  intro w
  obtain ⟨j, w', hj, hw', hi⟩ := C33_json_roundtrip ho ops hs it fs fs'
  obtain ⟨hh, hobj, _, hu⟩ := wisard_value ho ops hs hj ft
  obtain ⟨t, h1, h2⟩ := C89_roundtrip ft hh (hu hl (by simp))
  refine ⟨t, w', dumped_ok hj h1, ?_, hi, cut_value hf hh hobj h1 _⟩
  unfold Wisard.ofText
  simp only [h2]
  exact hw'

/-- C91: a Wisard that has learnt a label which is not UTF-8 cannot be saved: `json()` throws. -/
theorem C91_wisard_label_throws (ft : FloatText) {A : Int} {o : WisardOpts} (ho : OptRange A o) (ops : List WOp)
    (hs : ∀ l d, (wplay (Wisard.create A o) ops).1.discriminators.find l = some d → Savable (Wisard.create A o) ops l d)
    {l : Str} (hl : l ∈ (wplay (Wisard.create A o) ops).1.discriminators.keys) (hb : ¬ Utf8 l) (it : IterOrder) (fs : Fs) :
    (wplay (Wisard.create A o) ops).1.jsonText it ft fs false [] (fun _ => []) = .error (.throw .jsonUtf8) := by
  obtain ⟨j, _, hj, _, _⟩ := C33_json_roundtrip ho ops hs it fs fs
  obtain ⟨hh, _, hu, _⟩ := wisard_value ho ops hs hj ft
  exact dumped_throw hj (C89_dump_throws hh (fun h => hb (hu h l hl)))

/-- C91: with `huge`, into files that do not exist: the same, also for the file system that the constructor sees later,
if only the files just written are unchanged. -/
theorem C91_wisard_huge (ft : FloatText) (hft : ∀ t q, ft.read t = some q → FloatOk ft q)
    {A : Int} {o : WisardOpts} (ho : OptRange A o) (ops : List WOp)
    (hs : ∀ l d, (wplay (Wisard.create A o) ops).1.discriminators.find l = some d → Savable (Wisard.create A o) ops l d)
    (hl : ∀ l ∈ (wplay (Wisard.create A o) ops).1.discriminators.keys, Utf8 l)
    (it : IterOrder) (fs : Fs) (path : Str) (hp : Utf8 path) (random : Nat → Str) (hrn : ∀ i, Utf8 (random i)) {n : Nat}
    (hn : ∀ i, (random i).length = n)
    (hf : ∀ l i, fs (path ++ l ++ b!"__" ++ random i ++ b!".wdpkg") = none) :
    let w := (wplay (Wisard.create A o) ops).1
    ∃ fs' t, w.jsonText it ft fs true path random = .ok (fs', t) ∧
      (∀ later : Fs, CutRefused (Wisard.ofText ft later) t) ∧
      ∀ later : Fs, (∀ l ∈ w.discriminators.keys, ∀ i, later (path ++ l ++ b!"__" ++ random i ++ b!".wdpkg") =
          fs' (path ++ l ++ b!"__" ++ random i ++ b!".wdpkg")) →
        ∃ w', Wisard.ofText ft later t = .ok w' ∧
          WIndistinguishable (fun l => l ∈ w.discriminators.keys ∨ o.mapping.find l = none) w w' := by
  intro w
  obtain ⟨fs', j, hj, _, hr⟩ := C33_huge_roundtrip ho ops hs it fs path random hn hf
  obtain ⟨hh, hobj, _, hu⟩ := wisard_value ho ops hs hj ft
  have hu' : AllUtf8 j := hu hl (fun _ l hk i =>
    utf8_append (utf8_append (utf8_append (utf8_append hp (hl l hk)) (utf8_ascii (by decide))) (hrn i)) (utf8_ascii (by decide)))
  obtain ⟨t, h1, h2⟩ := C89_roundtrip ft hh hu'
  refine ⟨fs', t, dumped_ok hj h1, fun later => cut_value hft hh hobj h1 _, ?_⟩
  intro later hlater
  obtain ⟨w', hw', hi⟩ := hr later hlater
  refine ⟨w', ?_, hi⟩
  unfold Wisard.ofText
  simp only [h2]
  exact hw'

/-! ## ClusWisard -/

theorem clus_value {w : ClusWisard} (hs : WSav w) {it : IterOrder} {fs fs' : Fs} {huge : Bool} {path : Str}
    {random : Nat → Nat → Str} {j : Json} (hj : w.json it fs huge path random = .ok (fs', j)) (ft : FloatText)
    (hm : FloatOk ft w.minScore) :
    Held ft j ∧ IsObj j ∧ (AllUtf8 j → ∀ l ∈ w.clusters.keys, Utf8 l) ∧
    ((∀ l ∈ w.clusters.keys, Utf8 l) → (huge = true → Utf8 path ∧ ∀ i k, Utf8 (random i k)) → AllUtf8 j) := by
  have hcl : ∀ e ∈ w.clusters, (∀ d, some d ∈ e.2.discriminators → DInts d) ∧ ∀ c, e.2.cfg = some c → InI32 c.entrySize := by
    intro e he
    obtain ⟨n, hn, hc⟩ := hs.cl e he
    refine ⟨?_, ?_⟩
    · intro d hd
      obtain ⟨d', h1, h2⟩ := hc.discs _ hd
      cases h1
      exact h2.wf.ints
    · intro c h
      rw [hc.cfg] at h
      cases h
      exact hn
  have hun : (∀ d, some d ∈ w.unsupervisedCluster.discriminators → DInts d) ∧
      ∀ c, w.unsupervisedCluster.cfg = some c → InI32 c.entrySize := by
    rcases hs.un with h | ⟨_, n, hn, hc⟩
    · rw [h]
      refine ⟨?_, ?_⟩
      · intro d hd; simp [Cluster.default] at hd
      · intro c hc; simp [Cluster.default] at hc
    · refine ⟨?_, ?_⟩
      · intro d hd
        obtain ⟨d', h1, h2⟩ := hc.discs _ hd
        cases h1
        exact h2.wf.ints
      · intro c h
        rw [hc.cfg] at h
        cases h
        exact hn
  refine ⟨?_, ?_, ?_, ?_⟩
  · exact (held_closed ft).clusWisard hs.range (.real hm) (fun e he => ⟨trivial, hcl e he⟩) hun
      (fun _ => ⟨fun _ _ _ _ => trivial, fun _ _ => trivial⟩) hj
  · unfold ClusWisard.json at hj
    obtain ⟨⟨fs1, c⟩, h1, hj⟩ := bind_eq_ok hj
    have hc : IsObj c := by
      unfold ClusWisard.jsonSupervised at h1
      split at h1
      · obtain ⟨⟨fs2, c2⟩, h2, h1⟩ := bind_eq_ok h1
        obtain ⟨c3, h3, h1⟩ := bind_eq_ok h1
        cases h1
        exact setKey_obj h3
      · cases h1; exact ⟨_, rfl⟩
    simp only at hj
    split at hj
    · obtain ⟨⟨fs2, c2⟩, h2, hj⟩ := bind_eq_ok hj
      obtain ⟨c3, h3, hj⟩ := bind_eq_ok hj
      cases hj
      exact setKey_obj h3
    · cases hj; exact hc
  · intro hu l hl
    unfold ClusWisard.json at hj
    obtain ⟨⟨fs1, c⟩, h1, hj⟩ := bind_eq_ok hj
    have hc : ∃ cs, HasKey c b!"clusters" cs ∧ ∃ v, HasKey cs l v := by
      unfold ClusWisard.jsonSupervised at h1
      rw [if_pos (List.length_pos_iff.mpr (by rintro h; rw [h] at hl; simp [SMap.keys] at hl))] at h1
      obtain ⟨⟨fs2, c2⟩, h2, h1⟩ := bind_eq_ok h1
      obtain ⟨c3, h3, h1⟩ := bind_eq_ok h1
      cases h1
      exact ⟨_, setKey_self h3, clustersJson_keys _ _ _ _ _ _ h2 l (Or.inl hl)⟩
    obtain ⟨cs, hcs, v, hv⟩ := hc
    have hj' : HasKey j b!"clusters" cs := by
      simp only at hj
      split at hj
      · obtain ⟨⟨fs2, c2⟩, h2, hj⟩ := bind_eq_ok hj
        obtain ⟨c3, h3, hj⟩ := bind_eq_ok hj
        cases hj
        exact setKey_other h3 (by decide) hcs
      · cases hj; exact hcs
    exact (hv.utf8 (hj'.utf8 hu).2).1
  · intro hl hn
    have hb : Utf8 b!"__" := utf8_ascii (by decide)
    have hsu : Utf8 ramdataSufix := utf8_ascii (by decide)
    have hnat : ∀ k, Utf8 (natStr k) := by
      intro k
      refine utf8_ascii ?_
      intro b hb
      unfold natStr at hb
      obtain ⟨c, hc, rfl⟩ := List.mem_map.mp hb
      have := digit_byte k c hc
      rw [BitVec.toNat_ofNat, Nat.mod_eq_of_lt (by omega)]
      omega
    refine utf8_closed.clusWisard hs.range (.real _)
      (fun e he => ⟨hl _ (List.mem_map_of_mem (f := (·.1)) he), hcl e he⟩) hun ?_ hj
    intro hh
    obtain ⟨hp, hr⟩ := hn hh
    refine ⟨fun e he i k => ?_, fun i k => ?_⟩
    · exact utf8_append (utf8_append (utf8_append (utf8_append (utf8_append (utf8_append hp
        (hl _ (List.mem_map_of_mem (f := (·.1)) he))) hb) (hnat k)) hb) (hr i k)) hsu
    · exact utf8_append (utf8_append (utf8_append (utf8_append (utf8_append hp (utf8_ascii (by decide))) (hnat k)) hb) (hr i k)) hsu

theorem minScore_play (f : Flt) {A : Int} {ms : Rat} {t dl : Int} {o : ClusOpts} {w0 : ClusWisard}
    (h0 : ClusWisard.create A ms t dl o = .ok w0) (ops : List COp) : (cplay f w0 ops).1.minScore = ms := by
  rw [(WInv.play (f := f) h0 ops).const]
  show w0.minScore = ms
  unfold ClusWisard.create at h0
  obtain ⟨_, _, h0⟩ := bind_eq_ok h0
  cases h0
  rfl

/-- C93 (partial, as C36): the text of a trained ClusWisard whose labels are UTF-8 is loaded to an indistinguishable
ClusWisard, and no proper beginning of it is loaded. Missing: the cases in which C36 fails. -/
theorem C93_clusWisard_partial (ft : FloatText) (hf : ∀ t q, ft.read t = some q → FloatOk ft q)
    (f : Flt) {A : Int} {ms : Rat} {t dl : Int} {o : ClusOpts} {w0 : ClusWisard} (hm : FloatOk ft ms)
    (h0 : ClusWisard.create A ms t dl o = .ok w0) (hr : CRange A t dl o) (ops : List COp)
    (hc : ∀ l c, (cplay f w0 ops).1.clusters.find l = some c → SavableC c)
    (hu : (cplay f w0 ops).1.unsupervisedCluster = Cluster.default ∨
      (o.base = 2 ∧ 0 < (cplay f w0 ops).1.unsupervisedCluster.getSize ∧ SavableC (cplay f w0 ops).1.unsupervisedCluster))
    (hl : ∀ l ∈ (cplay f w0 ops).1.clusters.keys, Utf8 l) (it : IterOrder) (fs fs' : Fs) :
    let w := (cplay f w0 ops).1
    ∃ t w', w.jsonText it ft fs false [] (fun _ _ => []) = .ok (fs, t) ∧ ClusWisard.ofText ft fs' t = .ok w' ∧
      CIndistinguishable f w w' ∧ CutRefused (ClusWisard.ofText ft fs') t := by
  intro w
  obtain ⟨j, w', hj, hw', hi⟩ := C36_json_roundtrip_partial f h0 hr ops hc hu it fs fs'
  have hs : WSav w := winv_sav h0 (WInv.play h0 ops) hr hc hu
  have hms : w.minScore = ms := minScore_play f h0 ops
  obtain ⟨hh, hobj, _, hu⟩ := clus_value hs hj ft (by rw [hms]; exact hm)
  obtain ⟨t, h1, h2⟩ := C89_roundtrip ft hh (hu hl (by simp))
  refine ⟨t, w', dumped_ok hj h1, ?_, hi, cut_value hf hh hobj h1 _⟩
  unfold ClusWisard.ofText
  simp only [h2]
  exact hw'

/-- C93 (partial, as C36): with `huge`, into files that do not exist. -/
theorem C93_clusWisard_huge_partial (ft : FloatText) (hft : ∀ t q, ft.read t = some q → FloatOk ft q)
    (f : Flt) {A : Int} {ms : Rat} {t dl : Int} {o : ClusOpts} {w0 : ClusWisard} (hm : FloatOk ft ms)
    (h0 : ClusWisard.create A ms t dl o = .ok w0) (hr : CRange A t dl o) (ops : List COp)
    (hc : ∀ l c, (cplay f w0 ops).1.clusters.find l = some c → SavableC c)
    (hu : (cplay f w0 ops).1.unsupervisedCluster = Cluster.default ∨
      (o.base = 2 ∧ 0 < (cplay f w0 ops).1.unsupervisedCluster.getSize ∧ SavableC (cplay f w0 ops).1.unsupervisedCluster))
    (hl : ∀ l ∈ (cplay f w0 ops).1.clusters.keys, Utf8 l)
    (it : IterOrder) (fs : Fs) (path : Str) (hp : Utf8 path) (random : Nat → Nat → Str) (hrn : ∀ i k, Utf8 (random i k)) {n : Nat}
    (hn : ∀ i j, (random i j).length = n)
    (hname : b!"unsupervised_cluster" ∉ (cplay f w0 ops).1.clusters.keys ∨ (cplay f w0 ops).1.unsupervisedCluster.getSize = 0)
    (hf : ∀ name, OwnFile path random (cplay f w0 ops).1 name → fs name = none) :
    let w := (cplay f w0 ops).1
    ∃ fs' t, w.jsonText it ft fs true path random = .ok (fs', t) ∧
      (∀ later : Fs, CutRefused (ClusWisard.ofText ft later) t) ∧
      ∀ later : Fs, (∀ name, OwnFile path random w name → later name = fs' name) →
        ∃ w', ClusWisard.ofText ft later t = .ok w' ∧ CIndistinguishable f w w' := by
  intro w
  obtain ⟨fs', j, hj, _, hload⟩ := C36_huge_roundtrip_partial f h0 hr ops hc hu it fs path random hn hname hf
  have hs : WSav w := winv_sav h0 (WInv.play h0 ops) hr hc hu
  obtain ⟨hh, hobj, _, hu⟩ := clus_value hs hj ft (by rw [show w.minScore = ms from minScore_play f h0 ops]; exact hm)
  obtain ⟨t, h1, h2⟩ := C89_roundtrip ft hh (hu hl (fun _ => ⟨hp, hrn⟩))
  refine ⟨fs', t, dumped_ok hj h1, fun later => cut_value hft hh hobj h1 _, ?_⟩
  intro later hlater
  obtain ⟨w', hw', hi⟩ := hload later hlater
  refine ⟨w', ?_, hi⟩
  unfold ClusWisard.ofText
  simp only [h2]
  exact hw'

/-- C93: a ClusWisard with a label which is not UTF-8 cannot be saved: `json()` throws. -/
theorem C93_clusWisard_label_throws (ft : FloatText)
    (f : Flt) {A : Int} {ms : Rat} {t dl : Int} {o : ClusOpts} {w0 : ClusWisard} (hm : FloatOk ft ms)
    (h0 : ClusWisard.create A ms t dl o = .ok w0) (hr : CRange A t dl o) (ops : List COp)
    (hc : ∀ l c, (cplay f w0 ops).1.clusters.find l = some c → SavableC c)
    (hu : (cplay f w0 ops).1.unsupervisedCluster = Cluster.default ∨
      (o.base = 2 ∧ 0 < (cplay f w0 ops).1.unsupervisedCluster.getSize ∧ SavableC (cplay f w0 ops).1.unsupervisedCluster))
    {l : Str} (hl : l ∈ (cplay f w0 ops).1.clusters.keys) (hb : ¬ Utf8 l) (it : IterOrder) (fs : Fs) :
    (cplay f w0 ops).1.jsonText it ft fs false [] (fun _ _ => []) = .error (.throw .jsonUtf8) := by
  obtain ⟨j, w', hj, hw', hi⟩ := C36_json_roundtrip_partial f h0 hr ops hc hu it fs fs
  have hs := winv_sav h0 (WInv.play h0 ops) hr hc hu
  have hms := minScore_play f h0 ops
  obtain ⟨hh, _, hk, _⟩ := clus_value hs hj ft (by rw [hms]; exact hm)
  exact dumped_throw hj (C89_dump_throws hh (fun h => hb (hk h l hl)))

/-! ## The hypotheses can be met -/

/-- Two numbers that can be written. -/
def ft2 : FloatText where
  write q := if q = 1/4 then b!"0.25" else b!"0.5"
  read t := if t = b!"0.25" then some (1/4) else if t = b!"0.5" then some (1/2) else none

theorem ft2_quarter : FloatOk ft2 (1/4) := by
  have hw : ft2.write (1/4) = b!"0.25" := by decide +kernel
  refine ⟨?_, by decide +kernel⟩
  rw [hw]
  exact ⟨[], b!"0", b!".25", [], rfl, Or.inl rfl, Or.inl rfl, Or.inr ⟨b!"25", rfl, by decide, by unfold Digits; decide⟩,
    Or.inl rfl, Or.inl (by decide)⟩

theorem ft2_half : FloatOk ft2 (1/2) := by
  have hw : ft2.write (1/2) = b!"0.5" := by decide +kernel
  refine ⟨?_, by decide +kernel⟩
  rw [hw]
  exact ⟨[], b!"0", b!".5", [], rfl, Or.inl rfl, Or.inl rfl, Or.inr ⟨b!"5", rfl, by decide, by unfold Digits; decide⟩,
    Or.inl rfl, Or.inl (by decide)⟩

/-- The conversion is right for everything that it reads: hypothesis `hf` of C90, C91 and C92. -/
theorem ft2_right : ∀ t q, ft2.read t = some q → FloatOk ft2 q := by
  intro t q h
  unfold ft2 at h
  simp only at h
  split at h
  · cases h; exact ft2_quarter
  · split at h
    · cases h; exact ft2_half
    · cases h

/-- A value as in C89 and C92: numbers, escapes and a key of two bytes for one character. -/
def exJson : Json := .obj [(b!"a", .arr [.int (-7), .real (1/4), .null, .bool true]), ([0xC3, 0xA9], .str [0x22, 0x0A, 0x01])]

theorem exJson_held : Held ft2 exJson := by
  refine .obj (by unfold SMap.Sorted; decide) ?_
  simp only [List.mem_cons, List.not_mem_nil, or_false, forall_eq_or_imp, forall_eq]
  refine ⟨.arr ?_, .str _⟩
  simp only [List.mem_cons, List.not_mem_nil, or_false, forall_eq_or_imp, forall_eq]
  exact ⟨.int (by omega) (by omega), .real ft2_quarter, .null, .bool true⟩

theorem exJson_utf8 : AllUtf8 exJson := by
  refine .obj ?_ ?_ <;> simp only [List.mem_cons, List.not_mem_nil, or_false, forall_eq_or_imp, forall_eq]
  · exact ⟨utf8_ascii (by decide), Utf8.cons (c := [0xC3, 0xA9]) (s := []) ⟨[(0xC2, 0xDF), (0x80, 0xBF)], by decide,
      .cons (by unfold InRange; decide) (.cons (by unfold InRange; decide) .nil)⟩ .nil⟩
  · refine ⟨.arr ?_, .str (utf8_ascii (by decide))⟩
    simp only [List.mem_cons, List.not_mem_nil, or_false, forall_eq_or_imp, forall_eq]
    exact ⟨.int _, .real _, .null, .bool true⟩

/-- Its text is `{"a":[-7,0.25,null,true],"é":"\"\n\u0001"}`. -/
example : dump ft2 exJson = .ok (b!"{\"a\":[-7,0.25,null,true],\"" ++ [0xC3, 0xA9] ++ b!"\":\"\\\"\\n\\u0001\"}") := by
  decide +kernel

/-- A label that is not UTF-8. -/
theorem latin1_not_utf8 : ¬ Utf8 [0xE9] := by
  have h : ∀ s, Utf8 s → s = [0xE9] → False := by
    intro s hs
    cases hs with
    | nil => intro h; cases h
    | @cons c s hc hs =>
      intro h
      obtain ⟨row, hrow, hm⟩ := hc
      have hl := hm.length_eq
      cases hm with
      | nil => revert hrow; decide
      | @cons b r c' row' hb hm =>
        simp only [List.cons_append, List.cons.injEq, List.append_eq_nil_iff] at h
        obtain ⟨rfl, rfl, rfl⟩ := h
        cases hm
        have : ∀ row ∈ utf8Rows, ∀ r, row = [r] → ¬ InRange 0xE9 r := by
          intro row hrow r hr
          subst hr
          have : r = (0x00, 0x7F) := by
            simpa [utf8Rows] using hrow
          subst this
          unfold InRange
          decide
        exact this _ hrow r rfl hb
  exact fun hs => h _ hs rfl

/-- The Wisard of the example of C33 has UTF-8 labels; so `C91_wisard` applies to it. -/
example : ∀ l ∈ (wplay (Wisard.create 2 exOpts) exOps).1.discriminators.keys, Utf8 l := by
  have hk : (wplay (Wisard.create 2 exOpts) exOps).1.discriminators.keys = [b!"a", b!"b"] := by decide
  rw [hk]
  simp only [List.mem_cons, List.not_mem_nil, or_false, forall_eq_or_imp, forall_eq]
  exact ⟨utf8_ascii (by decide), utf8_ascii (by decide)⟩

/-- One that has learnt the label `[0xE9]`, as in `C91_wisard_label_throws`. -/
example : OptRange 2 {} ∧
    [0xE9] ∈ (wplay (Wisard.create 2 {}) [.train ⟨Rnd.id, true⟩ (.vec [1, 0, 1, 1]) [0xE9]]).1.discriminators.keys ∧
    ∀ l d, (wplay (Wisard.create 2 {}) [.train ⟨Rnd.id, true⟩ (.vec [1, 0, 1, 1]) [0xE9]]).1.discriminators.find l = some d →
      Savable (Wisard.create 2 {}) [.train ⟨Rnd.id, true⟩ (.vec [1, 0, 1, 1]) [0xE9]] l d := by
  refine ⟨by unfold OptRange; decide, by decide, ?_⟩
  intro l d h
  have hk : (wplay (Wisard.create 2 {}) [.train ⟨Rnd.id, true⟩ (.vec [1, 0, 1, 1]) [0xE9]]).1.discriminators.keys = [[0xE9]] := by
    decide
  have hl : l ∈ (wplay (Wisard.create 2 {}) [.train ⟨Rnd.id, true⟩ (.vec [1, 0, 1, 1]) [0xE9]]).1.discriminators.keys :=
    SMap.mem_keys_iff.mpr ⟨d, h⟩
  rw [hk] at hl
  obtain rfl : d = ((wplay (Wisard.create 2 {}) [.train ⟨Rnd.id, true⟩ (.vec [1, 0, 1, 1]) [0xE9]]).1.discriminators.find l).getD
      Discriminator.default := by
    rw [h]; rfl
  simp only [List.mem_cons, List.not_mem_nil, or_false] at hl
  subst hl
  exact ⟨by decide, ⟨[], ⟨Rnd.id, true⟩, .vec [1, 0, 1, 1], _, rfl, by decide⟩, by unfold IntRange; decide, by decide⟩

/-- The ClusWisard of the example of C36 has UTF-8 labels and the `minScore` 1/2 of `ft2_half`. -/
example : ∀ l ∈ (cplay Flt.exact cw0 exCOps).1.clusters.keys, Utf8 l := by
  have hk : (cplay Flt.exact cw0 exCOps).1.clusters.keys = [b!"a", b!"b"] := by decide +kernel
  rw [hk]
  simp only [List.mem_cons, List.not_mem_nil, or_false, forall_eq_or_imp, forall_eq]
  exact ⟨utf8_ascii (by decide), utf8_ascii (by decide)⟩

end Wis
