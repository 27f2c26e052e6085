import Verif.Lemmas.WisardReload
/-!
# C33–C35: saving and loading a Wisard

As in Props/Json, `json()` yields the value that the text denotes; hash-table iteration order, file systems and
random file names are arbitrary.
-/

namespace Wis
open Spec

/-- The C++ `int`s among the constructor arguments are in range. -/
def Spec.OptRange (A : Int) (o : WisardOpts) : Prop :=
  InI32 A ∧ InI32 o.base ∧ InI32 o.confidence ∧ ∀ a ∈ o.indexes, InI32 a

/-- Common part of C33: any Wisard reached by calls, all of whose classes can be saved. -/
theorem saved_facts {A : Int} {o : WisardOpts} (ops : List WOp)
    (hs : ∀ l d, (wplay (Wisard.create A o) ops).1.discriminators.find l = some d → Savable (Wisard.create A o) ops l d) :
    let w := (wplay (Wisard.create A o) ops).1
    w.addressSize = A ∧ w.opts = o ∧ SMap.Sorted w.discriminators ∧
    ∀ e ∈ w.discriminators, DWF w.opts.ignoreZero w.opts.base e.2 ∧ e.2.rams ≠ [] ∧ (∀ r ∈ e.2.rams, r.positions ≠ []) ∧
      16 * (e.2.rams.map (fun r => r.positions.length)).sum + e.2.rams.length ≤ 2147483648 := by
  intro w
  obtain ⟨h1, h2, h3⟩ := wplay_const (Wisard.create A o) rfl ops
  refine ⟨h1, h2, h3, ?_⟩
  rintro ⟨l, d⟩ he
  have hd := SMap.find_of_mem h3 he
  have := savable rfl hd (hs l d hd)
  rw [h2]
  exact this

/-- C33: a Wisard that was created with any options and used in any way (failed calls included), each of whose
classes has RAMs and learnt something, is rebuilt by `Wisard(w.json())`: the result is indistinguishable from it
under any further calls with labels that exist already or are not named by the `mapping` option. -/
theorem C33_json_roundtrip {A : Int} {o : WisardOpts} (ho : OptRange A o) (ops : List WOp)
    (hs : ∀ l d, (wplay (Wisard.create A o) ops).1.discriminators.find l = some d → Savable (Wisard.create A o) ops l d)
    (it : IterOrder) (fs fs' : Fs) :
    let w := (wplay (Wisard.create A o) ops).1
    ∃ j w', w.json it fs false [] (fun _ => []) = .ok (fs, j) ∧ Wisard.ofJson fs' j = .ok w' ∧
      WIndistinguishable (fun l => l ∈ w.discriminators.keys ∨ o.mapping.find l = none) w w' := by
  intro w
  obtain ⟨h1, h2, h3, h4⟩ := saved_facts ops hs
  obtain ⟨oA, ob, oc, oi⟩ := ho
  obtain ⟨j, hj, hr⟩ := wisard_roundtrip it false [] (fun _ => []) w (by rw [h1]; exact oA) (by rw [h2]; exact ob)
    (by rw [h2]; exact oc) (by rw [h2]; exact oi) h3 (fun e he => (h4 e he).1) (fun e he => (h4 e he).2.1)
    (fun e he => (h4 e he).2.2.1) (fun e he => (h4 e he).2.2.2) fs fs' (by simp)
  refine ⟨j, _, ?_, hr, (reload_wsim it (fun e he => (h4 e he).1)).indistinguishable ?_⟩
  · rw [hj]
    congr 2
    funext n
    exact fsAfter_other it false [] _ _ 0 fs n (by simp)
  · intro l hl
    refine hl.imp _root_.id fun hm => ?_
    have : w.opts = o := h2
    rw [this, hm]
    rfl

/-- C33 with `huge=true`: the same through files. The class files `path + label + "__" + random + ".wdpkg"` must not
exist before; random strings of one length (10 in the code) keep the files of different classes apart. -/
theorem C33_huge_roundtrip {A : Int} {o : WisardOpts} (ho : OptRange A o) (ops : List WOp)
    (hs : ∀ l d, (wplay (Wisard.create A o) ops).1.discriminators.find l = some d → Savable (Wisard.create A o) ops l d)
    (it : IterOrder) (fs : Fs) (path : Str) (random : Nat → Str) {n : Nat} (hn : ∀ i, (random i).length = n)
    (hf : ∀ l i, fs (path ++ l ++ b!"__" ++ random i ++ b!".wdpkg") = none) :
    let w := (wplay (Wisard.create A o) ops).1
    ∃ fs' j, w.json it fs true path random = .ok (fs', j) ∧
      (∀ name, (∀ l ∈ w.discriminators.keys, ∀ i, name ≠ path ++ l ++ b!"__" ++ random i ++ b!".wdpkg") → fs' name = fs name) ∧
      ∀ later : Fs, (∀ l ∈ w.discriminators.keys, ∀ i, later (path ++ l ++ b!"__" ++ random i ++ b!".wdpkg") =
          fs' (path ++ l ++ b!"__" ++ random i ++ b!".wdpkg")) →
        ∃ w', Wisard.ofJson later j = .ok w' ∧
          WIndistinguishable (fun l => l ∈ w.discriminators.keys ∨ o.mapping.find l = none) w w' := by
  intro w
  obtain ⟨h1, h2, h3, h4⟩ := saved_facts ops hs
  obtain ⟨oA, ob, oc, oi⟩ := ho
  have hkey : ∀ (k : Nat) (l : Str) (d : Discriminator), w.discriminators[k]? = some (l, d) → l ∈ w.discriminators.keys := by
    intro k l d hk
    exact List.mem_map_of_mem (f := (·.1)) (List.mem_of_getElem? hk)
  have hmine := fsAfter_mine it path random hn w.discriminators 0 fs h3 (fun k l d _ => hf l (0 + k))
  have key := fun later hl => wisard_roundtrip it true path random w (by rw [h1]; exact oA) (by rw [h2]; exact ob)
    (by rw [h2]; exact oc) (by rw [h2]; exact oi) h3 (fun e he => (h4 e he).1) (fun e he => (h4 e he).2.1)
    (fun e he => (h4 e he).2.2.1) (fun e he => (h4 e he).2.2.2) fs later hl
  have hself := key (fsAfter it true path random w.discriminators 0 fs) (fun _ k l d hk => by
    have := hmine k l d hk
    rwa [Nat.zero_add] at this)
  obtain ⟨j, hj, _⟩ := hself
  refine ⟨_, j, hj, ?_, ?_⟩
  · intro name hname
    exact fsAfter_other it true path random _ 0 fs name (fun _ k l d hk => hname l (hkey k l d hk) (0 + k))
  · intro later hl
    obtain ⟨j', hj', hr⟩ := key later (fun _ k l d hk => by
      have h5 := hmine k l d hk
      rw [Nat.zero_add] at h5
      rw [← h5]
      exact hl l (hkey k l d hk) k)
    rw [hj] at hj'
    cases hj'
    refine ⟨_, hr, (reload_wsim it (fun e he => (h4 e he).1)).indistinguishable ?_⟩
    intro l hl
    refine hl.imp _root_.id fun hm => ?_
    have : w.opts = o := h2
    rw [this, hm]
    rfl

/-- A history with a failing call, two classes (one of them wired by the `mapping` option) and a `leaveOneOut`. -/
def exOps : List WOp :=
  [.train ⟨Rnd.id, true⟩ (.vec [1, 0, 1, 1]) b!"a", .train ⟨Rnd.id, true⟩ (.vec [0, 0, 1, 1]) b!"b",
    .train ⟨Rnd.id, false⟩ (.vec [1]) b!"b", .leave [1, 0, 1, 1] b!"a"]

def exOpts : WisardOpts := { mapping := [(b!"b", [[0, 1, 2]])] }

/-- It meets the hypotheses of C33. -/
example : OptRange 2 exOpts ∧
    (wplay (Wisard.create 2 exOpts) exOps).2 = [.ok (), .ok (), .error (.throw .entrySize), .ok ()] ∧
    ∀ l d, (wplay (Wisard.create 2 exOpts) exOps).1.discriminators.find l = some d →
      Savable (Wisard.create 2 exOpts) exOps l d := by
  refine ⟨by unfold OptRange; decide, by decide, ?_⟩
  intro l d h
  have hk : (wplay (Wisard.create 2 exOpts) exOps).1.discriminators.keys = [b!"a", b!"b"] := by decide
  have hl : l ∈ (wplay (Wisard.create 2 exOpts) exOps).1.discriminators.keys := SMap.mem_keys_iff.mpr ⟨d, h⟩
  rw [hk] at hl
  obtain rfl : d = ((wplay (Wisard.create 2 exOpts) exOps).1.discriminators.find l).getD Discriminator.default := by
    rw [h]; rfl
  simp only [List.mem_cons, List.not_mem_nil, or_false] at hl
  rcases hl with rfl | rfl
  · exact ⟨by decide, ⟨[], ⟨Rnd.id, true⟩, .vec [1, 0, 1, 1], _, rfl, by decide⟩, by unfold IntRange; decide, by decide⟩
  · exact ⟨by decide, ⟨[.train ⟨Rnd.id, true⟩ (.vec [1, 0, 1, 1]) b!"a"], ⟨Rnd.id, true⟩, .vec [0, 0, 1, 1], _, rfl,
      by decide⟩, by unfold IntRange; decide, by decide⟩

/-! ## C34 -/

theorem ramsFrom_lengths {is : List Int} {A : Nat} {iz : Bool} {base : Int} (hb : 2 ≤ base) {k : Nat} {rs : List Ram}
    (h : Discriminator.ramsFrom is A iz base k 0 = .ok rs) : ∀ r ∈ rs, r.addresses.length = A := by
  obtain ⟨_, h1, h2, h3⟩ := ramsFrom_ok hb k h
  intro r hr
  obtain ⟨j, hj, rfl⟩ := List.getElem_of_mem hr
  rw [h3 j hj, List.length_drop, List.length_take]
  have h4 := h2 (by omega)
  have h5 : (0 + j + 1) * A ≤ (0 + k) * A := Nat.mul_le_mul_right _ (by omega)
  rw [Nat.min_eq_left (by omega), Nat.add_mul, Nat.one_mul]
  omega

/-- Without an entry in `mapping`, all RAMs of a new class have `addressSize` addresses. -/
theorem new_lengths {rnd : Rnd} {A n : Int} {o : WisardOpts} {l : Str} {d : Discriminator} (hm : o.mapping.find l = none)
    (h : Wisard.newDiscriminator rnd A o l n = .ok d) : ∀ a ∈ d.mapping, a.length = A.toNat := by
  intro a ha
  obtain ⟨r, hr, rfl⟩ := List.mem_map.mp ha
  unfold Wisard.newDiscriminator at h
  rw [hm] at h
  simp only at h
  split at h
  · unfold Discriminator.setRAMByIndex at h
    obtain ⟨_, _, h⟩ := bind_eq_ok h
    obtain ⟨_, hb, h⟩ := bind_eq_ok h
    obtain ⟨_, _, h⟩ := bind_eq_ok h
    obtain ⟨rs, hrs, h⟩ := bind_eq_ok h
    simp only [Except.ok.injEq] at h
    subst h
    exact ramsFrom_lengths (checkBase_ok hb) hrs r hr
  · unfold Discriminator.setRAMShuffle at h
    obtain ⟨_, _, h⟩ := bind_eq_ok h
    obtain ⟨_, hb, h⟩ := bind_eq_ok h
    obtain ⟨_, _, h⟩ := bind_eq_ok h
    obtain ⟨_, _, h⟩ := bind_eq_ok h
    obtain ⟨rs, hrs, h⟩ := bind_eq_ok h
    simp only [Except.ok.injEq] at h
    subst h
    exact ramsFrom_lengths (checkBase_ok hb) hrs r hr

/-- C34 is false: a label that the `mapping` option wires with some RAM whose number of addresses is not
`addressSize`, not trained before saving, is never wired that way by the reloaded Wisard, whatever is trained. -/
theorem C34_mapping_lost {A : Int} {o : WisardOpts} (ho : OptRange A o) (ops : List WOp)
    (hs : ∀ l d, (wplay (Wisard.create A o) ops).1.discriminators.find l = some d → Savable (Wisard.create A o) ops l d)
    (it : IterOrder) (fs fs' : Fs) {l : Str} {m : List (List Int)} (hm : o.mapping.find l = some m)
    (hbad : ∃ a ∈ m, a.length ≠ A.toNat)
    (hl : l ∉ (wplay (Wisard.create A o) ops).1.discriminators.keys) :
    ∃ j w', (wplay (Wisard.create A o) ops).1.json it fs false [] (fun _ => []) = .ok (fs, j) ∧
      Wisard.ofJson fs' j = .ok w' ∧
      ∀ env img w2, w'.train1 env img l = (w2, .ok ()) → ∃ d, w2.discriminators.find l = some d ∧ d.mapping ≠ m := by
  obtain ⟨h1, h2, h3, h4⟩ := saved_facts ops hs
  obtain ⟨oA, ob, oc, oi⟩ := ho
  obtain ⟨j, hj, hr⟩ := wisard_roundtrip it false [] (fun _ => []) (wplay (Wisard.create A o) ops).1 (by rw [h1]; exact oA)
    (by rw [h2]; exact ob)
    (by rw [h2]; exact oc) (by rw [h2]; exact oi) h3 (fun e he => (h4 e he).1) (fun e he => (h4 e he).2.1)
    (fun e he => (h4 e he).2.2.1) (fun e he => (h4 e he).2.2.2) fs fs' (by simp)
  refine ⟨j, _, ?_, hr, ?_⟩
  · rw [hj]
    congr 2
    funext n
    exact fsAfter_other it false [] _ _ 0 fs n (by simp)
  · intro env img w2 ht
    obtain ⟨_, _, _, h5⟩ := train1_find _ env img l ht
    have hnone : SMap.find ((wplay (Wisard.create A o) ops).1.discriminators.map (fun e => (e.1, reloadD it e.2))) l = none := by
      rw [SMap.find_map _ (reloadD it), SMap.find_none_iff.mpr hl]
      rfl
    rcases h5 with ⟨d, d', h5, _⟩ | ⟨d0, d', h5, h6, h7, h8⟩
    · simp only at h5
      rw [hnone] at h5; cases h5
    · refine ⟨d', h8, ?_⟩
      have h9 := new_lengths (o := keptOpts (wplay (Wisard.create A o) ops).1.opts) rfl h6
      have : d'.mapping = d0.mapping := by
        have := (train_le d0 img).mapping
        rw [h7] at this
        exact this
      rw [this]
      obtain ⟨a, ha, hne⟩ := hbad
      intro e
      rw [e] at h9
      have := h9 a ha
      simp only [h1] at this
      exact hne this

/-- The hypotheses are met, and the training after the reload does succeed. -/
example : exOpts.mapping.find b!"b" = some [[0, 1, 2]] ∧ (∃ a ∈ [[(0 : Int), 1, 2]], a.length ≠ (2 : Int).toNat) ∧
    b!"b" ∉ (wplay (Wisard.create 2 exOpts) [.train ⟨Rnd.id, true⟩ (.vec [1, 0, 1, 1]) b!"a"]).1.discriminators.keys ∧
    (Wisard.train1 (Wisard.create 2 (keptOpts exOpts)) ⟨Rnd.id, true⟩ (.vec [1, 0, 1, 1]) b!"b").2 = .ok () := by decide

/-- C34 (partial): labels that exist when the Wisard is saved keep their wiring for ever. Missing: new labels named in
`mapping` (previous theorem). -/
theorem C34_existing_wiring_kept_partial {A : Int} {o : WisardOpts} (ho : OptRange A o) (ops : List WOp)
    (hs : ∀ l d, (wplay (Wisard.create A o) ops).1.discriminators.find l = some d → Savable (Wisard.create A o) ops l d)
    (it : IterOrder) (fs fs' : Fs) :
    ∃ j w', (wplay (Wisard.create A o) ops).1.json it fs false [] (fun _ => []) = .ok (fs, j) ∧
      Wisard.ofJson fs' j = .ok w' ∧
      ∀ l d, (wplay (Wisard.create A o) ops).1.discriminators.find l = some d → ∀ later : List WOp,
        ∃ d', (wplay w' later).1.discriminators.find l = some d' ∧ d'.mapping = d.mapping := by
  obtain ⟨h1, h2, h3, h4⟩ := saved_facts ops hs
  obtain ⟨oA, ob, oc, oi⟩ := ho
  obtain ⟨j, hj, hr⟩ := wisard_roundtrip it false [] (fun _ => []) (wplay (Wisard.create A o) ops).1 (by rw [h1]; exact oA)
    (by rw [h2]; exact ob)
    (by rw [h2]; exact oc) (by rw [h2]; exact oi) h3 (fun e he => (h4 e he).1) (fun e he => (h4 e he).2.1)
    (fun e he => (h4 e he).2.2.1) (fun e he => (h4 e he).2.2.2) fs fs' (by simp)
  refine ⟨j, _, ?_, hr, ?_⟩
  · rw [hj]
    congr 2
    funext n
    exact fsAfter_other it false [] _ _ 0 fs n (by simp)
  · intro l d hd later
    induction later using List.reverseRecOn with
    | nil =>
      refine ⟨reloadD it d, ?_, ?_⟩
      · show SMap.find (List.map _ _) l = _
        rw [SMap.find_map _ (reloadD it), hd]
        rfl
      · simp [reloadD, Discriminator.mapping, reload, Function.comp_def]
    | append_singleton later op ih =>
      obtain ⟨d', h5, h6⟩ := ih
      rw [wplay_snoc]
      by_cases hl : l = op.label
      · subst hl
        obtain ⟨x, _, h7, _⟩ := wstep_some h5
        exact ⟨_, h7, ((play_le [x] d').mapping).trans h6⟩
      · rw [(wstep_other _ op).2.2.1 l hl]
        exact ⟨d', h5, h6⟩

/-! ## C35 -/

/-- C35 is false for discriminators: the result of `jsonConfig` of any discriminator with RAMs cannot be reloaded. -/
theorem C35_discriminator_reload_throws {rnd : Rnd} {A n : Int} {o : Options} {d0 : Discriminator}
    (hc : Discriminator.create rnd A n o = .ok d0) (hr : IntRange n o.base d0.mapping) (ops : List Op) (fs : Fs) :
    ∃ j, (play d0 ops).1.jsonConfig = .ok j ∧ Discriminator.ofJson fs j = .error (.throw .jsonType) := by
  have hn := (play_le ops d0).rams_ne (create_ne hc)
  have he := ((create_wf hc hr).play ops).entry
  revert hn he
  generalize (play d0 ops).1 = d
  intro hn he
  cases hd : d.rams with
  | nil => exact absurd hd hn
  | cons r rs =>
    refine ⟨.obj [(b!"base", .int r.base), (b!"entrySize", .int d.entrySize), (b!"ignoreZero", .bool r.ignoreZero),
      (b!"mapping", Json.ofIntss d.mapping), (b!"version", .str version)], ?_, ?_⟩
    · unfold Discriminator.jsonConfig Discriminator.withRamConfig
      rw [hd]
      rfl
    · unfold Discriminator.ofJson
      show ((Json.int d.entrySize).asInt >>= fun _ => _) = _
      rw [Json.asInt_int he, Except.bind_ok]
      rfl

theorem configClassesJson_acc (ds : SMap Discriminator) : ∀ (acc : List (Str × Json)), SMap.Sorted ds →
    (∀ a ∈ acc, ∀ e ∈ ds, Str.lt a.1 e.1 = true) →
    Wisard.configClassesJson ds (.obj acc) = .ok (.obj (acc ++ ds.map (fun e => (e.1, e.2.getConfigJSON)))) := by
  induction ds with
  | nil => intro acc _ _; simp [Wisard.configClassesJson]
  | cons e ds ih =>
    obtain ⟨l, d⟩ := e
    intro acc hs hacc
    obtain ⟨h1, h2⟩ := SMap.sorted_cons.mp hs
    simp only [Wisard.configClassesJson, Json.setKey, Except.bind_ok]
    rw [SMap.set_last (fun a ha => hacc a ha (l, d) (by simp)), ih _ h2]
    · simp
    · intro a ha e he
      rcases List.mem_append.mp ha with ha | ha
      · exact hacc a ha e (List.mem_cons_of_mem _ he)
      · simp only [List.mem_singleton] at ha
        subst ha
        exact h1 e he

/-- C35 is false for a Wisard with at least one class: its `jsonConfig` cannot be reloaded. -/
theorem C35_wisard_reload_throws {A : Int} {o : WisardOpts} (ho : OptRange A o) (ops : List WOp)
    (hr : ∀ l d, (wplay (Wisard.create A o) ops).1.discriminators.find l = some d → InI32 d.entrySize)
    (hne : (wplay (Wisard.create A o) ops).1.discriminators ≠ []) (fs : Fs) :
    ∃ j, (wplay (Wisard.create A o) ops).1.jsonConfig = .ok j ∧ Wisard.ofJson fs j = .error (.throw .jsonType) := by
  obtain ⟨h1, h2, h3⟩ := wplay_const (Wisard.create A o) rfl ops
  obtain ⟨oA, ob, oc, oi⟩ := ho
  revert h1 h2 h3 hr hne
  generalize (wplay (Wisard.create A o) ops).1 = w
  intro hr hne h1 h2 h3
  obtain ⟨cfg, k1, k2, k3, k4⟩ := optsOfJson_eq w.addressSize w.opts w.discriminators
    (.obj (w.discriminators.map (fun e => (e.1, e.2.getConfigJSON)))) (by rw [h2]; exact ob) (by rw [h2]; exact oc)
    (by rw [h2]; exact oi)
  refine ⟨cfg, ?_, ?_⟩
  · unfold Wisard.jsonConfig
    cases hd : w.discriminators with
    | nil => exact absurd hd hne
    | cons e ds =>
      obtain ⟨l, d⟩ := e
      rw [hd] at h3
      obtain ⟨s1, s2⟩ := SMap.sorted_cons.mp h3
      simp only [Wisard.configClassesJson, Json.setKey, Except.bind_ok]
      rw [show SMap.set [] l d.getConfigJSON = [(l, d.getConfigJSON)] from rfl, configClassesJson_acc ds _ s2]
      · rw [Except.bind_ok, ← k1, hd]
        rfl
      · intro a ha e he
        simp only [List.mem_singleton] at ha
        subst ha
        exact s1 e he
  · unfold Wisard.ofJson
    simp only [k2, k3, k4, Except.bind_ok, Json.asInt_int (show InI32 w.addressSize by rw [h1]; exact oA)]
    cases hd : w.discriminators with
    | nil => exact absurd hd hne
    | cons e ds =>
      obtain ⟨l, d⟩ := e
      have he := hr l d (by rw [hd]; simp [SMap.find])
      simp only [List.map_cons, Json.items, Except.bind_ok, Wisard.classesOfJson]
      have : Discriminator.ofJson fs (d.getConfigJSON.mergePatch (rbase w.opts.ignoreZero w.opts.base)) =
          .error (.throw .jsonType) := by
        have : d.getConfigJSON.mergePatch (rbase w.opts.ignoreZero w.opts.base) =
          .obj [(b!"base", .int w.opts.base), (b!"entrySize", .int d.entrySize), (b!"ignoreZero", .bool w.opts.ignoreZero),
            (b!"mapping", Json.ofIntss d.mapping)] := rfl
        rw [this]
        unfold Discriminator.ofJson
        show ((Json.int d.entrySize).asInt >>= fun _ => _) = _
        rw [Json.asInt_int he, Except.bind_ok]
        rfl
      show ((Discriminator.ofJson fs (d.getConfigJSON.mergePatch (rbase w.opts.ignoreZero w.opts.base)) >>= _) >>= _) = _
      rw [this]
      rfl

/-- C35 (partial): the `jsonConfig` of a Wisard without classes can be reloaded and gives an indistinguishable Wisard
(for labels not named by `mapping`). Missing: everything else, see the two theorems above. -/
theorem C35_empty_wisard_reloads_partial {A : Int} {o : WisardOpts} (ho : OptRange A o) (fs : Fs) :
    ∃ j w', (Wisard.create A o).jsonConfig = .ok j ∧ Wisard.ofJson fs j = .ok w' ∧
      WIndistinguishable (fun l => o.mapping.find l = none) (Wisard.create A o) w' := by
  obtain ⟨oA, ob, oc, oi⟩ := ho
  obtain ⟨cfg, k1, k2, k3, k4⟩ := optsOfJson_eq A o [] .null ob oc oi
  refine ⟨cfg, ⟨A, keptOpts o, []⟩, k1, ?_, ?_⟩
  · unfold Wisard.ofJson
    simp only [k2, k3, k4, Except.bind_ok, Json.asInt_int oA]
    rfl
  · apply WSim.indistinguishable
    · exact ⟨rfl, ⟨rfl, rfl, rfl, rfl, rfl, rfl, rfl, rfl, rfl, rfl⟩, .nil⟩
    · intro l hl
      right
      show _ = o.mapping.find l
      rw [hl]
      rfl

/-- Hypotheses of C35: a trained discriminator and a Wisard with a class. -/
example : (∃ d0, Discriminator.create Rnd.id 2 4 {} = .ok d0 ∧ IntRange 4 2 d0.mapping) ∧
    OptRange 2 exOpts ∧ (wplay (Wisard.create 2 exOpts) exOps).1.discriminators ≠ [] :=
  ⟨⟨_, rfl, by decide, by decide, by decide⟩, by unfold OptRange; decide, by decide⟩

end Wis
