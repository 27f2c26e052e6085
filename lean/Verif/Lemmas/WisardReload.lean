import Verif.Lemmas.WisardJson
/-! `Wisard(w.json())`. -/

namespace Wis
open Spec

theorem SMap.set_last {V : Type} {acc : SMap V} {k : Str} {v : V} (h : ∀ e ∈ acc, Str.lt e.1 k = true) :
    acc.set k v = acc ++ [(k, v)] := by
  induction acc with
  | nil => rfl
  | cons e acc ih =>
    obtain ⟨k', v'⟩ := e
    have h0 : Str.lt k' k = true := h (k', v') (by simp)
    have h1 : ¬ k' = k := Str.lt_ne h0
    simp only [SMap.set, if_neg h1]
    rw [if_neg (by rw [Str.lt_asymm h0]; simp), ih (fun e he => h e (List.mem_cons_of_mem _ he))]
    rfl

/-- Contents of a discriminator, as text. -/
def textOf (it : IterOrder) (d : Discriminator) : Str := joined (d.rams.map (fun r => it.ord r.positions))

/-- File name of the `i`-th class. -/
def nameOf (path : Str) (random : Nat → Str) (i : Nat) (l : Str) : Str :=
  path ++ l ++ b!"__" ++ random i ++ ramdataSufix

def dataOf (it : IterOrder) (huge : Bool) (path : Str) (random : Nat → Str) (i : Nat) (l : Str) (d : Discriminator) : Str :=
  if huge then nameOf path random i l else textOf it d

def fsAfter (it : IterOrder) (huge : Bool) (path : Str) (random : Nat → Str) : SMap Discriminator → Nat → Fs → Fs
  | [], _, fs => fs
  | (l, d) :: ds, i, fs =>
    fsAfter it huge path random ds (i + 1) (if huge then fs.append (nameOf path random i l) (textOf it d) else fs)

/-- JSON of one class. -/
def item (d : Discriminator) (data : Str) : Json :=
  .obj [(b!"count", .int d.count), (b!"data", .str data), (b!"entrySize", .int d.entrySize),
    (b!"mapping", Json.ofIntss d.mapping)]

def itemsOf (it : IterOrder) (huge : Bool) (path : Str) (random : Nat → Str) : SMap Discriminator → Nat → List (Str × Json)
  | [], _ => []
  | (l, d) :: ds, i => (l, item d (dataOf it huge path random i l d)) :: itemsOf it huge path random ds (i + 1)

theorem getJSON_eq (it : IterOrder) (fs : Fs) (d : Discriminator) (huge : Bool) (path : Str) (random : Nat → Str) (i : Nat)
    (l : Str) (hne : ∀ r ∈ d.rams, r.positions ≠ []) :
    d.getJSON it fs huge (path ++ l ++ b!"__") (random i) =
      .ok (if huge then fs.append (nameOf path random i l) (textOf it d) else fs,
        item d (dataOf it huge path random i l d)) := by
  unfold Discriminator.getJSON Discriminator.getRAMsData dataOf
  cases huge with
  | true => simp only [if_true, fileText_joined, Except.bind_ok]; rfl
  | false => simp only [Bool.false_eq_true, if_false, dataText_eq it d.rams hne, Except.bind_ok]; rfl

theorem classesJson_acc (it : IterOrder) (huge : Bool) (path : Str) (random : Nat → Str) (ds : SMap Discriminator) :
    ∀ (i : Nat) (fs : Fs) (acc : List (Str × Json)), (∀ e ∈ ds, ∀ r ∈ e.2.rams, r.positions ≠ []) → SMap.Sorted ds →
    (∀ a ∈ acc, ∀ e ∈ ds, Str.lt a.1 e.1 = true) →
    Wisard.classesJson it huge path random ds i fs (.obj acc) =
      .ok (fsAfter it huge path random ds i fs, .obj (acc ++ itemsOf it huge path random ds i)) := by
  induction ds with
  | nil => intro i fs acc _ _ _; simp [Wisard.classesJson, fsAfter, itemsOf]
  | cons e ds ih =>
    obtain ⟨l, d⟩ := e
    intro i fs acc hne hs hacc
    obtain ⟨h1, h2⟩ := SMap.sorted_cons.mp hs
    simp only [Wisard.classesJson, getJSON_eq it fs d huge path random i l (hne (l, d) (by simp)), Except.bind_ok, Json.setKey]
    rw [SMap.set_last (fun a ha => hacc a ha (l, d) (by simp)), ih _ _ _ (fun e he => hne e (List.mem_cons_of_mem _ he)) h2]
    · simp only [fsAfter, itemsOf, List.append_assoc, List.singleton_append]
    · intro a ha e he
      rcases List.mem_append.mp ha with ha | ha
      · exact hacc a ha e (List.mem_cons_of_mem _ he)
      · simp only [List.mem_singleton] at ha
        subst ha
        exact h1 e he

theorem classesJson_eq (it : IterOrder) (huge : Bool) (path : Str) (random : Nat → Str) (ds : SMap Discriminator) (fs : Fs)
    (hne : ∀ e ∈ ds, ∀ r ∈ e.2.rams, r.positions ≠ []) (hs : SMap.Sorted ds) :
    Wisard.classesJson it huge path random ds 0 fs .null =
      .ok (fsAfter it huge path random ds 0 fs,
        if ds.isEmpty then .null else .obj (itemsOf it huge path random ds 0)) := by
  cases ds with
  | nil => rfl
  | cons e ds =>
    obtain ⟨l, d⟩ := e
    obtain ⟨h1, h2⟩ := SMap.sorted_cons.mp hs
    simp only [Wisard.classesJson, getJSON_eq it fs d huge path random 0 l (hne (l, d) (by simp)), Except.bind_ok, Json.setKey]
    rw [show SMap.set [] l (item d (dataOf it huge path random 0 l d)) = [(l, item d (dataOf it huge path random 0 l d))] from rfl,
      classesJson_acc it huge path random ds _ _ _ (fun e he => hne e (List.mem_cons_of_mem _ he)) h2]
    · rfl
    · intro a ha e he
      simp only [List.mem_singleton] at ha
      subst ha
      exact h1 e he

def reloadD (it : IterOrder) (d : Discriminator) : Discriminator := { d with rams := d.rams.map (reload it) }

theorem classesOfJson_eq (it : IterOrder) (huge : Bool) (path : Str) (random : Nat → Str) (fs' : Fs) (dc : Json)
    (ds : SMap Discriminator) : ∀ (i : Nat) (acc : SMap Discriminator),
    (∀ k l d, ds[k]? = some (l, d) →
      Discriminator.ofJson fs' ((item d (dataOf it huge path random (i + k) l d)).mergePatch dc) = .ok (reloadD it d)) →
    SMap.Sorted ds → (∀ a ∈ acc, ∀ e ∈ ds, Str.lt a.1 e.1 = true) →
    Wisard.classesOfJson fs' dc (itemsOf it huge path random ds i) acc =
      .ok (acc ++ ds.map (fun e => (e.1, reloadD it e.2))) := by
  induction ds with
  | nil => intro i acc _ _ _; simp [itemsOf, Wisard.classesOfJson]
  | cons e ds ih =>
    obtain ⟨l, d⟩ := e
    intro i acc h hs hacc
    obtain ⟨h1, h2⟩ := SMap.sorted_cons.mp hs
    have h0 := h 0 l d rfl
    rw [Nat.add_zero] at h0
    simp only [itemsOf, Wisard.classesOfJson, h0, Except.bind_ok]
    rw [SMap.set_last (fun a ha => hacc a ha (l, d) (by simp)), ih _ _ ?_ h2]
    · simp
    · intro a ha e he
      rcases List.mem_append.mp ha with ha | ha
      · exact hacc a ha e (List.mem_cons_of_mem _ he)
      · simp only [List.mem_singleton] at ha
        subst ha
        exact h1 e he
    · intro k l' d' hk
      have := h (k + 1) l' d' (by simpa using hk)
      rw [show i + 1 + k = i + (k + 1) by omega]
      exact this

theorem name_inj {path : Str} {random : Nat → Str} {n : Nat} (hr : ∀ i, (random i).length = n) {i j : Nat} {l l' : Str}
    (h : nameOf path random i l = nameOf path random j l') : l = l' := by
  unfold nameOf at h
  have h := (List.append_inj' h rfl).1
  have h := (List.append_inj' h (by rw [hr, hr])).1
  have h := (List.append_inj' h rfl).1
  exact List.append_cancel_left h

theorem fsAfter_other (it : IterOrder) (huge : Bool) (path : Str) (random : Nat → Str) (ds : SMap Discriminator) :
    ∀ (i : Nat) (fs : Fs) (n : Str), (huge = true → ∀ k l d, ds[k]? = some (l, d) → n ≠ nameOf path random (i + k) l) →
    fsAfter it huge path random ds i fs n = fs n := by
  induction ds with
  | nil => intro i fs n _; rfl
  | cons e ds ih =>
    obtain ⟨l, d⟩ := e
    intro i fs n h
    simp only [fsAfter]
    rw [ih]
    · cases huge with
      | false => rfl
      | true =>
        have := h rfl 0 l d rfl
        simp only [if_true, Fs.append]
        exact if_neg this
    · intro hh k l' d' hk
      have := h hh (k + 1) l' d' (by simpa using hk)
      rwa [show i + 1 + k = i + (k + 1) by omega]

theorem fsAfter_mine (it : IterOrder) (path : Str) (random : Nat → Str) {n : Nat} (hr : ∀ i, (random i).length = n)
    (ds : SMap Discriminator) : ∀ (i : Nat) (fs : Fs), SMap.Sorted ds →
    (∀ k l d, ds[k]? = some (l, d) → fs (nameOf path random (i + k) l) = none) →
    ∀ k l d, ds[k]? = some (l, d) →
      fsAfter it true path random ds i fs (nameOf path random (i + k) l) = some (textOf it d) := by
  induction ds with
  | nil => intro i fs _ _ k l d hk; simp at hk
  | cons e ds ih =>
    obtain ⟨l, d⟩ := e
    intro i fs hs hf k l' d' hk
    obtain ⟨h1, h2⟩ := SMap.sorted_cons.mp hs
    simp only [fsAfter, if_true]
    cases k with
    | zero =>
      simp only [List.getElem?_cons_zero, Option.some.injEq, Prod.mk.injEq] at hk
      obtain ⟨rfl, rfl⟩ := hk
      rw [Nat.add_zero, fsAfter_other]
      · have := hf 0 l d rfl
        rw [Nat.add_zero] at this
        simp only [Fs.append, Nat.add_zero, if_true, this, Option.getD_none, List.nil_append]
      · intro _ k l' d' hk he
        have := name_inj hr he
        have hm : (l', d') ∈ ds := List.mem_of_getElem? hk
        exact Str.lt_ne (h1 _ hm) this
    | succ k =>
      have hk : ds[k]? = some (l', d') := by simpa using hk
      rw [show i + (k + 1) = i + 1 + k by omega]
      apply ih (i + 1) _ h2 ?_ k l' d' hk
      intro k l' d' hk
      simp only [Fs.append]
      rw [if_neg]
      · have := hf (k + 1) l' d' (by simpa using hk)
        rwa [show i + 1 + k = i + (k + 1) by omega]
      · intro he
        have hm : (l', d') ∈ ds := List.mem_of_getElem? hk
        exact Str.lt_ne (h1 _ hm) (name_inj hr he).symm

/-- The discriminator part of the configuration given to each class. -/
theorem ofJson_item (fs : Fs) {iz : Bool} {base : Int} {d : Discriminator} (h : DWF iz base d) (data : Str) :
    Discriminator.ofJson fs ((item d data).mergePatch (rbase iz base)) =
      (Discriminator.setRAMsData fs (Json.ofIntss d.mapping) (rbase iz base) data).bind
        (fun rams => .ok { d with rams := rams }) := by
  have h1 : (item d data).mergePatch (rbase iz base) = .obj [(b!"base", .int base), (b!"count", .int d.count),
      (b!"data", .str data), (b!"entrySize", .int d.entrySize), (b!"ignoreZero", .bool iz),
      (b!"mapping", Json.ofIntss d.mapping)] := rfl
  rw [h1]
  exact ofJson_members fs d.entrySize d.count d.mapping iz base data h.entry h.count _ rfl rfl rfl rfl rfl rfl

/-- All options that survive. -/
def keptOpts (o : WisardOpts) : WisardOpts := { o with mapping := [], searchBestConfidence := false }

/-- The configuration object with the classes, keys in order. -/
def cfgOf (A : Int) (o : WisardOpts) (c : Json) : List (Str × Json) :=
  [(b!"addressSize", .int A), (b!"base", .int o.base), (b!"bleachingActivated", .bool o.bleachingActivated),
    (b!"classes", c), (b!"completeAddressing", .bool o.completeAddressing), (b!"confidence", .int o.confidence),
    (b!"ignoreZero", .bool o.ignoreZero), (b!"indexes", Json.ofInts o.indexes),
    (b!"returnActivationDegree", .bool o.returnActivationDegree), (b!"returnClassesDegrees", .bool o.returnClassesDegrees),
    (b!"returnConfidence", .bool o.returnConfidence), (b!"verbose", .bool o.verbose),
    (b!"version", .str version)]

set_option maxHeartbeats 2000000 in
theorem getConfig_eq (A : Int) (o : WisardOpts) (ds : SMap Discriminator) (c : Json) :
    (Wisard.getConfig ⟨A, o, ds⟩).setKey b!"classes" c = .ok (.obj (cfgOf A o c)) := rfl

set_option maxHeartbeats 2000000 in
theorem optsOfJson_eq (A : Int) (o : WisardOpts) (ds : SMap Discriminator) (c : Json) (hb : InI32 o.base)
    (hc : InI32 o.confidence) (hi : ∀ a ∈ o.indexes, InI32 a) :
    ∃ cfg, (Wisard.getConfig ⟨A, o, ds⟩).setKey b!"classes" c = .ok cfg ∧ Wisard.optsOfJson cfg = .ok (keptOpts o) ∧
      cfg.key b!"addressSize" = .ok (.int A) ∧ cfg.key b!"classes" = .ok c := by
  refine ⟨_, getConfig_eq A o ds c, ?_, rfl, rfl⟩
  generalize hcfg : Json.obj (cfgOf A o c) = cfg
  have k1 : cfg.key b!"bleachingActivated" = .ok (.bool o.bleachingActivated) := by rw [← hcfg]; rfl
  have kv : cfg.key b!"verbose" = .ok (.bool o.verbose) := by rw [← hcfg]; rfl
  have k2 : cfg.key b!"ignoreZero" = .ok (.bool o.ignoreZero) := by rw [← hcfg]; rfl
  have k3 : cfg.key b!"completeAddressing" = .ok (.bool o.completeAddressing) := by rw [← hcfg]; rfl
  have k4 : cfg.key b!"mapping" = .ok .null := by rw [← hcfg]; rfl
  have k5 : cfg.key b!"indexes" = .ok (Json.ofInts o.indexes) := by rw [← hcfg]; rfl
  have k6 : cfg.key b!"base" = .ok (.int o.base) := by rw [← hcfg]; rfl
  have k7 : cfg.key b!"confidence" = .ok (.int o.confidence) := by rw [← hcfg]; rfl
  have k8 : cfg.key b!"searchBestConfidence" = .ok .null := by rw [← hcfg]; rfl
  have k9 : cfg.key b!"returnConfidence" = .ok (.bool o.returnConfidence) := by rw [← hcfg]; rfl
  have k10 : cfg.key b!"returnActivationDegree" = .ok (.bool o.returnActivationDegree) := by rw [← hcfg]; rfl
  have k11 : cfg.key b!"returnClassesDegrees" = .ok (.bool o.returnClassesDegrees) := by rw [← hcfg]; rfl
  have hints : (Json.ofInts o.indexes).isNull = false := rfl
  unfold Wisard.optsOfJson
  simp only [Json.opt, k1, kv, k2, k3, k4, k5, k6, k7, k8, k9, k10, k11, Except.bind_ok, hints, Json.isNull, Json.asBool,
    Json.asInts_ofInts _ hi, Json.asInt_int hb, Json.asInt_int hc, Bool.false_eq_true, if_false, if_true]
  rfl

/-- Round trip of a Wisard. -/
theorem wisard_roundtrip (it : IterOrder) (huge : Bool) (path : Str) (random : Nat → Str) (w : Wisard)
    (hA : InI32 w.addressSize) (hb : InI32 w.opts.base) (hc : InI32 w.opts.confidence) (hi : ∀ a ∈ w.opts.indexes, InI32 a)
    (hs : SMap.Sorted w.discriminators)
    (hw : ∀ e ∈ w.discriminators, DWF w.opts.ignoreZero w.opts.base e.2)
    (hn : ∀ e ∈ w.discriminators, e.2.rams ≠ [])
    (hne : ∀ e ∈ w.discriminators, ∀ r ∈ e.2.rams, r.positions ≠ [])
    (hlen : ∀ e ∈ w.discriminators, 16 * (e.2.rams.map (fun r => r.positions.length)).sum + e.2.rams.length ≤ 2147483648)
    (fs fs' : Fs)
    (hf : huge = true → ∀ k l d, w.discriminators[k]? = some (l, d) → fs' (nameOf path random k l) = some (textOf it d)) :
    ∃ j, w.json it fs huge path random = .ok (fsAfter it huge path random w.discriminators 0 fs, j) ∧
      Wisard.ofJson fs' j =
        .ok ⟨w.addressSize, keptOpts w.opts, w.discriminators.map (fun e => (e.1, reloadD it e.2))⟩ := by
  obtain ⟨cfg, h1, h2, h3, h4⟩ := optsOfJson_eq w.addressSize w.opts w.discriminators
    (if w.discriminators.isEmpty then .null else .obj (itemsOf it huge path random w.discriminators 0)) hb hc hi
  refine ⟨cfg, ?_, ?_⟩
  · unfold Wisard.json
    rw [classesJson_eq it huge path random w.discriminators fs hne hs, Except.bind_ok]
    simp only
    rw [show (⟨w.addressSize, w.opts, w.discriminators⟩ : Wisard) = w from rfl] at h1
    rw [h1, Except.bind_ok]
  · unfold Wisard.ofJson
    simp only [h2, h3, h4, Except.bind_ok, Json.asInt_int hA]
    have hitems : Json.items (if w.discriminators.isEmpty then .null else .obj (itemsOf it huge path random w.discriminators 0)) =
        .ok (itemsOf it huge path random w.discriminators 0) := by
      cases hd : w.discriminators with
      | nil => rfl
      | cons e ds => rfl
    rw [hitems, Except.bind_ok]
    have := classesOfJson_eq it huge path random fs' (rbase w.opts.ignoreZero w.opts.base) w.discriminators 0 []
      (by
        intro k l d hk
        have hm : (l, d) ∈ w.discriminators := List.mem_of_getElem? hk
        rw [ofJson_item fs' (hw _ hm), Nat.zero_add]
        unfold dataOf
        cases huge with
        | false =>
          simp only [Bool.false_eq_true, if_false]
          unfold textOf
          rw [setRAMsData_joined fs' it hb d (hw _ hm).rams (hn _ hm) (hne _ hm) (hlen _ hm)]
          rfl
        | true =>
          simp only [if_true]
          have hl := hlen _ hm
          have : ∀ r ∈ d.rams, 16 * r.positions.length < 2147483648 := by
            intro r hr
            have h1 : r.positions.length ≤ (d.rams.map (fun r => r.positions.length)).sum :=
              List.single_le_sum (by simp) _ (List.mem_map_of_mem hr)
            have h2 : 0 < d.rams.length := List.length_pos_of_mem hr
            simp only at hl
            omega
          unfold nameOf
          rw [setRAMsData_file fs' it hb d (hw _ hm).rams (hne _ hm) this _ (hf rfl k l d hk)]
          rfl) hs (by simp)
    show (Wisard.classesOfJson fs' (rbase w.opts.ignoreZero w.opts.base) _ [] >>= _) = _
    rw [this, Except.bind_ok]
    rfl

theorem reload_wsim (it : IterOrder) {w : Wisard} (hw : ∀ e ∈ w.discriminators, DWF w.opts.ignoreZero w.opts.base e.2) :
    WSim w ⟨w.addressSize, keptOpts w.opts, w.discriminators.map (fun e => (e.1, reloadD it e.2))⟩ where
  addr := rfl
  opts := ⟨rfl, rfl, rfl, rfl, rfl, rfl, rfl, rfl, rfl, rfl⟩
  cls := by
    generalize w.discriminators = ds at hw
    induction ds with
    | nil => exact .nil
    | cons e ds ih =>
      exact .cons ⟨rfl, reload_dsim it (hw e (by simp)).rams (hw e (by simp)).base2⟩
        (ih (fun e he => hw e (List.mem_cons_of_mem _ he)))

theorem new_wf {rnd : Rnd} {A n : Int} {o : WisardOpts} {l : Str} {d : Discriminator}
    (h : Wisard.newDiscriminator rnd A o l n = .ok d) (hr : IntRange n o.base d.mapping) : DWF o.ignoreZero o.base d := by
  unfold Wisard.newDiscriminator at h
  split at h
  · exact byMapping_wf h hr
  · split at h
    · exact byIndex_wf h hr
    · exact shuffle_wf h hr

/-- A class that can be saved satisfies what the round trip needs. -/
theorem savable {w0 : Wisard} (h0 : w0.discriminators = []) {ops : List WOp} {l : Str} {d : Discriminator}
    (hd : (wplay w0 ops).1.discriminators.find l = some d) (hs : Savable w0 ops l d) :
    DWF w0.opts.ignoreZero w0.opts.base d ∧ d.rams ≠ [] ∧ (∀ r ∈ d.rams, r.positions ≠ []) ∧
      16 * (d.rams.map (fun r => r.positions.length)).sum + d.rams.length ≤ 2147483648 := by
  have hn : d.rams ≠ [] := by
    intro e
    have := hs.rams
    rw [show d.getNumberOfRAMS = d.rams.length from rfl, e] at this
    exact absurd this (by simp)
  rcases wplay_class w0 h0 ops l with ⟨h1, _⟩ | ⟨d0, s, h1, h2, h3, h4⟩
  · rw [h1] at hd; cases hd
  · rw [hd] at h2
    simp only [Option.some.injEq] at h2
    subst h2
    have hle := play_le s d0
    have hl : (play d0 s).1.rams.length = d0.rams.length := hle.2.length_eq.symm
    rcases h1 with rfl | ⟨rnd, n, hnew⟩
    · rw [show Discriminator.default.rams = [] from rfl] at hl
      exact absurd (List.length_eq_zero_iff.mp hl) hn
    · have hfr := newDiscriminator_fresh hnew
      have hent := play_entries s d0 0 (fun r hr => by rw [(hfr.rams r hr).1]; simp)
      have hsum := sum_le_of hent
      have hwf0 : DWF w0.opts.ignoreZero w0.opts.base d0 := by
        apply new_wf hnew
        have h5 := hs.range
        rw [hle.mapping, hle.1, hfr.entry] at h5
        exact h5
      refine ⟨hwf0.play s, hn, play_nonempty (h4 hs.learnt), ?_⟩
      have hsz := hs.size
      have hR : (play d0 s).1.getNumberOfRAMS = (play d0 s).1.rams.length := rfl
      rw [hR] at hsz
      have hmul : (play d0 s).1.rams.length * (0 + trains s) ≤ (play d0 s).1.rams.length * trainsOf l ops :=
        Nat.mul_le_mul_left _ (by omega)
      have : (play d0 s).1.rams.length * (16 * trainsOf l ops + 1) =
          16 * ((play d0 s).1.rams.length * trainsOf l ops) + (play d0 s).1.rams.length := by
        rw [Nat.mul_add, Nat.mul_one, Nat.mul_left_comm]
      omega

end Wis
