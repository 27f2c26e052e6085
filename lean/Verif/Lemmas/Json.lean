import Verif.Model.DiscriminatorJson
import Verif.Lemmas.RamData
import Verif.Lemmas.Sim
/-! Round trip of a discriminator through its JSON value. -/

namespace Wis
open Spec RamData

theorem Json.narrow_eq {i : Int} (h : InI32 i) : Json.narrow i = i := by
  unfold Json.narrow
  rw [BitVec.toInt_ofInt]
  exact Int.bmod_eq_of_le (by have := h.1; omega) (by have := h.2; omega)

theorem Json.asInt_int {i : Int} (h : InI32 i) : (Json.int i).asInt = .ok i := by
  simp only [Json.asInt, Json.narrow_eq h]

theorem Json.asInts_ofInts (l : List Int) (h : ∀ a ∈ l, InI32 a) : (Json.ofInts l).asInts = .ok l := by
  unfold Json.ofInts Json.asInts
  induction l with
  | nil => rfl
  | cons a l ih =>
    simp only [List.map_cons, Json.intsOf, Json.asInt_int (h a (by simp)), Except.bind_ok]
    have ih := ih (fun x hx => h x (List.mem_cons_of_mem _ hx))
    simp only at ih
    rw [ih]; rfl

/-- The RAM as reloaded: same contents, in the order in which they were written. -/
def reload (it : IterOrder) (r : Ram) : Ram := { r with positions := it.ord r.positions }

/-- What the JSON constructor needs of a RAM. -/
structure RamWF (iz : Bool) (base : Int) (r : Ram) : Prop where
  izEq : r.ignoreZero = iz
  baseEq : r.base = base
  nodup : r.positions.keys.Nodup
  range : ∀ e ∈ r.positions, InI32 e.2
  limit : Ram.checkLimitAddressSize r.addresses.length base = .ok ()
  addr : ∀ a ∈ r.addresses, InI32 a

theorem keys_ord (it : IterOrder) {m : RamT} (h : m.keys.Nodup) : (RamT.keys (it.ord m)).Nodup :=
  ((it.perm m).map _).nodup_iff.mpr h

/-- The options object handed to each RAM. -/
def rbase (iz : Bool) (base : Int) : Json := Json.ofList [(b!"ignoreZero", .bool iz), (b!"base", .int base)]

theorem ramOfData_seg (fs : Fs) (it : IterOrder) {iz : Bool} {base : Int} {r : Ram} (h : RamWF iz base r)
    (hb : InI32 base) (hne : r.positions ≠ []) (hlen : 16 * r.positions.length < 2147483648) :
    Discriminator.ramOfData fs (rbase iz base) (Json.ofInts r.addresses) (seg (it.ord r.positions)) =
      .ok (reload it r) := by
  have h1 : (Json.ofList [(b!"addresses", Json.ofInts r.addresses),
      (b!"data", Json.str (seg (it.ord r.positions)))]).mergePatch (rbase iz base) =
      .obj [(b!"addresses", Json.ofInts r.addresses), (b!"base", .int base),
        (b!"data", .str (seg (it.ord r.positions))), (b!"ignoreZero", .bool iz)] := rfl
  have hp := it.perm r.positions
  have hne' : it.ord r.positions ≠ [] := by
    intro e; rw [e] at hp; exact hne hp.nil_eq.symm
  have hi : ∀ e ∈ it.ord r.positions, InI32 e.2 := fun e he => h.range e (hp.mem_iff.mp he)
  have hof := ofText_seg fs (it.ord r.positions) hne' (keys_ord it h.nodup) hi
    (by rw [seg_length, hp.length_eq]; exact hlen)
  unfold Discriminator.ramOfData Ram.ofJson
  rw [h1]
  have k1 : (Json.obj [(b!"addresses", Json.ofInts r.addresses), (b!"base", .int base),
        (b!"data", .str (seg (it.ord r.positions))), (b!"ignoreZero", .bool iz)]).key b!"ignoreZero" = .ok (.bool iz) := rfl
  have k2 : (Json.obj [(b!"addresses", Json.ofInts r.addresses), (b!"base", .int base),
        (b!"data", .str (seg (it.ord r.positions))), (b!"ignoreZero", .bool iz)]).key b!"base" = .ok (.int base) := rfl
  have k3 : (Json.obj [(b!"addresses", Json.ofInts r.addresses), (b!"base", .int base),
        (b!"data", .str (seg (it.ord r.positions))), (b!"ignoreZero", .bool iz)]).key b!"addresses" = .ok (Json.ofInts r.addresses) := rfl
  have k4 : (Json.obj [(b!"addresses", Json.ofInts r.addresses), (b!"base", .int base),
        (b!"data", .str (seg (it.ord r.positions))), (b!"ignoreZero", .bool iz)]).key b!"data" = .ok (.str (seg (it.ord r.positions))) := rfl
  rw [k1, k2, k3, k4]
  simp only [Except.bind_ok, Json.asBool, Json.asInt_int hb, Json.asInts_ofInts _ h.addr, Json.asStr, h.limit, hof]
  unfold reload
  have : (RamData.get (ofRam (it.ord r.positions)) 0).2 = it.ord r.positions := rfl
  rw [this, h.izEq.symm, h.baseEq.symm]

/-- The text of several RAMs. -/
def joined : List RamT → Str
  | [] => []
  | [m] => seg m
  | m :: ms => seg m ++ c!"." :: joined ms

theorem joined_length (ms : List RamT) : (joined ms).length + 1 = 16 * (ms.map List.length).sum + max ms.length 1 := by
  induction ms with
  | nil => rfl
  | cons m ms ih =>
    cases ms with
    | nil => simp [joined, seg_length]
    | cons m' ms =>
      have : joined (m :: m' :: ms) = seg m ++ c!"." :: joined (m' :: ms) := rfl
      rw [this, List.length_append, List.length_cons, seg_length, List.map_cons, List.sum_cons]
      simp only [List.length_cons] at ih ⊢
      omega

theorem dataText_acc (it : IterOrder) (rs : List Ram) : ∀ (acc : Str), acc ≠ [] →
    Discriminator.dataText it rs acc =
      .ok (acc ++ rs.flatMap (fun r => c!"." :: seg (it.ord r.positions))) := by
  induction rs with
  | nil => intro acc _; simp [Discriminator.dataText]
  | cons r rs ih =>
    intro acc hacc
    have hpos : acc.length > 0 := List.length_pos_iff.mpr hacc
    simp only [Discriminator.dataText, ramGetData, Except.bind_ok, hpos, if_true]
    rw [ih _ (by simp [hacc])]
    simp

theorem joined_flat (m : RamT) (ms : List RamT) : joined (m :: ms) = seg m ++ ms.flatMap (fun x => c!"." :: seg x) := by
  induction ms generalizing m with
  | nil => simp [joined]
  | cons m' ms ih =>
    have : joined (m :: m' :: ms) = seg m ++ c!"." :: joined (m' :: ms) := rfl
    rw [this, ih]
    simp

theorem dataText_eq (it : IterOrder) (rs : List Ram) (hne : ∀ r ∈ rs, r.positions ≠ []) :
    Discriminator.dataText it rs [] = .ok (joined (rs.map (fun r => it.ord r.positions))) := by
  cases rs with
  | nil => rfl
  | cons r rs =>
    simp only [Discriminator.dataText, ramGetData, Except.bind_ok]
    have hl : (seg (it.ord r.positions)) ≠ [] := by
      have h1 := seg_length (it.ord r.positions)
      rw [(it.perm _).length_eq] at h1
      have h2 := List.length_pos_iff.mpr (hne r (by simp))
      intro e; rw [e, List.length_nil] at h1; omega
    rw [if_neg (by simp), List.nil_append, dataText_acc it rs _ hl, List.map_cons, joined_flat, List.flatMap_map]

theorem fileText_eq (it : IterOrder) (rs : List Ram) (i : Nat) :
    Discriminator.fileText it rs (i + 1) = .ok (rs.flatMap (fun r => c!"." :: seg (it.ord r.positions))) := by
  induction rs generalizing i with
  | nil => rfl
  | cons r rs ih => simp [Discriminator.fileText, ramGetData, Except.bind_ok, ih]

theorem fileText_joined (it : IterOrder) (rs : List Ram) :
    Discriminator.fileText it rs 0 = .ok (joined (rs.map (fun r => it.ord r.positions))) := by
  cases rs with
  | nil => rfl
  | cons r rs =>
    simp only [Discriminator.fileText, ramGetData, Except.bind_ok, fileText_eq, List.map_cons, joined_flat, List.flatMap_map]
    simp

theorem textRams_joined (fs : Fs) (it : IterOrder) {iz : Bool} {base : Int} (hb : InI32 base) (data : Str)
    (rs : List Ram) (h : ∀ r ∈ rs, RamWF iz base r) (hne : ∀ r ∈ rs, r.positions ≠ [])
    (hlen : ∀ r ∈ rs, 16 * r.positions.length < 2147483648) :
    Discriminator.textRams fs (rbase iz base) data (rs.map (fun r => Json.ofInts r.addresses))
      (joined (rs.map (fun r => it.ord r.positions))) = .ok (rs.map (reload it)) := by
  induction rs with
  | nil => rfl
  | cons r rs ih =>
    have ih := ih (fun r hr => h r (List.mem_cons_of_mem _ hr)) (fun r hr => hne r (List.mem_cons_of_mem _ hr))
      (fun r hr => hlen r (List.mem_cons_of_mem _ hr))
    have hr := ramOfData_seg fs it (h r (by simp)) hb (hne r (by simp)) (hlen r (by simp))
    cases rs with
    | nil =>
      simp only [List.map_cons, List.map_nil, joined, Discriminator.textRams]
      rw [findFrom_none _ _ (seg_no_dot _)]
      simp only [hr, Except.bind_ok]
    | cons r' rs =>
      have : joined ((r :: r' :: rs).map (fun r => it.ord r.positions)) =
          seg (it.ord r.positions) ++ c!"." :: joined ((r' :: rs).map (fun r => it.ord r.positions)) := rfl
      rw [this, List.map_cons, Discriminator.textRams, findFrom_append _ _ _ (seg_no_dot _)]
      simp only
      have ht : (seg (it.ord r.positions) ++ c!"." :: joined ((r' :: rs).map (fun r => it.ord r.positions))).take
          (seg (it.ord r.positions)).length = seg (it.ord r.positions) := by simp
      have hd : (seg (it.ord r.positions) ++ c!"." :: joined ((r' :: rs).map (fun r => it.ord r.positions))).drop
          ((seg (it.ord r.positions)).length + 1) = joined ((r' :: rs).map (fun r => it.ord r.positions)) := by
        simp [List.drop_append]
      rw [ht, hd, hr, Except.bind_ok, ih, Except.bind_ok, List.map_cons (f := reload it)]
      rfl

theorem fileRams_joined (fs : Fs) (it : IterOrder) {iz : Bool} {base : Int} (hb : InI32 base)
    (rs : List Ram) (h : ∀ r ∈ rs, RamWF iz base r) (hne : ∀ r ∈ rs, r.positions ≠ [])
    (hlen : ∀ r ∈ rs, 16 * r.positions.length < 2147483648) :
    Discriminator.fileRams fs (rbase iz base) (rs.map (fun r => Json.ofInts r.addresses))
      (some (joined (rs.map (fun r => it.ord r.positions)))) = .ok (rs.map (reload it)) := by
  induction rs with
  | nil => rfl
  | cons r rs ih =>
    have ih := ih (fun r hr => h r (List.mem_cons_of_mem _ hr)) (fun r hr => hne r (List.mem_cons_of_mem _ hr))
      (fun r hr => hlen r (List.mem_cons_of_mem _ hr))
    have hr := ramOfData_seg fs it (h r (by simp)) hb (hne r (by simp)) (hlen r (by simp))
    cases rs with
    | nil =>
      simp only [List.map_cons, List.map_nil, joined, Discriminator.fileRams]
      rw [getline_no_dot _ (seg_no_dot _)]
      simp only [hr, Except.bind_ok]
    | cons r' rs =>
      have : joined ((r :: r' :: rs).map (fun r => it.ord r.positions)) =
          seg (it.ord r.positions) ++ c!"." :: joined ((r' :: rs).map (fun r => it.ord r.positions)) := rfl
      rw [this, List.map_cons, Discriminator.fileRams, getline_append_dot _ _ (seg_no_dot _)]
      simp only
      rw [hr, Except.bind_ok, ih, Except.bind_ok, List.map_cons (f := reload it)]
      rfl

/-- The members of `json()`. -/
def members (entrySize count : Int) (mapping : List (List Int)) (iz : Bool) (base : Int) (data : Str) :
    List (Str × Json) :=
  [(b!"base", .int base), (b!"count", .int count), (b!"data", .str data), (b!"entrySize", .int entrySize),
    (b!"ignoreZero", .bool iz), (b!"mapping", Json.ofIntss mapping), (b!"version", .str version)]

theorem json_eq (it : IterOrder) (fs : Fs) {iz : Bool} {base : Int} {d : Discriminator} (huge : Bool) (path random : Str)
    (h : ∀ r ∈ d.rams, RamWF iz base r) (hn : d.rams ≠ []) :
    d.json it fs huge path random = (d.getRAMsData it fs huge path random).bind
      (fun p => .ok (p.1, .obj (members d.entrySize d.count d.mapping iz base p.2))) := by
  unfold Discriminator.json
  have : d.withRamConfig (d.getConfig true) = .obj [(b!"base", .int base), (b!"count", .int d.count),
      (b!"entrySize", .int d.entrySize), (b!"ignoreZero", .bool iz), (b!"mapping", Json.ofIntss d.mapping)] := by
    unfold Discriminator.withRamConfig
    cases hr : d.rams with
    | nil => exact absurd hr hn
    | cons r rs =>
      have h1 := h r (by rw [hr]; simp)
      show (Json.obj (d.getConfig true)).mergePatch r.getConfig = _
      unfold Ram.getConfig
      rw [h1.izEq, h1.baseEq]
      rfl
  rw [this]
  cases d.getRAMsData it fs huge path random with
  | error e => rfl
  | ok p => rfl

theorem ofJson_members (fs : Fs) (e c : Int) (m : List (List Int)) (iz : Bool) (base : Int) (data : Str)
    (he : InI32 e) (hc : InI32 c) (l : List (Str × Json))
    (k1 : (Json.obj l).key b!"entrySize" = .ok (.int e)) (k2 : (Json.obj l).key b!"count" = .ok (.int c))
    (k3 : (Json.obj l).key b!"data" = .ok (.str data)) (k4 : (Json.obj l).key b!"mapping" = .ok (Json.ofIntss m))
    (k5 : (Json.obj l).key b!"ignoreZero" = .ok (.bool iz)) (k6 : (Json.obj l).key b!"base" = .ok (.int base)) :
    Discriminator.ofJson fs (.obj l) =
      (Discriminator.setRAMsData fs (Json.ofIntss m) (rbase iz base) data).bind
        (fun rams => .ok { entrySize := e, count := c, rams := rams }) := by
  unfold Discriminator.ofJson
  rw [k1, k2, k3, k4, k5, k6]
  simp only [Except.bind_ok, Json.asInt_int he, Json.asInt_int hc, Json.asStr]
  rfl

theorem elems_ofIntss (d : Discriminator) : (Json.ofIntss d.mapping).elems = d.rams.map (fun r => Json.ofInts r.addresses) := by
  simp [Json.ofIntss, Json.elems, Discriminator.mapping]

theorem joined_last (m : RamT) (ms : List RamT) : ∃ pre, joined (m :: ms) = pre ++ seg ((m :: ms).getLast (by simp)) := by
  induction ms generalizing m with
  | nil => exact ⟨[], by simp [joined]⟩
  | cons m' ms ih =>
    obtain ⟨pre, hp⟩ := ih m'
    refine ⟨seg m ++ c!"." :: pre, ?_⟩
    have : joined (m :: m' :: ms) = seg m ++ c!"." :: joined (m' :: ms) := rfl
    have hg : (m :: m' :: ms).getLast (by simp) = (m' :: ms).getLast (by simp) := rfl
    rw [this, hp, hg]
    simp

theorem joined_suffix (ms : List RamT) (hn : ms ≠ []) (hne : ∀ m ∈ ms, m ≠ []) :
    endsWith (joined ms) ramdataSufix = .ok false := by
  cases ms with
  | nil => exact absurd rfl hn
  | cons m ms =>
    obtain ⟨pre, hp⟩ := joined_last m ms
    rw [hp]
    apply endsWith_no_dot _ _ (seg_no_dot _)
    have := List.length_pos_iff.mpr (hne _ (List.getLast_mem (l := m :: ms) (by simp)))
    rw [seg_length]
    omega

theorem endsWith_self (pre s : Str) : endsWith (pre ++ s) s = .ok true := by
  unfold endsWith
  rw [if_neg (by simp)]
  simp

theorem setRAMsData_joined (fs : Fs) (it : IterOrder) {iz : Bool} {base : Int} (hb : InI32 base)
    (d : Discriminator) (h : ∀ r ∈ d.rams, RamWF iz base r) (hn : d.rams ≠ []) (hne : ∀ r ∈ d.rams, r.positions ≠ [])
    (hlen : 16 * (d.rams.map (fun r => r.positions.length)).sum + d.rams.length ≤ 2147483648) :
    Discriminator.setRAMsData fs (Json.ofIntss d.mapping) (rbase iz base)
      (joined (d.rams.map (fun r => it.ord r.positions))) = .ok (d.rams.map (reload it)) := by
  have hl := joined_length (d.rams.map (fun r => it.ord r.positions))
  have hmap : (d.rams.map (fun r => it.ord r.positions)).map List.length = d.rams.map (fun r => r.positions.length) := by
    rw [List.map_map]
    apply List.map_congr_left
    intro r _
    exact (it.perm _).length_eq
  have hpos := List.length_pos_iff.mpr hn
  rw [hmap, List.length_map, max_eq_left (by omega)] at hl
  unfold Discriminator.setRAMsData
  rw [joined_suffix _ (by simpa using hn) (by
    intro m hm
    obtain ⟨r, hr, rfl⟩ := List.mem_map.mp hm
    intro e
    have := (it.perm r.positions)
    rw [e] at this
    exact hne r hr this.nil_eq.symm), Except.bind_ok, if_neg (by simp), if_neg (by omega), elems_ofIntss]
  apply textRams_joined fs it hb _ _ h hne
  intro r hr
  have := List.single_le_sum (l := d.rams.map (fun r => r.positions.length)) (by simp) _ (List.mem_map.mpr ⟨r, hr, rfl⟩)
  omega

theorem setRAMsData_file (fs : Fs) (it : IterOrder) {iz : Bool} {base : Int} (hb : InI32 base)
    (d : Discriminator) (h : ∀ r ∈ d.rams, RamWF iz base r) (hne : ∀ r ∈ d.rams, r.positions ≠ [])
    (hlen : ∀ r ∈ d.rams, 16 * r.positions.length < 2147483648) (name : Str)
    (hf : fs (name ++ ramdataSufix) = some (joined (d.rams.map (fun r => it.ord r.positions)))) :
    Discriminator.setRAMsData fs (Json.ofIntss d.mapping) (rbase iz base) (name ++ ramdataSufix) =
      .ok (d.rams.map (reload it)) := by
  unfold Discriminator.setRAMsData
  rw [endsWith_self, Except.bind_ok, if_pos rfl, hf, elems_ofIntss]
  exact fileRams_joined fs it hb _ h hne hlen

theorem reload_sim (it : IterOrder) {iz : Bool} {base : Int} {r : Ram} (h : RamWF iz base r) (hb : 2 ≤ base) :
    RamSim r (reload it r) where
  addr := rfl
  iz := rfl
  base := rfl
  base2 := by rw [h.baseEq]; exact hb
  nodup := h.nodup
  nodup' := keys_ord it h.nodup
  find k := RamT.find_perm (it.perm _) (keys_ord it h.nodup) k

theorem reload_dsim (it : IterOrder) {iz : Bool} {base : Int} {d : Discriminator} (h : ∀ r ∈ d.rams, RamWF iz base r)
    (hb : 2 ≤ base) : DSim d { d with rams := d.rams.map (reload it) } where
  entry := rfl
  count := rfl
  rams := by
    show List.Forall₂ RamSim d.rams (d.rams.map (reload it))
    generalize d.rams = rs at h
    induction rs with
    | nil => exact .nil
    | cons r rs ih =>
      exact .cons (reload_sim it (h r (by simp)) hb) (ih (fun r hr => h r (List.mem_cons_of_mem _ hr)))

/-! ## The invariant -/

theorem RamWF.set {iz : Bool} {base : Int} {r : Ram} (h : RamWF iz base r) (k : Addr) {c : Int} (hc : InI32 c) :
    RamWF iz base { r with positions := r.positions.set k c } where
  izEq := h.izEq
  baseEq := h.baseEq
  nodup := RamT.nodup_set h.nodup k c
  range := by
    rintro ⟨k', c'⟩ he
    have := RamT.find_of_mem (RamT.nodup_set h.nodup k c) he
    rw [RamT.find_set] at this
    split at this
    · simp only [Option.some.injEq] at this; subst this; exact hc
    · exact h.range (k', c') (RamT.mem_keys_of_find this)
  limit := h.limit
  addr := h.addr

theorem i32_range {x y : Int} (h : i32 x = .ok y) : InI32 y := by
  unfold i32 at h
  split at h
  · simp only [Except.ok.injEq] at h; subst h; assumption
  · cases h

theorem RamWF.train {iz : Bool} {base : Int} {r : Ram} (h : RamWF iz base r) (img : Image) :
    RamWF iz base (r.train img).1 := by
  unfold Ram.train
  cases r.getIndex img with
  | error e => exact h
  | ok k =>
    cases hf : r.positions.find k with
    | none => simp only [hf]; exact h.set k (by decide)
    | some c =>
      simp only [hf]
      cases hc : i32 (c + 1) with
      | error e => exact h
      | ok c' => exact h.set k (i32_range hc)

theorem RamWF.untrain {iz : Bool} {base : Int} {r : Ram} (h : RamWF iz base r) (img : Image) :
    RamWF iz base (r.untrain img).1 := by
  unfold Ram.untrain
  cases r.getIndex img with
  | error e => exact h
  | ok k =>
    cases hf : r.positions.find k with
    | none => simp only [hf]; exact h
    | some c =>
      simp only [hf]
      cases hc : i32 (c - 1) with
      | error e => exact h
      | ok c' => exact h.set k (i32_range hc)

theorem trainRams_wf {iz : Bool} {base : Int} (img : Image) (rs : List Ram) (h : ∀ r ∈ rs, RamWF iz base r) :
    ∀ r ∈ (Discriminator.trainRams img rs).1, RamWF iz base r := by
  induction rs with
  | nil => exact h
  | cons r rs ih =>
    have h1 := (h r (by simp)).train img
    have h2 := fun r hr => h r (List.mem_cons_of_mem _ hr)
    simp only [Discriminator.trainRams]
    split
    · rename_i r' e
      rw [e] at h1
      intro s hs
      rcases List.mem_cons.mp hs with rfl | hs
      · exact h1
      · exact ih h2 s hs
    · rename_i r' e' e
      rw [e] at h1
      intro s hs
      rcases List.mem_cons.mp hs with rfl | hs
      · exact h1
      · exact h2 s hs

theorem untrainRams_wf {iz : Bool} {base : Int} (img : Image) (rs : List Ram) (h : ∀ r ∈ rs, RamWF iz base r) :
    ∀ r ∈ (Discriminator.untrainRams img rs).1, RamWF iz base r := by
  induction rs with
  | nil => exact h
  | cons r rs ih =>
    have h1 := (h r (by simp)).untrain img
    have h2 := fun r hr => h r (List.mem_cons_of_mem _ hr)
    simp only [Discriminator.untrainRams]
    split
    · rename_i r' e
      rw [e] at h1
      intro s hs
      rcases List.mem_cons.mp hs with rfl | hs
      · exact h1
      · exact ih h2 s hs
    · rename_i r' e' e
      rw [e] at h1
      intro s hs
      rcases List.mem_cons.mp hs with rfl | hs
      · exact h1
      · exact h2 s hs

/-- Invariant of a created discriminator. -/
structure DWF (iz : Bool) (base : Int) (d : Discriminator) : Prop where
  base2 : 2 ≤ base
  baseI : InI32 base
  entry : InI32 d.entrySize
  count : InI32 d.count
  rams : ∀ r ∈ d.rams, RamWF iz base r

theorem DWF.train {iz : Bool} {base : Int} {d : Discriminator} (h : DWF iz base d) (img : Image) :
    DWF iz base (d.train img).1 := by
  unfold Discriminator.train
  cases d.checkEntrySize img.size with
  | error e => exact h
  | ok u =>
    simp only
    cases hc : i32 (d.count + 1) with
    | error e => exact h
    | ok c => exact ⟨h.base2, h.baseI, h.entry, i32_range hc, trainRams_wf img _ h.rams⟩

theorem DWF.untrain {iz : Bool} {base : Int} {d : Discriminator} (h : DWF iz base d) (img : Image) :
    DWF iz base (d.untrain img).1 := by
  unfold Discriminator.untrain
  cases d.checkEntrySize img.size with
  | error e => exact h
  | ok u =>
    simp only
    cases hc : i32 (d.count - 1) with
    | error e => exact h
    | ok c => exact ⟨h.base2, h.baseI, h.entry, i32_range hc, untrainRams_wf img _ h.rams⟩

theorem DWF.play {iz : Bool} {base : Int} (ops : List Op) : ∀ {d : Discriminator}, DWF iz base d →
    DWF iz base (Spec.play d ops).1 := by
  induction ops with
  | nil => intro d h; exact h
  | cons o ops ih =>
    intro d h
    cases o with
    | train img => exact ih (h.train img)
    | untrain img => exact ih (h.untrain img)

/-- A created RAM passed the check of its address size. -/
theorem ramCreate_limit {is : List Int} {iz : Bool} {base : Int} {r : Ram} (h : Ram.create is iz base = .ok r) :
    Ram.checkLimitAddressSize r.addresses.length base = .ok () ∧ r.ignoreZero = iz ∧ r.base = base ∧ r.positions = [] ∧
      r.addresses = is := by
  unfold Ram.create at h
  obtain ⟨u, h1, h⟩ := bind_eq_ok h
  simp only [Except.ok.injEq] at h
  subst h
  exact ⟨h1, rfl, rfl, rfl, rfl⟩

theorem ramCreate_wf {is : List Int} {iz : Bool} {base : Int} {r : Ram} (h : Ram.create is iz base = .ok r)
    (hi : ∀ a ∈ r.addresses, InI32 a) : RamWF iz base r := by
  obtain ⟨h1, h2, h3, h4, _⟩ := ramCreate_limit h
  exact ⟨h2, h3, by rw [h4]; exact List.nodup_nil, by rw [h4]; simp, h1, hi⟩

theorem ramsFrom_wf {is : List Int} {A : Nat} {iz : Bool} {base : Int} (k : Nat) : ∀ {i : Nat} {rs : List Ram},
    Discriminator.ramsFrom is A iz base k i = .ok rs → (∀ r ∈ rs, ∀ a ∈ r.addresses, InI32 a) →
    ∀ r ∈ rs, RamWF iz base r := by
  induction k with
  | zero => intro i rs h; simp only [Discriminator.ramsFrom, Except.ok.injEq] at h; subst h; simp
  | succ k ih =>
    intro i rs h hi
    simp only [Discriminator.ramsFrom] at h
    obtain ⟨_, _, h⟩ := bind_eq_ok h
    obtain ⟨r, hr, h⟩ := bind_eq_ok h
    obtain ⟨rs', hrs, h⟩ := bind_eq_ok h
    simp only [Except.ok.injEq] at h
    subst h
    intro s hs
    rcases List.mem_cons.mp hs with rfl | hs
    · exact ramCreate_wf hr (hi s (by simp))
    · exact ih hrs (fun r hr => hi r (List.mem_cons_of_mem _ hr)) s hs

theorem ramsOfMapping_wf {iz : Bool} {base : Int} (ms : List (List Int)) : ∀ {rs : List Ram},
    Discriminator.ramsOfMapping iz base ms = .ok rs → (∀ r ∈ rs, ∀ a ∈ r.addresses, InI32 a) →
    ∀ r ∈ rs, RamWF iz base r := by
  induction ms with
  | nil => intro rs h; simp only [Discriminator.ramsOfMapping, Except.ok.injEq] at h; subst h; simp
  | cons m ms ih =>
    intro rs h hi
    simp only [Discriminator.ramsOfMapping] at h
    obtain ⟨r, hr, h⟩ := bind_eq_ok h
    obtain ⟨rs', hrs, h⟩ := bind_eq_ok h
    simp only [Except.ok.injEq] at h
    subst h
    intro s hs
    rcases List.mem_cons.mp hs with rfl | hs
    · exact ramCreate_wf hr (hi s (by simp))
    · exact ih hrs (fun r hr => hi r (List.mem_cons_of_mem _ hr)) s hs

theorem byMapping_wf {m : List (List Int)} {n base : Int} {iz : Bool} {d : Discriminator}
    (h : Discriminator.setRAMByMapping m n iz base = .ok d) (hr : IntRange n base d.mapping) : DWF iz base d := by
  unfold Discriminator.setRAMByMapping at h
  obtain ⟨_, hb, h⟩ := bind_eq_ok h
  obtain ⟨rs, hrs, h⟩ := bind_eq_ok h
  simp only [Except.ok.injEq] at h
  subst h
  refine ⟨checkBase_ok hb, hr.2.1, hr.1, (by decide : InI32 0), ramsOfMapping_wf _ hrs ?_⟩
  intro r hr' a ha
  exact hr.2.2 r.addresses (List.mem_map.mpr ⟨r, hr', rfl⟩) a ha

theorem byIndex_wf {is : List Int} {n A base : Int} {iz : Bool} {d : Discriminator}
    (h : Discriminator.setRAMByIndex is n A iz base = .ok d) (hr : IntRange n base d.mapping) : DWF iz base d := by
  unfold Discriminator.setRAMByIndex at h
  obtain ⟨_, _, h⟩ := bind_eq_ok h
  obtain ⟨_, hb, h⟩ := bind_eq_ok h
  obtain ⟨_, _, h⟩ := bind_eq_ok h
  obtain ⟨rs, hrs, h⟩ := bind_eq_ok h
  simp only [Except.ok.injEq] at h
  subst h
  refine ⟨checkBase_ok hb, hr.2.1, hr.1, (by decide : InI32 0), ramsFrom_wf _ hrs ?_⟩
  intro r hr' a ha
  exact hr.2.2 r.addresses (List.mem_map.mpr ⟨r, hr', rfl⟩) a ha

theorem shuffle_wf {rnd : Rnd} {n A base : Int} {iz c : Bool} {d : Discriminator}
    (h : Discriminator.setRAMShuffle rnd n A iz c base = .ok d) (hr : IntRange n base d.mapping) : DWF iz base d := by
  unfold Discriminator.setRAMShuffle at h
  obtain ⟨_, _, h⟩ := bind_eq_ok h
  obtain ⟨_, hb, h⟩ := bind_eq_ok h
  obtain ⟨_, _, h⟩ := bind_eq_ok h
  obtain ⟨_, _, h⟩ := bind_eq_ok h
  obtain ⟨rs, hrs, h⟩ := bind_eq_ok h
  simp only [Except.ok.injEq] at h
  subst h
  refine ⟨checkBase_ok hb, hr.2.1, hr.1, (by decide : InI32 0), ramsFrom_wf _ hrs ?_⟩
  intro r hr' a ha
  exact hr.2.2 r.addresses (List.mem_map.mpr ⟨r, hr', rfl⟩) a ha

theorem create_wf {rnd : Rnd} {A n : Int} {o : Options} {d : Discriminator}
    (h : Discriminator.create rnd A n o = .ok d) (hr : IntRange n o.base d.mapping) : DWF o.ignoreZero o.base d := by
  unfold Discriminator.create at h
  split at h
  · exact byMapping_wf h hr
  · split at h
    · exact byIndex_wf h hr
    · exact shuffle_wf h hr

/-! ## Number of entries -/

theorem knows_ne {img : Image} {rs : List Ram} (h : Knows img rs) : ∀ r ∈ rs, r.positions ≠ [] := by
  intro r hr e
  obtain ⟨k, _, hk⟩ := h r hr
  rw [e] at hk
  simp [RamT.keys] at hk

theorem trainRams_entries (img : Image) (rs : List Ram) (N : Nat) (h : ∀ r ∈ rs, r.positions.length ≤ N) :
    ∀ r ∈ (Discriminator.trainRams img rs).1, r.positions.length ≤ N + 1 := by
  induction rs with
  | nil => intro r hr; cases hr
  | cons r rs ih =>
    have h1 := (ramTrain_le r img).2.1
    have h0 := h r (by simp)
    have h2 := fun r hr => h r (List.mem_cons_of_mem _ hr)
    simp only [Discriminator.trainRams]
    split
    · rename_i r' e
      rw [e] at h1
      intro s hs
      rcases List.mem_cons.mp hs with rfl | hs
      · simp only at h1; omega
      · exact ih h2 s hs
    · rename_i r' e' e
      rw [e] at h1
      intro s hs
      rcases List.mem_cons.mp hs with rfl | hs
      · simp only at h1; omega
      · have := h2 s hs; omega

theorem untrainRams_entries (img : Image) (rs : List Ram) (N : Nat) (h : ∀ r ∈ rs, r.positions.length ≤ N) :
    ∀ r ∈ (Discriminator.untrainRams img rs).1, r.positions.length ≤ N := by
  induction rs with
  | nil => intro r hr; cases hr
  | cons r rs ih =>
    have h1 := (ramUntrain_le r img).2
    have h0 := h r (by simp)
    have h2 := fun r hr => h r (List.mem_cons_of_mem _ hr)
    simp only [Discriminator.untrainRams]
    split
    · rename_i r' e
      rw [e] at h1
      intro s hs
      rcases List.mem_cons.mp hs with rfl | hs
      · simp only at h1; omega
      · exact ih h2 s hs
    · rename_i r' e' e
      rw [e] at h1
      intro s hs
      rcases List.mem_cons.mp hs with rfl | hs
      · simp only at h1; omega
      · exact h2 s hs

theorem train_entries (d : Discriminator) (img : Image) (N : Nat) (h : ∀ r ∈ d.rams, r.positions.length ≤ N) :
    ∀ r ∈ (d.train img).1.rams, r.positions.length ≤ N + 1 := by
  unfold Discriminator.train
  have h' : ∀ r ∈ d.rams, r.positions.length ≤ N + 1 := fun r hr => Nat.le_succ_of_le (h r hr)
  cases d.checkEntrySize img.size with
  | error e => exact h'
  | ok u =>
    simp only
    cases hc : i32 (d.count + 1) with
    | error e => exact h'
    | ok c => exact trainRams_entries img _ N h

theorem untrain_entries (d : Discriminator) (img : Image) (N : Nat) (h : ∀ r ∈ d.rams, r.positions.length ≤ N) :
    ∀ r ∈ (d.untrain img).1.rams, r.positions.length ≤ N := by
  unfold Discriminator.untrain
  cases d.checkEntrySize img.size with
  | error e => exact h
  | ok u =>
    simp only
    cases hc : i32 (d.count - 1) with
    | error e => exact h
    | ok c => exact untrainRams_entries img _ N h

theorem play_entries (ops : List Op) : ∀ (d : Discriminator) (N : Nat), (∀ r ∈ d.rams, r.positions.length ≤ N) →
    ∀ r ∈ (play d ops).1.rams, r.positions.length ≤ N + trains ops := by
  induction ops with
  | nil => intro d N h; exact h
  | cons o ops ih =>
    intro d N h
    cases o with
    | train img =>
      have h1 := train_entries d img N h
      have ht : trains (Op.train img :: ops) = trains ops + 1 := rfl
      rw [ht]
      intro r hr
      have := ih _ (N + 1) h1 r hr
      omega
    | untrain img => exact ih _ N (untrain_entries d img N h)

theorem play_append (a : List Op) : ∀ (b : List Op) (d : Discriminator), (play d (a ++ b)).1 = (play (play d a).1 b).1 := by
  induction a with
  | nil => intro b d; rfl
  | cons o a ih =>
    intro b d
    cases o with
    | train img => exact ih b _
    | untrain img => exact ih b _

theorem play_le (ops : List Op) : ∀ d : Discriminator, DLe d (play d ops).1 := by
  induction ops with
  | nil => intro d; exact .refl d
  | cons o ops ih =>
    intro d
    cases o with
    | train img => exact (train_le d img).trans (ih _)
    | untrain img => exact (untrain_le d img).trans (ih _)

theorem train_knows {d d' : Discriminator} {img : Image} (h : d.train img = (d', .ok ())) : Knows img d'.rams := by
  unfold Discriminator.train at h
  split at h
  · cases h
  · split at h
    · cases h
    · simp only [Prod.mk.injEq] at h
      rw [← h.1]
      exact trainRams_knows _ h.2

theorem play_nonempty {ops : List Op} {d : Discriminator} (h : LearntSomething d ops) :
    ∀ r ∈ (play d ops).1.rams, r.positions ≠ [] := by
  obtain ⟨a, img, b, rfl, h⟩ := h
  rw [play_append]
  have h1 := train_knows (Prod.ext rfl h : (play d a).1.train img = ((((play d a).1.train img).1, .ok ()) : Discriminator × Res Unit))
  exact knows_ne (knows_le (play_le b _).2 h1)

theorem sum_le_of {rs : List Ram} {N : Nat} (h : ∀ r ∈ rs, r.positions.length ≤ N) :
    (rs.map (fun r => r.positions.length)).sum ≤ rs.length * N := by
  induction rs with
  | nil => simp
  | cons r rs ih =>
    have h1 := h r (by simp)
    have h2 := ih (fun r hr => h r (List.mem_cons_of_mem _ hr))
    simp only [List.map_cons, List.sum_cons, List.length_cons, Nat.succ_mul]
    omega

theorem byMapping_ne {m : List (List Int)} {n base : Int} {iz : Bool} {d : Discriminator}
    (h : Discriminator.setRAMByMapping m n iz base = .ok d) (hm : m ≠ []) : d.rams ≠ [] := by
  unfold Discriminator.setRAMByMapping at h
  obtain ⟨_, hb, h⟩ := bind_eq_ok h
  obtain ⟨rs, hrs, h⟩ := bind_eq_ok h
  simp only [Except.ok.injEq] at h
  subst h
  have := (ramsOfMapping_ok (checkBase_ok hb) _ hrs).2
  intro e
  have e : rs = [] := e
  rw [e] at this
  exact hm this.symm

theorem tdiv_pos' {n A : Int} (h : 2 ≤ A ∧ A ≤ n) : 0 < (n.tdiv A).toNat := by
  rw [Int.tdiv_eq_ediv_of_nonneg (by omega)]
  have : 1 ≤ n / A := by
    rw [Int.le_ediv_iff_mul_le (by omega)]; omega
  omega

theorem byIndex_ne {is : List Int} {n A base : Int} {iz : Bool} {d : Discriminator}
    (h : Discriminator.setRAMByIndex is n A iz base = .ok d) : d.rams ≠ [] := by
  unfold Discriminator.setRAMByIndex at h
  obtain ⟨_, ha, h⟩ := bind_eq_ok h
  obtain ⟨_, hb, h⟩ := bind_eq_ok h
  obtain ⟨_, _, h⟩ := bind_eq_ok h
  obtain ⟨rs, hrs, h⟩ := bind_eq_ok h
  simp only [Except.ok.injEq] at h
  subst h
  have ha := checkAddressSize_ok ha
  have := (ramsFrom_ok (checkBase_ok hb) _ hrs).2.1
  intro e
  have e : rs = [] := e
  rw [e, List.length_nil] at this
  have := tdiv_pos' (n := n) (A := A) (by omega)
  omega

theorem shuffle_ne {rnd : Rnd} {n A base : Int} {iz c : Bool} {d : Discriminator}
    (h : Discriminator.setRAMShuffle rnd n A iz c base = .ok d) : d.rams ≠ [] := by
  unfold Discriminator.setRAMShuffle at h
  obtain ⟨_, ha, h⟩ := bind_eq_ok h
  obtain ⟨_, hb, h⟩ := bind_eq_ok h
  obtain ⟨_, _, h⟩ := bind_eq_ok h
  obtain ⟨_, _, h⟩ := bind_eq_ok h
  obtain ⟨rs, hrs, h⟩ := bind_eq_ok h
  simp only [Except.ok.injEq] at h
  subst h
  have ha := checkAddressSize_ok ha
  have := (ramsFrom_ok (checkBase_ok hb) _ hrs).2.1
  intro e
  have e : rs = [] := e
  rw [e, List.length_nil] at this
  have h1 := tdiv_pos' (n := n) (A := A) (by omega)
  split at this <;> omega

theorem create_ne {rnd : Rnd} {A n : Int} {o : Options} {d : Discriminator}
    (h : Discriminator.create rnd A n o = .ok d) : d.rams ≠ [] := by
  unfold Discriminator.create at h
  split at h
  · rename_i hm
    exact byMapping_ne h (by intro e; rw [e] at hm; simp at hm)
  · split at h
    · exact byIndex_ne h
    · exact shuffle_ne h

theorem DLe.rams_ne {d d' : Discriminator} (h : DLe d d') (hn : d.rams ≠ []) : d'.rams ≠ [] := by
  intro e
  have := h.2.length_eq
  rw [e] at this
  exact hn (List.length_eq_zero_iff.mp this)

/-- Round trip of a well-formed discriminator, in memory. -/
theorem roundtrip {iz : Bool} {base : Int} {d : Discriminator} (h : DWF iz base d) (hn : d.rams ≠ [])
    (hne : ∀ r ∈ d.rams, r.positions ≠ [])
    (hlen : 16 * (d.rams.map (fun r => r.positions.length)).sum + d.rams.length ≤ 2147483648)
    (it : IterOrder) (fs fs' : Fs) (path random : Str) :
    ∃ j, d.json it fs false path random = .ok (fs, j) ∧
      Discriminator.ofJson fs' j = .ok { d with rams := d.rams.map (reload it) } := by
  rw [json_eq it fs false path random h.rams hn]
  unfold Discriminator.getRAMsData
  rw [if_neg (by simp), dataText_eq it _ hne]
  refine ⟨_, rfl, ?_⟩
  rw [ofJson_members fs' d.entrySize d.count d.mapping iz base _ h.entry h.count _ rfl rfl rfl rfl rfl rfl,
    setRAMsData_joined fs' it h.baseI d h.rams hn hne hlen]
  rfl

/-- Round trip of a well-formed discriminator through a fresh file. -/
theorem roundtrip_file {iz : Bool} {base : Int} {d : Discriminator} (h : DWF iz base d) (hn : d.rams ≠ [])
    (hne : ∀ r ∈ d.rams, r.positions ≠ []) (hlen : ∀ r ∈ d.rams, 16 * r.positions.length < 2147483648)
    (it : IterOrder) (fs : Fs) (path random : Str) :
    ∃ j, d.json it fs true path random =
        .ok (fs.append (path ++ random ++ ramdataSufix) (joined (d.rams.map (fun r => it.ord r.positions))), j) ∧
      ∀ fs', fs' (path ++ random ++ ramdataSufix) = some (joined (d.rams.map (fun r => it.ord r.positions))) →
        Discriminator.ofJson fs' j = .ok { d with rams := d.rams.map (reload it) } := by
  rw [json_eq it fs true path random h.rams hn]
  unfold Discriminator.getRAMsData
  rw [if_pos rfl, fileText_joined it]
  refine ⟨_, rfl, fun fs' hf' => ?_⟩
  rw [ofJson_members fs' d.entrySize d.count d.mapping iz base _ h.entry h.count _ rfl rfl rfl rfl rfl rfl]
  simp only
  rw [setRAMsData_file fs' it h.baseI d h.rams hne hlen _ hf']
  rfl

end Wis
