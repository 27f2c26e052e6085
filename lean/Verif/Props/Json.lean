import Verif.Lemmas.RamHandle
import Verif.Props.Discriminator
/-!
# C27–C32: saving and loading discriminators and RAM data

`json()` of the code returns a text; the model returns the value the text denotes (Model/Json). The iteration
order of the hash tables (`it`) is arbitrary, as are the file systems before saving and when loading.
-/

namespace Wis
open Spec RamData

/-- C27: a discriminator that was created with any options and used in any way (failed calls included), with at
least one successful training, is rebuilt by `Discriminator(d.json())` as a discriminator that is
indistinguishable from it. The last hypothesis says that the text is shorter than 2^31 bytes. -/
theorem C27_json_roundtrip {rnd : Rnd} {A n : Int} {o : Options} {d0 : Discriminator}
    (hc : Discriminator.create rnd A n o = .ok d0) (hr : IntRange n o.base d0.mapping) (ops : List Op)
    (ht : LearntSomething d0 ops) (hs : d0.getNumberOfRAMS * (16 * trains ops + 1) ≤ 2147483648)
    (it : IterOrder) (fs fs' : Fs) :
    let d := (play d0 ops).1
    ∃ j d', d.json it fs false [] [] = .ok (fs, j) ∧ Discriminator.ofJson fs' j = .ok d' ∧ Indistinguishable d d' := by
  intro d
  have hwf : DWF o.ignoreZero o.base d := (create_wf hc hr).play ops
  have hle := play_le ops d0
  have hn : d.rams ≠ [] := hle.rams_ne (create_ne hc)
  have hne := play_nonempty ht
  have hent : ∀ r ∈ d.rams, r.positions.length ≤ 0 + trains ops := by
    apply play_entries ops d0 0
    intro r hr'
    rw [((create_fresh hc).rams r hr').1]
    simp
  have hsum := sum_le_of hent
  have hl : d.rams.length = d0.getNumberOfRAMS := hle.2.length_eq.symm
  rw [hl, Nat.zero_add] at hsum
  obtain ⟨j, h1, h2⟩ := roundtrip hwf hn hne (by
    rw [hl]
    have : d0.getNumberOfRAMS * (16 * trains ops + 1) = 16 * (d0.getNumberOfRAMS * trains ops) + d0.getNumberOfRAMS := by
      rw [Nat.mul_add, Nat.mul_one, Nat.mul_left_comm]
    omega) it fs fs' [] []
  exact ⟨j, _, h1, h2, (reload_dsim it hwf.rams hwf.base2).indistinguishable⟩

/-- The hypotheses are met by a history with a failing call and an untraining. -/
example : ∃ d0, Discriminator.create Rnd.id 2 4 {} = .ok d0 ∧ IntRange 4 2 d0.mapping ∧
    LearntSomething d0 [.train (.vec [1]), .train (.vec [1, 0, 1, 1]), .untrain (.vec [0, 0, 1, 1])] ∧
    (play d0 [.train (.vec [1]), .train (.vec [1, 0, 1, 1]), .untrain (.vec [0, 0, 1, 1])]).2 =
      [.error (.throw .entrySize), .ok (), .ok ()] :=
  ⟨_, rfl, ⟨by decide, by decide, by decide⟩,
    ⟨[.train (.vec [1])], .vec [1, 0, 1, 1], [.untrain (.vec [0, 0, 1, 1])], rfl, by decide⟩, by decide⟩

/-! ## C28 -/

theorem dataText_untrained (it : IterOrder) (rs : List Ram) (h : ∀ r ∈ rs, r.positions = []) :
    Discriminator.dataText it rs [] = .ok [] := by
  induction rs with
  | nil => rfl
  | cons r rs ih =>
    have h0 : it.ord r.positions = [] := by
      have := it.perm r.positions
      rw [h r (by simp)] at this
      rw [h r (by simp)]
      exact List.perm_nil.mp this
    simp only [Discriminator.dataText, ramGetData, Except.bind_ok, h0]
    exact ih (fun r hr => h r (List.mem_cons_of_mem _ hr))

/-- C28 is false, for every discriminator: `Discriminator(d.json())` of a discriminator that was created but never
trained throws `std::out_of_range` (the text of its RAMs is empty, and `data.substr(data.size()-6, 6)` wraps).
This is a refutation of the property for all inputs; there is no case in which it holds. -/
theorem C28_untrained_reload_throws {rnd : Rnd} {A n : Int} {o : Options} {d : Discriminator}
    (hc : Discriminator.create rnd A n o = .ok d) (hr : IntRange n o.base d.mapping)
    (it : IterOrder) (fs fs' : Fs) :
    ∃ j, d.json it fs false [] [] = .ok (fs, j) ∧ Discriminator.ofJson fs' j = .error (.throw .stdOutOfRange) := by
  have hwf := create_wf hc hr
  rw [json_eq it fs false [] [] hwf.rams (create_ne hc)]
  unfold Discriminator.getRAMsData
  rw [if_neg (by simp), dataText_untrained it _ (fun r hr => ((create_fresh hc).rams r hr).1)]
  refine ⟨_, rfl, ?_⟩
  rw [ofJson_members fs' d.entrySize d.count d.mapping o.ignoreZero o.base _ hwf.entry hwf.count _ rfl rfl rfl rfl rfl rfl]
  rfl

/-- The same with `huge=true` and a fresh file: the reload throws as well. -/
theorem C28_untrained_huge_reload_throws {rnd : Rnd} {A n : Int} {o : Options} {d : Discriminator}
    (hc : Discriminator.create rnd A n o = .ok d) (hr : IntRange n o.base d.mapping)
    (it : IterOrder) (fs : Fs) (path random : Str) (hf : fs (path ++ random ++ b!".wdpkg") = none) :
    ∃ fs' j, d.json it fs true path random = .ok (fs', j) ∧
      Discriminator.ofJson fs' j = .error (.throw .stdOutOfRange) := by
  have hwf := create_wf hc hr
  rw [json_eq it fs true path random hwf.rams (create_ne hc)]
  unfold Discriminator.getRAMsData
  rw [if_pos rfl, fileText_joined it]
  refine ⟨_, _, rfl, ?_⟩
  rw [ofJson_members _ d.entrySize d.count d.mapping o.ignoreZero o.base _ hwf.entry hwf.count _ rfl rfl rfl rfl rfl rfl]
  simp only
  unfold Discriminator.setRAMsData
  rw [endsWith_self, Except.bind_ok, if_pos rfl, elems_ofIntss]
  have hfs : (fs.append (path ++ random ++ ramdataSufix) (joined (d.rams.map (fun r => it.ord r.positions))))
      (path ++ random ++ ramdataSufix) = some (joined (d.rams.map (fun r => it.ord r.positions))) := by
    unfold Fs.append
    rw [if_pos rfl, show fs (path ++ random ++ ramdataSufix) = none from hf]
    rfl
  rw [hfs]
  cases hd : d.rams with
  | nil => exact absurd hd (create_ne hc)
  | cons r rs =>
    have h0 : it.ord r.positions = [] := by
      have := it.perm r.positions
      rw [((create_fresh hc).rams r (by rw [hd]; simp)).1] at this
      rw [((create_fresh hc).rams r (by rw [hd]; simp)).1]
      exact List.perm_nil.mp this
    have hg : (getline (joined ((r :: rs).map (fun r => it.ord r.positions)))).1 = [] := by
      rw [List.map_cons, h0]
      cases rs with
      | nil => rfl
      | cons r' rs => rfl
    simp only [List.map_cons (f := fun r : Ram => Json.ofInts r.addresses), Discriminator.fileRams]
    rw [hg]
    have hw := hwf.rams r (by rw [hd]; simp)
    have h1 : (Json.ofList [(b!"addresses", Json.ofInts r.addresses), (b!"data", Json.str [])]).mergePatch
        (rbase o.ignoreZero o.base) = .obj [(b!"addresses", Json.ofInts r.addresses), (b!"base", .int o.base),
        (b!"data", .str []), (b!"ignoreZero", .bool o.ignoreZero)] := rfl
    have : Discriminator.ramOfData (fs.append (path ++ random ++ ramdataSufix)
        (joined (d.rams.map (fun r => it.ord r.positions)))) (rbase o.ignoreZero o.base) (Json.ofInts r.addresses) [] =
        .error (.throw .stdOutOfRange) := by
      unfold Discriminator.ramOfData Ram.ofJson
      rw [h1]
      show (Json.asBool (.bool o.ignoreZero) >>= fun ignoreZero => Json.asInt (.int o.base) >>= fun base =>
        Json.asInts (Json.ofInts r.addresses) >>= fun addresses =>
        Ram.checkLimitAddressSize addresses.length base >>= fun _ => _) = _
      simp only [Json.asBool, Except.bind_ok, Json.asInt_int hwf.baseI, Json.asInts_ofInts _ hw.addr, hw.limit]
    rw [← hd, this]
    rfl

example : ∃ d, Discriminator.create Rnd.id 2 4 {} = .ok d ∧ IntRange 4 2 d.mapping :=
  ⟨_, rfl, by decide, by decide, by decide⟩

/-! ## C29 -/

/-- C29 (partial): `json(true, path)` into a file that does not exist yet, followed by construction from that json,
gives an indistinguishable discriminator, as long as the file is not changed. Missing: the file name contains ten
random characters and the file is opened for append, so a collision (next theorem) breaks the property. -/
theorem C29_fresh_file_roundtrip_partial {rnd : Rnd} {A n : Int} {o : Options} {d0 : Discriminator}
    (hc : Discriminator.create rnd A n o = .ok d0) (hr : IntRange n o.base d0.mapping) (ops : List Op)
    (ht : LearntSomething d0 ops) (hs : 16 * trains ops < 2147483648)
    (it : IterOrder) (fs : Fs) (path random : Str) (hf : fs (path ++ random ++ b!".wdpkg") = none) :
    let d := (play d0 ops).1
    ∃ fs' j, d.json it fs true path random = .ok (fs', j) ∧
      (∀ name, name ≠ path ++ random ++ b!".wdpkg" → fs' name = fs name) ∧
      ∀ later : Fs, later (path ++ random ++ b!".wdpkg") = fs' (path ++ random ++ b!".wdpkg") →
        ∃ d', Discriminator.ofJson later j = .ok d' ∧ Indistinguishable d d' := by
  intro d
  have hwf : DWF o.ignoreZero o.base d := (create_wf hc hr).play ops
  have hle := play_le ops d0
  have hn : d.rams ≠ [] := hle.rams_ne (create_ne hc)
  have hent : ∀ r ∈ d.rams, r.positions.length ≤ 0 + trains ops := by
    apply play_entries ops d0 0
    intro r hr'
    rw [((create_fresh hc).rams r hr').1]
    simp
  obtain ⟨j, h1, h2⟩ := roundtrip_file hwf hn (play_nonempty ht)
    (fun r hr => by have := hent r hr; omega) it fs path random
  refine ⟨_, j, h1, ?_, ?_⟩
  · intro name hname
    unfold Fs.append
    exact if_neg hname
  · intro later hl
    refine ⟨_, h2 later ?_, (reload_dsim it hwf.rams hwf.base2).indistinguishable⟩
    have : later (path ++ random ++ ramdataSufix) = _ := hl
    rw [this]
    unfold Fs.append
    have hf : fs (path ++ random ++ ramdataSufix) = none := hf
    show (if (path ++ random ++ ramdataSufix) = (path ++ random ++ ramdataSufix) then
      some ((fs (path ++ random ++ ramdataSufix)).getD [] ++ _) else _) = _
    rw [if_pos rfl, hf]
    rfl

/-- C29 fails when the file exists already: for two trained discriminators `d1`, `d2` with at least two RAMs and
the same wiring and options, saved one after the other under the same file name, what is loaded from the json of
`d2` votes with its first RAM like `d1`, not like `d2`, whenever loading succeeds. -/
theorem C29_collision_returns_old_data {rnd1 rnd2 : Rnd} {A n : Int} {o : Options} {e1 e2 : Discriminator}
    (hc1 : Discriminator.create rnd1 A n o = .ok e1) (hc2 : Discriminator.create rnd2 A n o = .ok e2)
    (hr : IntRange n o.base e1.mapping) (hw : e2.mapping = e1.mapping) (h2 : 2 ≤ e1.getNumberOfRAMS)
    (ops1 ops2 : List Op) (ht1 : LearntSomething e1 ops1) (hs : 16 * trains ops1 < 2147483648)
    (it : IterOrder) (fs : Fs) (path random : Str) (hf : fs (path ++ random ++ b!".wdpkg") = none) :
    let d1 := (play e1 ops1).1
    let d2 := (play e2 ops2).1
    ∃ fs1 fs2 j1 j2, d1.json it fs true path random = .ok (fs1, j1) ∧ d2.json it fs1 true path random = .ok (fs2, j2) ∧
      ∀ d', Discriminator.ofJson fs2 j2 = .ok d' → ∀ x v v1, d'.classify x = .ok v → d1.classify x = .ok v1 →
        v.head? = v1.head? := by
  intro d1 d2
  have hwf1 : DWF o.ignoreZero o.base d1 := (create_wf hc1 hr).play ops1
  have hwf2 : DWF o.ignoreZero o.base d2 := (create_wf hc2 (by rw [hw]; exact hr)).play ops2
  have hn1 : d1.rams ≠ [] := (play_le ops1 e1).rams_ne (create_ne hc1)
  have hn2 : d2.rams ≠ [] := (play_le ops2 e2).rams_ne (create_ne hc2)
  have hne := play_nonempty ht1
  have hent : ∀ r ∈ d1.rams, r.positions.length ≤ 0 + trains ops1 := by
    apply play_entries ops1 e1 0
    intro r hr'
    rw [((create_fresh hc1).rams r hr').1]
    simp
  have hmap : d2.mapping = d1.mapping := by
    rw [(play_le ops2 e2).mapping, hw, (play_le ops1 e1).mapping]
  have hfs : fs (path ++ random ++ ramdataSufix) = none := hf
  have hl1 : 2 ≤ d1.rams.length := by
    have := (play_le ops1 e1).2.length_eq
    have h2' : 2 ≤ e1.rams.length := h2
    show 2 ≤ (play e1 ops1).1.rams.length
    omega
  obtain ⟨j1, hj1, _⟩ := roundtrip_file hwf1 hn1 hne (fun r hr => by have := hent r hr; omega) it fs path random
  refine ⟨_, (fs.append (path ++ random ++ ramdataSufix) (joined (d1.rams.map (fun r => it.ord r.positions)))).append
      (path ++ random ++ ramdataSufix) (joined (d2.rams.map (fun r => it.ord r.positions))), j1,
    .obj (members d2.entrySize d2.count d2.mapping o.ignoreZero o.base (path ++ random ++ ramdataSufix)), hj1, ?_, ?_⟩
  · rw [json_eq it _ true path random hwf2.rams hn2]
    unfold Discriminator.getRAMsData
    rw [if_pos rfl, fileText_joined it]
    rfl
  · intro d' hd' x v v1 hv hv1
    rw [ofJson_members _ d2.entrySize d2.count d2.mapping o.ignoreZero o.base _ hwf2.entry hwf2.count _ rfl rfl rfl rfl rfl rfl] at hd'
    obtain ⟨rams, hrams, hd'⟩ := bind_eq_ok hd'
    simp only [Except.ok.injEq] at hd'
    unfold Discriminator.setRAMsData at hrams
    rw [endsWith_self, Except.bind_ok, if_pos rfl, hmap, elems_ofIntss] at hrams
    have hcont : ((fs.append (path ++ random ++ ramdataSufix) (joined (d1.rams.map (fun r => it.ord r.positions)))).append
        (path ++ random ++ ramdataSufix) (joined (d2.rams.map (fun r => it.ord r.positions))))
        (path ++ random ++ ramdataSufix) = some (joined (d1.rams.map (fun r => it.ord r.positions)) ++
          joined (d2.rams.map (fun r => it.ord r.positions))) := by
      unfold Fs.append
      rw [if_pos rfl, if_pos rfl, hfs]
      rfl
    rw [hcont] at hrams
    generalize hfs2 : (fs.append (path ++ random ++ ramdataSufix) (joined (d1.rams.map (fun r => it.ord r.positions)))).append
        (path ++ random ++ ramdataSufix) (joined (d2.rams.map (fun r => it.ord r.positions))) = fs2 at hrams
    cases hrs : d1.rams with
    | nil => exact absurd hrs hn1
    | cons r rs =>
      cases rs with
      | nil => rw [hrs] at hl1; simp at hl1
      | cons r' rs =>
        rw [hrs] at hrams
        have hj : joined ((r :: r' :: rs).map (fun r => it.ord r.positions)) =
          seg (it.ord r.positions) ++ c!"." :: joined ((r' :: rs).map (fun r => it.ord r.positions)) := rfl
        rw [hj, List.append_assoc, List.cons_append] at hrams
        simp only [List.map_cons (f := fun r : Ram => Json.ofInts r.addresses), Discriminator.fileRams] at hrams
        rw [getline_append_dot _ _ (seg_no_dot _)] at hrams
        have hr1 : r ∈ d1.rams := by rw [hrs]; simp
        have hseg := ramOfData_seg fs2 it (hwf1.rams r hr1) hwf1.baseI (hne r hr1)
          (by have := hent r hr1; omega)
        rw [hseg, Except.bind_ok] at hrams
        obtain ⟨rs', hrs', hrams⟩ := bind_eq_ok hrams
        simp only [Except.ok.injEq] at hrams
        have hsim := (reload_sim it (hwf1.rams r hr1) hwf1.base2).getVote x
        unfold Discriminator.classify at hv hv1
        obtain ⟨_, _, hv⟩ := bind_eq_ok hv
        obtain ⟨_, _, hv1⟩ := bind_eq_ok hv1
        rw [← hd', ← hrams] at hv
        rw [hrs] at hv1
        simp only [Discriminator.votes] at hv hv1
        rw [hsim] at hv
        obtain ⟨a, ha, hv⟩ := bind_eq_ok hv
        obtain ⟨b, hb, hv⟩ := bind_eq_ok hv
        obtain ⟨a', ha', hv1⟩ := bind_eq_ok hv1
        obtain ⟨b', hb', hv1⟩ := bind_eq_ok hv1
        rw [ha] at ha'
        simp only [Except.ok.injEq] at ha' hv hv1
        rw [← hv, ← hv1, ha']
        rfl

/-- The hypotheses are met: two discriminators with the same explicit wiring, trained with different images. -/
example : ∃ e1 e2, Discriminator.create Rnd.id 2 4 { indexes := [3, 1, 0, 2] } = .ok e1 ∧
    Discriminator.create Rnd.id 2 4 { indexes := [3, 1, 0, 2] } = .ok e2 ∧ IntRange 4 2 e1.mapping ∧
    e2.mapping = e1.mapping ∧ 2 ≤ e1.getNumberOfRAMS ∧ LearntSomething e1 [.train (.vec [1, 0, 1, 1])] ∧
    LearntSomething e2 [.train (.vec [0, 0, 0, 0])] :=
  ⟨_, _, rfl, rfl, ⟨by decide, by decide, by decide⟩, rfl, by decide,
    ⟨[], .vec [1, 0, 1, 1], [], rfl, by decide⟩, ⟨[], .vec [0, 0, 0, 0], [], rfl, by decide⟩⟩

/-- And loading after the collision does succeed, with the wrong contents: the second discriminator, trained with
zeros only, votes for the image the first one was trained with. -/
example :
    let d1 := (play (match Discriminator.create Rnd.id 2 4 { indexes := [3, 1, 0, 2] } with | .ok d => d | .error _ => .default)
      [.train (.vec [1, 0, 1, 1])]).1
    let d2 := (play (match Discriminator.create Rnd.id 2 4 { indexes := [3, 1, 0, 2] } with | .ok d => d | .error _ => .default)
      [.train (.vec [0, 0, 0, 0])]).1
    d2.classify (.vec [1, 0, 1, 1]) = .ok [0, 0] ∧
    (match d1.json IterOrder.id (fun _ => none) true [] b!"aaaaaaaaaa" with
      | .ok (fs1, _) =>
        match d2.json IterOrder.id fs1 true [] b!"aaaaaaaaaa" with
        | .ok (fs2, j2) =>
          match Discriminator.ofJson fs2 j2 with
          | .ok d' => d'.classify (.vec [1, 0, 1, 1])
          | .error e => .error e
        | .error e => .error e
      | .error e => .error e) = .ok [1, 1] := by
  decide +kernel

/-! ## C30, C31, C32 -/

/-- C31: `compare` returns true exactly when both handles hold the same RAM indexes and, for each, the same
address/value pairs. (No iteration order occurs: the result does not depend on it.) -/
theorem C31_compare_iff_same {h h' : RamData} (hm : Made h) (hm' : Made h') :
    h.compare h' = true ↔ SameContents h h' := compare_iff (made_wf hm) (made_wf hm')

/-- C31: `compare` is an equivalence. -/
theorem C31_compare_equivalence :
    (∀ h, Made h → h.compare h = true) ∧
    (∀ h h', Made h → Made h' → h.compare h' = true → h'.compare h = true) ∧
    (∀ a b c, Made a → Made b → Made c → a.compare b = true → b.compare c = true → a.compare c = true) := by
  refine ⟨fun h hm => ?_, fun h h' hm hm' => ?_, fun a b c ha hb hc => ?_⟩
  · rw [C31_compare_iff_same hm hm]
    exact fun r => ⟨Iff.rfl, fun _ => rfl⟩
  · rw [C31_compare_iff_same hm hm', C31_compare_iff_same hm' hm]
    exact fun h r => ⟨(h r).1.symm, fun a => ((h r).2 a).symm⟩
  · rw [C31_compare_iff_same ha hb, C31_compare_iff_same hb hc, C31_compare_iff_same ha hc]
    exact fun h1 h2 r => ⟨(h1 r).1.trans (h2 r).1, fun a => ((h1 r).2 a).trans ((h2 r).2 a)⟩

/-- Two handles made in different ways, equal and unequal. -/
example :
    let a := (RamData.ofRam []).set 0 1 5 |>.set 0 2 7
    let b := (RamData.ofRam []).set 0 2 7 |>.set 0 1 5
    Made a ∧ Made b ∧ a ≠ b ∧ a.compare b = true ∧ a.compare (b.set 0 1 6) = false :=
  ⟨.set _ _ _ (by decide) (.set _ _ _ (by decide) (.ram List.nodup_nil (by simp))),
    .set _ _ _ (by decide) (.set _ _ _ (by decide) (.ram List.nodup_nil (by simp))), by decide, by decide, by decide⟩

/-- C30: for a handle with the RAMs `0 … n-1`, each with at least one entry, `data()` returns a text `t`, and
`RAMDataHandle(t)` is a handle that compares equal (if `t` is shorter than 2^31 bytes). -/
theorem C30_handle_text_roundtrip {h : RamData} (hm : Made h) {n : Nat} (hn : 0 < n)
    (hr : ∀ r, Has h r ↔ 0 ≤ r ∧ r < n) (hne : ∀ r, Has h r → NonEmptyRam h r) (it : IterOrder) (fs : Fs) :
    ∃ t, (∀ fuel, n ≤ fuel → h.data it fuel = (h, some (.ok t))) ∧
      (t.length < 2147483648 → ∃ h', RamData.ofText fs t = .ok h' ∧ h'.compare h = true) := by
  have hw := made_wf hm
  have hl : h.ramdata.length = n := by
    rw [← length_rkeys]
    exact range_length hw.keys (fun r => has_iff.symm.trans (hr r))
  let f : Nat → RamT := fun i => (find h.ramdata i).getD []
  have hf : ∀ i, i < n → find h.ramdata i = some (f i) := by
    intro i hi
    obtain ⟨m, hm⟩ := (hr i).mpr ⟨by omega, by omega⟩
    show _ = some ((find h.ramdata i).getD [])
    rw [hm]; rfl
  have hfmem : ∀ i, i < n → ((i : Int), f i) ∈ h.ramdata := fun i hi => mem_of_find (hf i hi)
  have hfne : ∀ i, i < n → f i ≠ [] := by
    intro i hi e
    obtain ⟨a, v, hv⟩ := hne i ((hr i).mpr ⟨by omega, by omega⟩)
    unfold value at hv
    rw [hf i hi, e] at hv
    cases hv
  let ms := (List.range n).map (fun i => it.ord (f i))
  have hms : ∀ m ∈ ms, m ≠ [] ∧ m.keys.Nodup ∧ ∀ e ∈ m, InI32 e.2 := by
    intro m hm'
    obtain ⟨i, hi, rfl⟩ := List.mem_map.mp hm'
    have hi := List.mem_range.mp hi
    refine ⟨?_, keys_ord it (hw.rams _ (hfmem i hi)), ?_⟩
    · intro e
      have := it.perm (f i)
      rw [e] at this
      exact hfne i hi this.nil_eq.symm
    · intro e he
      exact hw.range _ (hfmem i hi) e ((it.perm _).mem_iff.mp he)
  have hmsne : ms ≠ [] := by
    intro e
    have := congrArg List.length e
    simp [ms] at this
    omega
  refine ⟨joined ms, ?_, ?_⟩
  · intro fuel hfu
    unfold RamData.data
    rw [dataLoop_ok it h f n hl hf n 0 [] fuel (by omega) hfu, List.nil_append]
    rw [joined_range (fun i => it.ord (f i)) n hn]
  · intro hlen
    obtain ⟨res, h1, h2, h3⟩ := textLoop_joined ms (fun m hm => (hms m hm).1) (fun m hm => (hms m hm).2.1)
      (fun m hm => (hms m hm).2.2) [] hmsne (by simp [rkeys])
    have ho : RamData.ofText fs (joined ms) = .ok ⟨res⟩ := by
      unfold RamData.ofText
      rw [joined_suffix ms hmsne (fun m hm => (hms m hm).1)]
      simp only
      rw [if_neg (by omega), h1]
    refine ⟨⟨res⟩, ho, ?_⟩
    rw [C31_compare_iff_same (.text ho) hm]
    intro r
    have hfr : find res r = if 0 ≤ r ∧ r < (n : Int) then some (it.ord (f r.toNat)) else none := by
      rw [h3 r]
      simp only [List.length_nil, ms, List.length_map, List.length_range, Int.natCast_zero, Int.sub_zero, RamData.find]
      by_cases hc : 0 ≤ r ∧ r < (n : Int)
      · rw [if_pos hc, if_pos hc, List.getElem?_map, List.getElem?_range (by omega)]
        rfl
      · rw [if_neg hc, if_neg hc]
    by_cases hc : 0 ≤ r ∧ r < (n : Int)
    · rw [if_pos hc] at hfr
      have hh := (hr r).mpr hc
      refine ⟨⟨fun _ => hh, fun _ => ⟨_, hfr⟩⟩, fun a => ?_⟩
      have hi : r.toNat < n := by omega
      have hcast : ((r.toNat : Nat) : Int) = r := Int.toNat_of_nonneg hc.1
      have := hf r.toNat hi
      rw [hcast] at this
      unfold value
      rw [this]
      show (find res r).bind _ = _
      rw [hfr]
      exact RamT.find_perm (it.perm _) (keys_ord it (hw.rams _ (hfmem _ hi))) a
    · rw [if_neg hc] at hfr
      have hnone : find h.ramdata r = none := by
        cases hx : find h.ramdata r with
        | none => rfl
        | some m => exact absurd ((hr r).mp ⟨m, hx⟩) hc
      refine ⟨⟨fun ⟨m, hm⟩ => ?_, fun hh => absurd ((hr r).mp hh) hc⟩, fun a => ?_⟩
      · have hm : find res r = some m := hm
        rw [hfr] at hm; cases hm
      · unfold value
        rw [hnone]
        show (find res r).bind _ = _
        rw [hfr]

/-- A handle with two non-empty RAMs, and the text written by one admissible iteration order. -/
example :
    let h := (RamData.ofRam []).set 0 1 5 |>.set 1 2 7
    Made h ∧ (∀ r, Has h r ↔ 0 ≤ r ∧ r < ((2 : Nat) : Int)) ∧ (∀ r, Has h r → NonEmptyRam h r) := by
  refine ⟨.set _ _ _ (by decide) (.set _ _ _ (by decide) (.ram List.nodup_nil (by simp))), ?_, ?_⟩
  · intro r
    rw [has_iff]
    show r ∈ [0, 1] ↔ _
    simp only [List.mem_cons, List.not_mem_nil, or_false]
    omega
  · intro r hr
    rw [has_iff] at hr
    have hr : r ∈ [0, 1] := hr
    simp only [List.mem_cons, List.not_mem_nil, or_false] at hr
    rcases hr with rfl | rfl
    · exact ⟨1, 5, by decide⟩
    · exact ⟨2, 7, by decide⟩

/-- C32 is false: `get(r)` of a RAM that is not there adds it, and the handle no longer compares equal to what it
was. -/
theorem C32_get_changes_handle {h : RamData} (hm : Made h) {r : Int} (hr : ¬ Has h r) :
    (h.get r).1.compare h = false := by
  by_contra hc
  rw [Bool.not_eq_false, C31_compare_iff_same (.get r hm) hm] at hc
  apply hr
  apply (hc r).1.mp
  rw [has_iff]
  have := rkeys_touch h r
  rw [if_neg (fun h' => hr (has_iff.mpr h'))] at this
  show r ∈ rkeys (h.touch r).1.ramdata
  rw [this]
  simp

/-- C32 is false: `get(r, addr)` of an address that is not there adds it with value 0. -/
theorem C32_getAddr_changes_handle {h : RamData} (hm : Made h) {r addr : Int}
    (hr : value h r (BitVec.ofInt 64 addr) = none) :
    (h.getAddr r addr).2 = 0 ∧ (h.getAddr r addr).1.compare h = false ∧
      value (h.getAddr r addr).1 r (BitVec.ofInt 64 addr) = some 0 := by
  have hnone : (h.touch r).2.find (BitVec.ofInt 64 addr) = none := by
    rw [touch_snd]
    unfold value at hr
    cases hf : find h.ramdata r with
    | none => rfl
    | some m => rw [hf] at hr; exact hr
  have heq : h.getAddr r addr = (⟨put (h.touch r).1.ramdata r ((h.touch r).2.set (BitVec.ofInt 64 addr) 0)⟩, 0) := by
    unfold RamData.getAddr
    simp only [hnone]
  have hv : value (h.getAddr r addr).1 r (BitVec.ofInt 64 addr) = some 0 := by
    rw [heq]
    unfold value
    simp only [find_put, if_true, Option.bind_some, RamT.find_set]
  refine ⟨by rw [heq], ?_, hv⟩
  by_contra hc
  rw [Bool.not_eq_false, C31_compare_iff_same (.getAddr r addr hm) hm] at hc
  rw [(hc r).2, hr] at hv
  cases hv

/-- C32 (partial): reading something that is there does not change the handle. Missing: reading what is not there
changes it (above). -/
theorem C32_reading_present_partial (h : RamData) (r : Int) :
    (Has h r → (h.get r).1 = h) ∧
    ∀ addr v, value h r (BitVec.ofInt 64 addr) = some v → h.getAddr r addr = (h, v) := by
  refine ⟨fun ⟨m, hf⟩ => ?_, fun addr v hv => ?_⟩
  · show (h.touch r).1 = h
    rw [touch_of_find hf]
  · unfold value at hv
    cases hf : find h.ramdata r with
    | none => rw [hf] at hv; cases hv
    | some m =>
      rw [hf] at hv
      unfold RamData.getAddr
      rw [touch_of_find hf]
      simp only
      rw [show m.find (BitVec.ofInt 64 addr) = some v from hv]

/-- C32 is false: with a negative RAM index `data()` does not end within 2^31 rounds: each round adds a RAM
(beyond that the code's counter no longer converts to a non-negative `int`; not modelled). -/
theorem C32_data_diverges (h : RamData) {r : Int} (hr : r < 0) (hh : Has h r) (it : IterOrder) :
    ∀ fuel, fuel ≤ 2147483648 → (h.data it fuel).2 = none := by
  intro fuel _
  exact dataLoop_diverges it hr fuel h 0 [] (has_iff.mp hh) (by omega)

/-- C32 (partial): without negative RAM indexes `data()` ends and returns a text. -/
theorem C32_data_terminates_partial {h : RamData} (hm : Made h) {K : Nat} (hk : ∀ r, Has h r → 0 ≤ r ∧ r < K)
    (it : IterOrder) : ∃ h' s, h.data it K = (h', some (.ok s)) :=
  dataLoop_terminates it K K h 0 [] (made_wf hm)
    (fun r hr => by have := hk r (has_iff.mpr hr); omega) (by omega)

/-- Handles with index -1 and with index 5 only. -/
example : Has ((RamData.ofRam []).set (-1) 1 5) (-1) ∧
    (let h := (RamData.ofRam []).set 5 1 5; Made h ∧ ∀ r, Has h r → 0 ≤ r ∧ r < ((6 : Nat) : Int)) := by
  refine ⟨has_iff.mpr (by decide), .set _ _ _ (by decide) (.ram List.nodup_nil (by simp)), ?_⟩
  intro r hr
  have hr : r ∈ [0, 5] := has_iff.mp hr
  simp only [List.mem_cons, List.not_mem_nil, or_false] at hr
  rcases hr with rfl | rfl <;> decide

/-! ## C76 -/

theorem getAddr_snd (h : RamData) (r addr : Int) :
    (h.getAddr r addr).2 = ((find h.ramdata r).bind (fun m => m.find (BitVec.ofInt 64 addr))).getD 0 := by
  unfold RamData.getAddr
  simp only [touch_snd]
  cases find h.ramdata r with
  | none => rfl
  | some m =>
    simp only [Option.getD_some, Option.bind_some]
    cases m.find (BitVec.ofInt 64 addr) <;> rfl

theorem ofInt_inj {a b : Int} (ha : InI32 a) (hb : InI32 b) (h : BitVec.ofInt 64 a = BitVec.ofInt 64 b) : a = b := by
  have := congrArg BitVec.toInt h
  rw [BitVec.toInt_ofInt, BitVec.toInt_ofInt, Int.bmod_eq_of_le (by have := ha.1; omega) (by have := ha.2; omega),
    Int.bmod_eq_of_le (by have := hb.1; omega) (by have := hb.2; omega)] at this
  exact this

/-- C76: after `set(r, addr, v)`, `get(r, addr)` is `v`, and every other address of every RAM reads as before. -/
theorem C76_set_then_get (h : RamData) (r addr v : Int) :
    ((h.set r addr v).getAddr r addr).2 = v ∧
    ∀ r' addr', InI32 addr → InI32 addr' → (r', addr') ≠ (r, addr) →
      ((h.set r addr v).getAddr r' addr').2 = (h.getAddr r' addr').2 := by
  have hfind : ∀ r', find (h.set r addr v).ramdata r' =
      if r' = r then some (((find h.ramdata r).getD []).set (BitVec.ofInt 64 addr) v) else find h.ramdata r' := by
    intro r'
    unfold RamData.set
    simp only [touch_snd, find_put]
    split
    · rfl
    · rename_i hr
      unfold RamData.touch
      cases find h.ramdata r with
      | some m => rfl
      | none => simp only [find_put, if_neg hr]
  constructor
  · rw [getAddr_snd, hfind, if_pos rfl, Option.bind_some, RamT.find_set, if_pos rfl]
    rfl
  · intro r' addr' ha ha' hne
    rw [getAddr_snd, getAddr_snd, hfind]
    by_cases hr : r' = r
    · subst hr
      have : ¬ BitVec.ofInt 64 addr' = BitVec.ofInt 64 addr := fun e => hne (by rw [ofInt_inj ha' ha e])
      rw [if_pos rfl, Option.bind_some, RamT.find_set, if_neg (by first | exact this | exact fun e => this e.symm)]
      cases find h.ramdata r' <;> rfl
    · rw [if_neg hr]

/-- Non-trivial instance: a negative address of a new RAM. -/
example : (((RamData.ofRam [(3, 7)]).set 2 (-1) 5).getAddr 2 (-1)).2 = 5 ∧
    (((RamData.ofRam [(3, 7)]).set 2 (-1) 5).getAddr 0 3).2 = 7 := by decide

end Wis
