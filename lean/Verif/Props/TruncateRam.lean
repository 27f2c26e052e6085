import Verif.Lemmas.TruncateRam
import Verif.Props.Truncate
import Verif.Props.Json
/-!
# C103, C104: data files of saved models that were cut off or are missing

`json(true, path)` writes the RAM contents into a file and does not check that the writes succeed
(discriminator.cc:260-271); on a full disk the file keeps the first bytes only.
-/

namespace Wis
open Spec RamData

namespace Spec

/-- Position in the data file of the text of RAM `k`: 16 characters per stored pattern, RAMs separated by one dot. -/
def ramStart (d : Discriminator) (k : Nat) : Nat := ((d.rams.take k).map (fun r => 16 * r.positions.length + 1)).sum

end Spec

theorem off_eq (it : IterOrder) (d : Discriminator) (k : Nat) :
    off (d.rams.map (fun r => it.ord r.positions)) k = ramStart d k := by
  unfold off ramStart
  rw [← List.map_take, List.map_map]
  congr 1
  apply List.map_congr_left
  intro r _
  simp only [Function.comp, (it.perm _).length_eq]

theorem RamT.find_take {m : RamT} (j : Nat) (k : Addr) :
    RamT.find (m.take j) k = RamT.find m k ∨ RamT.find (m.take j) k = none := by
  induction m generalizing j with
  | nil => left; simp
  | cons e m ih =>
    obtain ⟨k', c⟩ := e
    cases j with
    | zero => right; rfl
    | succ j =>
      simp only [List.take_succ_cons, RamT.find]
      split
      · left; rfl
      · exact ih j

theorem getVote_congr {r r' : Ram} (ha : r'.addresses = r.addresses) (hi : r'.ignoreZero = r.ignoreZero)
    (hb : r'.base = r.base) (img : Image) : r'.getIndex img = r.getIndex img := by
  unfold Ram.getIndex
  rw [ha, hb]

/-- The vote of a RAM that lost patterns. -/
theorem getVote_less {r : Ram} {p : RamT} (hp : ∀ k, RamT.find p k = RamT.find r.positions k ∨ RamT.find p k = none)
    {img : Image} {v : Int} (h : r.getVote img = .ok v) :
    ∃ v', ({ r with positions := p } : Ram).getVote img = .ok v' ∧ (v' = v ∨ v' = 0) ∧
      (p = [] → v' = 0) ∧ ((∀ k, RamT.find p k = RamT.find r.positions k) → v' = v) := by
  unfold Ram.getVote at h ⊢
  rw [getVote_congr (r := r) (r' := { r with positions := p }) rfl rfl rfl]
  cases hi : r.getIndex img with
  | error e => rw [hi] at h; cases h
  | ok index =>
    rw [hi] at h
    simp only [Except.bind_ok] at h ⊢
    by_cases hz : (r.ignoreZero && decide (index = 0)) = true
    · rw [if_pos hz] at h ⊢
      have h := Except.ok.inj h
      exact ⟨0, rfl, .inr rfl, fun _ => rfl, fun _ => h⟩
    · rw [if_neg hz] at h ⊢
      refine ⟨(RamT.find p index).getD 0, ?_, ?_, ?_, ?_⟩
      · cases RamT.find p index <;> rfl
      · rcases hp index with e | e
        · rw [e]
          cases hf : RamT.find r.positions index with
          | none => rw [hf] at h; right; rfl
          | some c => rw [hf] at h; left; exact Except.ok.inj h
        · rw [e]; right; rfl
      · intro h0; rw [h0]; rfl
      · intro he
        rw [he]
        cases hf : RamT.find r.positions index with
        | none => rw [hf] at h; exact Except.ok.inj h
        | some c => rw [hf] at h; exact Except.ok.inj h

theorem votes_getElem {img : Image} : ∀ {rs : List Ram} {w : List Int}, Discriminator.votes img rs = .ok w →
    w.length = rs.length ∧ ∀ k (h : k < rs.length) (h' : k < w.length), rs[k].getVote img = .ok w[k] := by
  intro rs
  induction rs with
  | nil => intro w h; cases Except.ok.inj h; simp
  | cons r rs ih =>
    intro w h
    simp only [Discriminator.votes] at h
    cases hv : r.getVote img with
    | error e => rw [hv] at h; cases h
    | ok v =>
      rw [hv, Except.bind_ok] at h
      cases hvs : Discriminator.votes img rs with
      | error e => rw [hvs] at h; cases h
      | ok vs =>
        rw [hvs, Except.bind_ok] at h
        cases Except.ok.inj h
        obtain ⟨h1, h2⟩ := ih hvs
        refine ⟨by simp [h1], ?_⟩
        intro k hk hk'
        cases k with
        | zero => exact hv
        | succ k => exact h2 k (by simpa using hk) (by simpa using hk')

theorem votes_reload (it : IterOrder) {img : Image} {iz : Bool} {base : Int} (hb : 2 ≤ base) (last : Ram) (k : Nat) :
    ∀ {rs : List Ram} {w : List Int} {v : Int}, (∀ r ∈ rs, RamWF iz base r) → Discriminator.votes img rs = .ok w →
      last.getVote img = .ok v →
      Discriminator.votes img ((rs.take k).map (reload it) ++ [last]) = .ok (w.take k ++ [v]) := by
  induction k with
  | zero =>
    intro rs w v _ h hl
    simp [Discriminator.votes, hl, Except.bind_ok]
  | succ k ih =>
    intro rs w v hwf h hl
    cases rs with
    | nil => cases Except.ok.inj h; simp [Discriminator.votes, hl, Except.bind_ok]
    | cons r rs =>
      simp only [Discriminator.votes] at h
      cases hv : r.getVote img with
      | error e => rw [hv] at h; cases h
      | ok x =>
        rw [hv, Except.bind_ok] at h
        cases hvs : Discriminator.votes img rs with
        | error e => rw [hvs] at h; cases h
        | ok vs =>
          rw [hvs, Except.bind_ok] at h
          cases Except.ok.inj h
          have := ih (fun r hr => hwf r (List.mem_cons_of_mem _ hr)) hvs hl
          simp only [List.take_succ_cons, List.map_cons, List.cons_append, Discriminator.votes]
          rw [(reload_sim it (hwf r (by simp)) hb).getVote, hv, Except.bind_ok, this]
          rfl

/-- C103 (partial; "a damaged data file is detected" is false, see below): a trained discriminator is saved with its
data file, and of the file only the part up to `m` characters into RAM `k` remains. It is loaded exactly when `m` is
a multiple of four that is at least six; the loaded discriminator then has `k+1` RAMs (the others are missing), the RAMs
before `k` vote as they did, and RAM `k` votes as it did or zero: always zero unless `m` is a multiple of 16. -/
theorem C103_cut_file_partial {rnd : Rnd} {A n : Int} {o : Options} {d0 : Discriminator}
    (hc : Discriminator.create rnd A n o = .ok d0) (hr : IntRange n o.base d0.mapping) (ops : List Op)
    (ht : LearntSomething d0 ops) (hs : 16 * trains ops < 2147483648)
    (it : IterOrder) (fs : Fs) (path random : Str) (hf : fs (path ++ random ++ b!".wdpkg") = none)
    (k m : Nat) (hk : k < (play d0 ops).1.rams.length) (hm : m ≤ 16 * (play d0 ops).1.rams[k].positions.length) :
    let d := (play d0 ops).1
    let name := path ++ random ++ b!".wdpkg"
    ∃ fs' j, d.json it fs true path random = .ok (fs', j) ∧
      (∃ text, fs' name = some text ∧ ramStart d k + m ≤ text.length) ∧
      (¬ (6 ≤ m ∧ m % 4 = 0) →
        Discriminator.ofJson (cutFile fs' name (ramStart d k + m)) j =
          .error (if m < 6 then .throw .stdOutOfRange else .ub .outOfBounds)) ∧
      (6 ≤ m ∧ m % 4 = 0 → ∃ d', Discriminator.ofJson (cutFile fs' name (ramStart d k + m)) j = .ok d' ∧
        d'.getNumberOfRAMS = k + 1 ∧ d'.getNumberOfTrainings = d.getNumberOfTrainings ∧
        d'.mapping = d.mapping.take (k + 1) ∧
        ∀ img w, d.classify img = .ok w → ∃ v, d'.classify img = .ok (w.take k ++ [v]) ∧
          (v = 0 ∨ w[k]? = some v) ∧ (m % 16 ≠ 0 → v = 0) ∧
          (m = 16 * d.rams[k].positions.length → w[k]? = some v)) := by
  intro d name
  have hwf : DWF o.ignoreZero o.base d := (create_wf hc hr).play ops
  have hle := play_le ops d0
  have hn : d.rams ≠ [] := hle.rams_ne (create_ne hc)
  have hent : ∀ r ∈ d.rams, r.positions.length ≤ 0 + trains ops := by
    apply play_entries ops d0 0
    intro r hr'
    rw [((create_fresh hc).rams r hr').1]
    simp
  have hlen : ∀ r ∈ d.rams, 16 * r.positions.length < 2147483648 := fun r hr => by have := hent r hr; omega
  have hne := play_nonempty ht
  have hkm := List.getElem_mem hk
  rw [json_eq it fs true path random hwf.rams hn]
  unfold Discriminator.getRAMsData
  rw [if_pos rfl, fileText_joined it]
  refine ⟨_, _, rfl, ?_⟩
  have hfile : (fs.append name (joined (d.rams.map (fun r => it.ord r.positions)))) name =
      some (joined (d.rams.map (fun r => it.ord r.positions))) := by
    unfold Fs.append
    rw [if_pos rfl, show fs name = none from hf]
    rfl
  have hseg : (seg (it.ord d.rams[k].positions)).length = 16 * d.rams[k].positions.length := by
    rw [seg_length, (it.perm _).length_eq]
  have hcutk : (joined (d.rams.map (fun r => it.ord r.positions))).take (ramStart d k + m) =
      ((d.rams.map (fun r => it.ord r.positions)).take k).flatMap (fun r => seg r ++ b!".") ++
        (seg (it.ord d.rams[k].positions)).take m := by
    have := joined_cut k (d.rams.map (fun r => it.ord r.positions)) m (by simpa using hk)
      (by simp only [List.getElem_map]; rw [hseg]; exact hm)
    rw [off_eq] at this
    simpa using this
  have hload : Discriminator.ofJson (cutFile (fs.append name (joined (d.rams.map (fun r => it.ord r.positions)))) name
      (ramStart d k + m)) (.obj (members d.entrySize d.count d.mapping o.ignoreZero o.base name)) =
      (RamData.ofText (cutFile (fs.append name (joined (d.rams.map (fun r => it.ord r.positions)))) name
        (ramStart d k + m)) ((seg (it.ord d.rams[k].positions)).take m) >>= fun handle =>
        .ok { d with rams := (d.rams.take k).map (reload it) ++ [{ d.rams[k] with positions := (handle.get 0).2 }] }) := by
    rw [ofJson_members _ d.entrySize d.count d.mapping o.ignoreZero o.base _ hwf.entry hwf.count _ rfl rfl rfl rfl rfl rfl]
    unfold Discriminator.setRAMsData
    have hend : endsWith name ramdataSufix = .ok true := endsWith_self (path ++ random) ramdataSufix
    rw [hend, Except.bind_ok, if_pos rfl, elems_ofIntss]
    have hc2 : (cutFile (fs.append name (joined (d.rams.map (fun r => it.ord r.positions)))) name (ramStart d k + m)) name =
        some (((d.rams.map (fun r => it.ord r.positions)).take k).flatMap (fun r => seg r ++ b!".") ++
        (seg (it.ord d.rams[k].positions)).take m) := by
      unfold cutFile
      rw [if_pos rfl, hfile, ← hcutk]
      rfl
    rw [hc2]
    simp only
    rw [fileRams_cut _ it hwf.baseI _ (fun h => seg_no_dot _ (List.mem_of_mem_take h)) k d.rams hk hwf.rams hne hlen]
    cases RamData.ofText _ _ with
    | error e => rfl
    | ok handle => rfl
  have hkwf := hwf.rams _ hkm
  have hof := ofText_cut (cutFile (fs.append name (joined (d.rams.map (fun r => it.ord r.positions)))) name
    (ramStart d k + m)) (it.ord d.rams[k].positions) (keys_ord it hkwf.nodup)
    (fun e he => hkwf.range e ((it.perm _).mem_iff.mp he)) m (by rw [hseg]; exact hm) (by rw [hseg]; exact hlen _ hkm)
  refine ⟨⟨_, hfile, ?_⟩, ?_, ?_⟩
  · have h1 := congrArg List.length hcutk
    rw [List.length_take] at h1
    have h2 : (((d.rams.map (fun r => it.ord r.positions)).take k).flatMap (fun r => seg r ++ b!".")).length = ramStart d k := by
      rw [← off_eq it d k, List.length_flatMap]
      unfold off
      simp only [List.length_append, seg_length, List.length_cons, List.length_nil]
    rw [List.length_append, h2, List.length_take, hseg] at h1
    have hm' : m ≤ 16 * d.rams[k].positions.length := hm
    omega
  · intro hbad
    change Discriminator.ofJson (cutFile (fs.append name (joined (d.rams.map (fun r => it.ord r.positions)))) name (ramStart d k + m))
      (.obj (members d.entrySize d.count d.mapping o.ignoreZero o.base name)) = _
    rw [hload, hof]
    by_cases h6 : m < 6
    · rw [if_pos h6, if_pos h6]; rfl
    · rw [if_neg h6, if_neg h6, if_pos (by omega)]; rfl
  · intro hgood
    change ∃ d', Discriminator.ofJson (cutFile (fs.append name (joined (d.rams.map (fun r => it.ord r.positions)))) name (ramStart d k + m))
      (.obj (members d.entrySize d.count d.mapping o.ignoreZero o.base name)) = _ ∧ _
    rw [hload, hof, if_neg (by omega), if_neg (by omega)]
    have main : ∀ p : RamT, (∀ a, RamT.find p a = RamT.find d.rams[k].positions a ∨ RamT.find p a = none) →
        (m % 16 ≠ 0 → p = []) → (m = 16 * d.rams[k].positions.length → ∀ a, RamT.find p a = RamT.find d.rams[k].positions a) →
        let d' : Discriminator := { d with rams := (d.rams.take k).map (reload it) ++ [{ d.rams[k] with positions := p }] }
        d'.getNumberOfRAMS = k + 1 ∧ d'.getNumberOfTrainings = d.getNumberOfTrainings ∧
        d'.mapping = d.mapping.take (k + 1) ∧
        ∀ img w, d.classify img = .ok w → ∃ v, d'.classify img = .ok (w.take k ++ [v]) ∧
          (v = 0 ∨ w[k]? = some v) ∧ (m % 16 ≠ 0 → v = 0) ∧
          (m = 16 * d.rams[k].positions.length → w[k]? = some v) := by
      intro p hp h16 hfull d'
      have hk' : k < d.rams.length := hk
      refine ⟨?_, rfl, ?_, ?_⟩
      · simp only [Discriminator.getNumberOfRAMS, d', List.length_append, List.length_map, List.length_take,
          List.length_cons, List.length_nil]
        omega
      · simp only [Discriminator.mapping, d', List.map_append, List.map_map, List.map_cons, List.map_nil]
        rw [← List.map_take, List.take_succ_eq_append_getElem hk', List.map_append]
        rfl
      · intro img w hw
        unfold Discriminator.classify at hw ⊢
        cases hce : d.checkEntrySize img.size with
        | error e => rw [hce] at hw; cases hw
        | ok u =>
          rw [hce, Except.bind_ok] at hw
          have hce' : d'.checkEntrySize img.size = .ok u := hce
          rw [hce', Except.bind_ok]
          obtain ⟨hwl, hwv⟩ := votes_getElem hw
          have hkw : k < w.length := by omega
          obtain ⟨v, hv, h1, h2, h3⟩ := getVote_less hp (hwv k hk' hkw)
          refine ⟨v, votes_reload it hwf.base2 _ k hwf.rams hw hv, ?_, fun h => h2 (h16 h), ?_⟩
          · rcases h1 with h1 | h1
            · right; rw [h1, List.getElem?_eq_getElem hkw]
            · left; exact h1
          · intro hm'
            rw [h3 (hfull hm'), List.getElem?_eq_getElem hkw]
    have hord : ∀ a, RamT.find (it.ord d.rams[k].positions) a = RamT.find d.rams[k].positions a := fun a =>
      RamT.find_perm (it.perm _) (keys_ord it hkwf.nodup) a
    by_cases h16 : m % 16 = 0
    · rw [if_pos h16, Except.bind_ok]
      refine ⟨_, rfl, ?_⟩
      refine main ((it.ord d.rams[k].positions).take (m / 16)) ?_ (fun h => absurd h16 h) ?_
      · intro a
        rw [← hord a]
        exact RamT.find_take _ a
      · intro hm' a
        rw [List.take_of_length_le (by rw [(it.perm _).length_eq]; omega)]
        exact hord a
    · rw [if_neg h16, Except.bind_ok]
      refine ⟨_, rfl, ?_⟩
      refine main [] (fun a => .inr rfl) (fun _ => rfl) ?_
      intro hm'
      omega

/-- Every position in the file is some number of characters into some RAM. -/
theorem C103_cut_positions (d : Discriminator) (n : Nat) (hne : d.rams ≠ []) (hn : n < ramStart d d.rams.length) :
    ∃ (k : Nat) (hk : k < d.rams.length) (m : Nat), m ≤ 16 * d.rams[k].positions.length ∧ n = ramStart d k + m := by
  have step : ∀ j (h : j < d.rams.length), ramStart d (j + 1) = ramStart d j + (16 * d.rams[j].positions.length + 1) := by
    intro j h
    unfold ramStart
    rw [List.take_succ_eq_append_getElem h]
    simp only [List.map_append, List.map_cons, List.map_nil, List.sum_append, List.sum_cons, List.sum_nil, Nat.add_zero]
  have : ∀ j, j ≤ d.rams.length → 0 < j → n < ramStart d j →
      ∃ (k : Nat) (hk : k < d.rams.length) (m : Nat), m ≤ 16 * d.rams[k].positions.length ∧ n = ramStart d k + m := by
    intro j
    induction j with
    | zero => intro _ h; omega
    | succ j ih =>
      intro hj _ hlt
      by_cases hc : n < ramStart d j
      · refine ih (by omega) ?_ hc
        rcases Nat.eq_zero_or_pos j with h | h
        · subst h; simp [ramStart] at hc
        · exact h
      · rw [step j (by omega)] at hlt
        exact ⟨j, by omega, n - ramStart d j, by omega, by omega⟩
  exact this d.rams.length (Nat.le_refl _) (List.length_pos_iff.mpr hne) hn

/-- The hypotheses are met: two RAMs with one pattern each; the file is cut behind the first RAM (16 characters), and in
the second one after 8 characters. -/
example : ∃ d0, Discriminator.create Rnd.id 2 4 {} = .ok d0 ∧ IntRange 4 2 d0.mapping ∧
    LearntSomething d0 [.train (.vec [1, 0, 1, 1])] ∧
    (let d := (play d0 [.train (.vec [1, 0, 1, 1])]).1
     d.rams.map (fun r => r.positions.length) = [1, 1] ∧ ramStart d 1 + 8 = 25 ∧ 6 ≤ 8 ∧ 8 % 4 = 0 ∧
     d.classify (.vec [1, 0, 1, 1]) = .ok [1, 1]) :=
  ⟨_, rfl, ⟨by decide, by decide, by decide⟩, ⟨[], .vec [1, 0, 1, 1], [], rfl, by decide⟩, by decide +kernel⟩

/-! ## C104: missing files -/

/-- C104 is false for models: a discriminator that was saved with a data file is loaded without the file, silently,
as a discriminator without RAMs: it claims the same number of trainings, and classifies every image of the right size as
an empty list of votes. -/
theorem C104_missing_model_file {rnd : Rnd} {A n : Int} {o : Options} {d0 : Discriminator}
    (hc : Discriminator.create rnd A n o = .ok d0) (hr : IntRange n o.base d0.mapping) (ops : List Op)
    (it : IterOrder) (fs : Fs) (path random : Str) :
    let d := (play d0 ops).1
    ∃ fs' j, d.json it fs true path random = .ok (fs', j) ∧
      ∀ later : Fs, later (path ++ random ++ b!".wdpkg") = none →
        ∃ d', Discriminator.ofJson later j = .ok d' ∧ d'.getNumberOfRAMS = 0 ∧ 0 < d.getNumberOfRAMS ∧
          d'.getNumberOfTrainings = d.getNumberOfTrainings ∧
          ∀ img w, d.classify img = .ok w → d'.classify img = .ok [] := by
  intro d
  have hwf : DWF o.ignoreZero o.base d := (create_wf hc hr).play ops
  have hle := play_le ops d0
  have hn : d.rams ≠ [] := hle.rams_ne (create_ne hc)
  rw [json_eq it fs true path random hwf.rams hn]
  unfold Discriminator.getRAMsData
  rw [if_pos rfl, fileText_joined it]
  refine ⟨_, _, rfl, ?_⟩
  intro later hl
  have hl : later (path ++ random ++ ramdataSufix) = none := hl
  refine ⟨{ d with rams := [] }, ?_, rfl, List.length_pos_iff.mpr hn, rfl, ?_⟩
  · rw [ofJson_members _ d.entrySize d.count d.mapping o.ignoreZero o.base _ hwf.entry hwf.count _ rfl rfl rfl rfl rfl rfl]
    unfold Discriminator.setRAMsData
    simp only
    rw [endsWith_self, Except.bind_ok, if_pos rfl, hl]
    rfl
  · intro img w hw
    unfold Discriminator.classify at hw ⊢
    cases hce : d.checkEntrySize img.size with
    | error e => rw [hce] at hw; cases hw
    | ok u =>
      have hce' : ({ d with rams := [] } : Discriminator).checkEntrySize img.size = .ok u := hce
      rw [hce']
      rfl

/-- C104 is false for the data classes: `DataSet(name)` and `RAMDataHandle(name)` of a file that does not exist are empty
objects. -/
theorem C104_missing_data_files (fs : Fs) (pre : Str) :
    (fs (pre ++ b!".wpkds") = none → ∃ d, DataSet.load fs (pre ++ b!".wpkds") = .ok d ∧ d.size = 0) ∧
    (fs (pre ++ b!".wdpkg") = none → ∃ h, RamData.ofText fs (pre ++ b!".wdpkg") = .ok h ∧ ∀ r, ¬ Has h r) := by
  constructor
  · intro h
    refine ⟨{}, ?_, rfl⟩
    unfold DataSet.load
    have : endsWith (pre ++ b!".wpkds") datasetSufix = .ok true := DataSet.endsWith_append _ _
    rw [this, Except.bind_ok, if_pos rfl, h]
  · intro h
    refine ⟨⟨[]⟩, ?_, ?_⟩
    · unfold RamData.ofText
      have : endsWith (pre ++ b!".wdpkg") ramdataSufix = .ok true := endsWith_self _ _
      rw [this]
      simp only [h]
    · intro r hh
      rw [RamData.has_iff] at hh
      simp [RamData.rkeys] at hh

/-- C104 (partial): only a file name that does not end in `.wpkds` is refused. -/
theorem C104_wrong_name_partial (fs : Fs) (name : Str) (h : ∀ pre, name ≠ pre ++ b!".wpkds") :
    Throws (DataSet.load fs name) := by
  unfold DataSet.load endsWith
  by_cases hl : name.length < datasetSufix.length
  · rw [if_pos hl]; exact ⟨_, rfl⟩
  · rw [if_neg hl]
    have : (List.drop (name.length - datasetSufix.length) name == datasetSufix) = false := by
      rw [beq_eq_false_iff_ne]
      intro e
      apply h (name.take (name.length - datasetSufix.length))
      conv => lhs; rw [← List.take_append_drop (name.length - datasetSufix.length) name, e]
      rfl
    rw [this]
    exact ⟨_, rfl⟩

example : (∀ pre : Str, b!"data.txt" ≠ pre ++ b!".wpkds") := by
  intro pre h
  have := congrArg (fun s => s.drop (s.length - 1)) h
  simp at this

end Wis
