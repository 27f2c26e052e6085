import Verif.Props.Json
/-!
# C105: RAMDataHandle files
-/

namespace Wis
open Spec RamData

namespace RamData

theorem dot_split {s : Str} (h : c!"." ∈ s) : ∃ a b, c!"." ∉ a ∧ s = a ++ c!"." :: b := by
  induction s with
  | nil => simp at h
  | cons c s ih =>
    by_cases hc : c = c!"."
    · exact ⟨[], s, by simp, by simp [hc]⟩
    · have : c!"." ∈ s := by
        rcases List.mem_cons.mp h with h | h
        · exact absurd h.symm hc
        · exact h
      obtain ⟨a, b, h1, h2⟩ := ih this
      refine ⟨c :: a, b, ?_, by simp [h2]⟩
      intro hm
      rcases List.mem_cons.mp hm with h | h
      · exact hc h.symm
      · exact h1 h

theorem fileLoop_none (m : List (Int × RamT)) (s : Str) (h : c!"." ∉ s) :
    fileLoop m s = match dataToRam s with
      | .error e => .error e
      | .ok r => .ok (push m r) := by
  rw [fileLoop]
  rw [getline_no_dot _ h]
  simp only
  cases dataToRam s <;> rfl

theorem fileLoop_some (m : List (Int × RamT)) (a b : Str) (h : c!"." ∉ a) :
    fileLoop m (a ++ c!"." :: b) = match dataToRam a with
      | .error e => .error e
      | .ok r => fileLoop (push m r) b := by
  rw [fileLoop]
  split
  · rename_i hd
    rw [getline_append_dot _ _ h] at hd
    simp only at hd
    rw [hd]
  · rename_i hd
    rw [getline_append_dot _ _ h] at hd
    simp only at hd
    rw [hd]
    split
    · rename_i hg
      rw [getline_append_dot _ _ h] at hg
      cases hg
    · rename_i hg
      rw [getline_append_dot _ _ h] at hg
      simp only [Option.some.injEq] at hg
      rw [hg]

/-- A file is read like a text. -/
theorem fileLoop_eq_textLoop (n : Nat) : ∀ (m : List (Int × RamT)) (s : Str), s.length ≤ n → fileLoop m s = textLoop m s := by
  induction n with
  | zero =>
    intro m s h
    have hs : c!"." ∉ s := by
      have : s = [] := List.length_eq_zero_iff.mp (by omega)
      simp [this]
    rw [fileLoop_none _ _ hs, textLoop_none _ _ hs]
    cases dataToRam s <;> rfl
  | succ n ih =>
    intro m s h
    by_cases hs : c!"." ∈ s
    · obtain ⟨a, b, ha, rfl⟩ := dot_split hs
      rw [fileLoop_some _ _ _ ha, textLoop_some _ _ _ ha]
      simp only [List.length_append, List.length_cons] at h
      cases dataToRam a with
      | error e => rfl
      | ok r => exact ih _ b (by omega)
    · rw [fileLoop_none _ _ hs, textLoop_none _ _ hs]
      cases dataToRam s <;> rfl

end RamData

/-- C105: a handle made from a file is the handle made from the contents of the file as a text, whatever the contents
(if they could be given as a text: at least 6 and less than 2^31 bytes, not ending in `.wdpkg`). -/
theorem C105_file_as_text (fs fs' : Fs) (pre text : Str) (hf : fs (pre ++ b!".wdpkg") = some text)
    (h1 : endsWith text ramdataSufix = .ok false) (h2 : text.length < 2147483648) :
    RamData.ofText fs (pre ++ b!".wdpkg") = RamData.ofText fs' text := by
  have h0 : endsWith (pre ++ b!".wdpkg") ramdataSufix = .ok true := endsWith_self _ _
  unfold RamData.ofText
  rw [h0, h1]
  simp only [hf]
  rw [if_neg (by omega), fileLoop_eq_textLoop _ _ _ (Nat.le_refl _)]

/-- C105: for a handle with the RAMs `0 … n-1`, each with at least one entry, `save(prefix)` into a new file succeeds,
changes neither the handle nor any other file, and `RAMDataHandle(prefix + ".wdpkg")` compares equal to the handle. -/
theorem C105_save_load {h : RamData} (hm : Made h) {n : Nat} (hn : 0 < n)
    (hr : ∀ r, Has h r ↔ 0 ≤ r ∧ r < n) (hne : ∀ r, Has h r → NonEmptyRam h r) (it : IterOrder) (fs : Fs) (pre : Str)
    (hf : fs (pre ++ b!".wdpkg") = none) (fuel : Nat) (hfu : n ≤ fuel) :
    ∃ fs', h.save it fuel fs pre = (h, some (.ok fs')) ∧
      (∀ name, name ≠ pre ++ b!".wdpkg" → fs' name = fs name) ∧
      ((∀ t, fs' (pre ++ b!".wdpkg") = some t → t.length < 2147483648) →
        ∃ h', RamData.ofText fs' (pre ++ b!".wdpkg") = .ok h' ∧ h'.compare h = true) := by
  obtain ⟨t, h1, h2⟩ := C30_handle_text_roundtrip hm hn hr hne it (fun _ => none)
  have h1 := h1 fuel hfu
  unfold RamData.data at h1
  refine ⟨fs.append (pre ++ ramdataSufix) t, ?_, ?_, ?_⟩
  · unfold RamData.save
    rw [h1]
  · intro name hname
    unfold Fs.append
    exact if_neg hname
  · have hfile : (fs.append (pre ++ ramdataSufix) t) (pre ++ b!".wdpkg") = some t := by
      change Fs.append fs (pre ++ b!".wdpkg") t (pre ++ b!".wdpkg") = _
      simp [Fs.append, hf]
    intro hlen
    have hlen := hlen t hfile
    obtain ⟨h', ho, hc⟩ := h2 hlen
    refine ⟨h', ?_, hc⟩
    have hsuf : endsWith t ramdataSufix = .ok false := by
      cases he : endsWith t ramdataSufix with
      | error e => unfold RamData.ofText at ho; rw [he] at ho; cases ho
      | ok b =>
        cases b with
        | false => rfl
        | true =>
          unfold RamData.ofText at ho
          rw [he] at ho
          cases Except.ok.inj ho
          obtain ⟨m, hm0⟩ := (hr 0).mpr ⟨by omega, by omega⟩
          cases hd : h.ramdata with
          | nil => rw [hd] at hm0; cases hm0
          | cons e es =>
            unfold RamData.compare at hc
            rw [hd] at hc
            simp at hc
    rw [C105_file_as_text _ (fun _ => none) pre t hfile hsuf hlen, ho]

/-! ### Saving twice -/

namespace RamData

/-- Loading gives as many RAMs as there are texts in the file. -/
theorem fileLoop_count (n : Nat) : ∀ (m m' : List (Int × RamT)) (s : Str), s.length ≤ n →
    (∀ k ∈ rkeys m, k < (m.length : Int)) → fileLoop m s = .ok m' → m'.length = m.length + s.count c!"." + 1 := by
  have step : ∀ (m : List (Int × RamT)) (r : RamT), (∀ k ∈ rkeys m, k < (m.length : Int)) →
      (push m r).length = m.length + 1 ∧ ∀ k ∈ rkeys (push m r), k < ((push m r).length : Int) := by
    intro m r hk
    have hnk : (m.length : Int) ∉ rkeys m := fun hc => by have := hk _ hc; omega
    have hpl : (push m r).length = m.length + 1 := by
      unfold push; rw [put_length, if_neg hnk]
    refine ⟨hpl, ?_⟩
    intro k hk'
    unfold push at hk'
    rw [rkeys_put, if_neg hnk] at hk'
    rw [hpl]
    rcases List.mem_append.mp hk' with h | h
    · have := hk k h; push_cast; omega
    · simp only [List.mem_singleton] at h; subst h; push_cast; omega
  induction n with
  | zero =>
    intro m m' s h hk ho
    have hs : s = [] := List.length_eq_zero_iff.mp (by omega)
    subst hs
    rw [fileLoop_none _ _ (by simp)] at ho
    cases hd : dataToRam [] with
    | error e => rw [hd] at ho; cases ho
    | ok r =>
      rw [hd] at ho
      cases Except.ok.inj ho
      simpa using (step m r hk).1
  | succ n ih =>
    intro m m' s h hk ho
    by_cases hs : c!"." ∈ s
    · obtain ⟨a, b, ha, rfl⟩ := dot_split hs
      rw [fileLoop_some _ _ _ ha] at ho
      simp only [List.length_append, List.length_cons] at h
      cases hd : dataToRam a with
      | error e => rw [hd] at ho; cases ho
      | ok r =>
        rw [hd] at ho
        obtain ⟨h1, h2⟩ := step m r hk
        have := ih _ _ b (by omega) h2 ho
        rw [this, h1, List.count_append, List.count_eq_zero.mpr ha, List.count_cons]
        simp
        omega
    · rw [fileLoop_none _ _ hs] at ho
      cases hd : dataToRam s with
      | error e => rw [hd] at ho; cases ho
      | ok r =>
        rw [hd] at ho
        cases Except.ok.inj ho
        rw [(step m r hk).1, List.count_eq_zero.mpr hs]

end RamData

/-- C105, the case of a file that exists already: saving a second handle under the same prefix appends to the file. What
is loaded (whenever loading succeeds) has one RAM less than the two handles together: the last RAM of the first and the
first RAM of the second are glued together. So with two or more RAMs in the first handle it never compares equal to the second. -/
theorem C105_second_save {h1 h2 : RamData} (hm1 : Made h1) (hm2 : Made h2) {n1 n2 : Nat} (hn1 : 0 < n1) (hn2 : 0 < n2)
    (hr1 : ∀ r, Has h1 r ↔ 0 ≤ r ∧ r < n1) (hr2 : ∀ r, Has h2 r ↔ 0 ≤ r ∧ r < n2)
    (it : IterOrder) (fs : Fs) (pre : Str) (hf : fs (pre ++ b!".wdpkg") = none) (fuel : Nat) (hfu1 : n1 ≤ fuel) (hfu2 : n2 ≤ fuel) :
    ∃ fs1 fs2, h1.save it fuel fs pre = (h1, some (.ok fs1)) ∧ h2.save it fuel fs1 pre = (h2, some (.ok fs2)) ∧
      ∀ h', RamData.ofText fs2 (pre ++ b!".wdpkg") = .ok h' →
        h'.ramdata.length = n1 + n2 - 1 ∧ (2 ≤ n1 → h'.compare h2 = false) := by
  have text : ∀ {h : RamData} {n : Nat}, Made h → 0 < n → (∀ r, Has h r ↔ 0 ≤ r ∧ r < n) → n ≤ fuel →
      h.ramdata.length = n ∧ ∃ t, dataLoop it fuel h 0 [] = (h, some (.ok t)) ∧ t.count c!"." + 1 = n := by
    intro h n hm hn hr hfu
    have hw := made_wf hm
    have hl : h.ramdata.length = n := by
      rw [← length_rkeys]
      exact range_length hw.keys (fun r => has_iff.symm.trans (hr r))
    refine ⟨hl, ?_⟩
    let f : Nat → RamT := fun i => (find h.ramdata i).getD []
    have hff : ∀ i, i < n → find h.ramdata i = some (f i) := by
      intro i hi
      obtain ⟨m, hm⟩ := (hr i).mpr ⟨by omega, by omega⟩
      show _ = some ((find h.ramdata i).getD [])
      rw [hm]; rfl
    refine ⟨_, dataLoop_ok it h f n hl hff n 0 [] fuel (by omega) hfu, ?_⟩
    rw [List.nil_append, joined_range (fun i => it.ord (f i)) n hn]
    have : ∀ (ms : List RamT), ms ≠ [] → (joined ms).count c!"." + 1 = ms.length := by
      intro ms
      induction ms with
      | nil => intro h; exact absurd rfl h
      | cons m ms ih =>
        intro _
        cases ms with
        | nil =>
          show (seg m).count c!"." + 1 = 1
          rw [List.count_eq_zero.mpr (seg_no_dot m)]
        | cons m' ms =>
          have := ih (by simp)
          show (seg m ++ c!"." :: joined (m' :: ms)).count c!"." + 1 = _
          rw [List.count_append, List.count_eq_zero.mpr (seg_no_dot m), List.count_cons]
          simp only [List.length_cons] at this ⊢
          simp
          omega
    have h0 := this ((List.range n).map (fun i => it.ord (f i))) (by
      intro e
      have := congrArg List.length e
      simp at this
      omega)
    simpa using h0
  obtain ⟨l1, t1, e1, c1⟩ := text hm1 hn1 hr1 hfu1
  obtain ⟨l2, t2, e2, c2⟩ := text hm2 hn2 hr2 hfu2
  refine ⟨fs.append (pre ++ ramdataSufix) t1, (fs.append (pre ++ ramdataSufix) t1).append (pre ++ ramdataSufix) t2,
    by unfold RamData.save; rw [e1], by unfold RamData.save; rw [e2], ?_⟩
  intro h' ho
  have hfile : ((fs.append (pre ++ ramdataSufix) t1).append (pre ++ ramdataSufix) t2) (pre ++ b!".wdpkg") = some (t1 ++ t2) := by
    change Fs.append (Fs.append fs (pre ++ b!".wdpkg") t1) (pre ++ b!".wdpkg") t2 (pre ++ b!".wdpkg") = _
    simp [Fs.append, hf]
  have hend : endsWith (pre ++ b!".wdpkg") ramdataSufix = .ok true := endsWith_self _ _
  unfold RamData.ofText at ho
  rw [hend] at ho
  simp only [hfile] at ho
  cases hl : fileLoop [] (t1 ++ t2) with
  | error e => rw [hl] at ho; cases ho
  | ok m =>
    rw [hl] at ho
    cases Except.ok.inj ho
    have := fileLoop_count _ _ _ _ (Nat.le_refl _) (by simp [rkeys]) hl
    rw [List.count_append] at this
    have hlen : m.length = n1 + n2 - 1 := by simp at this; omega
    refine ⟨hlen, fun h2n => ?_⟩
    unfold RamData.compare
    rw [if_pos (by show m.length ≠ _; omega)]

/-- The hypotheses are met by a handle with two RAMs; saved twice, it is loaded with three RAMs. -/
example :
    let h := (RamData.ofRam []).set 0 1 5 |>.set 1 2 7
    Made h ∧ (∀ r, Has h r ↔ 0 ≤ r ∧ r < ((2 : Nat) : Int)) ∧
    (match h.save IterOrder.id 5 (fun _ => none) b!"x" with
      | (_, some (.ok fs1)) =>
        match h.save IterOrder.id 5 fs1 b!"x" with
        | (_, some (.ok fs2)) =>
          match RamData.ofText fs1 b!"x.wdpkg", RamData.ofText fs2 b!"x.wdpkg" with
          | .ok h1, .ok h2 => (h1.compare h, h2.ramdata.length, h2.compare h)
          | _, _ => (false, 0, true)
        | _ => (false, 0, true)
      | _ => (false, 0, true)) = (true, 3, false) := by
  refine ⟨.set _ _ _ (by decide) (.set _ _ _ (by decide) (.ram List.nodup_nil (by simp))), ?_, by decide +kernel⟩
  intro r
  rw [has_iff]
  show r ∈ [0, 1] ↔ _
  simp only [List.mem_cons, List.not_mem_nil, or_false]
  omega

end Wis
