import Verif.Lemmas.Truncate
import Verif.Props.Data
/-!
# C101, C102: image texts and data set files that were cut off

A crash or a full disk while a file is written leaves the first `n` bytes of it (no write is checked,
dataset.cc:59-69).
-/

namespace Wis
open Spec

/-! ## C101: image texts -/

/-- C101 (partial; "a cut text is refused" is false, see the next two theorems): whatever `BinInput` makes of the first
`n` characters of a `data()` text has only pixels of the saved image, at their places: its size is the number of
whole bytes read times eight, less the saved padding, and every pixel is the saved one. -/
theorem C101_cut_text_partial (b : BinInput) (hb : b.Built) (s : Str) (hs : b.data = .ok s) (n : Nat) (hn : n < s.length)
    (b' : BinInput) (h : BinInput.ofData (s.take n) = .ok b') :
    n % 4 = 0 ∧ 0 < n ∧ b'.size < b.size ∧ b'.size + 8 + (8 - b.size % 8) % 8 = 6 * n ∧
      ∀ i, i < b'.size → b'.get i = b.get i := by
  unfold BinInput.data at hs
  rw [Base64.encode_eq] at hs
  have hs := (Except.ok.inj hs).symm
  subst hs
  rw [BinInput.ofData_take b n (by omega)] at h
  by_cases h4 : n % 4 = 0 ∧ 0 < n
  · rw [if_pos h4] at h
    have h := (Except.ok.inj h).symm
    subst h
    have hw := hb.wf
    obtain ⟨hw', hle, hp⟩ := BinInput.prefix_pixels hw (3 * (n / 4) - 1) (by omega)
    have h1 := BinInput.size_eq hw
    have h2 := BinInput.size_eq hw'
    simp only [List.length_take] at h2
    rw [Base64.b64_length] at hn
    simp only [List.length_cons] at hn
    have hlt : 3 * (n / 4) - 1 < b.input.length := by split at hn <;> omega
    have := hw.rem_lt
    have := hw.rem_le
    exact ⟨h4.1, h4.2, by omega, by omega, hp⟩
  · rw [if_neg h4] at h
    split at h <;> cases h

/-- C101 is false (1): a cut after any whole number of groups of four characters is accepted without a sign, as a
shorter image. -/
theorem C101_cut_accepted (b : BinInput) (s : Str) (hs : b.data = .ok s) (n : Nat) (hn : n < s.length) (h4 : n % 4 = 0)
    (h0 : 0 < n) : ∃ b', BinInput.ofData (s.take n) = .ok b' := by
  unfold BinInput.data at hs
  rw [Base64.encode_eq] at hs
  have hs := (Except.ok.inj hs).symm
  subst hs
  rw [BinInput.ofData_take b n (by omega), if_pos ⟨h4, h0⟩]
  exact ⟨_, rfl⟩

/-- C101 is false (2): every other cut of the text of a non-empty image is undefined behaviour (the decoder writes
behind the end of its buffer, or reads before the start of an empty text). -/
theorem C101_cut_undefined (b : BinInput) (hb : b.Built) (h1 : 0 < b.size) (s : Str) (hs : b.data = .ok s) (n : Nat)
    (hn : n < s.length) (h : ¬ (n % 4 = 0 ∧ 0 < n)) : IsUB (BinInput.ofData (s.take n)) := by
  unfold BinInput.data at hs
  rw [Base64.encode_eq] at hs
  have hs := (Except.ok.inj hs).symm
  subst hs
  have hi : b.input ≠ [] := by
    intro he
    have := BinInput.size_eq hb.wf
    rw [he] at this
    simp at this
    omega
  rw [BinInput.ofData_take b n (by omega), if_neg h, if_neg (by simp [hi])]
  exact ⟨_, rfl⟩

/-- The hypotheses are met: an image of 30 pixels whose text is cut to 4 and to 3 characters. -/
example : (BinInput.ofSize 30).Built ∧ 0 < (BinInput.ofSize 30).size ∧
    (∃ s, (BinInput.ofSize 30).data = .ok s ∧ s.length = 8 ∧ BinInput.ofData (s.take 4) = .ok ⟨2, [0, 0]⟩ ∧
      (⟨2, [0, 0]⟩ : BinInput).size = 14 ∧ BinInput.ofData (s.take 3) = .error (.ub .outOfBounds)) :=
  ⟨.zeros 30 (by decide), by decide, b!"AgAAAAA=", by decide +kernel, by decide, by decide +kernel, by decide +kernel,
    by decide +kernel⟩

/-! ## C102: data set files -/

namespace Spec

/-- Length of the text of a label. -/
def labelText (l : Str) : Nat := 4 * ((l.length + 2) / 3)

/-- Length of the text of a record: label, `#`, image (one byte of padding information and the pixel bytes). -/
def recordText (e : BinInput × Str) : Nat := labelText e.2 + 1 + 4 * ((e.1.input.length + 3) / 3)

/-- Position in the file of record `k`: the records before it are each followed by one dot. -/
def startOf (hist : List (BinInput × Str)) (k : Nat) : Nat := ((hist.take k).map (fun e => recordText e + 1)).sum

/-- Where a cut within a record leaves something that is read as a record: after whole groups of four characters of
the label, or after whole groups of the image. -/
def Readable (e : BinInput × Str) (m : Nat) : Prop :=
  (m ≤ labelText e.2 ∧ 0 < m ∧ m % 4 = 0) ∨
  (labelText e.2 + 1 < m ∧ (m - labelText e.2 - 1) % 4 = 0)

/-- What is read of record `e` after a readable cut `m`: behind the `#`, the label and a first part of the image;
otherwise a first part of the label, and as image the bytes of that label. -/
def CutRecord (e : BinInput × Str) (m : Nat) (e' : BinInput × Str) : Prop :=
  (labelText e.2 < m ∧ e'.2 = e.2 ∧ e'.1.size ≤ e.1.size ∧ (m = recordText e → e'.1 = e.1) ∧
    ∀ i, i < e'.1.size → e'.1.get i = e.1.get i) ∨
  (m ≤ labelText e.2 ∧ e'.2 ≠ [] ∧ e'.2 = e.2.take (3 * (m / 4)) ∧ BinInput.ofData (b64 e'.2) = .ok e'.1)

/-- The file system after the file was cut to its first `n` bytes. -/
def cutFile (fs : Fs) (name : Str) (n : Nat) : Fs := fun f => if f = name then (fs f).map (List.take n) else fs f

end Spec

namespace DataSet

theorem b64_length' (d : List Byte) : (b64 d).length = 4 * ((d.length + 2) / 3) := by
  rw [Base64.b64_length]; split <;> omega

theorem record_length (e : BinInput × Str) : (record e).length = recordText e := by
  unfold record recordText labelText
  simp only [List.length_append, b64_length', List.length_cons, List.length_nil]

theorem offset_eq (hist : List (BinInput × Str)) (k : Nat) : offset hist k = startOf hist k := by
  unfold offset startOf
  simp only [record_length]

/-- Reading a cut record. -/
theorem parseRecord_cut (e : BinInput × Str) (hb : e.1.WF) (hl : e.2 ≠ []) (m : Nat) (hm : m ≤ recordText e) :
    (Readable e m → ∃ e', parseRecord ((record e).take m) = .ok e' ∧ CutRecord e m e') ∧
    (¬ Readable e m → IsUB (parseRecord ((record e).take m)) ∨
      (Throws (parseRecord ((record e).take m)) ∧ (m = 3 ∧ e.2.length = 1 ∨ e.1.size = 0))) := by
  have hL : (b64 e.2).length = labelText e.2 := b64_length' _
  by_cases hc : m ≤ labelText e.2
  · rw [parseRecord_cut_label e m (by omega)]
    have hd := Base64.decode_take e.2 m (by omega)
    constructor
    · rintro (h | h)
      · rw [if_pos ⟨h.2.2, h.2.1⟩] at hd
        have hne : e.2.take (3 * (m / 4)) ≠ [] := by
          intro h0
          rw [List.take_eq_nil_iff] at h0
          rcases h0 with h0 | h0
          · omega
          · exact hl h0
        obtain ⟨x, xs, hx⟩ := List.exists_cons_of_ne_nil hne
        refine ⟨(⟨x, xs⟩, e.2.take (3 * (m / 4))), ?_, .inr ⟨hc, hne, rfl, ?_⟩⟩
        · rw [hd, Except.bind_ok, hx, BinInput.ofData_ok (hd.trans (by rw [hx]))]
          rfl
        · exact BinInput.ofData_ok ((Base64.decode_b64 _ hne).trans (by rw [hx]))
      · omega
    · intro h
      have h4 : ¬ (m % 4 = 0 ∧ 0 < m) := fun hh => h (.inl ⟨hc, hh.2, hh.1⟩)
      rw [if_neg h4] at hd
      by_cases h3 : m = 3 ∧ e.2.length = 1
      · rw [if_pos h3] at hd
        rw [hd]
        exact .inr ⟨⟨_, rfl⟩, .inl h3⟩
      · rw [if_neg h3] at hd
        rw [hd]
        exact .inl ⟨_, rfl⟩
  · obtain ⟨q, rfl⟩ : ∃ q, m = (b64 e.2).length + 1 + q := ⟨m - labelText e.2 - 1, by omega⟩
    rw [parseRecord_cut_image, Base64.decode_b64 _ hl, Except.bind_ok]
    have hq : q ≤ (b64 (e.1.remain :: e.1.input)).length := by
      rw [b64_length']; unfold recordText at hm; simp only [List.length_cons]; omega
    rw [BinInput.ofData_take e.1 q hq]
    constructor
    · intro h
      have h4 : q % 4 = 0 ∧ 0 < q := by
        rcases h with h | h
        · omega
        · have : (b64 e.2).length + 1 + q - labelText e.2 - 1 = q := by omega
          rw [this] at h
          omega
      rw [if_pos h4, Except.bind_ok]
      obtain ⟨_, hle, hp⟩ := BinInput.prefix_pixels hb (3 * (q / 4) - 1) (by omega)
      refine ⟨_, rfl, .inl ⟨by omega, rfl, hle, ?_, hp⟩⟩
      intro hr
      unfold recordText at hr
      have : e.1.input.length ≤ 3 * (q / 4) - 1 := by omega
      simp only [List.take_of_length_le this]
    · intro h
      have h4 : ¬ (q % 4 = 0 ∧ 0 < q) := by
        intro hh
        apply h
        right
        have : (b64 e.2).length + 1 + q - labelText e.2 - 1 = q := by omega
        rw [this]
        omega
      rw [if_neg h4]
      by_cases h3 : q = 3 ∧ e.1.input = []
      · rw [if_pos h3]
        refine .inr ⟨⟨_, rfl⟩, .inr ?_⟩
        rw [BinInput.size_eq hb, h3.2]; simp
      · rw [if_neg h3]
        exact .inl ⟨_, rfl⟩

theorem records_length (e : BinInput × Str) (es : List (BinInput × Str)) :
    (record e ++ dotted es).length + 1 = startOf (e :: es) (e :: es).length := by
  induction es generalizing e with
  | nil => simp [dotted, startOf, record_length]
  | cons e' es ih =>
    have hd : dotted (e' :: es) = c!"." :: (record e' ++ dotted es) := by simp [dotted]
    have := ih e'
    rw [hd]
    simp only [startOf, List.length_append, List.length_cons, List.take_length, List.map_cons,
      List.sum_cons, List.map_nil, record_length, List.take_succ_cons] at this ⊢
    omega

theorem startOf_step (hist : List (BinInput × Str)) (k : Nat) (h : k < hist.length) :
    startOf hist (k + 1) = startOf hist k + (recordText hist[k] + 1) := by
  unfold startOf
  rw [List.take_succ_eq_append_getElem h]
  simp only [List.map_append, List.map_cons, List.map_nil, List.sum_append, List.sum_cons, List.sum_nil, Nat.add_zero]

theorem startOf_mono (hist : List (BinInput × Str)) : ∀ j k, j ≤ k → k ≤ hist.length → startOf hist j ≤ startOf hist k := by
  intro j k hjk
  obtain ⟨t, rfl⟩ := Nat.exists_eq_add_of_le hjk
  clear hjk
  induction t with
  | zero => intro _; exact Nat.le_refl _
  | succ t ih =>
    intro h
    have := ih (by omega)
    rw [← Nat.add_assoc, startOf_step hist (j + t) (by omega)]
    omega

/-- A position in the file determines the record and the position in it. -/
theorem position_unique (hist : List (BinInput × Str)) {k k' m m' : Nat} (hk : k < hist.length) (hk' : k' < hist.length)
    (hm : m ≤ recordText hist[k]) (hm' : m' ≤ recordText hist[k'])
    (h : startOf hist k + m = startOf hist k' + m') : k = k' ∧ m = m' := by
  rcases Nat.lt_trichotomy k k' with hlt | heq | hgt
  · have h1 := startOf_mono hist (k + 1) k' hlt (by omega)
    rw [startOf_step hist k hk] at h1
    omega
  · subst heq; omega
  · have h1 := startOf_mono hist (k' + 1) k hgt (by omega)
    rw [startOf_step hist k' hk'] at h1
    omega

/-- Loading a saved file that was cut in record `k`. -/
theorem load_cut (hist : List (BinInput × Str)) (hlab : ∀ e ∈ hist, e.2 ≠ [])
    (fs : Fs) (pre : Str) (hfresh : fs (pre ++ b!".wpkds") = none) (k m : Nat) (hk : k < hist.length)
    (hm : m ≤ recordText hist[k]) :
    ∃ fs', (build hist).save fs pre = .ok (build hist, fs') ∧
      (∃ text, fs' (pre ++ b!".wpkds") = some text ∧ text.length + 1 = startOf hist hist.length) ∧
      load (cutFile fs' (pre ++ b!".wpkds") (startOf hist k + m)) (pre ++ b!".wpkds") =
        (parseRecord ((record hist[k]).take m) >>= fun x => .ok ((build (hist.take k)).add x.1 x.2)) := by
  obtain ⟨ls', h1, _, h3⟩ := save_spec hist fs pre
  have h3 := h3 hlab
  subst h3
  cases hist with
  | nil => simp at hk
  | cons e es =>
    have hc : (fs.append (pre ++ datasetSufix) (recordsText (e :: es) 0)) (pre ++ b!".wpkds") =
        some (record e ++ dotted es) := by
      change Fs.append fs (pre ++ b!".wpkds") _ (pre ++ b!".wpkds") = _
      simp [Fs.append, hfresh, recordsText_zero]
    refine ⟨_, h1, ⟨_, hc, records_length e es⟩, ?_⟩
    have hend : endsWith (pre ++ b!".wpkds") datasetSufix = .ok true := endsWith_append _ _
    unfold load
    rw [hend]
    simp only [Except.bind_ok, if_true, cutFile, hc, Option.map_some]
    have hle : startOf (e :: es) k + m ≤ (record e ++ dotted es).length := by
      have h1 := startOf_mono (e :: es) (k + 1) (e :: es).length hk (Nat.le_refl _)
      rw [startOf_step _ k hk] at h1
      have := records_length e es
      omega
    obtain ⟨k', hk', m', hm', hoff, hl⟩ := loadLoop_cut es e {} _ hlab hle
    rw [record_length] at hm'
    rw [offset_eq] at hoff
    obtain ⟨rfl, rfl⟩ := position_unique (e :: es) hk hk' hm hm' hoff
    rw [hl]
    rfl

end DataSet

/-- C102, every cut is a cut in some record (possibly right behind it or right before it). -/
theorem C102_cut_positions (hist : List (BinInput × Str)) (n : Nat) (hne : hist ≠ [])
    (hn : n < startOf hist hist.length) :
    ∃ (k : Nat) (hk : k < hist.length) (m : Nat), m ≤ recordText hist[k] ∧ n = startOf hist k + m := by
  have : ∀ j, j ≤ hist.length → 0 < j → n < startOf hist j →
      ∃ (k : Nat) (hk : k < hist.length) (m : Nat), m ≤ recordText hist[k] ∧ n = startOf hist k + m := by
    intro j
    induction j with
    | zero => intro _ h; omega
    | succ j ih =>
      intro hj _ hlt
      by_cases hc : n < startOf hist j
      · refine ih (by omega) ?_ hc
        rcases Nat.eq_zero_or_pos j with h | h
        · subst h; simp [startOf] at hc
        · exact h
      · rw [DataSet.startOf_step hist j (by omega)] at hlt
        exact ⟨j, by omega, n - startOf hist j, by omega, by omega⟩
  exact this hist.length (Nat.le_refl _) (List.length_pos_iff.mpr hne) hn

/-- C102 (partial; "a cut file is refused or loads exactly the complete records" is false, see below): a labelled data set is
saved and its file is cut in record `k` after `m` characters of it. Loading succeeds exactly for readable cuts, and then
the records before `k` are intact, and one more record is there: that of `CutRecord`. There are never more records
than were saved. -/
theorem C102_cut_file_partial (hist : List (BinInput × Str)) (hlab : ∀ e ∈ hist, e.2 ≠ [])
    (hb : ∀ e ∈ hist, e.1.Built) (fs : Fs) (pre : Str) (hfresh : fs (pre ++ b!".wpkds") = none)
    (k m : Nat) (hk : k < hist.length) (hm : m ≤ recordText hist[k]) :
    let d := hist.foldl (fun d e => DataSet.add d e.1 e.2) {}
    ∃ fs', d.save fs pre = .ok (d, fs') ∧
      (∃ text, fs' (pre ++ b!".wpkds") = some text ∧ text.length + 1 = startOf hist hist.length) ∧
      ((∃ d2, DataSet.load (cutFile fs' (pre ++ b!".wpkds") (startOf hist k + m)) (pre ++ b!".wpkds") = .ok d2) ↔
        Readable hist[k] m) ∧
      ∀ d2, DataSet.load (cutFile fs' (pre ++ b!".wpkds") (startOf hist k + m)) (pre ++ b!".wpkds") = .ok d2 →
        d2.size = k + 1 ∧
        (∀ i (_ : i < k), d2.get i = .ok hist[i].1 ∧ d2.getLabel i = .ok hist[i].2) ∧
        ∃ e', d2.get k = .ok e'.1 ∧ d2.getLabel k = .ok e'.2 ∧ CutRecord hist[k] m e' := by
  obtain ⟨fs', hs, ht, hl⟩ := DataSet.load_cut hist hlab fs pre hfresh k m hk hm
  have hmem := List.getElem_mem hk
  obtain ⟨hyes, hno⟩ := DataSet.parseRecord_cut hist[k] (hb _ hmem).wf (hlab _ hmem) m hm
  refine ⟨fs', hs, ht, ?_, ?_⟩
  · rw [hl]
    constructor
    · rintro ⟨d2, h⟩
      refine Classical.byContradiction fun hr => ?_
      rcases hno hr with ⟨u, hu⟩ | ⟨⟨u, hu⟩, _⟩ <;> (rw [hu] at h; cases h)
    · intro hr
      obtain ⟨e', he, _⟩ := hyes hr
      rw [he]
      exact ⟨_, rfl⟩
  · intro d2 h
    rw [hl] at h
    have hr : Readable hist[k] m := by
      refine Classical.byContradiction fun hr => ?_
      rcases hno hr with ⟨u, hu⟩ | ⟨⟨u, hu⟩, _⟩ <;> (rw [hu] at h; cases h)
    obtain ⟨e', he, hcut⟩ := hyes hr
    rw [he, Except.bind_ok] at h
    have h := (Except.ok.inj h).symm
    rw [← DataSet.build_append] at h
    subst h
    have hlen : (hist.take k ++ [e']).length = k + 1 := by simp; omega
    have hne' : e'.2 ≠ [] := by
      rcases hcut with h | h
      · rw [h.2.1]; exact hlab _ hmem
      · exact h.2.1
    refine ⟨?_, ?_, e', ?_, ?_, hcut⟩
    · simp only [DataSet.size, (DataSet.build_inv _).1, List.length_map, hlen]
    · intro i hi
      have hi' : i < (hist.take k ++ [e']).length := by omega
      have hg : (hist.take k ++ [e'])[i] = hist[i] := by
        rw [List.getElem_append_left (by simp; omega)]; simp
      rw [DataSet.build_get _ i hi', DataSet.build_getLabel _ i hi', hg]
      refine ⟨rfl, ?_⟩
      unfold labelResult
      rw [if_neg (hlab _ (List.getElem_mem _))]
    · have hg : (hist.take k ++ [e'])[k]'(by omega) = e' := by
        exact List.getElem_concat_length (by simp; omega) _
      rw [DataSet.build_get _ k (by omega), hg]
    · have hg : (hist.take k ++ [e'])[k]'(by omega) = e' := by
        exact List.getElem_concat_length (by simp; omega) _
      rw [DataSet.build_getLabel _ k (by omega), hg]
      unfold labelResult
      rw [if_neg hne']

/-- C102 is false (1): cutting the file inside the label of any record, after `4*j` characters, is accepted: the data set
then ends with a record that was never saved, whose label is a first part of the saved label and whose image consists
of the characters of that label. -/
theorem C102_cut_label_accepted (hist : List (BinInput × Str)) (hlab : ∀ e ∈ hist, e.2 ≠ [])
    (hb : ∀ e ∈ hist, e.1.Built) (fs : Fs) (pre : Str) (hfresh : fs (pre ++ b!".wpkds") = none)
    (k j : Nat) (hk : k < hist.length) (hj : 0 < j) (hl : 3 * j ≤ hist[k].2.length) :
    let d := hist.foldl (fun d e => DataSet.add d e.1 e.2) {}
    ∃ fs' d2 img, d.save fs pre = .ok (d, fs') ∧
      DataSet.load (cutFile fs' (pre ++ b!".wpkds") (startOf hist k + 4 * j)) (pre ++ b!".wpkds") = .ok d2 ∧
      d2.size = k + 1 ∧ d2.getLabel k = .ok (hist[k].2.take (3 * j)) ∧ d2.get k = .ok img ∧
      BinInput.ofData (b64 (hist[k].2.take (3 * j))) = .ok img := by
  have hL : 4 * j ≤ labelText hist[k].2 := by unfold labelText; omega
  obtain ⟨fs', hs, _, hiff, hall⟩ := C102_cut_file_partial hist hlab hb fs pre hfresh k (4 * j) hk
    (by unfold recordText; omega)
  obtain ⟨d2, hd⟩ := hiff.mpr (.inl ⟨hL, by omega, by omega⟩)
  obtain ⟨h1, _, e', h3, h4, h5⟩ := hall d2 hd
  rcases h5 with h5 | h5
  · omega
  · obtain ⟨_, _, h6, h7⟩ := h5
    rw [show 3 * (4 * j / 4) = 3 * j by omega] at h6
    rw [h6] at h4 h7
    exact ⟨fs', d2, e'.1, hs, hd, h1, h4, h3, h7⟩

/-- C102 is false (2): every unreadable cut is undefined behaviour, unless the image is empty or three of the four
characters of a one-letter label are left. In particular a file cut to zero bytes, or right behind the dot before a
record, or right behind the `#`. -/
theorem C102_cut_undefined (hist : List (BinInput × Str)) (hlab : ∀ e ∈ hist, e.2 ≠ [])
    (hb : ∀ e ∈ hist, e.1.Built) (fs : Fs) (pre : Str) (hfresh : fs (pre ++ b!".wpkds") = none)
    (k m : Nat) (hk : k < hist.length) (hm : m ≤ recordText hist[k]) (hr : ¬ Readable hist[k] m)
    (h1 : 0 < hist[k].1.size) (h2 : ¬ (m = 3 ∧ hist[k].2.length = 1)) :
    let d := hist.foldl (fun d e => DataSet.add d e.1 e.2) {}
    ∃ fs', d.save fs pre = .ok (d, fs') ∧
      IsUB (DataSet.load (cutFile fs' (pre ++ b!".wpkds") (startOf hist k + m)) (pre ++ b!".wpkds")) := by
  obtain ⟨fs', hs, _, hl⟩ := DataSet.load_cut hist hlab fs pre hfresh k m hk hm
  have hmem := List.getElem_mem hk
  obtain ⟨_, hno⟩ := DataSet.parseRecord_cut hist[k] (hb _ hmem).wf (hlab _ hmem) m hm
  refine ⟨fs', hs, ?_⟩
  rw [hl]
  rcases hno hr with ⟨u, hu⟩ | ⟨_, h | h⟩
  · rw [hu]; exact ⟨_, rfl⟩
  · exact absurd h h2
  · omega

/-- The cuts named above are unreadable. -/
theorem C102_unreadable (e : BinInput × Str) : ¬ Readable e 0 ∧ ¬ Readable e (labelText e.2 + 1) :=
  ⟨by rintro (h | h) <;> omega, by rintro (h | h) <;> omega⟩

/-- The hypotheses are met: two records, the file cut in the second one, whose label is `cold`, after 4 characters:
the loaded data set has a second record with label `col`, and an image of 2^64 - 83 pixels. -/
example :
    let e1 : BinInput × Str := (BinInput.ofSize 3, b!"hot")
    let e2 : BinInput × Str := (BinInput.ofSize 3, b!"cold")
    (∀ e ∈ [e1, e2], e.2 ≠ []) ∧ (∀ e ∈ [e1, e2], e.1.Built) ∧ 4 ≤ recordText e2 ∧ Readable e2 4 ∧
      startOf [e1, e2] 1 = 10 ∧
      (match BinInput.ofData (b64 b!"col") with | .ok b => b.size | .error _ => 0) = 2 ^ 64 - 83 :=
  ⟨by decide, by
    intro e he
    simp only [List.mem_cons, List.not_mem_nil, or_false] at he
    rcases he with rfl | rfl <;> exact .zeros 3 (by decide), by decide, .inl (by decide), by decide, by decide +kernel⟩

end Wis
