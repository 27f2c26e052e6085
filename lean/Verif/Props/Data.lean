import Verif.Lemmas.DataSet
/-!
# C01–C10: Base64, BinInput, DataSet
-/

namespace Wis
open Spec

/-! ## C01, C02: Base64 -/

/-- C01: for every non-empty byte string, `encode` returns and `decode` of its result is the string. -/
theorem C01_base64_roundtrip (s : Str) (hs : s ≠ []) :
    ∃ t, Base64.encode s = .ok t ∧ Base64.decode t = .ok s :=
  ⟨b64 s, Base64.encode_eq s, Base64.decode_b64 s hs⟩

example : b!"x" ≠ [] := by decide

/-- C01, the excluded case: the encoding of the empty string is empty and decoding it is undefined
behaviour (an out-of-range index). -/
theorem C01_base64_empty :
    Base64.encode [] = .ok [] ∧ IsUB (Base64.decode []) :=
  ⟨Base64.encode_eq [], _, rfl⟩

/-- C02: `encode` is RFC 4648, of length `4*ceil(n/3)`, over the alphabet and `=`, without `.` or `#`. -/
theorem C02_base64_rfc4648 (s : Str) :
    ∃ t, Base64.encode s = .ok t ∧ t = b64 s ∧ t.length = 4 * ((s.length + 2) / 3) ∧
      (∀ c ∈ t, IsB64Char c) ∧ c!"." ∉ t ∧ c!"#" ∉ t := by
  refine ⟨b64 s, Base64.encode_eq s, rfl, ?_, Base64.isB64_of_mem s, Base64.b64_no_dot s,
    Base64.b64_no_sharp s⟩
  rw [Base64.b64_length]
  split <;> omega

/-- Test of the specification on the RFC 4648 test vectors `"foobar"` and `"fo"`. -/
example : b64 b!"foobar" = b!"Zm9vYmFy" ∧ b64 b!"fo" = b!"Zm8=" ∧ b64 b!"f" = b!"Zg==" := by decide

/-! ## C03–C06: BinInput -/

/-- C03: `BinInput(v)` for a 0/1 list `v`. -/
theorem C03_bininput_of_list (v : List Int) (hlen : v.length < 2 ^ 62) (h01 : ∀ x ∈ v, x = 0 ∨ x = 1) :
    ∃ b, BinInput.ofList v = .ok b ∧ b.size = v.length ∧
      (∀ i (h : i < v.length), b.get i = .ok v[i]) ∧
      (∀ i, v.length ≤ i → b.get i = .error (.throw .indexOutOfRange)) := by
  obtain ⟨b, h1, _, h3, h4⟩ := BinInput.ofList_spec v hlen h01
  exact ⟨b, h1, h3, h4, fun i hi => BinInput.get_out (by omega)⟩

example : ∀ x ∈ ([1,0,1,1,0,0,0,1,1] : List Int), x = 0 ∨ x = 1 := by decide

/-- BinInputs a program can obtain: by the constructors and by 0/1 writes. -/
inductive BinInput.Built : BinInput → Prop
  | zeros (n : Nat) (h : n < 2 ^ 62) : Built (BinInput.ofSize n)
  | list (v : List Int) (b : BinInput) (hlen : v.length < 2 ^ 62) (h01 : ∀ x ∈ v, x = 0 ∨ x = 1)
      (h : BinInput.ofList v = .ok b) : Built b
  | write (b : BinInput) (i : Nat) (v : Int) (hb : Built b) : Built (b.set i v).1
  | reload (b b' : BinInput) (s : Str) (hb : Built b) (h : b.data = .ok s)
      (h' : BinInput.ofData s = .ok b') : Built b'

theorem BinInput.Built.wf {b : BinInput} (h : BinInput.Built b) : BinInput.WF b := by
  induction h with
  | zeros n h => exact BinInput.ofSize_wf h
  | list v b hlen h01 h =>
    obtain ⟨b', h1, h2, _⟩ := BinInput.ofList_spec v hlen h01
    rw [h1] at h
    exact Except.ok.inj h ▸ h2
  | write b i v _ ih => exact BinInput.set_fst_wf ih i v
  | reload b b' s _ h h' ih =>
    obtain ⟨s', h1, h2⟩ := BinInput.ofData_data b
    rw [h] at h1
    have := Except.ok.inj h1
    subst this
    rw [h'] at h2
    exact (Except.ok.inj h2) ▸ ih

/-- Perform writes in order; a throwing write is skipped by the caller (exception caught). -/
def BinInput.writes (b : BinInput) (ws : List (Nat × Int)) : BinInput :=
  ws.foldl (fun b w => (b.set w.1 w.2).1) b

/-- C04: after any sequence of 0/1 writes the BinInput holds the bit list `bits` updated by the same
writes (`List.set` ignores positions outside the list); each write inside succeeds, each write outside
throws and changes nothing. -/
theorem C04_bininput_bit_array (b : BinInput) (hb : b.Built) (bits : List Int)
    (hsize : b.size = bits.length) (hbits : ∀ i (h : i < bits.length), b.get i = .ok bits[i])
    (ws : List (Nat × Int)) (h01 : ∀ w ∈ ws, w.2 = 0 ∨ w.2 = 1) :
    let b' := b.writes ws
    let bits' := ws.foldl (fun l w => l.set w.1 w.2) bits
    b'.size = b.size ∧ bits'.length = bits.length ∧
      (∀ i (h : i < bits'.length), b'.get i = .ok bits'[i]) ∧
      (∀ i v, i < b'.size → (b'.set i v).2 = .ok ()) ∧
      (∀ i v, b'.size ≤ i → b'.set i v = (b', .error (.throw .indexOutOfRange))) := by
  induction ws generalizing b bits with
  | nil =>
    refine ⟨rfl, rfl, hbits, ?_, ?_⟩
    · intro i v hi
      exact BinInput.set_ok hb.wf hi v
    · intro i v hi
      exact BinInput.set_out hi v
  | cons w ws ih =>
    have hs := BinInput.set_fst_size (b := b) w.1 w.2
    have := ih (b.set w.1 w.2).1 (.write b _ _ hb) (bits.set w.1 w.2) (by rw [hs, hsize]; simp) (by
      intro i hi
      simp only [List.length_set] at hi
      by_cases hw : w.1 < b.size
      · rw [BinInput.get_set01 hb.wf hw (by omega) (h01 w (by simp))]
        rw [List.getElem_set]
        by_cases hiw : i = w.1
        · simp [hiw]
        · rw [if_neg hiw, if_neg (Ne.symm hiw)]; exact hbits i hi
      · rw [BinInput.set_out (by omega)]
        rw [List.getElem_set_ne (by omega)]
        exact hbits i hi) (fun x hx => h01 x (List.mem_cons_of_mem _ hx))
    simp only [BinInput.writes, List.foldl_cons] at this ⊢
    rw [hs, List.length_set] at this
    exact this

example : (BinInput.ofSize 9).Built ∧ (BinInput.ofSize 9).size = 9 := ⟨.zeros 9 (by decide), by decide⟩

/-- C05: `BinInput(b.data())` is a copy of `b`. -/
theorem C05_bininput_data_roundtrip (b : BinInput) :
    ∃ s b', b.data = .ok s ∧ BinInput.ofData s = .ok b' ∧ b'.size = b.size ∧
      ∀ i, b'.get i = b.get i := by
  obtain ⟨s, h1, h2⟩ := BinInput.ofData_data b
  exact ⟨s, b, h1, h2, rfl, fun _ => rfl⟩

/-- C06 (restricted to 0/1 values, hence partial): `set(i,v)` changes only position `i`. For other values of `v`
the property is false, see `C06_set_spills`. -/
theorem C06_set_local_partial (b : BinInput) (hb : b.Built) (i : Nat) (v : Int) (h01 : v = 0 ∨ v = 1)
    (j : Nat) (hj : j ≠ i) : (b.set i v).1.get j = b.get j := by
  by_cases hi : i < b.size
  · by_cases hjs : j < b.size
    · rw [BinInput.get_set01 hb.wf hi hjs h01, if_neg hj]
    · rw [BinInput.get_out (by rw [BinInput.set_fst_size]; omega), BinInput.get_out (by omega)]
  · rw [BinInput.set_out (by omega)]

/-- C06 is false in general: in every BinInput, writing 2 at any position that is not the first of its
byte turns a 0 at the position before it into a 1. -/
theorem C06_set_spills (b : BinInput) (hb : b.Built) (i : Nat) (hi : i < b.size) (h8 : i % 8 ≠ 0)
    (_h0 : b.get (i - 1) = .ok 0) : (b.set i 2).1.get (i - 1) = .ok 1 := by
  obtain ⟨old, h1, h2⟩ := BinInput.get_set hb.wf (i := i) (j := i - 1) hi (by omega) 2
  rw [h2, if_pos (by omega), if_neg (by omega), if_pos (by omega)]
  have : i - (i - 1) = 1 := by omega
  rw [this]
  have : (BitVec.ofInt 32 2).getLsbD 1 = true := by decide
  rw [this]; rfl

/-- What `set(i,v)` does for every `int` value `v`: position `i` receives the lowest bit of `v`, a
position `j < i` of the same byte is switched on if bit `i-j` of `v` is on, nothing else changes. -/
theorem C06_set_any_value (b : BinInput) (hb : b.Built) (i j : Nat) (v : Int) (hi : i < b.size)
    (hj : j < b.size) :
    ∃ old : Int, b.get j = .ok old ∧ (b.set i v).1.get j = .ok (
      if j = i then ((BitVec.ofInt 32 v).getLsbD 0).toNat
      else if j < i ∧ j / 8 = i / 8 ∧ (BitVec.ofInt 32 v).getLsbD (i - j) then 1 else old) := by
  obtain ⟨old, h1, h2⟩ := BinInput.get_set hb.wf hi hj v
  refine ⟨old, h1, ?_⟩
  rw [h2]
  by_cases hji : j = i
  · simp [hji]
  · by_cases hs : j / 8 = i / 8
    · by_cases hlt : j < i
      · simp [hs, hlt, hji]
      · simp [hlt, hji]
    · simp [hs, hji]

example : (BinInput.ofSize 9).Built ∧ 1 < (BinInput.ofSize 9).size ∧ 1 % 8 ≠ 0 ∧
    (BinInput.ofSize 9).get 0 = .ok 0 ∧ ((BinInput.ofSize 9).set 1 2).1.get 0 = .ok 1 :=
  ⟨.zeros 9 (by decide), by decide, by decide, by decide, by decide⟩

/-! ## C07–C10: DataSet -/

/-- Whether an entry added with label `l` carries it: `getLabel` of its index. -/
def Spec.labelResult (l : Str) : Res Str :=
  if l = [] then .error (.throw .stdOutOfRange) else .ok l

theorem DataSet.build_get (hist : List (BinInput × Str)) (i : Nat) (h : i < hist.length) :
    (DataSet.build hist).get i = .ok hist[i].1 := by
  obtain ⟨h1, _, _⟩ := DataSet.build_inv hist
  simp [DataSet.get, h1, h]

theorem DataSet.build_getLabel (hist : List (BinInput × Str)) (i : Nat) (h : i < hist.length) :
    (DataSet.build hist).getLabel i = labelResult hist[i].2 := by
  obtain ⟨_, _, h3⟩ := DataSet.build_inv hist
  unfold DataSet.getLabel labelResult
  rw [h3, List.getElem?_eq_getElem h]
  simp only [Option.bind_some]
  by_cases he : (hist[i]).2 = []
  · simp [he]
  · simp [he]

/-- C08: the data set after the calls `add(b_0,l_0), add(b_1,l_1), …` (`l_k = ""` for unlabelled). -/
theorem C08_dataset_append_only (hist : List (BinInput × Str)) :
    let d := hist.foldl (fun d e => DataSet.add d e.1 e.2) {}
    d.size = hist.length ∧
      (∀ i (h : i < hist.length), d.get i = .ok hist[i].1 ∧ d.getLabel i = labelResult hist[i].2) ∧
      (∀ i, hist.length ≤ i → IsUB (d.get i) ∧ (i < 2147483648 → d.getLabelAt i = .error (.throw .stdOutOfRange))) := by
  obtain ⟨h1, _, h3⟩ := DataSet.build_inv hist
  change (DataSet.build hist).size = _ ∧ (∀ i (h : i < hist.length), (DataSet.build hist).get i = _ ∧
    (DataSet.build hist).getLabel i = _) ∧ (∀ i, hist.length ≤ i → IsUB ((DataSet.build hist).get i) ∧
    (i < 2147483648 → (DataSet.build hist).getLabelAt i = _))
  refine ⟨by simp [DataSet.size, h1],
    fun i h => ⟨DataSet.build_get hist i h, DataSet.build_getLabel hist i h⟩, ?_⟩
  intro i hi
  constructor
  · refine ⟨.outOfBounds, ?_⟩
    unfold DataSet.get
    have : (DataSet.build hist).data[i]? = none := by rw [h1]; simp; omega
    simp [this]
  · intro hi'
    rw [DataSet.getLabelAt, Nat.mod_eq_of_lt (by omega), if_pos hi']
    unfold DataSet.getLabel
    rw [h3, List.getElem?_eq_none hi]; rfl

/-- C07: a non-empty, fully labelled data set saved to a fresh file and loaded back is the same data
set: same size, same input and same label at every index. Saving changes neither the data set nor any
other file. -/
theorem C07_dataset_save_load (hist : List (BinInput × Str)) (hne : hist ≠ [])
    (hlab : ∀ e ∈ hist, e.2 ≠ []) (fs : Fs) (pre : Str) (hfresh : fs (pre ++ b!".wpkds") = none) :
    let d := hist.foldl (fun d e => DataSet.add d e.1 e.2) {}
    ∃ d1 fs' d2, d.save fs pre = .ok (d1, fs') ∧ d1 = d ∧
      (∀ n, n ≠ pre ++ b!".wpkds" → fs' n = fs n) ∧
      DataSet.load fs' (pre ++ b!".wpkds") = .ok d2 ∧
      d2.size = hist.length ∧
      ∀ i (h : i < hist.length), d2.get i = .ok hist[i].1 ∧ d2.getLabel i = .ok hist[i].2 := by
  obtain ⟨ls', h1, _, h3⟩ := DataSet.save_spec hist fs pre
  have h3 := h3 hlab
  subst h3
  refine ⟨_, _, DataSet.build hist, h1, rfl, ?_, ?_, ?_, ?_⟩
  · intro n hn
    simp only [Fs.append]
    rw [if_neg (by exact hn)]
  · unfold DataSet.load
    have : endsWith (pre ++ b!".wpkds") datasetSufix = .ok true := DataSet.endsWith_append _ _
    rw [this]
    simp only [Except.bind_ok, if_true]
    have hc : (fs.append (pre ++ datasetSufix) (DataSet.recordsText hist 0)) (pre ++ b!".wpkds") =
        some (DataSet.recordsText hist 0) := by
      change Fs.append fs (pre ++ b!".wpkds") _ (pre ++ b!".wpkds") = _
      simp [Fs.append, hfresh]
    rw [hc]
    cases hist with
    | nil => exact absurd rfl hne
    | cons e es =>
      simp only [DataSet.recordsText_zero]
      rw [DataSet.loadLoop_spec es e {} hlab]
      rfl
  · simp [DataSet.size, (DataSet.build_inv hist).1]
  · intro i h
    refine ⟨DataSet.build_get hist i h, ?_⟩
    rw [DataSet.build_getLabel hist i h]
    unfold labelResult
    rw [if_neg (hlab _ (List.getElem_mem h))]

example : ∃ hist : List (BinInput × Str), hist ≠ [] ∧ (∀ e ∈ hist, e.2 ≠ []) ∧
    (fun _ => none : Fs) (b!"x" ++ b!".wpkds") = none :=
  ⟨[(BinInput.ofSize 3, b!"cold")], by simp, by decide, rfl⟩

/-- C09 (partial): `save` of a fully labelled data set changes no `getLabel` result. The two other parts of C09 are
false, see the refutations. -/
theorem C09_save_keeps_labelled_partial (hist : List (BinInput × Str)) (hlab : ∀ e ∈ hist, e.2 ≠ [])
    (fs : Fs) (pre : Str) :
    let d := hist.foldl (fun d e => DataSet.add d e.1 e.2) {}
    ∃ fs', d.save fs pre = .ok (d, fs') := by
  obtain ⟨ls', h1, _, h3⟩ := DataSet.save_spec hist fs pre
  have h3 := h3 hlab
  subst h3
  exact ⟨_, h1⟩

/-- C09 is false (1): for every unlabelled entry, `getLabel` throws before `save` and returns `""`
after it. -/
theorem C09_save_changes_labels (hist : List (BinInput × Str)) (fs : Fs) (pre : Str) (i : Nat)
    (h : i < hist.length) (hu : hist[i].2 = []) :
    let d := hist.foldl (fun d e => DataSet.add d e.1 e.2) {}
    Throws (d.getLabel i) ∧ ∃ d' fs', d.save fs pre = .ok (d', fs') ∧ d'.getLabel i = .ok [] := by
  obtain ⟨ls', h1, h2, _⟩ := DataSet.save_spec hist fs pre
  refine ⟨⟨.stdOutOfRange, ?_⟩, _, _, h1, ?_⟩
  · change (DataSet.build hist).getLabel i = _
    rw [DataSet.build_getLabel hist i h, hu]; rfl
  · unfold DataSet.getLabel
    rw [h2, List.getElem?_eq_getElem h]
    simp [hu]

/-- C09 is false (2): loading back any saved data set that is empty or has an unlabelled entry is
undefined behaviour. -/
theorem C09_reload_undefined (hist : List (BinInput × Str))
    (hbad : hist = [] ∨ ∃ e ∈ hist, e.2 = []) (fs : Fs) (pre : Str)
    (hfresh : fs (pre ++ b!".wpkds") = none) :
    let d := hist.foldl (fun d e => DataSet.add d e.1 e.2) {}
    ∃ d' fs', d.save fs pre = .ok (d', fs') ∧ IsUB (DataSet.load fs' (pre ++ b!".wpkds")) := by
  obtain ⟨ls', h1, _, _⟩ := DataSet.save_spec hist fs pre
  refine ⟨_, _, h1, .outOfBounds, ?_⟩
  unfold DataSet.load
  have : endsWith (pre ++ b!".wpkds") datasetSufix = .ok true := DataSet.endsWith_append _ _
  rw [this]
  simp only [Except.bind_ok, if_true]
  have hc : (fs.append (pre ++ datasetSufix) (DataSet.recordsText hist 0)) (pre ++ b!".wpkds") =
      some (DataSet.recordsText hist 0) := by
    change Fs.append fs (pre ++ b!".wpkds") _ (pre ++ b!".wpkds") = _
    simp [Fs.append, hfresh]
  rw [hc]
  cases hist with
  | nil =>
    simp only [DataSet.recordsText]
    rw [DataSet.loadLoop_unfold]
    rfl
  | cons e es =>
    simp only [DataSet.recordsText_zero]
    rw [DataSet.loadLoop_ub es e {} (by simpa using hbad)]

/-- C10 is false: saving two non-empty data sets under the same prefix makes a file that can never be
loaded as all the saved entries. Whenever loading it succeeds, one entry is lost: the last record of the
first save and the first record of the second one are glued together. -/
theorem C10_second_save_loses_an_entry (h1 h2 : List (BinInput × Str)) (hn1 : h1 ≠ []) (hn2 : h2 ≠ [])
    (fs : Fs) (pre : Str) (hfresh : fs (pre ++ b!".wpkds") = none) :
    let d1 := h1.foldl (fun d e => DataSet.add d e.1 e.2) {}
    let d2 := h2.foldl (fun d e => DataSet.add d e.1 e.2) {}
    ∃ d1' d2' fs1 fs2, d1.save fs pre = .ok (d1', fs1) ∧ d2.save fs1 pre = .ok (d2', fs2) ∧
      ∀ d, DataSet.load fs2 (pre ++ b!".wpkds") = .ok d → d.size = h1.length + h2.length - 1 := by
  obtain ⟨ls1, hs1, _, _⟩ := DataSet.save_spec h1 fs pre
  obtain ⟨ls2, hs2, _, _⟩ := DataSet.save_spec h2 (fs.append (pre ++ datasetSufix) (DataSet.recordsText h1 0)) pre
  refine ⟨_, _, _, _, hs1, hs2, ?_⟩
  intro d hd
  unfold DataSet.load at hd
  have : endsWith (pre ++ b!".wpkds") datasetSufix = .ok true := DataSet.endsWith_append _ _
  rw [this] at hd
  simp only [Except.bind_ok, if_true] at hd
  have hc : ((fs.append (pre ++ datasetSufix) (DataSet.recordsText h1 0)).append (pre ++ datasetSufix)
      (DataSet.recordsText h2 0)) (pre ++ b!".wpkds") =
      some (DataSet.recordsText h1 0 ++ DataSet.recordsText h2 0) := by
    change Fs.append (Fs.append fs (pre ++ b!".wpkds") _) (pre ++ b!".wpkds") _ (pre ++ b!".wpkds") = _
    simp [Fs.append, hfresh]
  rw [hc] at hd
  have := DataSet.loadLoop_count _ _ _ hd
  cases h1 with
  | nil => exact absurd rfl hn1
  | cons e1 t1 =>
    cases h2 with
    | nil => exact absurd rfl hn2
    | cons e2 t2 =>
      rw [DataSet.recordsText_zero, DataSet.recordsText_zero] at this
      simp only [List.count_append, DataSet.count_dotted,
        List.count_eq_zero.mpr (DataSet.record_no_dot e1),
        List.count_eq_zero.mpr (DataSet.record_no_dot e2)] at this
      simp only [DataSet.size, List.length_cons]
      rw [this]
      simp; omega

/-- C10 (partial): two data sets saved under different, fresh prefixes are both loadable afterwards; the second
save does not disturb the first file. For one prefix used twice the property is false (above). -/
theorem C10_distinct_prefixes_partial (h1 h2 : List (BinInput × Str)) (hn1 : h1 ≠ []) (hn2 : h2 ≠ [])
    (hl1 : ∀ e ∈ h1, e.2 ≠ []) (hl2 : ∀ e ∈ h2, e.2 ≠ []) (fs : Fs) (p1 p2 : Str) (hp : p1 ≠ p2)
    (hf1 : fs (p1 ++ b!".wpkds") = none) (hf2 : fs (p2 ++ b!".wpkds") = none) :
    let d1 := h1.foldl (fun d e => DataSet.add d e.1 e.2) {}
    let d2 := h2.foldl (fun d e => DataSet.add d e.1 e.2) {}
    ∃ d1' d2' fs1 fs2 e1 e2, d1.save fs p1 = .ok (d1', fs1) ∧ d2.save fs1 p2 = .ok (d2', fs2) ∧
      DataSet.load fs2 (p1 ++ b!".wpkds") = .ok e1 ∧ DataSet.load fs2 (p2 ++ b!".wpkds") = .ok e2 ∧
      e1.size = h1.length ∧
      (∀ i (h : i < h1.length), e1.get i = .ok h1[i].1 ∧ e1.getLabel i = .ok h1[i].2) ∧
      e2.size = h2.length ∧
      (∀ i (h : i < h2.length), e2.get i = .ok h2[i].1 ∧ e2.getLabel i = .ok h2[i].2) := by
  obtain ⟨a1, fs1, b1, ha, _, hother1, hload1, hs1, hget1⟩ := C07_dataset_save_load h1 hn1 hl1 fs p1 hf1
  have hne : p2 ++ b!".wpkds" ≠ p1 ++ b!".wpkds" := by
    intro h; exact hp (List.append_cancel_right h).symm
  obtain ⟨a2, fs2, b2, ha2, _, hother2, hload2, hs2, hget2⟩ :=
    C07_dataset_save_load h2 hn2 hl2 fs1 p2 (by rw [hother1 _ hne]; exact hf2)
  refine ⟨a1, a2, fs1, fs2, b1, b2, ha, ha2, ?_, hload2, hs1, hget1, hs2, hget2⟩
  unfold DataSet.load at hload1 ⊢
  rw [hother2 _ (Ne.symm hne)]
  exact hload1

/-- The hypotheses are met and loading does succeed in some cases (a one-entry data set saved twice:
two saved entries, one loaded). -/
example :
    let e : BinInput × Str := (BinInput.ofSize 3, b!"abc")
    let fs2 : Fs := fun n => if n = b!"x.wpkds" then some (DataSet.record e ++ DataSet.record e) else none
    (match DataSet.load fs2 b!"x.wpkds" with | .ok d => d.size | .error _ => 100) = 1 := by
  decide +kernel

end Wis
