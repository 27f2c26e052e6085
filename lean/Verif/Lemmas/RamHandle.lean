import Verif.Lemmas.Json
import Verif.Spec.Handle
/-! `RAMDataHandle`: compare, reading, `data()`. -/

namespace Wis
namespace RamData

/-- RAM indexes of a handle. -/
def rkeys (m : List (Int × RamT)) : List Int := m.map (·.1)

/-- Distinct RAM indexes, distinct addresses, contents in the range of `int`: holds of every handle. -/
structure WF (h : RamData) : Prop where
  keys : (rkeys h.ramdata).Nodup
  rams : ∀ e ∈ h.ramdata, e.2.keys.Nodup
  range : ∀ e ∈ h.ramdata, ∀ x ∈ e.2, InI32 x.2

theorem find_put (m : List (Int × RamT)) (k k' : Int) (v : RamT) :
    find (put m k v) k' = if k' = k then some v else find m k' := by
  induction m with
  | nil =>
    simp only [put, find]
    by_cases h : k = k'
    · simp [h]
    · rw [if_neg h, if_neg (fun e => h e.symm)]
  | cons e m ih =>
    obtain ⟨a, b⟩ := e
    simp only [put]
    by_cases h : a = k
    · subst h
      simp only [if_true, find]
      by_cases h' : a = k'
      · simp [h']
      · rw [if_neg h', if_neg h', if_neg (fun e => h' e.symm)]
    · simp only [h, if_false, find]
      rw [ih]
      by_cases h' : a = k'
      · subst h'; simp [h]
      · simp [h']

theorem mem_of_find {m : List (Int × RamT)} {k : Int} {v : RamT} (h : find m k = some v) : (k, v) ∈ m := by
  induction m with
  | nil => simp [find] at h
  | cons e m ih =>
    obtain ⟨a, b⟩ := e
    simp only [find] at h
    split at h
    · rename_i hk; simp only [Option.some.injEq] at h; subst hk h; simp
    · exact List.mem_cons_of_mem _ (ih h)

theorem find_none {m : List (Int × RamT)} {k : Int} : find m k = none ↔ k ∉ rkeys m := by
  induction m with
  | nil => simp [find, rkeys]
  | cons e m ih =>
    obtain ⟨a, b⟩ := e
    simp only [find, rkeys, List.map_cons, List.mem_cons, not_or]
    by_cases h : a = k
    · simp [h]
    · rw [if_neg h, ih]
      constructor
      · intro h'; exact ⟨fun e => h e.symm, h'⟩
      · intro h'; exact h'.2

theorem find_of_mem {m : List (Int × RamT)} (hn : (rkeys m).Nodup) {k : Int} {v : RamT} (h : (k, v) ∈ m) :
    find m k = some v := by
  induction m with
  | nil => simp at h
  | cons e m ih =>
    obtain ⟨a, b⟩ := e
    simp only [rkeys, List.map_cons, List.nodup_cons] at hn
    simp only [find]
    rcases List.mem_cons.mp h with h | h
    · simp only [Prod.mk.injEq] at h; simp [h.1, h.2]
    · rw [if_neg, ih hn.2 h]
      rintro rfl
      exact hn.1 (List.mem_map.mpr ⟨_, h, rfl⟩)

theorem rkeys_put (m : List (Int × RamT)) (k : Int) (v : RamT) :
    rkeys (put m k v) = if k ∈ rkeys m then rkeys m else rkeys m ++ [k] := by
  induction m with
  | nil => simp [put, rkeys]
  | cons e m ih =>
    obtain ⟨a, b⟩ := e
    simp only [put]
    by_cases h : a = k
    · subst h; simp [rkeys]
    · rw [if_neg h]
      have hc : ∀ (x : Int × RamT) l, rkeys (x :: l) = x.1 :: rkeys l := fun _ _ => rfl
      rw [hc, hc, ih]
      by_cases h' : k ∈ rkeys m
      · rw [if_pos h', if_pos (List.mem_cons_of_mem _ h')]
      · have : k ∉ a :: rkeys m := by
          rw [List.mem_cons]
          rintro (h1 | h1)
          · exact h h1.symm
          · exact h' h1
        rw [if_neg h', if_neg this]
        rfl

theorem put_length (m : List (Int × RamT)) (k : Int) (v : RamT) :
    (put m k v).length = if k ∈ rkeys m then m.length else m.length + 1 := by
  have h := congrArg List.length (rkeys_put m k v)
  rw [show (rkeys (put m k v)).length = (put m k v).length by simp [rkeys]] at h
  rw [h]
  split <;> simp [rkeys]

theorem rkeys_nodup_put {m : List (Int × RamT)} (h : (rkeys m).Nodup) (k : Int) (v : RamT) : (rkeys (put m k v)).Nodup := by
  rw [rkeys_put]
  split
  · exact h
  · rename_i hk
    rw [List.nodup_append]
    refine ⟨h, by simp, ?_⟩
    intro a ha b hb e
    simp only [List.mem_singleton] at hb
    subst e hb
    exact hk ha

theorem mem_put {m : List (Int × RamT)} {k : Int} {v : RamT} {e : Int × RamT} (h : e ∈ put m k v) :
    e = (k, v) ∨ e ∈ m := by
  induction m with
  | nil => simp [put] at h; exact .inl h
  | cons x m ih =>
    obtain ⟨a, b⟩ := x
    simp only [put] at h
    split at h
    · rcases List.mem_cons.mp h with h | h
      · exact .inl h
      · exact .inr (List.mem_cons_of_mem _ h)
    · rcases List.mem_cons.mp h with h | h
      · exact .inr (by rw [h]; simp)
      · rcases ih h with h | h
        · exact .inl h
        · exact .inr (List.mem_cons_of_mem _ h)

theorem WF.put {m : List (Int × RamT)} (h : WF ⟨m⟩) (k : Int) {v : RamT} (hv : v.keys.Nodup) (hi : ∀ x ∈ v, InI32 x.2) :
    WF ⟨RamData.put m k v⟩ where
  keys := rkeys_nodup_put h.keys k v
  rams e he := by
    rcases mem_put he with rfl | he
    · exact hv
    · exact h.rams e he
  range e he := by
    rcases mem_put he with rfl | he
    · exact hi
    · exact h.range e he

theorem WF.empty : WF ⟨[]⟩ := ⟨List.nodup_nil, by simp, by simp⟩

theorem WF.ofRam {m : RamT} (hn : m.keys.Nodup) (hi : ∀ x ∈ m, InI32 x.2) : WF (RamData.ofRam m) :=
  WF.empty.put 0 hn hi

theorem touch_snd (h : RamData) (r : Int) : (h.touch r).2 = (find h.ramdata r).getD [] := by
  unfold touch; cases find h.ramdata r <;> rfl

theorem WF.touch {h : RamData} (hw : WF h) (r : Int) : WF (h.touch r).1 := by
  unfold RamData.touch
  cases find h.ramdata r with
  | some m => exact hw
  | none => exact hw.put r List.nodup_nil (by simp)

theorem WF.ram {h : RamData} (hw : WF h) (r : Int) :
    ((find h.ramdata r).getD []).keys.Nodup ∧ ∀ x ∈ (find h.ramdata r).getD [], InI32 x.2 := by
  cases hf : find h.ramdata r with
  | none => exact ⟨List.nodup_nil, by simp⟩
  | some m =>
    have := mem_of_find hf
    exact ⟨hw.rams _ this, hw.range _ this⟩

theorem range_set {m : RamT} (hn : m.keys.Nodup) (hi : ∀ x ∈ m, InI32 x.2) (k : Addr) {c : Int} (hc : InI32 c) :
    ∀ x ∈ m.set k c, InI32 x.2 := by
  rintro ⟨k', c'⟩ he
  have := RamT.find_of_mem (RamT.nodup_set hn k c) he
  rw [RamT.find_set] at this
  split at this
  · simp only [Option.some.injEq] at this; subst this; exact hc
  · exact hi (k', c') (RamT.mem_keys_of_find this)

theorem WF.set {h : RamData} (hw : WF h) (r addr : Int) {value : Int} (hv : InI32 value) : WF (h.set r addr value) := by
  unfold RamData.set
  have h1 := hw.touch r
  have h2 := hw.ram r
  rw [← touch_snd] at h2
  exact WF.put (m := (h.touch r).1.ramdata) h1 r (RamT.nodup_set h2.1 _ _) (range_set h2.1 h2.2 _ hv)

theorem WF.getAddr {h : RamData} (hw : WF h) (r addr : Int) : WF (h.getAddr r addr).1 := by
  unfold RamData.getAddr
  have h1 := hw.touch r
  have h2 := hw.ram r
  rw [← touch_snd] at h2
  simp only
  split
  · exact h1
  · exact WF.put (m := (h.touch r).1.ramdata) h1 r (RamT.nodup_set h2.1 _ _) (range_set h2.1 h2.2 _ (by decide))

theorem i32OfBytes_range {s : Str} {v : Int} (h : i32OfBytes s = .ok v) : InI32 v := by
  unfold i32OfBytes at h
  split at h
  · cases h
  · obtain rfl : (BitVec.ofNat 32 (leNat (s.take 4))).toInt = v := by simpa using h
    unfold InI32
    have h1 := BitVec.le_toInt (BitVec.ofNat 32 (leNat (s.take 4)))
    have h2 := BitVec.toInt_lt (x := BitVec.ofNat 32 (leNat (s.take 4)))
    constructor <;> omega

theorem blockLoop_wf (k : Nat) : ∀ {s : Str} {acc m : RamT}, acc.keys.Nodup → (∀ x ∈ acc, InI32 x.2) →
    blockLoop k s acc = .ok m → m.keys.Nodup ∧ ∀ x ∈ m, InI32 x.2 := by
  induction k with
  | zero =>
    intro s acc m h1 h2 h
    simp only [blockLoop, Except.ok.injEq] at h
    subst h; exact ⟨h1, h2⟩
  | succ k ih =>
    intro s acc m h1 h2 h
    simp only [blockLoop] at h
    obtain ⟨a, _, h⟩ := bind_eq_ok h
    obtain ⟨v, hv, h⟩ := bind_eq_ok h
    exact ih (RamT.nodup_set h1 _ _) (range_set h1 h2 _ (i32OfBytes_range hv)) h

theorem dataToRam_wf {s : Str} {m : RamT} (h : dataToRam s = .ok m) : m.keys.Nodup ∧ ∀ x ∈ m, InI32 x.2 := by
  unfold dataToRam at h
  obtain ⟨dec, _, h⟩ := bind_eq_ok h
  split at h
  · simp only [Except.ok.injEq] at h; subst h; exact ⟨List.nodup_nil, by simp⟩
  · exact blockLoop_wf _ (acc := []) List.nodup_nil (by simp) h

theorem textLoop_wf (n : Nat) : ∀ {s : Str} {m m' : List (Int × RamT)}, s.length ≤ n → WF ⟨m⟩ → textLoop m s = .ok m' → WF ⟨m'⟩ := by
  induction n with
  | zero =>
    intro s m m' hl hw h
    have : s = [] := by cases s with
      | nil => rfl
      | cons => simp at hl
    subst this
    rw [textLoop_none _ _ (by simp)] at h
    split at h
    · cases h
    · rename_i r hr
      simp only [Except.ok.injEq] at h
      subst h
      have := dataToRam_wf hr
      exact hw.put _ this.1 this.2
  | succ n ih =>
    intro s m m' hl hw h
    rw [textLoop] at h
    split at h
    · split at h
      · cases h
      · rename_i r hr
        simp only [Except.ok.injEq] at h
        subst h
        have := dataToRam_wf hr
        exact hw.put _ this.1 this.2
    · split at h
      · cases h
      · rename_i r hr
        have := dataToRam_wf hr
        refine ih ?_ (hw.put _ this.1 this.2) h
        simp only [List.length_drop]
        omega

theorem fileLoop_wf (n : Nat) : ∀ {s : Str} {m m' : List (Int × RamT)}, s.length ≤ n → WF ⟨m⟩ → fileLoop m s = .ok m' → WF ⟨m'⟩ := by
  induction n with
  | zero =>
    intro s m m' hl hw h
    have : s = [] := by cases s with
      | nil => rfl
      | cons => simp at hl
    subst this
    rw [fileLoop] at h
    split at h
    · cases h
    · rename_i r hr
      simp only [getline, Except.ok.injEq] at h
      subst h
      have := dataToRam_wf hr
      exact hw.put _ this.1 this.2
  | succ n ih =>
    intro s m m' hl hw h
    rw [fileLoop] at h
    split at h
    · cases h
    · rename_i r hr
      have hd := dataToRam_wf hr
      split at h
      · simp only [Except.ok.injEq] at h
        subst h
        exact hw.put _ hd.1 hd.2
      · rename_i rest' hrest
        refine ih ?_ (hw.put _ hd.1 hd.2) h
        have := getline_rest_length s _ rest' (Prod.ext rfl hrest)
        omega

theorem ofText_wf {fs : Fs} {s : Str} {h : RamData} (ho : ofText fs s = .ok h) : WF h := by
  unfold ofText at ho
  split at ho
  · cases ho
  · split at ho
    · simp only [Except.ok.injEq] at ho; subst ho; exact WF.empty
    · split at ho
      · cases ho
      · rename_i m hm
        simp only [Except.ok.injEq] at ho
        subst ho
        exact fileLoop_wf _ (Nat.le_refl _) WF.empty hm
  · split at ho
    · cases ho
    · split at ho
      · cases ho
      · rename_i m hm
        simp only [Except.ok.injEq] at ho
        subst ho
        exact textLoop_wf _ (Nat.le_refl _) WF.empty hm

theorem made_wf {h : RamData} (hm : Spec.Made h) : WF h := by
  induction hm with
  | text ho => exact ofText_wf ho
  | ram h1 h2 => exact WF.ofRam h1 h2
  | get r _ ih => exact ih.touch r
  | getAddr r addr _ ih => exact ih.getAddr r addr
  | set r addr value hv _ ih => exact ih.set r addr hv
  | dataOf it r _ ih => exact ih.touch r

/-! ## compare -/

theorem ramCompare_iff {m m' : RamT} (hn : m.keys.Nodup) (hn' : m'.keys.Nodup) :
    (m.length = m'.length ∧ ∀ x ∈ m, m'.find x.1 = some x.2) ↔ ∀ k, m.find k = m'.find k := by
  constructor
  · rintro ⟨hl, hx⟩
    have hsub : m.keys ⊆ m'.keys := by
      intro k hk
      obtain ⟨e, he, rfl⟩ := List.mem_map.mp hk
      by_contra hc
      rw [← RamT.find_none_iff, hx e he] at hc
      cases hc
    have hle : m'.keys.length ≤ m.keys.length := by simp only [RamT.keys, List.length_map]; omega
    have hperm := (List.subperm_of_subset hn hsub).perm_of_length_le hle
    intro k
    cases hf : m.find k with
    | none =>
      rw [RamT.find_none_iff] at hf
      symm
      rw [RamT.find_none_iff]
      exact fun h => hf (hperm.mem_iff.mpr h)
    | some c => exact (hx (k, c) (RamT.mem_keys_of_find hf)).symm
  · intro h
    refine ⟨(RamT.perm_of_find hn' hn h).length_eq, fun x hx => ?_⟩
    rw [← h]
    exact RamT.find_of_mem hn hx

theorem compare_true_iff (h h' : RamData) : h.compare h' = true ↔
    h.ramdata.length = h'.ramdata.length ∧ ∀ e ∈ h.ramdata, ∃ o, find h'.ramdata e.1 = some o ∧
      e.2.length = o.length ∧ ∀ x ∈ e.2, o.find x.1 = some x.2 := by
  unfold compare
  by_cases hl : h.ramdata.length = h'.ramdata.length
  · simp only [hl, ne_eq, not_true_eq_false, if_false, true_and, List.all_eq_true]
    constructor
    · intro ha e he
      have := ha e he
      cases hf : find h'.ramdata e.1 with
      | none => rw [hf] at this; cases this
      | some o =>
        rw [hf] at this
        simp only at this
        by_cases hlo : e.2.length = o.length
        · simp only [hlo, ne_eq, not_true_eq_false, if_false, List.all_eq_true] at this
          refine ⟨o, rfl, hlo, fun x hx => ?_⟩
          have hx := this x hx
          cases hfo : o.find x.1 with
          | none => rw [hfo] at hx; cases hx
          | some v => rw [hfo] at hx; simp only [decide_eq_true_eq] at hx; rw [hx]
        · rw [if_pos hlo] at this; cases this
    · intro ha e he
      obtain ⟨o, h1, h2, h3⟩ := ha e he
      rw [h1]
      simp only [h2, ne_eq, not_true_eq_false, if_false, List.all_eq_true]
      intro x hx
      rw [h3 x hx]
      simp
  · rw [if_pos hl]
    simp [hl]

theorem compare_iff {h h' : RamData} (hw : WF h) (hw' : WF h') :
    h.compare h' = true ↔ Spec.SameContents h h' := by
  rw [compare_true_iff]
  unfold Spec.SameContents Spec.Has Spec.value
  constructor
  · rintro ⟨hl, ha⟩
    have hsub : rkeys h.ramdata ⊆ rkeys h'.ramdata := by
      intro k hk
      obtain ⟨e, he, rfl⟩ := List.mem_map.mp hk
      obtain ⟨o, ho, _⟩ := ha e he
      by_contra hc
      rw [← find_none, ho] at hc
      cases hc
    have hle : (rkeys h'.ramdata).length ≤ (rkeys h.ramdata).length := by simp only [rkeys, List.length_map]; omega
    have hperm := (List.subperm_of_subset hw.keys hsub).perm_of_length_le hle
    intro r
    cases hf : find h.ramdata r with
    | none =>
      have : find h'.ramdata r = none := by
        rw [find_none] at hf ⊢
        exact fun hc => hf (hperm.mem_iff.mpr hc)
      rw [this]
      exact ⟨Iff.rfl, fun _ => rfl⟩
    | some m =>
      have hm := mem_of_find hf
      obtain ⟨o, ho, h1, h2⟩ := ha _ hm
      simp only at ho h1 h2
      rw [ho]
      have := (ramCompare_iff (hw.rams _ hm) (hw'.rams _ (mem_of_find ho))).mp ⟨h1, h2⟩
      exact ⟨⟨fun _ => ⟨o, rfl⟩, fun _ => ⟨m, rfl⟩⟩, this⟩
  · intro hs
    have hkeys : ∀ r, r ∈ rkeys h.ramdata ↔ r ∈ rkeys h'.ramdata := by
      intro r
      have := (hs r).1
      constructor
      · intro hr
        by_contra hc
        rw [← find_none] at hc
        cases hf : find h.ramdata r with
        | none => exact (find_none.mp hf) hr
        | some m =>
          obtain ⟨m', hm'⟩ := this.mp ⟨m, hf⟩
          rw [hc] at hm'; cases hm'
      · intro hr
        by_contra hc
        rw [← find_none] at hc
        cases hf : find h'.ramdata r with
        | none => exact (find_none.mp hf) hr
        | some m =>
          obtain ⟨m', hm'⟩ := this.mpr ⟨m, hf⟩
          rw [hc] at hm'; cases hm'
    have hperm : (rkeys h.ramdata).Perm (rkeys h'.ramdata) := (List.perm_ext_iff_of_nodup hw.keys hw'.keys).mpr hkeys
    refine ⟨by simpa [rkeys] using hperm.length_eq, ?_⟩
    rintro ⟨r, m⟩ he
    have hf := find_of_mem hw.keys he
    obtain ⟨o, ho⟩ := (hs r).1.mp ⟨m, hf⟩
    refine ⟨o, ho, ?_⟩
    have hv := (hs r).2
    rw [hf, ho] at hv
    exact (ramCompare_iff (hw.rams _ he) (hw'.rams _ (mem_of_find ho))).mpr hv

/-! ## data() -/

theorem touch_of_find {h : RamData} {r : Int} {m : RamT} (hf : find h.ramdata r = some m) : h.touch r = (h, m) := by
  unfold touch; rw [hf]

/-- `data()` of a handle of RAMs `0 … n-1`. -/
theorem dataLoop_ok (it : IterOrder) (h : RamData) (f : Nat → RamT) (n : Nat) (hl : h.ramdata.length = n)
    (hf : ∀ i, i < n → find h.ramdata i = some (f i)) (k : Nat) : ∀ (i : Nat) (out : Str) (fuel : Nat), i + k = n → k ≤ fuel →
    dataLoop it fuel h i out = (h, some (.ok (out ++
      ((List.range' i k).flatMap (fun j => (if j ≠ 0 then b!"." else []) ++ seg (it.ord (f j))))))) := by
  induction k with
  | zero =>
    intro i out fuel hi _
    have hge : ¬ i < h.ramdata.length := by omega
    cases fuel <;> simp [dataLoop, hge]
  | succ k ih =>
    intro i out fuel hi hfu
    cases fuel with
    | zero => omega
    | succ fuel =>
      have hlt : i < h.ramdata.length := by omega
      have henc : Base64.encode (blocks (it.ord (f i))) = .ok (seg (it.ord (f i))) := Base64.encode_eq _
      simp only [dataLoop, hlt, if_true, dataOf, touch_of_find (hf i (by omega)), henc]
      rw [ih (i + 1) _ fuel (by omega) (by omega)]
      simp [List.range'_succ]

theorem joined_range (g : Nat → RamT) (n : Nat) (hn : 0 < n) :
    (List.range' 0 n).flatMap (fun j => (if j ≠ 0 then b!"." else []) ++ seg (g j)) = joined ((List.range n).map g) := by
  cases n with
  | zero => omega
  | succ n =>
    rw [List.range_eq_range', List.range'_succ, List.map_cons, joined_flat, List.flatMap_cons, List.flatMap_map]
    simp only [ne_eq, not_true_eq_false, if_false, List.nil_append, Nat.zero_add]
    congr 1
    apply List.flatMap_congr
    intro j hj
    have : j ≠ 0 := by
      have := List.mem_range'.mp hj
      omega
    simp [this]

/-- Reading the text of several RAMs. -/
theorem textLoop_joined (ms : List RamT) (hne : ∀ m ∈ ms, m ≠ []) (hn : ∀ m ∈ ms, m.keys.Nodup)
    (hi : ∀ m ∈ ms, ∀ e ∈ m, InI32 e.2) : ∀ (acc : List (Int × RamT)), ms ≠ [] →
    (∀ k ∈ rkeys acc, k < (acc.length : Int)) →
    ∃ res, textLoop acc (joined ms) = .ok res ∧ res.length = acc.length + ms.length ∧
      ∀ r : Int, find res r = if 0 ≤ r - acc.length ∧ r - acc.length < ms.length then ms[(r - acc.length).toNat]? else find acc r := by
  induction ms with
  | nil => intro acc h; exact absurd rfl h
  | cons m ms ih =>
    intro acc _ hk
    have hd := dataToRam_seg m (hne m (by simp)) (hn m (by simp)) (hi m (by simp))
    have hnk : (acc.length : Int) ∉ rkeys acc := fun hc => by have := hk _ hc; omega
    have hpl : (push acc m).length = acc.length + 1 := by
      unfold push; rw [put_length, if_neg hnk]
    cases ms with
    | nil =>
      refine ⟨push acc m, ?_, ?_, ?_⟩
      · show textLoop acc (seg m) = _
        rw [textLoop_none _ _ (seg_no_dot m), hd]
      · rw [hpl]; rfl
      · intro r
        unfold push
        rw [find_put]
        simp only [List.length_cons, List.length_nil]
        by_cases hr : r = (acc.length : Int)
        · subst hr; simp
        · rw [if_neg hr, if_neg (by omega)]
    | cons m' ms =>
      obtain ⟨res, h1, h2, h3⟩ := ih (fun x hx => hne x (List.mem_cons_of_mem _ hx)) (fun x hx => hn x (List.mem_cons_of_mem _ hx))
        (fun x hx => hi x (List.mem_cons_of_mem _ hx)) (push acc m) (by simp) (by
          intro k hk'
          unfold push at hk'
          rw [rkeys_put, if_neg hnk] at hk'
          rw [hpl]
          rcases List.mem_append.mp hk' with h | h
          · have := hk k h; push_cast; omega
          · simp only [List.mem_singleton] at h; subst h; push_cast; omega)
      refine ⟨res, ?_, ?_, ?_⟩
      · show textLoop acc (seg m ++ c!"." :: joined (m' :: ms)) = _
        rw [textLoop_some _ _ _ (seg_no_dot m), hd]
        exact h1
      · rw [h2, hpl]; simp only [List.length_cons]; omega
      · intro r
        rw [h3 r, hpl]
        simp only [List.length_cons]
        push_cast
        by_cases hr : r = (acc.length : Int)
        · subst hr
          rw [if_neg (by omega), if_pos (by omega)]
          unfold push
          rw [find_put, if_pos rfl]
          simp
        · by_cases hc : 0 ≤ r - (acc.length : Int) ∧ r - (acc.length : Int) < (ms.length : Int) + 1 + 1
          · rw [if_pos (by omega), if_pos hc]
            have : (r - (acc.length : Int)).toNat = (r - ((acc.length : Int) + 1)).toNat + 1 := by omega
            rw [this, List.getElem?_cons_succ]
          · rw [if_neg (by omega), if_neg hc]
            unfold push
            rw [find_put, if_neg hr]

theorem has_iff {h : RamData} {r : Int} : Spec.Has h r ↔ r ∈ rkeys h.ramdata := by
  unfold Spec.Has
  cases hf : find h.ramdata r with
  | none => simp [find_none.mp hf]
  | some m =>
    simp only [Option.some.injEq, exists_eq', true_iff]
    by_contra hc
    rw [← find_none, hf] at hc
    cases hc

theorem rkeys_touch (h : RamData) (r : Int) :
    rkeys (h.touch r).1.ramdata = if r ∈ rkeys h.ramdata then rkeys h.ramdata else rkeys h.ramdata ++ [r] := by
  unfold touch
  cases hf : find h.ramdata r with
  | none => simp only [rkeys_put]
  | some m =>
    have : r ∈ rkeys h.ramdata := has_iff.mp ⟨m, hf⟩
    simp only [this, if_true]

theorem length_rkeys (m : List (Int × RamT)) : (rkeys m).length = m.length := by simp [rkeys]

theorem range_length {l : List Int} (hn : l.Nodup) {n : Nat} (h : ∀ r, r ∈ l ↔ 0 ≤ r ∧ r < n) : l.length = n := by
  have hp : l.Perm ((List.range n).map Int.ofNat) := by
    rw [List.perm_ext_iff_of_nodup hn (range_int_nodup n)]
    intro r
    rw [h, range_int_mem]
  simpa using hp.length_eq

theorem range_le {l : List Int} (hn : l.Nodup) {n : Nat} (h : ∀ r ∈ l, 0 ≤ r ∧ r < n) : l.length ≤ n := by
  have hs : l ⊆ (List.range n).map Int.ofNat := by
    intro r hr
    exact range_int_mem.mpr (h r hr)
  have := (List.subperm_of_subset hn hs).length_le
  simpa using this

/-- With a negative RAM index the loop of `data()` is never left. -/
theorem dataLoop_diverges (it : IterOrder) {r : Int} (hr : r < 0) (fuel : Nat) : ∀ (h : RamData) (i : Nat) (out : Str),
    r ∈ rkeys h.ramdata → (∀ j : Nat, j < i → (j : Int) ∈ rkeys h.ramdata) → (dataLoop it fuel h i out).2 = none := by
  have hsize : ∀ (h : RamData) (i : Nat), r ∈ rkeys h.ramdata → (∀ j : Nat, j < i → (j : Int) ∈ rkeys h.ramdata) →
      i < h.ramdata.length := by
    intro h i h1 h2
    have hs : (r :: (List.range i).map Int.ofNat) ⊆ rkeys h.ramdata := by
      intro x hx
      rcases List.mem_cons.mp hx with rfl | hx
      · exact h1
      · obtain ⟨j, hj, rfl⟩ := List.mem_map.mp hx
        exact h2 j (List.mem_range.mp hj)
    have hnd : (r :: (List.range i).map Int.ofNat).Nodup := by
      rw [List.nodup_cons]
      refine ⟨fun hc => ?_, range_int_nodup i⟩
      have := range_int_mem.mp hc
      omega
    have := (List.subperm_of_subset hnd hs).length_le
    rw [length_rkeys] at this
    simp at this
    omega
  induction fuel with
  | zero =>
    intro h i out h1 h2
    simp [dataLoop, hsize h i h1 h2]
  | succ fuel ih =>
    intro h i out h1 h2
    have henc : ∀ m, Base64.encode m = .ok (Spec.b64 m) := Base64.encode_eq
    simp only [dataLoop, hsize h i h1 h2, if_true, dataOf, henc]
    have hk := rkeys_touch h i
    apply ih
    · rw [hk]; split
      · exact h1
      · exact List.mem_append_left _ h1
    · intro j hj
      rw [hk]
      by_cases hji : j = i
      · subst hji
        split
        · assumption
        · simp
      · have := h2 j (by omega)
        split
        · exact this
        · exact List.mem_append_left _ this

/-- Without negative RAM indexes `data()` ends. -/
theorem dataLoop_terminates (it : IterOrder) (K : Nat) (fuel : Nat) : ∀ (h : RamData) (i : Nat) (out : Str), WF h →
    (∀ r ∈ rkeys h.ramdata, 0 ≤ r ∧ r < max K i) → K ≤ fuel + i →
    ∃ h' s, dataLoop it fuel h i out = (h', some (.ok s)) := by
  induction fuel with
  | zero =>
    intro h i out hw hk hf
    have : ¬ i < h.ramdata.length := by
      have := range_le (n := i) hw.keys (fun r hr => by have := hk r hr; omega)
      rw [length_rkeys] at this
      omega
    exact ⟨h, out, by simp [dataLoop, this]⟩
  | succ fuel ih =>
    intro h i out hw hk hf
    by_cases hlt : i < h.ramdata.length
    · have henc : ∀ m, Base64.encode m = .ok (Spec.b64 m) := Base64.encode_eq
      simp only [dataLoop, hlt, if_true, dataOf, henc]
      apply ih _ _ _ (hw.touch _) ?_ (by omega)
      intro r hr
      rw [rkeys_touch] at hr
      split at hr
      · have := hk r hr; omega
      · rcases List.mem_append.mp hr with hr | hr
        · have := hk r hr; omega
        · simp only [List.mem_singleton] at hr; subst hr; omega
    · exact ⟨h, out, by simp [dataLoop, hlt]⟩

end RamData
end Wis
