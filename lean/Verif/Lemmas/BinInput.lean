import Verif.Model.BinInput
import Verif.Lemmas.Base64
/-! Helper lemmas for BinInput. -/

namespace Wis
namespace BinInput

/-- What constructors and `set` maintain. -/
structure WF (b : BinInput) : Prop where
  rem_lt : b.remain.toNat < 8
  rem_le : b.remain.toNat ≤ b.input.length * 8
  len : b.input.length < 2 ^ 60

theorem size_eq {b : BinInput} (h : WF b) : b.size = b.input.length * 8 - b.remain.toNat := by
  obtain ⟨h1, h2, h3⟩ := h
  have hs : (b.remain.signExtend 64).toNat = b.remain.toNat := by
    rw [BitVec.signExtend_eq_setWidth_of_msb_false, BitVec.toNat_setWidth]
    · omega
    · rw [BitVec.msb_eq_decide]; simp; omega
  unfold size
  rw [BitVec.toNat_sub, BitVec.toNat_ofNat, hs]
  omega

/-! ## single byte facts -/

set_option maxRecDepth 8000 in
theorem bit_get : ∀ s : Fin 8, ∀ c : Byte,
    ((Base64.promote c).sshiftRight s.val &&& 0x01#32).toNat = (c.getLsbD s.val).toNat := by
  decide +kernel

/-- Bits of the byte written by `set`, for an arbitrary `int` value. -/
theorem getLsbD_setByte (c : Byte) (s t : Nat) (hs : s < 8) (ht : t < 8) (v : Int) :
    (setByte c s v).getLsbD t =
      ((c.getLsbD t && decide (t ≠ s)) || (decide (s ≤ t) && (BitVec.ofInt 32 v).getLsbD (t - s))) := by
  unfold setByte Base64.promote
  have e : ∀ u, u < 8 → (BitVec.signExtend 32 c).getLsbD u = c.getLsbD u := by
    intro u hu
    rw [BitVec.getLsbD_signExtend]
    simp [hu, show u < 32 by omega]
  simp only [BitVec.getLsbD_setWidth, ht, BitVec.getLsbD_or, BitVec.getLsbD_and, BitVec.getLsbD_not,
    BitVec.getLsbD_shiftLeft, e t ht, show t < 32 by omega]
  have : (1#32).getLsbD (t - s) = decide (t - s = 0) := by
    rw [BitVec.getLsbD_one]; simp
  rw [this]
  by_cases h1 : t < s
  · simp [h1, show ¬ t = s by omega, show ¬ s ≤ t by omega]
  · by_cases h2 : t = s
    · subst h2; simp
    · simp [h1, h2, show s ≤ t by omega, show t - s ≠ 0 by omega]

theorem get_eq {b : BinInput} (h : WF b) {i : Nat} (hi : i < b.size) :
    ∃ hb : i / 8 < b.input.length,
      b.get i = .ok (((b.input[i / 8]).getLsbD (7 - i % 8)).toNat : Int) := by
  have hsz := size_eq h
  have hb : i / 8 < b.input.length := by omega
  refine ⟨hb, ?_⟩
  unfold get
  rw [if_neg (by omega), Str.at_lt hb]
  simp only [Except.bind_ok]
  have := bit_get ⟨7 - i % 8, by omega⟩ b.input[i / 8]
  simp only at this
  rw [this]

theorem set_fst_wf {b : BinInput} (h : WF b) (i : Nat) (v : Int) : WF (b.set i v).1 := by
  unfold set
  split
  · exact h
  · split
    · exact ⟨h.rem_lt, by simpa using h.rem_le, by simpa using h.len⟩
    · exact h

theorem set_fst_size {b : BinInput} (i : Nat) (v : Int) : (b.set i v).1.size = b.size := by
  unfold set
  split
  · rfl
  · split
    · simp [size]
    · rfl

theorem set_out {b : BinInput} {i : Nat} (hi : b.size ≤ i) (v : Int) :
    b.set i v = (b, .error (.throw .indexOutOfRange)) := by
  unfold set
  rw [if_pos hi]

theorem set_ok {b : BinInput} (h : WF b) {i : Nat} (hi : i < b.size) (v : Int) :
    (b.set i v).2 = .ok () := by
  have hsz := size_eq h
  unfold set
  rw [if_neg (by omega), dif_pos (by omega)]

/-- Complete description of the bits after `set(i, v)` with any int `v`. -/
theorem get_set {b : BinInput} (h : WF b) {i j : Nat} (hi : i < b.size) (hj : j < b.size) (v : Int) :
    ∃ old : Int, b.get j = .ok old ∧ (b.set i v).1.get j = .ok (
      if j / 8 = i / 8 then
        (if j = i then ((BitVec.ofInt 32 v).getLsbD 0).toNat
         else if j < i then (if (BitVec.ofInt 32 v).getLsbD (i - j) then 1 else old)
         else old)
      else old) := by
  obtain ⟨hjb, hjg⟩ := get_eq h hj
  refine ⟨_, hjg, ?_⟩
  have hwf := set_fst_wf h i v
  have hsz := size_eq h
  have hib : i / 8 < b.input.length := by omega
  obtain ⟨hb', hg'⟩ := get_eq hwf (i := j) (by rw [set_fst_size]; exact hj)
  rw [hg']
  have hinp : (b.set i v).1.input = b.input.set (i / 8) (setByte b.input[i / 8] (7 - i % 8) v) := by
    unfold set
    rw [if_neg (by omega), dif_pos hib]
  have hget : (b.set i v).1.input[j / 8] =
      (b.input.set (i / 8) (setByte b.input[i / 8] (7 - i % 8) v))[j / 8]'(by simpa using hjb) := by
    congr 1
  rw [hget, List.getElem_set]
  by_cases hs : j / 8 = i / 8
  · rw [if_pos hs.symm, if_pos hs]
    simp only [hs]
    rw [getLsbD_setByte _ _ _ (by omega) (by omega)]
    by_cases hji : j = i
    · subst hji
      simp
    · rw [if_neg hji]
      by_cases hlt : j < i
      · rw [if_pos hlt]
        have h1 : 7 - i % 8 ≤ 7 - j % 8 := by omega
        have h2 : 7 - j % 8 - (7 - i % 8) = i - j := by omega
        have h3 : ¬ (7 - j % 8 = 7 - i % 8) := by omega
        simp only [h2, decide_true, h1, Bool.true_and]
        by_cases hv : (BitVec.ofInt 32 v).getLsbD (i - j)
        · simp [hv]
        · simp [hv, h3]
      · rw [if_neg hlt]
        have h1 : ¬ 7 - i % 8 ≤ 7 - j % 8 := by omega
        have h3 : ¬ (7 - j % 8 = 7 - i % 8) := by omega
        simp [h1, h3]
  · rw [if_neg (by omega), if_neg hs]

theorem bit01 {v : Int} (h : v = 0 ∨ v = 1) (k : Nat) :
    (BitVec.ofInt 32 v).getLsbD k = (decide (k = 0) && decide (v = 1)) := by
  rcases h with rfl | rfl
  · simp
  · have : (BitVec.ofInt 32 1) = 1#32 := by decide
    rw [this, BitVec.getLsbD_one]
    simp

theorem get_set01 {b : BinInput} (h : WF b) {i j : Nat} (hi : i < b.size) (hj : j < b.size) {v : Int}
    (hv : v = 0 ∨ v = 1) :
    (b.set i v).1.get j = if j = i then .ok v else b.get j := by
  obtain ⟨old, h1, h2⟩ := get_set h hi hj v
  rw [h2, h1]
  by_cases hji : j = i
  · subst hji
    simp only [if_true, bit01 hv]
    rcases hv with rfl | rfl <;> simp
  · rw [if_neg hji]
    simp only [bit01 hv, hji, if_false]
    by_cases hlt : j < i
    · simp [show i - j ≠ 0 by omega]
    · simp [hlt]

theorem ofSize_wf {n : Nat} (hn : n < 2 ^ 62) : WF (ofSize n) := by
  unfold ofSize
  refine ⟨?_, ?_, ?_⟩
  · simp only
    split
    · simp
    · rw [BitVec.toNat_ofNat]; omega
  · simp only [List.length_replicate]
    split
    · simp
    · rw [BitVec.toNat_ofNat]; omega
  · simp only [List.length_replicate]
    split <;> omega

theorem ofSize_size {n : Nat} (hn : n < 2 ^ 62) : (ofSize n).size = n := by
  rw [size_eq (ofSize_wf hn)]
  unfold ofSize
  simp only [List.length_replicate]
  split
  · simp; omega
  · rw [BitVec.toNat_ofNat]; omega

theorem ofSize_get {n i : Nat} (hn : n < 2 ^ 62) (hi : i < n) : (ofSize n).get i = .ok 0 := by
  obtain ⟨hb, hg⟩ := get_eq (ofSize_wf hn) (i := i) (by rw [ofSize_size hn]; exact hi)
  rw [hg]
  simp [ofSize]

theorem get_out {b : BinInput} {i : Nat} (hi : b.size ≤ i) :
    b.get i = .error (.throw .indexOutOfRange) := by
  unfold get; rw [if_pos hi]

theorem fill_spec (vs : List Int) : ∀ (b : BinInput) (i : Nat), WF b → i + vs.length ≤ b.size →
    (∀ v ∈ vs, v = 0 ∨ v = 1) →
    ∃ b', fill b i vs = .ok b' ∧ WF b' ∧ b'.size = b.size ∧
      ∀ j, j < b.size → b'.get j =
        if h : i ≤ j ∧ j - i < vs.length then .ok (vs[j - i]'h.2) else b.get j := by
  induction vs with
  | nil =>
    intro b i hw _ _
    exact ⟨b, rfl, hw, rfl, by intro j _; simp⟩
  | cons v vs ih =>
    intro b i hw hl hv
    simp only [List.length_cons] at hl
    have hi : i < b.size := by omega
    have hs : (b.set i v).2 = .ok () := set_ok hw hi v
    obtain ⟨b', h1, h2, h3, h4⟩ := ih (b.set i v).1 (i + 1) (set_fst_wf hw i v)
      (by rw [set_fst_size]; omega) (fun x hx => hv x (List.mem_cons_of_mem _ hx))
    refine ⟨b', ?_, h2, by rw [h3, set_fst_size], ?_⟩
    · unfold fill
      rw [show b.set i v = ((b.set i v).1, .ok ()) from Prod.ext rfl hs]
      exact h1
    · intro j hj
      rw [h4 j (by rw [set_fst_size]; exact hj)]
      by_cases hji : j = i
      · subst hji
        rw [dif_neg (by omega), dif_pos ⟨Nat.le_refl _, by simp⟩]
        rw [get_set01 hw hi hj (hv v (by simp)), if_pos rfl]
        simp
      · by_cases hc : i + 1 ≤ j ∧ j - (i + 1) < vs.length
        · rw [dif_pos hc, dif_pos ⟨by omega, by simp; omega⟩]
          have : j - i = (j - (i + 1)) + 1 := by omega
          simp only [this, List.getElem_cons_succ]
        · rw [dif_neg hc, dif_neg (by simp; omega)]
          rw [get_set01 hw hi hj (hv v (by simp)), if_neg hji]

theorem ofList_spec (vs : List Int) (hlen : vs.length < 2 ^ 62) (hv : ∀ v ∈ vs, v = 0 ∨ v = 1) :
    ∃ b, ofList vs = .ok b ∧ WF b ∧ b.size = vs.length ∧
      ∀ j (h : j < vs.length), b.get j = .ok vs[j] := by
  obtain ⟨b, h1, h2, h3, h4⟩ := fill_spec vs (ofSize vs.length) 0 (ofSize_wf hlen)
    (by rw [ofSize_size hlen]; omega) hv
  rw [ofSize_size hlen] at h3 h4
  refine ⟨b, h1, h2, h3, ?_⟩
  intro j hj
  rw [h4 j hj, dif_pos ⟨Nat.zero_le _, by simpa using hj⟩]
  simp

theorem ofData_data (b : BinInput) : ∃ s, b.data = .ok s ∧ ofData s = .ok b := by
  refine ⟨_, Base64.encode_eq _, ?_⟩
  unfold ofData
  rw [Base64.decode_b64 _ (by simp)]
  simp only [Except.bind_ok]
  simp [Str.substr, Str.at, bind, Except.bind]

end BinInput
end Wis
