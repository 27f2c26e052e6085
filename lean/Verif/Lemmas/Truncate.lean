import Verif.Lemmas.DataSet
/-! Helper lemmas for truncated texts and files. -/

namespace Wis
open Spec
namespace Base64

/-- A cut after whole groups of four characters is the text of a shorter byte string. -/
theorem b64_take (k : Nat) : ∀ d : List Byte, (b64 d).take (4 * k) = b64 (d.take (3 * k)) := by
  induction k with
  | zero => intro d; simp [b64]
  | succ k ih =>
    intro d
    match d with
    | [] => simp [b64]
    | [a] =>
      rw [List.take_of_length_le (by simp only [b64, List.length_cons, List.length_nil]; omega),
        List.take_of_length_le (by simp only [List.length_cons, List.length_nil]; omega)]
    | [a, b] =>
      rw [List.take_of_length_le (by simp only [b64, List.length_cons, List.length_nil]; omega),
        List.take_of_length_le (by simp only [List.length_cons, List.length_nil]; omega)]
    | a :: b :: c :: rest =>
      have h4 : 4 * (k + 1) = 4 * k + 1 + 1 + 1 + 1 := by omega
      have h3 : 3 * (k + 1) = 3 * k + 1 + 1 + 1 := by omega
      rw [h4, h3]
      simp only [b64, List.take_succ_cons, ih]

theorem put_full {size : Nat} {out : Str} (c : Byte) (h : size ≤ out.length) :
    put size out c = .error (.ub .outOfBounds) := by
  unfold put; rw [if_neg (by omega)]

theorem put_cases (size : Nat) (out : Str) (c : Byte) :
    put size out c = .ok (out ++ [c]) ∨ put size out c = .error (.ub .outOfBounds) := by
  unfold put; split <;> simp

theorem at_le {s : Str} {i : Nat} (h : i ≤ s.length) : ∃ c, Str.at s i = .ok c := by
  unfold Str.at
  split
  · exact ⟨_, rfl⟩
  · rw [if_pos (by omega)]; exact ⟨_, rfl⟩

/-- The first character of an incomplete last group is written beyond the end of the output. -/
theorem decLoop_last (e : Str) (size i : Nat) (out : Str) (hi : i < e.length) (hs : size ≤ out.length) :
    decLoop e size i out = .error (.ub .outOfBounds) := by
  unfold decLoop
  rw [dif_pos hi]
  obtain ⟨c0, h0⟩ := at_le (s := e) (i := i) (by omega)
  obtain ⟨c1, h1⟩ := at_le (s := e) (i := i + 1) (by omega)
  rw [h0, h1]
  simp only [Except.bind_ok]
  rw [put_full _ hs]
  rfl

theorem decLoop_cut (e : Str) (size : Nat) (rest : List Byte) :
    ∀ (pre out : Str) (m : Nat), e = pre ++ (b64 rest).take m → m % 4 ≠ 0 → m < (b64 rest).length →
      size ≤ out.length + 3 * (m / 4) → decLoop e size pre.length out = .error (.ub .outOfBounds) := by
  fun_induction written rest with
  | case1 => intro pre out m he hm hl; simp [b64] at hl
  | case2 a =>
    intro pre out m he hm hl hs
    simp only [b64, List.length_cons, List.length_nil] at hl
    refine decLoop_last _ _ _ _ ?_ (by omega)
    rw [he, List.length_append, List.length_take]; simp only [b64, List.length_cons, List.length_nil]; omega
  | case3 a b =>
    intro pre out m he hm hl hs
    simp only [b64, List.length_cons, List.length_nil] at hl
    refine decLoop_last _ _ _ _ ?_ (by omega)
    rw [he, List.length_append, List.length_take]; simp only [b64, List.length_cons, List.length_nil]; omega
  | case4 a b c rest ih =>
    intro pre out m he hm hl hs
    by_cases h4 : m < 4
    · refine decLoop_last _ _ _ _ ?_ (by omega)
      rw [he, List.length_append, List.length_take]; omega
    obtain ⟨m, rfl⟩ : ∃ m', m = m' + 1 + 1 + 1 + 1 := ⟨m - 4, by omega⟩
    have ha := a.isLt
    have hb := b.isLt
    have hc := c.isLt
    have hlen4 : (b64 (a :: b :: c :: rest)).length = (b64 rest).length + 4 := by simp [b64]
    have he' : e = (pre ++ [b64char (a.toNat / 4), b64char (a.toNat % 4 * 16 + b.toNat / 16),
        b64char (b.toNat % 16 * 4 + c.toNat / 64), b64char (c.toNat % 64)]) ++ (b64 rest).take m := by
      rw [b64_eq] at he ⊢
      simp [he, written, pad]
    have ih' := ih _ (out ++ [a] ++ [b] ++ [c]) m he' (by omega) (by omega) (by simp; omega)
    rw [show (pre ++ [b64char (a.toNat / 4), b64char (a.toNat % 4 * 16 + b.toNat / 16),
        b64char (b.toNat % 16 * 4 + c.toNat / 64), b64char (c.toNat % 64)]).length
        = pre.length + 4 by simp] at ih'
    have hlen : e.length = pre.length + 4 + ((b64 rest).take m).length := by simp [he']; omega
    have e0 : e[pre.length]'(by omega) = b64char (a.toNat / 4) := by simp [he']
    have e1 : e[pre.length + 1]'(by omega) = b64char (a.toNat % 4 * 16 + b.toNat / 16) := by simp [he']
    have e2 : e[pre.length + 2]'(by omega) = b64char (b.toNat % 16 * 4 + c.toNat / 64) := by simp [he']
    have e3 : e[pre.length + 3]'(by omega) = b64char (c.toNat % 64) := by simp [he']
    unfold decLoop
    rw [dif_pos (by omega), Str.at_lt (by omega), Str.at_lt (by omega), Str.at_lt (by omega),
      Str.at_lt (by omega), e0, e1, e2, e3]
    simp only [Except.bind_ok]
    have i0 := indexMap_b64char (n := a.toNat / 4) (by omega)
    have i1 := indexMap_b64char (n := a.toNat % 4 * 16 + b.toNat / 16) (by omega)
    have i2 := indexMap_b64char (n := b.toNat % 16 * 4 + c.toNat / 64) (by omega)
    have i3 := indexMap_b64char (n := c.toNat % 64) (by omega)
    rw [dec_b0 _ _ a i0 (by omega) (by omega)]
    rcases put_cases size out a with h | h <;> rw [h] <;> simp only [Except.bind_ok, Except.bind_error]
    rw [if_neg (b64char_ne_eq (by omega))]
    rw [dec_b1 _ _ b (by omega) (by omega) (by omega) (by omega)]
    rcases put_cases size (out ++ [a]) b with h | h <;> rw [h] <;> simp only [Except.bind_ok, Except.bind_error]
    rw [if_neg (b64char_ne_eq (by omega))]
    rw [dec_b2 _ _ c (by omega) (by omega) i3]
    rcases put_cases size (out ++ [a] ++ [b]) c with h | h <;> rw [h] <;> simp only [Except.bind_ok, Except.bind_error]
    exact ih'

/-- Third character of a text. -/
theorem b64_third (d : List Byte) (h : 2 < (b64 d).length) : (b64 d)[2] = c!"=" ↔ d.length = 1 := by
  match d with
  | [] => simp [b64] at h
  | [a] => simp [b64]
  | [a, b] =>
    have := b64char_ne_eq (n := (a.toNat * 256 + b.toNat) * 4 % 64) (by omega)
    simp only [b64, List.getElem_cons_succ, List.getElem_cons_zero]
    simp [this]
  | a :: b :: c :: rest =>
    have := b64char_ne_eq (n := (a.toNat * 65536 + b.toNat * 256 + c.toNat) / 64 % 64) (by omega)
    simp only [b64, List.getElem_cons_succ, List.getElem_cons_zero]
    simp [this]

theorem b64_first2 (d : List Byte) (h : 1 < (b64 d).length) : (b64 d)[0] ≠ c!"=" ∧ (b64 d)[1] ≠ c!"=" := by
  match d with
  | [] => simp [b64] at h
  | [a] =>
    have := a.isLt
    exact ⟨by simp only [b64, List.getElem_cons_zero]; exact b64char_ne_eq (by omega),
      by simp only [b64, List.getElem_cons_succ, List.getElem_cons_zero]; exact b64char_ne_eq (by omega)⟩
  | [a, b] =>
    have := a.isLt
    have := b.isLt
    exact ⟨by simp only [b64, List.getElem_cons_zero]; exact b64char_ne_eq (by omega),
      by simp only [b64, List.getElem_cons_succ, List.getElem_cons_zero]; exact b64char_ne_eq (by omega)⟩
  | a :: b :: c :: rest =>
    have := a.isLt
    have := b.isLt
    have := c.isLt
    exact ⟨by simp only [b64, List.getElem_cons_zero]; exact b64char_ne_eq (by omega),
      by simp only [b64, List.getElem_cons_succ, List.getElem_cons_zero]; exact b64char_ne_eq (by omega)⟩

theorem b64_mod4 (d : List Byte) : (b64 d).length % 4 = 0 := by
  rw [b64_length]; split <;> omega

/-- Decoding the first `n` characters of a text. -/
theorem decode_take (d : List Byte) (n : Nat) (hn : n ≤ (b64 d).length) :
    decode ((b64 d).take n) =
      if n % 4 = 0 ∧ 0 < n then .ok (d.take (3 * (n / 4)))
      else if n = 3 ∧ d.length = 1 then .error (.throw .stdLengthError)
      else .error (.ub .outOfBounds) := by
  have h4 := b64_mod4 d
  by_cases h : n % 4 = 0 ∧ 0 < n
  · rw [if_pos h]
    obtain ⟨k, rfl⟩ : ∃ k, n = 4 * k := ⟨n / 4, by omega⟩
    rw [b64_take, show 3 * (4 * k / 4) = 3 * k by omega]
    apply decode_b64
    intro e
    rw [List.take_eq_nil_iff] at e
    rcases e with e | e
    · omega
    · subst e; simp [b64] at hn; omega
  rw [if_neg h]
  have hl : ((b64 d).take n).length = n := by rw [List.length_take]; omega
  by_cases h2 : n < 2
  · rw [if_neg (by omega)]
    unfold decode
    rw [if_pos (by omega)]
  have hn4 : n % 4 ≠ 0 := by omega
  have hlt : n < (b64 d).length := by
    rcases Nat.lt_or_ge n (b64 d).length with h | h
    · exact h
    · have : n = (b64 d).length := by omega
      omega
  have loop : ∀ size, size ≤ 3 * (n / 4) → decLoop ((b64 d).take n) size 0 [] = .error (.ub .outOfBounds) := by
    intro size hs
    exact decLoop_cut _ size d [] [] n rfl hn4 hlt (by simpa using hs)
  unfold decode
  rw [if_neg (by omega), Str.at_lt (by omega), Str.at_lt (by omega)]
  simp only [Except.bind_ok, hl]
  by_cases h3 : n = 3 ∧ d.length = 1
  · rw [if_pos h3]
    obtain ⟨rfl, hd⟩ := h3
    have e1 : ((b64 d).take 3)[1]'(by omega) ≠ c!"=" := by
      rw [List.getElem_take]; exact (b64_first2 d (by omega)).2
    have e2 : ((b64 d).take 3)[2]'(by omega) = c!"=" := by
      rw [List.getElem_take]; exact (b64_third d (by omega)).mpr hd
    simp only [Nat.reduceSub, e1, e2, if_true]
    rfl
  · rw [if_neg h3]
    generalize hz : (3 * ((n / 4 : Nat) : Int) -
      (if ((b64 d).take n)[n - 2]'(by omega) = c!"=" then 2 else if ((b64 d).take n)[n - 1]'(by omega) = c!"=" then 1 else 0)) = z
    have hz0 : 0 ≤ z ∧ z ≤ 3 * (n / 4 : Nat) := by
      by_cases hg : 4 ≤ n
      · rw [← hz]; split
        · omega
        · split <;> omega
      · have hd : n = 2 ∨ n = 3 := by omega
        rcases hd with rfl | rfl
        · have e0 : ((b64 d).take 2)[0]'(by omega) ≠ c!"=" := by
            rw [List.getElem_take]; exact (b64_first2 d (by omega)).1
          have e1 : ((b64 d).take 2)[1]'(by omega) ≠ c!"=" := by
            rw [List.getElem_take]; exact (b64_first2 d (by omega)).2
          rw [← hz]
          simp only [Nat.reduceSub, e0, e1, if_false]; omega
        · have e1 : ((b64 d).take 3)[1]'(by omega) ≠ c!"=" := by
            rw [List.getElem_take]; exact (b64_first2 d (by omega)).2
          have e2 : ((b64 d).take 3)[2]'(by omega) ≠ c!"=" := by
            rw [List.getElem_take]
            intro e
            exact h3 ⟨rfl, (b64_third d (by omega)).mp e⟩
          rw [← hz]
          simp only [Nat.reduceSub, e1, e2, if_false]; omega
    rw [if_neg (by omega), loop z.toNat (by omega)]
    rfl

end Base64

namespace BinInput

theorem ofData_ok {s : Str} {x : Byte} {xs : Str} (h : Base64.decode s = .ok (x :: xs)) :
    ofData s = .ok ⟨x, xs⟩ := by
  unfold ofData
  rw [h]
  simp only [Except.bind_ok]
  simp [Str.substr, Str.at, bind, Except.bind]

theorem ofData_error {s : Str} {e : Err} (h : Base64.decode s = .error e) : ofData s = .error e := by
  unfold ofData
  rw [h]
  rfl

/-- `BinInput` of the first `n` characters of a `data()` text. -/
theorem ofData_take (b : BinInput) (n : Nat) (hn : n ≤ (b64 (b.remain :: b.input)).length) :
    ofData ((b64 (b.remain :: b.input)).take n) =
      if n % 4 = 0 ∧ 0 < n then .ok ⟨b.remain, b.input.take (3 * (n / 4) - 1)⟩
      else if n = 3 ∧ b.input = [] then .error (.throw .stdLengthError)
      else .error (.ub .outOfBounds) := by
  have h := Base64.decode_take (b.remain :: b.input) n hn
  have e1 : (b.remain :: b.input).length = 1 ↔ b.input = [] := by simp
  simp only [e1] at h
  by_cases h4 : n % 4 = 0 ∧ 0 < n
  · rw [if_pos h4] at h ⊢
    obtain ⟨k, hk⟩ : ∃ k, 3 * (n / 4) = k + 1 := ⟨3 * (n / 4) - 1, by omega⟩
    rw [hk, List.take_succ_cons] at h
    rw [ofData_ok h, hk, Nat.add_sub_cancel]
  · rw [if_neg h4] at h ⊢
    by_cases h3 : n = 3 ∧ b.input = []
    · rw [if_pos h3] at h ⊢
      exact ofData_error h
    · rw [if_neg h3] at h ⊢
      exact ofData_error h

/-- A shorter image of the same kind. -/
theorem prefix_pixels {b : BinInput} (hb : WF b) (q : Nat) (hq : 1 ≤ q) :
    let b' : BinInput := ⟨b.remain, b.input.take q⟩
    WF b' ∧ b'.size ≤ b.size ∧ ∀ i, i < b'.size → b'.get i = b.get i := by
  intro b'
  have hl : b'.input.length = min q b.input.length := by simp [b']
  have hw : WF b' := by
    refine ⟨hb.rem_lt, ?_, ?_⟩
    · have := hb.rem_lt
      have := hb.rem_le
      change b.remain.toNat ≤ b'.input.length * 8
      omega
    · have := hb.len; omega
  have hs : b'.size = b'.input.length * 8 - b.remain.toNat := size_eq hw
  have hsb := size_eq hb
  refine ⟨hw, by omega, ?_⟩
  intro i hi
  have hib : i < b.size := by omega
  obtain ⟨_, h1⟩ := get_eq hw hi
  obtain ⟨_, h2⟩ := get_eq hb hib
  rw [h1, h2]
  simp [b']

end BinInput

namespace DataSet

theorem findFrom_none' (s : Str) (c : Byte) (h : c ∉ s) : Str.findFrom s c 0 = none := by
  unfold Str.findFrom
  have : s.findIdx? (· == c) = none := by
    rw [List.findIdx?_eq_none_iff]
    intro x hx
    simp only [beq_eq_false_iff_ne]
    rintro rfl
    exact h hx
  simp [this]

/-- A record cut within its label: no `#` is left. -/
theorem parseRecord_cut_label (e : BinInput × Str) (m : Nat) (hm : m ≤ (b64 e.2).length) :
    parseRecord ((record e).take m) =
      (Base64.decode ((b64 e.2).take m) >>= fun l => BinInput.ofData ((b64 e.2).take m) >>= fun b => .ok (b, l)) := by
  have ht : (record e).take m = (b64 e.2).take m := by
    unfold record
    rw [List.append_assoc, List.take_append_of_le_length hm]
  have hn : Str.findFrom ((b64 e.2).take m) c!"#" 0 = none :=
    findFrom_none' _ _ (fun h => Base64.b64_no_sharp _ (List.mem_of_mem_take h))
  unfold parseRecord
  rw [ht, hn]
  rfl

/-- A record cut behind the `#`. -/
theorem parseRecord_cut_image (e : BinInput × Str) (q : Nat) :
    parseRecord ((record e).take ((b64 e.2).length + 1 + q)) =
      (Base64.decode (b64 e.2) >>= fun l =>
        BinInput.ofData ((b64 (e.1.remain :: e.1.input)).take q) >>= fun b => .ok (b, l)) := by
  have ht : (record e).take ((b64 e.2).length + 1 + q) =
      (b64 e.2 ++ b!"#") ++ (b64 (e.1.remain :: e.1.input)).take q := by
    unfold record
    have hl : (b64 e.2 ++ b!"#").length = (b64 e.2).length + 1 := by simp
    rw [← hl, List.take_length_add_append]
  generalize (b64 (e.1.remain :: e.1.input)).take q = t at ht
  have hf : Str.findFrom ((b64 e.2 ++ b!"#") ++ t) c!"#" 0 = some (b64 e.2).length := by
    rw [List.append_assoc]
    exact findFrom_append _ _ _ (Base64.b64_no_sharp _)
  have h1 : Str.substr ((b64 e.2 ++ b!"#") ++ t) 0 (b64 e.2).length = .ok (b64 e.2) := by
    simp [Str.substr]
  have h2 : Str.substr ((b64 e.2 ++ b!"#") ++ t) ((b64 e.2).length + 1)
      (((b64 e.2 ++ b!"#") ++ t).length - ((b64 e.2).length + 1)) = .ok t := by
    have hl : (b64 e.2 ++ b!"#").length = (b64 e.2).length + 1 := by simp
    rw [← hl]
    unfold Str.substr
    rw [if_pos (by simp only [List.length_append]; omega), List.drop_left,
      List.take_of_length_le (by simp only [List.length_append]; omega)]
  unfold parseRecord
  rw [ht, hf]
  simp only [h1, h2, Except.bind_ok, pure, Except.pure]

/-- Number of bytes of the records before record `k`, with the separators. -/
def offset (es : List (BinInput × Str)) (k : Nat) : Nat := ((es.take k).map (fun e => (record e).length + 1)).sum

/-- Loading a file that was cut after `n` bytes. -/
theorem loadLoop_cut (es : List (BinInput × Str)) : ∀ (e : BinInput × Str) (d : DataSet) (n : Nat),
    (∀ x ∈ e :: es, x.2 ≠ []) → n ≤ (record e ++ dotted es).length →
    ∃ (k : Nat) (h : k < (e :: es).length) (m : Nat), m ≤ (record (e :: es)[k]).length ∧
      n = offset (e :: es) k + m ∧
      loadLoop d ((record e ++ dotted es).take n) =
        (parseRecord ((record (e :: es)[k]).take m) >>= fun x =>
          .ok (DataSet.add (((e :: es).take k).foldl (fun d x => d.add x.1 x.2) d) x.1 x.2)) := by
  have one : ∀ (e : BinInput × Str) (d : DataSet) (s : Str), c!"." ∉ s →
      loadLoop d s = (parseRecord s >>= fun x => .ok (d.add x.1 x.2)) := by
    intro e d s h
    rw [loadLoop_unfold, getline_no_dot _ h]
    cases parseRecord s with
    | error e => rfl
    | ok x => rfl
  induction es with
  | nil =>
    intro e d n h hn
    have hn' : n ≤ (record e).length := by simpa [dotted] using hn
    refine ⟨0, by simp, n, hn', by simp [offset], ?_⟩
    have : (record e ++ dotted []).take n = (record e).take n := by simp [dotted]
    rw [this, one e _ _ (fun hm => record_no_dot e (List.mem_of_mem_take hm))]
    rfl
  | cons e' es ih =>
    intro e d n h hn
    by_cases hc : n ≤ (record e).length
    · refine ⟨0, by simp, n, hc, by simp [offset], ?_⟩
      rw [List.take_append_of_le_length hc, one e _ _ (fun hm => record_no_dot e (List.mem_of_mem_take hm))]
      rfl
    · obtain ⟨n', rfl⟩ : ∃ n', n = (record e).length + (n' + 1) := ⟨n - (record e).length - 1, by omega⟩
      have hd : dotted (e' :: es) = c!"." :: (record e' ++ dotted es) := by simp [dotted]
      rw [hd] at hn ⊢
      simp only [List.length_append, List.length_cons] at hn
      obtain ⟨k, hk, m, hm, hoff, hl⟩ := ih e' (d.add e.1 e.2) n' (fun x hx => h x (List.mem_cons_of_mem _ hx))
        (by simp only [List.length_append]; omega)
      refine ⟨k + 1, by simpa using hk, m, by simpa using hm, ?_, ?_⟩
      · simp only [offset, List.take_succ_cons, List.map_cons, List.sum_cons] at hoff ⊢
        omega
      · rw [List.take_length_add_append, List.take_succ_cons, loadLoop_unfold, getline_append_dot _ _ (record_no_dot e)]
        simp only [parseRecord_record e (h e (by simp))]
        rw [hl]
        simp

end DataSet
end Wis
