import Verif.Model.DiscriminatorJson
import Verif.Lemmas.Ram
import Verif.Lemmas.Base64
import Verif.Lemmas.DataSet
/-! Helper lemmas: text of the contents of RAMs. -/

namespace Wis
open Spec

/-! ## Little-endian bytes -/

theorem leBytes_length (n v : Nat) : (leBytes n v).length = n := by
  induction n generalizing v with
  | zero => rfl
  | succ n ih => simp [leBytes, ih]

theorem leNat_leBytes (n : Nat) : ∀ v : Nat, v < 256 ^ n → leNat (leBytes n v) = v := by
  induction n with
  | zero => intro v h; simp at h; simp [leBytes, leNat, h]
  | succ n ih =>
    intro v h
    simp only [leBytes, leNat, BitVec.toNat_ofNat]
    rw [ih (v / 256) (by rw [Nat.pow_succ] at h; exact Nat.div_lt_of_lt_mul (by omega))]
    omega

theorem u64OfBytes_bytes (a : Addr) (s : Str) : u64OfBytes ((bytesOfU64 a ++ s).take 8) = .ok a := by
  have hl : (bytesOfU64 a).length = 8 := leBytes_length 8 _
  rw [List.take_append_of_le_length (by omega), List.take_of_length_le (by omega)]
  unfold u64OfBytes
  rw [if_neg (by omega), List.take_of_length_le (by omega)]
  unfold bytesOfU64
  rw [leNat_leBytes 8 _ (by have := a.isLt; omega)]
  simp

theorem i32OfBytes_bytes {c : Int} (h : InI32 c) (a : Addr) (s : Str) :
    i32OfBytes (((bytesOfU64 a ++ (bytesOfI32 c ++ s)).drop 8).take 4) = .ok c := by
  have hl : (bytesOfU64 a).length = 8 := leBytes_length 8 _
  have hl4 : (bytesOfI32 c).length = 4 := leBytes_length 4 _
  rw [List.drop_append_of_le_length (by omega), List.drop_of_length_le (by omega), List.nil_append,
    List.take_append_of_le_length (by omega), List.take_of_length_le (by omega)]
  unfold i32OfBytes
  rw [if_neg (by omega), List.take_of_length_le (by omega)]
  unfold bytesOfI32
  rw [leNat_leBytes 4 _ (by have := (BitVec.ofInt 32 c).isLt; omega)]
  simp only [BitVec.ofNat_toNat, BitVec.setWidth_eq]
  unfold InI32 at h
  rw [BitVec.toInt_ofInt]
  congr 1
  rw [Int.bmod_def]
  split <;> omega

namespace RamData

theorem blocks_length (m : RamT) : (blocks m).length = 12 * m.length := by
  induction m with
  | nil => rfl
  | cons e m ih =>
    obtain ⟨a, c⟩ := e
    have h8 : (bytesOfU64 a).length = 8 := leBytes_length 8 _
    have h4 : (bytesOfI32 c).length = 4 := leBytes_length 4 _
    simp only [blocks, List.length_append, ih, h8, h4, List.length_cons]; omega

theorem set_new (m : RamT) (k : Addr) (c : Int) (h : k ∉ m.keys) : m.set k c = m ++ [(k, c)] := by
  induction m with
  | nil => rfl
  | cons e m ih =>
    obtain ⟨k', c'⟩ := e
    simp only [RamT.keys, List.map_cons, List.mem_cons, not_or] at h
    simp only [RamT.set]
    rw [if_neg (fun e => h.1 e.symm), ih h.2]
    rfl

theorem blockLoop_blocks (m : RamT) : ∀ (acc : RamT), (acc ++ m).keys.Nodup → (∀ e ∈ m, InI32 e.2) →
    blockLoop m.length (blocks m) acc = .ok (acc ++ m) := by
  induction m with
  | nil => intro acc _ _; simp [blockLoop]
  | cons e m ih =>
    intro acc hn hi
    obtain ⟨a, c⟩ := e
    simp only [List.length_cons, blockLoop, blocks]
    rw [List.append_assoc, u64OfBytes_bytes, Except.bind_ok, i32OfBytes_bytes (hi (a, c) (by simp)), Except.bind_ok]
    have hd : (bytesOfU64 a ++ (bytesOfI32 c ++ blocks m)).drop 12 = blocks m := by
      have h8 : (bytesOfU64 a).length = 8 := leBytes_length 8 _
      have h4 : (bytesOfI32 c).length = 4 := leBytes_length 4 _
      rw [← List.append_assoc, List.drop_append_of_le_length (by simp; omega),
        List.drop_of_length_le (by simp; omega), List.nil_append]
    have hnk : a ∉ acc.keys := by
      intro hk
      simp only [RamT.keys, List.map_append, List.map_cons] at hn
      rw [List.nodup_append] at hn
      exact hn.2.2 a hk a (by simp) rfl
    rw [hd, set_new acc a c hnk, ih (acc ++ [(a, c)]) (by simpa using hn)
      (fun e he => hi e (List.mem_cons_of_mem _ he))]
    simp

/-- Text of one RAM. -/
def seg (m : RamT) : Str := b64 (blocks m)

theorem seg_length (m : RamT) : (seg m).length = 16 * m.length := by
  unfold seg
  rw [Base64.b64_length, blocks_length, if_neg (by omega)]
  omega

theorem seg_no_dot (m : RamT) : c!"." ∉ seg m := Base64.b64_no_dot _

theorem dataToRam_seg (m : RamT) (hne : m ≠ []) (hn : m.keys.Nodup) (hi : ∀ e ∈ m, InI32 e.2) :
    dataToRam (seg m) = .ok m := by
  have hl := blocks_length m
  have hpos : 0 < m.length := List.length_pos_iff.mpr hne
  unfold dataToRam seg
  rw [Base64.decode_b64 _ (by intro e; rw [e, List.length_nil] at hl; omega)]
  simp only [Except.bind_ok]
  rw [hl, if_neg (by omega), show 12 * m.length / 12 = m.length by omega, blockLoop_blocks m [] (by simpa using hn) hi]
  simp

theorem findFrom_none (s : Str) (c : Byte) (h : c ∉ s) : Str.findFrom s c 0 = none := by
  unfold Str.findFrom
  rw [List.drop_zero, List.findIdx?_eq_none_iff.mpr]
  intro x hx
  simp only [beq_eq_false_iff_ne, ne_eq]
  rintro rfl
  exact h hx

theorem textLoop_none (m : List (Int × RamT)) (rest : Str) (h : c!"." ∉ rest) :
    textLoop m rest = match dataToRam rest with
      | .error e => .error e
      | .ok r => .ok (push m r) := by
  rw [textLoop]
  split
  · rfl
  · rename_i found hf
    rw [findFrom_none _ _ h] at hf
    cases hf

theorem textLoop_some (m : List (Int × RamT)) (a b : Str) (h : c!"." ∉ a) :
    textLoop m (a ++ c!"." :: b) = match dataToRam a with
      | .error e => .error e
      | .ok r => textLoop (push m r) b := by
  rw [textLoop]
  split
  · rename_i hf
    rw [findFrom_append _ _ _ h] at hf
    cases hf
  · rename_i found hf
    rw [findFrom_append _ _ _ h] at hf
    obtain rfl : a.length = found := by simpa using hf
    have ht : (a ++ c!"." :: b).take a.length = a := by simp
    have hd : (a ++ c!"." :: b).drop (a.length + 1) = b := by simp [List.drop_append]
    rw [ht, hd]
    cases dataToRam a <;> rfl

theorem endsWith_no_dot (pre s : Str) (h : c!"." ∉ s) (hl : 6 ≤ s.length) : endsWith (pre ++ s) ramdataSufix = .ok false := by
  unfold endsWith
  have h6 : ramdataSufix.length = 6 := rfl
  rw [h6, if_neg (by simp; omega)]
  congr 1
  rw [beq_eq_false_iff_ne]
  intro he
  apply h
  have : c!"." ∈ (pre ++ s).drop ((pre ++ s).length - 6) := by rw [he]; decide
  rw [List.length_append, List.drop_append, List.drop_of_length_le (by omega), List.nil_append] at this
  exact List.mem_of_mem_drop this

/-- A handle made from the text of one RAM. -/
theorem ofText_seg (fs : Fs) (m : RamT) (hne : m ≠ []) (hn : m.keys.Nodup) (hi : ∀ e ∈ m, InI32 e.2)
    (hlen : (seg m).length < 2147483648) : ofText fs (seg m) = .ok (ofRam m) := by
  have hpos : 0 < m.length := List.length_pos_iff.mpr hne
  have hl := seg_length m
  unfold ofText
  have := endsWith_no_dot [] (seg m) (seg_no_dot m) (by omega)
  rw [List.nil_append] at this
  rw [this]
  simp only
  rw [if_neg (by omega), textLoop_none _ _ (seg_no_dot m), dataToRam_seg m hne hn hi]
  rfl

theorem ofText_short (fs : Fs) (s : Str) (h : s.length < 6) : ofText fs s = .error (.throw .stdOutOfRange) := by
  unfold ofText endsWith
  have h6 : ramdataSufix.length = 6 := rfl
  rw [h6, if_pos h]

theorem ramGetData (it : IterOrder) (r : Ram) : r.getData it = .ok (seg (it.ord r.positions)) := by
  unfold Ram.getData dataOf touch ofRam
  simp only [put, find, if_true]
  exact Base64.encode_eq _

end RamData
end Wis
