import Verif.Model.Utils
import Verif.Spec.Base64
/-! Helper lemmas for Base64: the loops of the model compute the RFC 4648 text and invert it. -/

namespace Wis
open Spec

/-! ## Generic facts -/

theorem Str.at_lt {s : Str} {i : Nat} (h : i < s.length) : Str.at s i = .ok s[i] := by
  simp [Str.at, h]

theorem Except.bind_ok {ε α β : Type} (a : α) (f : α → Except ε β) :
    (Except.ok a >>= f) = f a := rfl

theorem Except.bind_error {ε α β : Type} (e : ε) (f : α → Except ε β) :
    ((Except.error e : Except ε α) >>= f) = .error e := rfl

namespace Base64

theorem put_ok {size : Nat} {out : Str} (c : Byte) (h : out.length < size) :
    put size out c = .ok (out ++ [c]) := by simp [put, h]

/-! ## Bit lemmas -/

set_option maxRecDepth 4000 in
theorem enc_hi6 : ∀ a : Byte, (((promote a).sshiftRight 2 &&& 0x3f#32).setWidth 8).toNat = a.toNat / 4 := by
  decide +kernel
set_option maxRecDepth 4000 in
theorem enc_lo2 : ∀ a : Byte, (((promote a) <<< 4 &&& 0x30#32).setWidth 8).toNat = a.toNat % 4 * 16 := by
  decide +kernel
set_option maxRecDepth 4000 in
theorem enc_hi4 : ∀ a : Byte, (((promote a).sshiftRight 4 &&& 0x0f#32).setWidth 8).toNat = a.toNat / 16 := by
  decide +kernel
set_option maxRecDepth 4000 in
theorem enc_lo4 : ∀ a : Byte, (((promote a) <<< 2 &&& 0x3c#32).setWidth 8).toNat = a.toNat % 16 * 4 := by
  decide +kernel
set_option maxRecDepth 4000 in
theorem enc_hi2 : ∀ a : Byte, (((promote a).sshiftRight 6 &&& 0x03#32).setWidth 8).toNat = a.toNat / 64 := by
  decide +kernel
set_option maxRecDepth 4000 in
theorem enc_lo6 : ∀ a : Byte, ((promote a &&& 0x3f#32).setWidth 8).toNat = a.toNat % 64 := by
  decide +kernel

theorem or_add (x y i : Nat) (h : y < 2 ^ i) : (x * 2 ^ i) ||| y = x * 2 ^ i + y := by
  rw [← Nat.shiftLeft_eq, Nat.shiftLeft_add_eq_or_of_lt h]

theorem enc_mid1 (a b : Byte) :
    ((((promote a) <<< 4 &&& 0x30#32).setWidth 8 |||
      ((promote b).sshiftRight 4 &&& 0x0f#32).setWidth 8 : Byte)).toNat
      = a.toNat % 4 * 16 + b.toNat / 16 := by
  rw [BitVec.toNat_or, enc_lo2, enc_hi4]
  exact or_add (a.toNat % 4) (b.toNat / 16) 4 (by have := b.isLt; omega)

theorem enc_mid2 (b c : Byte) :
    ((((promote b) <<< 2 &&& 0x3c#32).setWidth 8 |||
      ((promote c).sshiftRight 6 &&& 0x03#32).setWidth 8 : Byte)).toNat
      = b.toNat % 16 * 4 + c.toNat / 64 := by
  rw [BitVec.toNat_or, enc_lo4, enc_hi2]
  exact or_add (b.toNat % 16) (c.toNat / 64) 2 (by have := c.isLt; omega)

theorem charsMap_get : ∀ n : Fin 64, Str.at charsMap n.val = .ok (b64char n.val) := by decide +kernel

theorem lookup_eq (x : Byte) (n : Nat) (hx : x.toNat = n) (h : n < 64) :
    lookup x = .ok (b64char n) := by
  have hm : x.msb = false := by
    rw [BitVec.msb_eq_decide]; simp; omega
  simp only [lookup, hm, hx]
  exact charsMap_get ⟨n, h⟩

theorem indexMap_b64char_fin : ∀ n : Fin 64, (indexMap (b64char n.val)).toNat = n.val := by
  decide +kernel

theorem indexMap_b64char {n : Nat} (h : n < 64) : (indexMap (b64char n)).toNat = n :=
  indexMap_b64char_fin ⟨n, h⟩

theorem b64char_ne_fin : ∀ n : Fin 64, b64char n.val ≠ c!"=" ∧ b64char n.val ≠ c!"." ∧
    b64char n.val ≠ c!"#" := by decide +kernel

theorem b64char_ne_eq {n : Nat} (h : n < 64) : b64char n ≠ c!"=" := (b64char_ne_fin ⟨n, h⟩).1

/-! ## Encoder -/

/-- Number of characters the encoder writes itself (without trailing padding). -/
def written : List Byte → List Byte
  | [] => []
  | [a] => [b64char (a.toNat / 4), b64char (a.toNat % 4 * 16)]
  | [a, b] => [b64char (a.toNat / 4), b64char (a.toNat % 4 * 16 + b.toNat / 16),
               b64char (b.toNat % 16 * 4)]
  | a :: b :: c :: rest =>
    [b64char (a.toNat / 4), b64char (a.toNat % 4 * 16 + b.toNat / 16),
     b64char (b.toNat % 16 * 4 + c.toNat / 64), b64char (c.toNat % 64)] ++ written rest

/-- Number of padding characters. -/
def pad : List Byte → Nat
  | [] => 0
  | [_] => 2
  | [_, _] => 1
  | _ :: _ :: _ :: rest => pad rest

theorem b64_eq (d : List Byte) : b64 d = written d ++ List.replicate (pad d) c!"=" := by
  fun_induction written d with
  | case1 => rfl
  | case2 a =>
    have := a.isLt
    simp only [b64, pad]
    rw [show a.toNat * 16 / 64 = a.toNat / 4 by omega, show a.toNat * 16 % 64 = a.toNat % 4 * 16 by omega]
    rfl
  | case3 a b =>
    have := a.isLt
    have := b.isLt
    simp only [b64, pad]
    rw [show (a.toNat * 256 + b.toNat) * 4 / 4096 = a.toNat / 4 by omega,
      show (a.toNat * 256 + b.toNat) * 4 / 64 % 64 = a.toNat % 4 * 16 + b.toNat / 16 by omega,
      show (a.toNat * 256 + b.toNat) * 4 % 64 = b.toNat % 16 * 4 by omega]
    rfl
  | case4 a b c rest ih =>
    have := a.isLt
    have := b.isLt
    have := c.isLt
    simp only [b64, pad, ih]
    rw [show (a.toNat * 65536 + b.toNat * 256 + c.toNat) / 262144 = a.toNat / 4 by omega,
      show (a.toNat * 65536 + b.toNat * 256 + c.toNat) / 4096 % 64 = a.toNat % 4 * 16 + b.toNat / 16 by omega,
      show (a.toNat * 65536 + b.toNat * 256 + c.toNat) / 64 % 64 = b.toNat % 16 * 4 + c.toNat / 64 by omega,
      show (a.toNat * 65536 + b.toNat * 256 + c.toNat) % 64 = c.toNat % 64 by omega]
    rfl

theorem written_length (d : List Byte) :
    (written d).length + pad d = 4 * (d.length / 3) + (if d.length % 3 ≠ 0 then 4 else 0) := by
  fun_induction written d with
  | case1 => rfl
  | case2 => simp [pad]
  | case3 => simp [pad]
  | case4 a b c rest ih =>
    simp only [pad, List.length_append, List.length_cons, List.length_nil] at *
    split at ih <;> split <;> omega

theorem encLoop_eq (d : Str) (size : Nat) (rest : Str) :
    ∀ (pre out : Str), d = pre ++ rest → pre.length % 3 = 0 →
      out.length + (written rest).length ≤ size →
      encLoop d size pre.length out = .ok (out ++ written rest) := by
  fun_induction written rest with
  | case1 =>
    intro pre out hd _ _
    unfold encLoop
    simp [hd]
  | case2 a =>
    intro pre out hd hp hs
    subst hd
    simp only [List.length_cons, List.length_nil] at hs
    unfold encLoop
    have hlen : (pre ++ [a]).length = pre.length + 1 := by simp
    rw [dif_pos (by omega)]
    rw [Str.at_lt (by omega)]
    simp only [List.getElem_append_right (Nat.le_refl _), Nat.sub_self, List.getElem_cons_zero,
      Except.bind_ok]
    rw [lookup_eq _ _ (enc_hi6 a) (by have := a.isLt; omega)]
    simp only [Except.bind_ok]
    rw [put_ok _ (by omega)]
    simp only [Except.bind_ok]
    rw [if_pos (by rw [hlen]; omega)]
    rw [lookup_eq _ _ (enc_lo2 a) (by omega)]
    simp only [Except.bind_ok]
    rw [put_ok _ (by simp; omega)]
    simp
  | case3 a b =>
    intro pre out hd hp hs
    subst hd
    simp only [List.length_cons, List.length_nil] at hs
    unfold encLoop
    have hlen : (pre ++ [a, b]).length = pre.length + 2 := by simp
    rw [dif_pos (by omega), Str.at_lt (by omega), Str.at_lt (by omega)]
    simp only [List.getElem_append_right (Nat.le_refl _), Nat.sub_self, List.getElem_cons_zero,
      Except.bind_ok, List.getElem_append_right (Nat.le_add_right _ _), Nat.add_sub_cancel_left,
      List.getElem_cons_succ]
    rw [lookup_eq _ _ (enc_hi6 a) (by have := a.isLt; omega)]
    simp only [Except.bind_ok]
    rw [put_ok _ (by omega)]
    simp only [Except.bind_ok]
    rw [if_neg (by rw [hlen]; omega)]
    rw [lookup_eq _ _ (enc_mid1 a b) (by have := b.isLt; omega)]
    simp only [Except.bind_ok]
    rw [put_ok _ (by simp; omega)]
    simp only [Except.bind_ok]
    rw [if_pos (by rw [hlen]; omega)]
    rw [lookup_eq _ _ (enc_lo4 b) (by omega)]
    simp only [Except.bind_ok]
    rw [put_ok _ (by simp; omega)]
    simp
  | case4 a b c rest ih =>
    intro pre out hd hp hs
    have hd' : d = (pre ++ [a, b, c]) ++ rest := by simp [hd]
    have hl3 : (pre ++ [a, b, c]).length = pre.length + 3 := by simp
    have ih' := ih (pre ++ [a, b, c])
      (out ++ [b64char (a.toNat / 4)] ++ [b64char (a.toNat % 4 * 16 + b.toNat / 16)] ++
        [b64char (b.toNat % 16 * 4 + c.toNat / 64)] ++ [b64char (c.toNat % 64)]) hd'
      (by omega) (by simp at hs ⊢; omega)
    rw [hl3] at ih'
    simp only [List.length_cons, List.length_append, List.length_nil] at hs
    have hlen : d.length = pre.length + 3 + rest.length := by simp [hd]; omega
    unfold encLoop
    have e0 : d[pre.length]'(by omega) = a := by simp [hd]
    have e1 : d[pre.length + 1]'(by omega) = b := by simp [hd]
    have e2 : d[pre.length + 2]'(by omega) = c := by simp [hd]
    rw [dif_pos (by omega), Str.at_lt (by omega), Str.at_lt (by omega), Str.at_lt (by omega), e0, e1, e2]
    simp only [Except.bind_ok]
    rw [lookup_eq _ _ (enc_hi6 a) (by have := a.isLt; omega)]
    simp only [Except.bind_ok]
    rw [put_ok _ (by omega)]
    simp only [Except.bind_ok]
    rw [if_neg (by omega)]
    rw [lookup_eq _ _ (enc_mid1 a b) (by have := b.isLt; omega)]
    simp only [Except.bind_ok]
    rw [put_ok _ (by simp; omega)]
    simp only [Except.bind_ok]
    rw [if_neg (by omega)]
    rw [lookup_eq _ _ (enc_mid2 b c) (by have := c.isLt; omega)]
    simp only [Except.bind_ok]
    rw [put_ok _ (by simp; omega)]
    simp only [Except.bind_ok]
    rw [lookup_eq _ _ (enc_lo6 c) (by omega)]
    simp only [Except.bind_ok]
    rw [put_ok _ (by simp; omega)]
    simp only [Except.bind_ok]
    rw [ih']
    simp

theorem encode_eq (d : Str) : encode d = .ok (b64 d) := by
  have hw := written_length d
  unfold encode
  have h := encLoop_eq d (4 * (d.length / 3) + (if d.length % 3 ≠ 0 then 4 else 0)) d [] [] rfl rfl
    (by simp only [List.length_nil]; omega)
  simp only [List.length_nil, List.nil_append] at h
  simp only [h, Except.bind_ok]
  rw [b64_eq, ← hw, Nat.add_sub_cancel_left]

/-! ## Decoder -/

set_option maxRecDepth 4000 in
theorem dec_tab : ∀ v : Byte, v.toNat < 64 →
    ((promote v <<< 2 &&& 0xfc#32).toNat = v.toNat * 4) ∧
    (((promote v).sshiftRight 4 &&& 0x03#32).toNat = v.toNat / 16) ∧
    ((promote v <<< 4 &&& 0xf0#32).toNat = v.toNat % 16 * 16) ∧
    (((promote v).sshiftRight 2 &&& 0x0f#32).toNat = v.toNat / 4) ∧
    ((promote v <<< 6 &&& 0xc0#32).toNat = v.toNat % 4 * 64) ∧
    ((promote v &&& 0x3f#32).toNat = v.toNat) := by
  decide +kernel

theorem dec_b0 (v0 v1 a : Byte) (h0 : v0.toNat = a.toNat / 4) (h1 : v1.toNat < 64)
    (h1' : v1.toNat / 16 = a.toNat % 4) :
    ((promote v0 <<< 2 &&& 0xfc#32) ||| ((promote v1).sshiftRight 4 &&& 0x03#32)).setWidth 8 = a := by
  apply BitVec.eq_of_toNat_eq
  have := a.isLt
  rw [BitVec.toNat_setWidth, BitVec.toNat_or, (dec_tab v0 (by omega)).1, (dec_tab v1 h1).2.1, h0, h1']
  rw [or_add (a.toNat / 4) (a.toNat % 4) 2 (by omega)]
  omega

theorem dec_b1 (v1 v2 b : Byte) (h0 : v1.toNat % 16 = b.toNat / 16) (h1 : v1.toNat < 64)
    (h2 : v2.toNat < 64) (h2' : v2.toNat / 4 = b.toNat % 16) :
    ((promote v1 <<< 4 &&& 0xf0#32) ||| ((promote v2).sshiftRight 2 &&& 0x0f#32)).setWidth 8 = b := by
  apply BitVec.eq_of_toNat_eq
  have := b.isLt
  rw [BitVec.toNat_setWidth, BitVec.toNat_or, (dec_tab v1 h1).2.2.1, (dec_tab v2 h2).2.2.2.1, h0, h2']
  rw [or_add (b.toNat / 16) (b.toNat % 16) 4 (by omega)]
  omega

theorem dec_b2 (v2 v3 c : Byte) (h0 : v2.toNat % 4 = c.toNat / 64) (h2 : v2.toNat < 64)
    (h3 : v3.toNat = c.toNat % 64) :
    ((promote v2 <<< 6 &&& 0xc0#32) ||| (promote v3 &&& 0x3f#32)).setWidth 8 = c := by
  apply BitVec.eq_of_toNat_eq
  have := c.isLt
  rw [BitVec.toNat_setWidth, BitVec.toNat_or, (dec_tab v2 h2).2.2.2.2.1, (dec_tab v3 (by omega)).2.2.2.2.2, h0, h3]
  rw [or_add (c.toNat / 64) (c.toNat % 64) 6 (by omega)]
  omega

theorem decLoop_eq (e : Str) (size : Nat) (rest : List Byte) :
    ∀ (pre out : Str), e = pre ++ b64 rest → out.length + rest.length ≤ size →
      decLoop e size pre.length out = .ok (out ++ rest) := by
  fun_induction written rest with
  | case1 =>
    intro pre out he _
    unfold decLoop
    simp [he, b64]
  | case2 a =>
    intro pre out he hs
    rw [b64_eq] at he
    simp only [written, pad, List.replicate, List.cons_append, List.nil_append] at he
    simp only [List.length_cons, List.length_nil] at hs
    have hlen : e.length = pre.length + 4 := by simp [he]
    have ha := a.isLt
    have e0 : e[pre.length]'(by omega) = b64char (a.toNat / 4) := by simp [he]
    have e1 : e[pre.length + 1]'(by omega) = b64char (a.toNat % 4 * 16) := by simp [he]
    have e2 : e[pre.length + 2]'(by omega) = c!"=" := by simp [he]
    unfold decLoop
    rw [dif_pos (by omega), Str.at_lt (by omega), Str.at_lt (by omega), Str.at_lt (by omega), e0, e1, e2]
    simp only [Except.bind_ok]
    have i0 := indexMap_b64char (n := a.toNat / 4) (by omega)
    have i1 := indexMap_b64char (n := a.toNat % 4 * 16) (by omega)
    rw [dec_b0 _ _ a i0 (by omega) (by omega)]
    rw [put_ok _ (by omega)]
    simp only [Except.bind_ok, if_true]
  | case3 a b =>
    intro pre out he hs
    rw [b64_eq] at he
    simp only [written, pad, List.replicate, List.cons_append, List.nil_append] at he
    simp only [List.length_cons, List.length_nil] at hs
    have hlen : e.length = pre.length + 4 := by simp [he]
    have ha := a.isLt
    have hb := b.isLt
    have e0 : e[pre.length]'(by omega) = b64char (a.toNat / 4) := by simp [he]
    have e1 : e[pre.length + 1]'(by omega) = b64char (a.toNat % 4 * 16 + b.toNat / 16) := by simp [he]
    have e2 : e[pre.length + 2]'(by omega) = b64char (b.toNat % 16 * 4) := by simp [he]
    have e3 : e[pre.length + 3]'(by omega) = c!"=" := by simp [he]
    unfold decLoop
    rw [dif_pos (by omega), Str.at_lt (by omega), Str.at_lt (by omega), Str.at_lt (by omega),
      Str.at_lt (by omega), e0, e1, e2, e3]
    simp only [Except.bind_ok]
    have i0 := indexMap_b64char (n := a.toNat / 4) (by omega)
    have i1 := indexMap_b64char (n := a.toNat % 4 * 16 + b.toNat / 16) (by omega)
    have i2 := indexMap_b64char (n := b.toNat % 16 * 4) (by omega)
    rw [dec_b0 _ _ a i0 (by omega) (by omega)]
    rw [put_ok _ (by omega)]
    simp only [Except.bind_ok]
    rw [if_neg (b64char_ne_eq (by omega))]
    rw [dec_b1 _ _ b (by omega) (by omega) (by omega) (by omega)]
    rw [put_ok _ (by simp; omega)]
    simp only [Except.bind_ok, if_true]
    simp
  | case4 a b c rest ih =>
    intro pre out he hs
    have ha := a.isLt
    have hb := b.isLt
    have hc := c.isLt
    have he' : e = (pre ++ [b64char (a.toNat / 4), b64char (a.toNat % 4 * 16 + b.toNat / 16),
        b64char (b.toNat % 16 * 4 + c.toNat / 64), b64char (c.toNat % 64)]) ++ b64 rest := by
      rw [b64_eq] at he ⊢
      simp [he, written, pad]
    have ih' := ih _ (out ++ [a] ++ [b] ++ [c]) he' (by simp at hs ⊢; omega)
    rw [show (pre ++ [b64char (a.toNat / 4), b64char (a.toNat % 4 * 16 + b.toNat / 16),
        b64char (b.toNat % 16 * 4 + c.toNat / 64), b64char (c.toNat % 64)]).length
        = pre.length + 4 by simp] at ih'
    simp only [List.length_cons] at hs
    have hlen : e.length = pre.length + 4 + (b64 rest).length := by simp [he']; omega
    have e0 : e[pre.length]'(by omega) = b64char (a.toNat / 4) := by simp [he']
    have e1 : e[pre.length + 1]'(by omega) = b64char (a.toNat % 4 * 16 + b.toNat / 16) := by simp [he']
    have e2 : e[pre.length + 2]'(by omega) = b64char (b.toNat % 16 * 4 + c.toNat / 64) := by simp [he']
    have e3 : e[pre.length + 3]'(by omega) = b64char (c.toNat % 64) := by simp [he']
    unfold decLoop
    rw [dif_pos (by omega), Str.at_lt (by omega), Str.at_lt (by omega), Str.at_lt (by omega),
      Str.at_lt (by omega), e0, e1, e2, e3]
    simp only [Except.bind_ok]
    have i0 := indexMap_b64char (n := a.toNat / 4) (by omega)
    have i1 := indexMap_b64char (n := a.toNat % 4 * 16 + b.toNat / 16) (by omega)
    have i2 := indexMap_b64char (n := b.toNat % 16 * 4 + c.toNat / 64) (by omega)
    have i3 := indexMap_b64char (n := c.toNat % 64) (by omega)
    rw [dec_b0 _ _ a i0 (by omega) (by omega)]
    rw [put_ok _ (by omega)]
    simp only [Except.bind_ok]
    rw [if_neg (b64char_ne_eq (by omega))]
    rw [dec_b1 _ _ b (by omega) (by omega) (by omega) (by omega)]
    rw [put_ok _ (by simp; omega)]
    simp only [Except.bind_ok]
    rw [if_neg (b64char_ne_eq (by omega))]
    rw [dec_b2 _ _ c (by omega) (by omega) i3]
    rw [put_ok _ (by simp; omega)]
    simp only [Except.bind_ok]
    rw [ih']
    simp

theorem b64_length (d : List Byte) :
    (b64 d).length = 4 * (d.length / 3) + (if d.length % 3 ≠ 0 then 4 else 0) := by
  rw [b64_eq, List.length_append, List.length_replicate, written_length]

/-- Size computed by the decoder from the two last characters. -/
theorem tail_pad (d : List Byte) (hd : d ≠ []) :
    ∃ h2 : (b64 d).length - 2 < (b64 d).length, ∃ h1 : (b64 d).length - 1 < (b64 d).length,
    (3 * (((b64 d).length / 4 : Nat) : Int) -
      (if (b64 d)[(b64 d).length - 2] = c!"=" then 2 else if (b64 d)[(b64 d).length - 1] = c!"=" then 1 else 0))
      = (d.length : Int) := by
  fun_induction written d with
  | case1 => exact absurd rfl hd
  | case2 a => exact ⟨by simp [b64], by simp [b64], by simp [b64]⟩
  | case3 a b =>
    refine ⟨by simp [b64], by simp [b64], ?_⟩
    have hne := b64char_ne_eq (n := (a.toNat * 256 + b.toNat) * 4 % 64) (by omega)
    simp only [b64, List.length_cons, List.length_nil, List.getElem_cons_succ, List.getElem_cons_zero,
      Nat.reduceAdd, Nat.reduceSub, if_neg hne]
    simp
  | case4 a b c rest ih =>
    by_cases hr : rest = []
    · subst hr
      refine ⟨by simp [b64], by simp [b64], ?_⟩
      have h1 := b64char_ne_eq (n := (a.toNat * 65536 + b.toNat * 256 + c.toNat) / 64 % 64) (by omega)
      have h2 := b64char_ne_eq (n := (a.toNat * 65536 + b.toNat * 256 + c.toNat) % 64) (by omega)
      simp only [b64, List.length_cons, List.length_nil, List.getElem_cons_succ, List.getElem_cons_zero,
        Nat.reduceAdd, Nat.reduceSub]
      simp [h1, h2]
    · obtain ⟨h2, h1, hh⟩ := ih hr
      have hl : (b64 rest).length ≥ 4 := by
        rw [b64_length]
        have : rest.length ≠ 0 := by simpa using hr
        split <;> omega
      have hlen : (b64 (a :: b :: c :: rest)).length = (b64 rest).length + 4 := by simp [b64]
      refine ⟨by omega, by omega, ?_⟩
      have g2 : (b64 (a :: b :: c :: rest))[(b64 (a :: b :: c :: rest)).length - 2]'(by omega)
          = (b64 rest)[(b64 rest).length - 2] := by
        have : (b64 (a :: b :: c :: rest)).length - 2 = ((b64 rest).length - 2) + 1 + 1 + 1 + 1 := by omega
        simp only [this]
        simp only [b64, List.getElem_cons_succ]
      have g1 : (b64 (a :: b :: c :: rest))[(b64 (a :: b :: c :: rest)).length - 1]'(by omega)
          = (b64 rest)[(b64 rest).length - 1] := by
        have : (b64 (a :: b :: c :: rest)).length - 1 = ((b64 rest).length - 1) + 1 + 1 + 1 + 1 := by omega
        simp only [this]
        simp only [b64, List.getElem_cons_succ]
      rw [g2, g1, hlen]
      simp only [List.length_cons]
      omega

theorem decode_b64 (d : Str) (hd : d ≠ []) : decode (b64 d) = .ok d := by
  obtain ⟨h2, h1, hs⟩ := tail_pad d hd
  have h0 : ¬ (b64 d).length < 2 := by
    rw [b64_length]
    have : d.length ≠ 0 := by simpa using hd
    split <;> omega
  unfold decode
  rw [if_neg h0, Str.at_lt h2, Str.at_lt h1]
  simp only [Except.bind_ok]
  rw [hs, if_neg (by omega)]
  have := decLoop_eq (b64 d) d.length d [] [] rfl (by simp)
  simp only [List.length_nil, List.nil_append] at this
  simp only [Int.toNat_natCast, this, Except.bind_ok, Nat.sub_self, List.replicate, List.append_nil]

theorem decode_nil : decode [] = .error (.ub .outOfBounds) := rfl

theorem isB64_of_mem (d : List Byte) : ∀ c ∈ b64 d, IsB64Char c := by
  fun_induction b64 d with
  | case1 => simp
  | case2 a n =>
    have := a.isLt
    intro c hc
    simp only [List.mem_cons, List.not_mem_nil, or_false] at hc
    rcases hc with h | h | h | h
    · exact .inr ⟨_, by omega, h⟩
    · exact .inr ⟨_, by omega, h⟩
    · exact .inl h
    · exact .inl h
  | case3 a b n =>
    have := a.isLt
    have := b.isLt
    intro c hc
    simp only [List.mem_cons, List.not_mem_nil, or_false] at hc
    rcases hc with h | h | h | h
    · exact .inr ⟨_, by omega, h⟩
    · exact .inr ⟨_, by omega, h⟩
    · exact .inr ⟨_, by omega, h⟩
    · exact .inl h
  | case4 a b c rest n ih =>
    have := a.isLt
    have := b.isLt
    have := c.isLt
    intro x hc
    simp only [List.mem_cons] at hc
    rcases hc with h | h | h | h | h
    · exact .inr ⟨_, by omega, h⟩
    · exact .inr ⟨_, by omega, h⟩
    · exact .inr ⟨_, by omega, h⟩
    · exact .inr ⟨_, by omega, h⟩
    · exact ih x h

theorem b64_no_dot (d : List Byte) : c!"." ∉ b64 d := by
  intro h
  rcases isB64_of_mem d _ h with h | ⟨n, hn, h⟩
  · exact absurd h (by decide)
  · exact (b64char_ne_fin ⟨n, hn⟩).2.1 h.symm

theorem b64_no_sharp (d : List Byte) : c!"#" ∉ b64 d := by
  intro h
  rcases isB64_of_mem d _ h with h | ⟨n, hn, h⟩
  · exact absurd h (by decide)
  · exact (b64char_ne_fin ⟨n, hn⟩).2.2 h.symm

end Base64
end Wis
