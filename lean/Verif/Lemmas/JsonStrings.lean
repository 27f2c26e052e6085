import Verif.Spec.JsonGrammar
import Verif.Props.JsonParse
/-!
# String literals: the scanner reads exactly the grammar
-/

namespace Wis
open Spec JsonText

theorem hex_iff' : ∀ n : Fin 256, ∀ k : Fin 16,
    (hexVal (BitVec.ofNat 8 n.val) = some k.val ↔ Hex (BitVec.ofNat 8 n.val) k.val) := by
  unfold Hex
  decide +kernel

theorem hex_iff {b : Byte} {k : Nat} : hexVal b = some k ↔ Hex b k := by
  by_cases hk : k < 16
  · have := hex_iff' ⟨b.toNat, b.isLt⟩ ⟨k, hk⟩
    simpa only [BitVec.ofNat_toNat, BitVec.setWidth_eq] using this
  · constructor
    · intro h; exact absurd (hexVal_lt' h) hk
    · intro h; exact absurd h.1 hk

theorem codepoint_iff {s rest : Str} {n : Nat} : getCodepoint s = some (n, rest) ↔ ∃ h, s = h ++ rest ∧ Hex4 h n := by
  constructor
  · intro h
    unfold getCodepoint at h
    split at h
    · rename_i a b c d s
      split at h
      · rename_i ka kb kc kd ha hb hc hd
        cases h
        exact ⟨[a, b, c, d], rfl, a, b, c, d, ka, kb, kc, kd, rfl, hex_iff.mp ha, hex_iff.mp hb, hex_iff.mp hc,
          hex_iff.mp hd, by omega⟩
      · cases h
    · cases h
  · rintro ⟨h, rfl, a, b, c, d, ka, kb, kc, kd, rfl, ha, hb, hc, hd, rfl⟩
    simp only [List.cons_append, List.nil_append, getCodepoint, hex_iff.mpr ha, hex_iff.mpr hb, hex_iff.mpr hc,
      hex_iff.mpr hd]
    congr 2
    omega

theorem cont_or (k : Nat) : BitVec.ofNat 8 (0x80 ||| k % 64) = (BitVec.ofNat 8 (0x80 + k % 64) : Byte) := by
  have h : ∀ y : Fin 64, BitVec.ofNat 8 (0x80 ||| y.val) = (BitVec.ofNat 8 (0x80 + y.val) : Byte) := by decide +kernel
  exact h ⟨k % 64, Nat.mod_lt _ (by decide)⟩

theorem utf8Of_eq {n : Nat} (h : n < 0x110000) : codepointBytes n = utf8Of n := by
  have e2 : ∀ y : Fin 32, BitVec.ofNat 8 (0xC0 ||| y.val) = (BitVec.ofNat 8 (0xC0 + y.val) : Byte) := by decide +kernel
  have e3 : ∀ y : Fin 16, BitVec.ofNat 8 (0xE0 ||| y.val) = (BitVec.ofNat 8 (0xE0 + y.val) : Byte) := by decide +kernel
  have e4 : ∀ y : Fin 8, BitVec.ofNat 8 (0xF0 ||| y.val) = (BitVec.ofNat 8 (0xF0 + y.val) : Byte) := by decide +kernel
  unfold codepointBytes utf8Of
  simp only [and63, Nat.shiftRight_eq_div_pow]
  by_cases h1 : n < 0x80
  · rw [if_pos h1, if_pos h1]; rfl
  · rw [if_neg h1, if_neg h1]
    by_cases h2 : n < 0x800
    · rw [if_pos (by omega), if_pos h2]
      have := e2 ⟨n / 2 ^ 6, by omega⟩
      simp only at this
      rw [this, cont_or]
      rfl
    · rw [if_neg (by omega), if_neg h2]
      by_cases h3 : n < 0x10000
      · rw [if_pos (by omega), if_pos h3]
        have := e3 ⟨n / 2 ^ 12, by omega⟩
        simp only at this
        rw [this, cont_or, cont_or]
        rfl
      · rw [if_neg (by omega), if_neg h3]
        have := e4 ⟨n / 2 ^ 18, by omega⟩
        simp only at this
        rw [this, cont_or, cont_or, cont_or]
        rfl

theorem pair_value {a b : Nat} (hb : b < 0x400) : ((0xD800 + a) <<< 10) + (0xDC00 + b) - 0x35FDC00 = 0x10000 + a * 0x400 + b := by
  rw [Nat.shiftLeft_eq]
  omega

theorem scanUnicode_sound {s bs rest : Str} (h : scanUnicode s = .add bs rest) :
    ∃ x, s = x ++ rest ∧ CharText (b!"\\u" ++ x) bs := by
  unfold scanUnicode at h
  split at h
  · cases h
  · rename_i cp1 s1 h1
    obtain ⟨hx, rfl, hh⟩ := codepoint_iff.mp h1
    split at h
    · rename_i hhi
      split at h
      · rename_i c d s2
        split at h
        · rename_i hcd
          obtain ⟨rfl, rfl⟩ := hcd
          split at h
          · cases h
          · rename_i cp2 s3 h2
            obtain ⟨hy, rfl, hh2⟩ := codepoint_iff.mp h2
            split at h
            · rename_i hlo
              injection h with e1 e2
              subst e2
              rw [← e1]
              obtain ⟨a, rfl⟩ : ∃ a, cp1 = 0xD800 + a := ⟨cp1 - 0xD800, by omega⟩
              obtain ⟨b, rfl⟩ : ∃ b, cp2 = 0xDC00 + b := ⟨cp2 - 0xDC00, by omega⟩
              refine ⟨hx ++ b!"\\u" ++ hy, by simp, ?_⟩
              rw [pair_value (by omega), utf8Of_eq (by omega)]
              have := CharText.pair hh (by omega) hh2 (by omega)
              simpa using this
            · cases h
        · cases h
      · cases h
    · split at h
      · cases h
      · cases h
        refine ⟨hx, rfl, ?_⟩
        rw [utf8Of_eq (by have := codepoint_lt h1; omega)]
        exact CharText.unit hh (by omega)

theorem ite_eq_or {α : Type} {c : Prop} [Decidable c] {a b x : α} (h : (if c then a else b) = x) : (c ∧ a = x) ∨ (¬ c ∧ b = x) := by
  split at h
  · exact Or.inl ⟨‹_›, h⟩
  · exact Or.inr ⟨‹_›, h⟩

theorem scanEscape_sound {s bs rest : Str} (h : scanEscape s = .add bs rest) :
    ∃ x, s = x ++ rest ∧ CharText (b!"\\" ++ x) bs := by
  cases s with
  | nil => cases h
  | cons c s =>
    unfold scanEscape at h
    rcases ite_eq_or h with ⟨rfl, h⟩ | ⟨_, h⟩
    · cases h; exact ⟨[_], rfl, .short (by simp [shortEscapes])⟩
    rcases ite_eq_or h with ⟨rfl, h⟩ | ⟨_, h⟩
    · cases h; exact ⟨[_], rfl, .short (by simp [shortEscapes])⟩
    rcases ite_eq_or h with ⟨rfl, h⟩ | ⟨_, h⟩
    · cases h; exact ⟨[_], rfl, .short (by simp [shortEscapes])⟩
    rcases ite_eq_or h with ⟨rfl, h⟩ | ⟨_, h⟩
    · cases h; exact ⟨[_], rfl, .short (by simp [shortEscapes])⟩
    rcases ite_eq_or h with ⟨rfl, h⟩ | ⟨_, h⟩
    · cases h; exact ⟨[_], rfl, .short (by simp [shortEscapes])⟩
    rcases ite_eq_or h with ⟨rfl, h⟩ | ⟨_, h⟩
    · cases h; exact ⟨[_], rfl, .short (by simp [shortEscapes])⟩
    rcases ite_eq_or h with ⟨rfl, h⟩ | ⟨_, h⟩
    · cases h; exact ⟨[_], rfl, .short (by simp [shortEscapes])⟩
    rcases ite_eq_or h with ⟨rfl, h⟩ | ⟨_, h⟩
    · cases h; exact ⟨[_], rfl, .short (by simp [shortEscapes])⟩
    rcases ite_eq_or h with ⟨rfl, h⟩ | ⟨_, h⟩
    · obtain ⟨x, rfl, hx⟩ := scanUnicode_sound h
      exact ⟨c!"u" :: x, rfl, hx⟩
    · cases h

theorem nextInRange_sound : ∀ (rs : List (Nat × Nat)) (acc s bs rest : Str), nextInRange acc rs s = .add bs rest →
    ∃ c, bs = acc ++ c ∧ s = c ++ rest ∧ List.Forall₂ InRange c rs := by
  intro rs
  induction rs with
  | nil => intro acc s bs rest h; rw [nextInRange] at h; cases h; exact ⟨[], by simp, by simp, .nil⟩
  | cons r rs ih =>
    intro acc s bs rest h
    cases s with
    | nil => cases h
    | cons b s =>
      obtain ⟨lo, hi⟩ := r
      rw [nextInRange] at h
      rcases ite_eq_or h with ⟨hb, h⟩ | ⟨_, h⟩
      · obtain ⟨c, rfl, rfl, hc⟩ := ih _ _ _ _ h
        exact ⟨b :: c, by simp, rfl, .cons hb hc⟩
      · cases h

theorem cont_plain {c : Str} {row : List (Nat × Nat)} (h : List.Forall₂ InRange c row) (hr : ∀ r ∈ row, 0x7F < r.1) :
    ∀ b ∈ c, 0x20 ≤ b.toNat ∧ b ≠ c!"\"" ∧ b ≠ c!"\\" := by
  induction h with
  | nil => simp
  | @cons b r c row hb _ ih =>
    intro x hx
    rcases List.mem_cons.mp hx with rfl | hx
    · have h1 := hr r (by simp)
      have h2 := hb.1
      exact ⟨by omega, by rintro rfl; exact absurd (Nat.lt_of_lt_of_le h1 h2) (by decide),
        by rintro rfl; exact absurd (Nat.lt_of_lt_of_le h1 h2) (by decide)⟩
    · exact ih (fun r hr' => hr r (by simp [hr'])) x hx

theorem row_char {b : Byte} {lo hi : Nat} {rs : List (Nat × Nat)} {s bs rest : Str} (hb : lo ≤ b.toNat ∧ b.toNat ≤ hi)
    (hrow : (lo, hi) :: rs ∈ utf8Rows) (hr : ∀ r ∈ (lo, hi) :: rs, 0x7F < r.1)
    (h : nextInRange [b] rs s = .add bs rest) : ∃ x, b :: s = x ++ rest ∧ CharText x bs := by
  obtain ⟨c, rfl, rfl, hc⟩ := nextInRange_sound _ _ _ _ _ h
  have hf : List.Forall₂ InRange (b :: c) ((lo, hi) :: rs) := .cons hb hc
  exact ⟨b :: c, rfl, .plain ⟨_, hrow, hf⟩ (cont_plain hf hr)⟩

theorem scanStep_sound {s bs rest : Str} (h : scanStep s = .add bs rest) : ∃ x, s = x ++ rest ∧ CharText x bs := by
  cases s with
  | nil => cases h
  | cons b s =>
    unfold scanStep at h
    simp only at h
    rcases ite_eq_or h with ⟨_, h⟩ | ⟨n1, h⟩
    · cases h
    rcases ite_eq_or h with ⟨hb, h⟩ | ⟨n2, h⟩
    · obtain ⟨x, rfl, hx⟩ := scanEscape_sound h
      have : b = c!"\\" := BitVec.eq_of_toNat_eq hb
      subst this
      exact ⟨c!"\\" :: x, rfl, hx⟩
    rcases ite_eq_or h with ⟨_, h⟩ | ⟨n3, h⟩
    · cases h
    rcases ite_eq_or h with ⟨hb, h⟩ | ⟨n4, h⟩
    · cases h
      refine ⟨[b], rfl, .plain ⟨[(0x00, 0x7F)], by simp [utf8Rows], .cons ⟨Nat.zero_le _, hb⟩ .nil⟩ ?_⟩
      intro x hx
      rw [List.mem_singleton] at hx
      subst hx
      exact ⟨by omega, by rintro rfl; exact n1 rfl, by rintro rfl; exact n2 rfl⟩
    rcases ite_eq_or h with ⟨hb, h⟩ | ⟨_, h⟩
    · exact row_char hb (by simp [utf8Rows]) (by simp) h
    rcases ite_eq_or h with ⟨hb, h⟩ | ⟨_, h⟩
    · exact row_char (lo := 0xE0) (hi := 0xE0) (by omega) (by simp [utf8Rows]) (by simp) h
    rcases ite_eq_or h with ⟨hb, h⟩ | ⟨_, h⟩
    · by_cases hl : b.toNat ≤ 0xEC
      · exact row_char (lo := 0xE1) (hi := 0xEC) (by omega) (by simp [utf8Rows]) (by simp) h
      · exact row_char (lo := 0xEE) (hi := 0xEF) (by omega) (by simp [utf8Rows]) (by simp) h
    rcases ite_eq_or h with ⟨hb, h⟩ | ⟨_, h⟩
    · exact row_char (lo := 0xED) (hi := 0xED) (by omega) (by simp [utf8Rows]) (by simp) h
    rcases ite_eq_or h with ⟨hb, h⟩ | ⟨_, h⟩
    · exact row_char (lo := 0xF0) (hi := 0xF0) (by omega) (by simp [utf8Rows]) (by simp) h
    rcases ite_eq_or h with ⟨hb, h⟩ | ⟨_, h⟩
    · exact row_char (lo := 0xF1) (hi := 0xF3) (by omega) (by simp [utf8Rows]) (by simp) h
    rcases ite_eq_or h with ⟨hb, h⟩ | ⟨_, h⟩
    · exact row_char (lo := 0xF4) (hi := 0xF4) (by omega) (by simp [utf8Rows]) (by simp) h
    · cases h

theorem scanStep_close {s rest : Str} (h : scanStep s = .close rest) : s = c!"\"" :: rest := by
  cases s with
  | nil => cases h
  | cons b s =>
    have hn : ∀ (rs : List (Nat × Nat)) (acc t : Str), nextInRange acc rs t ≠ .close rest := by
      intro rs
      induction rs with
      | nil => intro acc t h; rw [nextInRange] at h; cases h
      | cons r rs ih =>
        intro acc t h
        cases t with
        | nil => cases h
        | cons x t =>
          obtain ⟨lo, hi⟩ := r
          rw [nextInRange] at h
          rcases ite_eq_or h with ⟨_, h⟩ | ⟨_, h⟩
          · exact ih _ _ h
          · cases h
    have hu : ∀ t, scanUnicode t ≠ .close rest := by
      intro t h
      unfold scanUnicode at h
      repeat' (first | (cases h; done) | split at h)
    have he : ∀ t, scanEscape t ≠ .close rest := by
      intro t h
      cases t with
      | nil => cases h
      | cons c t =>
        unfold scanEscape at h
        repeat' (first | (cases h; done) | exact hu _ h | split at h)
    unfold scanStep at h
    simp only at h
    rcases ite_eq_or h with ⟨hb, h⟩ | ⟨n1, h⟩
    · cases h
      rw [show b = c!"\"" from BitVec.eq_of_toNat_eq hb]
    · exfalso
      repeat' (first | (cases h; done) | exact he _ h | exact hn _ _ _ h | split at h)

theorem scanStringLoop_sound : ∀ (n : Nat) (acc s v rest : Str), scanStringLoop n acc s = some (v, rest) →
    ∃ body u, s = body ++ c!"\"" :: rest ∧ v = acc ++ u ∧ CharsText body u := by
  intro n
  induction n with
  | zero => intro acc s v rest h; cases h
  | succ n ih =>
    intro acc s v rest h
    rw [scanStringLoop] at h
    split at h
    · rename_i r hs
      cases h
      exact ⟨[], [], scanStep_close hs, by simp, .nil⟩
    · cases h
    · rename_i bs r hs
      obtain ⟨x, rfl, hx⟩ := scanStep_sound hs
      obtain ⟨body, u, rfl, rfl, hb⟩ := ih _ _ _ _ h
      exact ⟨x ++ body, bs ++ u, by simp, by simp, .cons hx hb⟩

/-! ## Completeness -/

theorem scanUnicode_pair {h h' : Str} {a b : Nat} (h1 : Hex4 h (0xD800 + a)) (ha : a < 0x400) (h2 : Hex4 h' (0xDC00 + b))
    (hb : b < 0x400) (s : Str) :
    scanUnicode (h ++ b!"\\u" ++ h' ++ s) = .add (utf8Of (0x10000 + a * 0x400 + b)) s := by
  have e1 : getCodepoint (h ++ b!"\\u" ++ h' ++ s) = some (0xD800 + a, b!"\\u" ++ h' ++ s) :=
    codepoint_iff.mpr ⟨h, by simp, h1⟩
  have e2 : getCodepoint (h' ++ s) = some (0xDC00 + b, s) := codepoint_iff.mpr ⟨h', rfl, h2⟩
  unfold scanUnicode
  rw [e1]
  simp only [List.cons_append, List.nil_append]
  rw [if_pos (by omega), if_pos (by simp), e2]
  simp only
  rw [if_pos (by omega), pair_value hb, utf8Of_eq (by omega)]

theorem scanUnicode_unit {h : Str} {n : Nat} (h1 : Hex4 h n) (hn : ¬ (0xD800 ≤ n ∧ n ≤ 0xDFFF)) (s : Str) :
    scanUnicode (h ++ s) = .add (utf8Of n) s := by
  have e1 : getCodepoint (h ++ s) = some (n, s) := codepoint_iff.mpr ⟨h, rfl, h1⟩
  have := codepoint_lt e1
  unfold scanUnicode
  rw [e1]
  simp only
  rw [if_neg (by omega), if_neg (by omega), utf8Of_eq (by omega)]

theorem plain_esc {c : Str} (hc : Utf8Char c) (hp : ∀ b ∈ c, 0x20 ≤ b.toNat ∧ b ≠ c!"\"" ∧ b ≠ c!"\\") : escChar c = c := by
  obtain ⟨row, hrow, hc⟩ := hc
  cases hc with
  | nil => simp [utf8Rows] at hrow
  | @cons b r c rs hb hcs =>
    cases hcs with
    | cons _ _ => rfl
    | nil =>
      obtain ⟨h1, h2, h3⟩ := hp b (by simp)
      have h2' : b.toNat ≠ 0x22 := fun h => h2 (BitVec.eq_of_toNat_eq h)
      have h3' : b.toNat ≠ 0x5C := fun h => h3 (BitVec.eq_of_toNat_eq h)
      show dumpChar b.toNat b = [b]
      unfold dumpChar
      rw [if_neg (by omega), if_neg (by omega), if_neg (by omega), if_neg (by omega), if_neg (by omega), if_neg (by omega),
        if_neg (by omega), if_neg (by omega)]

theorem scanStep_complete {x bs : Str} (h : CharText x bs) (s : Str) : scanStep (x ++ s) = .add bs s := by
  cases h with
  | plain hc hp =>
    have := scan_char hc s
    rwa [plain_esc hc hp] at this
  | short he =>
    simp only [shortEscapes, List.mem_cons, Prod.mk.injEq, List.not_mem_nil, or_false] at he
    rcases he with ⟨rfl, rfl⟩ | ⟨rfl, rfl⟩ | ⟨rfl, rfl⟩ | ⟨rfl, rfl⟩ | ⟨rfl, rfl⟩ | ⟨rfl, rfl⟩ | ⟨rfl, rfl⟩ | ⟨rfl, rfl⟩ <;> rfl
  | unit h1 hn => exact scanUnicode_unit h1 hn s
  | pair h1 ha h2 hb =>
    rename_i h h' a b
    have : scanStep (b!"\\u" ++ h ++ b!"\\u" ++ h' ++ s) = scanUnicode (h ++ b!"\\u" ++ h' ++ s) := by
      simp only [List.cons_append, List.nil_append, List.append_assoc]
      rfl
    rw [this]
    exact scanUnicode_pair h1 ha h2 hb s

theorem charText_ne {x bs : Str} (h : CharText x bs) : x ≠ [] := by
  rintro rfl
  have := scanStep_complete h []
  cases this

theorem scanStringLoop_complete {body u : Str} (h : CharsText body u) : ∀ (n : Nat) (acc rest : Str), body.length < n →
    scanStringLoop n acc (body ++ c!"\"" :: rest) = some (acc ++ u, rest) := by
  induction h with
  | nil =>
    intro n acc rest hn
    cases n with
    | zero => omega
    | succ n => simp [scanStringLoop, scanStep]
  | @cons t v ts vs ht _ ih =>
    intro n acc rest hn
    cases n with
    | zero => omega
    | succ n =>
      have hl : 0 < t.length := List.length_pos_iff.mpr (charText_ne ht)
      rw [List.length_append] at hn
      rw [List.append_assoc, scanStringLoop, scanStep_complete ht]
      simp only
      rw [ih n _ _ (by omega), List.append_assoc]

/-- The scanner reads exactly the string literals. -/
theorem scanString_iff {s v rest : Str} : scanString s = some (v, rest) ↔ ∃ body, s = body ++ c!"\"" :: rest ∧ CharsText body v := by
  constructor
  · intro h
    obtain ⟨body, u, rfl, rfl, hb⟩ := scanStringLoop_sound _ _ _ _ _ h
    exact ⟨body, rfl, hb⟩
  · rintro ⟨body, rfl, hb⟩
    unfold scanString
    rw [scanStringLoop_complete hb _ _ _ (by simp; omega)]
    rfl

end Wis
