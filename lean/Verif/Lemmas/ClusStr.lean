import Verif.Spec.ClusWisard
import Verif.Lemmas.SMap
import Verif.Lemmas.Bleaching
import Mathlib.Data.Nat.Digits.Defs
/-! Helper lemmas: labels, discriminator names and the votes of a ClusWisard. -/

namespace Wis
open Spec

theorem sep_eq : (b!"::" : Str) = [c!":", c!":"] := by decide

theorem beforeSep_cons2 {c d : Byte} {s : Str} (h : ¬ (c = c!":" ∧ d = c!":")) :
    beforeSep (c :: d :: s) = c :: beforeSep (d :: s) := by
  simp only [beforeSep]
  rw [if_neg h]

theorem beforeSep_sep (s : Str) : beforeSep (b!"::" ++ s) = [] := by
  rw [sep_eq]
  simp [beforeSep]

/-- The part before the first `"::"` of a string that contains one. -/
theorem beforeSep_split (x : Str) : (∃ t, x = beforeSep x ++ b!"::" ++ t ∧ SafeLabel (beforeSep x)) ∨
    (¬ HasSep x ∧ beforeSep x = x) := by
  induction x with
  | nil =>
    right
    refine ⟨?_, rfl⟩
    rintro ⟨a, b, h⟩
    rw [sep_eq] at h
    simp at h
  | cons c x ih =>
    cases x with
    | nil =>
      right
      refine ⟨?_, rfl⟩
      rintro ⟨a, b, h⟩
      rw [sep_eq] at h
      have := congrArg List.length h
      simp at this
      omega
    | cons d s =>
      by_cases h : c = c!":" ∧ d = c!":"
      · left
        refine ⟨s, ?_, ?_⟩
        · simp only [beforeSep]
          rw [if_pos h, h.1, h.2, sep_eq]
          rfl
        · simp only [beforeSep]
          rw [if_pos h]
          constructor
          · rintro ⟨a, b, h⟩
            rw [sep_eq] at h
            simp at h
          · rintro ⟨a, h⟩
            have := congrArg List.length h
            simp at this
      · rw [beforeSep_cons2 h]
        rcases ih with ⟨t, h1, h2, h3⟩ | ⟨h1, h2⟩
        · left
          refine ⟨t, ?_, ?_, ?_⟩
          · simp only [List.cons_append]
            rw [← h1]
          · rintro ⟨a, b, e⟩
            rw [sep_eq] at e
            cases a with
            | nil =>
              simp only [List.nil_append, List.cons_append, List.cons.injEq] at e
              obtain ⟨e1, e2⟩ := e
              rw [e2] at h1
              simp only [List.cons_append, List.cons.injEq] at h1
              exact h ⟨e1, h1.1⟩
            | cons a0 a =>
              simp only [List.cons_append, List.cons.injEq] at e
              exact h2 ⟨a, b, by rw [sep_eq]; exact e.2⟩
          · rintro ⟨a, e⟩
            cases a with
            | nil =>
              have e' : c = c!":" ∧ beforeSep (d :: s) = [] := by
                have : (b!":" : Str) = [c!":"] := by decide
                rw [this] at e
                simpa using e
              rw [e'.2, sep_eq] at h1
              simp only [List.nil_append, List.cons_append, List.cons.injEq] at h1
              exact h ⟨e'.1, h1.1⟩
            | cons a0 a =>
              simp only [List.cons_append, List.cons.injEq] at e
              exact h3 ⟨a, e.2⟩
        · right
          refine ⟨?_, by rw [h2]⟩
          rintro ⟨a, b, e⟩
          rw [sep_eq] at e
          cases a with
          | nil =>
            simp only [List.nil_append, List.cons_append, List.cons.injEq] at e
            exact h ⟨e.1, e.2.1⟩
          | cons a0 a =>
            simp only [List.cons_append, List.cons.injEq] at e
            exact h1 ⟨a, b, by rw [sep_eq]; exact e.2⟩

theorem beforeSep_safe {l : Str} (h : SafeLabel l) (s : Str) : beforeSep (l ++ b!"::" ++ s) = l := by
  induction l with
  | nil => exact beforeSep_sep s
  | cons c l ih =>
    have hl : SafeLabel l := by
      refine ⟨?_, ?_⟩
      · rintro ⟨a, b, rfl⟩
        exact h.1 ⟨c :: a, b, rfl⟩
      · rintro ⟨a, rfl⟩
        exact h.2 ⟨c :: a, rfl⟩
    have ih := ih hl
    cases l with
    | nil =>
      have hc : c ≠ c!":" := by
        rintro rfl
        exact h.2 ⟨[], rfl⟩
      rw [sep_eq]
      simp only [List.cons_append, List.nil_append, beforeSep]
      simp [hc]
    | cons d l =>
      have hcd : ¬ (c = c!":" ∧ d = c!":") := by
        rintro ⟨rfl, rfl⟩
        exact h.1 ⟨[], l, by rw [sep_eq]; rfl⟩
      simp only [List.cons_append] at ih ⊢
      rw [beforeSep_cons2 hcd, ih]

theorem beforeSep_isSafe (l s : Str) : SafeLabel (beforeSep (l ++ b!"::" ++ s)) := by
  rcases beforeSep_split (l ++ b!"::" ++ s) with ⟨t, _, h⟩ | ⟨h, _⟩
  · exact h
  · exact absurd ⟨l, s, rfl⟩ h

/-! ## Decimal numbers -/

theorem digit_byte (n : Nat) (c : Char) (h : c ∈ Nat.toDigits 10 n) : 48 ≤ c.toNat ∧ c.toNat ≤ 57 := by
  have := Nat.isDigit_of_mem_toDigits (b := 10) (by omega) (by omega) h
  simp only [Char.isDigit, Bool.and_eq_true, decide_eq_true_eq] at this
  exact ⟨this.1, this.2⟩

theorem natStr_inj {a b : Nat} (h : natStr a = natStr b) : a = b := by
  unfold natStr at h
  have h2 : Nat.toDigits 10 a = Nat.toDigits 10 b := by
    have gen : ∀ (l m : List Char), (∀ c ∈ l, c.toNat ≤ 57) → (∀ c ∈ m, c.toNat ≤ 57) →
        l.map (fun c => (BitVec.ofNat 8 c.toNat : Byte)) = m.map (fun c => BitVec.ofNat 8 c.toNat) → l = m := by
      intro l
      induction l with
      | nil => intro m _ _ h; cases m with
        | nil => rfl
        | cons => simp at h
      | cons c l ih =>
        intro m hl hm h
        cases m with
        | nil => simp at h
        | cons d m =>
          simp only [List.map_cons, List.cons.injEq] at h
          have h1 := hl c (by simp)
          have h2 := hm d (by simp)
          have e := congrArg BitVec.toNat h.1
          simp only [BitVec.toNat_ofNat] at e
          rw [Nat.mod_eq_of_lt (by omega), Nat.mod_eq_of_lt (by omega)] at e
          have hcd : c = d := Char.toNat_inj.mp e
          rw [hcd, ih m (fun x hx => hl x (by simp [hx])) (fun x hx => hm x (by simp [hx])) h.2]
    exact gen _ _ (fun c hc => (digit_byte a c hc).2) (fun c hc => (digit_byte b c hc).2) h
  have := congrArg (fun s => Nat.ofDigitChars 10 s 0) h2
  simpa using this

theorem natStr_noColon (n : Nat) : c!":" ∉ natStr n := by
  unfold natStr
  intro h
  obtain ⟨c, hc, e⟩ := List.mem_map.mp h
  have := digit_byte n c hc
  have e := congrArg BitVec.toNat e
  rw [BitVec.toNat_ofNat, Nat.mod_eq_of_lt (by omega)] at e
  have : (c!":" : Byte).toNat = 58 := by decide
  omega

/-- The name of a discriminator determines its class and its number. -/
theorem dname_inj {l l' : Str} {i j : Nat} (h : l ++ b!"::" ++ natStr i = l' ++ b!"::" ++ natStr j) : l = l' ∧ i = j := by
  rw [sep_eq] at h
  have key : ∀ (a b s t : Str), c!":" ∉ s → c!":" ∉ t → a ++ [c!":"] ++ s = b ++ [c!":"] ++ t → a = b ∧ s = t := by
    intro a
    induction a with
    | nil =>
      intro b s t hs ht h
      cases b with
      | nil => simpa using h
      | cons b0 b =>
        simp only [List.nil_append, List.cons_append, List.cons.injEq] at h
        exact absurd (by rw [h.2]; simp) hs
    | cons a0 a ih =>
      intro b s t hs ht h
      cases b with
      | nil =>
        simp only [List.nil_append, List.cons_append, List.cons.injEq] at h
        exact absurd (by rw [← h.2]; simp) ht
      | cons b0 b =>
        simp only [List.cons_append, List.cons.injEq] at h
        obtain ⟨h1, h2⟩ := ih b s t hs ht (by simpa using h.2)
        exact ⟨by rw [h.1, h1], h2⟩
  have := key (l ++ [c!":"]) (l' ++ [c!":"]) _ _ (natStr_noColon i) (natStr_noColon j) (by simpa using h)
  refine ⟨?_, natStr_inj this.2⟩
  exact List.append_inj_left' this.1 rfl

end Wis
