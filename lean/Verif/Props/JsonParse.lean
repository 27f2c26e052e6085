import Verif.Props.JsonText
/-!
# C90: what `parse` returns; C92: truncated texts
-/

namespace Wis
open Spec JsonText

/-! ## The bound of the model is not used up -/

theorem parse_more (ft : FloatText) : ∀ n : Nat,
    (∀ t s r, parseValue ft n t s = some r → parseValue ft (n + 1) t s = some r) ∧
    (∀ m t s r, parseMembers ft n m t s = some r → parseMembers ft (n + 1) m t s = some r) ∧
    (∀ l t s r, parseElems ft n l t s = some r → parseElems ft (n + 1) l t s = some r) := by
  intro n
  induction n with
  | zero => refine ⟨?_, ?_, ?_⟩ <;> intros <;> rename_i h <;> cases h
  | succ n ih =>
    obtain ⟨ihv, ihm, ihe⟩ := ih
    refine ⟨?_, ?_, ?_⟩
    · intro t s r h
      cases t <;> simp only [parseValue] at h ⊢ <;> try exact h
      · revert h
        rcases scan ft s with ⟨t1, s1⟩
        intro h
        cases t1 <;> simp only at h ⊢ <;> first | exact h | exact ihe _ _ _ _ h
      · revert h
        rcases scan ft s with ⟨t1, s1⟩
        intro h
        cases t1 <;> simp only at h ⊢ <;> first | exact h | exact ihm _ _ _ _ h
    · intro m t s r h
      cases t <;> simp only [parseMembers] at h <;> try exact h
      rename_i k
      rw [parseMembers]
      revert h
      rcases scan ft s with ⟨t1, s1⟩
      intro h
      cases t1 <;> simp only at h ⊢ <;> try exact h
      cases hv : parseValue ft n (scan ft s1).1 (scan ft s1).2 with
      | none => rw [hv] at h; cases h
      | some x =>
        rw [hv] at h
        rw [ihv _ _ _ hv]
        cases x with
        | error e => exact h
        | ok p =>
          obtain ⟨v, s3⟩ := p
          simp only at h ⊢
          revert h
          rcases scan ft s3 with ⟨t4, s4⟩
          intro h
          cases t4 <;> simp only at h ⊢ <;> first | exact h | exact ihm _ _ _ _ h
    · intro l t s r h
      rw [parseElems] at h
      rw [parseElems]
      cases hv : parseValue ft n t s with
      | none => rw [hv] at h; cases h
      | some x =>
        rw [hv] at h
        rw [ihv _ _ _ hv]
        cases x with
        | error e => exact h
        | ok p =>
          obtain ⟨v, s3⟩ := p
          simp only at h ⊢
          revert h
          rcases scan ft s3 with ⟨t4, s4⟩
          intro h
          cases t4 <;> simp only at h ⊢ <;> first | exact h | exact ihe _ _ _ _ h

theorem parse_more_le (ft : FloatText) {n m : Nat} (h : n ≤ m) {t : Tok} {s : Str} {r : Res (Json × Str)}
    (hr : parseValue ft n t s = some r) : parseValue ft m t s = some r := by
  induction h with
  | refl => exact hr
  | step _ ih => exact (parse_more ft _).1 _ _ _ ih

theorem parse_some (ft : FloatText) (s : Str) :
    ∃ r, parseValue ft (2 * s.length + 3) (scan ft s).1 (scan ft s).2 = some r := by
  obtain ⟨r, hr, _⟩ := (parse_enough ft (2 * s.length + 3)).1 (scan ft s).1 (scan ft s).2
    (enough_scan ft (by omega))
  exact ⟨r, hr⟩

/-- C90, adequacy of the model: the bound on the number of calls is never used up, and any larger bound gives the same. -/
theorem C90_parse_total (ft : FloatText) (s : Str) : ∃ r, ∀ m, 2 * s.length + 3 ≤ m →
    parseValue ft m (scan ft s).1 (scan ft s).2 = some r := by
  obtain ⟨r, hr⟩ := parse_some ft s
  exact ⟨r, fun m hm => parse_more_le ft hm hr⟩

/-! ## Strings are UTF-8 -/

/-- Bytes added by a round are UTF-8. -/
def StepUtf8 : Step → Prop
  | .add bs _ => Utf8 bs
  | _ => True

theorem utf8_append {a b : Str} (ha : Utf8 a) (hb : Utf8 b) : Utf8 (a ++ b) := by
  induction ha with
  | nil => exact hb
  | cons hc _ ih => rw [List.append_assoc]; exact .cons hc ih

theorem utf8_char {c : Str} (h : Utf8Char c) : Utf8 c := by
  have := Utf8.cons h .nil
  rwa [List.append_nil] at this

theorem nextInRange_utf8 : ∀ (rs pre : List (Nat × Nat)) (acc s : Str), List.Forall₂ InRange acc pre → pre ++ rs ∈ utf8Rows →
    StepUtf8 (nextInRange acc rs s) := by
  intro rs
  induction rs with
  | nil =>
    intro pre acc s h hm
    rw [nextInRange]
    rw [List.append_nil] at hm
    exact utf8_char ⟨pre, hm, h⟩
  | cons r rs ih =>
    intro pre acc s h hm
    cases s with
    | nil => trivial
    | cons b s =>
      obtain ⟨lo, hi⟩ := r
      rw [nextInRange]
      split
      · rename_i hb
        refine ih (pre ++ [(lo, hi)]) _ s ?_ (by simpa using hm)
        exact List.rel_append h (.cons hb .nil)
      · trivial

theorem two_bytes : ∀ x : Fin 32, 2 ≤ x.val → ∀ y : Fin 64,
    InRange (BitVec.ofNat 8 (0xC0 ||| x.val)) (0xC2, 0xDF) ∧ InRange (BitVec.ofNat 8 (0x80 ||| y.val)) (0x80, 0xBF) := by
  decide +kernel

theorem cont_byte : ∀ y : Fin 64, InRange (BitVec.ofNat 8 (0x80 ||| y.val)) (0x80, 0xBF) ∧
    (32 ≤ y.val → InRange (BitVec.ofNat 8 (0x80 ||| y.val)) (0xA0, 0xBF)) ∧
    (y.val < 32 → InRange (BitVec.ofNat 8 (0x80 ||| y.val)) (0x80, 0x9F)) ∧
    (16 ≤ y.val → InRange (BitVec.ofNat 8 (0x80 ||| y.val)) (0x90, 0xBF)) ∧
    (y.val < 16 → InRange (BitVec.ofNat 8 (0x80 ||| y.val)) (0x80, 0x8F)) := by
  decide +kernel

theorem lead3 : ∀ x : Fin 16, BitVec.toNat (BitVec.ofNat 8 (0xE0 ||| x.val) : Byte) = 0xE0 + x.val := by decide +kernel
theorem lead4 : ∀ x : Fin 8, BitVec.toNat (BitVec.ofNat 8 (0xF0 ||| x.val) : Byte) = 0xF0 + x.val := by decide +kernel

theorem and63 (n : Nat) : n &&& 0x3F = n % 64 := Nat.and_two_pow_sub_one_eq_mod n 6

/-- The bytes of a code point that is no surrogate are UTF-8. -/
theorem codepointBytes_utf8 {cp : Nat} (h : cp < 0x110000) (hs : ¬ (0xD800 ≤ cp ∧ cp ≤ 0xDFFF)) :
    Utf8 (codepointBytes cp) := by
  apply utf8_char
  unfold codepointBytes
  simp only [and63, Nat.shiftRight_eq_div_pow]
  have hc : ∀ n, InRange (BitVec.ofNat 8 (0x80 ||| n % 64)) (0x80, 0xBF) ∧
      (32 ≤ n % 64 → InRange (BitVec.ofNat 8 (0x80 ||| n % 64)) (0xA0, 0xBF)) ∧
      (n % 64 < 32 → InRange (BitVec.ofNat 8 (0x80 ||| n % 64)) (0x80, 0x9F)) ∧
      (16 ≤ n % 64 → InRange (BitVec.ofNat 8 (0x80 ||| n % 64)) (0x90, 0xBF)) ∧
      (n % 64 < 16 → InRange (BitVec.ofNat 8 (0x80 ||| n % 64)) (0x80, 0x8F)) := fun n => cont_byte ⟨n % 64, by omega⟩
  split
  · refine ⟨[(0x00, 0x7F)], by decide, .cons ⟨Nat.zero_le _, ?_⟩ .nil⟩
    rw [BitVec.toNat_ofNat]
    show cp % 256 ≤ 127
    omega
  split
  · have := (two_bytes ⟨cp / 2 ^ 6, by omega⟩ (by simp only; omega) ⟨cp % 64, by omega⟩)
    exact ⟨[(0xC2, 0xDF), (0x80, 0xBF)], by decide, .cons this.1 (.cons this.2 .nil)⟩
  split
  · have hl := lead3 ⟨cp / 2 ^ 12, by omega⟩
    simp only at hl
    obtain ⟨c1, c2, c3, _, _⟩ := hc (cp / 2 ^ 6)
    have d := (hc cp).1
    by_cases h0 : cp / 2 ^ 12 = 0
    · refine ⟨[(0xE0, 0xE0), (0xA0, 0xBF), (0x80, 0xBF)], by decide, .cons ?_ (.cons (c2 (by omega)) (.cons d .nil))⟩
      exact ⟨by rw [hl]; simp only; omega, by rw [hl]; simp only; omega⟩
    by_cases hD : cp / 2 ^ 12 = 13
    · refine ⟨[(0xED, 0xED), (0x80, 0x9F), (0x80, 0xBF)], by decide, .cons ?_ (.cons (c3 (by omega)) (.cons d .nil))⟩
      exact ⟨by rw [hl]; simp only; omega, by rw [hl]; simp only; omega⟩
    by_cases hE : cp / 2 ^ 12 < 13
    · refine ⟨[(0xE1, 0xEC), (0x80, 0xBF), (0x80, 0xBF)], by decide, .cons ?_ (.cons c1 (.cons d .nil))⟩
      exact ⟨by rw [hl]; simp only; omega, by rw [hl]; simp only; omega⟩
    · refine ⟨[(0xEE, 0xEF), (0x80, 0xBF), (0x80, 0xBF)], by decide, .cons ?_ (.cons c1 (.cons d .nil))⟩
      exact ⟨by rw [hl]; simp only; omega, by rw [hl]; simp only; omega⟩
  · have hl := lead4 ⟨cp / 2 ^ 18, by omega⟩
    simp only at hl
    obtain ⟨c1, _, _, c4, c5⟩ := hc (cp / 2 ^ 12)
    have d := (hc cp).1
    have e := (hc (cp / 2 ^ 6)).1
    by_cases h0 : cp / 2 ^ 18 = 0
    · refine ⟨[(0xF0, 0xF0), (0x90, 0xBF), (0x80, 0xBF), (0x80, 0xBF)], by decide,
        .cons ?_ (.cons (c4 (by omega)) (.cons e (.cons d .nil)))⟩
      exact ⟨by rw [hl]; simp only; omega, by rw [hl]; simp only; omega⟩
    by_cases h4 : cp / 2 ^ 18 = 4
    · refine ⟨[(0xF4, 0xF4), (0x80, 0x8F), (0x80, 0xBF), (0x80, 0xBF)], by decide,
        .cons ?_ (.cons (c5 (by omega)) (.cons e (.cons d .nil)))⟩
      exact ⟨by rw [hl]; simp only; omega, by rw [hl]; simp only; omega⟩
    · refine ⟨[(0xF1, 0xF3), (0x80, 0xBF), (0x80, 0xBF), (0x80, 0xBF)], by decide,
        .cons ?_ (.cons c1 (.cons e (.cons d .nil)))⟩
      exact ⟨by rw [hl]; simp only; omega, by rw [hl]; simp only; omega⟩

theorem hexVal_lt : ∀ n : Fin 256, ∀ k, hexVal (BitVec.ofNat 8 n.val) = some k → k < 16 := by
  intro n k h
  unfold hexVal at h
  simp only at h
  split at h
  · cases h; omega
  split at h
  · cases h; omega
  split at h
  · cases h; omega
  · cases h

theorem hexVal_lt' {b : Byte} {k : Nat} (h : hexVal b = some k) : k < 16 :=
  hexVal_lt ⟨b.toNat, b.isLt⟩ k (by simpa only [BitVec.ofNat_toNat, BitVec.setWidth_eq] using h)

theorem codepoint_lt {s rest : Str} {c : Nat} (h : getCodepoint s = some (c, rest)) : c < 65536 := by
  unfold getCodepoint at h
  split at h
  · split at h
    · rename_i h1 h2 h3 h4
      simp only [Option.some.injEq, Prod.mk.injEq] at h
      have := hexVal_lt' h1
      have := hexVal_lt' h2
      have := hexVal_lt' h3
      have := hexVal_lt' h4
      omega
    · cases h
  · cases h

theorem scanUnicode_utf8 (s : Str) : StepUtf8 (scanUnicode s) := by
  unfold scanUnicode
  split
  · trivial
  · rename_i cp1 s1 hg
    have h1 := codepoint_lt hg
    split
    · rename_i hh
      split
      · split
        · split
          · trivial
          · rename_i cp2 s3 hg2
            split
            · rename_i hl
              have e : cp1 <<< 10 = cp1 * 1024 := Nat.shiftLeft_eq cp1 10
              exact codepointBytes_utf8 (by rw [e]; omega) (by rw [e]; omega)
            · trivial
        · trivial
      · trivial
    · split
      · trivial
      · exact codepointBytes_utf8 (by omega) (by omega)

theorem byte_utf8 {b : Byte} (h : b.toNat ≤ 0x7F) : Utf8 [b] :=
  utf8_char ⟨_, by decide, .cons (show InRange b (0x00, 0x7F) from ⟨Nat.zero_le _, h⟩) .nil⟩

theorem scanEscape_utf8 (s : Str) : StepUtf8 (scanEscape s) := by
  cases s with
  | nil => trivial
  | cons c s =>
    rw [scanEscape]
    exact ite_ind (byte_utf8 (by decide)) (ite_ind (byte_utf8 (by decide)) (ite_ind (byte_utf8 (by decide))
      (ite_ind (byte_utf8 (by decide)) (ite_ind (byte_utf8 (by decide)) (ite_ind (byte_utf8 (by decide))
      (ite_ind (byte_utf8 (by decide)) (ite_ind (byte_utf8 (by decide)) (ite_ind (scanUnicode_utf8 s) trivial))))))))

theorem ite_ind' {α : Type} {P : α → Prop} {c : Prop} [Decidable c] {a b : α} (ha : c → P a) (hb : P b) :
    P (if c then a else b) := by
  split
  · exact ha (by assumption)
  · exact hb

theorem scanStep_utf8 (s : Str) : StepUtf8 (scanStep s) := by
  cases s with
  | nil => trivial
  | cons b s =>
    have hn : ∀ (lo hi : Nat) (rs : List (Nat × Nat)), (lo, hi) :: rs ∈ utf8Rows → (lo ≤ b.toNat ∧ b.toNat ≤ hi) →
        StepUtf8 (nextInRange [b] rs s) := fun lo hi rs hm hb =>
      nextInRange_utf8 rs [(lo, hi)] [b] s (.cons hb .nil) hm
    rw [scanStep]
    refine ite_ind trivial (ite_ind (scanEscape_utf8 s) (ite_ind trivial (ite_ind' (fun h => byte_utf8 h)
      (ite_ind' (fun h => hn 0xC2 0xDF _ (by decide) h)
      (ite_ind' (fun h => hn 0xE0 0xE0 _ (by decide) (by omega))
      (ite_ind' (fun h => ?_)
      (ite_ind' (fun h => hn 0xED 0xED _ (by decide) (by omega))
      (ite_ind' (fun h => hn 0xF0 0xF0 _ (by decide) (by omega))
      (ite_ind' (fun h => hn 0xF1 0xF3 _ (by decide) h)
      (ite_ind' (fun h => hn 0xF4 0xF4 _ (by decide) (by omega)) trivial))))))))))
    rcases h with h | h
    · exact hn 0xE1 0xEC _ (by decide) h
    · exact hn 0xEE 0xEF _ (by decide) (by omega)

theorem scanStringLoop_utf8 : ∀ (n : Nat) (acc s v rest : Str), Utf8 acc → scanStringLoop n acc s = some (v, rest) →
    Utf8 v := by
  intro n
  induction n with
  | zero => intro acc s v rest _ h; cases h
  | succ n ih =>
    intro acc s v rest hacc h
    rw [scanStringLoop] at h
    have hu := scanStep_utf8 s
    revert hu h
    cases scanStep s with
    | close r =>
      intro h _
      simp only [Option.some.injEq, Prod.mk.injEq] at h
      rw [← h.1]
      exact hacc
    | fail => intro h _; cases h
    | add x r =>
      intro h hu
      exact ih _ _ _ _ (utf8_append hacc hu) h

/-! ## What is parsed can be held -/

/-- What a token carries can be held: UTF-8, 64 bit integers, numbers `strtod` returned. -/
def TokOk (ft : FloatText) : Tok → Prop
  | .str v => Utf8 v
  | .int i => -2 ^ 63 ≤ i ∧ i < 2 ^ 64
  | .real q => ∃ t, ft.read t = some q
  | _ => True

theorem realTok_ok (ft : FloatText) (buf : Str) : TokOk ft (realTok ft buf) := by
  unfold realTok
  split
  · rename_i h
    exact ⟨_, h⟩
  · trivial

theorem numberTok_ok (ft : FloatText) (ty : NumType) (buf : Str) : TokOk ft (numberTok ft ty buf) := by
  cases ty
  · rw [numberTok]
    exact ite_ind' (fun h => ⟨by omega, by omega⟩) (realTok_ok ft buf)
  · rw [numberTok]
    exact ite_ind' (fun h => ⟨by omega, by omega⟩) (realTok_ok ft buf)
  · exact realTok_ok ft buf

theorem scanLiteral_ok (ft : FloatText) {t : Tok} (h : TokOk ft t) : ∀ x s : Str, TokOk ft (scanLiteral t x s).1 := by
  intro x
  induction x with
  | nil => intro s; exact h
  | cons x xs ih =>
    intro s
    cases s with
    | nil => trivial
    | cons c s =>
      rw [scanLiteral]
      exact ite_ind (P := fun r : Tok × Str => TokOk ft r.1) (ih s) trivial

theorem scanTok_ok (ft : FloatText) (s : Str) : TokOk ft (scan ft s).1 := by
  unfold scan
  cases skipWs s with
  | nil => trivial
  | cons c s =>
    rw [scanTok]
    have hq : TokOk ft (match scanString s with
        | some (v, rest) => (Tok.str v, rest)
        | none => (.error, [])).1 := by
      split
      · rename_i heq
        exact scanStringLoop_utf8 _ _ _ _ _ .nil heq
      · trivial
    have hn : TokOk ft (scanNumber ft c s).1 := by
      unfold scanNumber
      simp only
      split
      · exact numberTok_ok _ _ _
      · trivial
    refine ite_ind (P := fun r : Tok × Str => TokOk ft r.1) trivial ?_
    refine ite_ind (P := fun r : Tok × Str => TokOk ft r.1) trivial ?_
    refine ite_ind (P := fun r : Tok × Str => TokOk ft r.1) trivial ?_
    refine ite_ind (P := fun r : Tok × Str => TokOk ft r.1) trivial ?_
    refine ite_ind (P := fun r : Tok × Str => TokOk ft r.1) trivial ?_
    refine ite_ind (P := fun r : Tok × Str => TokOk ft r.1) trivial ?_
    refine ite_ind (P := fun r : Tok × Str => TokOk ft r.1) (scanLiteral_ok ft (t := .tru) trivial _ _) ?_
    refine ite_ind (P := fun r : Tok × Str => TokOk ft r.1) (scanLiteral_ok ft (t := .fls) trivial _ _) ?_
    refine ite_ind (P := fun r : Tok × Str => TokOk ft r.1) (scanLiteral_ok ft (t := .nul) trivial _ _) ?_
    refine ite_ind (P := fun r : Tok × Str => TokOk ft r.1) hq ?_
    refine ite_ind (P := fun r : Tok × Str => TokOk ft r.1) hn ?_
    exact ite_ind (P := fun r : Tok × Str => TokOk ft r.1) trivial trivial

/-- A value that can be held and printed. -/
def Good (ft : FloatText) (j : Json) : Prop := Held ft j ∧ AllUtf8 j

theorem good_arr {ft : FloatText} {l : List Json} (h : ∀ j ∈ l, Good ft j) : Good ft (.arr l) :=
  ⟨.arr fun j hj => (h j hj).1, .arr fun j hj => (h j hj).2⟩

/-- Members that can be held and printed. -/
def GoodM (ft : FloatText) (m : List (Str × Json)) : Prop :=
  SMap.Sorted m ∧ ∀ e ∈ m, Utf8 e.1 ∧ Good ft e.2

theorem good_obj {ft : FloatText} {m : List (Str × Json)} (h : GoodM ft m) : Good ft (.obj m) :=
  ⟨.obj h.1 fun e he => (h.2 e he).2.1, .obj (fun e he => (h.2 e he).1) fun e he => (h.2 e he).2.2⟩

theorem goodM_emplace {ft : FloatText} {m : List (Str × Json)} {k : Str} {v : Json} (h : GoodM ft m) (hk : Utf8 k)
    (hv : Good ft v) : GoodM ft (emplace m k v) := by
  unfold emplace
  split
  · exact h
  · refine ⟨SMap.sorted_set h.1 k v, fun e he => ?_⟩
    rcases SMap.mem_set he with rfl | he
    · exact ⟨hk, hv⟩
    · exact h.2 e he

/-- The errors of the parser. -/
def ParseErr (e : Err) : Prop := e = .throw .jsonParse ∨ e = .throw .jsonRange

/-- A good value, or an exception of the parser. -/
def GoodR (ft : FloatText) : Res (Json × Str) → Prop
  | .ok (v, _) => Good ft v
  | .error e => ParseErr e

theorem parse_good (ft : FloatText) (hf : ∀ t q, ft.read t = some q → FloatOk ft q) : ∀ n : Nat,
    (∀ t s r, TokOk ft t → parseValue ft n t s = some r → GoodR ft r) ∧
    (∀ m t s r, GoodM ft m → TokOk ft t → parseMembers ft n m t s = some r → GoodR ft r) ∧
    (∀ l t s r, (∀ j ∈ l, Good ft j) → TokOk ft t → parseElems ft n l t s = some r → GoodR ft r) := by
  intro n
  induction n with
  | zero => refine ⟨?_, ?_, ?_⟩ <;> intros <;> rename_i h <;> cases h
  | succ n ih =>
    obtain ⟨ihv, ihm, ihe⟩ := ih
    have hp : GoodR ft (.error (.throw .jsonParse)) := Or.inl rfl
    refine ⟨?_, ?_, ?_⟩
    · intro t s r ht h
      cases t <;> simp only [parseValue] at h
      case lbrack =>
        have hs := scanTok_ok ft s
        revert h hs
        rcases scan ft s with ⟨t1, s1⟩
        intro h hs
        cases t1 <;> simp only at h hs <;>
          first | exact ihe _ _ _ _ (by simp) hs h | (cases h; exact good_arr (by simp))
      case lbrace =>
        have hs := scanTok_ok ft s
        revert h hs
        rcases scan ft s with ⟨t1, s1⟩
        intro h hs
        cases t1 <;> simp only at h hs <;>
          first
          | exact ihm _ _ _ _ ⟨by simp [SMap.Sorted], by simp⟩ hs h
          | (cases h; exact good_obj ⟨by simp [SMap.Sorted], by simp⟩)
      case str v => cases h; exact ⟨.str v, .str ht⟩
      case int i => cases h; exact ⟨.int ht.1 ht.2, .int i⟩
      case real q => cases h; obtain ⟨t, h⟩ := ht; exact ⟨.real (hf t q h), .real q⟩
      case tru => cases h; exact ⟨.bool _, .bool _⟩
      case fls => cases h; exact ⟨.bool _, .bool _⟩
      case nul => cases h; exact ⟨.null, .null⟩
      case inf => cases h; exact Or.inr rfl
      all_goals cases h; exact hp
    · intro m t s r hm ht h
      cases t <;> simp only [parseMembers] at h
      case str k =>
        revert h
        rcases scan ft s with ⟨t1, s1⟩
        intro h
        cases t1 <;> simp only at h
        case colon =>
          cases hv : parseValue ft n (scan ft s1).1 (scan ft s1).2 with
          | none => rw [hv] at h; cases h
          | some x =>
            rw [hv] at h
            have hx := ihv _ _ _ (scanTok_ok ft s1) hv
            cases x with
            | error e => cases h; exact hx
            | ok p =>
              obtain ⟨v, s3⟩ := p
              simp only at h
              revert h
              rcases scan ft s3 with ⟨t4, s4⟩
              intro h
              have hm' := goodM_emplace (k := k) hm ht hx
              cases t4 <;> simp only at h
              case comma => exact ihm _ _ _ _ hm' (scanTok_ok ft s4) h
              case rbrace => cases h; exact good_obj hm'
              all_goals cases h; exact hp
        all_goals cases h; exact hp
      all_goals cases h; exact hp
    · intro l t s r hl ht h
      rw [parseElems] at h
      cases hv : parseValue ft n t s with
      | none => rw [hv] at h; cases h
      | some x =>
        rw [hv] at h
        have hx := ihv _ _ _ ht hv
        cases x with
        | error e => cases h; exact hx
        | ok p =>
          obtain ⟨v, s3⟩ := p
          simp only at h
          revert h
          rcases scan ft s3 with ⟨t4, s4⟩
          intro h
          have hl' : ∀ j ∈ l ++ [v], Good ft j := by
            intro j hj
            rcases List.mem_append.mp hj with hj | hj
            · exact hl j hj
            · rw [List.mem_singleton.mp hj]; exact hx
          cases t4 <;> simp only at h
          case comma => exact ihe _ _ _ _ hl' (scanTok_ok ft s4) h
          case rbrack => cases h; exact good_arr hl'
          all_goals cases h; exact hp

/-- C90: whatever the text, `parse` returns a value or throws one of its two exceptions; it never has undefined
behaviour. -/
theorem C90_parse_outcome (ft : FloatText) (hf : ∀ t q, ft.read t = some q → FloatOk ft q) (text : Str) :
    (∃ j, parse ft text = .ok j) ∨ parse ft text = .error (.throw .jsonParse) ∨ parse ft text = .error (.throw .jsonRange) := by
  obtain ⟨r, hr⟩ := parse_some ft (skipBom text)
  have hg := (parse_good ft hf _).1 _ _ _ (scanTok_ok ft _) hr
  unfold parse
  simp only [hr]
  cases r with
  | error e =>
    rcases hg with rfl | rfl
    · exact Or.inr (Or.inl rfl)
    · exact Or.inr (Or.inr rfl)
  | ok p =>
    obtain ⟨v, s2⟩ := p
    simp only
    split
    · exact Or.inl ⟨v, rfl⟩
    · exact Or.inr (Or.inl rfl)

/-- C90: a parsed value holds 64 bit integers, ordered members with distinct keys, and UTF-8 strings. -/
theorem C90_parsed_value (ft : FloatText) (hf : ∀ t q, ft.read t = some q → FloatOk ft q) {text : Str} {j : Json}
    (h : parse ft text = .ok j) : Held ft j ∧ AllUtf8 j := by
  obtain ⟨r, hr⟩ := parse_some ft (skipBom text)
  have hg := (parse_good ft hf _).1 _ _ _ (scanTok_ok ft _) hr
  unfold parse at h
  simp only [hr] at h
  cases r with
  | error e => cases h
  | ok p =>
    obtain ⟨v, s2⟩ := p
    simp only at h
    split at h
    · cases h; exact hg
    · cases h

/-- C90: what was accepted can be written again, and the new text means the same. -/
theorem C90_normal_form (ft : FloatText) (hf : ∀ t q, ft.read t = some q → FloatOk ft q) {text : Str} {j : Json}
    (h : parse ft text = .ok j) : ∃ t, dump ft j = .ok t ∧ parse ft t = .ok j :=
  C89_roundtrip ft (C90_parsed_value ft hf h).1 (C90_parsed_value ft hf h).2

end Wis
