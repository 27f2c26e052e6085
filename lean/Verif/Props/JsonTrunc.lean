import Verif.Props.JsonParse
/-!
# C89: when `dump` throws; C92: truncated texts
-/

namespace Wis
open Spec JsonText

/-! ## `dump` throws exactly for strings that are not UTF-8 -/

theorem dumpEscapedFrom_err : ∀ (s : Str) (st cp : Nat) (e : Err), dumpEscapedFrom st cp s = .error e →
    e = .throw .jsonUtf8 := by
  intro s
  induction s with
  | nil =>
    intro st cp e h
    rw [dumpEscapedFrom] at h
    split at h
    · cases h
    · cases h; rfl
  | cons b s ih =>
    intro st cp e h
    simp only [dumpEscapedFrom] at h
    split at h
    · cases hr : dumpEscapedFrom (decode st cp b).1 (decode st cp b).2 s with
      | ok r => rw [hr] at h; cases h
      | error e' => rw [hr] at h; cases h; exact ih _ _ _ hr
    split at h
    · cases h; rfl
    · cases hr : dumpEscapedFrom (decode st cp b).1 (decode st cp b).2 s with
      | ok r => rw [hr] at h; cases h
      | error e' => rw [hr] at h; cases h; exact ih _ _ _ hr

theorem dumpString_cases (s : Str) : (Utf8 s ∧ ∃ t, dumpString s = .ok t) ∨
    (¬ Utf8 s ∧ dumpString s = .error (.throw .jsonUtf8)) := by
  unfold dumpString
  cases h : dumpEscaped s with
  | ok r =>
    left
    obtain ⟨c, t, rfl, hc, ht⟩ := dumpEscaped_utf8 s 0 0 r (by omega) (by omega) h
    cases hc
    exact ⟨ht, _, rfl⟩
  | error e =>
    right
    have := dumpEscapedFrom_err _ _ _ _ h
    subst this
    refine ⟨?_, rfl⟩
    intro hu
    obtain ⟨r, hr, _⟩ := string_roundtrip hu
    rw [hr] at h
    cases h

/-- Printed, or refused because of a string. -/
def DumpOr (P : Prop) (r : Res Str) : Prop := (P ∧ ∃ t, r = .ok t) ∨ (¬ P ∧ r = .error (.throw .jsonUtf8))

theorem elems_dump (ft : FloatText) : ∀ l : List Json, (∀ j ∈ l, DumpOr (AllUtf8 j) (dump ft j)) →
    DumpOr (∀ j ∈ l, AllUtf8 j) (dumpElems ft l) := by
  intro l
  induction l with
  | nil => intro _; exact Or.inl ⟨by simp, _, rfl⟩
  | cons j js ih =>
    intro h
    cases js with
    | nil =>
      rw [dumpElems]
      simpa using h j (by simp)
    | cons j' js =>
      have h1 := h j (by simp)
      have h2 := ih (fun x hx => h x (by simp [hx]))
      rw [dumpElems]
      rcases h1 with ⟨h1, t, ht⟩ | ⟨h1, ht⟩
      · rcases h2 with ⟨h2, r, hr⟩ | ⟨h2, hr⟩
        · exact Or.inl ⟨fun x hx => (List.mem_cons.mp hx).elim (fun e => e ▸ h1) (h2 x), _, by rw [ht, hr]; rfl⟩
        · exact Or.inr ⟨fun hx => h2 (fun y hy => hx y (List.mem_cons_of_mem _ hy)), by rw [ht, hr]; rfl⟩
      · exact Or.inr ⟨fun hx => h1 (hx j (by simp)), by rw [ht]; rfl⟩

theorem members_dump (ft : FloatText) : ∀ l : List (Str × Json), (∀ e ∈ l, DumpOr (AllUtf8 e.2) (dump ft e.2)) →
    DumpOr (∀ e ∈ l, Utf8 e.1 ∧ AllUtf8 e.2) (dumpMembers ft l) := by
  intro l
  induction l with
  | nil => intro _; exact Or.inl ⟨by simp, _, rfl⟩
  | cons e es ih =>
    intro h
    obtain ⟨k, j⟩ := e
    have h1 := h (k, j) (by simp)
    simp only at h1
    have hk := dumpString_cases k
    cases es with
    | nil =>
      rw [dumpMembers]
      rcases hk with ⟨hk, a, ha⟩ | ⟨hk, ha⟩
      · rcases h1 with ⟨h1, t, ht⟩ | ⟨h1, ht⟩
        · exact Or.inl ⟨by simp [hk, h1], _, by rw [ha, ht]; rfl⟩
        · exact Or.inr ⟨by simp [h1], by rw [ha, ht]; rfl⟩
      · exact Or.inr ⟨by simp [hk], by rw [ha]; rfl⟩
    | cons e' es =>
      have h2 := ih (fun x hx => h x (by simp [hx]))
      rw [dumpMembers]
      rcases hk with ⟨hk, a, ha⟩ | ⟨hk, ha⟩
      · rcases h1 with ⟨h1, t, ht⟩ | ⟨h1, ht⟩
        · rcases h2 with ⟨h2, r, hr⟩ | ⟨h2, hr⟩
          · exact Or.inl ⟨fun x hx => (List.mem_cons.mp hx).elim (fun e => e ▸ ⟨hk, h1⟩) (h2 x), _,
              by rw [ha, ht, hr]; rfl⟩
          · exact Or.inr ⟨fun hx => h2 (fun y hy => hx y (List.mem_cons_of_mem _ hy)), by rw [ha, ht, hr]; rfl⟩
        · exact Or.inr ⟨fun hx => h1 (hx (k, j) (by simp)).2, by rw [ha, ht]; rfl⟩
      · exact Or.inr ⟨fun hx => hk (hx (k, j) (by simp)).1, by rw [ha]; rfl⟩

theorem dump_or {ft : FloatText} {j : Json} (hh : Held ft j) : DumpOr (AllUtf8 j) (dump ft j) := by
  induction hh with
  | null => exact Or.inl ⟨.null, _, rfl⟩
  | bool b => exact Or.inl ⟨.bool b, _, rfl⟩
  | int h1 h2 =>
    obtain ⟨t, ht, _⟩ := integer_roundtrip ft h1 h2
    exact Or.inl ⟨.int _, t, by rw [dump, ht]⟩
  | real _ => exact Or.inl ⟨.real _, _, by rw [dump]⟩
  | str s =>
    rw [dump]
    rcases dumpString_cases s with ⟨h, t, ht⟩ | ⟨h, ht⟩
    · exact Or.inl ⟨.str h, t, ht⟩
    · exact Or.inr ⟨fun hx => by cases hx with | str hx => exact h hx, ht⟩
  | @arr l _ ih =>
    cases l with
    | nil => exact Or.inl ⟨.arr (by simp), _, by rw [dump]⟩
    | cons j js =>
      rw [dump]
      rcases elems_dump ft (j :: js) ih with ⟨h, t, ht⟩ | ⟨h, ht⟩
      · exact Or.inl ⟨.arr h, _, by rw [ht]; rfl⟩
      · exact Or.inr ⟨fun hx => by cases hx with | arr hx => exact h hx, by rw [ht]; rfl⟩
  | @obj m _ _ ih =>
    cases m with
    | nil => exact Or.inl ⟨.obj (by simp) (by simp), _, by rw [dump]⟩
    | cons e es =>
      rw [dump]
      rcases members_dump ft (e :: es) ih with ⟨h, t, ht⟩ | ⟨h, ht⟩
      · exact Or.inl ⟨.obj (fun x hx => (h x hx).1) (fun x hx => (h x hx).2), _, by rw [ht]; rfl⟩
      · exact Or.inr ⟨fun hx => by cases hx with | obj h1 h2 => exact h (fun x hx => ⟨h1 x hx, h2 x hx⟩), by rw [ht]; rfl⟩

/-- C89: a value is printed exactly if all its strings are UTF-8. -/
theorem C89_dump_iff {ft : FloatText} {j : Json} (hh : Held ft j) : (∃ t, dump ft j = .ok t) ↔ AllUtf8 j := by
  rcases dump_or hh with ⟨h, h2⟩ | ⟨h, h2⟩
  · exact ⟨fun _ => h, fun _ => h2⟩
  · refine ⟨?_, fun h' => absurd h' h⟩
    rintro ⟨t, ht⟩
    rw [h2] at ht
    cases ht

/-- C89: otherwise `dump` throws. -/
theorem C89_dump_throws {ft : FloatText} {j : Json} (hh : Held ft j) (h : ¬ AllUtf8 j) :
    dump ft j = .error (.throw .jsonUtf8) := by
  rcases dump_or hh with ⟨h', _⟩ | ⟨_, h2⟩
  · exact absurd h' h
  · exact h2

/-- C89: different values have different texts. -/
theorem C89_injective {ft : FloatText} {i j : Json} (hi : Held ft i) (hj : Held ft j) (t : Str) (h1 : dump ft i = .ok t)
    (h2 : dump ft j = .ok t) : i = j := by
  obtain ⟨a, ha, hpa⟩ := C89_roundtrip ft hi ((C89_dump_iff hi).mp ⟨t, h1⟩)
  obtain ⟨b, hb, hpb⟩ := C89_roundtrip ft hj ((C89_dump_iff hj).mp ⟨t, h2⟩)
  rw [h1] at ha
  rw [h2] at hb
  cases ha
  cases hb
  rw [hpa] at hpb
  cases hpb
  rfl

/-! ## Longer texts -/

/-- The same round with more text behind. -/
def Step.app (q : Str) : Step → Step
  | .close rest => .close (rest ++ q)
  | .fail => .fail
  | .add bs rest => .add bs (rest ++ q)

/-- `b` is what `a` becomes when `q` follows, unless `a` failed. -/
def StepExt (q : Str) (a b : Step) : Prop := a = .fail ∨ b = Step.app q a

theorem ite_rel {α : Type} {R : α → α → Prop} {c : Prop} [Decidable c] {a b a' b' : α} (ha : R a a') (hb : R b b') :
    R (if c then a else b) (if c then a' else b') := by
  split
  · exact ha
  · exact hb

theorem nextInRange_ext (q : Str) : ∀ (rs : List (Nat × Nat)) (acc s : Str),
    StepExt q (nextInRange acc rs s) (nextInRange acc rs (s ++ q)) := by
  intro rs
  induction rs with
  | nil => intro acc s; rw [nextInRange, nextInRange]; exact Or.inr rfl
  | cons r rs ih =>
    intro acc s
    cases s with
    | nil => exact Or.inl rfl
    | cons b s =>
      obtain ⟨lo, hi⟩ := r
      rw [List.cons_append, nextInRange, nextInRange]
      exact ite_rel (ih _ s) (Or.inl rfl)

theorem getCodepoint_ext (q : Str) {s rest : Str} {c : Nat} (h : getCodepoint s = some (c, rest)) :
    getCodepoint (s ++ q) = some (c, rest ++ q) := by
  unfold getCodepoint at h
  split at h
  · rename_i a b c d s
    split at h
    · rename_i h1 h2 h3 h4
      simp only [Option.some.injEq, Prod.mk.injEq] at h
      simp only [List.cons_append, getCodepoint, h1, h2, h3, h4, ← h.1, ← h.2]
    · cases h
  · cases h

theorem scanUnicode_ext (q s : Str) : StepExt q (scanUnicode s) (scanUnicode (s ++ q)) := by
  cases hg : getCodepoint s with
  | none => left; unfold scanUnicode; rw [hg]
  | some p =>
    obtain ⟨cp1, s1⟩ := p
    have hg' := getCodepoint_ext q hg
    unfold scanUnicode
    simp only [hg, hg']
    refine ite_rel ?_ (ite_rel (Or.inl rfl) (Or.inr rfl))
    match s1 with
    | [] => exact Or.inl rfl
    | [_] => exact Or.inl rfl
    | c :: d :: s2 =>
      simp only [List.cons_append]
      refine ite_rel ?_ (Or.inl rfl)
      cases hg2 : getCodepoint s2 with
      | none => exact Or.inl rfl
      | some p =>
        obtain ⟨cp2, s3⟩ := p
        have hg2' := getCodepoint_ext q hg2
        simp only [hg2']
        exact ite_rel (Or.inr rfl) (Or.inl rfl)

theorem scanEscape_ext (q s : Str) : StepExt q (scanEscape s) (scanEscape (s ++ q)) := by
  cases s with
  | nil => exact Or.inl rfl
  | cons c s =>
    have hr : ∀ bs, StepExt q (.add bs s) (.add bs (s ++ q)) := fun _ => Or.inr rfl
    rw [List.cons_append, scanEscape, scanEscape]
    exact ite_rel (hr _) (ite_rel (hr _) (ite_rel (hr _) (ite_rel (hr _) (ite_rel (hr _) (ite_rel (hr _) (ite_rel (hr _)
      (ite_rel (hr _) (ite_rel (scanUnicode_ext q s) (Or.inl rfl)))))))))

theorem scanStep_ext (q s : Str) : StepExt q (scanStep s) (scanStep (s ++ q)) := by
  cases s with
  | nil => exact Or.inl rfl
  | cons c s =>
    have hn := fun rs => nextInRange_ext q rs [c] s
    rw [List.cons_append, scanStep, scanStep]
    exact ite_rel (Or.inr rfl) (ite_rel (scanEscape_ext q s) (ite_rel (Or.inl rfl) (ite_rel (Or.inr rfl) (ite_rel (hn _)
      (ite_rel (hn _) (ite_rel (hn _) (ite_rel (hn _) (ite_rel (hn _) (ite_rel (hn _) (ite_rel (hn _) (Or.inl rfl)))))))))))

theorem scanStringLoop_ext (q : Str) : ∀ (n : Nat) (acc s v rest : Str), scanStringLoop n acc s = some (v, rest) →
    scanStringLoop n acc (s ++ q) = some (v, rest ++ q) := by
  intro n
  induction n with
  | zero => intro acc s v rest h; cases h
  | succ n ih =>
    intro acc s v rest h
    rw [scanStringLoop] at h ⊢
    have hx := scanStep_ext q s
    revert h hx
    cases scanStep s with
    | close r =>
      intro h hx
      rw [hx.resolve_left (by simp)]
      simp only [Option.some.injEq, Prod.mk.injEq] at h
      simp only [Step.app, h.1, h.2]
    | fail => intro h _; cases h
    | add x r =>
      intro h hx
      rw [hx.resolve_left (by simp)]
      exact ih _ _ _ _ h

theorem scanString_ext (q : Str) {s v rest : Str} (h : scanString s = some (v, rest)) :
    scanString (s ++ q) = some (v, rest ++ q) := by
  unfold scanString at h ⊢
  rw [List.length_append]
  have h1 := scanStringLoop_ext q _ _ _ _ _ h
  -- a bound above the length of the shorter text suffices
  have key : ∀ (n m : Nat) (acc s v rest : Str), n ≤ m → scanStringLoop n acc s = some (v, rest) →
      scanStringLoop m acc s = some (v, rest) := by
    intro n
    induction n with
    | zero => intro m acc s v rest _ h; cases h
    | succ n ih =>
      intro m acc s v rest hm h
      obtain ⟨m, rfl⟩ : ∃ k, m = k + 1 := ⟨m - 1, by omega⟩
      rw [scanStringLoop] at h ⊢
      revert h
      cases scanStep s with
      | close r => exact fun h => h
      | fail => exact fun h => h
      | add x r => exact fun h => ih m _ _ _ _ (by omega) h
  exact key _ _ _ _ _ _ (by omega) h1

theorem scanNumberLoop_ext (q : Str) : ∀ (s : Str) (st : NumState) (ty ty' : NumType) (buf buf' rest : Str),
    scanNumberLoop st ty buf s = some (ty', buf', rest) → rest = [] ∨
    scanNumberLoop st ty buf (s ++ q) = some (ty', buf', rest ++ q) := by
  intro s
  induction s with
  | nil =>
    intro st ty ty' buf buf' rest h
    simp only [scanNumberLoop] at h
    split at h
    · simp only [Option.some.injEq, Prod.mk.injEq] at h
      exact Or.inl h.2.2.symm
    · cases h
  | cons c s ih =>
    intro st ty ty' buf buf' rest h
    simp only [List.cons_append, scanNumberLoop] at h ⊢
    cases hs : numStep st c with
    | next st' => rw [hs] at h; exact ih _ _ _ _ _ _ h
    | done =>
      rw [hs] at h
      simp only [Option.some.injEq, Prod.mk.injEq] at h
      right
      rw [← h.1, ← h.2.1, ← h.2.2]
      rfl
    | error => rw [hs] at h; cases h

/-- A number token. -/
def IsNum : Tok → Prop
  | .int _ | .real _ | .inf => True
  | _ => False

/-- `b` is what the token `a` becomes when `q` follows, unless the text ended. -/
def TokExt (q : Str) (a b : Tok × Str) : Prop :=
  a.1 = .eof ∨ a.1 = .error ∨ (a.2 = [] ∧ IsNum a.1) ∨ b = (a.1, a.2 ++ q)

theorem numberTok_num (ft : FloatText) (ty : NumType) (buf : Str) : IsNum (numberTok ft ty buf) := by
  have hr : IsNum (realTok ft buf) := by
    unfold realTok
    split <;> trivial
  cases ty
  · rw [numberTok]; exact ite_ind trivial hr
  · rw [numberTok]; exact ite_ind trivial hr
  · exact hr

theorem scanLiteral_ext (q : Str) (t : Tok) : ∀ x s : Str, TokExt q (scanLiteral t x s) (scanLiteral t x (s ++ q)) := by
  intro x
  induction x with
  | nil => intro s; rw [scanLiteral, scanLiteral]; exact Or.inr (Or.inr (Or.inr rfl))
  | cons x xs ih =>
    intro s
    cases s with
    | nil => exact Or.inr (Or.inl rfl)
    | cons c s =>
      rw [List.cons_append, scanLiteral, scanLiteral]
      exact ite_rel (ih s) (Or.inr (Or.inl rfl))

theorem scanTok_ext (ft : FloatText) (q : Str) (c : Byte) (s : Str) :
    TokExt q (scanTok ft (c :: s)) (scanTok ft (c :: (s ++ q))) := by
  have hs : ∀ t, TokExt q (t, s) (t, s ++ q) := fun _ => Or.inr (Or.inr (Or.inr rfl))
  have he : ∀ r, TokExt q (.error, []) r := fun _ => Or.inr (Or.inl rfl)
  have hq : TokExt q (match scanString s with
      | some (v, rest) => (.str v, rest)
      | none => (.error, [])) (match scanString (s ++ q) with
      | some (v, rest) => (.str v, rest)
      | none => (.error, [])) := by
    cases h : scanString s with
    | none => exact he _
    | some p =>
      obtain ⟨v, rest⟩ := p
      rw [scanString_ext q h]
      exact Or.inr (Or.inr (Or.inr rfl))
  have hn : TokExt q (scanNumber ft c s) (scanNumber ft c (s ++ q)) := by
    unfold scanNumber
    simp only
    cases h : scanNumberLoop (if c = c!"-" then NumState.minus else if c = c!"0" then .zero else .any1) .unsigned [c] s with
    | none => exact he _
    | some p =>
      obtain ⟨ty, buf, rest⟩ := p
      rcases scanNumberLoop_ext q _ _ _ _ _ _ _ h with h' | h'
      · exact Or.inr (Or.inr (Or.inl ⟨h', numberTok_num ft ty buf⟩))
      · rw [h']
        exact Or.inr (Or.inr (Or.inr rfl))
  rw [scanTok, scanTok]
  exact ite_rel (hs _) (ite_rel (hs _) (ite_rel (hs _) (ite_rel (hs _) (ite_rel (hs _) (ite_rel (hs _)
    (ite_rel (scanLiteral_ext q _ _ _) (ite_rel (scanLiteral_ext q _ _ _) (ite_rel (scanLiteral_ext q _ _ _)
    (ite_rel hq (ite_rel hn (ite_rel (hs _) (he _))))))))))))

theorem skipWs_ext (q : Str) : ∀ s : Str, skipWs s = [] ∨ skipWs (s ++ q) = skipWs s ++ q := by
  intro s
  induction s with
  | nil => exact Or.inl rfl
  | cons c s ih =>
    rw [List.cons_append, skipWs, skipWs]
    split
    · exact ih
    · exact Or.inr rfl

theorem scan_ext (ft : FloatText) (q s : Str) : TokExt q (scan ft s) (scan ft (s ++ q)) := by
  unfold scan
  rcases skipWs_ext q s with h | h
  · rw [h]; exact Or.inl rfl
  · rw [h]
    cases skipWs s with
    | nil => exact Or.inl rfl
    | cons c r => exact scanTok_ext ft q c r

/-- Tokens other than numbers, errors and the end. -/
theorem scan_ext_tok {ft : FloatText} {s r : Str} {t : Tok} (q : Str) (h : scan ft s = (t, r)) (h1 : t ≠ .eof)
    (h2 : t ≠ .error) (h3 : ¬ IsNum t) : scan ft (s ++ q) = (t, r ++ q) := by
  have hx := scan_ext ft q s
  rw [h] at hx
  rcases hx with hx | hx | hx | hx
  · exact absurd hx h1
  · exact absurd hx h2
  · exact absurd hx.2 h3
  · exact hx

/-- A text that ends after a number, or before a value: the elements of an array are not complete. -/
theorem elems_dead (ft : FloatText) {n : Nat} {l : List Json} {t : Tok} {s : Str}
    (h : t = .eof ∨ t = .error ∨ (s = [] ∧ IsNum t)) (v : Json) (rest : Str) :
    parseElems ft n l t s ≠ some (.ok (v, rest)) := by
  intro hp
  cases n with
  | zero => cases hp
  | succ n =>
    rw [parseElems] at hp
    cases n with
    | zero => cases hp
    | succ n =>
      rcases h with rfl | rfl | ⟨rfl, h⟩
      · cases hp
      · cases hp
      · cases t <;> first | exact h | cases hp

theorem parse_ext (ft : FloatText) (q : Str) : ∀ n : Nat,
    (∀ t s v rest, parseValue ft n t s = some (.ok (v, rest)) → parseValue ft n t (s ++ q) = some (.ok (v, rest ++ q))) ∧
    (∀ m t s v rest, parseMembers ft n m t s = some (.ok (v, rest)) →
      parseMembers ft n m t (s ++ q) = some (.ok (v, rest ++ q))) ∧
    (∀ l t s v rest, parseElems ft n l t s = some (.ok (v, rest)) →
      parseElems ft n l t (s ++ q) = some (.ok (v, rest ++ q))) := by
  intro n
  induction n with
  | zero => refine ⟨?_, ?_, ?_⟩ <;> intros <;> rename_i h <;> cases h
  | succ n ih =>
    obtain ⟨ihv, ihm, ihe⟩ := ih
    refine ⟨?_, ?_, ?_⟩
    · intro t s v rest h
      cases t <;> simp only [parseValue] at h
      case lbrack =>
        have hx := scan_ext ft q s
        by_cases hc : (scan ft s).1 = .rbrack
        · have hs : scan ft s = (.rbrack, (scan ft s).2) := by rw [← hc]
          rw [hs] at h
          rw [parseValue, scan_ext_tok q hs (by simp) (by simp) (by simp [IsNum])]
          simp only [Option.some.injEq, Except.ok.injEq, Prod.mk.injEq] at h ⊢
          exact ⟨h.1, by rw [h.2]⟩
        · have h1 : parseElems ft n [] (scan ft s).1 (scan ft s).2 = some (.ok (v, rest)) := by
            rw [← parse_lbrack n hc]
            rw [parseValue]
            exact h
          rcases hx with hx | hx | hx | hx
          · exact absurd h1 (elems_dead ft (Or.inl hx) v rest)
          · exact absurd h1 (elems_dead ft (Or.inr (Or.inl hx)) v rest)
          · exact absurd h1 (elems_dead ft (Or.inr (Or.inr hx)) v rest)
          · rw [parse_lbrack n (by rw [hx]; exact hc), hx]
            exact ihe _ _ _ _ _ h1
      case lbrace =>
        have hx := scan_ext ft q s
        by_cases hc : (scan ft s).1 = .rbrace
        · have hs : scan ft s = (.rbrace, (scan ft s).2) := by rw [← hc]
          rw [hs] at h
          rw [parseValue, scan_ext_tok q hs (by simp) (by simp) (by simp [IsNum])]
          simp only [Option.some.injEq, Except.ok.injEq, Prod.mk.injEq] at h ⊢
          exact ⟨h.1, by rw [h.2]⟩
        · have h1 : parseMembers ft n [] (scan ft s).1 (scan ft s).2 = some (.ok (v, rest)) := by
            rw [← parse_lbrace n hc]
            rw [parseValue]
            exact h
          have hk : ∃ k, (scan ft s).1 = .str k := by
            cases n with
            | zero => cases h1
            | succ n =>
              cases ht : (scan ft s).1 with
              | str k => exact ⟨k, rfl⟩
              | _ => rw [ht] at h1; cases h1
          obtain ⟨k, hk⟩ := hk
          have hs : scan ft s = (.str k, (scan ft s).2) := by rw [← hk]
          have hs' := scan_ext_tok q hs (by simp) (by simp) (by simp [IsNum])
          rw [parse_lbrace n (by rw [hs']; simp), hs']
          rw [hk] at h1
          exact ihm _ _ _ _ _ h1
      all_goals first | cases h; done | skip
      all_goals
        simp only [Option.some.injEq, Except.ok.injEq, Prod.mk.injEq] at h
        rw [parseValue, h.1, h.2]
    · intro m t s v rest h
      cases t <;> simp only [parseMembers] at h
      case str k =>
        cases hc : scan ft s with
        | mk t1 s1 =>
          rw [hc] at h
          cases t1 <;> simp only at h
          case colon =>
            have hc' := scan_ext_tok q hc (by simp) (by simp) (by simp [IsNum])
            rw [parseMembers]
            simp only [hc']
            cases hv : parseValue ft n (scan ft s1).1 (scan ft s1).2 with
            | none => rw [hv] at h; cases h
            | some x =>
              rw [hv] at h
              cases x with
              | error e => cases h
              | ok p =>
                obtain ⟨w, s3⟩ := p
                simp only at h
                have hv' : parseValue ft n (scan ft (s1 ++ q)).1 (scan ft (s1 ++ q)).2 = some (.ok (w, s3 ++ q)) := by
                  rcases scan_ext ft q s1 with hx | hx | hx | hx
                  · rw [hx] at hv; cases n <;> cases hv
                  · rw [hx] at hv; cases n <;> cases hv
                  · exfalso
                    have hs3 : s3 = [] := by
                      obtain ⟨hx1, hx2⟩ := hx
                      rw [hx1] at hv
                      cases n with
                      | zero => cases hv
                      | succ n => cases ht : (scan ft s1).1 <;> rw [ht] at hv hx2 <;> first | exact False.elim hx2 | (cases hv; done) | (cases hv; rfl)
                    subst hs3
                    cases h
                  · rw [hx]; exact ihv _ _ _ _ hv
                rw [hv']
                simp only
                cases hc4 : scan ft s3 with
                | mk t4 s4 =>
                  rw [hc4] at h
                  cases t4 <;> simp only at h
                  case comma =>
                    rw [scan_ext_tok q hc4 (by simp) (by simp) (by simp [IsNum])]
                    simp only
                    rcases scan_ext ft q s4 with hx | hx | hx | hx
                    · rw [hx] at h; cases n <;> cases h
                    · rw [hx] at h; cases n <;> cases h
                    · obtain ⟨_, hx2⟩ := hx
                      cases n with
                      | zero => cases h
                      | succ n => cases ht : (scan ft s4).1 <;> rw [ht] at h hx2 <;> first | exact False.elim hx2 | (cases h; done)
                    · rw [hx]; exact ihm _ _ _ _ _ h
                  case rbrace =>
                    rw [scan_ext_tok q hc4 (by simp) (by simp) (by simp [IsNum])]
                    simp only [Option.some.injEq, Except.ok.injEq, Prod.mk.injEq] at h ⊢
                    exact ⟨h.1, by rw [h.2]⟩
                  all_goals cases h
          all_goals cases h
      all_goals cases h
    · intro l t s v rest h
      rw [parseElems] at h ⊢
      cases hv : parseValue ft n t s with
      | none => rw [hv] at h; cases h
      | some x =>
        rw [hv] at h
        cases x with
        | error e => cases h
        | ok p =>
          obtain ⟨w, s3⟩ := p
          simp only at h
          rw [ihv _ _ _ _ hv]
          simp only
          cases hc4 : scan ft s3 with
          | mk t4 s4 =>
            rw [hc4] at h
            cases t4 <;> simp only at h
            case comma =>
              rw [scan_ext_tok q hc4 (by simp) (by simp) (by simp [IsNum])]
              simp only
              rcases scan_ext ft q s4 with hx | hx | hx | hx
              · exact absurd h (elems_dead ft (Or.inl hx) v rest)
              · exact absurd h (elems_dead ft (Or.inr (Or.inl hx)) v rest)
              · exact absurd h (elems_dead ft (Or.inr (Or.inr hx)) v rest)
              · rw [hx]; exact ihe _ _ _ _ _ h
            case rbrack =>
              rw [scan_ext_tok q hc4 (by simp) (by simp) (by simp [IsNum])]
              simp only [Option.some.injEq, Except.ok.injEq, Prod.mk.injEq] at h ⊢
              exact ⟨h.1, by rw [h.2]⟩
            all_goals cases h

/-- A number. -/
def IsNumber : Json → Prop
  | .int _ | .real _ => True
  | _ => False

theorem skipBom_ext {p : Str} (q : Str) {ft : FloatText} {v : Json} (h : parse ft p = .ok v) :
    skipBom (p ++ q) = skipBom p ++ q := by
  match p with
  | [] => cases h
  | [a] =>
    by_cases ha : a = 0xEF
    · subst ha; cases h
    · match q with
      | [] => rfl
      | [_] => rfl
      | b :: c :: q =>
        show (if a = 0xEF ∧ b = 0xBB ∧ c = 0xBF then q else a :: b :: c :: q) = _
        rw [if_neg (fun h => ha h.1)]
        rfl
  | [a, b] =>
    by_cases ha : a = 0xEF
    · subst ha; cases h
    · match q with
      | [] => rfl
      | c :: q =>
        show (if a = 0xEF ∧ b = 0xBB ∧ c = 0xBF then q else a :: b :: c :: q) = _
        rw [if_neg (fun h => ha h.1)]
        rfl
  | a :: b :: c :: p =>
    show (if a = 0xEF ∧ b = 0xBB ∧ c = 0xBF then p ++ q else a :: b :: c :: (p ++ q)) =
      (if a = 0xEF ∧ b = 0xBB ∧ c = 0xBF then p else a :: b :: c :: p) ++ q
    split <;> rfl

theorem parse_inv {ft : FloatText} {p : Str} {v : Json} (h : parse ft p = .ok v) : ∃ s2,
    parseValue ft (2 * (skipBom p).length + 3) (scan ft (skipBom p)).1 (scan ft (skipBom p)).2 = some (.ok (v, s2)) ∧
    (scan ft s2).1 = .eof := by
  unfold parse at h
  simp only at h
  split at h
  · cases h
  · cases h
  · rename_i w s2 hv
    split at h
    · rename_i hs
      cases h
      exact ⟨s2, hv, by rw [hs]⟩
    · cases h

/-- A text accepted as a value other than a number: with more text behind it, the same value is read first. -/
theorem value_ext {ft : FloatText} {p : Str} (q : Str) {v : Json} (h : parse ft p = .ok v) (hn : ¬ IsNumber v) :
    ∃ s2, (scan ft s2).1 = .eof ∧ (∀ j, parse ft (p ++ q) = .ok j → j = v) ∧
      ∀ n w rest, parseValue ft n (scan ft (skipBom p ++ q)).1 (scan ft (skipBom p ++ q)).2 = some (.ok (w, rest)) →
        w = v ∧ rest = s2 ++ q := by
  obtain ⟨s2, hv, he⟩ := parse_inv h
  have hx : scan ft (skipBom p ++ q) = ((scan ft (skipBom p)).1, (scan ft (skipBom p)).2 ++ q) := by
    rcases scan_ext ft q (skipBom p) with hx | hx | hx | hx
    · rw [hx, parseValue] at hv
      · cases hv
      all_goals simp
    · rw [hx, parseValue] at hv
      · cases hv
      all_goals simp
    · exfalso
      obtain ⟨_, hx2⟩ := hx
      cases ht : (scan ft (skipBom p)).1 <;> rw [ht] at hv hx2 <;> first | exact hx2 | skip
      · cases hv; exact hn trivial
      · cases hv; exact hn trivial
      · cases hv
    · exact hx
  have hv' := (parse_ext ft q _).1 _ _ _ _ hv
  have key : ∀ n w rest, parseValue ft n (scan ft (skipBom p ++ q)).1 (scan ft (skipBom p ++ q)).2 =
      some (.ok (w, rest)) → w = v ∧ rest = s2 ++ q := by
    intro n w rest hw
    rw [hx] at hw
    have h1 := parse_more_le ft (Nat.le_max_left n (2 * (skipBom p).length + 3)) hw
    have h2 := parse_more_le ft (Nat.le_max_right n (2 * (skipBom p).length + 3)) hv'
    rw [h1] at h2
    cases h2
    exact ⟨rfl, rfl⟩
  refine ⟨s2, he, ?_, key⟩
  intro j hj
  obtain ⟨s3, hv3, _⟩ := parse_inv hj
  rw [skipBom_ext q h] at hv3
  exact (key _ _ _ hv3).1

/-- C92: if a text is accepted and the text with more behind it is accepted too, then both mean the same, unless the
shorter one is a bare number. No two different models have texts of which one begins with the other. -/
theorem C92_prefix_same {ft : FloatText} {p q : Str} {v j : Json} (h : parse ft p = .ok v) (hn : ¬ IsNumber v)
    (h2 : parse ft (p ++ q) = .ok j) : j = v := by
  obtain ⟨_, _, h3, _⟩ := value_ext q h hn
  exact h3 j h2

theorem elems_arr (ft : FloatText) : ∀ (n : Nat) (l : List Json) (t : Tok) (s : Str) (v : Json) (rest : Str),
    parseElems ft n l t s = some (.ok (v, rest)) → ∃ l', v = .arr l' := by
  intro n
  induction n with
  | zero => intro l t s v rest h; cases h
  | succ n ih =>
    intro l t s v rest h
    rw [parseElems] at h
    split at h
    · cases h
    · cases h
    · split at h
      · exact ih _ _ _ _ _ h
      · cases h; exact ⟨_, rfl⟩
      · cases h

theorem members_obj (ft : FloatText) : ∀ (n : Nat) (m : List (Str × Json)) (t : Tok) (s : Str) (v : Json) (rest : Str),
    parseMembers ft n m t s = some (.ok (v, rest)) → ∃ m', v = .obj m' := by
  intro n
  induction n with
  | zero => intro l t s v rest h; cases h
  | succ n ih =>
    intro m t s v rest h
    cases t <;> simp only [parseMembers] at h
    case str k =>
      split at h
      · split at h
        · cases h
        · cases h
        · split at h
          · exact ih _ _ _ _ _ h
          · cases h; exact ⟨_, rfl⟩
          · cases h
      · cases h
    all_goals cases h

theorem literal_tok (ft : FloatText) {t : Tok} (h : ¬ IsNum t) : ∀ x s : Str, ¬ IsNum (scanLiteral t x s).1 := by
  intro x
  induction x with
  | nil => intro s; exact h
  | cons x xs ih =>
    intro s
    cases s with
    | nil => exact fun h => h
    | cons c s =>
      rw [scanLiteral]
      exact ite_ind (P := fun r : Tok × Str => ¬ IsNum r.1) (ih s) (fun h => h)

/-- The text of a value that is not a number does not begin like a number. -/
theorem dump_first {ft : FloatText} {j : Json} (hn : ¬ IsNumber j) {t : Str} (h : dump ft j = .ok t) :
    ∃ c s, t = c :: s ∧ ∀ s', ¬ IsNum (scan ft (c :: s')).1 := by
  cases j with
  | null => rw [dump] at h; cases h; exact ⟨_, _, rfl, fun s' => literal_tok ft (t := .nul) (fun h => h) b!"ull" s'⟩
  | bool b =>
    rw [dump] at h
    cases b <;> cases h
    · exact ⟨_, _, rfl, fun s' => literal_tok ft (t := .fls) (fun h => h) b!"alse" s'⟩
    · exact ⟨_, _, rfl, fun s' => literal_tok ft (t := .tru) (fun h => h) b!"rue" s'⟩
  | int i => exact absurd trivial hn
  | real q => exact absurd trivial hn
  | str s =>
    rw [dump, dumpString] at h
    cases he : dumpEscaped s with
    | error e => rw [he] at h; cases h
    | ok r =>
      rw [he] at h
      cases h
      refine ⟨_, _, rfl, fun s' => ?_⟩
      show ¬ IsNum (match scanString s' with
        | some (v, rest) => (Tok.str v, rest)
        | none => (.error, [])).1
      cases scanString s' <;> exact fun h => h
  | arr l =>
    cases l with
    | nil => rw [dump] at h; cases h; exact ⟨_, _, rfl, fun s' h => h⟩
    | cons j js =>
      rw [dump] at h
      cases he : dumpElems ft (j :: js) with
      | error e => rw [he] at h; cases h
      | ok r => rw [he] at h; cases h; exact ⟨_, _, rfl, fun s' h => h⟩
  | obj l =>
    cases l with
    | nil => rw [dump] at h; cases h; exact ⟨_, _, rfl, fun s' h => h⟩
    | cons j js =>
      rw [dump] at h
      cases he : dumpMembers ft (j :: js) with
      | error e => rw [he] at h; cases h
      | ok r => rw [he] at h; cases h; exact ⟨_, _, rfl, fun s' h => h⟩

/-- C92: a text of which the last bytes are missing is not accepted: every proper prefix of the text of a value that is not
a number (all saved models are objects) makes `parse` throw. -/
theorem C92_truncated {ft : FloatText} (hf : ∀ t q, ft.read t = some q → FloatOk ft q) {j : Json} (hh : Held ft j)
    (hn : ¬ IsNumber j) {p q : Str} (hd : dump ft j = .ok (p ++ q)) (hq : q ≠ []) :
    parse ft p = .error (.throw .jsonParse) ∨ parse ft p = .error (.throw .jsonRange) := by
  rcases C90_parse_outcome ft hf p with ⟨v, hv⟩ | h
  · exfalso
    obtain ⟨t, ht, hb⟩ := value_back hh ((C89_dump_iff hh).mp ⟨_, hd⟩)
    rw [hd] at ht
    cases ht
    have hbom := bom_back hb
    rw [skipBom_ext q hv] at hbom
    by_cases hvn : IsNumber v
    · obtain ⟨c, s, hcs, hc⟩ := dump_first hn hd
      obtain ⟨s2, hpv, _⟩ := parse_inv hv
      have hbp : skipBom p = p := List.append_cancel_right hbom
      rw [hbp] at hpv
      cases p with
      | nil => cases hv
      | cons a p =>
        simp only [List.cons_append, List.cons.injEq] at hcs
        obtain ⟨rfl, _⟩ := hcs
        have hc := hc p
        cases ht : (scan ft (a :: p)).1 <;> rw [ht] at hpv hc
        case int i => exact hc trivial
        case real i => exact hc trivial
        case lbrack =>
          rw [parseValue] at hpv
          split at hpv
          · cases hpv; exact hvn
          · obtain ⟨l, rfl⟩ := elems_arr _ _ _ _ _ _ _ hpv
            exact hvn
        case lbrace =>
          rw [parseValue] at hpv
          split at hpv
          · cases hpv; exact hvn
          · obtain ⟨l, rfl⟩ := members_obj _ _ _ _ _ _ _ hpv
            exact hvn
        all_goals cases hpv; try exact hvn
    · obtain ⟨s2, _, _, key⟩ := value_ext q hv hvn
      have hb1 := (hb.2 [] (Or.inl rfl)).1 _ (Nat.le_refl _)
      rw [List.append_nil] at hb1
      rw [← hbom] at hb1
      have := (key _ _ _ hb1).2
      have h0 : q = [] := (List.append_eq_nil_iff.mp this.symm).2
      exact hq h0
  · exact h

end Wis
