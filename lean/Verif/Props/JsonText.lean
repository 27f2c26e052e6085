import Verif.Lemmas.JsonNumber
/-!
# C89–C91: JSON text
-/

namespace Wis
open Spec JsonText

theorem scan_quote (ft : FloatText) {s : Str} (h : Utf8 s) : ∃ t, dumpString s = .ok t ∧ t ≠ [] ∧
    ∀ rest, scan ft (t ++ rest) = (.str s, rest) := by
  obtain ⟨e, he, hs⟩ := string_roundtrip h
  refine ⟨b!"\"" ++ e ++ b!"\"", by simp only [dumpString, he, Except.bind_ok], by simp, ?_⟩
  intro rest
  have h1 : scanString (e ++ c!"\"" :: rest) = some (s, rest) := by
    unfold scanString
    rw [hs _ [] rest (by simp; omega)]
    rfl
  have h2 : b!"\"" ++ e ++ b!"\"" ++ rest = c!"\"" :: (e ++ c!"\"" :: rest) := by simp
  rw [h2]
  unfold scan
  rw [skipWs_id (by decide)]
  show (match scanString (e ++ c!"\"" :: rest) with
      | some (v, rest) => (Tok.str v, rest)
      | none => (.error, [])) = _
  rw [h1]

/-- The text of a value is parsed back, whatever follows. -/
def ReadsBack (ft : FloatText) (j : Json) (t : Str) : Prop := t ≠ [] ∧ ∀ rest, Sep rest →
  (∀ n, t.length ≤ n → parseValue ft n (scan ft (t ++ rest)).1 (scan ft (t ++ rest)).2 = some (.ok (j, rest))) ∧
  (scan ft (t ++ rest)).1 ≠ .rbrack

theorem readsBack_scalar {ft : FloatText} {j : Json} {t : Str} {k : Tok} (ht : t ≠ [])
    (hs : ∀ rest, Sep rest → scan ft (t ++ rest) = (k, rest)) (hk : k ≠ .rbrack)
    (hp : ∀ n s, parseValue ft (n + 1) k s = some (.ok (j, s))) : ReadsBack ft j t := by
  refine ⟨ht, ?_⟩
  intro rest hr
  rw [hs rest hr]
  refine ⟨?_, hk⟩
  intro n hn
  cases n with
  | zero => exact absurd (List.length_eq_zero_iff.mp (by omega)) ht
  | succ n => exact hp n rest

theorem sep_comma (s : Str) : Sep (c!"," :: s) := Or.inr ⟨_, _, rfl, Or.inl rfl⟩
theorem sep_brack (s : Str) : Sep (c!"]" :: s) := Or.inr ⟨_, _, rfl, Or.inr (Or.inl rfl)⟩
theorem sep_brace (s : Str) : Sep (c!"}" :: s) := Or.inr ⟨_, _, rfl, Or.inr (Or.inr (Or.inl rfl))⟩

theorem scan_comma (ft : FloatText) (s : Str) : scan ft (c!"," :: s) = (.comma, s) := rfl
theorem scan_colon (ft : FloatText) (s : Str) : scan ft (c!":" :: s) = (.colon, s) := rfl
theorem scan_rbrack (ft : FloatText) (s : Str) : scan ft (c!"]" :: s) = (.rbrack, s) := rfl
theorem scan_rbrace (ft : FloatText) (s : Str) : scan ft (c!"}" :: s) = (.rbrace, s) := rfl
theorem scan_lbrack (ft : FloatText) (s : Str) : scan ft (c!"[" :: s) = (.lbrack, s) := rfl
theorem scan_lbrace (ft : FloatText) (s : Str) : scan ft (c!"{" :: s) = (.lbrace, s) := rfl

/-- The elements of an array. -/
theorem elems_back (ft : FloatText) : ∀ (l : List Json), l ≠ [] → (∀ j ∈ l, ∃ t, dump ft j = .ok t ∧ ReadsBack ft j t) →
    ∃ t, dumpElems ft l = .ok t ∧ ∀ rest,
      (∀ n acc, t.length < n → parseElems ft n acc (scan ft (t ++ c!"]" :: rest)).1 (scan ft (t ++ c!"]" :: rest)).2 =
        some (.ok (.arr (acc ++ l), rest))) ∧ (scan ft (t ++ c!"]" :: rest)).1 ≠ .rbrack := by
  intro l
  induction l with
  | nil => intro h; exact absurd rfl h
  | cons j js ih =>
    intro _ h
    obtain ⟨t, ht, hne, hrb⟩ := h j (by simp)
    cases js with
    | nil =>
      refine ⟨t, by simp [dumpElems, ht], ?_⟩
      intro rest
      obtain ⟨h1, h2⟩ := hrb (c!"]" :: rest) (sep_brack rest)
      refine ⟨?_, h2⟩
      intro n acc hn
      cases n with
      | zero => omega
      | succ n =>
        rw [parseElems, h1 n (by omega)]
        simp only [scan_rbrack]
    | cons j' js =>
      obtain ⟨r, hr, hback⟩ := ih (by simp) (fun x hx => h x (by simp [hx]))
      refine ⟨t ++ b!"," ++ r, by simp only [dumpElems, ht, hr, Except.bind_ok], ?_⟩
      intro rest
      have e : t ++ b!"," ++ r ++ c!"]" :: rest = t ++ c!"," :: (r ++ c!"]" :: rest) := by simp
      rw [e]
      obtain ⟨h1, h2⟩ := hrb (c!"," :: (r ++ c!"]" :: rest)) (sep_comma _)
      refine ⟨?_, h2⟩
      intro n acc hn
      cases n with
      | zero => omega
      | succ n =>
        simp only [List.length_append, List.length_cons, List.length_nil] at hn
        rw [parseElems, h1 n (by omega)]
        simp only [scan_comma]
        rw [(hback rest).1 n _ (by omega)]
        simp

theorem emplace_last {m : List (Str × Json)} {k : Str} (h : ∀ e ∈ m, Str.lt e.1 k = true) (v : Json) :
    emplace m k v = m ++ [(k, v)] := by
  have hn : SMap.find m k = none := by
    rw [SMap.find_none_iff]
    intro hk
    obtain ⟨e, he, rfl⟩ := List.mem_map.mp hk
    have := h e he
    rw [Str.lt_irrefl] at this
    cases this
  unfold emplace
  rw [hn]
  simp only
  induction m with
  | nil => rfl
  | cons e m ih =>
    obtain ⟨k', v'⟩ := e
    have h1 := h (k', v') (by simp)
    simp only at h1
    simp only [SMap.find] at hn
    split at hn
    · cases hn
    · rename_i hk
      rw [SMap.set, if_neg hk, if_neg (by rw [Str.lt_asymm h1]; simp), ih (fun e he => h e (by simp [he])) hn]
      rfl

/-- The members of an object. -/
theorem members_back (ft : FloatText) : ∀ (l : List (Str × Json)), l ≠ [] → (∀ e ∈ l, Utf8 e.1) →
    (∀ e ∈ l, ∃ t, dump ft e.2 = .ok t ∧ ReadsBack ft e.2 t) →
    ∃ t, dumpMembers ft l = .ok t ∧ ∀ rest,
      (∀ n acc, t.length < n → (acc ++ l).Pairwise (fun a b => Str.lt a.1 b.1 = true) →
        parseMembers ft n acc (scan ft (t ++ c!"}" :: rest)).1 (scan ft (t ++ c!"}" :: rest)).2 =
        some (.ok (.obj (acc ++ l), rest))) ∧ (scan ft (t ++ c!"}" :: rest)).1 ≠ .rbrace := by
  intro l
  induction l with
  | nil => intro h; exact absurd rfl h
  | cons e es ih =>
    intro _ hu h
    obtain ⟨k, j⟩ := e
    obtain ⟨t, ht, hne, hrb⟩ := h (k, j) (by simp)
    simp only at ht hrb
    obtain ⟨q, hq, hq0, hqs⟩ := scan_quote ft (hu (k, j) (by simp))
    simp only at hq hqs
    cases es with
    | nil =>
      refine ⟨q ++ b!":" ++ t, by simp only [dumpMembers, ht, hq, Except.bind_ok], ?_⟩
      intro rest
      have e : q ++ b!":" ++ t ++ c!"}" :: rest = q ++ c!":" :: (t ++ c!"}" :: rest) := by simp
      rw [e, hqs]
      refine ⟨?_, by simp⟩
      intro n acc hn hp
      obtain ⟨h1, h2⟩ := hrb (c!"}" :: rest) (sep_brace rest)
      cases n with
      | zero => omega
      | succ n =>
        simp only [List.length_append, List.length_cons, List.length_nil] at hn
        simp only [parseMembers, scan_colon, h1 n (by omega), scan_rbrace]
        rw [emplace_last]
        intro e he
        exact (List.pairwise_append.mp hp).2.2 e he (k, j) (by simp)
    | cons e' es =>
      obtain ⟨r, hr, hback⟩ := ih (by simp) (fun x hx => hu x (by simp [hx])) (fun x hx => h x (by simp [hx]))
      refine ⟨q ++ b!":" ++ t ++ b!"," ++ r, by simp only [dumpMembers, ht, hq, hr, Except.bind_ok], ?_⟩
      intro rest
      have e : q ++ b!":" ++ t ++ b!"," ++ r ++ c!"}" :: rest = q ++ c!":" :: (t ++ c!"," :: (r ++ c!"}" :: rest)) := by
        simp
      rw [e, hqs]
      refine ⟨?_, by simp⟩
      intro n acc hn hp
      obtain ⟨h1, h2⟩ := hrb (c!"," :: (r ++ c!"}" :: rest)) (sep_comma _)
      cases n with
      | zero => omega
      | succ n =>
        simp only [List.length_append, List.length_cons, List.length_nil] at hn
        simp only [parseMembers, scan_colon, h1 n (by omega), scan_comma]
        have hacc : ∀ e ∈ acc, Str.lt e.1 k = true := fun e he => (List.pairwise_append.mp hp).2.2 e he (k, j) (by simp)
        rw [emplace_last hacc, (hback rest).1 n _ (by omega) (by simpa using hp)]
        simp

theorem parse_lbrack {ft : FloatText} {s : Str} (n : Nat) (h : (scan ft s).1 ≠ .rbrack) :
    parseValue ft (n + 1) .lbrack s = parseElems ft n [] (scan ft s).1 (scan ft s).2 := by
  rw [parseValue]
  split
  · rename_i heq
    rw [heq] at h
    exact absurd rfl h
  · rename_i heq
    rw [heq]

theorem parse_lbrace {ft : FloatText} {s : Str} (n : Nat) (h : (scan ft s).1 ≠ .rbrace) :
    parseValue ft (n + 1) .lbrace s = parseMembers ft n [] (scan ft s).1 (scan ft s).2 := by
  rw [parseValue]
  split
  · rename_i heq
    rw [heq] at h
    exact absurd rfl h
  · rename_i heq
    rw [heq]

theorem value_back {ft : FloatText} {j : Json} (hh : Held ft j) (hu : AllUtf8 j) :
    ∃ t, dump ft j = .ok t ∧ ReadsBack ft j t := by
  induction hh with
  | null => exact ⟨_, rfl, readsBack_scalar (by simp) (fun rest _ => rfl) (by simp) (fun n s => rfl)⟩
  | bool b =>
    cases b
    · exact ⟨_, rfl, readsBack_scalar (k := .fls) (by simp) (fun rest _ => rfl) (by simp) (fun n s => rfl)⟩
    · exact ⟨_, rfl, readsBack_scalar (k := .tru) (by simp) (fun rest _ => rfl) (by simp) (fun n s => rfl)⟩
  | int h1 h2 =>
    obtain ⟨t, ht, hne, hs⟩ := integer_roundtrip ft h1 h2
    exact ⟨t, by simp only [dump, ht], readsBack_scalar hne hs (by simp) (fun n s => rfl)⟩
  | @real q hq =>
    obtain ⟨h1, h2⟩ := hq
    refine ⟨ft.write q, by simp only [dump], readsBack_scalar (k := .real q) (float_scan ft h1 (rest := []) (Or.inl rfl)).1 ?_ (by simp) (fun n s => rfl)⟩
    intro rest hr
    rw [(float_scan ft h1 hr).2, realTok, h2]
  | str s =>
    cases hu with
    | str hu =>
      obtain ⟨t, ht, hne, hs⟩ := scan_quote ft hu
      exact ⟨t, by simp only [dump, ht], readsBack_scalar hne (fun rest _ => hs rest) (by simp) (fun n s => rfl)⟩
  | @arr l _ ih =>
    cases hu with
    | arr hu =>
      cases l with
      | nil =>
        refine ⟨b!"[]", by simp only [dump], by simp, ?_⟩
        intro rest _
        refine ⟨?_, by simp [scan_lbrack]⟩
        intro n hn
        cases n with
        | zero => simp at hn
        | succ n => rfl
      | cons j js =>
        obtain ⟨t, ht, hb⟩ := elems_back ft (j :: js) (by simp) (fun x hx => ih x hx (hu x hx))
        refine ⟨b!"[" ++ t ++ b!"]", by simp only [dump, ht, Except.bind_ok], by simp, ?_⟩
        intro rest _
        have e : b!"[" ++ t ++ b!"]" ++ rest = c!"[" :: (t ++ c!"]" :: rest) := by simp
        rw [e, scan_lbrack]
        refine ⟨?_, by simp⟩
        intro n hn
        simp only [List.length_append, List.length_cons, List.length_nil] at hn
        cases n with
        | zero => omega
        | succ n =>
          have h1 := (hb rest).1 n [] (by omega)
          have h2 := (hb rest).2
          simp only
          rw [parse_lbrack n h2, h1]
          rfl
  | @obj m hs _ ih =>
    cases hu with
    | obj hu1 hu2 =>
      cases m with
      | nil =>
        refine ⟨b!"{}", by simp only [dump], by simp, ?_⟩
        intro rest _
        refine ⟨?_, by simp [scan_lbrace]⟩
        intro n hn
        cases n with
        | zero => simp at hn
        | succ n => rfl
      | cons e es =>
        obtain ⟨t, ht, hb⟩ := members_back ft (e :: es) (by simp) hu1 (fun x hx => ih x hx (hu2 x hx))
        refine ⟨b!"{" ++ t ++ b!"}", by simp only [dump, ht, Except.bind_ok], by simp, ?_⟩
        intro rest _
        have e' : b!"{" ++ t ++ b!"}" ++ rest = c!"{" :: (t ++ c!"}" :: rest) := by simp
        rw [e', scan_lbrace]
        refine ⟨?_, by simp⟩
        intro n hn
        simp only [List.length_append, List.length_cons, List.length_nil] at hn
        cases n with
        | zero => omega
        | succ n =>
          have h1 := (hb rest).1 n [] (by omega) hs
          have h2 := (hb rest).2
          simp only
          rw [parse_lbrace n h2, h1]
          rfl

theorem bom_back {ft : FloatText} {j : Json} {t : Str} (h : ReadsBack ft j t) : skipBom t = t := by
  obtain ⟨hne, hb⟩ := h
  cases t with
  | nil => rfl
  | cons a s =>
    have h1 := (hb [] (Or.inl rfl)).1 (a :: s).length (Nat.le_refl _)
    rw [List.append_nil] at h1
    by_cases ha : a = 0xEF
    · subst ha
      have : scan ft (0xEF :: s) = (.error, []) := rfl
      rw [this] at h1
      simp [parseValue] at h1
    · unfold skipBom
      split
      · rename_i heq
        simp only [List.cons.injEq] at heq
        rw [if_neg (by rw [← heq.1]; exact fun h => ha h.1)]
        rw [← heq.1, ← heq.2]
      · rfl

/-- C89: every value the library can hold whose strings are UTF-8 is dumped to a text, and parsing the text gives exactly
this value. -/
theorem C89_roundtrip (ft : FloatText) {j : Json} (hh : Held ft j) (hu : AllUtf8 j) :
    ∃ t, dump ft j = .ok t ∧ parse ft t = .ok j := by
  obtain ⟨t, ht, hb⟩ := value_back hh hu
  refine ⟨t, ht, ?_⟩
  have hbom := bom_back hb
  have h1 := (hb.2 [] (Or.inl rfl)).1 (2 * t.length + 3) (by omega)
  rw [List.append_nil] at h1
  unfold parse
  simp only [hbom, h1]
  rfl

/-! ## Totality -/

theorem ite_ind {α : Type} {P : α → Prop} {c : Prop} [Decidable c] {a b : α} (ha : P a) (hb : P b) :
    P (if c then a else b) := by
  split
  · exact ha
  · exact hb

/-- A round of the string scanner leaves at most `k` bytes. -/
def StepLe (k : Nat) : Step → Prop
  | .close rest => rest.length ≤ k
  | .fail => True
  | .add _ rest => rest.length ≤ k

theorem nextInRange_le : ∀ (rs : List (Nat × Nat)) (acc s : Str), StepLe s.length (nextInRange acc rs s) := by
  intro rs
  induction rs with
  | nil => intro acc s; rw [nextInRange]; exact Nat.le_refl _
  | cons r rs ih =>
    intro acc s
    cases s with
    | nil => trivial
    | cons b s =>
      obtain ⟨lo, hi⟩ := r
      rw [nextInRange]
      refine ite_ind ?_ trivial
      have := ih (acc ++ [b]) s
      revert this
      cases nextInRange (acc ++ [b]) rs s with
      | close r => intro h; exact Nat.le_succ_of_le h
      | fail => intro _; trivial
      | add x r => intro h; exact Nat.le_succ_of_le h

theorem codepoint_rest {s rest : Str} {c : Nat} (h : getCodepoint s = some (c, rest)) : rest.length ≤ s.length := by
  unfold getCodepoint at h
  split at h
  · split at h
    · simp only [Option.some.injEq, Prod.mk.injEq] at h
      rw [← h.2]
      simp only [List.length_cons]
      omega
    · cases h
  · cases h

theorem scanUnicode_le (s : Str) : StepLe s.length (scanUnicode s) := by
  unfold scanUnicode
  split
  · trivial
  · rename_i cp1 s1 hg
    have h1 := codepoint_rest hg
    refine ite_ind ?_ (ite_ind trivial h1)
    split
    · rename_i c d s2
      refine ite_ind ?_ trivial
      split
      · trivial
      · rename_i cp2 s3 hg2
        have h2 := codepoint_rest hg2
        refine ite_ind ?_ trivial
        show s3.length ≤ s.length
        simp only [List.length_cons] at h1
        omega
    · trivial

theorem StepLe.mono {k l : Nat} {st : Step} (h : StepLe k st) (hk : k ≤ l) : StepLe l st := by
  cases st with
  | close r => exact Nat.le_trans h hk
  | fail => trivial
  | add x r => exact Nat.le_trans h hk

theorem scanEscape_le (s : Str) : StepLe s.length (scanEscape s) := by
  cases s with
  | nil => trivial
  | cons c s =>
    have hs : s.length ≤ (c :: s).length := Nat.le_succ _
    rw [scanEscape]
    exact ite_ind hs (ite_ind hs (ite_ind hs (ite_ind hs (ite_ind hs (ite_ind hs (ite_ind hs (ite_ind hs
      (ite_ind ((scanUnicode_le s).mono hs) trivial))))))))

/-- Every round of the string scanner reads something. -/
theorem scanStep_le (b : Byte) (s : Str) : StepLe s.length (scanStep (b :: s)) := by
  have hs : s.length ≤ s.length := Nat.le_refl _
  rw [scanStep]
  exact ite_ind hs (ite_ind (scanEscape_le s) (ite_ind trivial (ite_ind hs (ite_ind (nextInRange_le _ _ _)
    (ite_ind (nextInRange_le _ _ _) (ite_ind (nextInRange_le _ _ _) (ite_ind (nextInRange_le _ _ _)
    (ite_ind (nextInRange_le _ _ _) (ite_ind (nextInRange_le _ _ _) (ite_ind (nextInRange_le _ _ _) trivial))))))))))

theorem scanStringLoop_rest : ∀ (n : Nat) (acc s v rest : Str), scanStringLoop n acc s = some (v, rest) →
    rest.length ≤ s.length := by
  intro n
  induction n with
  | zero => intro acc s v rest h; cases h
  | succ n ih =>
    intro acc s v rest h
    cases s with
    | nil => cases h
    | cons b s =>
      have hl := scanStep_le b s
      rw [scanStringLoop] at h
      revert hl h
      cases scanStep (b :: s) with
      | close r =>
        intro h hl
        simp only [Option.some.injEq, Prod.mk.injEq] at h
        rw [← h.2]
        exact Nat.le_succ_of_le hl
      | fail => intro h _; cases h
      | add x r =>
        intro h hl
        have := ih _ _ _ _ h
        exact Nat.le_trans this (Nat.le_succ_of_le hl)

/-- The bound on the number of rounds of the string scanner is not used up: a larger bound changes nothing. -/
theorem scanStringLoop_fuel : ∀ (n m : Nat) (acc s : Str), s.length < n → n ≤ m →
    scanStringLoop m acc s = scanStringLoop n acc s := by
  intro n
  induction n with
  | zero => intro m acc s h; omega
  | succ n ih =>
    intro m acc s h hm
    obtain ⟨m, rfl⟩ : ∃ k, m = k + 1 := ⟨m - 1, by omega⟩
    rw [scanStringLoop, scanStringLoop]
    cases s with
    | nil => rfl
    | cons b s =>
      have hl := scanStep_le b s
      revert hl
      cases scanStep (b :: s) with
      | close r => intro _; rfl
      | fail => intro _; rfl
      | add x r =>
        intro hl
        simp only [List.length_cons] at h
        exact ih m _ r (Nat.lt_of_le_of_lt hl (by omega)) (by omega)

theorem scanNumberLoop_rest : ∀ (s : Str) (st : NumState) (ty ty' : NumType) (buf buf' rest : Str),
    scanNumberLoop st ty buf s = some (ty', buf', rest) → rest.length ≤ s.length := by
  intro s
  induction s with
  | nil =>
    intro st ty ty' buf buf' rest h
    simp only [scanNumberLoop] at h
    split at h
    · simp only [Option.some.injEq, Prod.mk.injEq] at h
      rw [← h.2.2]
    · cases h
  | cons c s ih =>
    intro st ty ty' buf buf' rest h
    simp only [scanNumberLoop] at h
    split at h
    · have := ih _ _ _ _ _ _ h
      simp only [List.length_cons]
      omega
    · simp only [Option.some.injEq, Prod.mk.injEq] at h
      rw [← h.2.2]
    · cases h

theorem scanLiteral_rest (t : Tok) : ∀ (x s : Str), (scanLiteral t x s).2.length ≤ s.length := by
  intro x
  induction x with
  | nil => intro s; exact Nat.le_refl _
  | cons x xs ih =>
    intro s
    cases s with
    | nil => exact Nat.le_refl _
    | cons c s =>
      rw [scanLiteral]
      exact ite_ind (P := fun r : Tok × Str => r.2.length ≤ (c :: s).length) (Nat.le_succ_of_le (ih s)) (Nat.zero_le _)

theorem skipWs_rest : ∀ s : Str, (skipWs s).length ≤ s.length := by
  intro s
  induction s with
  | nil => exact Nat.le_refl _
  | cons c s ih =>
    simp only [skipWs]
    split
    · simp only [List.length_cons]; omega
    · exact Nat.le_refl _

/-- A token with an unread rest of at most `k` bytes. -/
def TokLe (k : Nat) (r : Tok × Str) : Prop := r.2.length ≤ k

theorem scanNumber_rest (ft : FloatText) (c : Byte) (s : Str) : TokLe s.length (scanNumber ft c s) := by
  unfold scanNumber
  simp only
  split
  · rename_i heq
    exact scanNumberLoop_rest _ _ _ _ _ _ _ heq
  · exact Nat.zero_le _

theorem scanTok_rest (ft : FloatText) (c : Byte) (s : Str) : TokLe s.length (scanTok ft (c :: s)) := by
  have hs : ∀ t, TokLe s.length (t, s) := fun _ => Nat.le_refl _
  have he : TokLe s.length (.error, []) := Nat.zero_le _
  have hq : TokLe s.length (match scanString s with
      | some (v, rest) => (.str v, rest)
      | none => (.error, [])) := by
    split
    · rename_i heq
      exact scanStringLoop_rest _ _ _ _ _ heq
    · exact he
  rw [scanTok]
  exact ite_ind (hs _) (ite_ind (hs _) (ite_ind (hs _) (ite_ind (hs _) (ite_ind (hs _) (ite_ind (hs _)
    (ite_ind (scanLiteral_rest _ _ _) (ite_ind (scanLiteral_rest _ _ _) (ite_ind (scanLiteral_rest _ _ _)
    (ite_ind hq (ite_ind (scanNumber_rest ft c s) (ite_ind (hs _) he)))))))))))

/-- Every token but the end of the input reads something. -/
theorem scan_rest (ft : FloatText) (s : Str) : (scan ft s).1 = .eof ∨ (scan ft s).2.length < s.length := by
  unfold scan
  have hw := skipWs_rest s
  cases h : skipWs s with
  | nil => exact Or.inl rfl
  | cons c r =>
    rw [h] at hw
    have := scanTok_rest ft c r
    unfold TokLe at this
    simp only [List.length_cons] at hw
    exact Or.inr (by omega)

theorem scan_le0 (ft : FloatText) (s : Str) : (scan ft s).2.length ≤ s.length := by
  unfold scan
  have hw := skipWs_rest s
  cases h : skipWs s with
  | nil => exact Nat.zero_le _
  | cons c r =>
    rw [h] at hw
    have := scanTok_rest ft c r
    unfold TokLe at this
    simp only [List.length_cons] at hw
    omega

/-- Enough calls are allowed. -/
def Enough (k n : Nat) (t : Tok) (s : Str) : Prop := 2 * s.length + k ≤ n ∨ (k ≤ n + 2 ∧ t = .eof)

theorem enough_scan (ft : FloatText) {k n : Nat} {s : Str} (h : 2 * s.length + k ≤ n + 2) :
    Enough k n (scan ft s).1 (scan ft s).2 := by
  rcases scan_rest ft s with he | hl
  · exact Or.inr ⟨by omega, he⟩
  · exact Or.inl (by omega)

/-- A result, and what is left unread is no longer than `k`. -/
def Done (k : Nat) (r : Option (Res (Json × Str))) : Prop :=
  ∃ x, r = some x ∧ ∀ v rest, x = .ok (v, rest) → rest.length ≤ k

theorem Done.err {k : Nat} (e : Err) : Done k (some (.error e)) := ⟨_, rfl, fun _ _ h => by cases h⟩
theorem Done.ok {k : Nat} {v : Json} {s : Str} (h : s.length ≤ k) : Done k (some (.ok (v, s))) :=
  ⟨_, rfl, fun _ _ h' => by cases h'; exact h⟩
theorem Done.mono {k l : Nat} {r} (h : Done k r) (hk : k ≤ l) : Done l r := by
  obtain ⟨x, hx, hr⟩ := h
  exact ⟨x, hx, fun v rest hv => Nat.le_trans (hr v rest hv) hk⟩

theorem scan_le (ft : FloatText) {s r : Str} {t : Tok} (h : scan ft s = (t, r)) (ht : t ≠ .eof) : r.length < s.length := by
  rcases scan_rest ft s with he | hl
  · rw [h] at he; exact absurd he ht
  · rw [h] at hl; exact hl

theorem parse_enough (ft : FloatText) : ∀ n : Nat,
    (∀ t s, Enough 3 n t s → Done s.length (parseValue ft n t s)) ∧
    (∀ m t s, Enough 3 n t s → Done s.length (parseMembers ft n m t s)) ∧
    (∀ l t s, Enough 4 n t s → Done s.length (parseElems ft n l t s)) := by
  intro n
  induction n with
  | zero =>
    refine ⟨?_, ?_, ?_⟩ <;> intros <;> rename_i h <;> exfalso <;> unfold Enough at h <;> omega
  | succ n ih =>
    obtain ⟨ihv, ihm, ihe⟩ := ih
    refine ⟨?_, ?_, ?_⟩
    · intro t s h
      have h' : t ≠ .eof → 2 * s.length + 3 ≤ n + 1 := fun ht => h.resolve_right (fun e => ht e.2)
      cases t <;> simp only [parseValue]
      case lbrace =>
        have h2 := h' (by simp)
        split
        · rename_i heq
          exact Done.ok (Nat.le_of_lt (scan_le ft heq (by simp)))
        · rename_i t1 s1 _ heq
          have h3 := enough_scan ft (k := 3) (n := n) (s := s) (by omega)
          have h4 := scan_le0 ft s
          rw [heq] at h3 h4
          exact (ihm [] t1 s1 h3).mono h4
      case lbrack =>
        have h2 := h' (by simp)
        split
        · rename_i heq
          exact Done.ok (Nat.le_of_lt (scan_le ft heq (by simp)))
        · rename_i t1 s1 _ heq
          have h3 := enough_scan ft (k := 4) (n := n) (s := s) (by omega)
          have h4 := scan_le0 ft s
          rw [heq] at h3 h4
          exact (ihe [] t1 s1 h3).mono h4
      all_goals first
        | exact Done.err _
        | exact Done.ok (Nat.le_refl _)
    · intro m t s h
      have h' : t ≠ .eof → 2 * s.length + 3 ≤ n + 1 := fun ht => h.resolve_right (fun e => ht e.2)
      cases t <;> simp only [parseMembers]
      case str k =>
        have h2 := h' (by simp)
        split
        · rename_i s1 hc
          have l1 := scan_le ft hc (by simp)
          have hv := ihv _ _ (enough_scan ft (k := 3) (n := n) (s := s1) (by omega))
          have l2 := scan_le0 ft s1
          obtain ⟨x, hx, hr⟩ := hv
          rw [hx]
          cases x with
          | error e => exact Done.err _
          | ok p =>
            obtain ⟨v, s3⟩ := p
            have l3 := hr v s3 rfl
            simp only
            split
            · rename_i s4 hc4
              have l4 := scan_le ft hc4 (by simp)
              have l5 := scan_le0 ft s4
              exact (ihm _ _ _ (enough_scan ft (k := 3) (n := n) (s := s4) (by omega))).mono (by omega)
            · rename_i s4 hc4
              have l4 := scan_le ft hc4 (by simp)
              exact Done.ok (by omega)
            · exact Done.err _
        · exact Done.err _
      all_goals exact Done.err _
    · intro l t s h
      have hv := ihv t s (h.imp (fun h => by omega) (fun h => ⟨by omega, h.2⟩))
      rw [parseElems]
      obtain ⟨x, hx, hr⟩ := hv
      rw [hx]
      cases x with
      | error e => exact Done.err _
      | ok p =>
        obtain ⟨v, s3⟩ := p
        have l3 := hr v s3 rfl
        have h2 : 2 * s.length + 4 ≤ n + 1 := by
          rcases h with h | ⟨h, rfl⟩
          · exact h
          · cases n with
            | zero => omega
            | succ n => simp only [parseValue] at hx; cases hx
        simp only
        split
        · rename_i s4 hc4
          have l4 := scan_le ft hc4 (by simp)
          have l5 := scan_le0 ft s4
          exact (ihe _ _ _ (enough_scan ft (k := 4) (n := n) (s := s4) (by omega))).mono (by omega)
        · rename_i s4 hc4
          have l4 := scan_le ft hc4 (by simp)
          exact Done.ok (by omega)
        · exact Done.err _

end Wis
