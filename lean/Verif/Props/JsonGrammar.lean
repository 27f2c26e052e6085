import Verif.Lemmas.JsonNumText
/-!
# C98: the accepted texts are the JSON texts
-/

namespace Wis
open Spec JsonText

/-! ## Soundness -/

/-- The text of a token. -/
def TokText (ft : FloatText) (x : Str) : Tok → Prop
  | .tru => x = b!"true"
  | .fls => x = b!"false"
  | .nul => x = b!"null"
  | .str s => StringText x s
  | .int i => NumberText ft x (.int i)
  | .real q => NumberText ft x (.real q)
  | .inf => True
  | .lbrack => x = b!"["
  | .rbrack => x = b!"]"
  | .lbrace => x = b!"{"
  | .rbrace => x = b!"}"
  | .colon => x = b!":"
  | .comma => x = b!","
  | .error => True
  | .eof => True

theorem ws_nil : Ws [] := fun _ h => by cases h

theorem skipWs_sound : ∀ s : Str, ∃ w, s = w ++ skipWs s ∧ Ws w := by
  intro s
  induction s with
  | nil => exact ⟨[], rfl, ws_nil⟩
  | cons c s ih =>
    rw [skipWs]
    split
    · rename_i h
      obtain ⟨w, hw, hws⟩ := ih
      refine ⟨c :: w, by rw [List.cons_append, ← hw], ?_⟩
      intro b hb
      rcases List.mem_cons.mp hb with rfl | hb
      · exact h
      · exact hws b hb
    · exact ⟨[], rfl, ws_nil⟩

theorem skipWs_ws {w : Str} (h : Ws w) (s : Str) : skipWs (w ++ s) = skipWs s := by
  induction w with
  | nil => rfl
  | cons c w ih =>
    have h1 : c = c!" " ∨ c = 9 ∨ c = 10 ∨ c = 13 := h c (by simp)
    rw [List.cons_append, skipWs, if_pos h1, ih (fun b hb => h b (by simp [hb]))]

theorem scan_ws (ft : FloatText) {w : Str} (h : Ws w) (s : Str) : scan ft (w ++ s) = scan ft s := by
  unfold scan
  rw [skipWs_ws h]

theorem scanLiteral_sound (t : Tok) : ∀ (x s : Str) (t' : Tok) (r : Str), scanLiteral t x s = (t', r) →
    t' = .error ∨ (t' = t ∧ s = x ++ r) := by
  intro x
  induction x with
  | nil => intro s t' r h; rw [scanLiteral] at h; cases h; exact Or.inr ⟨rfl, rfl⟩
  | cons a x ih =>
    intro s t' r h
    cases s with
    | nil => cases h; exact Or.inl rfl
    | cons c s =>
      rw [scanLiteral] at h
      rcases ite_eq_or h with ⟨rfl, e⟩ | ⟨_, h⟩
      · rcases ih _ _ _ e with he | ⟨rfl, rfl⟩
        · exact Or.inl he
        · exact Or.inr ⟨rfl, rfl⟩
      · cases h; exact Or.inl rfl

theorem scanTok_sound (ft : FloatText) {s : Str} {t : Tok} {r : Str} (h : scanTok ft s = (t, r)) :
    t = .error ∨ t = .eof ∨ ∃ x, s = x ++ r ∧ TokText ft x t := by
  cases s with
  | nil => cases h; exact Or.inr (Or.inl rfl)
  | cons c s =>
    unfold scanTok at h
    rcases ite_eq_or h with ⟨rfl, h⟩ | ⟨_, h⟩
    · cases h; exact Or.inr (Or.inr ⟨_, rfl, rfl⟩)
    rcases ite_eq_or h with ⟨rfl, h⟩ | ⟨_, h⟩
    · cases h; exact Or.inr (Or.inr ⟨_, rfl, rfl⟩)
    rcases ite_eq_or h with ⟨rfl, h⟩ | ⟨_, h⟩
    · cases h; exact Or.inr (Or.inr ⟨_, rfl, rfl⟩)
    rcases ite_eq_or h with ⟨rfl, h⟩ | ⟨_, h⟩
    · cases h; exact Or.inr (Or.inr ⟨_, rfl, rfl⟩)
    rcases ite_eq_or h with ⟨rfl, h⟩ | ⟨_, h⟩
    · cases h; exact Or.inr (Or.inr ⟨_, rfl, rfl⟩)
    rcases ite_eq_or h with ⟨rfl, h⟩ | ⟨_, h⟩
    · cases h; exact Or.inr (Or.inr ⟨_, rfl, rfl⟩)
    rcases ite_eq_or h with ⟨rfl, h⟩ | ⟨_, h⟩
    · rcases scanLiteral_sound _ _ _ _ _ h with he | ⟨rfl, rfl⟩
      · exact Or.inl he
      · exact Or.inr (Or.inr ⟨b!"true", rfl, rfl⟩)
    rcases ite_eq_or h with ⟨rfl, h⟩ | ⟨_, h⟩
    · rcases scanLiteral_sound _ _ _ _ _ h with he | ⟨rfl, rfl⟩
      · exact Or.inl he
      · exact Or.inr (Or.inr ⟨b!"false", rfl, rfl⟩)
    rcases ite_eq_or h with ⟨rfl, h⟩ | ⟨_, h⟩
    · rcases scanLiteral_sound _ _ _ _ _ h with he | ⟨rfl, rfl⟩
      · exact Or.inl he
      · exact Or.inr (Or.inr ⟨b!"null", rfl, rfl⟩)
    rcases ite_eq_or h with ⟨rfl, h⟩ | ⟨_, h⟩
    · cases hs : scanString s with
      | none => rw [hs] at h; cases h; exact Or.inl rfl
      | some p =>
        obtain ⟨v, rest⟩ := p
        rw [hs] at h
        cases h
        obtain ⟨body, rfl, hb⟩ := scanString_iff.mp hs
        exact Or.inr (Or.inr ⟨b!"\"" ++ body ++ b!"\"", by simp, body, rfl, hb⟩)
    rcases ite_eq_or h with ⟨hc, h⟩ | ⟨_, h⟩
    · rcases scanNumber_sound ft hc h with he | ⟨x, hx, hn⟩
      · exact Or.inl he
      · refine Or.inr (Or.inr ⟨x, hx, ?_⟩)
        cases t <;> first | exact hn | exact absurd hn (by simp [TokNum])
    rcases ite_eq_or h with ⟨rfl, h⟩ | ⟨_, h⟩
    · cases h; exact Or.inr (Or.inl rfl)
    · cases h; exact Or.inl rfl

theorem scan_sound (ft : FloatText) {s : Str} {t : Tok} {r : Str} (h : scan ft s = (t, r)) :
    t = .error ∨ t = .eof ∨ ∃ w x, s = w ++ x ++ r ∧ Ws w ∧ TokText ft x t := by
  obtain ⟨w, hw, hws⟩ := skipWs_sound s
  rcases scanTok_sound ft h with he | he | ⟨x, hx, ht⟩
  · exact Or.inl he
  · exact Or.inr (Or.inl he)
  · exact Or.inr (Or.inr ⟨w, x, by rw [List.append_assoc, ← hx]; exact hw, hws, ht⟩)

theorem scan_text (ft : FloatText) {s : Str} {t : Tok} {r : Str} (h : scan ft s = (t, r)) (h1 : t ≠ .error) (h2 : t ≠ .eof) :
    ∃ w x, s = w ++ x ++ r ∧ Ws w ∧ TokText ft x t := by
  rcases scan_sound ft h with he | he | hx
  · exact absurd he h1
  · exact absurd he h2
  · exact hx

theorem objectOf_nil : ObjectOf [] [] := ⟨by simp [SMap.Sorted], fun k => rfl⟩

/-- Adding members one after the other: the first of several with the same key counts. -/
theorem emplace_object : ∀ (l m : List (Str × Json)), SMap.Sorted m →
    SMap.Sorted (l.foldl (fun m e => emplace m e.1 e.2) m) ∧ ∀ k, SMap.find (l.foldl (fun m e => emplace m e.1 e.2) m) k =
      (SMap.find m k).or ((l.find? (fun e => decide (e.1 = k))).map (·.2)) := by
  intro l
  induction l with
  | nil => intro m hm; exact ⟨hm, fun k => by simp⟩
  | cons e l ih =>
    intro m hm
    obtain ⟨k0, v0⟩ := e
    have hs : SMap.Sorted (emplace m k0 v0) := by
      unfold emplace
      split
      · exact hm
      · exact SMap.sorted_set hm _ _
    obtain ⟨h1, h2⟩ := ih (emplace m k0 v0) hs
    refine ⟨h1, ?_⟩
    intro k
    rw [List.foldl_cons, h2 k, List.find?_cons]
    by_cases hk : k0 = k
    · subst hk
      simp only [decide_true]
      unfold emplace
      cases hf : SMap.find m k0 with
      | some x => simp [hf]
      | none => simp [SMap.find_set_self]
    · simp only [decide_eq_false hk]
      congr 1
      unfold emplace
      split
      · rfl
      · rw [SMap.find_set_ne _ _ (fun h => hk h.symm)]

theorem fold_objectOf (l : List (Str × Json)) : ObjectOf l (l.foldl (fun m e => emplace m e.1 e.2) []) := by
  obtain ⟨h1, h2⟩ := emplace_object l [] objectOf_nil.1
  exact ⟨h1, fun k => by rw [h2 k]; rfl⟩

theorem objectOf_unique {l m : List (Str × Json)} (h : ObjectOf l m) : m = l.foldl (fun m e => emplace m e.1 e.2) [] := by
  have h' := fold_objectOf l
  exact SMap.ext h.1 h'.1 (fun k => by rw [h.2 k, h'.2 k])

/-- What the parser accepted is in the grammar. -/
theorem parse_sound (ft : FloatText) : ∀ n : Nat,
    (∀ src t s v rest, scan ft src = (t, s) → parseValue ft n t s = some (.ok (v, rest)) →
      ∃ w y, src = w ++ y ++ rest ∧ Ws w ∧ ValueText ft y v) ∧
    (∀ m src t s v rest, scan ft src = (t, s) → parseMembers ft n m t s = some (.ok (v, rest)) →
      ∃ y l, src = y ++ c!"}" :: rest ∧ MembersText ft y l ∧ v = .obj (l.foldl (fun m e => emplace m e.1 e.2) m)) ∧
    (∀ a src t s v rest, scan ft src = (t, s) → parseElems ft n a t s = some (.ok (v, rest)) →
      ∃ y l, src = y ++ c!"]" :: rest ∧ ElemsText ft y l ∧ v = .arr (a ++ l)) := by
  intro n
  induction n with
  | zero => refine ⟨?_, ?_, ?_⟩ <;> intros <;> rename_i h <;> cases h
  | succ n ih =>
    obtain ⟨ihv, ihm, ihe⟩ := ih
    refine ⟨?_, ?_, ?_⟩
    · intro src t s v rest hs h
      cases t <;> simp only [parseValue] at h
      case eof => cases h
      case error => cases h
      case inf => cases h
      case rbrack => cases h
      case rbrace => cases h
      case colon => cases h
      case comma => cases h
      case tru =>
        cases h
        obtain ⟨w, x, rfl, hw, hx⟩ := scan_text ft hs (by simp) (by simp)
        cases hx
        exact ⟨w, _, rfl, hw, .tru⟩
      case fls =>
        cases h
        obtain ⟨w, x, rfl, hw, hx⟩ := scan_text ft hs (by simp) (by simp)
        cases hx
        exact ⟨w, _, rfl, hw, .fls⟩
      case nul =>
        cases h
        obtain ⟨w, x, rfl, hw, hx⟩ := scan_text ft hs (by simp) (by simp)
        cases hx
        exact ⟨w, _, rfl, hw, .null⟩
      case str =>
        cases h
        obtain ⟨w, x, rfl, hw, hx⟩ := scan_text ft hs (by simp) (by simp)
        exact ⟨w, _, rfl, hw, .str hx⟩
      case int =>
        cases h
        obtain ⟨w, x, rfl, hw, hx⟩ := scan_text ft hs (by simp) (by simp)
        exact ⟨w, _, rfl, hw, .num hx⟩
      case real =>
        cases h
        obtain ⟨w, x, rfl, hw, hx⟩ := scan_text ft hs (by simp) (by simp)
        exact ⟨w, _, rfl, hw, .num hx⟩
      case lbrack =>
        obtain ⟨w, x, rfl, hw, hx⟩ := scan_text ft hs (by simp) (by simp)
        cases hx
        cases hs1 : scan ft s with
        | mk t1 s1 =>
          rw [hs1] at h
          by_cases ht : t1 = .rbrack
          · subst ht
            cases h
            obtain ⟨w', x', rfl, hw', hx'⟩ := scan_text ft hs1 (by simp) (by simp)
            cases hx'
            exact ⟨w, b!"[" ++ w' ++ b!"]", by simp, hw, .arr0 hw'⟩
          · have h' : parseElems ft n [] t1 s1 = some (.ok (v, rest)) := by
              cases t1 <;> first | exact absurd rfl ht | exact h
            obtain ⟨y, l, rfl, hy, rfl⟩ := ihe _ _ _ _ _ _ hs1 h'
            exact ⟨w, b!"[" ++ y ++ b!"]", by simp, hw, .arr hy⟩
      case lbrace =>
        obtain ⟨w, x, rfl, hw, hx⟩ := scan_text ft hs (by simp) (by simp)
        cases hx
        cases hs1 : scan ft s with
        | mk t1 s1 =>
          rw [hs1] at h
          by_cases ht : t1 = .rbrace
          · subst ht
            cases h
            obtain ⟨w', x', rfl, hw', hx'⟩ := scan_text ft hs1 (by simp) (by simp)
            cases hx'
            exact ⟨w, b!"{" ++ w' ++ b!"}", by simp, hw, .obj0 hw'⟩
          · have h' : parseMembers ft n [] t1 s1 = some (.ok (v, rest)) := by
              cases t1 <;> first | exact absurd rfl ht | exact h
            obtain ⟨y, l, rfl, hy, rfl⟩ := ihm _ _ _ _ _ _ hs1 h'
            exact ⟨w, b!"{" ++ y ++ b!"}", by simp, hw, .obj hy (fold_objectOf l)⟩
    · intro m src t s v rest hs h
      cases t <;> simp only [parseMembers] at h <;> try (cases h; done)
      rename_i k
      obtain ⟨w, kt, rfl, hw, hk⟩ := scan_text ft hs (by simp) (by simp)
      have hk : StringText kt k := hk
      cases hc : scan ft s with
      | mk t1 s1 =>
        rw [hc] at h
        by_cases ht : t1 = .colon
        case neg =>
          exfalso
          cases t1 <;> first | exact absurd rfl ht | (cases h; done)
        subst ht
        obtain ⟨w1, x1, rfl, hw1, hx1⟩ := scan_text ft hc (by simp) (by simp)
        cases hx1
        simp only at h
        cases hv : parseValue ft n (scan ft s1).1 (scan ft s1).2 with
        | none => rw [hv] at h; cases h
        | some x =>
          rw [hv] at h
          cases x with
          | error e => cases h
          | ok p =>
            obtain ⟨v', s3⟩ := p
            obtain ⟨w2, y, rfl, hw2, hy⟩ := ihv _ _ _ _ _ rfl hv
            simp only at h
            cases h4 : scan ft s3 with
            | mk t4 s4 =>
              rw [h4] at h
              cases t4 <;> try (cases h; done)
              · cases h
                obtain ⟨w', x', rfl, hw', hx'⟩ := scan_text ft h4 (by simp) (by simp)
                cases hx'
                exact ⟨w ++ kt ++ w1 ++ b!":" ++ w2 ++ y ++ w', [(k, v')], by simp, .one hw hk hw1 hw2 hy hw', rfl⟩
              · obtain ⟨w', x', rfl, hw', hx'⟩ := scan_text ft h4 (by simp) (by simp)
                cases hx'
                obtain ⟨y2, l, rfl, hy2, rfl⟩ := ihm _ _ _ _ _ _ rfl h
                exact ⟨w ++ kt ++ w1 ++ b!":" ++ w2 ++ y ++ w' ++ b!"," ++ y2, (k, v') :: l, by simp,
                  .more hw hk hw1 hw2 hy hw' hy2, rfl⟩
    · intro a src t s v rest hs h
      rw [parseElems] at h
      cases hv : parseValue ft n t s with
      | none => rw [hv] at h; cases h
      | some x =>
        rw [hv] at h
        cases x with
        | error e => cases h
        | ok p =>
          obtain ⟨v', s3⟩ := p
          obtain ⟨w, y, rfl, hw, hy⟩ := ihv _ _ _ _ _ hs hv
          simp only at h
          cases h4 : scan ft s3 with
          | mk t4 s4 =>
            rw [h4] at h
            cases t4 <;> try (cases h; done)
            · cases h
              obtain ⟨w', x', rfl, hw', hx'⟩ := scan_text ft h4 (by simp) (by simp)
              cases hx'
              exact ⟨w ++ y ++ w', [v'], by simp, .one hw hy hw', rfl⟩
            · obtain ⟨w', x', rfl, hw', hx'⟩ := scan_text ft h4 (by simp) (by simp)
              cases hx'
              obtain ⟨y2, l, rfl, hy2, rfl⟩ := ihe _ _ _ _ _ _ rfl h
              exact ⟨w ++ y ++ w' ++ b!"," ++ y2, v' :: l, by simp, .more hw hy hw' hy2, by simp⟩

/-! ## Completeness -/

theorem sep_ws {w s : Str} (hw : Ws w) (h : Sep s) : Sep (w ++ s) := by
  cases w with
  | nil => exact h
  | cons c w =>
    refine Or.inr ⟨c, w ++ s, rfl, ?_⟩
    have h1 : c = c!" " ∨ c = 9 ∨ c = 10 ∨ c = 13 := hw c (by simp)
    rcases h1 with h | h | h | h <;> simp [h]

theorem members_more_le (ft : FloatText) {n m : Nat} (h : n ≤ m) {a : List (Str × Json)} {t : Tok} {s : Str}
    {r : Res (Json × Str)} (hr : parseMembers ft n a t s = some r) : parseMembers ft m a t s = some r := by
  induction h with
  | refl => exact hr
  | step _ ih => exact (parse_more ft _).2.1 _ _ _ _ ih

theorem elems_more_le (ft : FloatText) {n m : Nat} (h : n ≤ m) {a : List Json} {t : Tok} {s : Str}
    {r : Res (Json × Str)} (hr : parseElems ft n a t s = some r) : parseElems ft m a t s = some r := by
  induction h with
  | refl => exact hr
  | step _ ih => exact (parse_more ft _).2.2 _ _ _ _ ih

/-- The parser reads the text as this value, whatever follows. -/
def ValueBack (ft : FloatText) (t : Str) (v : Json) : Prop := ∀ rest, Sep rest →
  (∃ n, parseValue ft n (scan ft (t ++ rest)).1 (scan ft (t ++ rest)).2 = some (.ok (v, rest))) ∧
  (scan ft (t ++ rest)).1 ≠ .rbrack

/-- The parser reads the text as these elements. -/
def ElemsBack (ft : FloatText) (t : Str) (l : List Json) : Prop := ∀ rest,
  (∃ n, ∀ acc, parseElems ft n acc (scan ft (t ++ c!"]" :: rest)).1 (scan ft (t ++ c!"]" :: rest)).2 =
    some (.ok (.arr (acc ++ l), rest))) ∧ (scan ft (t ++ c!"]" :: rest)).1 ≠ .rbrack

/-- The parser reads the text as these members. -/
def MembersBack (ft : FloatText) (t : Str) (l : List (Str × Json)) : Prop := ∀ rest,
  (∃ n, ∀ acc, parseMembers ft n acc (scan ft (t ++ c!"}" :: rest)).1 (scan ft (t ++ c!"}" :: rest)).2 =
    some (.ok (.obj (l.foldl (fun m e => emplace m e.1 e.2) acc), rest))) ∧ (scan ft (t ++ c!"}" :: rest)).1 ≠ .rbrace

theorem scan_string (ft : FloatText) {t v : Str} (h : StringText t v) (rest : Str) : scan ft (t ++ rest) = (.str v, rest) := by
  obtain ⟨body, rfl, hb⟩ := h
  have h1 : scanString (body ++ c!"\"" :: rest) = some (v, rest) := scanString_iff.mpr ⟨body, rfl, hb⟩
  have h2 : b!"\"" ++ body ++ b!"\"" ++ rest = c!"\"" :: (body ++ c!"\"" :: rest) := by simp
  rw [h2]
  unfold scan
  rw [skipWs_id (by decide)]
  show (match scanString (body ++ c!"\"" :: rest) with
      | some (v, rest) => (Tok.str v, rest)
      | none => (.error, [])) = _
  rw [h1]

theorem elem_step (ft : FloatText) {w t w' : Str} {v : Json} (hw : Ws w) (ht : ValueBack ft t v) (hw' : Ws w') (s : Str)
    (hs : Sep s) : ∃ n, parseValue ft n (scan ft (w ++ t ++ w' ++ s)).1 (scan ft (w ++ t ++ w' ++ s)).2 =
      some (.ok (v, w' ++ s)) ∧ (scan ft (w ++ t ++ w' ++ s)).1 ≠ .rbrack := by
  obtain ⟨⟨n, h1⟩, h2⟩ := ht (w' ++ s) (sep_ws hw' hs)
  have e : scan ft (w ++ t ++ w' ++ s) = scan ft (t ++ (w' ++ s)) := by
    rw [List.append_assoc, List.append_assoc, scan_ws ft hw]
  rw [e]
  exact ⟨n, h1, h2⟩

theorem elems_one (ft : FloatText) {w t w' : Str} {v : Json} (hw : Ws w) (ht : ValueBack ft t v) (hw' : Ws w') :
    ElemsBack ft (w ++ t ++ w') [v] := by
  intro rest
  obtain ⟨n, h1, h2⟩ := elem_step ft hw ht hw' (c!"]" :: rest) (sep_brack rest)
  refine ⟨⟨n + 1, ?_⟩, h2⟩
  intro acc
  rw [parseElems, h1]
  simp only [scan_ws ft hw', scan_rbrack]

theorem elems_cons (ft : FloatText) {w t w' r : Str} {v : Json} {l : List Json} (hw : Ws w) (ht : ValueBack ft t v) (hw' : Ws w')
    (hr : ElemsBack ft r l) : ElemsBack ft (w ++ t ++ w' ++ b!"," ++ r) (v :: l) := by
  intro rest
  obtain ⟨n, h1, h2⟩ := elem_step ft hw ht hw' (c!"," :: (r ++ c!"]" :: rest)) (sep_comma _)
  obtain ⟨⟨m, h3⟩, _⟩ := hr rest
  have e : w ++ t ++ w' ++ b!"," ++ r ++ c!"]" :: rest = w ++ t ++ w' ++ c!"," :: (r ++ c!"]" :: rest) := by simp
  rw [e]
  refine ⟨⟨max n m + 1, ?_⟩, h2⟩
  intro acc
  rw [parseElems, parse_more_le ft (Nat.le_max_left n m) h1]
  simp only [scan_ws ft hw', scan_comma]
  rw [elems_more_le ft (Nat.le_max_right n m) (h3 _)]
  simp

theorem member_step (ft : FloatText) {w kt k w1 w2 t w' : Str} {v : Json} (hw : Ws w) (hk : StringText kt k) (hw1 : Ws w1)
    (hw2 : Ws w2) (ht : ValueBack ft t v) (hw' : Ws w') (s : Str) (hs : Sep s) : ∃ s0 s1 n,
      scan ft (w ++ kt ++ w1 ++ b!":" ++ w2 ++ t ++ w' ++ s) = (.str k, s0) ∧ scan ft s0 = (.colon, s1) ∧
      parseValue ft n (scan ft s1).1 (scan ft s1).2 = some (.ok (v, w' ++ s)) := by
  obtain ⟨⟨n, h1⟩, _⟩ := ht (w' ++ s) (sep_ws hw' hs)
  refine ⟨w1 ++ c!":" :: (w2 ++ (t ++ (w' ++ s))), w2 ++ (t ++ (w' ++ s)), n, ?_, ?_, ?_⟩
  · have e : w ++ kt ++ w1 ++ b!":" ++ w2 ++ t ++ w' ++ s = w ++ (kt ++ (w1 ++ c!":" :: (w2 ++ (t ++ (w' ++ s))))) := by simp
    rw [e, scan_ws ft hw, scan_string ft hk]
  · rw [scan_ws ft hw1, scan_colon]
  · rw [scan_ws ft hw2]
    exact h1

theorem members_one (ft : FloatText) {w kt k w1 w2 t w' : Str} {v : Json} (hw : Ws w) (hk : StringText kt k) (hw1 : Ws w1)
    (hw2 : Ws w2) (ht : ValueBack ft t v) (hw' : Ws w') :
    MembersBack ft (w ++ kt ++ w1 ++ b!":" ++ w2 ++ t ++ w') [(k, v)] := by
  intro rest
  obtain ⟨s0, s1, n, h1, h2, h3⟩ := member_step ft hw hk hw1 hw2 ht hw' (c!"}" :: rest) (sep_brace rest)
  rw [h1]
  refine ⟨⟨n + 1, ?_⟩, by simp⟩
  intro acc
  simp only [parseMembers]
  rw [h2]
  simp only
  rw [h3]
  simp only [scan_ws ft hw', scan_rbrace]
  rfl

theorem members_cons (ft : FloatText) {w kt k w1 w2 t w' r : Str} {v : Json} {l : List (Str × Json)} (hw : Ws w)
    (hk : StringText kt k) (hw1 : Ws w1) (hw2 : Ws w2) (ht : ValueBack ft t v) (hw' : Ws w') (hr : MembersBack ft r l) :
    MembersBack ft (w ++ kt ++ w1 ++ b!":" ++ w2 ++ t ++ w' ++ b!"," ++ r) ((k, v) :: l) := by
  intro rest
  obtain ⟨s0, s1, n, h1, h2, h3⟩ := member_step ft hw hk hw1 hw2 ht hw' (c!"," :: (r ++ c!"}" :: rest)) (sep_comma _)
  obtain ⟨⟨m, h4⟩, _⟩ := hr rest
  have e : w ++ kt ++ w1 ++ b!":" ++ w2 ++ t ++ w' ++ b!"," ++ r ++ c!"}" :: rest =
      w ++ kt ++ w1 ++ b!":" ++ w2 ++ t ++ w' ++ c!"," :: (r ++ c!"}" :: rest) := by simp
  rw [e, h1]
  refine ⟨⟨max n m + 1, ?_⟩, by simp⟩
  intro acc
  simp only [parseMembers]
  rw [h2]
  simp only
  rw [parse_more_le ft (Nat.le_max_left n m) h3]
  simp only [scan_ws ft hw', scan_comma]
  rw [members_more_le ft (Nat.le_max_right n m) (h4 _)]
  rfl

theorem value_tok {ft : FloatText} {t : Str} {v : Json} {k : Tok} (hs : ∀ rest, scan ft (t ++ rest) = (k, rest)) (hk : k ≠ .rbrack)
    (hp : ∀ n s, parseValue ft (n + 1) k s = some (.ok (v, s))) : ValueBack ft t v := by
  intro rest _
  rw [hs rest]
  exact ⟨⟨1, hp 0 rest⟩, hk⟩

/-- Every text of the grammar is read with its value. -/
theorem value_complete (ft : FloatText) {t : Str} {v : Json} (h : ValueText ft t v) : ValueBack ft t v := by
  refine ValueText.rec (motive_1 := fun t v _ => ValueBack ft t v) (motive_2 := fun t l _ => ElemsBack ft t l)
    (motive_3 := fun t l _ => MembersBack ft t l) ?_ ?_ ?_ ?_ ?_ ?_ ?_ ?_ ?_ ?_ ?_ ?_ ?_ h
  · exact value_tok (k := .nul) (fun rest => rfl) (by simp) (fun n s => by simp only [parseValue])
  · exact value_tok (k := .tru) (fun rest => rfl) (by simp) (fun n s => by simp only [parseValue])
  · exact value_tok (k := .fls) (fun rest => rfl) (by simp) (fun n s => by simp only [parseValue])
  · intro t v hn rest hr
    obtain ⟨_, k, h1, h2, h3⟩ := number_scan ft hn hr
    rw [h1]
    exact ⟨⟨1, h3 0 rest⟩, h2⟩
  · intro t s hs
    exact value_tok (fun rest => scan_string ft hs rest) (by simp) (fun n s => by simp only [parseValue])
  · intro w hw rest _
    have e : b!"[" ++ w ++ b!"]" ++ rest = c!"[" :: (w ++ c!"]" :: rest) := by simp
    rw [e, scan_lbrack]
    refine ⟨⟨1, ?_⟩, by simp⟩
    simp only [parseValue, scan_ws ft hw, scan_rbrack]
  · intro t l _ ih rest _
    obtain ⟨⟨n, h1⟩, h2⟩ := ih rest
    have e : b!"[" ++ t ++ b!"]" ++ rest = c!"[" :: (t ++ c!"]" :: rest) := by simp
    rw [e, scan_lbrack]
    refine ⟨⟨n + 1, ?_⟩, by simp⟩
    rw [parse_lbrack n h2, h1]
    rfl
  · intro w hw rest _
    have e : b!"{" ++ w ++ b!"}" ++ rest = c!"{" :: (w ++ c!"}" :: rest) := by simp
    rw [e, scan_lbrace]
    refine ⟨⟨1, ?_⟩, by simp⟩
    simp only [parseValue, scan_ws ft hw, scan_rbrace]
  · intro t l m _ hm ih rest _
    obtain ⟨⟨n, h1⟩, h2⟩ := ih rest
    have e : b!"{" ++ t ++ b!"}" ++ rest = c!"{" :: (t ++ c!"}" :: rest) := by simp
    rw [e, scan_lbrace]
    refine ⟨⟨n + 1, ?_⟩, by simp⟩
    rw [parse_lbrace n h2, h1, objectOf_unique hm]
  · intro w t v w' hw _ hw' ih
    exact elems_one ft hw ih hw'
  · intro w t v w' r l hw _ hw' _ ih1 ih2
    exact elems_cons ft hw ih1 hw' ih2
  · intro w kt k w1 w2 t v w' hw hk hw1 hw2 _ hw' ih
    exact members_one ft hw hk hw1 hw2 ih hw'
  · intro w kt k w1 w2 t v w' r l hw hk hw1 hw2 _ hw' _ ih1 ih2
    exact members_cons ft hw hk hw1 hw2 ih1 hw' ih2

/-! ## The whole text -/

/-- The byte order mark. -/
def bom : Str := [0xEF, 0xBB, 0xBF]

theorem bom_split (text : Str) : text = skipBom text ∨ text = bom ++ skipBom text := by
  unfold skipBom
  split
  · split
    · rename_i h
      obtain ⟨rfl, rfl, rfl⟩ := h
      exact Or.inr rfl
    · exact Or.inl rfl
  · exact Or.inl rfl

theorem scan_eof (ft : FloatText) {s r : Str} (h : scan ft s = (.eof, r)) : ∃ w, Ws w ∧ (s = w ∨ ∃ junk, s = w ++ 0 :: junk) := by
  obtain ⟨w, hw, hws⟩ := skipWs_sound s
  refine ⟨w, hws, ?_⟩
  unfold scan at h
  rw [hw]
  cases hs : skipWs s with
  | nil => exact Or.inl (by simp)
  | cons c u =>
    rw [hs] at h
    refine Or.inr ⟨u, ?_⟩
    have hl : ∀ (t : Tok) (x s r : Str), t ≠ .eof → scanLiteral t x s ≠ (.eof, r) := by
      intro t x s r ht h
      rcases scanLiteral_sound _ _ _ _ _ h with he | ⟨he, _⟩
      · cases he
      · exact ht he.symm
    unfold scanTok at h
    rcases ite_eq_or h with ⟨_, e⟩ | ⟨_, h⟩
    · cases e
    rcases ite_eq_or h with ⟨_, e⟩ | ⟨_, h⟩
    · cases e
    rcases ite_eq_or h with ⟨_, e⟩ | ⟨_, h⟩
    · cases e
    rcases ite_eq_or h with ⟨_, e⟩ | ⟨_, h⟩
    · cases e
    rcases ite_eq_or h with ⟨_, e⟩ | ⟨_, h⟩
    · cases e
    rcases ite_eq_or h with ⟨_, e⟩ | ⟨_, h⟩
    · cases e
    rcases ite_eq_or h with ⟨_, e⟩ | ⟨_, h⟩
    · exact absurd e (hl _ _ _ _ (by simp))
    rcases ite_eq_or h with ⟨_, e⟩ | ⟨_, h⟩
    · exact absurd e (hl _ _ _ _ (by simp))
    rcases ite_eq_or h with ⟨_, e⟩ | ⟨_, h⟩
    · exact absurd e (hl _ _ _ _ (by simp))
    rcases ite_eq_or h with ⟨_, e⟩ | ⟨_, h⟩
    · split at e <;> cases e
    rcases ite_eq_or h with ⟨hc, e⟩ | ⟨_, h⟩
    · rcases scanNumber_sound ft hc e with he | ⟨x, _, hx⟩
      · cases he
      · exact absurd hx (by simp [TokNum])
    rcases ite_eq_or h with ⟨rfl, e⟩ | ⟨_, h⟩
    · rfl
    · cases h

theorem scan_end (ft : FloatText) {w junk : Str} (hw : Ws w) (hj : junk = [] ∨ ∃ r, junk = 0 :: r) :
    (scan ft (w ++ junk)).1 = .eof := by
  rw [scan_ws ft hw]
  rcases hj with rfl | ⟨r, rfl⟩ <;> rfl

/-- C98: `parse` accepts exactly the JSON texts of RFC 8259, and returns the value the text stands for. A byte order mark
before the text is ignored, and a NUL byte ends the text, whatever follows it. -/
theorem C98_accepts_iff (ft : FloatText) (text : Str) (v : Json) : parse ft text = .ok v ↔
    ∃ mark doc junk, text = mark ++ doc ++ junk ∧ (mark = [] ∨ mark = [0xEF, 0xBB, 0xBF]) ∧ DocText ft doc v ∧
      (junk = [] ∨ ∃ r, junk = 0 :: r) := by
  constructor
  · intro h
    have hd : ∃ doc junk, skipBom text = doc ++ junk ∧ DocText ft doc v ∧ (junk = [] ∨ ∃ r, junk = 0 :: r) := by
      unfold parse at h
      simp only at h
      cases hp : parseValue ft (2 * (skipBom text).length + 3) (scan ft (skipBom text)).1 (scan ft (skipBom text)).2 with
      | none => rw [hp] at h; cases h
      | some x =>
        rw [hp] at h
        cases x with
        | error e => cases h
        | ok p =>
          obtain ⟨v', s2⟩ := p
          simp only at h
          cases he : scan ft s2 with
          | mk t r =>
            rw [he] at h
            by_cases ht : t = .eof
            · subst ht
              cases h
              obtain ⟨w, y, hs, hw, hy⟩ := (parse_sound ft _).1 _ _ _ _ _ rfl hp
              obtain ⟨w', hw', hj⟩ := scan_eof ft he
              rcases hj with rfl | ⟨j, rfl⟩
              · exact ⟨w ++ y ++ s2, [], by rw [hs]; simp, ⟨w, y, s2, rfl, hw, hy, hw'⟩, Or.inl rfl⟩
              · exact ⟨w ++ y ++ w', 0 :: j, by rw [hs]; simp, ⟨w, y, w', rfl, hw, hy, hw'⟩, Or.inr ⟨j, rfl⟩⟩
            · cases t <;> first | exact absurd rfl ht | (cases h; done)
    obtain ⟨doc, junk, he, h1, h2⟩ := hd
    rcases bom_split text with hb | hb
    · exact ⟨[], doc, junk, by rw [hb, he]; rfl, Or.inl rfl, h1, h2⟩
    · refine ⟨bom, doc, junk, ?_, Or.inr rfl, h1, h2⟩
      rw [he] at hb
      rw [hb, List.append_assoc]
  · rintro ⟨mark, doc, junk, rfl, hm, ⟨w, t, w', rfl, hw, ht, hw'⟩, hj⟩
    have hsep : Sep (w' ++ junk) := by
      apply sep_ws hw'
      rcases hj with rfl | ⟨r, rfl⟩
      · exact Or.inl rfl
      · exact Or.inr ⟨0, r, rfl, by simp⟩
    obtain ⟨⟨n, hn⟩, _⟩ := value_complete ft ht _ hsep
    have hs : skipBom (mark ++ (w ++ t ++ w') ++ junk) = w ++ (t ++ (w' ++ junk)) := by
      rcases hm with rfl | rfl
      · have e : [] ++ (w ++ t ++ w') ++ junk = w ++ (t ++ (w' ++ junk)) := by simp
        rw [e]
        generalize hg : w ++ (t ++ (w' ++ junk)) = s
        have hsc : scan ft s = scan ft (t ++ (w' ++ junk)) := by rw [← hg, scan_ws ft hw]
        rw [← hsc] at hn
        unfold skipBom
        split
        · rename_i a b c u
          rw [if_neg]
          rintro ⟨rfl, _, _⟩
          have : scan ft (0xEF :: b :: c :: u) = (.error, []) := rfl
          rw [this] at hn
          cases n with
          | zero => cases hn
          | succ n => simp only [parseValue] at hn; cases hn
        · rfl
      · simp [skipBom]
    unfold parse
    simp only [hs]
    obtain ⟨r, hr⟩ := parse_some ft (w ++ (t ++ (w' ++ junk)))
    have e : parseValue ft (max n (2 * (w ++ (t ++ (w' ++ junk))).length + 3)) (scan ft (w ++ (t ++ (w' ++ junk)))).1
        (scan ft (w ++ (t ++ (w' ++ junk)))).2 = some (.ok (v, w' ++ junk)) :=
      parse_more_le ft (Nat.le_max_left _ _) (by rw [scan_ws ft hw]; exact hn)
    have e' := parse_more_le ft (Nat.le_max_right n _) hr
    rw [e] at e'
    cases e'
    rw [hr]
    simp only
    have hend := scan_end ft hw' hj
    generalize scan ft (w' ++ junk) = p at hend
    obtain ⟨k, q⟩ := p
    cases hend
    rfl

end Wis
