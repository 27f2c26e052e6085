import Verif.Lemmas.JsonStrings
/-!
# Numbers: the scanner reads exactly the grammar
-/

namespace Wis
open Spec JsonText

/-- A fraction part, possibly empty. -/
def FracPart (s : Str) : Prop := s = [] ∨ ∃ ds, s = b!"." ++ ds ∧ ds ≠ [] ∧ Digits ds

/-- An exponent part, possibly empty. -/
def ExpPart (s : Str) : Prop := s = [] ∨ ∃ e sg ds, s = e ++ sg ++ ds ∧ (e = b!"e" ∨ e = b!"E") ∧
  (sg = [] ∨ sg = b!"+" ∨ sg = b!"-") ∧ ds ≠ [] ∧ Digits ds

/-- The type after a fraction and an exponent. -/
def typeAfter (ty : NumType) (frac exp : Str) (ty' : NumType) : Prop :=
  (frac = [] ∧ exp = [] ∧ ty' = ty) ∨ ((frac ≠ [] ∨ exp ≠ []) ∧ ty' = .float)

/-- What can follow a state of the number scanner. -/
def Tail : NumState → NumType → Str → NumType → Prop
  | .any2, ty, x, ty' => Digits x ∧ ty' = ty
  | .sign, ty, x, ty' => x ≠ [] ∧ Digits x ∧ ty' = ty
  | .exponent, _, x, ty' => ∃ sg ds, x = sg ++ ds ∧ (sg = [] ∨ sg = b!"+" ∨ sg = b!"-") ∧ ds ≠ [] ∧ Digits ds ∧ ty' = .float
  | .decimal2, ty, x, ty' => ∃ ds exp, x = ds ++ exp ∧ Digits ds ∧ ExpPart exp ∧ ((exp = [] ∧ ty' = ty) ∨ (exp ≠ [] ∧ ty' = .float))
  | .decimal1, _, x, ty' => ∃ ds exp, x = ds ++ exp ∧ ds ≠ [] ∧ Digits ds ∧ ExpPart exp ∧ ty' = .float
  | .any1, ty, x, ty' => ∃ ds frac exp, x = ds ++ frac ++ exp ∧ Digits ds ∧ FracPart frac ∧ ExpPart exp ∧ typeAfter ty frac exp ty'
  | .zero, ty, x, ty' => ∃ frac exp, x = frac ++ exp ∧ FracPart frac ∧ ExpPart exp ∧ typeAfter ty frac exp ty'
  | .minus, _, x, ty' => ∃ int frac exp, x = int ++ frac ++ exp ∧ IntPart int ∧ FracPart frac ∧ ExpPart exp ∧
      typeAfter .integer frac exp ty'

theorem digits_nil : Digits [] := fun _ h => by cases h
theorem digits_cons {d : Byte} {ds : Str} (h : isDigit d = true) (hd : Digits ds) : Digits (d :: ds) := by
  intro b hb
  rcases List.mem_cons.mp hb with rfl | hb
  · exact isDigit_iff.mp h
  · exact hd b hb
theorem frac_nil : FracPart [] := Or.inl rfl
theorem exp_nil : ExpPart [] := Or.inl rfl
theorem typeAfter_nil (ty : NumType) : typeAfter ty [] [] ty := Or.inl ⟨rfl, rfl, rfl⟩

/-- Nothing more. -/
theorem tail_nil {st : NumState} (hf : numFinal st = true) (ty : NumType) : Tail st ty [] (numType st ty) := by
  cases st <;> first | cases hf; done | skip
  · exact ⟨[], [], rfl, frac_nil, exp_nil, typeAfter_nil _⟩
  · exact ⟨[], [], [], rfl, digits_nil, frac_nil, exp_nil, typeAfter_nil _⟩
  · exact ⟨[], [], rfl, digits_nil, exp_nil, Or.inl ⟨rfl, rfl⟩⟩
  · exact ⟨digits_nil, rfl⟩

theorem exp_of_tail {c : Byte} (hc : c = c!"e" ∨ c = c!"E") {ty ty' : NumType} {x : Str} (h : Tail .exponent ty x ty') :
    ExpPart (c :: x) ∧ ty' = .float := by
  obtain ⟨sg, ds, rfl, h1, h2, h3, h4⟩ := h
  refine ⟨Or.inr ⟨[c], sg, ds, by simp, ?_, h1, h2, h3⟩, h4⟩
  rcases hc with rfl | rfl <;> simp

theorem frac_of_tail {ty ty' : NumType} {x : Str} (h : Tail .decimal1 ty x ty') :
    ∃ frac exp, c!"." :: x = frac ++ exp ∧ frac ≠ [] ∧ FracPart frac ∧ ExpPart exp ∧ ty' = .float := by
  obtain ⟨ds, exp, rfl, h1, h2, h3, h4⟩ := h
  exact ⟨b!"." ++ ds, exp, rfl, by simp, Or.inr ⟨ds, rfl, h1, h2⟩, h3, h4⟩

theorem tail_cons {st st' : NumState} {c : Byte} (hs : numStep st c = .next st') {ty ty' : NumType} {x : Str}
    (h : Tail st' (numType st ty) x ty') : Tail st ty (c :: x) ty' := by
  cases st <;> unfold numStep at hs <;> simp only at hs
  case minus =>
    rcases ite_eq_or hs with ⟨rfl, e⟩ | ⟨h0, e⟩
    · cases e
      obtain ⟨frac, exp, rfl, h1, h2, h3⟩ := h
      exact ⟨b!"0", frac, exp, rfl, Or.inl rfl, h1, h2, h3⟩
    rcases ite_eq_or e with ⟨hd, e⟩ | ⟨_, e⟩
    · cases e
      obtain ⟨ds, frac, exp, rfl, h0', h1, h2, h3⟩ := h
      have hd' := isDigit_iff.mp hd
      have : c.toNat ≠ 0x30 := fun h => h0 (BitVec.eq_of_toNat_eq h)
      exact ⟨c :: ds, frac, exp, rfl, Or.inr ⟨c, ds, rfl, by omega, hd'.2, h0'⟩, h1, h2, h3⟩
    · cases e
  case zero =>
    rcases ite_eq_or hs with ⟨rfl, e⟩ | ⟨_, e⟩
    · cases e
      obtain ⟨frac, exp, he, hn, h1, h2, rfl⟩ := frac_of_tail h
      exact ⟨frac, exp, he, h1, h2, Or.inr ⟨Or.inl hn, rfl⟩⟩
    rcases ite_eq_or e with ⟨he, e⟩ | ⟨_, e⟩
    · cases e
      obtain ⟨h1, rfl⟩ := exp_of_tail he h
      exact ⟨[], c :: x, rfl, frac_nil, h1, Or.inr ⟨Or.inr (by simp), rfl⟩⟩
    · cases e
  case any1 =>
    rcases ite_eq_or hs with ⟨hd, e⟩ | ⟨_, e⟩
    · cases e
      obtain ⟨ds, frac, exp, rfl, h0, h1, h2, h3⟩ := h
      exact ⟨c :: ds, frac, exp, rfl, digits_cons hd h0, h1, h2, h3⟩
    rcases ite_eq_or e with ⟨rfl, e⟩ | ⟨_, e⟩
    · cases e
      obtain ⟨frac, exp, he, hn, h1, h2, rfl⟩ := frac_of_tail h
      exact ⟨[], frac, exp, by simp [he], digits_nil, h1, h2, Or.inr ⟨Or.inl hn, rfl⟩⟩
    rcases ite_eq_or e with ⟨he, e⟩ | ⟨_, e⟩
    · cases e
      obtain ⟨h1, rfl⟩ := exp_of_tail he h
      exact ⟨[], [], c :: x, rfl, digits_nil, frac_nil, h1, Or.inr ⟨Or.inr (by simp), rfl⟩⟩
    · cases e
  case decimal1 =>
    rcases ite_eq_or hs with ⟨hd, e⟩ | ⟨_, e⟩
    · cases e
      obtain ⟨ds, exp, rfl, h0, h1, h2⟩ := h
      refine ⟨c :: ds, exp, rfl, by simp, digits_cons hd h0, h1, ?_⟩
      rcases h2 with ⟨_, h⟩ | ⟨_, h⟩ <;> exact h
    · cases e
  case decimal2 =>
    rcases ite_eq_or hs with ⟨hd, e⟩ | ⟨_, e⟩
    · cases e
      obtain ⟨ds, exp, rfl, h0, h1, h2⟩ := h
      exact ⟨c :: ds, exp, rfl, digits_cons hd h0, h1, h2⟩
    rcases ite_eq_or e with ⟨he, e⟩ | ⟨_, e⟩
    · cases e
      obtain ⟨h1, rfl⟩ := exp_of_tail he h
      exact ⟨[], c :: x, rfl, digits_nil, h1, Or.inr ⟨by simp, rfl⟩⟩
    · cases e
  case exponent =>
    rcases ite_eq_or hs with ⟨hc, e⟩ | ⟨_, e⟩
    · cases e
      obtain ⟨h0, h1, rfl⟩ := h
      refine ⟨[c], x, rfl, ?_, h0, h1, rfl⟩
      rcases hc with rfl | rfl <;> simp
    rcases ite_eq_or e with ⟨hd, e⟩ | ⟨_, e⟩
    · cases e
      obtain ⟨h0, rfl⟩ := h
      exact ⟨[], c :: x, rfl, Or.inl rfl, by simp, digits_cons hd h0, rfl⟩
    · cases e
  case sign =>
    rcases ite_eq_or hs with ⟨hd, e⟩ | ⟨_, e⟩
    · cases e
      obtain ⟨h0, rfl⟩ := h
      exact ⟨by simp, digits_cons hd h0, rfl⟩
    · cases e
  case any2 =>
    rcases ite_eq_or hs with ⟨hd, e⟩ | ⟨_, e⟩
    · cases e
      obtain ⟨h0, rfl⟩ := h
      exact ⟨digits_cons hd h0, rfl⟩
    · cases e

theorem done_final {st : NumState} {c : Byte} (h : numStep st c = .done) : numFinal st = true := by
  cases st <;> unfold numStep at h <;> simp only at h <;> first
    | rfl
    | (exfalso; repeat' (first | (cases h; done) | split at h))

theorem scanNumberLoop_sound : ∀ (s : Str) (st : NumState) (ty ty' : NumType) (buf buf' rest : Str),
    scanNumberLoop st ty buf s = some (ty', buf', rest) → ∃ x, s = x ++ rest ∧ buf' = buf ++ x ∧ Tail st ty x ty' := by
  intro s
  induction s with
  | nil =>
    intro st ty ty' buf buf' rest h
    rw [scanNumberLoop] at h
    rcases ite_eq_or h with ⟨hf, e⟩ | ⟨_, e⟩
    · cases e
      exact ⟨[], rfl, by simp, tail_nil hf ty⟩
    · cases e
  | cons c s ih =>
    intro st ty ty' buf buf' rest h
    rw [scanNumberLoop] at h
    split at h
    · rename_i st' hst
      obtain ⟨x, rfl, rfl, hx⟩ := ih _ _ _ _ _ _ h
      exact ⟨c :: x, rfl, by simp, tail_cons hst hx⟩
    · rename_i hst
      cases h
      exact ⟨[], rfl, by simp, tail_nil (done_final hst) ty⟩
    · cases h

theorem tok_unsigned (ft : FloatText) (s : Str) :
    numberTok ft .unsigned s = if natOf s < 18446744073709551616 then .int (natOf s) else realTok ft s := rfl
theorem tok_integer (ft : FloatText) (s : Str) :
    numberTok ft .integer (b!"-" ++ s) =
      if natOf s ≤ 9223372036854775808 then .int (-(natOf s : Int)) else realTok ft (b!"-" ++ s) := rfl

/-- The token and the value of a number. -/
def TokNum (ft : FloatText) (x : Str) : Tok → Prop
  | .int i => NumberText ft x (.int i)
  | .real q => NumberText ft x (.real q)
  | .inf => True
  | _ => False

theorem numberTok_float {ft : FloatText} {x : Str} (h : FloatToken x) : TokNum ft x (realTok ft x) := by
  unfold realTok
  split
  · rename_i q hq; exact .float h hq
  · trivial

theorem numberTok_sound (ft : FloatText) {sign int frac exp : Str} {ty : NumType} (hs : sign = [] ∨ sign = b!"-")
    (hi : IntPart int) (hf : FracPart frac) (he : ExpPart exp)
    (ht : typeAfter (if sign = [] then .unsigned else .integer) frac exp ty) :
    TokNum ft (sign ++ int ++ frac ++ exp) (numberTok ft ty (sign ++ int ++ frac ++ exp)) := by
  rcases ht with ⟨rfl, rfl, rfl⟩ | ⟨hn, rfl⟩
  · rw [List.append_nil, List.append_nil]
    rcases hs with rfl | rfl
    · rw [if_pos rfl]
      rw [List.nil_append, tok_unsigned]
      by_cases hb : natOf int < 18446744073709551616
      · rw [if_pos hb]; exact .nat hi hb
      · rw [if_neg hb]
        unfold realTok
        split
        · rename_i q hq; exact .bigNat hi (by omega) hq
        · trivial
    · rw [if_neg (by simp)]
      rw [tok_integer]
      by_cases hb : natOf int ≤ 9223372036854775808
      · rw [if_pos hb]; exact .neg hi hb
      · rw [if_neg hb]
        unfold realTok
        split
        · rename_i q hq; exact .bigNeg hi (by omega) hq
        · trivial
  · exact numberTok_float ⟨sign, int, frac, exp, rfl, hs, hi, hf, he, hn⟩

theorem scanNumber_sound (ft : FloatText) {c : Byte} (hc : c = c!"-" ∨ isDigit c) {s : Str} {t : Tok} {rest : Str}
    (h : scanNumber ft c s = (t, rest)) : t = .error ∨ ∃ x, c :: s = x ++ rest ∧ TokNum ft x t := by
  unfold scanNumber at h
  simp only at h
  generalize hst : (if c = c!"-" then NumState.minus else if c = c!"0" then .zero else .any1) = st at h
  cases hl : scanNumberLoop st .unsigned [c] s with
  | none => rw [hl] at h; cases h; exact Or.inl rfl
  | some p =>
    obtain ⟨ty, buf, r⟩ := p
    rw [hl] at h
    cases h
    right
    subst hst
    obtain ⟨x, rfl, rfl, hx⟩ := scanNumberLoop_sound _ _ _ _ _ _ _ hl
    refine ⟨c :: x, rfl, ?_⟩
    by_cases h1 : c = c!"-"
    · subst h1
      rw [if_pos rfl] at hx
      obtain ⟨int, frac, exp, rfl, hi, hf, he, ht⟩ := hx
      have := numberTok_sound ft (sign := b!"-") (Or.inr rfl) hi hf he ht
      simpa using this
    · rw [if_neg h1] at hx
      have hd := isDigit_iff.mp (hc.resolve_left h1)
      by_cases h0 : c = c!"0"
      · subst h0
        rw [if_pos rfl] at hx
        obtain ⟨frac, exp, rfl, hf, he, ht⟩ := hx
        have := numberTok_sound ft (sign := []) (int := b!"0") (Or.inl rfl) (Or.inl rfl) hf he ht
        simpa using this
      · rw [if_neg h0] at hx
        obtain ⟨ds, frac, exp, rfl, hds, hf, he, ht⟩ := hx
        have h0' : c.toNat ≠ 0x30 := fun h => h0 (BitVec.eq_of_toNat_eq h)
        have := numberTok_sound ft (sign := []) (int := c :: ds) (Or.inl rfl)
          (Or.inr ⟨c, ds, rfl, by omega, hd.2, hds⟩) hf he ht
        simpa using this

/-! ## Completeness -/

/-- The scanner on an integer. -/
theorem int_loop {int : Str} (hi : IntPart int) : ∃ d ds, int = d :: ds ∧ isDigit d = true ∧ d ≠ c!"-" ∧
    ∀ ty (buf : Str) (rest : Str), Sep rest →
      scanNumberLoop (if d = c!"0" then .zero else .any1) ty buf (ds ++ rest) = some (ty, buf ++ ds, rest) := by
  rcases hi with rfl | ⟨d, ds, rfl, h1, h2, h3⟩
  · refine ⟨_, [], rfl, rfl, by decide, ?_⟩
    intro ty buf rest hr
    rw [if_pos rfl, List.nil_append, loop_end (st := .zero) rfl _ _ hr, List.append_nil]
    rfl
  · have h0 : d ≠ c!"0" := by rintro rfl; exact absurd h1 (by decide)
    refine ⟨d, ds, rfl, isDigit_iff.mpr ⟨by omega, h2⟩, by rintro rfl; exact absurd h1 (by decide), ?_⟩
    intro ty buf rest hr
    rw [if_neg h0, loop_digits (st := .any1) rfl _ ds _ _ h3, loop_end (st := .any1) rfl _ _ hr]
    rfl

theorem nat_scan (ft : FloatText) {int rest : Str} (hi : IntPart int) (hr : Sep rest) :
    int ≠ [] ∧ scan ft (int ++ rest) = (numberTok ft .unsigned int, rest) := by
  obtain ⟨d, ds, rfl, hd, hm, hl⟩ := int_loop hi
  refine ⟨by simp, ?_⟩
  rw [List.cons_append, scan_num ft (Or.inr hd)]
  unfold scanNumber
  simp only [if_neg hm, hl _ _ _ hr]
  rfl

theorem neg_scan (ft : FloatText) {int rest : Str} (hi : IntPart int) (hr : Sep rest) :
    scan ft (b!"-" ++ int ++ rest) = (numberTok ft .integer (b!"-" ++ int), rest) := by
  obtain ⟨d, ds, rfl, hd, hm, hl⟩ := int_loop hi
  simp only [List.cons_append, List.nil_append]
  rw [scan_num ft (Or.inl rfl)]
  unfold scanNumber
  have hmi : numStep .minus d = .next (if d = c!"0" then .zero else .any1) := by
    by_cases h : d = c!"0" <;> simp [numStep, h, hd]
  rw [if_pos rfl]
  simp only [scanNumberLoop, hmi, hl _ _ _ hr]
  rfl

theorem number_scan (ft : FloatText) {t : Str} {v : Json} (h : NumberText ft t v) {rest : Str} (hr : Sep rest) :
    t ≠ [] ∧ ∃ k, scan ft (t ++ rest) = (k, rest) ∧ k ≠ .rbrack ∧ ∀ n s, parseValue ft (n + 1) k s = some (.ok (v, s)) := by
  cases h with
  | nat hi hb =>
    obtain ⟨h1, h2⟩ := nat_scan ft hi hr
    refine ⟨h1, _, h2, ?_⟩
    rw [tok_unsigned]
    rw [if_pos hb]
    exact ⟨by simp, fun n s => by simp only [parseValue]⟩
  | neg hi hb =>
    refine ⟨by simp, _, neg_scan ft hi hr, ?_⟩
    rw [tok_integer]
    rw [if_pos hb]
    exact ⟨by simp, fun n s => by simp only [parseValue]⟩
  | bigNat hi hb hq =>
    obtain ⟨h1, h2⟩ := nat_scan ft hi hr
    refine ⟨h1, _, h2, ?_⟩
    rw [tok_unsigned]
    rw [if_neg (by omega)]
    unfold realTok
    rw [hq]
    exact ⟨by simp, fun n s => by simp only [parseValue]⟩
  | bigNeg hi hb hq =>
    refine ⟨by simp, _, neg_scan ft hi hr, ?_⟩
    rw [tok_integer]
    rw [if_neg (by omega)]
    unfold realTok
    rw [hq]
    exact ⟨by simp, fun n s => by simp only [parseValue]⟩
  | float hf hq =>
    obtain ⟨h1, h2⟩ := float_scan ft hf hr
    refine ⟨h1, _, h2, ?_⟩
    unfold realTok
    rw [hq]
    exact ⟨by simp, fun n s => by simp only [parseValue]⟩

end Wis
