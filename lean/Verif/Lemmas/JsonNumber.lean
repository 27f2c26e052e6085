import Verif.Lemmas.JsonText
/-!
# Numbers in JSON text
-/

namespace Wis
open Spec JsonText

/-- What may follow a value. -/
def Sep (s : Str) : Prop := s = [] ∨ ∃ c r, s = c :: r ∧ (c = c!"," ∨ c = c!"]" ∨ c = c!"}" ∨ c = c!" " ∨ c = 9 ∨ c = 10 ∨
  c = 13 ∨ c = 0)

theorem loop_end {st : NumState} (hf : numFinal st = true) (ty : NumType) (buf : Str) {rest : Str} (h : Sep rest) :
    scanNumberLoop st ty buf rest = some (numType st ty, buf, rest) := by
  rcases h with rfl | ⟨c, r, rfl, hc⟩
  · simp [scanNumberLoop, hf]
  · have hd : numStep st c = .done := by
      rcases hc with rfl | rfl | rfl | rfl | rfl | rfl | rfl | rfl <;> cases st <;> first | rfl | cases hf
    simp only [scanNumberLoop, hd]

/-- The states that read digits. -/
def digitState : NumState → Bool
  | .any1 | .decimal2 | .any2 => true
  | _ => false

theorem isDigit_iff {b : Byte} : isDigit b = true ↔ 0x30 ≤ b.toNat ∧ b.toNat ≤ 0x39 := by
  simp [isDigit]

theorem digit_next {st : NumState} (h : digitState st = true) {b : Byte} (hb : isDigit b = true) :
    numStep st b = .next st := by
  cases st <;> first | exact absurd h (by decide) | simp [numStep, hb]

theorem loop_digits {st : NumState} (h : digitState st = true) (ty : NumType) :
    ∀ (ds buf rest : Str), Digits ds → scanNumberLoop st ty buf (ds ++ rest) = scanNumberLoop st ty (buf ++ ds) rest := by
  intro ds
  induction ds with
  | nil => intro buf rest _; simp
  | cons d ds ih =>
    intro buf rest hd
    have h1 : isDigit d = true := isDigit_iff.mpr (hd d (by simp))
    have hty : numType st ty = ty := by cases st <;> first | exact absurd h (by decide) | rfl
    simp only [List.cons_append, scanNumberLoop, digit_next h h1, hty]
    rw [ih _ _ (fun b hb => hd b (by simp [hb])), List.append_assoc]
    rfl

theorem not_ws : ∀ n : Fin 256, ¬ ((BitVec.ofNat 8 n.val : Byte) = c!" " ∨ (BitVec.ofNat 8 n.val : Byte) = 9 ∨
    (BitVec.ofNat 8 n.val : Byte) = 10 ∨ (BitVec.ofNat 8 n.val : Byte) = 13) ∨ n.val ≤ 0x20 := by decide +kernel

theorem skipWs_id {c : Byte} (h : 0x20 < c.toNat) (s : Str) : skipWs (c :: s) = c :: s := by
  have := not_ws ⟨c.toNat, c.isLt⟩
  simp only [BitVec.ofNat_toNat, BitVec.setWidth_eq] at this
  rw [skipWs, if_neg (this.resolve_right (by omega))]

theorem num_first : ∀ n : Fin 256, ((BitVec.ofNat 8 n.val : Byte) = c!"-" ∨ isDigit (BitVec.ofNat 8 n.val)) →
    (BitVec.ofNat 8 n.val : Byte) ≠ c!"[" ∧ (BitVec.ofNat 8 n.val : Byte) ≠ c!"]" ∧ (BitVec.ofNat 8 n.val : Byte) ≠ c!"{" ∧
    (BitVec.ofNat 8 n.val : Byte) ≠ c!"}" ∧ (BitVec.ofNat 8 n.val : Byte) ≠ c!":" ∧ (BitVec.ofNat 8 n.val : Byte) ≠ c!"," ∧
    (BitVec.ofNat 8 n.val : Byte) ≠ c!"t" ∧ (BitVec.ofNat 8 n.val : Byte) ≠ c!"f" ∧ (BitVec.ofNat 8 n.val : Byte) ≠ c!"n" ∧
    (BitVec.ofNat 8 n.val : Byte) ≠ c!"\"" ∧ 0x20 < n.val := by decide +kernel

/-- A number token is scanned by `scan_number`. -/
theorem scan_num (ft : FloatText) {c : Byte} (h : c = c!"-" ∨ isDigit c) (s : Str) : scan ft (c :: s) = scanNumber ft c s := by
  have := num_first ⟨c.toNat, c.isLt⟩
  simp only [BitVec.ofNat_toNat, BitVec.setWidth_eq] at this
  obtain ⟨h1, h2, h3, h4, h5, h6, h7, h8, h9, h10, h11⟩ := this h
  unfold scan
  rw [skipWs_id h11, scanTok, if_neg h1, if_neg h2, if_neg h3, if_neg h4, if_neg h5, if_neg h6, if_neg h7, if_neg h8,
    if_neg h9, if_neg h10, if_pos h]

/-! ## Integers -/

theorem digitsVal_append (l : Str) (b : Byte) : digitsVal (l ++ [b]) = digitsVal l * 10 + (b.toNat - 0x30) := by
  simp [digitsVal]

theorem dumpDigits_spec : ∀ (n k : Nat) (x : Int), x.natAbs < 10 ^ k → k < n →
    ∃ r, dumpDigits n x = .ok r ∧ Digits r ∧ digitsVal r.reverse = x.natAbs ∧
      (x ≠ 0 → ∃ d ds, r.reverse = d :: ds ∧ 0x31 ≤ d.toNat) := by
  intro n
  induction n with
  | zero => intro k x _ h; omega
  | succ n ih =>
    intro k x hx hk
    by_cases h0 : x = 0
    · subst h0
      exact ⟨[], by simp [dumpDigits], fun b hb => by simp at hb, rfl, fun h => absurd rfl h⟩
    · have hk0 : k ≠ 0 := by
        rintro rfl
        have : x.natAbs ≠ 0 := Int.natAbs_ne_zero.mpr h0
        simp only [Nat.pow_zero] at hx
        omega
      obtain ⟨k, rfl⟩ : ∃ k', k = k' + 1 := ⟨k - 1, by omega⟩
      have hdiv : (x.tdiv 10).natAbs = x.natAbs / 10 := by rw [Int.natAbs_tdiv]; rfl
      have hmod : (x.tmod 10).natAbs = x.natAbs % 10 := by rw [Int.natAbs_tmod]; rfl
      obtain ⟨r, h1, h2, h3, h4⟩ := ih k (x.tdiv 10) (by
        rw [hdiv]
        rw [Nat.pow_succ] at hx
        omega) (by omega)
      have hd : (BitVec.ofNat 8 (0x30 + (x.tmod 10).natAbs) : Byte).toNat = 0x30 + x.natAbs % 10 := by
        rw [BitVec.toNat_ofNat, hmod]
        omega
      refine ⟨BitVec.ofNat 8 (0x30 + (x.tmod 10).natAbs) :: r, ?_, ?_, ?_, ?_⟩
      · simp only [dumpDigits, if_neg h0, h1, Except.bind_ok]
      · intro b hb
        rcases List.mem_cons.mp hb with rfl | hb
        · rw [hd]; omega
        · exact h2 b hb
      · rw [List.reverse_cons, digitsVal_append, h3, hd, hdiv]
        omega
      · intro _
        by_cases hq : x.tdiv 10 = 0
        · rw [hq] at h1 hdiv
          have : r = [] := by
            cases n with
            | zero => simp [dumpDigits] at h1
            | succ n => simp [dumpDigits] at h1; exact h1
          subst this
          refine ⟨_, [], rfl, ?_⟩
          rw [hd]
          simp only [Int.natAbs_zero] at hdiv
          have : x.natAbs ≠ 0 := Int.natAbs_ne_zero.mpr h0
          omega
        · obtain ⟨d, ds, h5, h6⟩ := h4 hq
          exact ⟨d, ds ++ [BitVec.ofNat 8 (0x30 + (x.tmod 10).natAbs)], by rw [List.reverse_cons, h5]; rfl, h6⟩

theorem digits_reverse {r : Str} (h : Digits r) : Digits r.reverse := fun b hb => h b (by simpa using hb)

/-- An integer of 64 bits is written and read back. -/
theorem integer_roundtrip (ft : FloatText) {x : Int} (h1 : -2 ^ 63 ≤ x) (h2 : x < 2 ^ 64) :
    ∃ t, dumpInteger x = .ok t ∧ t ≠ [] ∧ ∀ rest, Sep rest → scan ft (t ++ rest) = (.int x, rest) := by
  by_cases h0 : x = 0
  · subst h0
    refine ⟨b!"0", rfl, by simp, ?_⟩
    intro rest hr
    rw [List.cons_append, List.nil_append, scan_num ft (Or.inr (by decide))]
    unfold scanNumber
    rw [if_neg (by decide), if_pos rfl]
    simp only [loop_end (st := .zero) rfl _ _ hr]
    rfl
  · obtain ⟨r, hr1, hr2, hr3, hr4⟩ := dumpDigits_spec 63 20 x (by omega) (by omega)
    obtain ⟨d, ds, hr5, hr6⟩ := hr4 h0
    have hdig : Digits (d :: ds) := by rw [← hr5]; exact digits_reverse hr2
    have hd : isDigit d = true := isDigit_iff.mpr (hdig d (by simp))
    have hd0 : d ≠ c!"0" := by
      rintro rfl
      exact absurd hr6 (by decide)
    have hdm : d ≠ c!"-" := by
      rintro rfl
      exact absurd hr6 (by decide)
    rw [hr5] at hr3
    unfold dumpInteger
    rw [if_neg h0, hr1, Except.bind_ok]
    by_cases hneg : x < 0
    · refine ⟨c!"-" :: d :: ds, ?_, by simp, ?_⟩
      · simp only [if_pos hneg, List.reverse_append, hr5]
        rfl
      · intro rest hs
        rw [List.cons_append, scan_num ft (Or.inl rfl)]
        unfold scanNumber
        rw [if_pos rfl]
        have hm : numStep .minus d = .next .any1 := by simp [numStep, hd0, hd]
        simp only [List.cons_append, scanNumberLoop, hm]
        rw [loop_digits (st := .any1) rfl _ ds _ _ (fun b hb => hdig b (by simp [hb])), loop_end (st := .any1) rfl _ _ hs]
        have hv : digitsVal ((c!"-" :: ([] ++ [d]) ++ ds).drop 1) = x.natAbs := by rw [← hr3]; rfl
        simp only [numType, numberTok]
        rw [hv, if_pos (by omega)]
        congr 2
        omega
    · refine ⟨d :: ds, by simp only [if_neg hneg, hr5], by simp, ?_⟩
      intro rest hs
      rw [List.cons_append, scan_num ft (Or.inr hd)]
      unfold scanNumber
      simp only [if_neg hdm, if_neg hd0]
      rw [loop_digits (st := .any1) rfl _ ds _ _ (fun b hb => hdig b (by simp [hb])),
        loop_end (st := .any1) rfl _ _ hs]
      have hv : digitsVal ([d] ++ ds) = x.natAbs := by rw [← hr3]; rfl
      simp only [numType, numberTok]
      rw [hv, if_pos (by omega)]
      congr 2
      omega

/-! ## Floating point numbers -/

theorem exp_loop {exp : Str} (h : exp = [] ∨ ∃ e sg ds, exp = e ++ sg ++ ds ∧ (e = b!"e" ∨ e = b!"E") ∧
      (sg = [] ∨ sg = b!"+" ∨ sg = b!"-") ∧ ds ≠ [] ∧ Digits ds)
    {st : NumState} (hst : st = .zero ∨ st = .any1 ∨ st = .decimal2) (ty : NumType) (hty : exp ≠ [] ∨ ty = .float)
    (buf : Str) {rest : Str} (hr : Sep rest) :
    scanNumberLoop st ty buf (exp ++ rest) = some (.float, buf ++ exp, rest) := by
  rcases h with rfl | ⟨e, sg, ds, rfl, he, hsg, hne, hds⟩
  · rw [List.nil_append, List.append_nil, loop_end (by rcases hst with rfl | rfl | rfl <;> rfl) _ _ hr]
    have : ty = .float := hty.resolve_left (by simp)
    subst this
    rcases hst with rfl | rfl | rfl <;> rfl
  · cases ds with
    | nil => exact absurd rfl hne
    | cons d ds =>
      have hd : isDigit d = true := isDigit_iff.mpr (hds d (by simp))
      have hds' : Digits ds := fun b hb => hds b (by simp [hb])
      have hdp : d ≠ c!"+" ∧ d ≠ c!"-" := by
        have := isDigit_iff.mp hd
        constructor <;> rintro rfl <;> exact absurd this (by decide)
      have h1 : ∀ ec, (ec = c!"e" ∨ ec = c!"E") → numStep st ec = .next .exponent := by
        intro ec hec
        rcases hec with rfl | rfl <;> rcases hst with rfl | rfl | rfl <;> rfl
      obtain ⟨ec, rfl, hec⟩ : ∃ ec, e = [ec] ∧ (ec = c!"e" ∨ ec = c!"E") := by
        rcases he with rfl | rfl
        · exact ⟨_, rfl, Or.inl rfl⟩
        · exact ⟨_, rfl, Or.inr rfl⟩
      rcases hsg with rfl | hsg
      · have h2 : numStep .exponent d = .next .any2 := by simp [numStep, hd, hdp]
        simp only [List.cons_append, List.nil_append, List.append_nil, scanNumberLoop, h1 ec hec, h2]
        rw [loop_digits (st := .any2) rfl _ ds _ _ hds', loop_end (st := .any2) rfl _ _ hr]
        simp [numType]
      · obtain ⟨sc, rfl, hsc⟩ : ∃ sc, sg = [sc] ∧ (sc = c!"+" ∨ sc = c!"-") := by
          rcases hsg with rfl | rfl
          · exact ⟨_, rfl, Or.inl rfl⟩
          · exact ⟨_, rfl, Or.inr rfl⟩
        have h2 : numStep .exponent sc = .next .sign := by simp [numStep, hsc]
        have h3 : numStep .sign d = .next .any2 := by simp [numStep, hd]
        simp only [List.cons_append, List.nil_append, scanNumberLoop, h1 ec hec, h2, h3]
        rw [loop_digits (st := .any2) rfl _ ds _ _ hds', loop_end (st := .any2) rfl _ _ hr]
        simp [numType]

theorem frac_loop {frac exp : Str} (hf : frac = [] ∨ ∃ ds, frac = b!"." ++ ds ∧ ds ≠ [] ∧ Digits ds)
    (h : exp = [] ∨ ∃ e sg ds, exp = e ++ sg ++ ds ∧ (e = b!"e" ∨ e = b!"E") ∧
      (sg = [] ∨ sg = b!"+" ∨ sg = b!"-") ∧ ds ≠ [] ∧ Digits ds) (hne : frac ≠ [] ∨ exp ≠ [])
    {st : NumState} (hst : st = .zero ∨ st = .any1) (ty : NumType) (buf : Str) {rest : Str} (hr : Sep rest) :
    scanNumberLoop st ty buf (frac ++ exp ++ rest) = some (.float, buf ++ frac ++ exp, rest) := by
  rcases hf with rfl | ⟨ds, rfl, hn, hds⟩
  · rw [List.nil_append, List.append_nil,
      exp_loop h (by rcases hst with rfl | rfl <;> simp) ty (Or.inl (hne.resolve_left (by simp))) buf hr]
  · cases ds with
    | nil => exact absurd rfl hn
    | cons d ds =>
      have hd : isDigit d = true := isDigit_iff.mpr (hds d (by simp))
      have h1 : numStep st c!"." = .next .decimal1 := by rcases hst with rfl | rfl <;> rfl
      have h2 : numStep .decimal1 d = .next .decimal2 := by simp [numStep, hd]
      simp only [List.cons_append, List.nil_append, List.append_assoc, scanNumberLoop, h1, h2]
      rw [loop_digits (st := .decimal2) rfl _ ds _ _ (fun b hb => hds b (by simp [hb])),
        exp_loop h (Or.inr (Or.inr rfl)) (numType .decimal1 (numType st ty)) (Or.inr rfl) _ hr]
      simp

/-- A floating point number token is scanned completely. -/
theorem float_scan (ft : FloatText) {t : Str} (h : FloatToken t) {rest : Str} (hr : Sep rest) :
    t ≠ [] ∧ scan ft (t ++ rest) = (realTok ft t, rest) := by
  obtain ⟨sign, int, frac, exp, rfl, hs, hi, hf, he, hne⟩ := h
  obtain ⟨d, ds, rfl, hd1, hd⟩ : ∃ d ds, int = d :: ds ∧ isDigit d = true ∧
      ((d = c!"0" ∧ ds = []) ∨ (d ≠ c!"0" ∧ Digits ds)) := by
    rcases hi with rfl | ⟨d, ds, rfl, h1, h2, h3⟩
    · exact ⟨_, [], rfl, rfl, Or.inl ⟨rfl, rfl⟩⟩
    · exact ⟨d, ds, rfl, isDigit_iff.mpr ⟨by omega, h2⟩, Or.inr ⟨by rintro rfl; exact absurd h1 (by decide), h3⟩⟩
  have hdm : d ≠ c!"-" := by
    rintro rfl
    exact absurd hd1 (by decide)
  have core : ∀ buf ty, scanNumberLoop (if d = c!"0" then .zero else .any1) ty buf (ds ++ frac ++ exp ++ rest) =
      some (.float, buf ++ ds ++ frac ++ exp, rest) := by
    intro buf ty
    rcases hd with ⟨rfl, rfl⟩ | ⟨h0, h1⟩
    · rw [if_pos rfl, List.nil_append, frac_loop hf he hne (by simp) ty buf hr, List.append_nil]
    · rw [if_neg h0, List.append_assoc, List.append_assoc, loop_digits (st := .any1) rfl _ ds _ _ h1,
        ← List.append_assoc, frac_loop hf he hne (by simp) ty _ hr]
  refine ⟨by rcases hs with rfl | rfl <;> simp, ?_⟩
  rcases hs with rfl | rfl
  · simp only [List.nil_append, List.cons_append]
    rw [scan_num ft (Or.inr hd1)]
    unfold scanNumber
    simp only [if_neg hdm, core]
    rfl
  · simp only [List.nil_append, List.cons_append]
    rw [scan_num ft (Or.inl rfl)]
    unfold scanNumber
    have hm : numStep .minus d = .next (if d = c!"0" then .zero else .any1) := by
      by_cases h : d = c!"0" <;> simp [numStep, h, hd1]
    rw [if_pos rfl]
    simp only [scanNumberLoop, hm]
    rw [core]
    rfl

end Wis
