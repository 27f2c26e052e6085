import Verif.Lemmas.GrisuRound
import Verif.Spec.Grisu
/-!
# The characters
-/

namespace Wis.Grisu
open Spec

theorem natOf_acc : ∀ (s : Str) (a : Nat), s.foldl (fun n b => n * 10 + (b.toNat - 0x30)) a = a * 10 ^ s.length + natOf s
  | [], a => by simp [natOf]
  | b :: s, a => by
    have h0 : natOf (b :: s) = s.foldl (fun n b => n * 10 + (b.toNat - 0x30)) (0 * 10 + (b.toNat - 0x30)) := rfl
    rw [List.foldl_cons, natOf_acc s, h0, natOf_acc s, List.length_cons, pow_succ]
    ring

theorem natOf_append (a b : Str) : natOf (a ++ b) = natOf a * 10 ^ b.length + natOf b := by
  conv_lhs => unfold natOf
  rw [List.foldl_append, natOf_acc]
  rfl

theorem natOf_zeros : ∀ k : Nat, natOf (List.replicate k c!"0") = 0
  | 0 => rfl
  | k + 1 => by
    rw [List.replicate_succ', natOf_append, natOf_zeros k]
    rfl

theorem digitChar_toNat {d : Nat} (h : d ≤ 9) : (digitChar d).toNat = 0x30 + d := by
  unfold digitChar
  rw [BitVec.toNat_ofNat]
  omega

theorem natOf_map : ∀ (l : List Nat), (∀ d ∈ l, d ≤ 9) → ∀ a, (l.map digitChar).foldl (fun n b => n * 10 + (b.toNat - 0x30)) a =
    l.foldl (fun a d => a * 10 + d) a
  | [], _, a => rfl
  | d :: l, h, a => by
    rw [List.map_cons, List.foldl_cons, List.foldl_cons, natOf_map l (fun x hx => h x (List.mem_cons_of_mem _ hx)),
      digitChar_toNat (h d (List.mem_cons_self ..)), Nat.add_sub_cancel_left]

theorem natOf_digits {l : List Nat} (h : Dec l) : natOf (l.map digitChar) = val l := natOf_map l h.1 0

theorem digits_map {l : List Nat} (h : ∀ d ∈ l, d ≤ 9) : Digits (l.map digitChar) := by
  intro b hb
  obtain ⟨d, hd, rfl⟩ := List.mem_map.1 hb
  have := digitChar_toNat (h d hd)
  have := h d hd
  omega

theorem digits_append {a b : Str} (ha : Digits a) (hb : Digits b) : Digits (a ++ b) := fun x hx =>
  (List.mem_append.1 hx).elim (ha x) (hb x)

theorem digits_zero : Digits b!"0" := by
  intro b hb
  rw [List.mem_singleton.1 hb]
  decide

theorem digits_zeros (k : Nat) : Digits (List.replicate k c!"0") := by
  intro b hb
  rw [List.eq_of_mem_replicate hb]
  decide

/-! ## Reading -/

/-- A text that does not begin with a digit. -/
def NoDigit (s : Str) : Prop := ∀ b ∈ s.head?, ¬ (0x30 ≤ b.toNat ∧ b.toNat ≤ 0x39)

theorem digitsOf_eq {ds s : Str} (h : Digits ds) (hs : NoDigit s) : digitsOf (ds ++ s) = (ds, s) := by
  unfold digitsOf
  rw [List.span_eq_takeWhile_dropWhile]
  have h1 : ∀ b ∈ ds, (fun b : Byte => decide (0x30 ≤ b.toNat ∧ b.toNat ≤ 0x39)) b = true := fun b hb => decide_eq_true (h b hb)
  have h2 : s.takeWhile (fun b : Byte => decide (0x30 ≤ b.toNat ∧ b.toNat ≤ 0x39)) = [] ∧
      s.dropWhile (fun b : Byte => decide (0x30 ≤ b.toNat ∧ b.toNat ≤ 0x39)) = s := by
    cases s with
    | nil => exact ⟨rfl, rfl⟩
    | cons b s =>
      have hb := hs b rfl
      rw [List.takeWhile_cons, List.dropWhile_cons]
      simp only [decide_eq_true_eq]
      rw [if_neg hb, if_neg hb]
      exact ⟨rfl, rfl⟩
  rw [List.takeWhile_append_of_pos h1, List.dropWhile_append_of_pos h1, h2.1, h2.2, List.append_nil]

theorem digitsOf_all {ds : Str} (h : Digits ds) : digitsOf ds = (ds, []) := by
  have := digitsOf_eq h (s := []) (by intro b hb; cases hb)
  rwa [List.append_nil] at this

theorem expText_noDigit {t : Str} {e : Int} (h : ExpText t e) : NoDigit t := by
  rcases h with ⟨rfl, _⟩ | ⟨c, sg, ds, rfl, hc, _⟩
  · intro b hb; cases hb
  · intro b hb
    rcases hc with rfl | rfl <;> · cases hb; decide

theorem expOf_eq {t : Str} {e : Int} (h : ExpText t e) : expOf t = e := by
  rcases h with ⟨rfl, rfl⟩ | ⟨c, sg, ds, rfl, hc, hne, hd, hs⟩
  · rfl
  · obtain ⟨d, hd1⟩ : ∃ d, c = [d] ∧ (d = c!"e" ∨ d = c!"E") := by rcases hc with rfl | rfl <;> exact ⟨_, rfl, by simp⟩
    obtain ⟨rfl, hd1⟩ := hd1
    rw [List.append_assoc, List.singleton_append]
    unfold expOf
    dsimp only
    rw [if_pos hd1]
    rcases hs with ⟨rfl, rfl⟩ | ⟨rfl | rfl, rfl⟩
    · show (if (0x2d : Byte) = 0x2d then _ else _) = _
      rw [if_pos rfl]
      change -(JsonText.digitsVal (digitsOf ds).1 : Int) = _
      rw [digitsOf_all hd]; rfl
    · cases ds with
      | nil => exact absurd rfl hne
      | cons a ds =>
        have ha := hd a (List.mem_cons_self ..)
        rw [List.nil_append]
        dsimp only
        rw [if_neg (by rintro rfl; revert ha; decide), if_neg (by rintro rfl; revert ha; decide), digitsOf_all hd]; rfl
    · show (if (0x2b : Byte) = 0x2d then _ else if (0x2b : Byte) = 0x2b then _ else _) = _
      rw [if_neg (by decide), if_pos rfl]
      change (JsonText.digitsVal (digitsOf ds).1 : Int) = _
      rw [digitsOf_all hd]; rfl

theorem fracOf_none {t : Str} {e : Int} (h : ExpText t e) : fracOf t = ([], t) := by
  rcases h with ⟨rfl, _⟩ | ⟨c, sg, ds, rfl, hc, _⟩
  · rfl
  · rcases hc with rfl | rfl <;> rfl

theorem unsigned_eq {int frac tail : Str} {e : Int} (hi : Digits int) (hf : Digits frac) (ht : ExpText tail e) :
    unsignedValue (int ++ (if frac = [] then [] else b!"." ++ frac) ++ tail) =
      (natOf int + natOf frac / 10 ^ frac.length) * 10 ^ e := by
  have key : (natOf (int ++ frac) : Rat) * 10 ^ (e - frac.length) = (natOf int + natOf frac / 10 ^ frac.length) * 10 ^ e := by
    rw [natOf_append, zpow_sub₀ (by norm_num), zpow_natCast]
    push_cast
    field_simp
  unfold unsignedValue
  by_cases h : frac = []
  · subst h
    rw [if_pos rfl, List.append_nil, digitsOf_eq hi (expText_noDigit ht)]
    dsimp only
    rw [fracOf_none ht]
    dsimp only
    rw [expOf_eq ht]
    exact key
  · have h1 : NoDigit (b!"." ++ frac ++ tail) := by intro b hb; cases hb; decide
    have h2 : fracOf (b!"." ++ frac ++ tail) = digitsOf (frac ++ tail) := rfl
    rw [if_neg h, List.append_assoc, digitsOf_eq hi h1]
    dsimp only
    rw [h2, digitsOf_eq hf (expText_noDigit ht)]
    dsimp only
    rw [expOf_eq ht]
    exact key

/-- The value of a text is the number it denotes. -/
theorem textValue_eq {t : Str} {x : Rat} (h : Denotes t x) : textValue t = x := by
  obtain ⟨sign, int, frac, tail, s, e, rfl, hs, hne, hi, hf, ht, rfl⟩ := h
  have hu := unsigned_eq hi hf ht
  rw [mul_assoc, ← hu]
  rcases hs with ⟨rfl, rfl⟩ | ⟨rfl, rfl⟩
  · rw [one_mul, List.nil_append]
    cases int with
    | nil => exact absurd rfl hne
    | cons a int =>
      have ha := hi a (List.mem_cons_self ..)
      rw [List.cons_append, List.cons_append]
      have h45 : a ≠ c!"-" := by rintro rfl; exact absurd ha (by decide)
      conv_lhs => unfold textValue
      dsimp only
      rw [if_neg h45]
  · rw [neg_one_mul]
    rfl

/-! ## Writing -/

theorem appendExponent_spec {e : Int} (h1 : -1000 < e) (h2 : e < 1000) : ∃ t, appendExponent e = some t ∧ t.length ≤ 4 ∧
    ∃ sg ds, t = sg ++ ds ∧ ds ≠ [] ∧ Digits ds ∧ (sg = b!"-" ∧ e = -(natOf ds : Int) ∨ sg = b!"+" ∧ e = natOf ds) := by
  unfold appendExponent need
  rw [if_pos h1, if_pos h2]
  dsimp only
  have hk : e.natAbs < 1000 := by omega
  have hds : ∃ ds, (if e.natAbs < 10 then [c!"0", digitChar e.natAbs]
      else if e.natAbs < 100 then [digitChar (e.natAbs / 10), digitChar (e.natAbs % 10)]
      else [digitChar (e.natAbs / 100), digitChar (e.natAbs % 100 / 10), digitChar (e.natAbs % 100 % 10)]) = ds ∧ ds.length ≤ 3 ∧
      ds ≠ [] ∧ Digits ds ∧ natOf ds = e.natAbs := by
    generalize e.natAbs = k at hk
    have hz : c!"0" = digitChar 0 := rfl
    rw [hz]
    split
    · rename_i h
      refine ⟨_, rfl, by simp, by simp, digits_map (l := [0, k]) (by simp; omega), ?_⟩
      have := natOf_map [0, k] (by simp; omega) 0
      show natOf _ = k
      unfold natOf
      rw [List.map_cons, List.map_cons, List.map_nil] at this
      rw [this]; simp
    · split
      · refine ⟨_, rfl, by simp, by simp, digits_map (l := [k / 10, k % 10]) (by simp; omega), ?_⟩
        have := natOf_map [k / 10, k % 10] (by simp; omega) 0
        show natOf _ = k
        unfold natOf
        rw [List.map_cons, List.map_cons, List.map_nil] at this
        rw [this]; simp; omega
      · refine ⟨_, rfl, by simp, by simp, digits_map (l := [k / 100, k % 100 / 10, k % 100 % 10]) (by simp; omega), ?_⟩
        have := natOf_map [k / 100, k % 100 / 10, k % 100 % 10] (by simp; omega) 0
        show natOf _ = k
        unfold natOf
        rw [List.map_cons, List.map_cons, List.map_cons, List.map_nil] at this
        rw [this]; simp; omega
  obtain ⟨ds, e1, hl, hne, hd, hv⟩ := hds
  rw [e1]
  by_cases he : e < 0
  · rw [if_pos he]
    exact ⟨_, rfl, by simp; omega, _, ds, rfl, hne, hd, .inl ⟨rfl, by omega⟩⟩
  · rw [if_neg he]
    exact ⟨_, rfl, by simp; omega, _, ds, rfl, hne, hd, .inr ⟨rfl, by omega⟩⟩

/-- The text of a number that is not negative: a floating point number of JSON that denotes it. -/
theorem text_ok {int frac tail : Str} {e : Int} (hi : int = b!"0" ∨ ∃ d ds, int = d :: ds ∧ 0x31 ≤ d.toNat ∧ d.toNat ≤ 0x39 ∧ Digits ds)
    (hf : Digits frac) (ht : ExpText tail e) (hor : frac ≠ [] ∨ tail ≠ []) :
    FloatToken (int ++ (if frac = [] then [] else b!"." ++ frac) ++ tail) ∧
    FloatToken (b!"-" ++ (int ++ (if frac = [] then [] else b!"." ++ frac) ++ tail)) ∧
    Denotes (int ++ (if frac = [] then [] else b!"." ++ frac) ++ tail) ((natOf int + natOf frac / 10 ^ frac.length) * 10 ^ e) ∧
    Denotes (b!"-" ++ (int ++ (if frac = [] then [] else b!"." ++ frac) ++ tail))
      (-((natOf int + natOf frac / 10 ^ frac.length) * 10 ^ e)) := by
  have hfr : (if frac = [] then [] else b!"." ++ frac) = [] ∨ ∃ ds, (if frac = [] then [] else b!"." ++ frac) = b!"." ++ ds ∧ ds ≠ [] ∧ Digits ds := by
    split
    · exact .inl rfl
    · exact .inr ⟨frac, rfl, ‹_›, hf⟩
  have hta : tail = [] ∨ ∃ e sg ds, tail = e ++ sg ++ ds ∧ (e = b!"e" ∨ e = b!"E") ∧ (sg = [] ∨ sg = b!"+" ∨ sg = b!"-") ∧
      ds ≠ [] ∧ Digits ds := by
    rcases ht with ⟨h, _⟩ | ⟨c, sg, ds, h, hc, hne, hd, hs⟩
    · exact .inl h
    · exact .inr ⟨c, sg, ds, h, hc, by rcases hs with ⟨h, _⟩ | ⟨h | h, _⟩ <;> simp [h], hne, hd⟩
  have hor' : (if frac = [] then [] else b!"." ++ frac) ≠ [] ∨ tail ≠ [] := by
    rcases hor with h | h
    · left; rw [if_neg h]; simp
    · exact .inr h
  have hine : int ≠ [] ∧ Digits int := by
    rcases hi with rfl | ⟨d, ds, rfl, h1, h2, h3⟩
    · exact ⟨by decide, digits_zero⟩
    · refine ⟨by simp, fun b hb => ?_⟩
      rcases List.mem_cons.1 hb with rfl | hb
      · omega
      · exact h3 b hb
  refine ⟨⟨[], int, _, tail, by rw [List.nil_append], .inl rfl, hi, hfr, hta, hor'⟩,
    ⟨b!"-", int, _, tail, by simp only [List.append_assoc], .inr rfl, hi, hfr, hta, hor'⟩,
    ⟨[], int, frac, tail, 1, e, by rw [List.nil_append], .inl ⟨rfl, rfl⟩, hine.1, hine.2, hf, ht, by rw [one_mul]⟩,
    ⟨b!"-", int, frac, tail, -1, e, by simp only [List.append_assoc], .inr ⟨rfl, rfl⟩, hine.1, hine.2, hf, ht, by ring⟩⟩

/-- `format_buffer`. -/
theorem format_spec {b : List Nat} {x : Int} (hb : Dec b) (hne : b ≠ []) (hl : b.length ≤ 17) (h1 : -350 ≤ x) (h2 : x ≤ 350) :
    ∃ t, formatBuffer (b.map digitChar) x = some t ∧ t.length ≤ 24 ∧ FloatToken t ∧ FloatToken (b!"-" ++ t) ∧
      Denotes t (val b * 10 ^ x) ∧ Denotes (b!"-" ++ t) (-(val b * 10 ^ x)) := by
  have hD : Digits (b.map digitChar) := digits_map hb.1
  have hV := natOf_digits hb
  have hL : (b.map digitChar).length = b.length := List.length_map ..
  have hL0 : 0 < b.length := List.length_pos_iff.2 hne
  have hhead : ∃ c cs, b.map digitChar = c :: cs ∧ 0x31 ≤ c.toNat ∧ c.toNat ≤ 0x39 ∧ Digits cs := by
    cases b with
    | nil => exact absurd rfl hne
    | cons d l =>
      have hd : d ≠ 0 := fun h0 => hb.2 (by rw [h0]; rfl)
      have h9 := hb.1 d (List.mem_cons_self ..)
      have := digitChar_toNat h9
      exact ⟨_, _, List.map_cons .., by omega, by omega, digits_map fun y hy => hb.1 y (List.mem_cons_of_mem _ hy)⟩
  rw [← hV]
  unfold formatBuffer
  dsimp only
  generalize b.map digitChar = s at *
  rw [hL]
  generalize b.length = L at *
  by_cases c1 : (L : Int) ≤ L + x ∧ (L : Int) + x ≤ 15
  · rw [if_pos c1]
    obtain ⟨k, rfl⟩ : ∃ k : Nat, x = k := ⟨x.toNat, by omega⟩
    have hk : ((L : Int) + k - L).toNat = k := by omega
    rw [hk]
    have hi : ∃ d ds, s ++ List.replicate k c!"0" = d :: ds ∧ 0x31 ≤ d.toNat ∧ d.toNat ≤ 0x39 ∧ Digits ds := by
      obtain ⟨c, cs, rfl, a1, a2, a3⟩ := hhead
      exact ⟨c, cs ++ List.replicate k c!"0", rfl, a1, a2, digits_append a3 (digits_zeros k)⟩
    obtain ⟨r1, r2, r3, r4⟩ := text_ok (int := s ++ List.replicate k c!"0") (frac := b!"0") (tail := []) (e := 0) (.inr hi)
      digits_zero (.inl ⟨rfl, rfl⟩) (.inl (by decide))
    rw [if_neg (by decide), List.append_nil] at r1 r2 r3 r4
    have hv : ((natOf (s ++ List.replicate k c!"0") : Rat) + natOf b!"0" / 10 ^ (b!"0" : Str).length) * 10 ^ (0 : Int) = natOf s * 10 ^ (k : Int) := by
      rw [natOf_append, natOf_zeros, List.length_replicate, show natOf b!"0" = 0 from rfl]
      simp
    rw [hv] at r3 r4
    exact ⟨_, rfl, by simp [hL]; omega, by
      have h : _ ∧ _ ∧ _ ∧ _ := ⟨r1, r2, r3, r4⟩
      simpa using h⟩
  rw [if_neg c1]
  by_cases c2 : 0 < (L : Int) + x ∧ (L : Int) + x ≤ 15
  · rw [if_pos c2]
    obtain ⟨k, hk⟩ : ∃ k : Nat, (L : Int) + x = k := ⟨((L : Int) + x).toNat, by omega⟩
    have hk0 : 0 < k := by omega
    have hkL : k < L := by omega
    rw [hk, Int.toNat_natCast]
    have hi : ∃ d ds, s.take k = d :: ds ∧ 0x31 ≤ d.toNat ∧ d.toNat ≤ 0x39 ∧ Digits ds := by
      obtain ⟨c, cs, rfl, a1, a2, a3⟩ := hhead
      obtain ⟨k', rfl⟩ : ∃ k', k = k' + 1 := ⟨k - 1, by omega⟩
      exact ⟨c, cs.take k', by rw [List.take_succ_cons], a1, a2, fun y hy => a3 y (List.mem_of_mem_take hy)⟩
    have hfr : s.drop k ≠ [] := by intro h; rw [List.drop_eq_nil_iff] at h; omega
    obtain ⟨r1, r2, r3, r4⟩ := text_ok (int := s.take k) (frac := s.drop k) (tail := []) (e := 0) (.inr hi)
      (fun y hy => hD y (List.mem_of_mem_drop hy)) (.inl ⟨rfl, rfl⟩) (.inl hfr)
    rw [if_neg hfr, List.append_nil, ← List.append_assoc] at r1 r2 r3 r4
    have hv : ((natOf (s.take k) : Rat) + natOf (s.drop k) / 10 ^ (s.drop k).length) * 10 ^ (0 : Int) = natOf s * 10 ^ x := by
      have hx : x = -((s.drop k).length : Int) := by rw [List.length_drop]; omega
      conv_rhs => rw [← List.take_append_drop k s, natOf_append, hx, zpow_neg, zpow_natCast]
      push_cast
      field_simp
    rw [hv] at r3 r4
    exact ⟨_, rfl, by simp [hL]; omega, by
      have h : _ ∧ _ ∧ _ ∧ _ := ⟨r1, r2, r3, r4⟩
      simpa using h⟩
  rw [if_neg c2]
  by_cases c3 : -4 < (L : Int) + x ∧ (L : Int) + x ≤ 0
  · rw [if_pos c3]
    obtain ⟨k, hk⟩ : ∃ k : Nat, -((L : Int) + x) = k := ⟨(-((L : Int) + x)).toNat, by omega⟩
    rw [hk, Int.toNat_natCast]
    have hfr : List.replicate k c!"0" ++ s ≠ [] := by
      intro h; rw [List.append_eq_nil_iff] at h; rw [h.2] at hL; simp at hL; omega
    obtain ⟨r1, r2, r3, r4⟩ := text_ok (int := b!"0") (frac := List.replicate k c!"0" ++ s) (tail := []) (e := 0) (.inl rfl)
      (digits_append (digits_zeros k) hD) (.inl ⟨rfl, rfl⟩) (.inl hfr)
    rw [if_neg hfr, List.append_nil, ← List.append_assoc, ← List.append_assoc] at r1 r2 r3 r4
    have hv : ((natOf b!"0" : Rat) + natOf (List.replicate k c!"0" ++ s) / 10 ^ (List.replicate k c!"0" ++ s).length) * 10 ^ (0 : Int) =
        natOf s * 10 ^ x := by
      have hx : x = -((List.replicate k c!"0" ++ s).length : Int) := by rw [List.length_append, List.length_replicate]; omega
      rw [natOf_append, natOf_zeros, show natOf b!"0" = 0 from rfl]
      conv_rhs => rw [hx, zpow_neg, zpow_natCast]
      simp [div_eq_mul_inv]
    rw [hv] at r3 r4
    exact ⟨_, rfl, by simp [hL]; omega, by
      have h : _ ∧ _ ∧ _ ∧ _ := ⟨r1, r2, r3, r4⟩
      simpa using h⟩
  rw [if_neg c3]
  obtain ⟨xt, hx1, hx2, sg, ds, rfl, hdne, hdd, hsg⟩ := appendExponent_spec (e := (L : Int) + x - 1) (by omega) (by omega)
  have ht : ExpText (b!"e" ++ (sg ++ ds)) ((L : Int) + x - 1) := by
    refine .inr ⟨b!"e", sg, ds, (List.append_assoc ..).symm, .inl rfl, hdne, hdd, ?_⟩
    rcases hsg with ⟨rfl, h⟩ | ⟨rfl, h⟩
    · exact .inl ⟨rfl, h⟩
    · exact .inr ⟨.inr rfl, h⟩
  have htne : b!"e" ++ (sg ++ ds) ≠ [] := by simp
  rw [hx1]
  simp only [Option.map_some]
  by_cases c4 : L = 1
  · rw [if_pos c4]
    obtain ⟨r1, r2, r3, r4⟩ := text_ok (int := s) (frac := []) (.inr hhead) (by intro y hy; cases hy) ht (.inr htne)
    rw [if_pos rfl, List.append_nil, ← List.append_assoc] at r1 r2 r3 r4
    have hv : ((natOf s : Rat) + natOf [] / 10 ^ (List.length ([] : Str))) * 10 ^ ((L : Int) + x - 1) = natOf s * 10 ^ x := by
      rw [c4, show natOf [] = 0 from rfl]; simp
    rw [hv] at r3 r4
    exact ⟨_, rfl, by simp [hL] at hx2 ⊢; omega, by
      have h : _ ∧ _ ∧ _ ∧ _ := ⟨r1, r2, r3, r4⟩
      simpa using h⟩
  · rw [if_neg c4]
    have hi : ∃ d ds, s.take 1 = d :: ds ∧ 0x31 ≤ d.toNat ∧ d.toNat ≤ 0x39 ∧ Digits ds := by
      obtain ⟨c, cs, rfl, a1, a2, a3⟩ := hhead
      exact ⟨c, [], rfl, a1, a2, by intro y hy; cases hy⟩
    have hfr : s.drop 1 ≠ [] := by intro h; rw [List.drop_eq_nil_iff] at h; omega
    obtain ⟨r1, r2, r3, r4⟩ := text_ok (int := s.take 1) (frac := s.drop 1) (.inr hi)
      (fun y hy => hD y (List.mem_of_mem_drop hy)) ht (.inr htne)
    rw [if_neg hfr, ← List.append_assoc, ← List.append_assoc] at r1 r2 r3 r4
    have hv : ((natOf (s.take 1) : Rat) + natOf (s.drop 1) / 10 ^ (s.drop 1).length) * 10 ^ ((L : Int) + x - 1) = natOf s * 10 ^ x := by
      have hx : (L : Int) + x - 1 = x + ((s.drop 1).length : Int) := by rw [List.length_drop]; omega
      conv_rhs => rw [← List.take_append_drop 1 s, natOf_append]
      rw [hx, zpow_add₀ (by norm_num), zpow_natCast]
      push_cast
      field_simp
    rw [hv] at r3 r4
    exact ⟨_, rfl, by simp [hL] at hx2 ⊢; omega, by
      have h : _ ∧ _ ∧ _ ∧ _ := ⟨r1, r2, r3, r4⟩
      simpa using h⟩

end Wis.Grisu
