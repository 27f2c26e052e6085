import Verif.Spec.Bind
/-!
# The conversions of pybind11 and what they mean
-/

namespace Wis
open Spec PyBind

theorem Load.map_ok {α β : Type} {f : α → β} {l : Load α} {b : β} : l.map f = .ok b ↔ ∃ a, l = .ok a ∧ b = f a := by
  cases l <;> simp [Load.map, eq_comm]

theorem Load.both_ok {α β : Type} {a : Load α} {b : Load β} {p : α × β} : a.both b = .ok p ↔ a = .ok p.1 ∧ b = .ok p.2 := by
  obtain ⟨p1, p2⟩ := p
  cases a <;> cases b <;> simp [Load.both, Load.map]

theorem allOf_ok {α β : Type} {f : α → Load β} : ∀ {xs : List α} {v : List β},
    allOf f xs = .ok v ↔ List.Forall₂ (fun x b => f x = .ok b) xs v := by
  intro xs
  induction xs with
  | nil => intro v; simp only [allOf, Load.ok.injEq, List.forall₂_nil_left_iff]; exact eq_comm
  | cons x xs ih =>
    intro v
    simp only [allOf, Load.map_ok, Load.both_ok]
    constructor
    · rintro ⟨p, ⟨h1, h2⟩, rfl⟩
      exact List.Forall₂.cons h1 (ih.mp h2)
    · intro h
      cases h with
      | cons h1 h2 => exact ⟨(_, _), ⟨h1, ih.mpr h2⟩, rfl⟩

theorem forall₂_imp_iff {α β : Type} {R S : α → β → Prop} (h : ∀ a b, R a b ↔ S a b) {xs : List α} {v : List β} :
    List.Forall₂ R xs v ↔ List.Forall₂ S xs v :=
  ⟨List.Forall₂.imp fun a b => (h a b).mp, List.Forall₂.imp fun a b => (h a b).mpr⟩

theorem loadInt_ok {lo hi : Int} (h0 : lo ≤ 0) (h1 : 1 ≤ hi) {x : PyVal} {i : Int} :
    loadInt lo hi x = .ok i ↔ PyInt x i ∧ lo ≤ i ∧ i ≤ hi := by
  constructor
  · intro h
    unfold loadInt at h
    split at h
    · split at h
      · cases h; exact ⟨.int _, by assumption⟩
      · cases h
    · next b => cases b <;> cases h
                · exact ⟨.false, h0, by simp; omega⟩
                · exact ⟨.true, by simp; omega, by simpa using h1⟩
    · cases h
  · rintro ⟨h, hr⟩
    cases h with
    | int => simp only [loadInt, if_pos hr]
    | false => rfl
    | true => rfl

theorem loadI32_ok {x : PyVal} {i : Int} : loadI32 x = .ok i ↔ PyInt x i ∧ -2147483648 ≤ i ∧ i ≤ 2147483647 :=
  loadInt_ok (by decide) (by decide)

theorem loadList_ok {L : PyLib} {α : Type} {f : PyVal → Load α} {x : PyVal} {v : List α} :
    loadList L f x = .ok v ↔ ∃ xs, x = .list xs ∧ List.Forall₂ (fun x b => f x = .ok b) xs v := by
  constructor
  · intro h
    unfold loadList at h
    split at h
    · exact ⟨_, rfl, allOf_ok.mp h⟩
    · split at h <;> cases h
    · cases h
  · rintro ⟨xs, rfl, h⟩
    exact allOf_ok.mpr h

theorem forall₂_and_right {α β : Type} {R : α → β → Prop} {P : β → Prop} {xs : List α} {v : List β} :
    List.Forall₂ (fun a b => R a b ∧ P b) xs v ↔ List.Forall₂ R xs v ∧ ∀ b ∈ v, P b := by
  constructor
  · intro h
    induction h with
    | nil => exact ⟨.nil, by simp⟩
    | cons h _ ih => exact ⟨.cons h.1 ih.1, by simpa using ⟨h.2, ih.2⟩⟩
  · rintro ⟨h, hp⟩
    induction h with
    | nil => exact .nil
    | cons h _ ih => exact .cons ⟨h, hp _ (by simp)⟩ (ih fun b hb => hp b (by simp [hb]))

theorem ints_ok {L : PyLib} {lo hi : Int} (h0 : lo ≤ 0) (h1 : 1 ≤ hi) {x : PyVal} {v : List Int} :
    loadList L (loadInt lo hi) x = .ok v ↔ PyIntsIn lo hi x v := by
  rw [loadList_ok]
  unfold PyIntsIn
  apply exists_congr
  intro xs
  apply and_congr_right
  intro _
  rw [← forall₂_and_right]
  exact forall₂_imp_iff fun a b => loadInt_ok h0 h1

theorem image_ok {L : PyLib} {x : PyVal} {v : List Int} : loadList L loadI32 x = .ok v ↔ PyImage x v :=
  ints_ok (by decide) (by decide)

theorem images_ok {L : PyLib} {x : PyVal} {v : List (List Int)} : loadList L (loadList L loadI32) x = .ok v ↔ PyImages x v := by
  rw [loadList_ok]
  unfold PyImages
  apply exists_congr
  intro xs
  apply and_congr_right
  intro _
  exact forall₂_imp_iff fun a b => image_ok

/-! ## UTF-8 -/

theorem byte_ext {a b : Byte} (h : a.toNat = b.toNat) : a = b := BitVec.eq_of_toNat_eq h

theorem encodePoint_encodes {c : Nat} {p : Str} (h : encodePoint c = some p) : Encodes c p := by
  unfold encodePoint at h
  split at h
  · cases h
    refine ⟨⟨_, List.mem_cons_self, .cons ⟨?_, ?_⟩ .nil⟩, ?_⟩ <;> simp [codePoint, BitVec.toNat_ofNat] <;> omega
  split at h
  · cases h
    refine ⟨⟨[(0xC2, 0xDF), (0x80, 0xBF)], by simp [utf8Rows], .cons ⟨?_, ?_⟩ (.cons ⟨?_, ?_⟩ .nil)⟩, ?_⟩ <;> simp [codePoint, BitVec.toNat_ofNat] <;> omega
  split at h
  · split at h
    · cases h
    next hs =>
      cases h
      refine ⟨?_, by simp [codePoint, BitVec.toNat_ofNat]; omega⟩
      have hc : c / 4096 = 0 ∨ (1 ≤ c / 4096 ∧ c / 4096 ≤ 12) ∨ c / 4096 = 13 ∨ (14 ≤ c / 4096 ∧ c / 4096 ≤ 15) := by omega
      rcases hc with hc | hc | hc | hc
      · refine ⟨[(0xE0, 0xE0), (0xA0, 0xBF), (0x80, 0xBF)], by simp [utf8Rows], .cons ⟨?_, ?_⟩ (.cons ⟨?_, ?_⟩ (.cons ⟨?_, ?_⟩ .nil))⟩ <;> simp [BitVec.toNat_ofNat] <;> omega
      · refine ⟨[(0xE1, 0xEC), (0x80, 0xBF), (0x80, 0xBF)], by simp [utf8Rows], .cons ⟨?_, ?_⟩ (.cons ⟨?_, ?_⟩ (.cons ⟨?_, ?_⟩ .nil))⟩ <;> simp [BitVec.toNat_ofNat] <;> omega
      · refine ⟨[(0xED, 0xED), (0x80, 0x9F), (0x80, 0xBF)], by simp [utf8Rows], .cons ⟨?_, ?_⟩ (.cons ⟨?_, ?_⟩ (.cons ⟨?_, ?_⟩ .nil))⟩ <;> simp [BitVec.toNat_ofNat] <;> omega
      · refine ⟨[(0xEE, 0xEF), (0x80, 0xBF), (0x80, 0xBF)], by simp [utf8Rows], .cons ⟨?_, ?_⟩ (.cons ⟨?_, ?_⟩ (.cons ⟨?_, ?_⟩ .nil))⟩ <;> simp [BitVec.toNat_ofNat] <;> omega
  split at h
  · cases h
    refine ⟨?_, by simp [codePoint, BitVec.toNat_ofNat]; omega⟩
    have hc : c / 262144 = 0 ∨ (1 ≤ c / 262144 ∧ c / 262144 ≤ 3) ∨ c / 262144 = 4 := by omega
    rcases hc with hc | hc | hc
    · refine ⟨[(0xF0, 0xF0), (0x90, 0xBF), (0x80, 0xBF), (0x80, 0xBF)], by simp [utf8Rows], .cons ⟨?_, ?_⟩ (.cons ⟨?_, ?_⟩ (.cons ⟨?_, ?_⟩ (.cons ⟨?_, ?_⟩ .nil)))⟩ <;> simp [BitVec.toNat_ofNat] <;> omega
    · refine ⟨[(0xF1, 0xF3), (0x80, 0xBF), (0x80, 0xBF), (0x80, 0xBF)], by simp [utf8Rows], .cons ⟨?_, ?_⟩ (.cons ⟨?_, ?_⟩ (.cons ⟨?_, ?_⟩ (.cons ⟨?_, ?_⟩ .nil)))⟩ <;> simp [BitVec.toNat_ofNat] <;> omega
    · refine ⟨[(0xF4, 0xF4), (0x80, 0x8F), (0x80, 0xBF), (0x80, 0xBF)], by simp [utf8Rows], .cons ⟨?_, ?_⟩ (.cons ⟨?_, ?_⟩ (.cons ⟨?_, ?_⟩ (.cons ⟨?_, ?_⟩ .nil)))⟩ <;> simp [BitVec.toNat_ofNat] <;> omega
  · cases h

/-- The possible shapes of a character, with its code point. -/
theorem Spec.Encodes.cases {c : Nat} {p : Str} (h : Encodes c p) :
    (∃ a, p = [a] ∧ a.toNat < 0x80 ∧ c = a.toNat) ∨
    (∃ a b, p = [a, b] ∧ (0xC2 ≤ a.toNat ∧ a.toNat ≤ 0xDF) ∧ (0x80 ≤ b.toNat ∧ b.toNat ≤ 0xBF) ∧ c = a.toNat % 32 * 64 + b.toNat % 64) ∨
    (∃ a b d, p = [a, b, d] ∧ (0xE0 ≤ a.toNat ∧ a.toNat ≤ 0xEF) ∧ (0x80 ≤ b.toNat ∧ b.toNat ≤ 0xBF) ∧ (0x80 ≤ d.toNat ∧ d.toNat ≤ 0xBF) ∧
      c = a.toNat % 16 * 4096 + b.toNat % 64 * 64 + d.toNat % 64 ∧ 0x800 ≤ c ∧ ¬ (0xD800 ≤ c ∧ c ≤ 0xDFFF)) ∨
    (∃ a b d e, p = [a, b, d, e] ∧ (0xF0 ≤ a.toNat ∧ a.toNat ≤ 0xF4) ∧ (0x80 ≤ b.toNat ∧ b.toNat ≤ 0xBF) ∧ (0x80 ≤ d.toNat ∧ d.toNat ≤ 0xBF) ∧
      (0x80 ≤ e.toNat ∧ e.toNat ≤ 0xBF) ∧ c = a.toNat % 8 * 262144 + b.toNat % 64 * 4096 + d.toNat % 64 * 64 + e.toNat % 64 ∧
      0x10000 ≤ c ∧ c < 0x110000) := by
  obtain ⟨⟨row, hr, hf⟩, hc⟩ := h
  simp only [utf8Rows, List.mem_cons, List.not_mem_nil, or_false] at hr
  rcases hr with rfl | rfl | rfl | rfl | rfl | rfl | rfl | rfl | rfl
  · match hf with
    | .cons (a := a) h1 .nil =>
      simp only [InRange] at h1
      exact .inl ⟨a, rfl, by omega, hc.symm⟩
  · match hf with
    | .cons (a := a) h1 (.cons (a := b) h2 .nil) =>
      exact .inr (.inl ⟨a, b, rfl, h1, h2, hc.symm⟩)
  iterate 4
    · match hf with
      | .cons (a := a) h1 (.cons (a := b) h2 (.cons (a := d) h3 .nil)) =>
        simp only [InRange] at h1 h2 h3
        simp only [codePoint, List.map_cons, List.map_nil] at hc
        exact .inr (.inr (.inl ⟨a, b, d, rfl, by omega, by omega, by omega, hc.symm, by omega, by omega⟩))
  iterate 3
    · match hf with
      | .cons (a := a) h1 (.cons (a := b) h2 (.cons (a := d) h3 (.cons (a := e) h4 .nil))) =>
        simp only [InRange] at h1 h2 h3 h4
        simp only [codePoint, List.map_cons, List.map_nil] at hc
        exact .inr (.inr (.inr ⟨a, b, d, e, rfl, by omega, by omega, by omega, by omega, hc.symm, by omega, by omega⟩))

theorem encodePoint_of_encodes {c : Nat} {p : Str} (h : Encodes c p) : encodePoint c = some p := by
  unfold encodePoint
  rcases h.cases with ⟨a, rfl, h1, rfl⟩ | ⟨a, b, rfl, h1, h2, rfl⟩ | ⟨a, b, d, rfl, h1, h2, h3, hc, h4, h5⟩ | ⟨a, b, d, e, rfl, h1, h2, h3, h4, hc, h5, h6⟩
  · rw [if_pos h1]
    congr 2
    exact byte_ext (by rw [BitVec.toNat_ofNat]; omega)
  · rw [if_neg (by omega), if_pos (by omega)]
    have e1 : BitVec.ofNat 8 (0xC0 + (a.toNat % 32 * 64 + b.toNat % 64) / 64) = a := byte_ext (by rw [BitVec.toNat_ofNat]; omega)
    have e2 : BitVec.ofNat 8 (0x80 + (a.toNat % 32 * 64 + b.toNat % 64) % 64) = b := byte_ext (by rw [BitVec.toNat_ofNat]; omega)
    rw [e1, e2]
  · rw [if_neg (by omega), if_neg (by omega), if_pos (by omega), if_neg h5]
    have e1 : BitVec.ofNat 8 (0xE0 + c / 4096) = a := byte_ext (by rw [BitVec.toNat_ofNat]; omega)
    have e2 : BitVec.ofNat 8 (0x80 + c / 64 % 64) = b := byte_ext (by rw [BitVec.toNat_ofNat]; omega)
    have e3 : BitVec.ofNat 8 (0x80 + c % 64) = d := byte_ext (by rw [BitVec.toNat_ofNat]; omega)
    rw [e1, e2, e3]
  · rw [if_neg (by omega), if_neg (by omega), if_neg (by omega), if_pos h6]
    have e1 : BitVec.ofNat 8 (0xF0 + c / 262144) = a := byte_ext (by rw [BitVec.toNat_ofNat]; omega)
    have e2 : BitVec.ofNat 8 (0x80 + c / 4096 % 64) = b := byte_ext (by rw [BitVec.toNat_ofNat]; omega)
    have e3 : BitVec.ofNat 8 (0x80 + c / 64 % 64) = d := byte_ext (by rw [BitVec.toNat_ofNat]; omega)
    have e4 : BitVec.ofNat 8 (0x80 + c % 64) = e := byte_ext (by rw [BitVec.toNat_ofNat]; omega)
    rw [e1, e2, e3, e4]

theorem encodePoint_iff {c : Nat} {p : Str} : encodePoint c = some p ↔ Encodes c p :=
  ⟨encodePoint_encodes, encodePoint_of_encodes⟩

theorem Spec.Utf8Of.nil : Utf8Of [] [] := ⟨[], .nil, rfl⟩

theorem Spec.Utf8Of.cons {c : Nat} {p : Str} {cs : List Nat} {s : Str} (h : Encodes c p) (hs : Utf8Of cs s) : Utf8Of (c :: cs) (p ++ s) := by
  obtain ⟨ps, h1, rfl⟩ := hs
  exact ⟨p :: ps, .cons h h1, rfl⟩

theorem encode_iff {cs : List Nat} : ∀ {s : Str}, encode cs = some s ↔ Utf8Of cs s := by
  induction cs with
  | nil =>
    intro s
    simp only [encode, Option.some.injEq]
    constructor
    · rintro rfl; exact .nil
    · rintro ⟨ps, h, rfl⟩; cases h; rfl
  | cons c cs ih =>
    intro s
    simp only [encode]
    constructor
    · intro h
      split at h
      · next p s' h1 h2 => cases h; exact .cons (encodePoint_iff.mp h1) (ih.mp h2)
      · cases h
    · rintro ⟨ps, h, rfl⟩
      cases h with
      | cons h1 h2 => rw [encodePoint_iff.mpr h1, ih.mpr ⟨_, h2, rfl⟩]; rfl

theorem Spec.Utf8Of.utf8 {cs : List Nat} {s : Str} (h : Utf8Of cs s) : Utf8 s := by
  obtain ⟨ps, h, rfl⟩ := h
  induction h with
  | nil => exact .nil
  | cons h _ ih => exact .cons h.1 ih

theorem Spec.Utf8.of {s : Str} (h : Utf8 s) : ∃ cs, Utf8Of cs s := by
  induction h with
  | nil => exact ⟨[], .nil⟩
  | cons h _ ih => obtain ⟨cs, ih⟩ := ih; exact ⟨_, .cons ⟨h, rfl⟩ ih⟩

theorem decode_char {c : Nat} {p s : Str} (h : Encodes c p) : decode (p ++ s) = (decode s).map (c :: ·) := by
  have hb : ∀ {b : Byte}, (0x80 ≤ b.toNat ∧ b.toNat ≤ 0xBF) → isCont b = true := fun h => decide_eq_true h
  rcases h.cases with ⟨a, rfl, h1, rfl⟩ | ⟨a, b, rfl, h1, h2, rfl⟩ | ⟨a, b, d, rfl, h1, h2, h3, hc, h4, h5⟩ | ⟨a, b, d, e, rfl, h1, h2, h3, h4, hc, h5, h6⟩
  · conv_lhs => unfold decode
    simp only [List.cons_append, List.nil_append]
    rw [if_pos h1]
  · conv_lhs => unfold decode
    simp only [List.cons_append, List.nil_append, hb h2, and_true]
    rw [if_neg (by omega), if_pos (by omega)]
  · conv_lhs => unfold decode
    simp only [List.cons_append, List.nil_append, hb h2, hb h3, and_true]
    rw [if_neg (by omega), if_neg (by omega), if_pos (by omega), if_neg (by omega), hc]
  · conv_lhs => unfold decode
    simp only [List.cons_append, List.nil_append, hb h2, hb h3, hb h4, and_true]
    rw [if_neg (by omega), if_neg (by omega), if_neg (by omega), if_pos (by omega), if_neg (by omega), hc]

theorem decode_of {cs : List Nat} {s : Str} (h : Utf8Of cs s) : decode s = some cs := by
  obtain ⟨ps, h, rfl⟩ := h
  induction h with
  | nil => rfl
  | cons h _ ih => rw [List.flatten_cons, decode_char h, ih]; rfl

/-- A text decodes to one list of characters only. -/
theorem Spec.Utf8Of.unique {cs ds : List Nat} {s : Str} (h : Utf8Of cs s) (h' : Utf8Of ds s) : cs = ds := by
  have := (decode_of h).symm.trans (decode_of h')
  exact Option.some.inj this

theorem encodes_one {a : Byte} (h : a.toNat < 0x80) : Encodes a.toNat [a] :=
  ⟨⟨_, List.mem_cons_self, .cons ⟨Nat.zero_le _, by simp only; omega⟩ .nil⟩, rfl⟩

theorem decode_sound : ∀ (n : Nat) (s : Str) (cs : List Nat), s.length ≤ n → decode s = some cs → Utf8Of cs s := by
  intro n
  induction n with
  | zero =>
    intro s cs hl h
    obtain rfl := List.length_eq_zero_iff.mp (Nat.le_zero.mp hl)
    cases h; exact .nil
  | succ n ih =>
    intro s cs hl h
    match s with
    | [] => cases h; exact .nil
    | a :: s =>
      have key : ∀ (c : Nat) (p t : Str) (r : List Nat), a :: s = p ++ t → t.length ≤ n → Encodes c p →
          (decode t).map (c :: ·) = some r → Utf8Of r (a :: s) := by
        intro c p t r he ht hp hr
        obtain ⟨r', h1, rfl⟩ := Option.map_eq_some_iff.mp hr
        rw [he]
        exact .cons hp (ih t r' ht h1)
      simp only [List.length_cons] at hl
      unfold decode at h
      simp only at h
      split at h
      · next h1 => exact key _ [a] s _ rfl (by omega) (encodes_one h1) h
      split at h
      · cases h
      next b t =>
        simp only [List.length_cons] at hl
        split at h
        · next h1 h2 =>
          obtain ⟨h2, h3, h4⟩ := h2
          have h4 := of_decide_eq_true h4
          exact key _ [a, b] t _ rfl (by omega) ⟨⟨[(0xC2, 0xDF), (0x80, 0xBF)], by simp [utf8Rows], .cons ⟨h2, h3⟩ (.cons h4 .nil)⟩, rfl⟩ h
        split at h
        · cases h
        next d u =>
          simp only [List.length_cons] at hl
          split at h
          · next h2 =>
            obtain ⟨h2, h3, h4, h5⟩ := h2
            have h4 := of_decide_eq_true h4
            have h5 := of_decide_eq_true h5
            split at h
            · cases h
            next h6 =>
              refine key _ [a, b, d] u _ rfl (by omega) (encodePoint_encodes ?_) h
              unfold encodePoint
              rw [if_neg (by omega), if_neg (by omega), if_pos (by omega), if_neg (by omega)]
              congr 1
              refine List.cons_eq_cons.mpr ⟨byte_ext ?_, List.cons_eq_cons.mpr ⟨byte_ext ?_, List.cons_eq_cons.mpr ⟨byte_ext ?_, rfl⟩⟩⟩ <;>
                rw [BitVec.toNat_ofNat] <;> omega
          split at h
          · cases h
          next e v =>
            simp only [List.length_cons] at hl
            split at h
            · next h2 =>
              obtain ⟨h2, h3, h4, h5, h7⟩ := h2
              have h4 := of_decide_eq_true h4
              have h5 := of_decide_eq_true h5
              have h7 := of_decide_eq_true h7
              split at h
              · cases h
              next h6 =>
                refine key _ [a, b, d, e] v _ rfl (by omega) (encodePoint_encodes ?_) h
                unfold encodePoint
                rw [if_neg (by omega), if_neg (by omega), if_neg (by omega), if_pos (by omega)]
                congr 1
                refine List.cons_eq_cons.mpr ⟨byte_ext ?_, List.cons_eq_cons.mpr ⟨byte_ext ?_, List.cons_eq_cons.mpr ⟨byte_ext ?_,
                  List.cons_eq_cons.mpr ⟨byte_ext ?_, rfl⟩⟩⟩⟩ <;> rw [BitVec.toNat_ofNat] <;> omega
            · cases h

theorem decode_iff {s : Str} {cs : List Nat} : decode s = some cs ↔ Utf8Of cs s :=
  ⟨decode_sound _ s cs (Nat.le_refl _), decode_of⟩

/-! ## Texts, dicts, truth values, numbers -/

theorem loadStr_ok {x : PyVal} {s : Str} : loadStr x = .ok s ↔ PyText x s := by
  constructor
  · intro h
    unfold loadStr at h
    split at h
    · split at h
      · next h1 => cases h; exact .str (encode_iff.mp h1)
      · cases h
    · cases h; exact .bytes _
    · cases h
  · intro h
    cases h with
    | str h => simp only [loadStr, encode_iff.mpr h]
    | bytes => rfl

theorem texts_ok {L : PyLib} {x : PyVal} {v : List Str} : loadList L loadStr x = .ok v ↔ PyTexts x v := by
  rw [loadList_ok]
  unfold PyTexts
  apply exists_congr
  intro xs
  apply and_congr_right
  intro _
  exact forall₂_imp_iff fun a b => loadStr_ok

theorem labels_ok {x : PyVal} {m : LabelMap} : loadDict loadI32 loadStr x = .ok m ↔ PyLabels x m := by
  have h1 : ∀ kvs : List (PyVal × PyVal), allOf (fun e => (loadI32 e.1).both (loadStr e.2)) kvs = .ok m ↔
      List.Forall₂ (fun (e : PyVal × PyVal) (p : Int × Str) => PyInt e.1 p.1 ∧ (-2147483648 ≤ p.1 ∧ p.1 ≤ 2147483647) ∧ PyText e.2 p.2) kvs m := by
    intro kvs
    rw [allOf_ok]
    apply forall₂_imp_iff
    intro e p
    rw [Load.both_ok, loadI32_ok, loadStr_ok, and_assoc]
  constructor
  · intro h
    unfold loadDict at h
    split at h
    · exact ⟨_, rfl, (h1 _).mp h⟩
    · cases h
  · rintro ⟨kvs, rfl, h⟩
    exact (h1 _).mpr h

theorem loadBool_ok {x : PyVal} {b : Bool} : loadBool true x = .ok b ↔ PyBool x b := by
  constructor
  · intro h
    unfold loadBool at h
    split at h <;> first | (cases h; constructor) | cases h
  · intro h
    cases h <;> rfl

theorem loadBool_true {x : PyVal} {b : Bool} (h : loadBool false x = .ok b) : loadBool true x = .ok b := by
  cases x <;> first | exact h | cases h

theorem number_ok {L : PyLib} {x : PyVal} {q : Rat} : ((loadDouble L true x).map L.toFloat) = .ok q ↔ PyNumber L x q := by
  rw [Load.map_ok]
  constructor
  · rintro ⟨d, h, rfl⟩
    unfold loadDouble at h
    split at h
    · cases h; exact .float _
    · simp only [if_true] at h
      split at h
      · next h1 => cases h; exact .int (.int _) h1
      · cases h
    · next b =>
      simp only [if_true] at h
      split at h
      · next h1 => cases h; cases b
                   · exact .int .false h1
                   · exact .int .true h1
      · cases h
    · cases h
  · intro h
    cases h with
    | float q => exact ⟨q, rfl, rfl⟩
    | int hi hq => cases hi <;> exact ⟨_, by simp only [loadDouble, if_true, Bool.false_eq_true, if_false, hq], rfl⟩

end Wis
