import Verif.Spec.LoadSafe
import Verif.Props.LoadJson
import Verif.Props.Discriminator
import Verif.Props.Bleaching
/-!
# C116: loading a document, and using what was loaded
-/

namespace Wis
open Spec

/-! ## Reading numbers -/

theorem noUB_ok {α : Type} (a : α) : ¬ IsUB (.ok a : Res α) := by rintro ⟨u, h⟩; cases h
theorem noUB_throw {α : Type} (e : Exn) : ¬ IsUB (.error (.throw e) : Res α) := by rintro ⟨u, h⟩; injection h with h; cases h

theorem noUB_bind {α β : Type} {x : Res α} {f : α → Res β} (h : ¬ IsUB x) (hf : ∀ a, x = .ok a → ¬ IsUB (f a)) :
    ¬ IsUB (x >>= f) := by
  cases x with
  | ok a => exact hf a rfl
  | error e =>
    rintro ⟨u, hu⟩
    rw [Except.bind_error] at hu
    injection hu with hu
    subst hu
    exact h ⟨u, rfl⟩

theorem asBool_noUB (j : Json) : ¬ IsUB j.asBool := by
  cases j <;> first | exact noUB_ok _ | exact noUB_throw _

theorem asStr_noUB (j : Json) : ¬ IsUB j.asStr := by
  cases j <;> first | exact noUB_ok _ | exact noUB_throw _

theorem asReal_noUB (j : Json) : ¬ IsUB j.asReal := by
  cases j <;> first | exact noUB_ok _ | exact noUB_throw _

theorem items_noUB (j : Json) : ¬ IsUB j.items := by
  cases j with
  | arr l => cases l <;> first | exact noUB_ok _ | exact noUB_throw _
  | _ => first | exact noUB_ok _ | exact noUB_throw _

theorem asInt_noUB {j : Json} (h : NumberFits j) : ¬ IsUB j.asInt := by
  cases j with
  | real q =>
    obtain ⟨h1, h2⟩ := h
    have hq : (q.den : Int) > 0 := by exact_mod_cast q.den_pos
    have e := Rat.num_div_den q
    have hd : (0 : Rat) < q.den := by exact_mod_cast q.den_pos
    have a1 : -2147483649 * (q.den : Int) < q.num := by
      have : (-2147483649 : Rat) * q.den < q.num := by
        rw [← e] at h1
        rwa [lt_div_iff₀ hd] at h1
      exact_mod_cast this
    have a2 : q.num < 2147483648 * (q.den : Int) := by
      have : (q.num : Rat) < 2147483648 * q.den := by
        rw [← e] at h2
        rwa [div_lt_iff₀ hd] at h2
      exact_mod_cast this
    change ¬ IsUB (i32 (q.num.tdiv q.den))
    unfold i32
    rw [if_pos]
    · exact noUB_ok _
    · rcases Int.le_total 0 q.num with hn | hn
      · rw [Int.tdiv_eq_ediv_of_nonneg hn]
        have := Int.ediv_nonneg hn (Int.le_of_lt hq)
        have := Int.ediv_lt_of_lt_mul hq a2
        exact ⟨by omega, by omega⟩
      · have e : q.num = -(-q.num) := by omega
        rw [e, Int.neg_tdiv, Int.tdiv_eq_ediv_of_nonneg (by omega)]
        have := Int.ediv_nonneg (a := -q.num) (by omega) (Int.le_of_lt hq)
        have := Int.ediv_lt_of_lt_mul (a := -q.num) (b := 2147483649) hq (by omega)
        exact ⟨by omega, by omega⟩
  | _ => first | exact noUB_ok _ | exact noUB_throw _

theorem intsOf_noUB {l : List Json} (h : ∀ x ∈ l, NumberFits x) : ¬ IsUB (Json.intsOf l) := by
  induction l with
  | nil => exact noUB_ok _
  | cons x l ih =>
    exact noUB_bind (asInt_noUB (h x (by simp))) fun _ _ => noUB_bind (ih fun y hy => h y (by simp [hy])) fun _ _ => noUB_ok _

theorem asInts_noUB {j : Json} (h : NumbersFit j) : ¬ IsUB j.asInts := by
  cases j with
  | arr l => exact intsOf_noUB (h l rfl)
  | _ => exact noUB_throw _

theorem asIntss_noUB {j : Json} (h : ∀ rows, j = .arr rows → ∀ r ∈ rows, NumbersFit r) : ¬ IsUB j.asIntss := by
  cases j with
  | arr l =>
    have h := h l rfl
    simp only [Json.asIntss]
    clear * - h
    induction l with
    | nil => exact noUB_ok _
    | cons x l ih =>
      exact noUB_bind (asInts_noUB (h x (by simp))) fun _ _ => noUB_bind (ih fun y hy => h y (by simp [hy])) fun _ _ => noUB_ok _
  | _ => exact noUB_throw _

theorem asMapping_noUB {j : Json} (h : ∀ l, j = .obj l → ∀ e ∈ l, ∀ rows, e.2 = .arr rows → ∀ r ∈ rows, NumbersFit r) :
    ¬ IsUB j.asMapping := by
  cases j with
  | obj l =>
    have h := h l rfl
    simp only [Json.asMapping]
    clear * - h
    induction l with
    | nil => exact noUB_ok _
    | cons x l ih =>
      obtain ⟨k, j⟩ := x
      exact noUB_bind (asIntss_noUB (h (k, j) (by simp))) fun _ _ =>
        noUB_bind (ih fun y hy => h y (by simp [hy])) fun _ _ => noUB_ok _
  | _ => exact noUB_throw _

/-! ## Decoding -/

theorem put_lt {size : Nat} {out : Str} (c : Byte) (h : out.length < size) : Base64.put size out c = .ok (out ++ [c]) := by
  unfold Base64.put
  rw [if_pos h]

/-- The loop of `decode` on texts whose length is a multiple of 4. -/
theorem decLoop_whole (d : Str) (size : Nat) (hsz : (size : Int) = 3 * ((d.length / 4 : Nat) : Int) -
      (if d[d.length - 2]? = some c!"=" then 2 else if d[d.length - 1]? = some c!"=" then 1 else 0)) :
    ∀ (k i : Nat) (out : Str), d.length = i + 4 * k → 4 * out.length = 3 * i →
    ∃ r, Base64.decLoop d size i out = .ok r := by
  intro k
  induction k with
  | zero =>
    intro i out hl ho
    unfold Base64.decLoop
    rw [dif_neg (by omega)]
    exact ⟨out, rfl⟩
  | succ k ih =>
    intro i out hl ho
    have hs2 : 3 * (d.length / 4) ≤ size + 2 := by split_ifs at hsz <;> omega
    unfold Base64.decLoop
    rw [dif_pos (by omega), Str.at_lt (by omega), Str.at_lt (by omega), Str.at_lt (by omega), Str.at_lt (by omega)]
    simp only [Except.bind_ok]
    rw [put_lt _ (by omega)]
    simp only [Except.bind_ok]
    by_cases hk : k = 0
    · have e2 : d.length - 2 = i + 2 := by omega
      have e3 : d.length - 1 = i + 3 := by omega
      rw [e2, e3, List.getElem?_eq_getElem (by omega), List.getElem?_eq_getElem (by omega)] at hsz
      simp only [Option.some.injEq] at hsz
      by_cases h2 : d[i + 2] = c!"="
      · rw [if_pos h2]
        exact ⟨_, rfl⟩
      · rw [if_neg h2]
        rw [if_neg h2] at hsz
        rw [put_lt _ (by simp only [List.length_append, List.length_cons, List.length_nil]; split_ifs at hsz <;> omega)]
        simp only [Except.bind_ok]
        by_cases h3 : d[i + 3] = c!"="
        · rw [if_pos h3]
          exact ⟨_, rfl⟩
        · rw [if_neg h3]
          rw [if_neg h3] at hsz
          rw [put_lt _ (by simp only [List.length_append, List.length_cons, List.length_nil]; omega)]
          simp only [Except.bind_ok]
          exact ih _ _ (by omega) (by simp only [List.length_append, List.length_cons, List.length_nil]; omega)
    · split
      · exact ⟨_, rfl⟩
      · rw [put_lt _ (by simp only [List.length_append, List.length_cons, List.length_nil]; omega)]
        simp only [Except.bind_ok]
        split
        · exact ⟨_, rfl⟩
        · rw [put_lt _ (by simp only [List.length_append, List.length_cons, List.length_nil]; omega)]
          simp only [Except.bind_ok]
          exact ih _ _ (by omega) (by simp only [List.length_append, List.length_cons, List.length_nil]; omega)

/-- Decoding is defined for every text whose length is a positive multiple of 4, whatever its characters. -/
theorem decode_whole (d : Str) (h0 : d ≠ []) (h4 : d.length % 4 = 0) : ∃ r, Base64.decode d = .ok r := by
  have hl : 0 < d.length := List.length_pos_iff.mpr h0
  unfold Base64.decode
  rw [if_neg (by omega), Str.at_lt (by omega), Str.at_lt (by omega)]
  simp only [Except.bind_ok]
  rw [if_neg (by split_ifs <;> omega)]
  obtain ⟨r, hr⟩ := decLoop_whole d (3 * ((d.length / 4 : Nat) : Int) -
      (if d[d.length - 2] = c!"=" then 2 else if d[d.length - 1] = c!"=" then 1 else 0)).toNat
    (by
      rw [List.getElem?_eq_getElem (by omega), List.getElem?_eq_getElem (by omega)]
      simp only [Option.some.injEq]
      split_ifs <;> omega) (d.length / 4) 0 [] (by omega) (by simp)
  rw [hr]
  exact ⟨_, rfl⟩

theorem blockLoop_total : ∀ (k : Nat) (s : Str) (m : RamT), 12 * k ≤ s.length → ∃ r, RamData.blockLoop k s m = .ok r := by
  intro k
  induction k with
  | zero => intro s m _; exact ⟨m, rfl⟩
  | succ k ih =>
    intro s m h
    unfold RamData.blockLoop u64OfBytes i32OfBytes
    rw [if_neg (by simp only [List.length_take]; omega), if_neg (by simp only [List.length_take, List.length_drop]; omega)]
    simp only [Except.bind_ok]
    exact ih _ _ (by simp only [List.length_drop]; omega)

theorem dataToRam_whole (d : Str) (h0 : d ≠ []) (h4 : d.length % 4 = 0) : ∃ r, RamData.dataToRam d = .ok r := by
  obtain ⟨r, hr⟩ := decode_whole d h0 h4
  unfold RamData.dataToRam
  rw [hr]
  simp only [Except.bind_ok]
  split
  · exact ⟨_, rfl⟩
  · exact blockLoop_total _ _ _ (by omega)

/-! ## Loading -/

theorem ofText_noUB (fs : Fs) {p : Str} (hdot : c!"." ∉ p) (h4 : p.length % 4 = 0) (hl : p.length < 2147483648) :
    ¬ IsUB (RamData.ofText fs p) := by
  unfold RamData.ofText
  cases he : endsWith p ramdataSufix with
  | error e =>
    unfold endsWith at he
    split at he
    · cases he; exact noUB_throw _
    · cases he
  | ok b =>
    obtain ⟨h6, hs⟩ := endsWith_iff.mp he
    cases b with
    | true =>
      exact absurd ((hs.mp rfl).subset (by decide)) hdot
    | false =>
      simp only
      rw [if_neg (by omega), RamData.textLoop.eq_def, findFrom_none hdot]
      obtain ⟨r, hr⟩ := dataToRam_whole p (by intro e; subst e; simp at h6) h4
      simp only [hr]
      exact noUB_ok _

theorem ramDoc_base (a iz b : Json) (seg : Str) (h : NumberFits b) :
    ∃ z, ((Json.ofList [(b!"addresses", a), (b!"data", .str seg)]).mergePatch (Json.ofList [(b!"ignoreZero", iz), (b!"base", b)])).key b!"base" = .ok z ∧
      NumberFits z := by
  cases b <;> cases iz <;> refine ⟨_, rfl, ?_⟩ <;> first | exact h | trivial

theorem checkLimit_noUB {b : Int} {n : Nat} (h : b = 2 ∨ (2 < b ∧ b ^ n < 2 ^ 63)) : ¬ IsUB (Ram.checkLimitAddressSize n b) := by
  rw [checkLimit_eq (by omega)]
  rcases h with rfl | ⟨h1, h2⟩
  · rw [if_pos rfl]
    split
    · exact noUB_throw _
    · exact noUB_ok _
  · rw [if_neg (by omega), if_pos h2]
    exact noUB_ok _

theorem ramOfData_noUB (fs : Fs) {a iz b : Json} {p : Str} (hb : NumberFits b) (ha : NumbersFit a)
    (hp : ∀ v l, IsInt b v → a = .arr l → v = 2 ∨ (2 < v ∧ v ^ l.length < 2 ^ 63))
    (hdot : c!"." ∉ p) (h4 : p.length % 4 = 0) (hl : p.length < 2147483648) :
    ¬ IsUB (Discriminator.ramOfData fs (Json.ofList [(b!"ignoreZero", iz), (b!"base", b)]) a p) := by
  obtain ⟨k1, k2, ⟨z, k3, k3'⟩, ⟨y, k4, k4'⟩⟩ := ramDoc_keys a iz b p
  obtain ⟨y', k5, k6⟩ := ramDoc_base a iz b p hb
  rw [k4] at k5
  cases k5
  unfold Discriminator.ramOfData Ram.ofJson
  simp only [k1, k2, k3, k4, Except.bind_ok]
  refine noUB_bind (asBool_noUB z) fun _ _ => noUB_bind (asInt_noUB k6) fun bv hbv => noUB_bind (asInts_noUB ha) fun as has => ?_
  have hbv := (k4' _).mp (asInt_iff.mp hbv)
  have has := asInts_iff.mp has
  cases has with
  | arr hf =>
    have := hp bv _ hbv rfl
    rw [List.Forall₂.length_eq hf] at this
    refine noUB_bind (checkLimit_noUB this) fun _ _ => noUB_bind (asStr_noUB _) fun s hs => ?_
    cases hs
    exact noUB_bind (ofText_noUB fs hdot h4 hl) fun _ _ => noUB_ok _

theorem fileRams_noUB {fs : Fs} {iz b : Json} : ∀ {l : List Json} {parts : List Str}, parts ≠ [] → (∀ p ∈ parts, c!"." ∉ p) →
    (∀ a ∈ l, ∀ p ∈ parts, ¬ IsUB (Discriminator.ramOfData fs (Json.ofList [(b!"ignoreZero", iz), (b!"base", b)]) a p)) →
    ¬ IsUB (Discriminator.fileRams fs (Json.ofList [(b!"ignoreZero", iz), (b!"base", b)]) l (some (List.intercalate b!"." parts))) := by
  intro l
  induction l with
  | nil => intro parts _ _ _; exact noUB_ok _
  | cons a l ih =>
    intro parts hne hdot h
    cases parts with
    | nil => exact absurd rfl hne
    | cons p ps =>
      have hp := hdot p (by simp)
      rw [Discriminator.fileRams]
      refine noUB_bind ?_ fun r _ => ?_
      · have e : (getline (List.intercalate b!"." (p :: ps))).1 = p := by
          cases ps with
          | nil => rw [intercalate_one, getline_last hp]
          | cons q ps => rw [intercalate_more, getline_part hp]
        rw [e]
        exact h a (by simp) p (by simp)
      · refine noUB_bind ?_ fun _ _ => noUB_ok _
        cases ps with
        | nil =>
          rw [intercalate_one, getline_last hp]
          cases l <;> exact noUB_ok _
        | cons q ps =>
          rw [intercalate_more, getline_part hp]
          exact ih (by simp) (fun x hx => hdot x (List.mem_cons_of_mem _ hx))
            fun a' ha' p' hp' => h a' (List.mem_cons_of_mem _ ha') p' (List.mem_cons_of_mem _ hp')

theorem textRams_noUB {fs : Fs} {iz b : Json} {whole : List Str} (hne : whole ≠ []) (hdot : ∀ p ∈ whole, c!"." ∉ p) :
    ∀ {l : List Json} {parts : List Str}, parts ≠ [] → (∀ p ∈ parts, p ∈ whole) →
    (∀ a ∈ l, ∀ p ∈ whole, ¬ IsUB (Discriminator.ramOfData fs (Json.ofList [(b!"ignoreZero", iz), (b!"base", b)]) a p)) →
    ¬ IsUB (Discriminator.textRams fs (Json.ofList [(b!"ignoreZero", iz), (b!"base", b)]) (List.intercalate b!"." whole) l
      (List.intercalate b!"." parts)) := by
  intro l
  induction l with
  | nil => intro parts _ _ _; exact noUB_ok _
  | cons a l ih =>
    intro parts hne' hsub h
    have h' : ∀ a ∈ l, ∀ p ∈ whole, ¬ IsUB (Discriminator.ramOfData fs (Json.ofList [(b!"ignoreZero", iz), (b!"base", b)]) a p) :=
      fun a' ha' => h a' (List.mem_cons_of_mem _ ha')
    cases parts with
    | nil => exact absurd rfl hne'
    | cons p ps =>
      have hp := hdot p (hsub p (by simp))
      rw [Discriminator.textRams]
      cases ps with
      | nil =>
        rw [intercalate_one, findFrom_none hp]
        exact noUB_bind (h a (by simp) p (hsub p (by simp))) fun _ _ => noUB_bind (ih hne (fun _ h => h) h') fun _ _ => noUB_ok _
      | cons q ps =>
        rw [intercalate_more, findFrom_part hp]
        simp only [List.take_left', List.drop_append, List.drop_length]
        refine noUB_bind ?_ fun _ _ => noUB_bind ?_ fun _ _ => noUB_ok _
        · exact h a (by simp) p (hsub p (by simp))
        · have e : (p ++ c!"." :: List.intercalate b!"." (q :: ps)).drop (p.length + 1) = List.intercalate b!"." (q :: ps) := by simp
          simp only [List.drop_append, List.drop_length] at e
          rw [e]
          exact ih (by simp) (fun x hx => hsub x (List.mem_cons_of_mem _ hx)) h'

theorem pieces_unique {text : Str} {parts parts' : List Str} (h : Pieces text parts) (h' : Pieces text parts') : parts = parts' := by
  obtain ⟨h1, h2, h3⟩ := h
  obtain ⟨h1', h2', h3'⟩ := h'
  rw [h3] at h3'
  clear h3
  induction parts generalizing parts' with
  | nil => exact absurd rfl h1
  | cons p ps ih =>
    cases parts' with
    | nil => exact absurd rfl h1'
    | cons q qs =>
      have hp := h2 p (by simp)
      have hq := h2' q (by simp)
      cases ps with
      | nil =>
        cases qs with
        | nil => rw [intercalate_one, intercalate_one] at h3'; rw [h3']
        | cons r qs =>
          rw [intercalate_one, intercalate_more] at h3'
          exact absurd (h3' ▸ (by simp : c!"." ∈ q ++ c!"." :: List.intercalate b!"." (r :: qs))) hp
      | cons r ps =>
        cases qs with
        | nil =>
          rw [intercalate_one, intercalate_more] at h3'
          exact absurd (h3' ▸ (by simp : c!"." ∈ p ++ c!"." :: List.intercalate b!"." (r :: ps))) hq
        | cons t qs =>
          rw [intercalate_more, intercalate_more] at h3'
          have e := congrArg getline h3'
          rw [getline_part hp, getline_part hq] at e
          simp only [Prod.mk.injEq, Option.some.injEq] at e
          rw [e.1, ih (parts' := t :: qs) (by simp) (fun x hx => h2 x (List.mem_cons_of_mem _ hx)) (by simp)
            (fun x hx => h2' x (List.mem_cons_of_mem _ hx)) e.2]

theorem pieces_le {parts : List Str} {p : Str} (h : p ∈ parts) : p.length ≤ (List.intercalate b!"." parts).length := by
  induction parts with
  | nil => cases h
  | cons q ps ih =>
    cases ps with
    | nil =>
      rw [List.mem_singleton] at h
      rw [h, intercalate_one]
    | cons r ps =>
      rw [intercalate_more, List.length_append, List.length_cons]
      rcases List.mem_cons.mp h with rfl | h
      · omega
      · have := ih h
        omega

/-- C116 (partial), loading a discriminator. -/
theorem C116_load_discriminator_partial (fs : Fs) (m : List (Str × Json)) (h : DiscSafe fs m) :
    ¬ IsUB (Discriminator.ofJson fs (.obj m)) := by
  unfold Discriminator.ofJson Discriminator.setRAMsData
  simp only [key_obj, Except.bind_ok, elements_eq]
  refine noUB_bind (asInt_noUB h.entrySize) fun es _ => noUB_bind (asInt_noUB h.count) fun ct _ =>
    noUB_bind (asStr_noUB _) fun data hd => noUB_bind ?_ fun _ _ => noUB_ok _
  have hd : valueOf m b!"data" = .str data := by
    revert hd
    cases valueOf m b!"data" <;> intro hd <;> cases hd
    rfl
  have hram : ∀ text : Str, text.length < 2147483648 → PartsWhole text → ∀ parts, Pieces text parts →
      ∀ a ∈ elementsOf (valueOf m b!"mapping"), ∀ p ∈ parts, ¬ IsUB (Discriminator.ramOfData fs
        (Json.ofList [(b!"ignoreZero", valueOf m b!"ignoreZero"), (b!"base", valueOf m b!"base")]) a p) := by
    intro text hl hw parts hp a ha p hpm
    have := pieces_le hpm
    rw [← hp.2.2] at this
    exact ramOfData_noUB fs h.base (h.addresses a ha) (fun v l hv e => h.power v l hv (e ▸ ha)) (hp.2.1 p hpm) (hw parts hp p hpm)
      (by omega)
  refine noUB_bind ?_ fun isf hisf => ?_
  · unfold endsWith
    split
    · exact noUB_throw _
    · exact noUB_ok _
  · obtain ⟨h6, hs⟩ := endsWith_iff.mp hisf
    cases isf with
    | true =>
      rw [if_pos rfl]
      cases hf : fs data with
      | none => exact noUB_ok _
      | some text =>
        obtain ⟨h1, h2⟩ := h.file data text hd (hs.mp rfl) hf
        obtain ⟨parts, hp⟩ := pieces_exist text
        have := hram text h1 h2 parts hp
        obtain ⟨p1, p2, rfl⟩ := hp
        exact fileRams_noUB p1 p2 this
    | false =>
      obtain ⟨h1, h2⟩ := h.text data hd (fun e => Bool.false_ne_true (hs.mpr e))
      rw [if_neg Bool.false_ne_true, if_neg (by omega)]
      obtain ⟨parts, hp⟩ := pieces_exist data
      have := hram data h1 h2 parts hp
      obtain ⟨p1, p2, rfl⟩ := hp
      exact textRams_noUB p1 p2 p1 (fun _ h => h) this

theorem opt_noUB {α : Type} (m : List (Str × Json)) (k : Str) (dflt : α) (f : Json → Res α) (h : ¬ IsUB (f (valueOf m k))) :
    ¬ IsUB ((Json.obj m).opt k dflt f) := by
  unfold Json.opt
  rw [key_obj, Except.bind_ok]
  split
  · exact noUB_ok _
  · exact h

theorem wisardOpts_noUB {m : List (Str × Json)} (h : WisardNumbers m) : ¬ IsUB (Wisard.optsOfJson (.obj m)) := by
  unfold Wisard.optsOfJson
  refine noUB_bind (opt_noUB _ _ _ _ (asBool_noUB _)) fun _ _ => noUB_bind (opt_noUB _ _ _ _ (asBool_noUB _)) fun _ _ =>
    noUB_bind (opt_noUB _ _ _ _ (asBool_noUB _)) fun _ _ => noUB_bind (opt_noUB _ _ _ _ (asBool_noUB _)) fun _ _ =>
    noUB_bind (opt_noUB _ _ _ _ (asMapping_noUB h.mapping)) fun _ _ => noUB_bind (opt_noUB _ _ _ _ (asInts_noUB h.indexes)) fun _ _ =>
    noUB_bind (opt_noUB _ _ _ _ (asInt_noUB h.base)) fun _ _ => noUB_bind (opt_noUB _ _ _ _ (asInt_noUB h.confidence)) fun _ _ =>
    noUB_bind (opt_noUB _ _ _ _ (asBool_noUB _)) fun _ _ => noUB_bind (opt_noUB _ _ _ _ (asBool_noUB _)) fun _ _ =>
    noUB_bind (opt_noUB _ _ _ _ (asBool_noUB _)) fun _ _ => noUB_bind (opt_noUB _ _ _ _ (asBool_noUB _)) fun _ _ => noUB_ok _

theorem DiscSafe.congr {fs : Fs} {m m' : List (Str × Json)} (h : ∀ k, valueOf m k = valueOf m' k) (hs : DiscSafe fs m) : DiscSafe fs m' := by
  obtain ⟨h1, h2, h3, h4, h5, h6, h7⟩ := hs
  simp only [h] at h1 h2 h3 h4 h5 h6 h7
  exact ⟨h1, h2, h3, h4, h5, h6, h7⟩

/-- C116 (partial), loading a Wisard. -/
theorem C116_load_wisard_partial (fs : Fs) (m : List (Str × Json)) (h : WisardSafe fs m) : ¬ IsUB (Wisard.ofJson fs (.obj m)) := by
  unfold Wisard.ofJson
  simp only [key_obj, Except.bind_ok]
  refine noUB_bind (wisardOpts_noUB h.numbers) fun o ho => noUB_bind (asInt_noUB h.numbers.addressSize) fun _ _ =>
    noUB_bind (items_noUB _) fun items hi => noUB_bind ?_ fun _ _ => noUB_ok _
  have ho := wisardOpts_iff.mp ho
  have hc : ∀ e ∈ items, ∀ iz b, Reads m b!"ignoreZero" IsBool false iz → Reads m b!"base" IsInt 2 b →
      DiscSafe fs (override (override (membersOf e.2) b!"ignoreZero" (.bool iz)) b!"base" (.int b)) := by
    revert hi
    generalize hv : valueOf m b!"classes" = v
    intro hi
    cases v with
    | obj l => cases hi; exact h.classes _ hv
    | null => cases hi; intro e he; cases he
    | arr l =>
      cases l with
      | nil => cases hi; intro e he; cases he
      | cons _ _ => cases hi
    | _ => cases hi
  have hc : ∀ e ∈ items, DiscSafe fs (override (override (membersOf e.2) b!"ignoreZero" (.bool o.ignoreZero)) b!"base" (.int o.base)) :=
    fun e he => hc e he _ _ ho.ignoreZero ho.base
  clear * - hc
  generalize ([] : SMap Discriminator) = acc
  induction items generalizing acc with
  | nil => exact noUB_ok _
  | cons e items ih =>
    obtain ⟨k, j⟩ := e
    rw [Wisard.classesOfJson]
    refine noUB_bind ?_ fun _ _ => ih (fun e he => hc e (List.mem_cons_of_mem _ he)) _
    obtain ⟨mm, e1, e2⟩ := dConfig_merge j o.ignoreZero o.base
    rw [e1]
    exact C116_load_discriminator_partial fs mm (DiscSafe.congr (fun k => (e2 k).symm) (hc (k, j) (by simp)))

theorem isInt_range {j : Json} {v : Int} (h : IsInt j v) : InI32 v := by
  cases h with
  | int h _ => exact h
  | bool b => cases b <;> decide
  | real h _ _ => exact h

theorem clusOpts_noUB {m : List (Str × Json)} (h : ClusNumbers m) : ¬ IsUB (ClusWisard.optsOfJson (.obj m)) := by
  unfold ClusWisard.optsOfJson
  refine noUB_bind (opt_noUB _ _ _ _ (asBool_noUB _)) fun _ _ => noUB_bind (opt_noUB _ _ _ _ (asBool_noUB _)) fun _ _ =>
    noUB_bind (opt_noUB _ _ _ _ (asBool_noUB _)) fun _ _ => noUB_bind (opt_noUB _ _ _ _ (asBool_noUB _)) fun _ _ =>
    noUB_bind (opt_noUB _ _ _ _ (asInt_noUB h.base)) fun _ _ => noUB_bind (opt_noUB _ _ _ _ (asInt_noUB h.confidence)) fun _ _ =>
    noUB_bind (opt_noUB _ _ _ _ (asBool_noUB _)) fun _ _ => noUB_bind (opt_noUB _ _ _ _ (asBool_noUB _)) fun _ _ =>
    noUB_bind (opt_noUB _ _ _ _ (asBool_noUB _)) fun _ _ => noUB_bind (opt_noUB _ _ _ _ (asBool_noUB _)) fun _ _ => noUB_ok _

theorem cluster_noUB (fs : Fs) (w : ClusWisard) (j : Json) (hj : ClusterSafe fs w.opts.ignoreZero w.opts.base j)
    (hb : InI32 w.opts.base) :
    ¬ IsUB (Cluster.ofJson fs (j.mergePatch (ClusWisard.clusterConfig w.addressSize w.minScore w.threshold w.discriminatorsLimit w.opts))) := by
  obtain ⟨mm, e1, e2⟩ := clusterConfig_merge w j
  rw [e1]
  have k : ∀ x, valueOf mm x = valueOf (clusterMembers w j) x := e2
  have v1 : valueOf mm b!"addressSize" = .int w.addressSize := k _
  have v2 : valueOf mm b!"discriminatorsLimit" = .int w.discriminatorsLimit := k _
  have v3 : valueOf mm b!"threshold" = .int w.threshold := k _
  have v4 : valueOf mm b!"base" = .int w.opts.base := k _
  have v5 : valueOf mm b!"ignoreZero" = .bool w.opts.ignoreZero := k _
  have v6 : valueOf mm b!"entrySize" = valueOf (membersOf j) b!"entrySize" := k _
  have v7 : valueOf mm b!"discriminators" = valueOf (membersOf j) b!"discriminators" := k _
  unfold Cluster.ofJson
  simp only [key_obj, Except.bind_ok, elements_eq]
  refine noUB_bind (opt_noUB _ _ _ _ (v1 ▸ noUB_ok _)) fun _ _ => noUB_bind (opt_noUB _ _ _ _ (asInt_noUB (v6 ▸ hj.1))) fun _ _ =>
    noUB_bind (opt_noUB _ _ _ _ (asReal_noUB _)) fun _ _ => noUB_bind (opt_noUB _ _ _ _ (v2 ▸ noUB_ok _)) fun _ _ =>
    noUB_bind (opt_noUB _ _ _ _ (v3 ▸ noUB_ok _)) fun _ _ => noUB_bind (opt_noUB _ _ _ _ (asBool_noUB _)) fun iz hiz =>
    noUB_bind (opt_noUB _ _ _ _ (asBool_noUB _)) fun _ _ => noUB_bind (opt_noUB _ _ _ _ (v4 ▸ noUB_ok _)) fun b hbv =>
    noUB_bind ?_ fun _ _ => noUB_ok _
  have hiz : iz = w.opts.ignoreZero := by
    unfold Json.opt at hiz
    rw [key_obj, Except.bind_ok, v5] at hiz
    cases hiz
    rfl
  have hbv : b = w.opts.base := by
    unfold Json.opt at hbv
    rw [key_obj, Except.bind_ok, v4] at hbv
    have : Json.narrow w.opts.base = b := by
      change Except.ok _ = Except.ok _ at hbv
      injection hbv
    rw [← this]
    exact Json.narrow_eq hb
  subst hiz hbv
  rw [v7]
  have hd := hj.2
  generalize elementsOf (valueOf (membersOf j) b!"discriminators") = l at hd
  generalize ([] : List (Option Discriminator)) = acc
  clear * - hd
  induction l generalizing acc with
  | nil => exact noUB_ok _
  | cons x l ih =>
    rw [Cluster.discsOfJson]
    refine noUB_bind ?_ fun _ _ => ih (fun e he => hd e (List.mem_cons_of_mem _ he)) _
    obtain ⟨mm, e1, e2⟩ := dConfig_merge x w.opts.ignoreZero w.opts.base
    rw [e1]
    exact C116_load_discriminator_partial fs mm (DiscSafe.congr (fun k => (e2 k).symm) (hd _ (by simp)))

/-- C116 (partial), loading a ClusWisard. -/
theorem C116_load_clusWisard_partial (fs : Fs) (m : List (Str × Json)) (h : ClusSafe fs m) :
    ¬ IsUB (ClusWisard.ofJson fs (.obj m)) := by
  unfold ClusWisard.ofJson
  simp only [key_obj, Except.bind_ok]
  refine noUB_bind (clusOpts_noUB h.numbers) fun o ho => noUB_bind (asInt_noUB h.numbers.addressSize) fun A _ =>
    noUB_bind (asReal_noUB _) fun ms _ => noUB_bind (asInt_noUB h.numbers.threshold) fun t _ =>
    noUB_bind (asInt_noUB h.numbers.discriminatorsLimit) fun dl _ =>
    noUB_bind (items_noUB _) fun items hi => noUB_bind ?_ fun _ _ => noUB_bind ?_ fun _ _ => noUB_ok _
  all_goals
    have ho := clusOpts_iff.mp ho
    have hb : InI32 o.base := by
      rcases ho.base with ⟨_, e⟩ | ⟨_, e⟩
      · rw [e]; decide
      · exact isInt_range e
  · have hc : ∀ e ∈ items, ∀ iz b, Reads m b!"ignoreZero" IsBool false iz → Reads m b!"base" IsInt 2 b → ClusterSafe fs iz b e.2 := by
      revert hi
      generalize hv : valueOf m b!"clusters" = v
      intro hi
      cases v with
      | obj l => cases hi; exact h.clusters _ hv
      | null => cases hi; intro e he; cases he
      | arr l =>
        cases l with
        | nil => cases hi; intro e he; cases he
        | cons _ _ => cases hi
      | _ => cases hi
    have hc : ∀ e ∈ items, ClusterSafe fs o.ignoreZero o.base e.2 := fun e he => hc e he _ _ ho.ignoreZero ho.base
    generalize ([] : SMap Cluster) = acc
    clear * - hc hb
    induction items generalizing acc with
    | nil => exact noUB_ok _
    | cons e items ih =>
      obtain ⟨k, j⟩ := e
      rw [ClusWisard.clustersOfJson]
      refine noUB_bind ?_ fun _ _ => ih (fun e he => hc e (List.mem_cons_of_mem _ he)) _
      exact cluster_noUB fs ⟨A, ms, t, dl, o, [], Cluster.default⟩ j (hc (k, j) (by simp)) hb
  · split
    · exact noUB_ok _
    · rename_i hn
      exact cluster_noUB fs ⟨A, ms, t, dl, o, [], Cluster.default⟩ _
        (h.unsupervised (fun e => hn (isNull_iff.mpr e)) _ _ ho.ignoreZero ho.base) hb

/-! ## Classifying -/

theorem votes_le {M : Int} (h0 : 0 ≤ M) {x : Image} : ∀ {rs : List Ram} {vs : List Int}, (∀ r ∈ rs, ∀ e ∈ r.positions, e.2 ≤ M) →
    Discriminator.votes x rs = .ok vs → ∀ v ∈ vs, v ≤ M := by
  intro rs
  induction rs with
  | nil => intro vs _ h; cases h; simp
  | cons r rs ih =>
    intro vs hM h
    rw [Discriminator.votes] at h
    obtain ⟨v, h1, h⟩ := bind_eq_ok h
    obtain ⟨vs', h2, h⟩ := bind_eq_ok h
    cases h
    intro u hu
    rcases List.mem_cons.mp hu with rfl | hu
    · unfold Ram.getVote at h1
      obtain ⟨k, h3, h1⟩ := bind_eq_ok h1
      split at h1
      · cases h1; exact h0
      · cases hf : r.positions.find k with
        | none => rw [hf] at h1; cases h1; exact h0
        | some c =>
          rw [hf] at h1
          cases h1
          exact hM r (by simp) (k, u) (RamT.mem_keys_of_find hf)
    · exact ih (fun r hr => hM r (List.mem_cons_of_mem _ hr)) h2 u hu

theorem classify_le {M : Int} (h0 : 0 ≤ M) {x : Image} {d : Discriminator} {vs : List Int} (hM : ContentsAtMost M d)
    (h : d.classify x = .ok vs) : ∀ v ∈ vs, v ≤ M := by
  unfold Discriminator.classify at h
  obtain ⟨_, _, h⟩ := bind_eq_ok h
  exact votes_le h0 hM h

theorem make_noUB {votes : Votes} (bl sbc : Bool) (c : Int) (h : ∀ e ∈ votes, ∀ v ∈ e.2, v ≤ 2147483645) :
    ∃ s, Bleaching.make votes bl sbc c = .ok s := by
  obtain ⟨s, b, _, _, _, h⟩ := C37_terminates votes bl c 2147483645 (by omega) h (by omega)
  exact ⟨s, h sbc⟩

/-- C116 (partial), using a Wisard: if every class reads inside its images and no content is above 2147483645, classifying
images of any sizes and values has no undefined behaviour (it may throw). -/
theorem C116_classify_wisard_partial (w : Wisard) (h : ∀ e ∈ w.discriminators, SafeParts e.2) (xs : List Image)
    (hx : ∀ x ∈ xs, Readable x) : ¬ IsUB (w.classify xs) := by
  induction xs with
  | nil => exact noUB_ok _
  | cons x xs ih =>
    rw [Wisard.classify]
    refine noUB_bind ?_ fun _ _ => noUB_bind (ih fun y hy => hx y (by simp [hy])) fun _ _ => noUB_ok _
    unfold Wisard.classify1
    have hv : ¬ IsUB (Wisard.allvotes x w.discriminators) ∧
        ∀ v, Wisard.allvotes x w.discriminators = .ok v → ∀ e ∈ v, ∀ u ∈ e.2, u ≤ 2147483645 := by
      generalize w.discriminators = m at h
      clear ih
      induction m with
      | nil => exact ⟨noUB_ok _, fun v hv => by cases hv; simp⟩
      | cons e m ih =>
        obtain ⟨l, d⟩ := e
        obtain ⟨i1, i2⟩ := ih fun e he => h e (List.mem_cons_of_mem _ he)
        obtain ⟨hd1, hd2⟩ := h (l, d) (by simp)
        rw [Wisard.allvotes]
        refine ⟨noUB_bind (C20_inside_wiring_no_out_of_bounds_partial d hd1 x (hx x (by simp))).1 fun _ _ =>
          noUB_bind i1 fun _ _ => noUB_ok _, ?_⟩
        intro v hv
        obtain ⟨v1, h1, hv⟩ := bind_eq_ok hv
        obtain ⟨v2, h2, hv⟩ := bind_eq_ok hv
        cases hv
        intro e he
        rcases List.mem_cons.mp he with rfl | he
        · exact classify_le (by omega) hd2 h1
        · exact i2 v2 h2 e he
    refine noUB_bind hv.1 fun v hv' => ?_
    obtain ⟨s, hs⟩ := make_noUB w.opts.bleachingActivated w.opts.searchBestConfidence w.opts.confidence (hv.2 v hv')
    rw [hs]
    exact noUB_ok _

/-- C116 (partial), using a ClusWisard. -/
theorem C116_classify_clusWisard_partial (w : ClusWisard)
    (h : ∀ e ∈ w.clusters, ∀ o ∈ e.2.discriminators, ∃ d, o = some d ∧ SafeParts d) (xs : List (List Int)) :
    ¬ IsUB (w.classify xs) := by
  induction xs with
  | nil => exact noUB_ok _
  | cons x xs ih =>
    rw [ClusWisard.classify]
    refine noUB_bind ?_ fun _ _ => noUB_bind ih fun _ _ => noUB_ok _
    unfold ClusWisard.classify1
    have hcl : ∀ ds : List (Option Discriminator), (∀ o ∈ ds, ∃ d, o = some d ∧ SafeParts d) →
        ¬ IsUB (Cluster.classifyLoop (.vec x) ds) ∧
          ∀ vs, Cluster.classifyLoop (.vec x) ds = .ok vs → ∀ v ∈ vs, ∀ u ∈ v, u ≤ 2147483645 := by
      intro ds
      induction ds with
      | nil => intro _; exact ⟨noUB_ok _, fun vs hv => by cases hv; simp⟩
      | cons o ds ih =>
        intro hd
        obtain ⟨d, rfl, hd1, hd2⟩ := hd o (by simp)
        obtain ⟨i1, i2⟩ := ih fun o ho => hd o (List.mem_cons_of_mem _ ho)
        rw [Cluster.classifyLoop]
        refine ⟨noUB_bind (C20_inside_wiring_no_out_of_bounds_partial d hd1 _ (readable_vec x)).1 fun _ _ =>
          noUB_bind i1 fun _ _ => noUB_ok _, ?_⟩
        intro v hv
        obtain ⟨v1, h1, hv⟩ := bind_eq_ok hv
        obtain ⟨v2, h2, hv⟩ := bind_eq_ok hv
        cases hv
        intro v hvm
        rcases List.mem_cons.mp hvm with rfl | hvm
        · exact classify_le (by omega) hd2 h1
        · exact i2 v2 h2 v hvm
    have hadd : ∀ (l : Str) (vs : List (List Int)) (j : Nat) (m : Votes), (∀ v ∈ vs, ∀ u ∈ v, u ≤ 2147483645) →
        (∀ e ∈ m, ∀ u ∈ e.2, u ≤ 2147483645) → ∀ e ∈ ClusWisard.addVotes l vs j m, ∀ u ∈ e.2, u ≤ 2147483645 := by
      intro l vs
      induction vs with
      | nil => intro j m _ hm; exact hm
      | cons v vs ih =>
        intro j m hv hm
        rw [ClusWisard.addVotes]
        refine ih _ _ (fun v' hv' => hv v' (List.mem_cons_of_mem _ hv')) ?_
        intro e he
        rcases SMap.mem_set he with rfl | he
        · exact hv v (by simp)
        · exact hm e he
    have hv : ∀ m : Votes, (∀ e ∈ m, ∀ u ∈ e.2, u ≤ 2147483645) → ¬ IsUB (ClusWisard.allvotes x w.clusters m) ∧
        ∀ v, ClusWisard.allvotes x w.clusters m = .ok v → ∀ e ∈ v, ∀ u ∈ e.2, u ≤ 2147483645 := by
      generalize w.clusters = cs at h
      clear ih
      induction cs with
      | nil => intro m hm; exact ⟨noUB_ok _, fun v hv => by cases hv; exact hm⟩
      | cons e cs ih =>
        intro m hm
        obtain ⟨l, cl⟩ := e
        obtain ⟨c1, c2⟩ := hcl cl.discriminators (h (l, cl) (by simp))
        rw [ClusWisard.allvotes]
        have ih := ih fun e he => h e (List.mem_cons_of_mem _ he)
        refine ⟨noUB_bind c1 fun vs hvs => (ih _ (hadd l vs 0 m (c2 vs hvs) hm)).1, ?_⟩
        intro v hv
        obtain ⟨vs, h1, hv⟩ := bind_eq_ok hv
        exact (ih _ (hadd l vs 0 m (c2 vs h1) hm)).2 v hv
    obtain ⟨h1, h2⟩ := hv [] (by simp)
    refine noUB_bind h1 fun v hv' => ?_
    obtain ⟨s, hs⟩ := make_noUB w.opts.bleachingActivated w.opts.searchBestConfidence w.opts.confidence (h2 v hv')
    rw [hs]
    exact noUB_ok _

/-! ## The counter of bleaching -/

/-- Bleaching has undefined behaviour exactly if it is on and the result is ambiguous for every threshold an `int` that can be
increased can have: the counter then overflows. -/
theorem Bleaching.loop_ub (votes : Votes) (bl : Bool) (c b0 : Int) (h0 : 1 ≤ b0) (h1 : b0 ≤ 2147483647) :
    (IsUB (Bleaching.loop votes bl c b0) ↔
      bl = true ∧ ∀ b, b0 ≤ b → b ≤ 2147483646 → LaterRivalWithin c (activeAll b votes)) := by
  induction b0 using Bleaching.loop.induct (allvotes := votes) (bleachingActivated := bl) (confidence := c) with
  | case1 b0 hbl =>
    rw [Bleaching.loop]
    simp only [hbl, if_true]
    have : bl = false := by simpa using hbl
    subst this
    exact ⟨fun h => absurd h (noUB_ok _), fun h => absurd h.1 (by simp)⟩
  | case2 b0 hbl e he =>
    rw [Bleaching.loop]
    simp only [hbl, he]
    have hb : bl = true := by simpa using hbl
    have hm : ¬ InI32 (b0 + 1) := by
      intro hi
      unfold i32 at he
      rw [if_pos hi] at he
      cases he
    have : b0 = 2147483647 := by
      by_contra hc
      exact hm ⟨by omega, by omega⟩
    unfold i32 at he
    rw [if_neg hm] at he
    cases he
    refine ⟨fun _ => ⟨hb, fun b _ _ => by omega⟩, fun _ => ⟨_, rfl⟩⟩
  | case3 b0 _ hbl v he hag ih =>
    rw [Bleaching.loop]
    have hag : Bleaching.again (Bleaching.scores votes b0) c = true := hag
    simp only [hbl, he, hag]
    simp only [Bool.false_eq_true, if_false, dite_true]
    have hb : bl = true := by simpa using hbl
    have hi : InI32 (b0 + 1) := by
      by_contra hc
      unfold i32 at he
      rw [if_neg hc] at he
      cases he
    have hr : LaterRivalWithin c (activeAll b0 votes) := by
      rw [← Bleaching.scores_eq]
      exact (Bleaching.again_iff _ _).mp hag
    have ih := ih (by omega) hi.2
    rw [ih]
    refine ⟨fun ⟨h1, h2⟩ => ⟨h1, fun b hb1 hb2 => ?_⟩, fun ⟨h1, h2⟩ => ⟨h1, fun b hb1 hb2 => h2 b (by omega) hb2⟩⟩
    by_cases e : b = b0
    · subst e; exact hr
    · exact h2 b (by omega) hb2
  | case4 b0 _ hbl v he hag =>
    rw [Bleaching.loop]
    have hag : ¬ Bleaching.again (Bleaching.scores votes b0) c = true := hag
    simp only [hbl, he, hag]
    simp only [Bool.false_eq_true, if_false, dite_false]
    have hi : InI32 (b0 + 1) := by
      by_contra hc
      unfold i32 at he
      rw [if_neg hc] at he
      cases he
    have hr : ¬ LaterRivalWithin c (activeAll b0 votes) := by
      rw [← Bleaching.scores_eq]
      exact fun h => hag ((Bleaching.again_iff _ _).mpr h)
    exact ⟨fun h => absurd h (noUB_ok _), fun h => absurd (h.2 b0 (by omega) (by have := hi.2; omega)) hr⟩

/-- C37, sharp: bleaching has undefined behaviour exactly if it is on and the scores are ambiguous at every threshold from 1 to
2147483646. -/
theorem C37_overflow_iff (votes : Votes) (bl sbc : Bool) (c : Int) :
    IsUB (Bleaching.make votes bl sbc c) ↔
      bl = true ∧ ∀ b, 1 ≤ b → b ≤ 2147483646 → LaterRivalWithin c (activeAll b votes) := by
  rw [← Bleaching.loop_ub votes bl c 1 (by omega) (by omega)]
  unfold Bleaching.make Bleaching.makeWithConfidence Bleaching.makeConfidenceless
  rw [ite_self]
  cases h : Bleaching.loop votes bl c 1 with
  | ok s => exact ⟨fun h => absurd h (noUB_ok _), fun h => absurd h (noUB_ok _)⟩
  | error e =>
    rw [Except.bind_error]
    constructor
    · rintro ⟨u, h⟩; injection h with h; subst h; exact ⟨u, rfl⟩
    · rintro ⟨u, h⟩; injection h with h; subst h; exact ⟨u, rfl⟩

/-- Two classes with contents 2147483646 at the same places: the counter of bleaching overflows. -/
theorem C37_overflow_attained (a b : Str) : IsUB (Bleaching.make [(a, [2147483646, 2147483646]), (b, [2147483646, 2147483646])] true false 1) := by
  rw [C37_overflow_iff]
  refine ⟨rfl, fun t h1 h2 => ?_⟩
  have : activeAll t [(a, [(2147483646 : Int), 2147483646]), (b, [(2147483646 : Int), 2147483646])] = [(a, 2), (b, 2)] := by
    simp [activeAll, active, h2]
  rw [this]
  exact ⟨[], _, [(b, 2)], rfl, by simp, by simp, by simp, (b, 2), by simp, by simp⟩

/-! ## C116 is false in general -/

section Refutations

/-- A discriminator document. -/
def doc (entrySize count base : Json) (mapping : Json) (data : Str) : List (Str × Json) :=
  [(b!"base", base), (b!"count", count), (b!"data", .str data), (b!"entrySize", entrySize), (b!"ignoreZero", .bool false),
    (b!"mapping", mapping)]

/-- One stored pattern: address 1 with content 2. -/
def oneTwo : Str := b!"AQAAAAAAAAACAAAA"
/-- One stored pattern: address 1 with content 2147483647, and with 2147483646. -/
def oneMax : Str := b!"AQAAAAAAAAD///9/"
def oneMax' : Str := b!"AQAAAAAAAAD+//9/"

/-- C116 is false: a document whose wires lie outside the images is loaded, and classifying or training any image of the right
size is undefined. -/
theorem C116_outside_wiring : ∃ d, Discriminator.ofJson (fun _ => none) (.obj (doc (.int 4) (.int 0) (.int 2) (.arr [.arr [.int 1000]]) oneTwo)) = .ok d ∧
    ∀ x : List Int, x.length = 4 → IsUB (d.classify (.vec x)) ∧ IsUB (d.train (.vec x)).2 := by
  refine ⟨{ entrySize := 4, count := 0, rams := [{ addresses := [1000], positions := [(1, 2)], ignoreZero := false, base := 2 }] },
    by decide +kernel, ?_⟩
  intro x hx
  have hr : (Image.vec x).read 1000 = .error (.ub .outOfBounds) := by
    have : x[1000]? = none := by simp [hx]
    simp [Image.read, this, hx]
  constructor
  · refine ⟨.outOfBounds, ?_⟩
    unfold Discriminator.classify Discriminator.checkEntrySize
    rw [if_neg (by simp [Image.size, hx])]
    simp only [Except.bind_ok, Discriminator.votes, Ram.getVote, Ram.getIndex, Ram.indexLoop, hr, Except.bind_error]
  · refine ⟨.outOfBounds, ?_⟩
    unfold Discriminator.train Discriminator.checkEntrySize
    rw [if_neg (by simp [Image.size, hx])]
    have : i32 (0 + 1) = .ok 1 := rfl
    simp only [this, Discriminator.trainRams, Ram.train, Ram.getIndex, Ram.indexLoop, hr, Except.bind_error]

/-- C116 is false: a part of the data with a wrong length, a number that is no `int`, a power of the base that is no `long`:
loading is undefined. -/
theorem C116_load_undefined :
    IsUB (Discriminator.ofJson (fun _ => none) (.obj (doc (.int 4) (.int 0) (.int 2) (.arr [.arr [.int 1]]) b!"AQAAAAAAA"))) ∧
    IsUB (Discriminator.ofJson (fun _ => none) (.obj (doc (.real 10000000000) (.int 0) (.int 2) (.arr [.arr [.int 1]]) oneTwo))) ∧
    IsUB (Discriminator.ofJson (fun _ => none) (.obj (doc (.int 4) (.int 0) (.int 10) (.arr [.arr (List.replicate 20 (.int 1))]) oneTwo))) :=
  ⟨⟨.outOfBounds, by decide +kernel⟩, ⟨.overflow, by decide +kernel⟩, ⟨.overflow, by decide +kernel⟩⟩

/-- C116 is false: with a content of 2147483647 training is undefined, with base 0 the mental image is. -/
theorem C116_use_undefined (it : IterOrder) :
    (∃ d, Discriminator.ofJson (fun _ => none) (.obj (doc (.int 1) (.int 0) (.int 2) (.arr [.arr [.int 0]]) oneMax)) = .ok d ∧
      IsUB (d.train (.vec [1])).2) ∧
    (∃ d, Discriminator.ofJson (fun _ => none) (.obj (doc (.int 1) (.int 0) (.int 0) (.arr [.arr [.int 0]]) oneTwo)) = .ok d ∧
      IsUB (d.getMentalImage it)) := by
  refine ⟨⟨{ entrySize := 1, count := 0, rams := [{ addresses := [0], positions := [(1, 2147483647)], ignoreZero := false, base := 2 }] },
    by decide +kernel, .overflow, by decide +kernel⟩,
    ⟨{ entrySize := 1, count := 0, rams := [{ addresses := [0], positions := [(1, 2)], ignoreZero := false, base := 0 }] },
      by decide +kernel, .divByZero, ?_⟩⟩
  have e : it.ord [(1, 2)] = [(1, 2)] := List.perm_singleton.mp (it.perm _)
  have e2 : ∀ r : Ram, r = { addresses := [0], positions := [(1, 2)], ignoreZero := false, base := 0 } →
      r.getMentalImage it = .error (.ub .divByZero) := by
    rintro r rfl
    unfold Ram.getMentalImage
    simp only [e]
    rfl
  rw [Discriminator.getMentalImage, if_neg (by decide), Discriminator.mentalLoop, e2 _ rfl]
  rfl

/-- C116 is false: two classes with contents 2147483646. -/
theorem C116_classify_undefined : ∃ w, Wisard.ofJson (fun _ => none) (.obj [(b!"addressSize", .int 1), (b!"classes", .obj [
      (b!"a", .obj (doc (.int 2) (.int 0) (.int 2) (.arr [.arr [.int 0], .arr [.int 1]]) (oneMax' ++ b!"." ++ oneMax'))),
      (b!"b", .obj (doc (.int 2) (.int 0) (.int 2) (.arr [.arr [.int 0], .arr [.int 1]]) (oneMax' ++ b!"." ++ oneMax')))])]) = .ok w ∧
    (∀ e ∈ w.discriminators, WiredInside e.2.entrySize e.2.mapping) ∧ IsUB (w.classify [.vec [1, 1]]) := by
  refine ⟨{ addressSize := 1, opts := {}, discriminators := [
      (b!"a", { entrySize := 2, count := 0, rams := [{ addresses := [0], positions := [(1, 2147483646)], ignoreZero := false, base := 2 }, { addresses := [1], positions := [(1, 2147483646)], ignoreZero := false, base := 2 }] }),
      (b!"b", { entrySize := 2, count := 0, rams := [{ addresses := [0], positions := [(1, 2147483646)], ignoreZero := false, base := 2 }, { addresses := [1], positions := [(1, 2147483646)], ignoreZero := false, base := 2 }] })] },
    by decide +kernel, by decide +kernel, ?_⟩
  obtain ⟨u, hu⟩ := C37_overflow_attained b!"a" b!"b"
  refine ⟨u, ?_⟩
  rw [Wisard.classify, Wisard.classify1]
  have e : ∀ m : SMap Discriminator, Wisard.allvotes (.vec [1, 1]) m = .ok [(b!"a", [2147483646, 2147483646]), (b!"b", [2147483646, 2147483646])] →
      (Wisard.allvotes (.vec [1, 1]) m >>= fun votes => Bleaching.make votes true false 1) = .error (.ub u) := by
    intro m hm
    rw [hm, Except.bind_ok, hu]
  rw [e _ (by decide +kernel)]
  rfl

end Refutations

/-! ## Concrete cases -/

theorem exDoc_safe {m : List (Str × Json)} (ve : valueOf m b!"entrySize" = .int 4) (vc : valueOf m b!"count" = .int 3)
    (vd : valueOf m b!"data" = .str b!"AwAAAAAAAAAHAAAAAAAAAAAAAAABAAAA.AQAAAAAAAAACAAAA")
    (vm : valueOf m b!"mapping" = .arr [.arr [.int 3, .int 0], .arr [.int 1, .real 2]])
    (vb : valueOf m b!"base" = .int 2) : DiscSafe (fun _ => none) m := by
  refine ⟨ve ▸ trivial, vc ▸ trivial, vb ▸ trivial, ?_, ?_, ?_, ?_⟩
  · rw [vm]
    intro a ha l e x hx
    simp only [elementsOf, List.mem_cons, List.not_mem_nil, or_false] at ha
    rcases ha with rfl | rfl <;> cases e <;> simp only [List.mem_cons, List.not_mem_nil, or_false] at hx <;>
      rcases hx with rfl | rfl <;> first | trivial | exact ⟨by decide, by decide⟩
  · rw [vb]
    intro b l hb _
    cases hb with
    | int h1 h2 => left; obtain ⟨h1, h3⟩ := h1; omega
  · rw [vd]
    intro data e _
    cases e
    refine ⟨by decide, ?_⟩
    intro parts hp
    have h2 : Pieces b!"AwAAAAAAAAAHAAAAAAAAAAAAAAABAAAA.AQAAAAAAAAACAAAA" [b!"AwAAAAAAAAAHAAAAAAAAAAAAAAABAAAA", b!"AQAAAAAAAAACAAAA"] :=
      ⟨by simp, by decide +kernel, by decide +kernel⟩
    rw [pieces_unique hp h2]
    decide +kernel
  · rw [vd]
    intro data text e hs hf
    cases hf

/-- The document of Props/LoadJson is safe, and what is loaded from it is. -/
example : DiscSafe (fun _ => none) exDoc ∧ SafeParts exRead :=
  ⟨exDoc_safe rfl rfl rfl rfl rfl, by decide +kernel, by unfold ContentsAtMost; decide +kernel⟩

theorem exDoc_inside (b : Int) (iz : Bool) (hb : b = 2) :
    DiscSafe (fun _ => none) (override (override (membersOf (.obj exDoc)) b!"ignoreZero" (.bool iz)) b!"base" (.int b)) := by
  subst hb
  exact exDoc_safe rfl rfl rfl rfl rfl

/-- Also inside a Wisard and inside a ClusWisard. -/
example : WisardSafe (fun _ => none) exWDoc ∧ ∀ e ∈ exWRead.discriminators, SafeParts e.2 := by
  have hc : valueOf exWDoc b!"classes" = .obj [(b!"a", .obj exDoc)] := rfl
  have hi : valueOf exWDoc b!"indexes" = .null := rfl
  have hm : valueOf exWDoc b!"mapping" = .null := rfl
  refine ⟨⟨⟨trivial, trivial, trivial, ?_, ?_⟩, ?_⟩, ?_⟩
  · intro l h; rw [hi] at h; cases h
  · intro l h; rw [hm] at h; cases h
  · intro items h e he iz b _ hb
    rw [hc] at h
    cases h
    rw [List.mem_singleton] at he
    subst he
    refine exDoc_inside b iz ?_
    rcases hb with ⟨_, hb⟩ | ⟨hb, _⟩
    · exact hb
    · exact absurd rfl hb
  · unfold SafeParts ContentsAtMost; decide +kernel

example : ClusSafe (fun _ => none) exCDoc := by
  have hc : valueOf exCDoc b!"clusters" = .obj [(b!"a", .obj [(b!"discriminators", .arr [.obj exDoc]), (b!"entrySize", .int 4)])] := rfl
  refine ⟨⟨trivial, trivial, trivial, trivial, trivial⟩, ?_, fun h => absurd rfl h⟩
  intro items h e he iz b _ hb
  rw [hc] at h
  cases h
  rw [List.mem_singleton] at he
  subst he
  refine ⟨trivial, ?_⟩
  intro x hx
  have hx : x ∈ [Json.obj exDoc] := hx
  rw [List.mem_singleton] at hx
  subst hx
  refine exDoc_inside b iz ?_
  rcases hb with ⟨_, hb⟩ | ⟨hb, _⟩
  · exact hb
  · exact absurd rfl hb

end Wis
