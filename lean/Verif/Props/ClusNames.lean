import Verif.Props.BindLabels
import Verif.Props.ClusPython
import Verif.Props.JsonParse
import Verif.Lemmas.JsonClosed
/-!
# C147 for ClusWisard: the names returned by `classify` are `str`s
-/

namespace Wis
open Spec PyBind

theorem natStr_ascii (n : Nat) : ∀ b ∈ natStr n, b.toNat ≤ 0x7F := by
  unfold natStr
  intro b hb
  obtain ⟨c, hc, rfl⟩ := List.mem_map.mp hb
  have := digit_byte n c hc
  rw [BitVec.toNat_ofNat, Nat.mod_eq_of_lt (by omega)]
  omega

theorem utf8_beforeSep {s : Str} (h : Utf8 s) : Utf8 (beforeSep s) := by
  induction h with
  | nil => exact .nil
  | @cons c s hc hs ih =>
    have hsep : ∀ (c s : Str), (∀ x ∈ c, x ≠ c!":") → beforeSep (c ++ s) = c ++ beforeSep s := by
      intro c s
      induction c with
      | nil => intro _; rfl
      | cons x c ih =>
        intro hx
        have hx0 := hx x (by simp)
        have ih := ih fun y hy => hx y (by simp [hy])
        rw [List.cons_append, List.cons_append, ← ih]
        cases hcs : c ++ s with
        | nil => rfl
        | cons y t => simp only [beforeSep, hx0, false_and, if_false]
    by_cases hcol : c = [c!":"]
    · subst hcol
      cases hs' : s with
      | nil => simp only [List.append_nil, beforeSep]; rw [show [c!":"] = [c!":"] ++ [] from rfl]; exact .cons hc .nil
      | cons d s2 =>
        rw [hs'] at ih
        simp only [List.cons_append, List.nil_append, beforeSep]
        split
        · exact .nil
        · exact .cons hc ih
    · rw [hsep]
      · exact .cons hc ih
      · intro x hx he
        apply hcol
        obtain ⟨row, hrow, hf⟩ := hc
        subst he
        have hlt : ∀ {b : Nat × Nat}, InRange c!":" b → b.1 ≤ 58 := fun h => h.1
        simp only [utf8Rows, List.mem_cons, List.not_mem_nil, or_false] at hrow
        rcases hrow with rfl | rfl | rfl | rfl | rfl | rfl | rfl | rfl | rfl
        · cases hf with
          | cons h t => cases t; simp only [List.mem_cons, List.not_mem_nil, or_false] at hx; rw [hx]
        all_goals
          exfalso
          obtain ⟨b, hb, hin⟩ := forall₂_mem_left hf hx
          have := hlt hin
          simp only [List.mem_cons, List.not_mem_nil, or_false] at hb
          rcases hb with rfl | rfl | rfl | rfl <;> simp at this

/-- The names in the output for one image. -/
theorem clusOutput_names {o : ClusOpts} {k : Int} {s : Scores} {n : Str} (h : n ∈ (ClusWisard.pyOutput o k s).names) :
    n = beforeSep (Bleaching.getBiggestCandidate s) ∨ ∃ q ∈ s.keys, n = beforeSep q := by
  unfold ClusWisard.pyOutput at h
  dsimp only at h
  split at h
  · simp only [PyLabel.names, List.mem_singleton] at h; exact .inl h
  · have deg : ∀ c : Scores, n ∈ (ClusWisard.getClassesDegrees c).map (·.1) → ∃ q ∈ c.keys, n = beforeSep q := by
      intro c hc
      simp only [ClusWisard.getClassesDegrees, List.map_map, List.mem_map, Function.comp] at hc
      obtain ⟨e, he, rfl⟩ := hc
      exact ⟨e.1, List.mem_map.mpr ⟨e, he, rfl⟩, rfl⟩
    have big : ∀ {q : Str}, q ∈ s.keys ∨ q = Bleaching.getBiggestCandidate s → n = beforeSep q →
        n = beforeSep (Bleaching.getBiggestCandidate s) ∨ ∃ q ∈ s.keys, n = beforeSep q := by
      rintro q (h | rfl) h'
      · exact .inr ⟨q, h, h'⟩
      · exact .inl h'
    cases g1 : o.returnActivationDegree <;> cases g2 : o.returnConfidence <;> cases g3 : o.returnClassesDegrees <;>
      simp only [PyLabel.names, g1, g2, g3, if_true, if_false, Bool.false_eq_true, Option.getD_some, Option.getD_none, List.map_nil, List.mem_cons, List.not_mem_nil, or_false] at h
    all_goals (first | exact .inl h | (rcases h with h | h; · exact .inl h))
    all_goals obtain ⟨q, hq, h⟩ := deg _ h
    · exact big (.inl hq) h
    · exact big (touch_keys hq) h
    · exact big (touch_keys hq) h
    · rcases touch_keys hq with hq | hq
      · exact big (touch_keys hq) h
      · exact big (.inr hq) h

/-- Every name in the result of `classify` is the part before `"::"` of `label::j` with the label of a class, or `""` if no
class has a discriminator. -/
theorem clusClassify_names {w : ClusWisard} (hs : SMap.Sorted w.clusters) {xs : List (List Int)} {rs : List PyLabel}
    (h : w.pyClassify xs = .ok rs) : ∀ r ∈ rs, ∀ n ∈ r.names, (∃ l ∈ w.clusters.keys, ∃ j, n = beforeSep (l ++ b!"::" ++ natStr j)) ∨
      ((∀ l c, w.clusters.find l = some c → c.getSize = 0) ∧ n = []) := by
  unfold ClusWisard.pyClassify at h
  split at h
  · cases h
  · obtain ⟨k, _, h⟩ := bind_eq_ok h
    intro r hr n hn
    obtain ⟨i, hi⟩ := List.mem_iff_getElem?.mp hr
    obtain ⟨x, _, s, hs', rfl⟩ := pyLoop_get w k _ rs h i r hi
    obtain ⟨b, _, ht⟩ := classify1_table hs hs'
    rcases clusOutput_names hn with hn | ⟨q, hq, hn⟩
    · rcases classify1_label hs hs' with ⟨l, c, j, h1, h2, h3⟩ | ⟨h1, h2⟩
      · exact .inl ⟨l, SMap.mem_keys_iff.mpr ⟨c, h1⟩, j, by rw [hn, h3]; rfl⟩
      · exact .inr ⟨h1, by rw [hn, h2]; rfl⟩
    · obtain ⟨e, he, rfl⟩ := List.mem_map.mp hq
      obtain ⟨l, j, v, e1, ⟨d, e2, _⟩, _⟩ := (ht.entries e.1 e.2).mp he
      refine .inl ⟨l, ?_, j, by rw [hn, e1]⟩
      unfold discs at e2
      cases hf : w.clusters.find l with
      | none => rw [hf] at e2; simp at e2
      | some c => exact SMap.mem_keys_iff.mpr ⟨c, hf⟩

theorem toPython_ok {P : Str → Prop} (rs : List PyLabel) (h : ∀ r ∈ rs, ∀ n ∈ r.names, Utf8 n ∧ P n) :
    ∃ ns, toPython rs = some ns ∧ List.Forall₂ (fun r n => List.Forall₂ (fun l cs => Utf8Of cs l ∧ P l) r.names n) rs ns := by
  induction rs with
  | nil => exact ⟨[], rfl, .nil⟩
  | cons r rs ih =>
    obtain ⟨ns, h1, h2⟩ := ih fun r hr => h r (by simp [hr])
    have hr := h r (by simp)
    obtain ⟨n, h3, h4⟩ := mapM_decode fun l hl => (hr l hl).1
    refine ⟨n :: ns, by simp only [toPython, h3, h1], .cons ?_ h2⟩
    clear h3
    revert hr
    generalize r.names = l at h4
    intro hr
    induction h4 with
    | nil => exact .nil
    | cons a _ ih => exact .cons ⟨a, (hr _ (by simp)).2⟩ (ih fun l hl => hr l (by simp [hl]))

/-- C147 for `ClusWisard`: if all labels were given as `str`s, then `classify` never raises `UnicodeDecodeError`, whatever
characters they contain. -/
theorem C147_clusWisard_decodes (w : ClusWisard) (hs : SMap.Sorted w.clusters) (xs : List (List Int)) (rs : List PyLabel)
    (h : w.pyClassify xs = .ok rs) (hu : ∀ l ∈ w.clusters.keys, Utf8 l) : ∃ ns, toPython rs = some ns := by
  obtain ⟨ns, h1, _⟩ := toPython_ok (P := fun _ => True) rs (by
    intro r hr n hn
    refine ⟨?_, trivial⟩
    rcases clusClassify_names hs h r hr n hn with ⟨l, hl, j, rfl⟩ | ⟨_, rfl⟩
    · refine utf8_beforeSep (utf8_append (utf8_append (hu l hl) (utf8_ascii (by decide))) (utf8_ascii ?_))
      exact natStr_ascii j
    · exact .nil)
  exact ⟨ns, h1⟩

/-- **C147** for `ClusWisard`: if moreover no label contains `"::"` or ends in `':'`, every label returned by `classify` arrives
in Python as the `str` that was given: it is the label of a class (or `""` without discriminators), with the same characters. -/
theorem C147_clusWisard (w : ClusWisard) (hs : SMap.Sorted w.clusters) (xs : List (List Int)) (rs : List PyLabel)
    (h : w.pyClassify xs = .ok rs) (hu : ∀ l ∈ w.clusters.keys, Utf8 l) (hsafe : ∀ l ∈ w.clusters.keys, SafeLabel l) :
    ∃ ns, toPython rs = some ns ∧ List.Forall₂ (fun r n => List.Forall₂ (fun l cs => Utf8Of cs l ∧
      (l ∈ w.clusters.keys ∨ ((∀ k c, w.clusters.find k = some c → c.getSize = 0) ∧ l = []))) r.names n) rs ns := by
  refine toPython_ok (P := fun l => l ∈ w.clusters.keys ∨ ((∀ k c, w.clusters.find k = some c → c.getSize = 0) ∧ l = [])) rs ?_
  intro r hr n hn
  rcases clusClassify_names hs h r hr n hn with ⟨l, hl, j, rfl⟩ | ⟨h1, rfl⟩
  · rw [beforeSep_safe (hsafe l hl)]
    exact ⟨hu l hl, .inl hl⟩
  · exact ⟨.nil, .inr ⟨h1, rfl⟩⟩

end Wis
