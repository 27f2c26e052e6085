import Verif.Props.Bleaching
/-! How the winner of bleaching depends on the votes of one class. -/

namespace Wis
open Spec

section Abstract
variable {α : Type} {lt : α → α → Prop}

/-- First class of top score, above 1, with a later class closer than `c`. -/
def AmbOn (lt : α → α → Prop) (c : Int) (L : List α) (σ : α → Int) : Prop :=
  ∃ x ∈ L, (∀ e ∈ L, σ e ≤ σ x) ∧ (∀ e ∈ L, σ e = σ x → e = x ∨ lt x e) ∧ 1 < σ x ∧ ∃ e ∈ L, lt x e ∧ σ x - σ e < c

/-- Last class of top score. -/
def WinsOn (lt : α → α → Prop) (L : List α) (σ : α → Int) (l : α) : Prop :=
  l ∈ L ∧ (∀ e ∈ L, σ e ≤ σ l) ∧ ∀ e ∈ L, σ e = σ l → e = l ∨ lt e l

/-- A tie of the top score above 1 is ambiguous. -/
theorem amb_of_tie (tr : ∀ a b c, lt a b → lt b c → lt a c) (tri : ∀ a b, a = b ∨ lt a b ∨ lt b a) {c : Int} (hc : 1 ≤ c)
    {L : List α} {σ : α → Int} {a b : α} (ha : a ∈ L) (hb : b ∈ L) (hab : a ≠ b) (ht : ∀ e ∈ L, σ e ≤ σ a) (he : σ a = σ b) (h1 : 1 < σ a) :
    AmbOn lt c L σ := by
  have hfirst : ∀ M : List α, (∀ x ∈ M, x ∈ L) → (∃ x ∈ M, σ x = σ a) → ∃ x ∈ M, σ x = σ a ∧ ∀ e ∈ M, σ e = σ a → e = x ∨ lt x e := by
    intro M
    induction M with
    | nil => intro _ h; obtain ⟨x, hx, _⟩ := h; simp at hx
    | cons y M ih =>
      intro hM hex
      by_cases hr : ∃ x ∈ M, σ x = σ a
      · obtain ⟨x, hx, h2, h3⟩ := ih (fun x hx => hM x (by simp [hx])) hr
        by_cases hy : σ y = σ a
        · rcases tri x y with e | e | e
          · subst e
            exact ⟨x, by simp, h2, fun e he h => by
              rcases List.mem_cons.mp he with q | q
              · exact .inl q
              · exact h3 e q h⟩
          · exact ⟨x, by simp [hx], h2, fun e' he h => by
              rcases List.mem_cons.mp he with q | q
              · subst q; exact .inr e
              · exact h3 e' q h⟩
          · refine ⟨y, by simp, hy, fun e' he h => ?_⟩
            rcases List.mem_cons.mp he with q | q
            · exact .inl q
            · rcases h3 e' q h with k | k
              · subst k; exact .inr e
              · exact .inr (tr _ _ _ e k)
        · exact ⟨x, by simp [hx], h2, fun e he h => by
            rcases List.mem_cons.mp he with q | q
            · subst q; exact absurd h hy
            · exact h3 e q h⟩
      · obtain ⟨x, hx, h2⟩ := hex
        rcases List.mem_cons.mp hx with q | q
        · subst q
          exact ⟨x, by simp, h2, fun e he h => by
            rcases List.mem_cons.mp he with q | q
            · exact .inl q
            · exact absurd ⟨e, q, h⟩ hr⟩
        · exact absurd ⟨x, q, h2⟩ hr
  obtain ⟨x, hx, h2, h3⟩ := hfirst L (fun _ h => h) ⟨a, ha, rfl⟩
  refine ⟨x, hx, fun e h => by rw [h2]; exact ht e h, fun e h k => h3 e h (k.trans h2), by omega, ?_⟩
  rcases h3 a ha rfl with k | k
  · rcases h3 b hb he.symm with k' | k'
    · exact absurd (k.trans k'.symm) hab
    · exact ⟨b, hb, k', by omega⟩
  · exact ⟨a, ha, k, by omega⟩

theorem amb_pos {c : Int} {L : List α} {σ : α → Int} (h : AmbOn lt c L σ) : 1 ≤ c := by
  obtain ⟨x, _, h1, _, _, e, he, _, h2⟩ := h
  have := h1 e he
  omega

/-- Raising the votes of the winning class by one keeps it winning, whatever the confidence. -/
theorem reinforce (irr : ∀ a, ¬ lt a a) (tr : ∀ a b c, lt a b → lt b c → lt a c) (tri : ∀ a b, a = b ∨ lt a b ∨ lt b a) {c : Int} {L : List α}
    {σ σ' : Int → α → Int} {l : α} (hother : ∀ b e, e ≠ l → σ' b e = σ b e) (hup : ∀ b, 1 ≤ b → σ b l ≤ σ' b l)
    (hshift : ∀ b, 1 ≤ b → σ' (b + 1) l = σ b l) (hanti : ∀ b b' e, b ≤ b' → σ b' e ≤ σ b e) {b0 b1 : Int} (hb0 : 1 ≤ b0) (hb1 : 1 ≤ b1)
    (s0 : ¬ AmbOn lt c L (σ b0)) (f0 : ∀ b, 1 ≤ b → b < b0 → AmbOn lt c L (σ b)) (s1 : ¬ AmbOn lt c L (σ' b1))
    (f1 : ∀ b, 1 ≤ b → b < b1 → AmbOn lt c L (σ' b)) (hw : WinsOn lt L (σ b0) l) {m : α} (hm : WinsOn lt L (σ' b1) m) : m = l := by
  obtain ⟨hl, ht, hlast⟩ := hw
  obtain ⟨hmL, hmt, hmlast⟩ := hm
  apply Classical.byContradiction
  intro hml
  rcases Int.lt_trichotomy b1 b0 with h | h | h
  · -- stopped earlier
    obtain ⟨x, hx, hxt, hxf, hx1, e, he, hxe, hd⟩ := f0 b1 hb1 h
    have hc : 1 ≤ c := amb_pos (f0 b1 hb1 h)
    have hu := hup b1 hb1
    have hmo := hother b1 m hml
    have hxm := hxt m hmL
    have hlm := hmt l hl
    apply s1
    by_cases hxl : x = l
    · subst hxl
      exact amb_of_tie tr tri hc hmL hl hml hmt (by omega) (by omega)
    · have hxo := hother b1 x hxl
      have hxm' := hmt x hx
      by_cases hle : σ' b1 l = σ' b1 m
      · exact amb_of_tie tr tri hc hmL hl hml hmt (by omega) (by omega)
      · refine ⟨x, hx, fun y hy => by have := hmt y hy; omega, fun y hy hyx => ?_, by omega, e, he, hxe, ?_⟩
        · have hyl : y ≠ l := by rintro rfl; omega
          exact hxf y hy (by rw [← hother b1 y hyl, hyx, hxo])
        · by_cases hel : e = l
          · subst hel; omega
          · rw [hother b1 e hel, hxo]; exact hd
  · subst h
    have h1 := hmt l hl
    have h2 := ht m hmL
    have h3 := hother b1 m hml
    have h4 := hup b1 hb1
    rcases hlast m hmL (by omega) with k | k
    · exact hml k
    · rcases hmlast l hl (by omega) with k' | k'
      · exact hml k'.symm
      · exact irr _ (tr _ _ _ k k')
  · -- stopped later
    obtain ⟨x, hx, hxt, hxf, hx1, e, he, hxe, hd⟩ := f1 b0 hb0 h
    have hc : 1 ≤ c := amb_pos (f1 b0 hb0 h)
    have hu := hup b0 hb0
    by_cases hs : 1 < σ b0 l
    · apply s0
      by_cases hxl : x = l
      · subst hxl
        have hel : e ≠ x := fun k => irr x (k ▸ hxe)
        by_cases htie : ∃ y ∈ L, y ≠ x ∧ σ b0 y = σ b0 x
        · obtain ⟨y, hy, hyx, hye⟩ := htie
          exact amb_of_tie tr tri hc hl hy (fun k => hyx k.symm) ht hye.symm hs
        · refine ⟨x, hx, ht, fun y hy hyx => ?_, hs, e, he, hxe, ?_⟩
          · exact .inl (Classical.byContradiction fun k => htie ⟨y, hy, k, hyx⟩)
          · have := hother b0 e hel
            omega
      · have h1 := hother b0 x hxl
        have h2 := hxt l hl
        have h3 := ht x hx
        exact amb_of_tie tr tri hc hl hx (fun k => hxl k.symm) ht (by omega) hs
    · -- the top score was at most 1
      have hsh := hshift b0 hb0
      have hle : b1 = b0 + 1 := by
        apply Classical.byContradiction
        intro hne
        obtain ⟨y, hy, hyt, _, hy1, _⟩ := f1 (b0 + 1) (by omega) (by omega)
        by_cases hyl : y = l
        · subst hyl; omega
        · have h1 := hother (b0 + 1) y hyl
          have h2 := hanti b0 (b0 + 1) y (by omega)
          have h3 := ht y hy
          omega
      subst hle
      have h1 := hother (b0 + 1) m hml
      have h2 := hanti b0 (b0 + 1) m (by omega)
      have h3 := ht m hmL
      have h4 := hmt l hl
      rcases hlast m hmL (by omega) with k | k
      · exact hml k
      · rcases hmlast l hl (by omega) with k' | k'
        · exact hml k'.symm
        · exact irr _ (tr _ _ _ k k')

/-- A class that is fully active up to a threshold where all others are silent wins. -/
theorem taught (irr : ∀ a, ¬ lt a a) (tr : ∀ a b c, lt a b → lt b c → lt a c) (tri : ∀ a b, a = b ∨ lt a b ∨ lt b a) {c : Int} {L : List α}
    {σ : Int → α → Int} {l : α} {N M : Int} (hl : l ∈ L) (hN : 2 ≤ N) (hc : 1 ≤ c) (hcN : c ≤ N) (hM : 0 ≤ M)
    (hfull : ∀ b, 1 ≤ b → b ≤ M + 1 → σ b l = N)
    (hmost : ∀ b e, e ∈ L → σ b e ≤ N) (hsilent : ∀ e ∈ L, e ≠ l → σ (M + 1) e = 0) {b1 : Int} (hb1 : 1 ≤ b1) (s1 : ¬ AmbOn lt c L (σ b1))
    (f1 : ∀ b, 1 ≤ b → b < b1 → AmbOn lt c L (σ b)) {m : α} (hm : WinsOn lt L (σ b1) m) : m = l := by
  obtain ⟨hmL, hmt, hmlast⟩ := hm
  apply Classical.byContradiction
  intro hml
  have hle : b1 ≤ M + 1 := by
    apply Classical.byContradiction
    intro hgt
    obtain ⟨x, hx, hxt, hxf, hx1, e, he, hxe, hd⟩ := f1 (M + 1) (by omega) (by omega)
    have h1 := hfull (M + 1) (by omega) (by omega)
    have h2 := hxt l hl
    have hxl : x = l := Classical.byContradiction fun k => by
      have := hsilent x hx k
      omega
    subst hxl
    have hel : e ≠ x := fun k => irr x (k ▸ hxe)
    have := hsilent e he hel
    omega
  have h1 := hfull b1 hb1 hle
  have h2 := hmt l hl
  have h3 := hmost b1 m hmL
  exact s1 (amb_of_tie tr tri hc hmL hl hml hmt (by omega) (by omega))

/-- At one threshold, a raised winner stays the winner. -/
theorem keep_same (irr : ∀ a, ¬ lt a a) (tr : ∀ a b c, lt a b → lt b c → lt a c) {L : List α} {σ σ' : α → Int} {l : α}
    (hother : ∀ e, e ≠ l → σ' e = σ e) (hup : σ l ≤ σ' l) (hw : WinsOn lt L σ l) {m : α} (hm : WinsOn lt L σ' m) : m = l := by
  obtain ⟨hl, ht, hlast⟩ := hw
  obtain ⟨hmL, hmt, hmlast⟩ := hm
  apply Classical.byContradiction
  intro hml
  have h1 := hmt l hl
  have h2 := ht m hmL
  have h3 := hother m hml
  rcases hlast m hmL (by omega) with k | k
  · exact hml k
  · rcases hmlast l hl (by omega) with k' | k'
    · exact hml k'.symm
    · exact irr _ (tr _ _ _ k k')

end Abstract

/-! ## The code's tables of votes -/

/-- The score of class `k` at threshold `b`. -/
def scoreAt (V : Votes) (b : Int) (k : Str) : Int := ((SMap.find V k).map (fun vs => (active b vs : Int))).getD 0

/-- Order of labels. -/
abbrev StrLt (a b : Str) : Prop := Str.lt a b = true

theorem strLt_irr (a : Str) : ¬ StrLt a a := by
  intro h; unfold StrLt at h; rw [Str.lt_irrefl] at h; cases h

theorem strLt_tr (a b c : Str) (h : StrLt a b) (h' : StrLt b c) : StrLt a c := Str.lt_trans h h'

theorem strLt_tri (a b : Str) : a = b ∨ StrLt a b ∨ StrLt b a := by
  by_cases h : a = b
  · exact .inl h
  · cases h' : Str.lt a b with
    | true => exact .inr (.inl h')
    | false => exact .inr (.inr (Str.lt_total h h'))

theorem scoreAt_mem {V : Votes} (hs : SMap.Sorted V) {b : Int} {e : Str × Int} (he : e ∈ activeAll b V) :
    e.1 ∈ SMap.keys V ∧ scoreAt V b e.1 = e.2 := by
  obtain ⟨e', he', rfl⟩ := List.mem_map.mp he
  refine ⟨List.mem_map.mpr ⟨e', he', rfl⟩, ?_⟩
  unfold scoreAt
  rw [SMap.find_of_mem hs (show (e'.1, e'.2) ∈ V from he')]
  rfl

theorem scoreAt_of_key {V : Votes} (hs : SMap.Sorted V) {b : Int} {k : Str} (hk : k ∈ SMap.keys V) :
    (k, scoreAt V b k) ∈ activeAll b V := by
  obtain ⟨e', he', rfl⟩ := List.mem_map.mp hk
  have h : (e'.1, (active b e'.2 : Int)) ∈ activeAll b V := List.mem_map.mpr ⟨e', he', rfl⟩
  have h2 := (scoreAt_mem hs h).2
  simp only at h2
  rw [h2]; exact h

theorem amb_iff {V : Votes} (hs : SMap.Sorted V) (b c : Int) :
    LaterRivalWithin c (activeAll b V) ↔ AmbOn StrLt c (SMap.keys V) (scoreAt V b) := by
  have hs' := Bleaching.activeAll_sorted hs b
  constructor
  · rintro ⟨pre, x, post, h0, h1, h2, h3, e, h4, h5⟩
    have hmem : ∀ y, y ∈ pre ∨ y = x ∨ y ∈ post → y ∈ activeAll b V := by
      intro y hy; rw [h0]; rw [List.mem_append, List.mem_cons]; exact hy
    have hx := scoreAt_mem hs (hmem x (.inr (.inl rfl)))
    have he := scoreAt_mem hs (hmem e (.inr (.inr h4)))
    rw [h0] at hs'
    have hp := List.pairwise_append.mp hs'
    have hp2 := List.pairwise_cons.mp hp.2.1
    refine ⟨x.1, hx.1, ?_, ?_, by omega, e.1, he.1, hp2.1 e h4, by omega⟩
    · intro k hk
      have hm := scoreAt_of_key hs (b := b) hk
      rw [h0, List.mem_append, List.mem_cons] at hm
      rw [hx.2]
      rcases hm with hm | hm | hm
      · exact Int.le_of_lt (h1 _ hm)
      · rw [← hm]
      · exact h2 _ hm
    · intro k hk hkx
      have hm := scoreAt_of_key hs (b := b) hk
      rw [h0, List.mem_append, List.mem_cons] at hm
      rcases hm with hm | hm | hm
      · have := h1 _ hm
        simp only at this
        omega
      · rw [← hm]; exact .inl rfl
      · exact .inr (hp2.1 _ hm)
  · rintro ⟨k, hk, h1, h2, h3, e, he, h4, h5⟩
    have hm := scoreAt_of_key hs (b := b) hk
    obtain ⟨pre, post, h0⟩ := List.append_of_mem hm
    have hmem : ∀ y, y ∈ pre ∨ y = (k, scoreAt V b k) ∨ y ∈ post → y ∈ activeAll b V := by
      intro y hy; rw [h0]; rw [List.mem_append, List.mem_cons]; exact hy
    rw [h0] at hs'
    have hp := List.pairwise_append.mp hs'
    have hp2 := List.pairwise_cons.mp hp.2.1
    refine ⟨pre, (k, scoreAt V b k), post, h0, ?_, ?_, h3, (e, scoreAt V b e), ?_, h5⟩
    · intro y hy
      have hy' := scoreAt_mem hs (hmem y (.inl hy))
      have hlt : StrLt y.1 k := hp.2.2 y hy (k, scoreAt V b k) (by simp)
      have hle := h1 y.1 hy'.1
      rw [hy'.2] at hle
      simp only
      rcases Int.lt_or_eq_of_le hle with h | h
      · exact h
      · rcases h2 y.1 hy'.1 (by rw [hy'.2, h]) with q | q
        · rw [q] at hlt; exact absurd hlt (strLt_irr k)
        · exact absurd (strLt_tr _ _ _ hlt q) (strLt_irr _)
    · intro y hy
      have hy' := scoreAt_mem hs (hmem y (.inr (.inr hy)))
      have hle := h1 y.1 hy'.1
      rw [hy'.2] at hle
      exact hle
    · have hm' := scoreAt_of_key hs (b := b) he
      rw [h0, List.mem_append, List.mem_cons] at hm'
      rcases hm' with q | q | q
      · have hlt : StrLt e k := hp.2.2 _ q (k, scoreAt V b k) (by simp)
        exact absurd (strLt_tr _ _ _ hlt h4) (strLt_irr _)
      · simp only [Prod.mk.injEq] at q
        rw [q.1] at h4
        exact absurd h4 (strLt_irr _)
      · exact q

theorem winner_on {V : Votes} (hs : SMap.Sorted V) (hne : V ≠ []) (b : Int) :
    WinsOn StrLt (SMap.keys V) (scoreAt V b) (Bleaching.getBiggestCandidate (activeAll b V)) := by
  have hne' : activeAll b V ≠ [] := by
    unfold activeAll
    simpa using hne
  obtain ⟨x, hx, h1, h2, h3⟩ := C39_winner _ (Bleaching.activeAll_sorted hs b) hne' (Bleaching.activeAll_nonneg b V)
  rw [h1]
  have hx' := scoreAt_mem hs hx
  refine ⟨hx'.1, ?_, ?_⟩
  · intro e he
    rw [hx'.2]
    exact h2 _ (scoreAt_of_key hs (b := b) he)
  · intro e he hex
    rw [hx'.2] at hex
    exact h3 _ (scoreAt_of_key hs (b := b) he) hex

theorem active_anti {b b' : Int} (h : b ≤ b') (vs : List Int) : active b' vs ≤ active b vs := by
  unfold active
  apply List.countP_mono_left
  intro v _ hv
  have := of_decide_eq_true hv
  exact decide_eq_true (by omega)

/-- A vote raised by one, or a vote of an ignored RAM. -/
def Raised (v v' : Int) : Prop := v' = v + 1 ∨ (v' = v ∧ v ≤ 0)

theorem active_raised {vs vs' : List Int} (h : List.Forall₂ Raised vs vs') {b : Int} (hb : 1 ≤ b) :
    active b vs ≤ active b vs' ∧ active (b + 1) vs' = active b vs := by
  unfold active
  induction h with
  | nil => simp
  | cons h _ ih =>
    simp only [List.countP_cons, decide_eq_true_eq]
    rcases h with h | ⟨h, h0⟩
    · subst h
      refine ⟨?_, ?_⟩
      · split <;> split <;> omega
      · split <;> split <;> omega
    · subst h
      refine ⟨?_, ?_⟩
      · split <;> omega
      · rw [if_neg (by omega), if_neg (by omega)]; omega

/-- Raising the votes of the winning class by one keeps it winning. -/
theorem make_reinforce {V V' : Votes} (hs : SMap.Sorted V) (hs' : SMap.Sorted V') (hk : SMap.keys V' = SMap.keys V) (hne : V ≠ [])
    {l : Str} (hother : ∀ k, k ≠ l → SMap.find V' k = SMap.find V k) {vs vs' : List Int} (hl : SMap.find V l = some vs)
    (hl' : SMap.find V' l = some vs') (hr : List.Forall₂ Raised vs vs') {bl sbc : Bool} {c : Int} {s s' : Scores}
    (h : Bleaching.make V bl sbc c = .ok s) (h' : Bleaching.make V' bl sbc c = .ok s')
    (hw : Bleaching.getBiggestCandidate s = l) : Bleaching.getBiggestCandidate s' = l := by
  have hne' : V' ≠ [] := by
    rintro rfl
    apply hne
    have : (SMap.keys V).length = 0 := by rw [← hk]; rfl
    unfold SMap.keys at this
    rw [List.length_map] at this
    exact List.length_eq_zero_iff.mp this
  have ho : ∀ b e, e ≠ l → scoreAt V' b e = scoreAt V b e := by
    intro b e he
    unfold scoreAt
    rw [hother e he]
  have e1 : ∀ b, scoreAt V b l = (active b vs : Int) := by intro b; unfold scoreAt; rw [hl]; rfl
  have e2 : ∀ b, scoreAt V' b l = (active b vs' : Int) := by intro b; unfold scoreAt; rw [hl']; rfl
  have hup : ∀ b, 1 ≤ b → scoreAt V b l ≤ scoreAt V' b l := by
    intro b hb; rw [e1, e2]; have := (active_raised hr hb).1; omega
  have hsh : ∀ b, 1 ≤ b → scoreAt V' (b + 1) l = scoreAt V b l := by
    intro b hb; rw [e1, e2, (active_raised hr hb).2]
  have han : ∀ b b' e, b ≤ b' → scoreAt V b' e ≤ scoreAt V b e := by
    intro b b' e hb
    unfold scoreAt
    cases SMap.find V e with
    | none => exact Int.le_refl _
    | some v => have := active_anti hb v; simp only [Option.map_some, Option.getD_some]; omega
  obtain ⟨b0, a1, a2, a3, a4⟩ := C38_scores_at_least_threshold V bl sbc c s h
  obtain ⟨b1, c1, c2, c3, c4⟩ := C38_scores_at_least_threshold V' bl sbc c s' h'
  have w0 := winner_on hs hne b0
  have w1 := winner_on hs' hne' b1
  rw [← a2, hw] at w0
  rw [← c2, hk] at w1
  cases bl with
  | false =>
    have := a3 rfl; have := c3 rfl
    subst b0 b1
    exact keep_same strLt_irr strLt_tr (ho 1) (hup 1 (by omega)) w0 w1
  | true =>
    obtain ⟨a5, a6⟩ := a4 rfl
    obtain ⟨c5, c6⟩ := c4 rfl
    rw [amb_iff hs] at a5
    rw [amb_iff hs', hk] at c5
    refine reinforce (c := c) strLt_irr strLt_tr strLt_tri ho hup hsh han a1 c1 a5 (fun b h1 h2 => (amb_iff hs b c).mp (a6 b h1 h2)) c5
      (fun b h1 h2 => ?_) w0 w1
    have := (amb_iff hs' b c).mp (c6 b h1 h2)
    rwa [hk] at this

/-- A class all of whose votes exceed all votes of the others wins. -/
theorem make_taught {V : Votes} (hs : SMap.Sorted V) {l : Str} {vs : List Int} (hl : SMap.find V l = some vs) {M : Int} (hM : 0 ≤ M)
    (hbig : ∀ v ∈ vs, M < v) (hsmall : ∀ k us, k ≠ l → SMap.find V k = some us → us.length ≤ vs.length ∧ ∀ v ∈ us, v ≤ M) (hN : 2 ≤ vs.length) {c : Int}
    (hc : 1 ≤ c) (hcN : c ≤ vs.length) {sbc : Bool} {s : Scores} (h : Bleaching.make V true sbc c = .ok s) :
    Bleaching.getBiggestCandidate s = l := by
  have hlk : l ∈ SMap.keys V := SMap.mem_keys_iff.mpr ⟨vs, hl⟩
  have hne : V ≠ [] := by rintro rfl; cases hl
  obtain ⟨b1, c1, c2, _, c4⟩ := C38_scores_at_least_threshold V true sbc c s h
  obtain ⟨c5, c6⟩ := c4 rfl
  rw [amb_iff hs] at c5
  have w1 := winner_on hs hne b1
  rw [← c2] at w1
  refine taught (N := vs.length) (M := M) (c := c) strLt_irr strLt_tr strLt_tri hlk (by omega) hc hcN hM ?_ ?_ ?_ c1 c5
    (fun b h1 h2 => (amb_iff hs b c).mp (c6 b h1 h2)) w1
  · intro b _ hb
    unfold scoreAt
    rw [hl]
    have : active b vs = vs.length := List.countP_eq_length.mpr (fun v hv => decide_eq_true (by have := hbig v hv; omega))
    simp only [Option.map_some, Option.getD_some, this]
  · intro b e he
    obtain ⟨us, hu⟩ := SMap.mem_keys_iff.mp he
    unfold scoreAt
    rw [hu]
    have h1 : active b us ≤ us.length := List.countP_le_length
    have h2 : us.length ≤ vs.length := by
      by_cases hel : e = l
      · rw [hel, hl] at hu; cases hu; exact Nat.le_refl _
      · exact (hsmall e us hel hu).1
    simp only [Option.map_some, Option.getD_some]
    omega
  · intro e he hel
    obtain ⟨us, hu⟩ := SMap.mem_keys_iff.mp he
    unfold scoreAt
    rw [hu]
    have : active (M + 1) us = 0 := List.countP_eq_zero.mpr (fun v hv => by
      have := (hsmall e us hel hu).2 v hv
      simp only [decide_eq_true_eq]
      omega)
    simp only [Option.map_some, Option.getD_some, this]
    rfl

end Wis
