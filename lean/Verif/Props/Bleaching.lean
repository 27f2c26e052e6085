import Verif.Lemmas.Bleaching
/-!
# Properties C37–C43: bleaching

`votes` is the table class ↦ votes of its RAMs that classification computes; `SMap.Sorted votes` is the
invariant of `std::map`. `Bleaching.make votes bl sbc c` is the call made by `Wisard::classify` with
`bleachingActivated = bl`, `searchBestConfidence = sbc`, `confidence = c`.
-/

namespace Wis
open Spec

/-! ## C37 -/

/-- C37: for every vote table (votes at most 2^31-3, below which no `int` overflow is possible), every
confidence and every flag, bleaching returns; the last threshold, which is also the number of rounds since
thresholds are tried from 1 upwards, is at most the largest vote + 1. -/
theorem C37_terminates (votes : Votes) (bl : Bool) (c M : Int) (h0 : 0 ≤ M) (hM : ∀ e ∈ votes, ∀ v ∈ e.2, v ≤ M)
    (h : M ≤ 2147483645) :
    ∃ s b, Bleaching.makeConfidenceless votes bl c = .ok (s, b) ∧ 1 ≤ b ∧ b ≤ M + 1 ∧
      ∀ sbc, Bleaching.make votes bl sbc c = .ok s := by
  obtain ⟨s, b, h1, h2⟩ := Bleaching.loop_ok votes bl c 1 M hM (by omega) (by omega) h
  have := (Bleaching.loop_spec votes bl c 1 h1).1
  exact ⟨s, b, h1, this, by omega, fun _ => Bleaching.make_of_loop h1⟩

/-- The round bound is attained: two classes with equal votes `M` on two RAMs need `M + 1` rounds. -/
theorem C37_bound_attained (M : Nat) (h : M ≤ 2147483645) :
    ∃ s, Bleaching.makeConfidenceless [(b!"a", [(M : Int), M]), (b!"b", [(M : Int), M])] true 1 = .ok (s, M + 1) := by
  have hM : ∀ e ∈ ([(b!"a", [(M : Int), M]), (b!"b", [(M : Int), M])] : Votes), ∀ v ∈ e.2, v ≤ (M : Int) := by
    intro e he v hv
    simp only [List.mem_cons, List.not_mem_nil, or_false] at he
    rcases he with rfl | rfl <;> simp at hv <;> omega
  obtain ⟨s, b, h1, h2⟩ := Bleaching.loop_ok _ true 1 1 M hM (by omega) (by omega) (by omega)
  obtain ⟨h3, h4, _, h5⟩ := Bleaching.loop_spec _ true 1 1 h1
  refine ⟨s, ?_⟩
  have hb : ¬ (b ≤ M) := by
    intro hb
    apply (h5 rfl).1
    have : activeAll b [(b!"a", [(M : Int), M]), (b!"b", [(M : Int), M])] = [(b!"a", 2), (b!"b", 2)] := by
      simp [activeAll, active, hb]
    rw [this]
    exact ⟨[], _, [(b!"b", 2)], rfl, by simp, by simp, by simp, (b!"b", 2), by simp, by simp⟩
  have : b = M + 1 := by omega
  subst this
  exact h1

/-! ## C38 -/

/-- C38: whatever bleaching returns, every class score is the number of its votes `≥ b` for one common
threshold `b ≥ 1`; without bleaching `b = 1`; with bleaching `b` is the least threshold at which the scores
are not ambiguous, where "ambiguous" (`LaterRivalWithin c`) means: the top score exceeds 1 and a class
after the first best one (in label order) is closer than `c` to it. -/
theorem C38_scores_at_least_threshold (votes : Votes) (bl sbc : Bool) (c : Int) (s : Scores)
    (h : Bleaching.make votes bl sbc c = .ok s) :
    ∃ b, 1 ≤ b ∧ s = activeAll b votes ∧ (bl = false → b = 1) ∧
      (bl = true → ¬ LaterRivalWithin c (activeAll b votes) ∧
        ∀ b', 1 ≤ b' → b' < b → LaterRivalWithin c (activeAll b' votes)) := by
  obtain ⟨b, hb⟩ := Bleaching.make_ok h
  exact ⟨b, Bleaching.loop_spec votes bl c 1 hb⟩

/-- C38 for the default confidence 1: `b` is the least threshold at which the best score is not shared by
two classes or is at most 1. -/
theorem C38_scores_confidence_one (votes : Votes) (hs : SMap.Sorted votes) (sbc : Bool) (s : Scores)
    (h : Bleaching.make votes true sbc 1 = .ok s) :
    ∃ b, 1 ≤ b ∧ s = activeAll b votes ∧ ¬ TiedAbove1 (activeAll b votes) ∧
        ∀ b', 1 ≤ b' → b' < b → TiedAbove1 (activeAll b' votes) := by
  obtain ⟨b, h1, h2, _, h3⟩ := C38_scores_at_least_threshold votes true sbc 1 s h
  refine ⟨b, h1, h2, ?_, ?_⟩
  · rw [← Bleaching.rival_one_iff (Bleaching.activeAll_sorted hs b)]; exact (h3 rfl).1
  · intro b' h4 h5
    rw [← Bleaching.rival_one_iff (Bleaching.activeAll_sorted hs b')]; exact (h3 rfl).2 b' h4 h5

/-- C38 without bleaching: always the plain activation counts, no failure possible. -/
theorem C38_without_bleaching (votes : Votes) (sbc : Bool) (c : Int) :
    Bleaching.make votes false sbc c = .ok (activeAll 1 votes) := by
  apply Bleaching.make_of_loop (b := 1)
  rw [Bleaching.loop]
  simp [Bleaching.scores_eq]

theorem sorted_ab {V : Type} (v w : V) : SMap.Sorted [(b!"a", v), (b!"b", w)] :=
  SMap.sorted_cons.mpr ⟨by simp; rfl, SMap.sorted_cons.mpr ⟨by simp, SMap.sorted_nil⟩⟩

example : Bleaching.make [(b!"a", [1, 2, 2]), (b!"b", [1, 1, 2])] true false 1 = .ok [(b!"a", 2), (b!"b", 1)] := by
  have h := C37_terminates [(b!"a", [1, 2, 2]), (b!"b", [1, 1, 2])] true 1 2 (by omega)
    (by intro e he v hv
        simp only [List.mem_cons, List.not_mem_nil, or_false] at he
        rcases he with rfl | rfl <;> simp at hv <;> omega) (by omega)
  obtain ⟨s, b, h1, h2, h3, h4⟩ := h
  rw [h4]
  obtain ⟨_, h5, _, h6⟩ := Bleaching.loop_spec _ true 1 1 h1
  have hb : b = 2 := by
    have : b ≠ 1 := by
      rintro rfl
      exact (h6 rfl).1 ⟨[], (b!"a", 3), [(b!"b", 3)], rfl, by simp, by simp, by simp, (b!"b", 3), by simp, by simp⟩
    have : b ≠ 3 := by
      rintro rfl
      obtain ⟨pre, x, post, h7, h8, h9, h10, e, he, h11⟩ := (h6 rfl).2 2 (by omega) (by omega)
      have : activeAll 2 [(b!"a", [1, 2, 2]), (b!"b", [1, 1, 2])] = [(b!"a", 2), (b!"b", 1)] := rfl
      rw [this] at h7
      match pre, h7 with
      | [], h7 => simp at h7; obtain ⟨rfl, rfl⟩ := h7; simp at he; subst he; simp at h11
      | [p], h7 => simp at h7; obtain ⟨_, rfl, rfl⟩ := h7; simp at he
      | _ :: _ :: _, h7 => simp at h7
    omega
  rw [h5, hb]; rfl

/-! ## C39 -/

/-- C39: for any non-empty table of scores the winner has a maximal score and the greatest label among the
classes of maximal score. -/
theorem C39_winner (s : Scores) (hs : SMap.Sorted s) (hne : s ≠ []) (h0 : ∀ e ∈ s, 0 ≤ e.2) :
    ∃ w ∈ s, Bleaching.getBiggestCandidate s = w.1 ∧ (∀ e ∈ s, e.2 ≤ w.2) ∧
      ∀ e ∈ s, e.2 = w.2 → e.1 = w.1 ∨ Str.lt e.1 w.1 = true := by
  obtain ⟨pre, x, post, rfl, h1, h2, h3⟩ := Bleaching.biggest_spec hne h0
  refine ⟨x, by simp, h3, ?_, ?_⟩
  · intro e he
    rcases List.mem_append.mp he with h | h
    · exact h1 e h
    · rcases List.mem_cons.mp h with h | h
      · rw [h]
      · exact Int.le_of_lt (h2 e h)
  · intro e he hex
    have hs' := List.pairwise_append.mp hs
    rcases List.mem_append.mp he with h | h
    · exact .inr (hs'.2.2 e h x (by simp))
    · rcases List.mem_cons.mp h with h | h
      · left; rw [h]
      · have := h2 e h; omega

/-- C39: the answer is `""` exactly when there is no class or the winning class is itself named `""`. -/
theorem C39_empty_answer (s : Scores) (hs : SMap.Sorted s) (h0 : ∀ e ∈ s, 0 ≤ e.2) :
    Bleaching.getBiggestCandidate s = [] ↔
      s = [] ∨ ∃ w ∈ s, w.1 = [] ∧ (∀ e ∈ s, e.2 ≤ w.2) ∧ ∀ e ∈ s, e.2 = w.2 → e = w := by
  by_cases hne : s = []
  · subst hne; simp [Bleaching.getBiggestCandidate, Bleaching.biggestLoop]
  · obtain ⟨w, hw, h1, h2, h3⟩ := C39_winner s hs hne h0
    simp only [hne, false_or]
    constructor
    · intro h
      refine ⟨w, hw, by rw [← h1, h], h2, ?_⟩
      intro e he hee
      have hl : e.1 = w.1 := by
        rcases h3 e he hee with h4 | h4
        · exact h4
        · rw [← h1, h] at h4
          cases e.1 <;> simp [Str.lt] at h4
      exact Prod.ext hl hee
    · rintro ⟨w', hw', h4, h5, h6⟩
      have : w = w' := h6 w hw (by have := h2 w' hw'; have := h5 w hw; omega)
      rw [h1, this, h4]

example : SMap.Sorted [(b!"a", (2 : Int)), (b!"b", 2)] ∧
    Bleaching.getBiggestCandidate [(b!"a", 2), (b!"b", 2)] = b!"b" := ⟨sorted_ab _ _, rfl⟩

/-! ## C40 -/

/-- C40: with bleaching and confidence 1, if some class ends with a score above 1, exactly one class has
the best score. -/
theorem C40_unique_winner (votes : Votes) (hs : SMap.Sorted votes) (sbc : Bool) (s : Scores)
    (h : Bleaching.make votes true sbc 1 = .ok s) (hex : ∃ e ∈ s, 1 < e.2) :
    ∃ w ∈ s, (∀ e ∈ s, e.1 ≠ w.1 → e.2 < w.2) ∧ Bleaching.getBiggestCandidate s = w.1 := by
  obtain ⟨b, _, h2, h3, _⟩ := C38_scores_confidence_one votes hs sbc s h
  obtain ⟨e0, he0, h0⟩ := hex
  have hss : SMap.Sorted s := by rw [h2]; exact Bleaching.activeAll_sorted hs b
  have hnn : ∀ e ∈ s, 0 ≤ e.2 := by rw [h2]; exact Bleaching.activeAll_nonneg b votes
  obtain ⟨w, hw, h4, h5, _⟩ := C39_winner s hss (List.ne_nil_of_mem he0) hnn
  refine ⟨w, hw, ?_, h4⟩
  intro e he hne
  apply Classical.byContradiction
  intro hlt
  have := h5 e he
  have := h5 e0 he0
  apply h3
  rw [← h2]
  exact ⟨w, e, hw, he, Ne.symm hne, by omega, by omega, h5⟩

/-! ## C41 -/

/-- C41, proved part: with bleaching and confidence `c ≥ 1`, if the top score ends above 1, the winner
leads every class with a *greater label* by at least `c` and every other class by at least 1.

Missing: the lead of `c` over classes with smaller labels; it does not hold, see
`C41_margin_violated`. -/
theorem C41_lead_partial (votes : Votes) (hs : SMap.Sorted votes) (sbc : Bool) (c : Int) (hc : 1 ≤ c) (s : Scores)
    (h : Bleaching.make votes true sbc c = .ok s) (hex : ∃ e ∈ s, 1 < e.2) :
    ∃ w ∈ s, Bleaching.getBiggestCandidate s = w.1 ∧
      (∀ e ∈ s, Str.lt w.1 e.1 = true → c ≤ w.2 - e.2) ∧ (∀ e ∈ s, e.1 ≠ w.1 → 1 ≤ w.2 - e.2) := by
  obtain ⟨b, _, h2, _, h3⟩ := C38_scores_at_least_threshold votes true sbc c s h
  obtain ⟨e0, he0, h0⟩ := hex
  have hss : SMap.Sorted s := by rw [h2]; exact Bleaching.activeAll_sorted hs b
  have hnn : ∀ e ∈ s, 0 ≤ e.2 := by rw [h2]; exact Bleaching.activeAll_nonneg b votes
  have hno := (h3 rfl).1
  rw [← h2] at hno
  have hno1 : ¬ TiedAbove1 s := by
    rw [← Bleaching.rival_one_iff hss]
    rintro ⟨pre, x, post, h4, h5, h6, h7, e, he, h8⟩
    exact hno ⟨pre, x, post, h4, h5, h6, h7, e, he, by omega⟩
  obtain ⟨pre, x, post, hsplit, h4, h5, h6⟩ := Bleaching.biggest_spec (List.ne_nil_of_mem he0) hnn
  have hxs : x ∈ s := by rw [hsplit]; simp
  have hmax : ∀ e ∈ s, e.2 ≤ x.2 := by
    intro e he
    rw [hsplit] at he
    rcases List.mem_append.mp he with h | h
    · exact h4 e h
    · rcases List.mem_cons.mp h with h | h
      · rw [h]
      · exact Int.le_of_lt (h5 e h)
  have h1x : 1 < x.2 := by have := hmax e0 he0; omega
  have hlead : ∀ e ∈ s, e.1 ≠ x.1 → 1 ≤ x.2 - e.2 := by
    intro e he hne
    apply Classical.byContradiction
    intro hlt
    have := hmax e he
    exact hno1 ⟨x, e, hxs, he, Ne.symm hne, h1x, by omega, hmax⟩
  refine ⟨x, hxs, h6, ?_, hlead⟩
  intro e he hlt
  apply Classical.byContradiction
  intro hlt'
  apply hno
  have hsp := List.pairwise_append.mp (hsplit ▸ hss)
  have hpost : e ∈ post := by
    rw [hsplit] at he
    rcases List.mem_append.mp he with h | h
    · have := hsp.2.2 e h x (by simp)
      rw [Str.lt_asymm this] at hlt; cases hlt
    · rcases List.mem_cons.mp h with h | h
      · rw [h, Str.lt_irrefl] at hlt; cases hlt
      · exact h
  refine ⟨pre, x, post, hsplit, ?_, fun e he => Int.le_of_lt (h5 e he), h1x, e, hpost, by omega⟩
  intro e' he'
  have hne : e'.1 ≠ x.1 := Str.lt_ne (hsp.2.2 e' he' x (by simp))
  have := hlead e' (by rw [hsplit]; simp [he']) hne
  omega

theorem loop_stops {votes : Votes} {c : Int} (h : ¬ LaterRivalWithin c (activeAll 1 votes)) (sbc : Bool) :
    Bleaching.make votes true sbc c = .ok (activeAll 1 votes) := by
  apply Bleaching.make_of_loop (b := 1)
  rw [Bleaching.loop]
  rw [← Bleaching.again_iff] at h
  rw [← Bleaching.scores_eq] at *
  simp [h, i32, InI32]

/-- The margin of C41 is violated, and the outcome depends on the names of the classes: with confidence 2
and votes [2,2,2] against [1,1,0], if the better class has the greater label bleaching stops at scores 3
and 2, a lead of 1; with the labels exchanged it goes on to scores 3 and 0. -/
theorem C41_margin_violated :
    Bleaching.make [(b!"a", [1, 1, 0]), (b!"b", [2, 2, 2])] true false 2 = .ok [(b!"a", 2), (b!"b", 3)] ∧
    Bleaching.make [(b!"a", [2, 2, 2]), (b!"b", [1, 1, 0])] true false 2 = .ok [(b!"a", 3), (b!"b", 0)] := by
  constructor
  · apply loop_stops
    rintro ⟨pre, x, post, h7, h8, h9, h10, e, he, h11⟩
    have : activeAll 1 [(b!"a", [1, 1, 0]), (b!"b", [2, 2, 2])] = [(b!"a", 2), (b!"b", 3)] := rfl
    rw [this] at h7
    match pre, h7 with
    | [], h7 => simp at h7; obtain ⟨rfl, rfl⟩ := h7; simp at h9
    | [p], h7 => simp at h7; obtain ⟨_, rfl, rfl⟩ := h7; simp at he
    | _ :: _ :: _, h7 => simp at h7
  · apply Bleaching.make_of_loop (b := 2)
    have h1 : Bleaching.again (Bleaching.scores [(b!"a", [2, 2, 2]), (b!"b", [1, 1, 0])] 1) 2 = true := rfl
    have h2 : Bleaching.again (Bleaching.scores [(b!"a", [2, 2, 2]), (b!"b", [1, 1, 0])] 2) 2 = false := rfl
    rw [Bleaching.loop]
    simp [h1, i32, InI32]
    rw [Bleaching.loop]
    simp [h2, i32, InI32]
    rfl

/-- With confidence 0 or less, no table is ambiguous in the code's sense: bleaching never raises the
threshold (so C40 does not extend below 1). -/
theorem C41_confidence_zero (votes : Votes) (sbc : Bool) (c : Int) (hc : c ≤ 0) :
    Bleaching.make votes true sbc c = .ok (activeAll 1 votes) := by
  apply loop_stops
  rintro ⟨pre, x, post, h7, h8, h9, h10, e, he, h11⟩
  have := h9 e he
  omega

/-! ## C42 -/

/-- C42: `searchBestConfidence` does not influence the scores. -/
theorem C42_searchBestConfidence_no_effect (votes : Votes) (bl : Bool) (c : Int) :
    Bleaching.make votes bl true c = Bleaching.make votes bl false c := rfl

/-! ## C43 -/

/-- C43: if without bleaching one class beats every other, bleaching with confidence 1 gives the same
scores, hence the same label. -/
theorem C43_clear_win_kept (votes : Votes) (hs : SMap.Sorted votes) (sbc : Bool) (w : Str × Int)
    (hw : w ∈ activeAll 1 votes) (hwin : ∀ e ∈ activeAll 1 votes, e.1 ≠ w.1 → e.2 < w.2) :
    Bleaching.make votes false sbc 1 = .ok (activeAll 1 votes) ∧
    Bleaching.make votes true sbc 1 = .ok (activeAll 1 votes) ∧
    Bleaching.getBiggestCandidate (activeAll 1 votes) = w.1 := by
  have hss := Bleaching.activeAll_sorted hs 1
  refine ⟨C38_without_bleaching votes sbc 1, ?_, ?_⟩
  · apply loop_stops
    rw [Bleaching.rival_one_iff hss]
    rintro ⟨a, b, ha, hb, hab, h1, h2, h3⟩
    have haw : a.1 = w.1 := Classical.byContradiction fun h => by
      have := hwin a ha h; have := h3 w hw; omega
    have hbw : b.1 = w.1 := Classical.byContradiction fun h => by
      have := hwin b hb h; have := h3 w hw; omega
    exact hab (by rw [haw, hbw])
  · obtain ⟨x, hx, h1, h2, _⟩ := C39_winner _ hss (List.ne_nil_of_mem hw) (Bleaching.activeAll_nonneg 1 votes)
    rw [h1]
    apply Classical.byContradiction
    intro h
    have := hwin x hx h
    have := h2 w hw
    omega

example : (b!"a", (2 : Int)) ∈ activeAll 1 [(b!"a", [1, 1, 0]), (b!"b", [3, 0, 0])] ∧
    ∀ e ∈ activeAll 1 [(b!"a", [1, 1, 0]), (b!"b", [3, 0, 0])], e.1 ≠ b!"a" → e.2 < 2 := by
  constructor
  · exact List.mem_cons_self
  · intro e he hne
    simp only [activeAll, List.map_cons, List.map_nil, List.mem_cons, List.not_mem_nil, or_false] at he
    rcases he with rfl | rfl
    · simp at hne
    · decide

end Wis
