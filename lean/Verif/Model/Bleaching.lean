import Verif.Model.Bytes
/-!
# Model of `/repo/src/common/bleaching.cc` (class `Bleaching`)

`BBleaching` (bleaching.cc:80-145) is in `Model/BBleaching.lean`: no other class uses it.
-/

namespace Wis

/-- `std::map<std::string,std::vector<int>>`: the votes of all RAMs of all classes. The argument of bleaching.cc:4, 82. -/
abbrev Votes := SMap (List Int)

/-- `std::map<std::string,int>`: the score of every class, in label order. The result of bleaching.cc:4-38, 82-116. -/
abbrev Scores := SMap Int

namespace Bleaching

/-- Inner loop, bleaching.cc:25-30: number of votes `>= bleaching`. -/
def countFrom (bleaching : Int) : List Int → Int → Int
  | [], n => n
  | v :: vs, n => countFrom bleaching vs (if v ≥ bleaching then n + 1 else n)

/-- The two nested loops, bleaching.cc:24-31: `labels` gets exactly the keys of `allvotes`. -/
def scores (allvotes : Votes) (bleaching : Int) : Scores :=
  allvotes.map (fun e => (e.1, countFrom bleaching e.2 0))

/-- Loop of `isThereAmbiguity`, bleaching.cc:66-74, on `(biggest, ambiguity)`. -/
def ambLoop (confidence : Int) : Scores → Int → Bool → Bool × Int
  | [], biggest, ambiguity => (ambiguity, biggest)
  | (_, s) :: m, biggest, ambiguity =>
    if s > biggest then ambLoop confidence m s false
    else if biggest - s < confidence then ambLoop confidence m biggest true
    else ambLoop confidence m biggest ambiguity

/-- `isThereAmbiguity`, bleaching.cc:63-77. -/
def isThereAmbiguity (candidates : Scores) (confidence : Int) : Bool × Int :=
  ambLoop confidence candidates 0 false

/-- Condition of the `do … while` loop, bleaching.cc:34-35. -/
def again (labels : Scores) (confidence : Int) : Bool :=
  (isThereAmbiguity labels confidence).1 && decide ((isThereAmbiguity labels confidence).2 > 1)

/-- Largest vote in the table (0 if there is none); only used as termination measure. (The loop is bleaching.cc:23-35.) -/
def maxVote (allvotes : Votes) : Int :=
  allvotes.foldl (fun m e => e.2.foldl (fun m v => if v > m then v else m) m) 0

theorem ambLoop_top (c : Int) (m : Scores) : ∀ (b : Int) (a : Bool), 1 < (ambLoop c m b a).2 → 1 < b ∨ ∃ e ∈ m, 1 < e.2 := by
  induction m with
  | nil => intro b a h; exact .inl h
  | cons e m ih =>
    intro b a h
    simp only [ambLoop] at h
    split at h
    · rcases ih _ _ h with h | ⟨e', he', h⟩
      · exact .inr ⟨e, by simp, h⟩
      · exact .inr ⟨e', by simp [he'], h⟩
    · split at h
      all_goals
        rcases ih _ _ h with h | ⟨e', he', h⟩
        · exact .inl h
        · exact .inr ⟨e', by simp [he'], h⟩

theorem countFrom_pos (b : Int) (vs : List Int) : ∀ n, n < countFrom b vs n → ∃ v ∈ vs, b ≤ v := by
  induction vs with
  | nil => intro n h; simp [countFrom] at h
  | cons v vs ih =>
    intro n h
    simp only [countFrom] at h
    by_cases hv : v ≥ b
    · exact ⟨v, by simp, hv⟩
    · rw [if_neg hv] at h
      obtain ⟨w, hw, h'⟩ := ih n h
      exact ⟨w, by simp [hw], h'⟩

theorem le_inner (vs : List Int) : ∀ (m : Int), m ≤ vs.foldl (fun m v => if v > m then v else m) m ∧
    ∀ v ∈ vs, v ≤ vs.foldl (fun m v => if v > m then v else m) m := by
  induction vs with
  | nil => intro m; simp
  | cons v vs ih =>
    intro m
    obtain ⟨h1, h2⟩ := ih (if v > m then v else m)
    simp only [List.foldl_cons]
    have h3 : m ≤ (if v > m then v else m) ∧ v ≤ (if v > m then v else m) := by split <;> omega
    refine ⟨by omega, ?_⟩
    intro w hw
    rcases List.mem_cons.mp hw with e | e
    · subst e; omega
    · exact h2 w e

theorem le_maxVote' (vs : Votes) : ∀ (m : Int),
    m ≤ vs.foldl (fun m e => e.2.foldl (fun m v => if v > m then v else m) m) m ∧
    ∀ e ∈ vs, ∀ v ∈ e.2, v ≤ vs.foldl (fun m e => e.2.foldl (fun m v => if v > m then v else m) m) m := by
  induction vs with
  | nil => intro m; simp
  | cons e vs ih =>
    intro m
    obtain ⟨h1, h2⟩ := ih (e.2.foldl (fun m v => if v > m then v else m) m)
    obtain ⟨h3, h4⟩ := le_inner e.2 m
    simp only [List.foldl_cons]
    refine ⟨by omega, ?_⟩
    intro e' he' v hv
    rcases List.mem_cons.mp he' with q | q
    · subst q; have := h4 v hv; omega
    · exact h2 e' q v hv

theorem le_maxVote {vs : Votes} {e : Str × List Int} (he : e ∈ vs) {v : Int} (hv : v ∈ e.2) : v ≤ maxVote vs :=
  (le_maxVote' vs 0).2 e he v hv

/-- If the loop goes on, some vote reaches the threshold. -/
theorem again_le {allvotes : Votes} {b c : Int} (h : again (scores allvotes b) c = true) : b ≤ maxVote allvotes := by
  unfold again at h
  simp only [Bool.and_eq_true, decide_eq_true_eq] at h
  rcases ambLoop_top c _ 0 false h.2 with h | ⟨e, he, h⟩
  · omega
  · obtain ⟨e', he', rfl⟩ := List.mem_map.mp he
    obtain ⟨v, hv, hb⟩ := countFrom_pos b e'.2 0 (by simp only at h; omega)
    exact Int.le_trans hb (le_maxVote he' hv)

/-- The `do … while` loop of `makeConfidenceless`, bleaching.cc:23-35, from threshold `bleaching`. The
returned pair is (`labels`, last threshold used); the threshold is a ghost value: the code does not return
it. `bleaching++` is an `int` increment (overflow is UB). -/
def loop (allvotes : Votes) (bleachingActivated : Bool) (confidence bleaching : Int) : Res (Scores × Int) :=
  let labels := scores allvotes bleaching
  if !bleachingActivated then .ok (labels, bleaching)
  else
    match i32 (bleaching + 1) with
    | .error e => .error e
    | .ok _ =>
      if _h : again labels confidence = true then loop allvotes bleachingActivated confidence (bleaching + 1)
      else .ok (labels, bleaching)
termination_by (maxVote allvotes + 1 - bleaching).toNat
decreasing_by
  have := again_le _h
  omega

/-- `makeConfidenceless`, bleaching.cc:18-38, with the ghost threshold. -/
def makeConfidenceless (allvotes : Votes) (bleachingActivated : Bool) (confidence : Int) : Res (Scores × Int) :=
  loop allvotes bleachingActivated confidence 1

/-- `makeWithConfidence`, bleaching.cc:13-15. -/
def makeWithConfidence (allvotes : Votes) (bleachingActivated : Bool) (confidence : Int) : Res (Scores × Int) :=
  makeConfidenceless allvotes bleachingActivated confidence

/-- `make`, bleaching.cc:4-11. -/
def make (allvotes : Votes) (bleachingActivated searchBestConfidence : Bool) (confidence : Int) : Res Scores := do
  let r : Res (Scores × Int) :=
    if searchBestConfidence then makeWithConfidence allvotes bleachingActivated confidence
    else makeConfidenceless allvotes bleachingActivated confidence
  let (labels, _) ← r
  .ok labels

/-- Loop of `getBiggestCandidate`, bleaching.cc:43-48, on `(label, biggest)`. -/
def biggestLoop : Scores → Str → Int → Str
  | [], label, _ => label
  | (l, s) :: m, label, biggest => if s ≥ biggest then biggestLoop m l s else biggestLoop m label biggest

/-- `getBiggestCandidate`, bleaching.cc:40-50. -/
def getBiggestCandidate (candidates : Scores) : Str := biggestLoop candidates [] 0

/-- Loop of `getConfidence`, bleaching.cc:54-58: the second biggest value. -/
def secondLoop (biggest : Int) : Scores → Int → Int
  | [], second => second
  | (_, s) :: m, second => secondLoop biggest m (if s ≥ second ∧ s < biggest then s else second)

/-- `getConfidence`, bleaching.cc:52-60, as the fraction (numerator, denominator): `(biggest -
secondBiggest)/biggest`. The `float` division is not performed in the model; a denominator 0 stands for
the IEEE result of a division by zero. -/
def getConfidence (candidates : Scores) (biggest : Int) : Int × Int :=
  (biggest - secondLoop biggest candidates 0, biggest)

end Bleaching
end Wis
