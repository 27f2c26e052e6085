import Verif.Model.PyFloat
import Verif.Props.PyOutput
import Verif.Lemmas.ClusVotes
import Mathlib.Tactic.NormNum
/-!
# C128: the `float` degrees of Python
-/

namespace Wis
open Spec

namespace Spec

/-- `y` is the `float` that IEEE 754 prescribes for `x`: a number of the format, none nearer, and of two nearest ones the one with the
even significand. -/
def NearestFloat (x y : Rat) : Prop :=
  Ieee.IsFloat Ieee.single y ∧ ∀ z, Ieee.IsFloat Ieee.single z → |x - y| ≤ |x - z|

/-- The fraction `q` as a `float`. -/
def toFloat (q : Int × Int) : F32 :=
  if q.2 = 0 then (if q.1 = 0 then .nan else .inf (q.1 < 0)) else .fin (r32 ((q.1 : Rat) / (q.2 : Rat)))

/-- A result with every fraction rounded to `float`. -/
def rounded : PyLabel → PyLabelF
  | .plain l => .plain l
  | .dict d => .dict ⟨d.cls, d.activationDegree.map toFloat, d.confidence.map toFloat, d.classesDegrees.map (List.map (fun e => (e.1, toFloat e.2)))⟩

end Spec

/-! ## Rounding -/

/-- C128: the rounding used is IEEE's: the result is a `float` and no `float` is nearer. -/
theorem C128_nearest (x : Rat) : NearestFloat x (r32 x) :=
  ⟨Ieee.rnd_isFloat _ x, fun _ hz => Ieee.rnd_nearest _ x hz⟩

theorem r32_mono {x y : Rat} (h : x ≤ y) : r32 x ≤ r32 y := Ieee.rnd_mono _ h

theorem r32_int {n : Int} (h : |n| ≤ 2 ^ 24) : r32 n = n := Ieee.rnd_int (F := Ieee.single) (by decide) h

theorem r32_idem (x : Rat) : r32 (r32 x) = r32 x := Ieee.rnd_of_isFloat (Ieee.rnd_isFloat _ x)

theorem r32_zero : r32 0 = 0 := Ieee.rnd_zero _

theorem r32_one : r32 1 = 1 := Flt.single.one

theorem r32_err {x : Rat} (h : |x| < 1) : |x - r32 x| ≤ 1 / 2 ^ 25 := by
  by_cases hx : x = 0
  · rw [hx, r32_zero]; norm_num
  have h1 := Ieee.rnd_err Ieee.single x
  refine h1.trans ?_
  have hp : 0 < |x| := abs_pos.mpr hx
  have hl : Int.log 2 |x| < 0 := (Int.lt_zpow_iff_log_lt (b := 2) (by norm_num) hp).mp (by simpa using h)
  have : Ieee.lastPlace Ieee.single x ≤ -24 := by
    unfold Ieee.lastPlace Ieee.single
    simp only
    omega
  calc (2 : Rat) ^ Ieee.lastPlace Ieee.single x / 2 ≤ (2 : Rat) ^ (-24 : Int) / 2 := by
        apply div_le_div_of_nonneg_right _ (by norm_num)
        exact zpow_le_zpow_right₀ (by norm_num) this
    _ = 1 / 2 ^ 25 := by norm_num

theorem isFloat_frac24 {a : Int} (h : |a| ≤ 2 ^ 24) : r32 ((a : Rat) / 2 ^ 24) = (a : Rat) / 2 ^ 24 := by
  apply Ieee.rnd_of_isFloat
  rcases lt_or_eq_of_le h with h | h
  · exact ⟨a, -24, h, by decide, by rw [div_eq_mul_inv]; norm_num⟩
  · rcases abs_cases a with ⟨h4, _⟩ | ⟨h4, _⟩
    · exact ⟨1, 0, by decide, by decide, by rw [show a = 2 ^ 24 by omega]; norm_num⟩
    · exact ⟨-1, 0, by decide, by decide, by rw [show a = -2 ^ 24 by omega]; norm_num⟩

/-- C128: different parts of the same whole are different `float` degrees, in the same order, up to 2^24. -/
theorem C128_strict {a b c : Int} (h0 : 0 ≤ a) (hab : a < b) (hbc : b ≤ c) (hc : c ≤ 2 ^ 24) :
    r32 ((a : Rat) / c) < r32 ((b : Rat) / c) := by
  have hcpos : (0 : Rat) < c := by exact_mod_cast (by omega : (0 : Int) < c)
  have hle : r32 ((a : Rat) / c) ≤ r32 ((b : Rat) / c) := by
    apply r32_mono
    apply div_le_div_of_nonneg_right _ hcpos.le
    exact_mod_cast hab.le
  rcases lt_or_eq_of_le hle with h | heq
  · exact h
  exfalso
  have ha1 : |(a : Rat) / c| < 1 := by
    rw [abs_of_nonneg (div_nonneg (by exact_mod_cast h0) hcpos.le), div_lt_one hcpos]
    exact_mod_cast (by omega : a < c)
  have ea := r32_err ha1
  have hdiff : (1 : Rat) / c ≤ (b : Rat) / c - (a : Rat) / c := by
    rw [← sub_div]
    apply div_le_div_of_nonneg_right _ hcpos.le
    have : (1 : Int) ≤ b - a := by omega
    exact_mod_cast this
  rcases lt_or_eq_of_le hc with hc' | hc'
  · have hgap : (1 : Rat) / 2 ^ 24 < (b : Rat) / c - (a : Rat) / c := by
      refine lt_of_lt_of_le ?_ hdiff
      apply one_div_lt_one_div_of_lt hcpos
      exact_mod_cast hc'
    rcases lt_or_eq_of_le hbc with hb' | hb'
    · have hb1 : |(b : Rat) / c| < 1 := by
        rw [abs_of_nonneg (div_nonneg (by exact_mod_cast (by omega : 0 ≤ b)) hcpos.le), div_lt_one hcpos]
        exact_mod_cast hb'
      have eb := r32_err hb1
      rw [heq] at ea
      rw [abs_le] at ea eb
      norm_num at ea eb hgap
      linarith
    · have : (b : Rat) / c = 1 := by rw [hb', div_self hcpos.ne']
      rw [this] at heq hgap
      rw [r32_one] at heq
      rw [heq, abs_le] at ea
      norm_num at ea hgap
      linarith
  · have hc2 : (c : Rat) = 2 ^ 24 := by exact_mod_cast hc'
    rw [hc2, isFloat_frac24 (by rw [abs_of_nonneg h0]; omega), isFloat_frac24 (by rw [abs_of_nonneg (by omega)]; omega)] at heq
    have : (a : Rat) = b := by
      have h2 : (2 : Rat) ^ 24 ≠ 0 := by norm_num
      exact (div_left_inj' h2).mp heq
    have : a = b := by exact_mod_cast this
    omega

/-! ## One table of scores -/

theorem secondLoopF_eq (biggest : Int) : ∀ (s : Scores) (t : Int), (∀ e ∈ s, |e.2| ≤ 2 ^ 24) →
    PyOut.secondLoopF biggest s t = (Bleaching.secondLoop biggest s t : Int) := by
  intro s
  induction s with
  | nil => intro t _; rfl
  | cons e s ih =>
    obtain ⟨l, v⟩ := e
    intro t h
    have hv := r32_int (h (l, v) (.head _))
    have ih' := fun t => ih t (fun e he => h e (.tail _ he))
    unfold PyOut.secondLoopF Bleaching.secondLoop
    rw [hv]
    by_cases hc : v ≥ t ∧ v < biggest
    · rw [if_pos hc, if_pos ⟨by exact_mod_cast hc.1, hc.2⟩, ih']
    · rw [if_neg hc, if_neg (fun h' => hc ⟨by exact_mod_cast h'.1, h'.2⟩), ih']

theorem div_toFloat (a b : Int) : F32.div (a : Rat) (b : Rat) = toFloat (a, b) := by
  unfold F32.div toFloat
  simp only [Int.cast_eq_zero, Int.cast_lt_zero]

theorem getConfidenceF_eq {s : Scores} {b : Int} (h0 : ∀ e ∈ s, 0 ≤ e.2 ∧ e.2 ≤ 2 ^ 24) (hb0 : 0 ≤ b) (hb : b ≤ 2 ^ 24) :
    PyOut.getConfidenceF s b = toFloat (Bleaching.getConfidence s b) := by
  have h := secondLoopF_eq b s 0 (fun e he => by rw [abs_of_nonneg (h0 e he).1]; exact (h0 e he).2)
  obtain ⟨h1, h2, h3⟩ := secondLoop_spec b s 0
  have hle : Bleaching.secondLoop b s 0 ≤ 2 ^ 24 := by
    rcases h3 with h3 | ⟨e, he, _, h5⟩
    · omega
    · have := (h0 e he).2; omega
  unfold PyOut.getConfidenceF Bleaching.getConfidence
  rw [Int.cast_zero] at h
  rw [h, r32_int (by rw [abs_of_nonneg hb0]; exact hb), ← Int.cast_sub, r32_int (by rw [abs_le]; constructor <;> omega)]
  exact div_toFloat _ _

theorem foldl_total (s : Scores) : ∀ (t : Int), 0 ≤ t → (∀ e ∈ s, 0 ≤ e.2) → t + (s.map (·.2)).sum ≤ 2 ^ 24 →
    s.foldl (fun t e => r32 (t + r32 e.2)) (t : Rat) = ((t + (s.map (·.2)).sum : Int) : Rat) := by
  induction s with
  | nil => intro t _ _ _; simp
  | cons e s ih =>
    intro t ht h0 hs
    have he := h0 e (.head _)
    have h0' : ∀ e ∈ s, 0 ≤ e.2 := fun e he => h0 e (.tail _ he)
    have hsum := (sum_nonneg_zero s h0').1
    rw [List.map_cons, List.sum_cons] at hs
    rw [List.foldl_cons, r32_int (by rw [abs_of_nonneg he]; omega), ← Int.cast_add, r32_int (by rw [abs_of_nonneg (by omega)]; omega),
      ih (t + e.2) (by omega) h0' (by omega), List.map_cons, List.sum_cons, add_assoc]

theorem totalF_eq {s : Scores} (h0 : ∀ e ∈ s, 0 ≤ e.2) (hs : (s.map (·.2)).sum ≤ 2 ^ 24) :
    PyOut.totalF s = ((if s.foldl (fun t e => t + e.2) 0 = 0 then 1 else s.foldl (fun t e => t + e.2) 0 : Int) : Rat) := by
  have h := foldl_total s 0 le_rfl h0 (by omega)
  rw [foldl_sum]
  unfold PyOut.totalF
  simp only
  rw [Int.cast_zero] at h
  rw [h]
  by_cases hz : (0 + (s.map (·.2)).sum) = 0
  · rw [hz]; simp
  · rw [if_neg hz, if_neg (by exact_mod_cast hz)]

theorem member_le_sum {s : Scores} (h0 : ∀ e ∈ s, 0 ≤ e.2) : ∀ e ∈ s, e.2 ≤ (s.map (·.2)).sum := by
  induction s with
  | nil => intro e he; cases he
  | cons a s ih =>
    intro e he
    have h0' : ∀ e ∈ s, 0 ≤ e.2 := fun e he => h0 e (.tail _ he)
    have := (sum_nonneg_zero s h0').1
    have := h0 a (.head _)
    rw [List.map_cons, List.sum_cons]
    rcases List.mem_cons.mp he with rfl | he
    · omega
    · have := ih h0' e he; omega

theorem degrees_eq {s : Scores} (g : Str → Str) (h0 : ∀ e ∈ s, 0 ≤ e.2) (hs : (s.map (·.2)).sum ≤ 2 ^ 24) :
    s.map (fun e => (g e.1, F32.div (r32 e.2) (PyOut.totalF s))) =
      (s.map (fun e => (g e.1, (e.2, if s.foldl (fun t e => t + e.2) 0 = 0 then (1 : Int) else s.foldl (fun t e => t + e.2) 0)))).map
        (fun e => (e.1, toFloat e.2)) := by
  rw [List.map_map]
  apply List.map_congr_left
  intro e he
  have h1 := h0 e he
  have h2 := member_le_sum h0 e he
  simp only [Function.comp]
  rw [totalF_eq h0 hs, r32_int (by rw [abs_of_nonneg h1]; omega), div_toFloat]

/-- What `touch` keeps. -/
theorem touch_keeps {s : Scores} {k : Str} (h0 : ∀ e ∈ s, 0 ≤ e.2) (hs : (s.map (·.2)).sum ≤ 2 ^ 24) :
    (∀ e ∈ (PyOut.touch s k).1, 0 ≤ e.2) ∧ (((PyOut.touch s k).1).map (·.2)).sum ≤ 2 ^ 24 ∧ 0 ≤ (PyOut.touch s k).2 ∧
      (PyOut.touch s k).2 ≤ 2 ^ 24 := by
  unfold PyOut.touch
  cases hf : s.find k with
  | some v =>
    have hm := SMap.mem_of_find hf
    have := h0 _ hm
    have := member_le_sum h0 _ hm
    exact ⟨h0, hs, h0 _ hm, by simp only at *; omega⟩
  | none =>
    have key : ∀ (s : Scores), s.find k = none → ((s.set k 0).map (·.2)).sum = (s.map (·.2)).sum := by
      intro s
      induction s with
      | nil => intro _; rfl
      | cons e s ih =>
        obtain ⟨k', v'⟩ := e
        intro hf
        unfold SMap.find at hf
        by_cases hk : k' = k
        · rw [if_pos hk] at hf; cases hf
        · rw [if_neg hk] at hf
          unfold SMap.set
          rw [if_neg hk]
          by_cases hl : Str.lt k k'
          · rw [if_pos hl]; simp
          · rw [if_neg hl]
            have := ih hf
            simp only [List.map_cons, List.sum_cons, this]
    refine ⟨fun e he => ?_, by rw [key s hf]; exact hs, le_rfl, by norm_num⟩
    rcases SMap.mem_set he with rfl | he
    · exact le_rfl
    · exact h0 e he

theorem output_rounded (o : WisardOpts) (l : Str) {n : Int} (hn : |n| ≤ 2 ^ 24) {s : Scores} (h0 : ∀ e ∈ s, 0 ≤ e.2)
    (hs : (s.map (·.2)).sum ≤ 2 ^ 24) :
    PyOut.setClassifyOutputF o l n s = rounded (PyOut.setClassifyOutput o l n s) := by
  have each : ∀ {s : Scores}, (∀ e ∈ s, 0 ≤ e.2) → (s.map (·.2)).sum ≤ 2 ^ 24 → ∀ e ∈ s, 0 ≤ e.2 ∧ e.2 ≤ 2 ^ 24 :=
    fun h0 hs e he => ⟨h0 e he, (member_le_sum h0 e he).trans hs⟩
  have degs : ∀ {s : Scores}, (∀ e ∈ s, 0 ≤ e.2) → (s.map (·.2)).sum ≤ 2 ^ 24 →
      PyOut.getClassesDegreesF s = (PyOut.getClassesDegrees s).map (fun e => (e.1, toFloat e.2)) :=
    fun h0 hs => degrees_eq (fun k => k) h0 hs
  unfold PyOut.setClassifyOutputF PyOut.setClassifyOutput
  cases o.returnActivationDegree <;> cases o.returnConfidence <;> cases o.returnClassesDegrees <;>
    simp only [Bool.not_true, Bool.not_false, Bool.and_true, Bool.and_false, Bool.and_self, if_true, if_false, Bool.false_eq_true]
  · rfl
  · rw [degs h0 hs]; rfl
  · obtain ⟨t1, t2, t3, t4⟩ := touch_keeps (k := l) h0 hs
    rw [getConfidenceF_eq (each t1 t2) t3 t4]; rfl
  · obtain ⟨t1, t2, t3, t4⟩ := touch_keeps (k := l) h0 hs
    rw [getConfidenceF_eq (each t1 t2) t3 t4, degs t1 t2]; rfl
  · obtain ⟨t1, t2, t3, t4⟩ := touch_keeps (k := l) h0 hs
    rw [r32_int (by rw [abs_of_nonneg t3]; exact t4), r32_int hn, div_toFloat]; rfl
  · obtain ⟨t1, t2, t3, t4⟩ := touch_keeps (k := l) h0 hs
    rw [r32_int (by rw [abs_of_nonneg t3]; exact t4), r32_int hn, div_toFloat, degs t1 t2]; rfl
  · obtain ⟨t1, t2, t3, t4⟩ := touch_keeps (k := l) h0 hs
    obtain ⟨u1, u2, u3, u4⟩ := touch_keeps (k := l) t1 t2
    rw [r32_int (by rw [abs_of_nonneg t3]; exact t4), r32_int hn, div_toFloat, getConfidenceF_eq (each u1 u2) u3 u4]; rfl
  · obtain ⟨t1, t2, t3, t4⟩ := touch_keeps (k := l) h0 hs
    obtain ⟨u1, u2, u3, u4⟩ := touch_keeps (k := l) t1 t2
    rw [r32_int (by rw [abs_of_nonneg t3]; exact t4), r32_int hn, div_toFloat, getConfidenceF_eq (each u1 u2) u3 u4, degs u1 u2]; rfl

/-- The same for the wrapper of ClusWisard. -/
theorem clus_rounded (o : ClusOpts) {n : Int} (hn : |n| ≤ 2 ^ 24) {s : Scores} (h0 : ∀ e ∈ s, 0 ≤ e.2) (hs : (s.map (·.2)).sum ≤ 2 ^ 24) :
    ClusWisard.pyOutputF o n s = rounded (ClusWisard.pyOutput o n s) := by
  have each : ∀ {s : Scores}, (∀ e ∈ s, 0 ≤ e.2) → (s.map (·.2)).sum ≤ 2 ^ 24 → ∀ e ∈ s, 0 ≤ e.2 ∧ e.2 ≤ 2 ^ 24 :=
    fun h0 hs e he => ⟨h0 e he, (member_le_sum h0 e he).trans hs⟩
  have degs : ∀ {s : Scores}, (∀ e ∈ s, 0 ≤ e.2) → (s.map (·.2)).sum ≤ 2 ^ 24 →
      ClusWisard.getClassesDegreesF s = (ClusWisard.getClassesDegrees s).map (fun e => (e.1, toFloat e.2)) :=
    fun h0 hs => degrees_eq beforeSep h0 hs
  unfold ClusWisard.pyOutputF ClusWisard.pyOutput
  generalize Bleaching.getBiggestCandidate s = l
  cases o.returnActivationDegree <;> cases o.returnConfidence <;> cases o.returnClassesDegrees <;>
    simp only [Bool.not_true, Bool.not_false, Bool.and_true, Bool.and_false, Bool.and_self, if_true, if_false, Bool.false_eq_true]
  · rfl
  · rw [degs h0 hs]; rfl
  · obtain ⟨t1, t2, t3, t4⟩ := touch_keeps (k := l) h0 hs
    rw [getConfidenceF_eq (each t1 t2) t3 t4]; rfl
  · obtain ⟨t1, t2, t3, t4⟩ := touch_keeps (k := l) h0 hs
    rw [getConfidenceF_eq (each t1 t2) t3 t4, degs t1 t2]; rfl
  · obtain ⟨t1, t2, t3, t4⟩ := touch_keeps (k := l) h0 hs
    rw [r32_int (by rw [abs_of_nonneg t3]; exact t4), r32_int hn, div_toFloat]; rfl
  · obtain ⟨t1, t2, t3, t4⟩ := touch_keeps (k := l) h0 hs
    rw [r32_int (by rw [abs_of_nonneg t3]; exact t4), r32_int hn, div_toFloat, degs t1 t2]; rfl
  · obtain ⟨t1, t2, t3, t4⟩ := touch_keeps (k := l) h0 hs
    obtain ⟨u1, u2, u3, u4⟩ := touch_keeps (k := l) t1 t2
    rw [r32_int (by rw [abs_of_nonneg t3]; exact t4), r32_int hn, div_toFloat, getConfidenceF_eq (each u1 u2) u3 u4]; rfl
  · obtain ⟨t1, t2, t3, t4⟩ := touch_keeps (k := l) h0 hs
    obtain ⟨u1, u2, u3, u4⟩ := touch_keeps (k := l) t1 t2
    rw [r32_int (by rw [abs_of_nonneg t3]; exact t4), r32_int hn, div_toFloat, getConfidenceF_eq (each u1 u2) u3 u4, degs u1 u2]; rfl

/-! ## Whole calls -/

/-- Number of votes. -/
def voteTotal (v : Votes) : Nat := (v.map (fun e => e.2.length)).sum

theorem scores_le_votes {v : Votes} {bl sb : Bool} {c : Int} {s : Scores} (h : Bleaching.make v bl sb c = .ok s) :
    (∀ e ∈ s, 0 ≤ e.2) ∧ (s.map (·.2)).sum ≤ voteTotal v := by
  obtain ⟨b, hl⟩ := Bleaching.make_ok h
  obtain ⟨_, rfl, hrest⟩ := Bleaching.loop_spec _ _ _ _ hl
  refine ⟨Bleaching.activeAll_nonneg b v, ?_⟩
  clear hl h hrest
  unfold activeAll voteTotal
  induction v with
  | nil => exact le_rfl
  | cons e v ih =>
    have : active b e.2 ≤ e.2.length := List.countP_le_length
    have h' : ((active b e.2 : Nat) : Int) ≤ (e.2.length : Int) := by exact_mod_cast this
    simp only [List.map_cons, List.sum_cons, Nat.cast_add]
    exact add_le_add h' ih

namespace Spec

/-- Number of RAMs of a Wisard. -/
def ramTotal (w : Wisard) : Nat := (w.discriminators.map (fun e => e.2.getNumberOfRAMS)).sum

/-- Number of RAMs of the discriminators of a cluster. -/
def clusterRams (c : Cluster) : Nat := (c.discriminators.map (fun d => (d.map Discriminator.getNumberOfRAMS).getD 0)).sum

/-- Number of RAMs of the supervised part of a ClusWisard. -/
def clusRamTotal (w : ClusWisard) : Nat := (w.clusters.map (fun e => clusterRams e.2)).sum

end Spec

theorem votes_le_rams {x : Image} {m : SMap Discriminator} {v : Votes} (h : Wisard.allvotes x m = .ok v) :
    voteTotal v = (m.map (fun e => e.2.getNumberOfRAMS)).sum := by
  induction m generalizing v with
  | nil =>
    simp only [Wisard.allvotes, Except.ok.injEq] at h
    subst h; rfl
  | cons e m ih =>
    obtain ⟨l, d⟩ := e
    simp only [Wisard.allvotes] at h
    obtain ⟨vs, h1, h⟩ := bind_eq_ok h
    obtain ⟨v', h2, h⟩ := bind_eq_ok h
    cases h
    have := ih h2
    unfold voteTotal at this ⊢
    simp only [List.map_cons, List.sum_cons, this, classify_length h1, Discriminator.getNumberOfRAMS]

theorem voteTotal_set (k : Str) (x : List Int) : ∀ v : Votes, voteTotal (v.set k x) ≤ voteTotal v + x.length := by
  intro v
  induction v with
  | nil => unfold voteTotal SMap.set; simp
  | cons e v ih =>
    obtain ⟨k', v'⟩ := e
    unfold SMap.set
    unfold voteTotal at ih ⊢
    split
    · simp only [List.map_cons, List.sum_cons]; omega
    · split
      · simp only [List.map_cons, List.sum_cons]; omega
      · simp only [List.map_cons, List.sum_cons]; omega

theorem voteTotal_add (l : Str) : ∀ (vs : List (List Int)) (j : Nat) (m : Votes),
    voteTotal (ClusWisard.addVotes l vs j m) ≤ voteTotal m + (vs.map List.length).sum := by
  intro vs
  induction vs with
  | nil => intro j m; exact le_rfl
  | cons v vs ih =>
    intro j m
    have h1 := ih (j + 1) (m.set (l ++ b!"::" ++ natStr j) v)
    have h2 := voteTotal_set (l ++ b!"::" ++ natStr j) v m
    unfold ClusWisard.addVotes
    simp only [List.map_cons, List.sum_cons]
    omega

theorem cluster_votes {x : Image} : ∀ {ds : List (Option Discriminator)} {vs : List (List Int)}, Cluster.classifyLoop x ds = .ok vs →
    (vs.map List.length).sum = (ds.map (fun d => (d.map Discriminator.getNumberOfRAMS).getD 0)).sum := by
  intro ds
  induction ds with
  | nil => intro vs h; cases h; rfl
  | cons d ds ih =>
    intro vs h
    cases d with
    | none => cases h
    | some d =>
      unfold Cluster.classifyLoop at h
      obtain ⟨v, h1, h⟩ := bind_eq_ok h
      obtain ⟨vs', h2, h⟩ := bind_eq_ok h
      cases h
      have := ih h2
      simp only [List.map_cons, List.sum_cons, this, classify_length h1, Discriminator.getNumberOfRAMS, Option.map_some, Option.getD_some]

theorem clusVotes_le {img : List Int} : ∀ {cs : SMap Cluster} {m v : Votes}, ClusWisard.allvotes img cs m = .ok v →
    voteTotal v ≤ voteTotal m + (cs.map (fun e => clusterRams e.2)).sum := by
  intro cs
  induction cs with
  | nil =>
    intro m v h
    simp only [ClusWisard.allvotes, Except.ok.injEq] at h
    subst h; exact le_rfl
  | cons e cs ih =>
    obtain ⟨l, c⟩ := e
    intro m v h
    simp only [ClusWisard.allvotes] at h
    obtain ⟨vs, h1, h⟩ := bind_eq_ok h
    have h2 := ih h
    have h3 := voteTotal_add l vs 0 m
    have h4 := cluster_votes h1
    simp only [List.map_cons, List.sum_cons]
    unfold clusterRams at *
    omega

/-- **C128** for Wisard: if the model has at most 2^24 RAMs and the images give at most as many, then the dictionaries returned to Python
contain the correctly rounded values of the exact fractions of C52 – C54. -/
theorem C128_wisard (w : Wisard) (hw : ramTotal w ≤ 2 ^ 24) (xs : List Image)
    (hn : ∀ x ∈ xs.head?, ∀ n, calculateNumberOfRams x.size w.addressSize w.opts.completeAddressing = .ok n → |n| ≤ 2 ^ 24) :
    PyOut.pyClassifyF w xs = (PyOut.pyClassify w xs).map (List.map rounded) := by
  have hloop : ∀ n : Int, |n| ≤ 2 ^ 24 → ∀ ys : List Image, PyOut.loopF w n ys = (PyOut.loop w n ys).map (List.map rounded) := by
    intro n hn ys
    induction ys with
    | nil => rfl
    | cons y ys ih =>
      unfold PyOut.loopF PyOut.loop
      cases hc : w.classify1 y with
      | error e => simp only [Except.bind_error]; rfl
      | ok s =>
        simp only [Except.bind_ok, ih]
        cases PyOut.loop w n ys with
        | error e => rfl
        | ok ls =>
          unfold Wisard.classify1 at hc
          obtain ⟨v, h1, h2⟩ := bind_eq_ok hc
          obtain ⟨h3, h4⟩ := scores_le_votes h2
          have h5 := votes_le_rams h1
          unfold ramTotal at hw
          have := output_rounded w.opts (Bleaching.getBiggestCandidate s) hn h3 (by omega)
          simp only [Except.map, Except.bind_ok, List.map_cons, this]
  cases xs with
  | nil => rfl
  | cons x xs =>
    unfold PyOut.pyClassifyF PyOut.pyClassify
    simp only
    cases hc : calculateNumberOfRams x.size w.addressSize w.opts.completeAddressing with
    | error e => simp only [Except.bind_error]; rfl
    | ok n =>
      simp only [Except.bind_ok]
      exact hloop n (hn x rfl n hc) _

/-- **C128** for ClusWisard. -/
theorem C128_clusWisard (w : ClusWisard) (hw : clusRamTotal w ≤ 2 ^ 24) (xs : List (List Int))
    (hn : ∀ x ∈ xs.head?, ∀ n, calculateNumberOfRams x.length w.addressSize w.opts.completeAddressing = .ok n → |n| ≤ 2 ^ 24) :
    w.pyClassifyF xs = (w.pyClassify xs).map (List.map rounded) := by
  have hloop : ∀ n : Int, |n| ≤ 2 ^ 24 → ∀ ys : List (List Int), w.pyLoopF n ys = (w.pyLoop n ys).map (List.map rounded) := by
    intro n hn ys
    induction ys with
    | nil => rfl
    | cons y ys ih =>
      unfold ClusWisard.pyLoopF ClusWisard.pyLoop
      cases hc : w.classify1 y w.opts.searchBestConfidence with
      | error e => simp only [Except.bind_error]; rfl
      | ok s =>
        simp only [Except.bind_ok, ih]
        cases w.pyLoop n ys with
        | error e => rfl
        | ok ls =>
          unfold ClusWisard.classify1 at hc
          obtain ⟨v, h1, h2⟩ := bind_eq_ok hc
          obtain ⟨h3, h4⟩ := scores_le_votes h2
          have h5 := clusVotes_le h1
          have h6 : voteTotal [] = 0 := rfl
          unfold clusRamTotal at hw
          have := clus_rounded w.opts hn h3 (by omega)
          simp only [Except.map, Except.bind_ok, List.map_cons, this]
  cases xs with
  | nil => rfl
  | cons x xs =>
    unfold ClusWisard.pyClassifyF ClusWisard.pyClassify
    simp only
    cases hc : calculateNumberOfRams x.length w.addressSize w.opts.completeAddressing with
    | error e => simp only [Except.bind_error]; rfl
    | ok n =>
      simp only [Except.bind_ok]
      exact hloop n (hn x rfl n hc) _

/-! ## Degrees of all classes -/

theorem total_ge (s : Scores) (h0 : ∀ e ∈ s, 0 ≤ e.2) : ∀ t : Rat, 0 ≤ t → r32 t = t →
    t ≤ s.foldl (fun t e => r32 (t + r32 e.2)) t ∧ ∀ e ∈ s, r32 e.2 ≤ s.foldl (fun t e => r32 (t + r32 e.2)) t := by
  induction s with
  | nil => intro t _ _; exact ⟨le_rfl, fun e he => (by cases he)⟩
  | cons a s ih =>
    intro t ht hr
    have ha : (0 : Rat) ≤ r32 a.2 := by
      have h := r32_mono (x := 0) (y := a.2) (by exact_mod_cast h0 a (.head _))
      rwa [r32_zero] at h
    have h1 : t ≤ r32 (t + r32 a.2) := by
      have h := r32_mono (x := t) (y := t + r32 a.2) (by linarith)
      rwa [hr] at h
    have h2 : r32 a.2 ≤ r32 (t + r32 a.2) := by
      have h := r32_mono (x := r32 a.2) (y := t + r32 a.2) (by linarith)
      rwa [r32_idem] at h
    obtain ⟨g1, g2⟩ := ih (fun e he => h0 e (.tail _ he)) (r32 (t + r32 a.2)) (ht.trans h1) (r32_idem _)
    rw [List.foldl_cons]
    refine ⟨h1.trans g1, fun e he => ?_⟩
    rcases List.mem_cons.mp he with rfl | he
    · exact h2.trans g1
    · exact g2 e he

/-- C128: whatever the scores, every returned degree is a number between 0 and 1, a higher score never gives a lower degree, and a degree is 0
for the score 0. -/
theorem C128_degrees (s : Scores) (h0 : ∀ e ∈ s, 0 ≤ e.2) : ∃ deg : Int → Rat,
    PyOut.getClassesDegreesF s = s.map (fun e => (e.1, .fin (deg e.2))) ∧
    (∀ e ∈ s, 0 ≤ deg e.2 ∧ deg e.2 ≤ 1) ∧ deg 0 = 0 ∧ ∀ a b, a ≤ b → deg a ≤ deg b := by
  have hT : 0 < PyOut.totalF s := by
    unfold PyOut.totalF
    simp only
    have := (total_ge s h0 0 le_rfl r32_zero).1
    split
    · norm_num
    · rename_i h; exact lt_of_le_of_ne this (Ne.symm h)
  have hle : ∀ e ∈ s, r32 e.2 ≤ PyOut.totalF s := by
    intro e he
    unfold PyOut.totalF
    simp only
    have := (total_ge s h0 0 le_rfl r32_zero).2 e he
    split
    · rename_i h; rw [h] at this; linarith
    · exact this
  refine ⟨fun n => r32 (r32 n / PyOut.totalF s), ?_, ?_, ?_, ?_⟩
  · unfold PyOut.getClassesDegreesF F32.div
    simp only [if_neg hT.ne']
  · intro e he
    have h1 : (0 : Rat) ≤ r32 e.2 := by
      have h := r32_mono (x := 0) (y := e.2) (by exact_mod_cast h0 e he)
      rwa [r32_zero] at h
    constructor
    · have h := r32_mono (div_nonneg h1 hT.le)
      rwa [r32_zero] at h
    · have h := r32_mono ((div_le_one hT).mpr (hle e he))
      rwa [r32_one] at h
  · simp only [Int.cast_zero, r32_zero, zero_div]
  · intro a b hab
    apply r32_mono
    apply div_le_div_of_nonneg_right _ hT.le
    apply r32_mono
    exact_mod_cast hab

/-- C128: up to a sum of scores of 2^24 degrees are ordered exactly like the scores, and unless all scores are 0 their sum differs from 1 by at
most 2^-25 per class. -/
theorem C128_degrees_exact (s : Scores) (h0 : ∀ e ∈ s, 0 ≤ e.2) (hs : (s.map (·.2)).sum ≤ 2 ^ 24) : ∃ deg : Int → Rat,
    PyOut.getClassesDegreesF s = s.map (fun e => (e.1, .fin (deg e.2))) ∧
    (∀ e ∈ s, ∀ e' ∈ s, e.2 < e'.2 ↔ deg e.2 < deg e'.2) ∧
    ((∃ e ∈ s, e.2 ≠ 0) → |(s.map (fun e => deg e.2)).sum - 1| ≤ s.length / 2 ^ 25) := by
  obtain ⟨p1, p2⟩ := sum_nonneg_zero s h0
  have hT := totalF_eq h0 hs
  rw [foldl_sum, zero_add] at hT
  generalize hTT : (if (s.map (·.2)).sum = 0 then (1 : Int) else (s.map (·.2)).sum) = T at hT
  have hTpos : 0 < T := by rw [← hTT]; split <;> omega
  have hTle : T ≤ 2 ^ 24 := by rw [← hTT]; split <;> omega
  have hTq : (0 : Rat) < T := by exact_mod_cast hTpos
  have hmem : ∀ e ∈ s, e.2 ≤ T := by
    intro e he
    have := member_le_sum h0 e he
    rw [← hTT]; split <;> omega
  refine ⟨fun n => r32 ((n : Rat) / T), ?_, ?_, ?_⟩
  · unfold PyOut.getClassesDegreesF
    apply List.map_congr_left
    intro e he
    rw [r32_int (by rw [abs_of_nonneg (h0 e he)]; exact (hmem e he).trans hTle), hT]
    unfold F32.div
    rw [if_neg hTq.ne']
  · intro e he e' he'
    constructor
    · intro h
      exact C128_strict (h0 e he) h (hmem e' he') hTle
    · intro h
      by_contra hc
      rw [not_lt] at hc
      have : r32 ((e'.2 : Rat) / T) ≤ r32 ((e.2 : Rat) / T) :=
        r32_mono (div_le_div_of_nonneg_right (by exact_mod_cast hc) hTq.le)
      linarith
  · intro hne
    have hsum : (s.map (·.2)).sum = T := by
      rw [← hTT, if_neg]
      intro h
      obtain ⟨e, he, hz⟩ := hne
      exact hz (p2 h e he)
    have gen : ∀ (l : Scores), (∀ e ∈ l, 0 ≤ e.2 ∧ e.2 ≤ T) →
        |(l.map (fun e => r32 ((e.2 : Rat) / T))).sum - ((l.map (·.2)).sum : Int) / T| ≤ l.length / 2 ^ 25 := by
      intro l
      induction l with
      | nil => intro _; simp
      | cons e l ih =>
        intro h
        have ih' := ih (fun e he => h e (.tail _ he))
        obtain ⟨e0, e1⟩ := h e (.head _)
        have herr : |(e.2 : Rat) / T - r32 ((e.2 : Rat) / T)| ≤ 1 / 2 ^ 25 := by
          rcases lt_or_eq_of_le e1 with hlt | heq
          · apply r32_err
            rw [abs_of_nonneg (div_nonneg (by exact_mod_cast e0) hTq.le), div_lt_one hTq]
            exact_mod_cast hlt
          · rw [heq, div_self hTq.ne', r32_one]; norm_num
        simp only [List.map_cons, List.sum_cons, List.length_cons]
        push_cast
        rw [abs_le] at ih' herr ⊢
        rw [add_div, add_div]
        constructor <;> linarith [ih'.1, ih'.2, herr.1, herr.2]
    have := gen s (fun e he => ⟨h0 e he, hmem e he⟩)
    rwa [hsum, div_self hTq.ne'] at this

/-- C128: the activation degree is 1 exactly if all RAMs fire, 0 exactly if none does, and in between it grows with their number; up to 2^24 RAMs. -/
theorem C128_activation {n : Int} (h1 : 1 ≤ n) (hn : n ≤ 2 ^ 24) (a : Int) (h0 : 0 ≤ a) (ha : a ≤ n) : ∃ d, toFloat (a, n) = .fin d ∧
    0 ≤ d ∧ d ≤ 1 ∧ (d = 1 ↔ a = n) ∧ (d = 0 ↔ a = 0) ∧
    ∀ a' d', 0 ≤ a' → a' ≤ n → toFloat (a', n) = .fin d' → (a < a' ↔ d < d') := by
  have hnq : (0 : Rat) < n := by exact_mod_cast h1
  have hne : n ≠ 0 := by omega
  have hone : r32 ((n : Rat) / n) = 1 := by rw [div_self hnq.ne', r32_one]
  have hzero : r32 (((0 : Int) : Rat) / n) = 0 := by rw [Int.cast_zero, zero_div, r32_zero]
  have mono : ∀ {x y : Int}, x ≤ y → r32 ((x : Rat) / n) ≤ r32 ((y : Rat) / n) := fun h =>
    r32_mono (div_le_div_of_nonneg_right (by exact_mod_cast h) hnq.le)
  refine ⟨r32 ((a : Rat) / n), by unfold toFloat; rw [if_neg hne], ?_, ?_, ⟨fun h => ?_, fun h => by rw [h, hone]⟩,
    ⟨fun h => ?_, fun h => by rw [h, hzero]⟩, ?_⟩
  · rw [← hzero]; exact mono h0
  · rw [← hone]; exact mono ha
  · by_contra hc
    have := C128_strict h0 (lt_of_le_of_ne ha hc) le_rfl hn
    rw [hone] at this; linarith
  · by_contra hc
    have := C128_strict le_rfl (lt_of_le_of_ne h0 (Ne.symm hc)) ha hn
    rw [hzero] at this; linarith
  · intro a' d' g0 g1 g2
    unfold toFloat at g2
    rw [if_neg hne] at g2
    injection g2 with g2
    subst g2
    refine ⟨fun h => C128_strict h0 h g1 hn, fun h => ?_⟩
    by_contra hc
    rw [not_lt] at hc
    have := mono hc
    linarith

/-! ## An example; beyond 2^24 the order is lost -/

example : PyOut.getClassesDegreesF [(b!"a", 1), (b!"b", 2), (b!"c", 0)] =
    [(b!"a", .fin (11184811 / 33554432)), (b!"b", .fin (11184811 / 16777216)), (b!"c", .fin 0)] := by decide +kernel

example : PyOut.setClassifyOutputF { returnConfidence := true, returnActivationDegree := true } b!"b" 3 [(b!"a", 1), (b!"b", 3)] =
    .dict ⟨b!"b", some (.fin 1), some (.fin (11184811 / 16777216)), none⟩ := by decide +kernel

/-- Two different scores with the same degree: 2^24 and 2^24 + 1 of 2^24 + 2 RAMs. -/
example : F32.div (r32 16777216) (r32 16777218) = F32.div (r32 16777217) (r32 16777218) := by decide +kernel

example : ramTotal (Wisard.create 3 {}) ≤ 2 ^ 24 := by decide

end Wis
