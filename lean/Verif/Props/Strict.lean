import Verif.Spec.Strict
import Verif.Props.Bleaching
import Verif.Lemmas.WisardJson
import Verif.Model.ClusWisard
/-!
# C188: a stricter confidence lowers scores, and may change the answer
-/

namespace Wis
open Spec

/-! ## Scores at two thresholds -/

theorem active_mono {b b' : Int} (h : b ≤ b') (vs : List Int) : active b' vs ≤ active b vs := by
  unfold active
  refine List.countP_mono_left ?_
  intro v _ hv
  simp only [decide_eq_true_eq] at hv ⊢
  omega

theorem find_map_scores {V : Type} (g : V → Int) : ∀ (m : SMap V) (l : Str),
    SMap.find (m.map (fun e => (e.1, g e.2))) l = (m.find l).map g := by
  intro m
  induction m with
  | nil => intro l; rfl
  | cons e m ih =>
    intro l
    obtain ⟨k, v⟩ := e
    simp only [List.map_cons, SMap.find]
    by_cases hk : k = l
    · simp [hk]
    · simp only [if_neg hk]
      exact ih l

theorem activeAll_notAbove {b b' : Int} (h : b ≤ b') (votes : Votes) : NotAbove (activeAll b' votes) (activeAll b votes) := by
  refine ⟨?_, ?_⟩
  · simp [activeAll, SMap.keys]
  · intro l v v' h1 h2
    unfold activeAll at h1 h2
    rw [find_map_scores (fun vs => (active b vs : Int))] at h1
    rw [find_map_scores (fun vs => (active b' vs : Int))] at h2
    cases hf : SMap.find votes l with
    | none => rw [hf] at h1; cases h1
    | some vs =>
      rw [hf] at h1 h2
      cases h1
      cases h2
      exact Int.ofNat_le.mpr (active_mono h vs)

theorem rival_mono {c c' : Int} (h : c ≤ c') {s : Scores} (hr : LaterRivalWithin c s) : LaterRivalWithin c' s := by
  obtain ⟨pre, x, post, h1, h2, h3, h4, e, he, h5⟩ := hr
  exact ⟨pre, x, post, h1, h2, h3, h4, e, he, by omega⟩

/-- C188 for a table of votes. -/
theorem C188_votes (votes : Votes) {bl bl' sbc sbc' : Bool} {c c' : Int} (hs : Stricter bl c bl' c') {s s' : Scores}
    (h : Bleaching.make votes bl sbc c = .ok s) (h' : Bleaching.make votes bl' sbc' c' = .ok s') : NotAbove s' s := by
  obtain ⟨b, h1, rfl, h3, h4⟩ := C38_scores_at_least_threshold votes bl sbc c s h
  obtain ⟨b', k1, rfl, k3, k4⟩ := C38_scores_at_least_threshold votes bl' sbc' c' s' h'
  refine activeAll_notAbove ?_ votes
  rcases hs with hs | ⟨rfl, hc⟩
  · rw [h3 hs]; exact k1
  · cases bl with
    | false => rw [h3 rfl]; exact k1
    | true =>
      rcases Int.lt_or_le b' b with hlt | hle
      · exact absurd (rival_mono hc ((h4 rfl).2 b' k1 hlt)) (k4 rfl).1
      · exact hle

/-- C188: a confidence of 0 or less is the same as no bleaching (votes below the largest `int`, as in C37). -/
theorem C188_lax (votes : Votes) (sbc sbc' : Bool) (c c' : Int) (hc : c ≤ 0) :
    Bleaching.make votes true sbc c = Bleaching.make votes false sbc' c' := by
  rw [C38_without_bleaching]
  apply Bleaching.make_of_loop (b := 1)
  have hb : Bleaching.again (Bleaching.scores votes 1) c = false := by
    cases ha : Bleaching.again (Bleaching.scores votes 1) c with
    | false => rfl
    | true =>
      exfalso
      rw [Bleaching.again_iff] at ha
      obtain ⟨pre, x, post, h1, h2, h3, h4, e, he, h5⟩ := ha
      have := h3 e he
      omega
  rw [Bleaching.loop]
  simp only [Bool.not_true, Bool.false_eq_true, if_false, hb, dite_false]
  rw [i32_ok (by omega)]
  simp only [Bleaching.scores_eq]

/-! ## Wisard -/

/-- The same Wisard with other values of the two options. -/
def Spec.withStrict (bl : Bool) (c : Int) (w : Wisard) : Wisard :=
  { w with opts := { w.opts with bleachingActivated := bl, confidence := c } }

theorem wstep_strict (bl : Bool) (c : Int) (w : Wisard) (o : WOp) :
    wstep (withStrict bl c w) o = (withStrict bl c (wstep w o).1, (wstep w o).2) := by
  cases o with
  | train env img l =>
    simp only [wstep, Wisard.train1, withStrict, Wisard.trainKnown, Wisard.makeDiscriminator]
    cases hf : w.discriminators.find l with
    | some d => rfl
    | none =>
      have hn : Wisard.newDiscriminator env.rnd w.addressSize { w.opts with bleachingActivated := bl, confidence := c } l img.size =
          Wisard.newDiscriminator env.rnd w.addressSize w.opts l img.size := rfl
      simp only [hn]
      cases Wisard.newDiscriminator env.rnd w.addressSize w.opts l img.size with
      | ok d => rfl
      | error e =>
        cases env.lhsFirst <;> rfl
  | leave img l =>
    simp only [wstep, Wisard.leaveOneOut, withStrict]
    cases w.discriminators.find l <;> rfl

theorem wplay_strict (bl : Bool) (c : Int) (ops : List WOp) : ∀ w : Wisard,
    wplay (withStrict bl c w) ops = (withStrict bl c (wplay w ops).1, (wplay w ops).2) := by
  induction ops with
  | nil => intro w; rfl
  | cons o ops ih =>
    intro w
    simp only [wplay, wstep_strict, ih]

/-- C188: two Wisards that differ only in `bleachingActivated` and `confidence` and are trained alike have the same outcomes of
all trainings; and for every image no class scores higher in the stricter one. -/
theorem C188_wisard (A : Int) (o : WisardOpts) (bl' : Bool) (c' : Int)
    (hs : Stricter o.bleachingActivated o.confidence bl' c') (ops : List WOp) (x : Image) {s s' : Scores} :
    let w := wplay (Wisard.create A o) ops
    let w' := wplay (Wisard.create A { o with bleachingActivated := bl', confidence := c' }) ops
    w'.2 = w.2 ∧ (w.1.classify1 x = .ok s → w'.1.classify1 x = .ok s' → NotAbove s' s) := by
  intro w w'
  have hw : w' = (withStrict bl' c' w.1, w.2) := wplay_strict bl' c' ops (Wisard.create A o)
  rw [hw]
  refine ⟨rfl, ?_⟩
  intro h h'
  have hopt : w.1.opts = o := (wplay_const (Wisard.create A o) rfl ops).2.1
  unfold Wisard.classify1 at h h'
  obtain ⟨v, h1, h2⟩ := bind_eq_ok h
  obtain ⟨v', k1, k2⟩ := bind_eq_ok h'
  have k1 : Wisard.allvotes x w.1.discriminators = .ok v' := k1
  rw [h1] at k1
  cases k1
  rw [hopt] at h2
  exact C188_votes v hs h2 k2

/-- Trained with one image of class `a` and twice with an image of class `b` that agrees with it in two of three RAMs. -/
def strictOps : List WOp :=
  [.train ⟨Rnd.id, true⟩ (.vec [1, 0, 1, 0, 1, 0]) b!"a", .train ⟨Rnd.id, true⟩ (.vec [1, 0, 1, 0, 0, 1]) b!"b",
    .train ⟨Rnd.id, true⟩ (.vec [1, 0, 1, 0, 0, 1]) b!"b"]

set_option maxRecDepth 20000 in
/-- C188: the stricter Wisard may give another answer, although the laxer one was sure (without bleaching already one class
beats all others): asked for its only image of class `a`, it answers `b`. -/
theorem C188_answer_may_change :
    let w := (wplay (Wisard.create 2 {}) strictOps).1
    let w' := (wplay (Wisard.create 2 { confidence := 2 }) strictOps).1
    (wplay (Wisard.create 2 {}) strictOps).2 = [.ok (), .ok (), .ok ()] ∧
    w.classify1 (.vec [1, 0, 1, 0, 1, 0]) = .ok [(b!"a", 3), (b!"b", 2)] ∧ w.classify [.vec [1, 0, 1, 0, 1, 0]] = .ok [b!"a"] ∧
    w'.classify1 (.vec [1, 0, 1, 0, 1, 0]) = .ok [(b!"a", 0), (b!"b", 2)] ∧ w'.classify [.vec [1, 0, 1, 0, 1, 0]] = .ok [b!"b"] ∧
    Stricter true 1 true 2 := by
  refine ⟨by decide +kernel, by decide +kernel, by decide +kernel, by decide +kernel, by decide +kernel, .inr ⟨rfl, by decide⟩⟩

/-! ## ClusWisard -/

/-- C188 for a ClusWisard in any state: with a stricter pair of options no class scores higher. -/
theorem C188_clusWisard (w : ClusWisard) (bl' : Bool) (c' : Int)
    (hs : Stricter w.opts.bleachingActivated w.opts.confidence bl' c') (x : List Int) (sbc sbc' : Bool) {s s' : Scores}
    (h : w.classify1 x sbc = .ok s)
    (h' : ({ w with opts := { w.opts with bleachingActivated := bl', confidence := c' } } : ClusWisard).classify1 x sbc' = .ok s') :
    NotAbove s' s := by
  unfold ClusWisard.classify1 at h h'
  obtain ⟨v, h1, h2⟩ := bind_eq_ok h
  obtain ⟨v', k1, k2⟩ := bind_eq_ok h'
  have k1 : ClusWisard.allvotes x w.clusters [] = .ok v' := k1
  rw [h1] at k1
  cases k1
  exact C188_votes v hs h2 k2

end Wis
