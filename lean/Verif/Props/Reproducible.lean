import Verif.Props.Semantics
/-!
# Property C111: models with a given wiring are reproducible

The only random choice of `Discriminator` and `Wisard` is the wiring of new classes. If the options `indexes` or
`mapping` determine it, two runs of the same calls end in the same state, whatever the random numbers are.
-/

namespace Wis.Spec

/-- The call with its random numbers forgotten. -/
def WOp.noRandom : WOp → WOp
  | .train env img l => .train { env with rnd := Rnd.id } img l
  | .leave img l => .leave img l

/-- Two runs of the same calls, by the same program, with possibly different random numbers. -/
def SameCalls (ops1 ops2 : List WOp) : Prop := ops1.map WOp.noRandom = ops2.map WOp.noRandom

/-- The options say how class `l` is wired. -/
def WiringGiven (o : WisardOpts) (l : Str) : Prop := o.indexes ≠ [] ∨ l ∈ o.mapping.keys

end Wis.Spec

namespace Wis
open Spec

theorem new_given {o : WisardOpts} {l : Str} (h : WiringGiven o l) (r1 r2 : Rnd) (A n : Int) :
    Wisard.newDiscriminator r1 A o l n = Wisard.newDiscriminator r2 A o l n := by
  unfold Wisard.newDiscriminator
  cases hm : o.mapping.find l with
  | some m => rfl
  | none =>
    have hi : o.indexes.length ≠ 0 := by
      rcases h with h | h
      · intro h0; exact h (List.length_eq_zero_iff.mp h0)
      · exact absurd h (SMap.find_none_iff.mp hm)
    simp only [if_pos hi]

theorem train1_given {w : Wisard} {l : Str} (h : WiringGiven w.opts l) {e1 e2 : Env} (he : e1.lhsFirst = e2.lhsFirst)
    (img : Image) : w.train1 e1 img l = w.train1 e2 img l := by
  unfold Wisard.train1 Wisard.makeDiscriminator
  rw [new_given h e1.rnd e2.rnd, he]

theorem wstep_noRandom {w : Wisard} {o : WOp} (h : o.isTrain = true → WiringGiven w.opts o.label) :
    wstep w o = wstep w o.noRandom := by
  cases o with
  | leave img l => rfl
  | train env img l => exact train1_given (w := w) (l := l) (h rfl) (e1 := env) (e2 := { env with rnd := Rnd.id }) rfl img

theorem wplay_noRandom (ops : List WOp) : ∀ w : Wisard, (∀ o ∈ ops, o.isTrain = true → WiringGiven w.opts o.label) →
    wplay w ops = wplay w (ops.map WOp.noRandom) := by
  induction ops with
  | nil => intro w _; rfl
  | cons o ops ih =>
    intro w h
    simp only [List.map_cons, wplay]
    rw [wstep_noRandom (h o (by simp))]
    rw [ih]
    intro o' ho' t
    have := (wstep_other w o.noRandom).2.1
    rw [this]
    exact h o' (List.mem_cons_of_mem _ ho') t

/-- C111: if the options give the wiring of every label trained, two runs of the same calls (also failing ones) return
the same results and end in the same state, hence answer every query alike. -/
theorem C111_wisard (w : Wisard) (ops1 ops2 : List WOp) (hs : SameCalls ops1 ops2)
    (hw : ∀ o ∈ ops1, o.isTrain = true → WiringGiven w.opts o.label) : wplay w ops1 = wplay w ops2 := by
  rw [wplay_noRandom ops1 w hw, wplay_noRandom ops2 w, hs]
  intro o ho t
  have : o.noRandom ∈ ops1.map WOp.noRandom := by rw [hs]; exact List.mem_map.mpr ⟨o, ho, rfl⟩
  obtain ⟨o1, h1, h2⟩ := List.mem_map.mp this
  have h3 : o1.isTrain = true ∧ o1.label = o.label := by
    cases o <;> cases o1 <;> simp_all [WOp.noRandom, WOp.isTrain, WOp.label]
  rw [← h3.2]
  exact hw o1 h1 h3.1

/-- C111 for batch training from Python. -/
theorem C111_batch (w : Wisard) (e1 e2 : Nat → Env) (he : ∀ i, (e1 i).lhsFirst = (e2 i).lhsFirst)
    (images : List (List Int)) (labels : List Str) (hw : ∀ l ∈ labels, WiringGiven w.opts l) :
    w.train e1 images labels = w.train e2 images labels := by
  have loop : ∀ (es : List (Image × Str)) (w' : Wisard) (i : Nat), w'.opts = w.opts → (∀ e ∈ es, e.2 ∈ labels) →
      w'.trainLoop e1 es i = w'.trainLoop e2 es i := by
    intro es
    induction es with
    | nil => intro _ _ _ _; rfl
    | cons e es ih =>
      obtain ⟨img, l⟩ := e
      intro w' i ho hl
      unfold Wisard.trainLoop
      rw [train1_given (w := w') (l := l) (by rw [ho]; exact hw l (hl (img, l) (by simp))) (he i) img]
      have h2 := (wstep_other w' (.train (e2 i) img l)).2.1
      simp only [wstep] at h2
      cases ht : w'.train1 (e2 i) img l with
      | mk w2 r =>
        rw [ht] at h2
        cases r with
        | error e => rfl
        | ok u => exact ih w2 (i + 1) (h2.trans ho) (fun e he => hl e (List.mem_cons_of_mem _ he))
  unfold Wisard.train
  cases w.trainChecks images labels with
  | error e => rfl
  | ok u =>
    apply loop _ w 0 rfl
    intro e he
    exact (List.of_mem_zip he).2

/-- C111 for `Discriminator`. -/
theorem C111_discriminator (o : Options) (h : o.mapping ≠ [] ∨ o.indexes ≠ []) (r1 r2 : Rnd) (A n : Int) :
    Discriminator.create r1 A n o = Discriminator.create r2 A n o := by
  unfold Discriminator.create
  by_cases hm : o.mapping.length ≠ 0
  · rw [if_pos hm, if_pos hm]
  · rw [if_neg hm, if_neg hm]
    have hi : o.indexes.length ≠ 0 := by
      rcases h with h | h
      · exact absurd (fun h0 => h (List.length_eq_zero_iff.mp h0)) hm
      · exact fun h0 => h (List.length_eq_zero_iff.mp h0)
    rw [if_pos hi, if_pos hi]

/-- A generator that moves the first index to the end. -/
def rotRnd : Rnd := ⟨fun _ => 0, fun l => l.drop 1 ++ l.take 1, fun l =>
  List.perm_append_comm.trans (List.Perm.of_eq (List.take_append_drop 1 l))⟩

/-- The condition is needed: without `indexes` and `mapping` two runs of the same program may answer differently. -/
theorem C111_default_wiring_random : ∃ r1 r2 d1 d2 d1' d2', Discriminator.create r1 2 4 {} = .ok d1 ∧
    Discriminator.create r2 2 4 {} = .ok d2 ∧ d1.train (.vec [1, 0, 1, 1]) = (d1', .ok ()) ∧
    d2.train (.vec [1, 0, 1, 1]) = (d2', .ok ()) ∧ d1'.classify (.vec [1, 0, 0, 0]) = .ok [1, 0] ∧
    d2'.classify (.vec [1, 0, 0, 0]) = .ok [0, 0] :=
  ⟨Rnd.id, rotRnd, _, _, _, _, rfl, rfl, rfl, rfl, rfl, rfl⟩

/-- The hypotheses of C111 are met: two runs with different random numbers, one class wired by `mapping`, one by
`indexes`. -/
example : SameCalls [.train ⟨Rnd.id, true⟩ (.vec [1, 0, 1, 1]) b!"a", .leave [1, 0, 1, 1] b!"z"]
      [.train ⟨rotRnd, true⟩ (.vec [1, 0, 1, 1]) b!"a",
        .leave [1, 0, 1, 1] b!"z"] ∧
    WiringGiven { mapping := [(b!"a", [[0, 1], [2, 3]])] } b!"a" ∧ WiringGiven { indexes := [3, 0, 1, 2] } b!"a" :=
  ⟨rfl, .inr (by decide), .inl (by decide)⟩

end Wis
