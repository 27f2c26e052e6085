import Verif.Model.Progress
import Verif.Lemmas.Base64
import Verif.Spec.ClusWisard
/-!
# C127: the option `verbose`
-/

namespace Wis
open Spec

namespace Spec

/-- `"\r" what "1 of n" "\r" what "2 of n" …`, up to number `k`. -/
def progressText (what : Str) (n k : Nat) : Str :=
  (List.range k).flatMap (fun i => b!"\r" ++ what ++ natStr (i + 1) ++ b!" of " ++ natStr n)

/-- Working on the elements one after the other, from number `i` on, leads from `s` to `s'` without failure. -/
inductive Runs {α σ : Type} (step : Nat → α → σ → σ × Res Unit) : List α → Nat → σ → σ → Prop where
  | nil (i : Nat) (s : σ) : Runs step [] i s s
  | cons {i : Nat} {x : α} {xs : List α} {s s' s'' : σ} (h : step i x s = (s', .ok ())) (hs : Runs step xs (i + 1) s' s'') :
      Runs step (x :: xs) i s s''

/-- Working on the elements fails with `e` at the element after the first `j`, leaving `s'`. -/
def StopsAt {α σ : Type} (step : Nat → α → σ → σ × Res Unit) (xs : List α) (i : Nat) (s : σ) (j : Nat) (s' : σ) (e : Err) : Prop :=
  ∃ pre x post sj, xs = pre ++ x :: post ∧ pre.length = j ∧ Runs step pre i s sj ∧ step (i + j) x sj = (s', .error e)

/-- Text, state and outcome of a call that works on the elements `xs` one after the other: nothing is printed unless
`verbose`; else a progress message per element, up to and including the one at which the call fails, and `eol` if it does not fail. -/
def Prints {α σ : Type} (verbose : Bool) (what : Str) (n : Nat) (step : Nat → α → σ → σ × Res Unit) (xs : List α) (s : σ) (eol : Str)
    (r : Str × σ × Res Unit) : Prop :=
  (∃ s', Runs step xs 0 s s' ∧ r = (if verbose then progressText what n xs.length ++ eol else [], s', .ok ())) ∨
  (∃ j s' e, StopsAt step xs 0 s j s' e ∧ r = (if verbose then progressText what n (j + 1) else [], s', .error e))

/-- The same for a call that looks at images one after the other and changes nothing. `labels` is what the call returns for a list of
images without printing, `failsOn` says on which image alone it fails. -/
def PrintsLabels {α β : Type} (verbose : Bool) (what : Str) (labels : List α → Res (List β)) (failsOn : α → Err → Prop) (xs : List α)
    (r : Str × Res (List β)) : Prop :=
  (∃ ls, labels xs = .ok ls ∧ r = (if verbose then progressText what xs.length xs.length ++ b!"\r\n" else [], .ok ls)) ∨
  (∃ j x e, xs[j]? = some x ∧ (∃ ls, labels (xs.take j) = .ok ls) ∧ failsOn x e ∧ labels xs = .error e ∧
    r = (if verbose then progressText what xs.length (j + 1) else [], .error e))

end Spec

/-- Progress messages number `i`, …, `i + k - 1`. -/
def linesFrom (what : Str) (n i k : Nat) : Str := (List.range' i k).flatMap (progress what n)

theorem linesFrom_zero (what : Str) (n k : Nat) : linesFrom what n 0 k = progressText what n k := by
  unfold linesFrom progressText
  rw [List.range_eq_range']
  rfl

theorem linesFrom_succ (what : Str) (n i k : Nat) : linesFrom what n i (k + 1) = progress what n i ++ linesFrom what n (i + 1) k := by
  unfold linesFrom
  rw [List.range'_succ, List.flatMap_cons]

theorem say_append (v : Bool) (a b : Str) : say v (a ++ b) = say v a ++ say v b := by
  cases v <;> rfl

theorem forPrint_spec {α σ : Type} (v : Bool) (what : Str) (n : Nat) (body : Nat → α → σ → σ × Res Unit) :
    ∀ (xs : List α) (i : Nat) (s : σ),
      (∃ s', Runs body xs i s s' ∧ forPrint v what n body xs i s = (say v (linesFrom what n i xs.length), s', .ok ())) ∨
      (∃ j s' e, StopsAt body xs i s j s' e ∧ forPrint v what n body xs i s = (say v (linesFrom what n i (j + 1)), s', .error e)) := by
  intro xs
  induction xs with
  | nil =>
    intro i s
    refine .inl ⟨s, .nil i s, ?_⟩
    cases v <;> rfl
  | cons x xs ih =>
    intro i s
    unfold forPrint
    rcases hb : body i x s with ⟨s1, r⟩
    cases r with
    | error e =>
      refine .inr ⟨0, s1, e, ⟨[], x, xs, s, rfl, rfl, .nil i s, by simpa using hb⟩, ?_⟩
      rw [linesFrom_succ]
      simp [linesFrom]
    | ok u =>
      simp only
      rcases ih (i + 1) s1 with ⟨s', h1, h2⟩ | ⟨j, s', e, ⟨pre, y, post, sj, p1, p2, p3, p4⟩, h2⟩
      · refine .inl ⟨s', .cons hb h1, ?_⟩
        rw [h2, List.length_cons, linesFrom_succ, say_append]
      · refine .inr ⟨j + 1, s', e, ⟨x :: pre, y, post, sj, by rw [p1]; rfl, by simp [p2], .cons hb p3, ?_⟩, ?_⟩
        · rw [← p4]; congr 1; omega
        · rw [h2, linesFrom_succ what n i (j + 1), say_append]

theorem say_eq (v : Bool) (t : Str) : say v t = if v then t else [] := rfl

theorem prints_end {α σ : Type} (v : Bool) (what : Str) (n : Nat) (body : Nat → α → σ → σ × Res Unit) (xs : List α) (s : σ) :
    Prints v what n body xs s b!"\r\n" (endLine v (forPrint v what n body xs 0 s)) := by
  rcases forPrint_spec v what n body xs 0 s with ⟨s', h1, h2⟩ | ⟨j, s', e, h1, h2⟩
  · refine .inl ⟨s', h1, ?_⟩
    rw [h2, linesFrom_zero]
    cases v <;> rfl
  · refine .inr ⟨j, s', e, h1, ?_⟩
    rw [h2, linesFrom_zero]
    rfl

theorem prints_plain {α σ : Type} (v : Bool) (what : Str) (n : Nat) (body : Nat → α → σ → σ × Res Unit) (xs : List α) (s : σ) :
    Prints v what n body xs s [] (forPrint v what n body xs 0 s) := by
  rcases forPrint_spec v what n body xs 0 s with ⟨s', h1, h2⟩ | ⟨j, s', e, h1, h2⟩
  · refine .inl ⟨s', h1, ?_⟩
    rw [h2, linesFrom_zero, List.append_nil]
    rfl
  · refine .inr ⟨j, s', e, h1, ?_⟩
    rw [h2, linesFrom_zero]
    rfl

/-- Classify all, one after the other. -/
def collect {α β : Type} (g : α → Res β) : List α → Res (List β)
  | [] => .ok []
  | x :: xs => do
    let y ← g x
    let ys ← collect g xs
    .ok (y :: ys)

theorem collect_print {α β : Type} (v : Bool) (what : Str) (n : Nat) (g : α → Res β) (body : Nat → α → List β → List β × Res Unit)
    (hb : ∀ i x acc, body i x acc = match g x with | .error e => (acc, .error e) | .ok y => (acc ++ [y], .ok ())) :
    ∀ (xs : List α) (i : Nat) (acc : List β),
      (∃ ls, collect g xs = .ok ls ∧ forPrint v what n body xs i acc = (say v (linesFrom what n i xs.length), acc ++ ls, .ok ())) ∨
      (∃ j x e acc', xs[j]? = some x ∧ (∃ ls, collect g (xs.take j) = .ok ls) ∧ g x = .error e ∧ collect g xs = .error e ∧
        forPrint v what n body xs i acc = (say v (linesFrom what n i (j + 1)), acc', .error e)) := by
  intro xs
  induction xs with
  | nil =>
    intro i acc
    refine .inl ⟨[], rfl, ?_⟩
    unfold forPrint
    rw [List.append_nil]
    cases v <;> rfl
  | cons x xs ih =>
    intro i acc
    unfold forPrint
    rw [hb]
    cases hg : g x with
    | error e =>
      refine .inr ⟨0, x, e, acc, rfl, ⟨[], rfl⟩, hg, ?_, ?_⟩
      · simp only [collect, hg, Except.bind_error]
      · rw [linesFrom_succ]
        simp [linesFrom]
    | ok y =>
      simp only
      rcases ih (i + 1) (acc ++ [y]) with ⟨ls, h1, h2⟩ | ⟨j, x', e, acc', h1, ⟨ls, h2⟩, h3, h4, h5⟩
      · refine .inl ⟨y :: ls, by simp only [collect, hg, h1, Except.bind_ok], ?_⟩
        rw [h2, List.length_cons, linesFrom_succ, say_append, List.append_assoc]
        rfl
      · refine .inr ⟨j + 1, x', e, acc', h1, ⟨y :: ls, ?_⟩, h3, ?_, ?_⟩
        · simp only [List.take_succ_cons, collect, hg, h2, Except.bind_ok]
        · simp only [collect, hg, h4, Except.bind_ok, Except.bind_error]
        · rw [h5, linesFrom_succ what n i (j + 1), say_append]

theorem printsLabels {α β : Type} (v : Bool) (what : Str) (g : α → Res β) (labels : List α → Res (List β)) (hl : ∀ xs, labels xs = collect g xs)
    (body : Nat → α → List β → List β × Res Unit)
    (hb : ∀ i x acc, body i x acc = match g x with | .error e => (acc, .error e) | .ok y => (acc ++ [y], .ok ())) (xs : List α) :
    PrintsLabels v what labels (fun x e => g x = .error e) xs (labelsOut (endLine v (forPrint v what xs.length body xs 0 []))) := by
  rcases collect_print v what xs.length g body hb xs 0 [] with ⟨ls, h1, h2⟩ | ⟨j, x, e, acc', h1, ⟨ls, h2⟩, h3, h4, h5⟩
  · refine .inl ⟨ls, by rw [hl, h1], ?_⟩
    rw [h2, linesFrom_zero]
    cases v <;> rfl
  · refine .inr ⟨j, x, e, h1, ⟨ls, by rw [hl, h2]⟩, h3, by rw [hl, h4], ?_⟩
    rw [h5, linesFrom_zero]
    rfl

/-- A call with these texts returns what the call without texts returns. -/
theorem Spec.PrintsLabels.result {α β : Type} {v : Bool} {what : Str} {labels : List α → Res (List β)} {fails : α → Err → Prop} {xs : List α}
    {r : Str × Res (List β)} (h : PrintsLabels v what labels fails xs r) : r.2 = labels xs := by
  rcases h with ⟨ls, h1, rfl⟩ | ⟨j, x, e, _, _, _, h4, rfl⟩
  · exact h1.symm
  · exact h4.symm

/-! ## Wisard -/

theorem wtrainLoop_print (v : Bool) (n : Nat) (env : Nat → Env) : ∀ (es : List (Image × Str)) (i : Nat) (w : Wisard),
    (forPrint v b!"training " n (fun i e w => Wisard.train1 w (env i) e.1 e.2) es i w).2 = w.trainLoop env es i := by
  intro es
  induction es with
  | nil => intro i w; rfl
  | cons a es ih =>
    obtain ⟨img, l⟩ := a
    intro i w
    unfold forPrint Wisard.trainLoop
    simp only
    rcases w.train1 (env i) img l with ⟨w', r⟩
    cases r with
    | error e => rfl
    | ok u => exact ih (i + 1) w'

theorem endLine_snd {σ : Type} (v : Bool) (r : Str × σ × Res Unit) : (endLine v r).2 = r.2 := by
  unfold endLine
  rcases r with ⟨t, s, r⟩
  cases r <;> rfl

/-- C127, `Wisard.train(images, labels)`. -/
theorem C127_wisard_train (w : Wisard) (env : Nat → Env) (images : List (List Int)) (labels : List Str) :
    (w.trainV env images labels).2 = w.train env images labels ∧
    (∀ e, w.trainChecks images labels = .error e → w.trainV env images labels = ([], w, .error e)) ∧
    (w.trainChecks images labels = .ok () →
      Prints w.opts.verbose b!"training " images.length (fun i e w => Wisard.train1 w (env i) e.1 e.2) ((images.map Image.vec).zip labels) w
        b!"\r\n" (w.trainV env images labels)) := by
  unfold Wisard.trainV Wisard.train
  cases w.trainChecks images labels with
  | error e => exact ⟨rfl, fun e' he => by cases he; rfl, fun h => by cases h⟩
  | ok u => exact ⟨by simp only; rw [endLine_snd, wtrainLoop_print], fun e he => (by cases he), fun _ => prints_end _ _ _ _ _ _⟩

/-- C127, `Wisard.train(dataset)`: the last line is never ended. -/
theorem C127_wisard_trainDataSet (w : Wisard) (env : Nat → Env) (ds : DataSet) :
    (w.trainDataSetV env ds).2 = w.trainDataSet env ds ∧
    (∀ e, (do
        let b ← ds.get 0
        let n ← calculateNumberOfRams b.size w.addressSize w.opts.completeAddressing
        w.checkConfidence n : Res Unit) = .error e → w.trainDataSetV env ds = ([], w, .error e)) ∧
    ((do
        let b ← ds.get 0
        let n ← calculateNumberOfRams b.size w.addressSize w.opts.completeAddressing
        w.checkConfidence n : Res Unit) = .ok () →
      Prints w.opts.verbose b!"training " ds.data.length (fun i b w => match ds.getLabel i with
        | .error e => (w, .error e)
        | .ok l => Wisard.train1 w (env i) (.bin b) l) ds.data w [] (w.trainDataSetV env ds)) := by
  have hloop : ∀ (bs : List BinInput) (i : Nat) (w : Wisard) (v : Bool) (n : Nat),
      (forPrint v b!"training " n (fun i b w => match ds.getLabel i with
        | .error e => (w, .error e)
        | .ok l => Wisard.train1 w (env i) (.bin b) l) bs i w).2 = w.trainDataLoop env ds bs i := by
    intro bs
    induction bs with
    | nil => intro i w v n; rfl
    | cons b bs ih =>
      intro i w v n
      unfold forPrint Wisard.trainDataLoop
      simp only
      cases ds.getLabel i with
      | error e => rfl
      | ok l =>
        simp only
        rcases w.train1 (env i) (.bin b) l with ⟨w', r⟩
        cases r with
        | error e => rfl
        | ok u => exact ih (i + 1) w' v n
  unfold Wisard.trainDataSetV Wisard.trainDataSet
  simp only
  generalize (do
    let b ← ds.get 0
    let n ← calculateNumberOfRams b.size w.addressSize w.opts.completeAddressing
    w.checkConfidence n : Res Unit) = ch
  cases ch with
  | error e => exact ⟨rfl, fun e' he => by cases he; rfl, fun h => by cases h⟩
  | ok u => exact ⟨hloop _ _ _ _ _, fun e he => (by cases he), fun _ => prints_plain _ _ _ _ _ _⟩

/-- C127, `Wisard.leaveMoreOut(images, labels)`. -/
theorem C127_wisard_leaveMoreOut (w : Wisard) (images : List (List Int)) (labels : List Str) :
    (w.leaveMoreOutV images labels).2 = w.leaveMoreOut images labels ∧
    (images.length ≠ labels.length → (w.leaveMoreOutV images labels).1 = []) ∧
    (images.length = labels.length →
      Prints w.opts.verbose b!"untraining " images.length (fun _ e w => Wisard.leaveOneOut w e.1 e.2) (images.zip labels) w
        b!"\r\n" (w.leaveMoreOutV images labels)) := by
  have hloop : ∀ (es : List (List Int × Str)) (i : Nat) (w : Wisard) (v : Bool) (n : Nat),
      (forPrint v b!"untraining " n (fun _ e w => Wisard.leaveOneOut w e.1 e.2) es i w).2 = w.leaveLoop es := by
    intro es
    induction es with
    | nil => intro i w v n; rfl
    | cons a es ih =>
      obtain ⟨img, l⟩ := a
      intro i w v n
      unfold forPrint Wisard.leaveLoop
      simp only
      rcases w.leaveOneOut img l with ⟨w', r⟩
      cases r with
      | error e => rfl
      | ok u => exact ih (i + 1) w' v n
  unfold Wisard.leaveMoreOutV Wisard.leaveMoreOut Wisard.checkInputSizes
  by_cases h : images.length ≠ labels.length
  · rw [if_pos h]; exact ⟨rfl, fun _ => rfl, fun h' => absurd h' h⟩
  · rw [if_neg h]
    exact ⟨by simp only; rw [endLine_snd, hloop], fun h' => absurd h' h, fun _ => prints_end _ _ _ _ _ _⟩

theorem classify_collect (w : Wisard) : ∀ xs, w.classify xs = collect (fun img => (w.classify1 img).map Bleaching.getBiggestCandidate) xs := by
  intro xs
  induction xs with
  | nil => rfl
  | cons x xs ih =>
    unfold Wisard.classify collect
    rw [ih]
    cases w.classify1 x <;> rfl

theorem map_error {α β : Type} {r : Res α} {g : α → β} {e : Err} : r.map g = .error e ↔ r = .error e := by
  cases r with
  | error e' => exact ⟨fun h => by cases h; rfl, fun h => by cases h; rfl⟩
  | ok a => exact ⟨fun h => (by cases h), fun h => (by cases h)⟩

/-- C127, `Wisard.classify` in C++, of a list or a data set. -/
theorem C127_wisard_classify (w : Wisard) (images : List Image) :
    PrintsLabels w.opts.verbose b!"classifying " w.classify (fun img e => w.classify1 img = .error e) images (w.classifyV images) := by
  have := printsLabels w.opts.verbose b!"classifying " (fun img => (w.classify1 img).map Bleaching.getBiggestCandidate) w.classify
    (classify_collect w)
    (fun _ img labels => match w.classify1 img with
      | .error e => (labels, .error e)
      | .ok candidates => (labels ++ [Bleaching.getBiggestCandidate candidates], .ok ()))
    (fun i x acc => by cases w.classify1 x <;> rfl) images
  simp only [map_error] at this
  exact this

/-- C127, `classify` of Python. -/
theorem C127_wisard_pyClassify (w : Wisard) (img : Image) (imgs : List Image) (m : Int)
    (hm : calculateNumberOfRams img.size w.addressSize w.opts.completeAddressing = .ok m) :
    PrintsLabels w.opts.verbose b!"classifying " (PyOut.loop w m) (fun img e => w.classify1 img = .error e) (img :: imgs) (w.pyClassifyV (img :: imgs)) ∧
    PyOut.pyClassify w (img :: imgs) = PyOut.loop w m (img :: imgs) := by
  refine ⟨?_, by simp only [PyOut.pyClassify, hm, Except.bind_ok]⟩
  have hc : ∀ xs, PyOut.loop w m xs = collect (fun img => (w.classify1 img).map (fun c =>
      PyOut.setClassifyOutput w.opts (Bleaching.getBiggestCandidate c) m c)) xs := by
    intro xs
    induction xs with
    | nil => rfl
    | cons x xs ih =>
      unfold PyOut.loop collect
      rw [ih]
      cases w.classify1 x <;> rfl
  have := printsLabels w.opts.verbose b!"classifying " _ (PyOut.loop w m) hc
    (fun _ img labels => match w.classify1 img with
      | .error e => (labels, .error e)
      | .ok candidates => (labels ++ [PyOut.setClassifyOutput w.opts (Bleaching.getBiggestCandidate candidates) m candidates], .ok ()))
    (fun i x acc => by cases w.classify1 x <;> rfl) (img :: imgs)
  simp only [map_error] at this
  unfold Wisard.pyClassifyV
  simp only [hm]
  exact this

/-! ## ClusWisard -/

/-- C127, `ClusWisard.train(images, labels)`. -/
theorem C127_clusWisard_train (f : Flt) (w : ClusWisard) (env : Nat → Env) (images : List (List Int)) (labels : List Str) :
    (w.trainV f env images labels).2 = w.train f env images labels ∧
    (∀ e, (do
        w.confidenceCheck images
        Wisard.checkInputSizes images.length labels.length : Res Unit) = .error e → w.trainV f env images labels = ([], w, .error e)) ∧
    ((do
        w.confidenceCheck images
        Wisard.checkInputSizes images.length labels.length : Res Unit) = .ok () →
      Prints w.opts.verbose b!"training " images.length (fun i e w => ClusWisard.train1 f w (env i) e.1 e.2) (images.zip labels) w
        b!"\r\n" (w.trainV f env images labels)) := by
  have hloop : ∀ (es : List (List Int × Str)) (i : Nat) (w : ClusWisard) (v : Bool) (n : Nat),
      (forPrint v b!"training " n (fun i e w => ClusWisard.train1 f w (env i) e.1 e.2) es i w).2 = w.trainLoop f env es i := by
    intro es
    induction es with
    | nil => intro i w v n; rfl
    | cons a es ih =>
      obtain ⟨img, l⟩ := a
      intro i w v n
      unfold forPrint ClusWisard.trainLoop
      simp only
      rcases w.train1 f (env i) img l with ⟨w', r⟩
      cases r with
      | error e => rfl
      | ok u => exact ih (i + 1) w' v n
  unfold ClusWisard.trainV ClusWisard.train
  simp only
  generalize (do
    w.confidenceCheck images
    Wisard.checkInputSizes images.length labels.length : Res Unit) = ch
  cases ch with
  | error e => exact ⟨rfl, fun e' he => by cases he; rfl, fun h => by cases h⟩
  | ok u => exact ⟨by simp only; rw [endLine_snd, hloop], fun e he => (by cases he), fun _ => prints_end _ _ _ _ _ _⟩

theorem semi_print (f : Flt) (env : Nat → Env) (labels : LabelMap) (v : Bool) (n : Nat) : ∀ (imgs : List (List Int)) (i : Nat) (w : ClusWisard)
    (ll : List Int) (j : Nat),
    (∀ e, (forPrint v b!"training supervised " n (ClusWisard.semiRound f env labels) imgs i (w, ll, j)).2.2 = .error e →
      ClusWisard.semiLoop f env labels imgs i w ll j =
        ((forPrint v b!"training supervised " n (ClusWisard.semiRound f env labels) imgs i (w, ll, j)).2.1.1, .error e)) ∧
    ((forPrint v b!"training supervised " n (ClusWisard.semiRound f env labels) imgs i (w, ll, j)).2.2 = .ok () →
      ClusWisard.semiLoop f env labels imgs i w ll j =
        ((forPrint v b!"training supervised " n (ClusWisard.semiRound f env labels) imgs i (w, ll, j)).2.1.1,
          .ok (forPrint v b!"training supervised " n (ClusWisard.semiRound f env labels) imgs i (w, ll, j)).2.1.2.1)) := by
  intro imgs
  induction imgs with
  | nil =>
    intro i w ll j
    exact ⟨fun e he => (by cases he), fun _ => rfl⟩
  | cons img imgs ih =>
    intro i w ll j
    unfold forPrint ClusWisard.semiLoop
    simp only [ClusWisard.semiRound]
    cases labels.find i with
    | none =>
      simp only
      cases ClusWisard.noteLabelless ll j i with
      | error e => exact ⟨fun e' he => by cases he; rfl, fun h => by cases h⟩
      | ok ll' => exact ih (i + 1) w ll' (j + 1)
    | some l =>
      simp only
      rcases w.train1 f (env i) img l with ⟨w', r⟩
      cases r with
      | error e => exact ⟨fun e' he => by cases he; rfl, fun h => by cases h⟩
      | ok u => exact ih (i + 1) w' ll j

/-- C127, semi-supervised `ClusWisard.train`: after the checks there are two runs of progress messages, the second only if the first
part did not fail and there are images with and without label. -/
theorem C127_clusWisard_semi (f : Flt) (w : ClusWisard) (env : Bool → Nat → Env) (images : List (List Int)) (labels : LabelMap) :
    (w.trainSemiV f env images labels).2 = w.trainSemi f env images labels ∧
    (∀ e, (do
        w.confidenceCheck images
        if labels.length > images.length then .error (.throw .labelsTooMany) else .ok () : Res Unit) = .error e →
      w.trainSemiV f env images labels = ([], w, .error e)) ∧
    ((do
        w.confidenceCheck images
        if labels.length > images.length then .error (.throw .labelsTooMany) else .ok () : Res Unit) = .ok () →
      ∃ r : Str × (ClusWisard × List Int × Nat) × Res Unit,
        Prints w.opts.verbose b!"training supervised " images.length (ClusWisard.semiRound f (env false) labels) images
          (w, List.replicate (images.length - labels.length) 0, 0) b!"\r\n" r ∧
        ((∃ e, r.2.2 = .error e ∧ w.trainSemiV f env images labels = (r.1, r.2.1.1, .error e)) ∨
          r.2.2 = .ok () ∧ r.2.1.2.1.length = images.length ∧
            w.trainSemiV f env images labels = (r.1, r.2.1.1, .error (.throw .noValidIndex)) ∨
          r.2.2 = .ok () ∧ r.2.1.2.1.length ≠ images.length ∧ ∃ r' : Str × ClusWisard × Res Unit,
            Prints w.opts.verbose b!"training unsupervised " r.2.1.2.1.length (fun i img w => ClusWisard.trainOwn f w (env true i) img)
              (images.take r.2.1.2.1.length) r.2.1.1 b!"\r\n" r' ∧
            w.trainSemiV f env images labels = (r.1 ++ r'.1, r'.2))) := by
  have hloop : ∀ (es : List (List Int)) (i : Nat) (w : ClusWisard) (v : Bool) (n : Nat),
      (forPrint v b!"training unsupervised " n (fun i img w => ClusWisard.trainOwn f w (env true i) img) es i w).2 = w.ownLoop f (env true) es i := by
    intro es
    induction es with
    | nil => intro i w v n; rfl
    | cons img es ih =>
      intro i w v n
      unfold forPrint ClusWisard.ownLoop
      simp only
      rcases w.trainOwn f (env true i) img with ⟨w', r⟩
      cases r with
      | error e => rfl
      | ok u => exact ih (i + 1) w' v n
  unfold ClusWisard.trainSemiV ClusWisard.trainSemi
  simp only
  generalize (do
    w.confidenceCheck images
    if labels.length > images.length then .error (.throw .labelsTooMany) else .ok () : Res Unit) = ch
  cases ch with
  | error e => exact ⟨rfl, fun e' he => by cases he; rfl, fun h => by cases h⟩
  | ok u =>
    simp only
    have h1 := semi_print f (env false) labels w.opts.verbose images.length images 0 w (List.replicate (images.length - labels.length) 0) 0
    have h2 := prints_end w.opts.verbose b!"training supervised " images.length (ClusWisard.semiRound f (env false) labels) images
      (w, List.replicate (images.length - labels.length) 0, 0)
    rw [← endLine_snd w.opts.verbose] at h1
    revert h1 h2
    generalize endLine w.opts.verbose (forPrint w.opts.verbose b!"training supervised " images.length (ClusWisard.semiRound f (env false) labels) images 0
      (w, List.replicate (images.length - labels.length) 0, 0)) = r
    intro h1 h2
    cases hr : r.2.2 with
    | error e =>
      rw [h1.1 e hr]
      exact ⟨rfl, fun e' he => (by cases he), fun _ => ⟨r, h2, .inl ⟨e, hr, rfl⟩⟩⟩
    | ok u =>
      rw [h1.2 hr]
      simp only
      by_cases hl : r.2.1.2.1.length = images.length
      · rw [if_pos hl, if_pos hl]
        exact ⟨rfl, fun e' he => (by cases he), fun _ => ⟨r, h2, .inr (.inl ⟨hr, hl, rfl⟩)⟩⟩
      · rw [if_neg hl, if_neg hl]
        refine ⟨by simp only; rw [endLine_snd, hloop], fun e' he => (by cases he), fun _ => ⟨r, h2, .inr (.inr ⟨hr, hl, _, prints_end _ _ _ _ _ _, rfl⟩)⟩⟩

/-- C127, `ClusWisard.classify` in C++. -/
theorem C127_clusWisard_classify (w : ClusWisard) (images : List (List Int)) :
    PrintsLabels w.opts.verbose b!"classifying " w.classify (fun img e => w.classify1 img w.opts.searchBestConfidence = .error e) images
      (w.classifyV images) := by
  have hc : ∀ xs, w.classify xs = collect (fun img => (w.classify1 img w.opts.searchBestConfidence).map
      (fun c => beforeSep (Bleaching.getBiggestCandidate c))) xs := by
    intro xs
    induction xs with
    | nil => rfl
    | cons x xs ih =>
      unfold ClusWisard.classify collect
      rw [ih]
      cases w.classify1 x w.opts.searchBestConfidence <;> rfl
  have := printsLabels w.opts.verbose b!"classifying " _ w.classify hc
    (fun _ img labels => match w.classify1 img w.opts.searchBestConfidence with
      | .error e => (labels, .error e)
      | .ok candidates => (labels ++ [beforeSep (Bleaching.getBiggestCandidate candidates)], .ok ()))
    (fun i x acc => by cases w.classify1 x w.opts.searchBestConfidence <;> rfl) images
  simp only [map_error] at this
  exact this

/-- C127, `ClusWisard.classifyUnsupervised`. -/
theorem C127_clusWisard_classifyUnsupervised (w : ClusWisard) (images : List (List Int)) :
    PrintsLabels w.opts.verbose b!"classifying unsupervised " w.classifyUnsupervised (fun img e => w.classifyUnsupervised1 img = .error e) images
      (w.classifyUnsupervisedV images) := by
  have hc : ∀ xs, w.classifyUnsupervised xs = collect (fun img => (w.classifyUnsupervised1 img).map
      (fun c => beforeSep (Bleaching.getBiggestCandidate c))) xs := by
    intro xs
    induction xs with
    | nil => rfl
    | cons x xs ih =>
      unfold ClusWisard.classifyUnsupervised collect
      rw [ih]
      cases w.classifyUnsupervised1 x <;> rfl
  have := printsLabels w.opts.verbose b!"classifying unsupervised " _ w.classifyUnsupervised hc
    (fun _ img labels => match w.classifyUnsupervised1 img with
      | .error e => (labels, .error e)
      | .ok candidates => (labels ++ [beforeSep (Bleaching.getBiggestCandidate candidates)], .ok ()))
    (fun i x acc => by cases w.classifyUnsupervised1 x <;> rfl) images
  simp only [map_error] at this
  exact this

/-- C127, `classify` of a ClusWisard in Python. -/
theorem C127_clusWisard_pyClassify (w : ClusWisard) (img : List Int) (imgs : List (List Int)) (m : Int)
    (hm : calculateNumberOfRams img.length w.addressSize w.opts.completeAddressing = .ok m) :
    PrintsLabels w.opts.verbose b!"classifying " (w.pyLoop m) (fun img e => w.classify1 img w.opts.searchBestConfidence = .error e) (img :: imgs)
      (w.pyClassifyV (img :: imgs)) ∧ w.pyClassify (img :: imgs) = w.pyLoop m (img :: imgs) := by
  refine ⟨?_, by simp only [ClusWisard.pyClassify, hm, Except.bind_ok]⟩
  have hc : ∀ xs, w.pyLoop m xs = collect (fun img => (w.classify1 img w.opts.searchBestConfidence).map
      (fun c => ClusWisard.pyOutput w.opts m c)) xs := by
    intro xs
    induction xs with
    | nil => rfl
    | cons x xs ih =>
      unfold ClusWisard.pyLoop collect
      rw [ih]
      cases w.classify1 x w.opts.searchBestConfidence <;> rfl
  have := printsLabels w.opts.verbose b!"classifying " _ (w.pyLoop m) hc
    (fun _ img labels => match w.classify1 img w.opts.searchBestConfidence with
      | .error e => (labels, .error e)
      | .ok candidates => (labels ++ [ClusWisard.pyOutput w.opts m candidates], .ok ()))
    (fun i x acc => by cases w.classify1 x w.opts.searchBestConfidence <;> rfl) (img :: imgs)
  simp only [map_error] at this
  unfold ClusWisard.pyClassifyV
  simp only [hm]
  exact this

/-! ## A call that ends, one that fails half way, and one on a data set -/

/-- A Wisard that talks. -/
def exLoud : Wisard := Wisard.create 2 { verbose := true }

example : (exLoud.trainV (fun _ => env0) [[1, 0, 1, 0], [0, 0, 1, 1]] [b!"a", b!"b"]).1 = b!"\rtraining 1 of 2\rtraining 2 of 2\r\n" ∧
    (exLoud.trainV (fun _ => env0) [[1, 0, 1, 0], [0, 0, 1, 1]] [b!"a", b!"b"]).2.2 = .ok () := by decide +kernel

example : (exLoud.trainV (fun _ => env0) [[1, 0, 1, 0], [0], [0, 0, 1, 1]] [b!"a", b!"a", b!"b"]).1 = b!"\rtraining 1 of 3\rtraining 2 of 3" ∧
    (exLoud.trainV (fun _ => env0) [[1, 0, 1, 0], [0], [0, 0, 1, 1]] [b!"a", b!"a", b!"b"]).2.2 = .error (.throw .entrySize) := by decide +kernel

example : ((Wisard.create 2 {}).trainV (fun _ => env0) [[1, 0, 1, 0], [0, 0, 1, 1]] [b!"a", b!"b"]).1 = [] := by decide +kernel

/-- Two labelled images of four bits. -/
def exLoudData : DataSet := ⟨[⟨4, [0xa0]⟩, ⟨4, [0x30]⟩], [(0, b!"a"), (1, b!"b")]⟩

example : (exLoud.trainDataSetV (fun _ => env0) exLoudData).1 = b!"\rtraining 1 of 2\rtraining 2 of 2" ∧
    (exLoud.trainDataSetV (fun _ => env0) exLoudData).2.2 = .ok () := by decide +kernel

example : ((exLoud.trainDataSetV (fun _ => env0) exLoudData).2.1.classifyV [.vec [1, 0, 1, 0]]) = (b!"\rclassifying 1 of 1\r\n", .ok [b!"a"]) := by
  decide +kernel

/-- A ClusWisard that talks, semi-supervised. -/
example : (({ cw0 with opts := { verbose := true } } : ClusWisard).trainSemiV Flt.exact (fun _ _ => env0) [[1, 1, 1, 1], [0, 0, 0, 0], [1, 0, 1, 0]]
      [(0, b!"a"), (2, b!"b")]).1 =
    b!"\rtraining supervised 1 of 3\rtraining supervised 2 of 3\rtraining supervised 3 of 3\r\n\rtraining unsupervised 1 of 1\r\n" := by
  decide +kernel

end Wis
