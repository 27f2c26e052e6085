import Verif.Spec.PySession
import Verif.Props.BindLabels
import Verif.Props.JsonDoc
import Verif.Props.Wisard
import Verif.Props.GrisuApplied
/-!
# C150, C151: Python programs

Every Python program on a Wisard amounts to a history of elementary calls, so what is proved about histories holds for
programs. A correct program never fails, and what it saves is a `str` from which an indistinguishable Wisard is made.
-/

namespace Wis
open Spec PyBind

/-! ## C150 -/

/-- Perform calls until one fails: the same state as performing those up to the failing one. -/
theorem wrun_prefix (ops : List WOp) : ∀ w : Wisard, ∃ p, p <+: ops ∧ (wrun w ops).1 = (wplay w p).1 ∧
    ((wrun w ops).2 = .ok () → p = ops) := by
  induction ops with
  | nil => intro w; exact ⟨[], List.prefix_refl _, rfl, fun _ => rfl⟩
  | cons o ops ih =>
    intro w
    unfold wrun
    rcases h : wstep w o with ⟨w', r⟩
    cases r with
    | ok u =>
      obtain ⟨p, h1, h2, h3⟩ := ih w'
      refine ⟨o :: p, List.cons_prefix_cons.mpr ⟨rfl, h1⟩, ?_, ?_⟩
      · simp only [wplay, h]; exact h2
      · intro h; rw [h3 h]
    | error e => exact ⟨[o], ⟨ops, rfl⟩, by simp only [wplay, h], fun h => by cases h⟩

/-- The operations asked for by `train(images, labels)` from position `i` on. -/
def trainOps (env : Nat → Env) : List (Image × Str) → Nat → List WOp
  | [], _ => []
  | (img, l) :: es, i => .train (env i) img l :: trainOps env es (i + 1)

theorem trainOps_get (env : Nat → Env) (es : List (Image × Str)) : ∀ (i j : Nat),
    (trainOps env es i)[j]? = es[j]?.map fun e => .train (env (i + j)) e.1 e.2 := by
  induction es with
  | nil => intro i j; simp [trainOps]
  | cons e es ih =>
    intro i j
    cases j with
    | zero => simp [trainOps]
    | succ j =>
      simp only [trainOps, List.getElem?_cons_succ, ih]
      rw [show i + 1 + j = i + (j + 1) by omega]

theorem trainOps_length (env : Nat → Env) (es : List (Image × Str)) : ∀ i, (trainOps env es i).length = es.length := by
  induction es with
  | nil => intro i; rfl
  | cons e es ih => intro i; simp [trainOps, ih]

theorem trainLoop_run (env : Nat → Env) (es : List (Image × Str)) : ∀ (w : Wisard) (i : Nat),
    w.trainLoop env es i = wrun w (trainOps env es i) := by
  induction es with
  | nil => intro w i; rfl
  | cons e es ih =>
    intro w i
    simp only [Wisard.trainLoop, trainOps, wrun, wstep]
    rcases h : w.train1 (env i) e.1 e.2 with ⟨w', r⟩
    cases r with
    | ok u => exact ih w' (i + 1)
    | error e => rfl

/-- The labelled entries of a data set from position `i` on, up to the first one without label. -/
def dsEntries (ds : DataSet) : List BinInput → Nat → List (Image × Str)
  | [], _ => []
  | b :: bs, i =>
    match ds.label? i with
    | none => []
    | some l => (.bin b, l) :: dsEntries ds bs (i + 1)

theorem dsEntries_get (ds : DataSet) (bs : List BinInput) : ∀ (i j : Nat) e, (dsEntries ds bs i)[j]? = some e →
    ∃ b, bs[j]? = some b ∧ e.1 = .bin b ∧ ds.label? (i + j) = some e.2 := by
  induction bs with
  | nil => intro i j e h; simp [dsEntries] at h
  | cons b bs ih =>
    intro i j e h
    simp only [dsEntries] at h
    cases hl : ds.label? i with
    | none => rw [hl] at h; simp at h
    | some l =>
      rw [hl] at h
      cases j with
      | zero => simp only [List.getElem?_cons_zero, Option.some.injEq] at h; subst h; exact ⟨b, rfl, rfl, hl⟩
      | succ j =>
        obtain ⟨b', h1, h2, h3⟩ := ih (i + 1) j e h
        exact ⟨b', h1, h2, by rw [← h3]; congr 1; omega⟩

/-- Training a data set is performing its labelled entries, then failing if an entry without label is met. -/
theorem trainDataLoop_run (env : Nat → Env) (ds : DataSet) (bs : List BinInput) : ∀ (w : Wisard) (i : Nat),
    (w.trainDataLoop env ds bs i).1 = (wrun w (trainOps env (dsEntries ds bs i) i)).1 ∧
    ((w.trainDataLoop env ds bs i).2 = .ok () ↔
      (wrun w (trainOps env (dsEntries ds bs i) i)).2 = .ok () ∧ ∀ j < bs.length, (ds.label? (i + j)).isSome) := by
  induction bs with
  | nil => intro w i; exact ⟨rfl, by simp [Wisard.trainDataLoop, dsEntries, trainOps, wrun]⟩
  | cons b bs ih =>
    intro w i
    simp only [Wisard.trainDataLoop, dsEntries, DataSet.getLabel]
    cases hl : ds.label? i with
    | none =>
      refine ⟨rfl, ⟨fun h => by simp at h, fun h => ?_⟩⟩
      have := h.2 0 (by simp)
      simp [hl] at this
    | some l =>
      simp only [trainOps, wrun, wstep]
      rcases h : w.train1 (env i) (.bin b) l with ⟨w', r⟩
      cases r with
      | ok u =>
        obtain ⟨h1, h2⟩ := ih w' (i + 1)
        refine ⟨h1, h2.trans (and_congr_right fun _ => ⟨fun h j hj => ?_, fun h j hj => ?_⟩)⟩
        · cases j with
          | zero => simp [hl]
          | succ j =>
            have := h j (by simpa using hj)
            rwa [show i + 1 + j = i + (j + 1) by omega] at this
        · have := h (j + 1) (by simpa using hj)
          rwa [show i + (j + 1) = i + 1 + j by omega] at this
      | error e => exact ⟨rfl, ⟨fun h => (by cases h), fun h => (by cases h.1)⟩⟩

theorem trainDataLoop_all (env : Nat → Env) (ds : DataSet) (bs : List BinInput) : ∀ (w : Wisard) (i : Nat),
    (∀ j < bs.length, (ds.label? (i + j)).isSome) →
    (w.trainDataLoop env ds bs i).2 = (wrun w (trainOps env (dsEntries ds bs i) i)).2 := by
  induction bs with
  | nil => intro w i _; rfl
  | cons b bs ih =>
    intro w i h
    simp only [Wisard.trainDataLoop, dsEntries, DataSet.getLabel]
    cases hl : ds.label? i with
    | none => have := h 0 (by simp); simp [hl] at this
    | some l =>
      simp only [trainOps, wrun, wstep]
      rcases w.train1 (env i) (.bin b) l with ⟨w', r⟩
      cases r with
      | ok u =>
        refine ih w' (i + 1) fun j hj => ?_
        have := h (j + 1) (by simpa using hj)
        rwa [show i + (j + 1) = i + 1 + j by omega] at this
      | error e => rfl

theorem wrun_const (ops : List WOp) : ∀ w : Wisard, (wrun w ops).1.addressSize = w.addressSize ∧ (wrun w ops).1.opts = w.opts := by
  induction ops with
  | nil => intro w; exact ⟨rfl, rfl⟩
  | cons o ops ih =>
    intro w
    obtain ⟨a, b, _⟩ := wstep_other w o
    simp only [wrun]
    rcases h : wstep w o with ⟨w', r⟩
    rw [h] at a b
    cases r with
    | ok u => exact ⟨(ih w').1.trans a, (ih w').2.trans b⟩
    | error e => exact ⟨a, b⟩

theorem dsEntries_length (ds : DataSet) (bs : List BinInput) : ∀ i, (∀ j < bs.length, (ds.label? (i + j)).isSome) →
    (dsEntries ds bs i).length = bs.length := by
  induction bs with
  | nil => intro i _; rfl
  | cons b bs ih =>
    intro i h
    simp only [dsEntries]
    cases hl : ds.label? i with
    | none => have := h 0 (by simp); simp [hl] at this
    | some l =>
      simp only [List.length_cons]
      rw [ih (i + 1)]
      intro j hj
      have := h (j + 1) (by simpa using hj)
      rwa [show i + (j + 1) = i + 1 + j by omega] at this

/-- The operations of `leaveMoreOut`. -/
def leaveOps (es : List (List Int × Str)) : List WOp := es.map fun e => .leave e.1 e.2

theorem leaveLoop_run (es : List (List Int × Str)) : ∀ (w : Wisard), w.leaveLoop es = wrun w (leaveOps es) := by
  induction es with
  | nil => intro w; rfl
  | cons e es ih =>
    intro w
    simp only [Wisard.leaveLoop, leaveOps, List.map_cons, wrun, wstep]
    rcases h : w.leaveOneOut e.1 e.2 with ⟨w', r⟩
    cases r with
    | ok u => exact ih w'
    | error e => rfl

/-- A prefix of a list of entries. -/
theorem entries_prefix {c : PyCall} {full p : List WOp} (hp : p <+: full) (h : ∀ (i : Nat) op, full[i]? = some op → Entry c i op) :
    ∀ (i : Nat) op, p[i]? = some op → Entry c i op := by
  intro i op hi
  obtain ⟨t, rfl⟩ := hp
  apply h
  rw [List.getElem?_append_left]
  · exact hi
  · exact (List.getElem?_eq_some_iff.mp hi).1

theorem zip_entry {xs : List (List Int)} {ls : List Str} {i : Nat} {e : Image × Str}
    (h : ((xs.map Image.vec).zip ls)[i]? = some e) : ∃ img, xs[i]? = some img ∧ ls[i]? = some e.2 ∧ e.1 = .vec img := by
  rw [List.getElem?_zip_eq_some] at h
  obtain ⟨h1, h2⟩ := h
  rw [List.getElem?_map, Option.map_eq_some_iff] at h1
  obtain ⟨img, h3, h4⟩ := h1
  exact ⟨img, h3, h2, h4.symm⟩

/-- The state after a call and what the call contributes. -/
theorem call_contributes (L : PyLib) (w : Wisard) (c : PyCall) :
    ∃ ops, Contributes c (w.pyCall L c).2 ops ∧ (w.pyCall L c).1 = (wplay w ops).1 := by
  have none_case : ∀ {c' : PyCall}, Contributes c' none [] := ⟨by simp, fun _ => rfl, fun h => by cases h⟩
  have err_case : ∀ {c' : PyCall} {e}, Contributes c' (some (.error e)) [] := ⟨by simp, fun _ => rfl, fun h => by cases h⟩
  have go : ∀ (full : List WOp) (r : Res Unit), (∀ (i : Nat) op, full[i]? = some op → Entry c i op) →
      (r = .ok () → (wrun w full).2 = .ok () ∧ Count c full.length) →
      ∃ ops, Contributes c (some r) ops ∧ (wrun w full).1 = (wplay w ops).1 := by
    intro full r he hr
    obtain ⟨p, h1, h2, h3⟩ := wrun_prefix full w
    refine ⟨p, ⟨entries_prefix h1 he, fun h => (by cases h), ?_⟩, h2⟩
    intro h
    simp only [Option.some.injEq] at h
    rw [h3 (hr h).1]
    exact (hr h).2
  cases c with
  | train env args =>
    simp only [Wisard.pyCall]
    cases hc : w.pyTrain L env args with
    | none => exact ⟨[], none_case, rfl⟩
    | some r =>
      rcases (C145_wisard_train L w env args r).mp hc with ⟨x, y, xs, ls, rfl, hx, hy, rfl⟩ | ⟨ds, rfl, rfl⟩
      · dsimp only
        unfold Wisard.train
        cases hk : w.trainChecks xs ls with
        | error e => exact ⟨[], err_case, rfl⟩
        | ok u =>
          dsimp only
          have hlen : xs.length = ls.length := by
            unfold Wisard.trainChecks at hk
            obtain ⟨_, _, hk⟩ := bind_eq_ok hk
            obtain ⟨_, _, hk⟩ := bind_eq_ok hk
            obtain ⟨_, _, hk⟩ := bind_eq_ok hk
            unfold Wisard.checkInputSizes at hk
            split at hk
            · cases hk
            · rename_i h; exact not_not.mp h
          rw [trainLoop_run]
          apply go
          · intro i op hi
            rw [trainOps_get, Option.map_eq_some_iff] at hi
            obtain ⟨e, he, rfl⟩ := hi
            obtain ⟨img, h1, h2, h3⟩ := zip_entry he
            rw [h3, Nat.zero_add]
            exact .lists hx hy h1 h2
          · intro h
            refine ⟨h, .lists hx hy ?_ ?_⟩ <;> rw [trainOps_length] <;> simp [hlen]
      · dsimp only
        unfold Wisard.trainDataSet
        generalize (do let b ← ds.get 0; let n ← calculateNumberOfRams b.size w.addressSize w.opts.completeAddressing; w.checkConfidence n : Res Unit) = ch
        cases ch with
        | error e => exact ⟨[], err_case, rfl⟩
        | ok u =>
          dsimp only
          obtain ⟨h1, h2⟩ := trainDataLoop_run env ds ds.data w 0
          rw [h1]
          apply go
          · intro i op hi
            rw [trainOps_get, Option.map_eq_some_iff] at hi
            obtain ⟨e, he, rfl⟩ := hi
            obtain ⟨b, h1, h2, h3⟩ := dsEntries_get ds ds.data 0 i e he
            rw [h2, Nat.zero_add]
            rw [Nat.zero_add] at h3
            exact .dataSet h1 h3
          · intro h
            obtain ⟨h3, h4⟩ := h2.mp h
            refine ⟨h3, .dataSet ?_ ?_⟩ <;> rw [trainOps_length, dsEntries_length ds ds.data 0 h4]
            intro i hi
            have := h4 i hi
            rwa [Nat.zero_add] at this
  | leaveOneOut args =>
    simp only [Wisard.pyCall]
    cases hc : w.pyLeaveOneOut L args with
    | none => exact ⟨[], none_case, rfl⟩
    | some r =>
      obtain ⟨x, y, i, l, rfl, hx, hy, rfl⟩ := (C145_wisard_leaveOneOut L w args r).mp hc
      dsimp only
      refine ⟨[.leave i l], ⟨?_, fun h => (by cases h), fun _ => .leave hx hy⟩, rfl⟩
      intro j op hj
      cases j with
      | zero => simp only [List.getElem?_cons_zero, Option.some.injEq] at hj; subst hj; exact .leave hx hy
      | succ j => simp at hj
  | leaveMoreOut args =>
    simp only [Wisard.pyCall]
    cases hc : w.pyLeaveMoreOut L args with
    | none => exact ⟨[], none_case, rfl⟩
    | some r =>
      obtain ⟨x, y, xs, ls, rfl, hx, hy, rfl⟩ := (C145_wisard_leaveMoreOut L w args r).mp hc
      dsimp only
      unfold Wisard.leaveMoreOut
      cases hk : Wisard.checkInputSizes xs.length ls.length with
      | error e => exact ⟨[], err_case, rfl⟩
      | ok u =>
        dsimp only
        have hlen : xs.length = ls.length := by
          unfold Wisard.checkInputSizes at hk
          split at hk
          · cases hk
          · rename_i h; exact not_not.mp h
        rw [leaveLoop_run]
        apply go
        · intro i op hi
          simp only [leaveOps, List.getElem?_map, Option.map_eq_some_iff] at hi
          obtain ⟨e, he, rfl⟩ := hi
          rw [List.getElem?_zip_eq_some] at he
          exact .leaves hx hy he.1 he.2
        · intro h
          refine ⟨h, .leaves hx hy ?_ ?_⟩ <;> simp [leaveOps, hlen]

/-- **C150**: whatever calls a Python program makes, with whatever arguments, and whichever of them raise exceptions, the
Wisard is afterwards in the state that a history of elementary trainings and `leaveOneOut`s leads to. Each call contributes
nothing (`TypeError`), everything it asks for in order (if it returns), or the first few things it asks for. -/
theorem C150_session (L : PyLib) (calls : List PyCall) : ∀ w : Wisard, ∃ parts : List (List WOp),
    List.Forall₂ (fun (c : PyCall × PyReply) ops => Contributes c.1 c.2 ops) (calls.zip (w.pySession L calls).2) parts ∧
    (w.pySession L calls).2.length = calls.length ∧ (w.pySession L calls).1 = (wplay w parts.flatten).1 := by
  induction calls with
  | nil => intro w; exact ⟨[], .nil, rfl, rfl⟩
  | cons c cs ih =>
    intro w
    obtain ⟨ops, h1, h2⟩ := call_contributes L w c
    obtain ⟨parts, h3, h4, h5⟩ := ih (w.pyCall L c).1
    refine ⟨ops :: parts, ?_, ?_, ?_⟩
    · simp only [Wisard.pySession, List.zip_cons_cons]; exact .cons h1 h3
    · simp only [Wisard.pySession, List.length_cons, h4]
    · simp only [Wisard.pySession, List.flatten_cons, wplay_append]; rw [h5, h2]


/-! ## Every JSON text is UTF-8 -/

theorem utf8_digits {s : Str} (h : Digits s) : Utf8 s := utf8_ascii fun b hb => by have := h b hb; omega

theorem utf8_ws {s : Str} (h : Ws s) : Utf8 s := utf8_ascii fun b hb => by
  rcases h b hb with rfl | rfl | rfl | rfl <;> decide

theorem utf8_intPart {s : Str} (h : IntPart s) : Utf8 s := by
  rcases h with rfl | ⟨d, ds, rfl, h1, h2, h3⟩
  · exact utf8_ascii (by decide)
  · apply utf8_ascii
    intro b hb
    rcases List.mem_cons.mp hb with rfl | hb
    · omega
    · have := h3 b hb; omega

theorem utf8_float {s : Str} (h : FloatToken s) : Utf8 s := by
  obtain ⟨sign, int, frac, exp, rfl, h1, h2, h3, h4, _⟩ := h
  refine utf8_append (utf8_append (utf8_append ?_ (utf8_intPart h2)) ?_) ?_
  · rcases h1 with rfl | rfl <;> exact utf8_ascii (by decide)
  · rcases h3 with rfl | ⟨ds, rfl, _, h⟩
    · exact .nil
    · exact utf8_append (utf8_ascii (by decide)) (utf8_digits h)
  · rcases h4 with rfl | ⟨e, sg, ds, rfl, he, hs, _, h⟩
    · exact .nil
    · refine utf8_append (utf8_append ?_ ?_) (utf8_digits h)
      · rcases he with rfl | rfl <;> exact utf8_ascii (by decide)
      · rcases hs with rfl | rfl | rfl <;> exact utf8_ascii (by decide)

theorem utf8_number {ft : FloatText} {t : Str} {v : Json} (h : NumberText ft t v) : Utf8 t := by
  cases h with
  | nat h _ => exact utf8_intPart h
  | neg h _ => exact utf8_append (utf8_ascii (by decide)) (utf8_intPart h)
  | bigNat h _ _ => exact utf8_intPart h
  | bigNeg h _ _ => exact utf8_append (utf8_ascii (by decide)) (utf8_intPart h)
  | float h _ => exact utf8_float h

theorem hex_ascii {b : Byte} {k : Nat} (h : Hex b k) : b.toNat ≤ 0x7F := by
  obtain ⟨hk, h⟩ := h
  have h1 : ∀ k < 16, (b!"0123456789abcdef".getD k 0).toNat ≤ 0x7F := by decide
  have h2 : ∀ k < 16, (b!"0123456789ABCDEF".getD k 0).toNat ≤ 0x7F := by decide
  rcases h with rfl | rfl
  · exact h1 k hk
  · exact h2 k hk

theorem utf8_hex4 {h : Str} {n : Nat} (hh : Hex4 h n) : Utf8 h := by
  obtain ⟨b3, b2, b1, b0, k3, k2, k1, k0, rfl, h3, h2, h1, h0, _⟩ := hh
  apply utf8_ascii
  intro b hb
  simp only [List.mem_cons, List.not_mem_nil, or_false] at hb
  rcases hb with rfl | rfl | rfl | rfl
  · exact hex_ascii h3
  · exact hex_ascii h2
  · exact hex_ascii h1
  · exact hex_ascii h0

theorem utf8_charText {t v : Str} (h : CharText t v) : Utf8 t := by
  cases h with
  | plain h _ => exact utf8_char h
  | short h =>
    simp only [shortEscapes, List.mem_cons, Prod.mk.injEq, List.not_mem_nil, or_false] at h
    rcases h with ⟨rfl, _⟩ | ⟨rfl, _⟩ | ⟨rfl, _⟩ | ⟨rfl, _⟩ | ⟨rfl, _⟩ | ⟨rfl, _⟩ | ⟨rfl, _⟩ | ⟨rfl, _⟩ <;> exact utf8_ascii (by decide)
  | unit h _ => exact utf8_append (utf8_ascii (by decide)) (utf8_hex4 h)
  | pair h _ h' _ =>
    exact utf8_append (utf8_append (utf8_append (utf8_ascii (by decide)) (utf8_hex4 h)) (utf8_ascii (by decide))) (utf8_hex4 h')

theorem utf8_string {t v : Str} (h : StringText t v) : Utf8 t := by
  obtain ⟨body, rfl, h⟩ := h
  have hb : Utf8 body := by
    induction h with
    | nil => exact .nil
    | cons h _ ih => exact utf8_append (utf8_charText h) ih
  exact utf8_append (utf8_append (utf8_ascii (by decide)) hb) (utf8_ascii (by decide))

/-- Every JSON text is UTF-8. -/
theorem utf8_value {ft : FloatText} {t : Str} {v : Json} (h : ValueText ft t v) : Utf8 t := by
  refine ValueText.rec (motive_1 := fun t _ _ => Utf8 t) (motive_2 := fun t _ _ => Utf8 t) (motive_3 := fun t _ _ => Utf8 t)
    (utf8_ascii (by decide)) (utf8_ascii (by decide)) (utf8_ascii (by decide)) ?_ ?_ ?_ ?_ ?_ ?_ ?_ ?_ ?_ ?_ h
  · intro t v h; exact utf8_number h
  · intro t s h; exact utf8_string h
  · intro w h; exact utf8_append (utf8_append (utf8_ascii (by decide)) (utf8_ws h)) (utf8_ascii (by decide))
  · intro t l _ h; exact utf8_append (utf8_append (utf8_ascii (by decide)) h) (utf8_ascii (by decide))
  · intro w h; exact utf8_append (utf8_append (utf8_ascii (by decide)) (utf8_ws h)) (utf8_ascii (by decide))
  · intro t l m _ _ h; exact utf8_append (utf8_append (utf8_ascii (by decide)) h) (utf8_ascii (by decide))
  · intro w t v w' hw _ hw' h; exact utf8_append (utf8_append (utf8_ws hw) h) (utf8_ws hw')
  · intro w t v w' r l hw _ hw' _ h hr
    exact utf8_append (utf8_append (utf8_append (utf8_append (utf8_ws hw) h) (utf8_ws hw')) (utf8_ascii (by decide))) hr
  · intro w kt k w1 w2 t v w' hw hk h1 h2 _ hw' h
    exact utf8_append (utf8_append (utf8_append (utf8_append (utf8_append (utf8_append (utf8_ws hw) (utf8_string hk)) (utf8_ws h1))
      (utf8_ascii (by decide))) (utf8_ws h2)) h) (utf8_ws hw')
  · intro w kt k w1 w2 t v w' r l hw hk h1 h2 _ hw' _ h hr
    exact utf8_append (utf8_append (utf8_append (utf8_append (utf8_append (utf8_append (utf8_append (utf8_append (utf8_ws hw)
      (utf8_string hk)) (utf8_ws h1)) (utf8_ascii (by decide))) (utf8_ws h2)) h) (utf8_ws hw')) (utf8_ascii (by decide))) hr


/-! ## C151: correct programs -/

/-- The number of RAMs of a class with default wiring. -/
def Spec.ramsOf (n A : Nat) (complete : Bool) : Nat := if complete then (n + A - 1) / A else n / A

theorem rams_number {n A : Nat} {o : WisardOpts} (hm : o.mapping = []) (hi : o.indexes = []) (hA : 2 ≤ A) (hAn : A ≤ n)
    (hn : n + A ≤ 2147483647) (hb : 2 ≤ o.base) (hp : o.base ^ A < 2 ^ 63) :
    calculateNumberOfRams n A o.completeAddressing = .ok (ramsOf n A o.completeAddressing : Int) := by
  obtain ⟨c1, c2⟩ := C18_default_wiring Rnd.id A n
    { completeAddressing := o.completeAddressing, ignoreZero := o.ignoreZero, base := o.base } rfl rfl
  obtain ⟨d, hd⟩ := c1 hA hAn hn hb hp
  rw [C49_number_of_rams Rnd.id A n o [] hm hi d (by rw [newDiscriminator_default hm hi]; exact hd), (c2 d hd).1]
  rfl

/-- A call asks for one thing at each position only. -/
theorem entry_unique {c : PyCall} {i : Nat} {op op' : WOp} (h : Entry c i op) (h' : Entry c i op') : op = op' := by
  have L : PyLib := ⟨id, fun _ => none, true⟩
  have im : ∀ {x xs xs'}, PyImages x xs → PyImages x xs' → xs = xs' := by
    intro x xs xs' h h'
    have := (images_ok (L := L)).mpr h
    rw [(images_ok (L := L)).mpr h'] at this
    injection this with this
    exact this.symm
  have tx : ∀ {x xs xs'}, PyTexts x xs → PyTexts x xs' → xs = xs' := by
    intro x xs xs' h h'
    have := (texts_ok (L := L)).mpr h
    rw [(texts_ok (L := L)).mpr h'] at this
    injection this with this
    exact this.symm
  cases h with
  | lists h1 h2 h3 h4 =>
    cases h' with
    | lists g1 g2 g3 g4 =>
      obtain rfl := im h1 g1
      obtain rfl := tx h2 g2
      rw [h3] at g3; rw [h4] at g4
      cases g3; cases g4; rfl
  | dataSet h3 h4 =>
    cases h' with
    | dataSet g3 g4 =>
      rw [h3] at g3; rw [h4] at g4
      cases g3; cases g4; rfl
  | leave h1 h2 =>
    cases h' with
    | leave g1 g2 =>
      have e1 := (image_ok (L := L)).mpr h1
      rw [(image_ok (L := L)).mpr g1] at e1
      have e2 := loadStr_ok.mpr h2
      rw [loadStr_ok.mpr g2] at e2
      cases e1; cases e2; rfl
  | leaves h1 h2 h3 h4 =>
    cases h' with
    | leaves g1 g2 g3 g4 =>
      obtain rfl := im h1 g1
      obtain rfl := tx h2 g2
      rw [h3] at g3; rw [h4] at g4
      cases g3; cases g4; rfl

/-- A good call performs everything it asks for. -/
theorem good_call (L : PyLib) {n A : Nat} {o : WisardOpts} {R : Nat}
    (hR : calculateNumberOfRams n A o.completeAddressing = .ok (R : Int)) (hc : o.confidence ≤ R)
    {c : PyCall} {k : Nat} (h : GoodCall n o.base c k) :
    ∃ ops : List WOp, ops.length = k ∧ (∀ (i : Nat) op, ops[i]? = some op → Entry c i op) ∧
      (∀ op ∈ ops, ValidImage n o.base op.img ∧ Utf8 op.label) ∧
      ∀ w : Wisard, w.addressSize = A → w.opts = o → w.pyCall L c = ((wrun w ops).1, some (wrun w ops).2) := by
  obtain ⟨hk, h0, hv⟩ := h
  have fin : ∀ ops : List WOp, ops.length = k → (∀ (i : Nat) op, ops[i]? = some op → Entry c i op) →
      ∀ op ∈ ops, ValidImage n o.base op.img ∧ Utf8 op.label := by
    intro ops hl he op hop
    obtain ⟨i, hi, rfl⟩ := List.mem_iff_getElem.mp hop
    obtain ⟨op', h1, h2⟩ := hv i (by omega)
    rw [entry_unique (he i ops[i] (List.getElem?_eq_getElem hi)) h1]
    exact h2
  cases hk with
  | @lists env x y xs ls k hx hy h1 h2 =>
    have hlen : (trainOps env ((xs.map Image.vec).zip ls) 0).length = k := by
      rw [trainOps_length]; simp [h1, h2]
    have hent : ∀ (i : Nat) op, (trainOps env ((xs.map Image.vec).zip ls) 0)[i]? = some op → Entry (.train env [x, y]) i op := by
      intro i op hi
      rw [trainOps_get, Option.map_eq_some_iff] at hi
      obtain ⟨e, he, rfl⟩ := hi
      obtain ⟨img, g1, g2, g3⟩ := zip_entry he
      rw [g3, Nat.zero_add]
      exact .lists hx hy g1 g2
    refine ⟨_, hlen, hent, fin _ hlen hent, ?_⟩
    intro w hA ho
    unfold Wisard.pyCall
    dsimp only
    rw [(C145_wisard_train L w env [x, y] _).mpr (.inl ⟨x, y, xs, ls, rfl, hx, hy, rfl⟩)]
    dsimp only
    unfold Wisard.train
    have hchk : w.trainChecks xs ls = .ok () := by
      cases xs with
      | nil => exact absurd h1.symm (by simpa using h0 env _ rfl)
      | cons img xs =>
        cases ls with
        | nil => simp at h1 h2; omega
        | cons l ls =>
          have hi := (fin _ hlen hent (.train (env 0) (.vec img) l) (by simp [trainOps])).1.1
          simp only [WOp.img, Image.size] at hi
          unfold Wisard.trainChecks
          dsimp only
          simp only [Except.bind_ok, hi, hA, ho, hR, Wisard.checkConfidence, if_neg (not_lt.mpr hc)]
          unfold Wisard.checkInputSizes
          rw [if_neg (by rw [h1, h2]; simp)]
    rw [hchk]
    dsimp only
    rw [trainLoop_run]
  | @dataSet env ds k h1 h2 =>
    have hl : ∀ j < ds.data.length, (ds.label? (0 + j)).isSome := fun j hj => by rw [Nat.zero_add]; exact h2 j (by omega)
    have hlen : (trainOps env (dsEntries ds ds.data 0) 0).length = k := by
      rw [trainOps_length, dsEntries_length ds ds.data 0 hl, h1]
    have hent : ∀ (i : Nat) op, (trainOps env (dsEntries ds ds.data 0) 0)[i]? = some op → Entry (.train env [.dataSet ds]) i op := by
      intro i op hi
      rw [trainOps_get, Option.map_eq_some_iff] at hi
      obtain ⟨e, he, rfl⟩ := hi
      obtain ⟨b, g1, g2, g3⟩ := dsEntries_get ds ds.data 0 i e he
      rw [g2, Nat.zero_add]
      rw [Nat.zero_add] at g3
      exact .dataSet g1 g3
    refine ⟨_, hlen, hent, fin _ hlen hent, ?_⟩
    intro w hA ho
    unfold Wisard.pyCall
    dsimp only
    rw [(C145_wisard_train L w env [.dataSet ds] _).mpr (.inr ⟨ds, rfl, rfl⟩)]
    dsimp only
    unfold Wisard.trainDataSet
    have hk0 : k ≠ 0 := h0 env _ rfl
    have hchk : (do let b ← ds.get 0; let n ← calculateNumberOfRams b.size w.addressSize w.opts.completeAddressing; w.checkConfidence n : Res Unit)
        = .ok () := by
      obtain ⟨op, g1, g2⟩ := hv 0 (by omega)
      cases g1 with
      | dataSet g3 g4 =>
        have hi := g2.1.1
        simp only [WOp.img, Image.size] at hi
        unfold DataSet.get
        rw [if_neg (by omega)]
        simp only [Int.toNat_zero, g3, Except.bind_ok, hi, hA, ho, hR, Wisard.checkConfidence, if_neg (not_lt.mpr hc)]
    rw [hchk]
    dsimp only
    obtain ⟨g1, g2⟩ := trainDataLoop_run env ds ds.data w 0
    refine Prod.ext g1 ?_
    dsimp only
    congr 1
    exact trainDataLoop_all env ds ds.data w 0 hl
  | @leave x y img l hx hy =>
    have hent : ∀ (i : Nat) op, [WOp.leave img l][i]? = some op → Entry (.leaveOneOut [x, y]) i op := by
      intro j op hj
      cases j with
      | zero => simp only [List.getElem?_cons_zero, Option.some.injEq] at hj; subst hj; exact .leave hx hy
      | succ j => simp at hj
    refine ⟨[.leave img l], rfl, hent, fin _ rfl hent, ?_⟩
    intro w hA ho
    unfold Wisard.pyCall
    dsimp only
    rw [(C145_wisard_leaveOneOut L w [x, y] _).mpr ⟨x, y, img, l, rfl, hx, hy, rfl⟩]
    simp only [wrun, wstep]
    rcases w.leaveOneOut img l with ⟨w', r⟩
    cases r <;> rfl
  | @leaves x y xs ls k hx hy h1 h2 =>
    have hlen : (leaveOps (xs.zip ls)).length = k := by simp [leaveOps, h1, h2]
    have hent : ∀ (i : Nat) op, (leaveOps (xs.zip ls))[i]? = some op → Entry (.leaveMoreOut [x, y]) i op := by
      intro i op hi
      simp only [leaveOps, List.getElem?_map, Option.map_eq_some_iff] at hi
      obtain ⟨e, he, rfl⟩ := hi
      rw [List.getElem?_zip_eq_some] at he
      exact .leaves hx hy he.1 he.2
    refine ⟨_, hlen, hent, fin _ hlen hent, ?_⟩
    intro w hA ho
    unfold Wisard.pyCall
    dsimp only
    rw [(C145_wisard_leaveMoreOut L w [x, y] _).mpr ⟨x, y, xs, ls, rfl, hx, hy, rfl⟩]
    dsimp only
    unfold Wisard.leaveMoreOut Wisard.checkInputSizes
    rw [if_neg (by rw [h1, h2]; simp)]
    dsimp only
    rw [leaveLoop_run]

/-- Good calls after each other: all return, and together they perform everything they ask for. -/
theorem good_session (L : PyLib) {n A : Nat} {o : WisardOpts} (hm : o.mapping = []) (hi : o.indexes = [])
    (hA : 2 ≤ A) (hAn : A ≤ n) (hn : n + A ≤ 2147483647) (hb : 2 ≤ o.base) (hp : o.base ^ A < 2 ^ 63)
    (hc : o.confidence ≤ ramsOf n A o.completeAddressing) (calls : List PyCall) (ks : List Nat)
    (hg : List.Forall₂ (GoodCall n o.base) calls ks) (hN : ks.sum ≤ 2147483645) :
    ∃ parts : List (List WOp), List.Forall₂ (fun c (ops : List WOp) => ∃ k, Count c k ∧ ops.length = k ∧ ∀ (i : Nat) op, ops[i]? = some op → Entry c i op) calls parts ∧
      (∀ op ∈ parts.flatten, ValidImage n o.base op.img ∧ Utf8 op.label) ∧ parts.flatten.length = ks.sum ∧
      GoodHistory (Wisard.create A o) parts.flatten ((Wisard.create A o).pySession L calls).1 n ∧
      ∀ r ∈ ((Wisard.create A o).pySession L calls).2, r = some (.ok ()) := by
  have hR := rams_number hm hi hA hAn hn hb hp
  have step1 : ∃ parts : List (List WOp), List.Forall₂ (fun c (ops : List WOp) => ∃ k, Count c k ∧ ops.length = k ∧ ∀ (i : Nat) op, ops[i]? = some op → Entry c i op) calls parts ∧
      (∀ op ∈ parts.flatten, ValidImage n o.base op.img ∧ Utf8 op.label) ∧ parts.flatten.length = ks.sum ∧
      ∀ w w' : Wisard, w.addressSize = A → w.opts = o → wrun w parts.flatten = (w', .ok ()) →
        (w.pySession L calls).1 = w' ∧ ∀ r ∈ (w.pySession L calls).2, r = some (.ok ()) := by
    clear hN
    induction hg with
    | nil =>
      refine ⟨[], .nil, by simp, rfl, ?_⟩
      intro w w' _ _ h
      simp only [List.flatten_nil, wrun, Prod.mk.injEq, and_true] at h
      exact ⟨h, by simp [Wisard.pySession]⟩
    | @cons c k cs ks h _ ih =>
      obtain ⟨ops, h1, h2, h3, h4⟩ := good_call L hR hc h
      obtain ⟨parts, g1, g2, g3, g4⟩ := ih
      refine ⟨ops :: parts, .cons ⟨k, h.1, h1, h2⟩ g1, ?_, ?_, ?_⟩
      · intro op hop
        rw [List.flatten_cons, List.mem_append] at hop
        rcases hop with hop | hop
        · exact h3 op hop
        · exact g2 op hop
      · simp [h1, g3]
      · intro w w' e1 e2 hw
        rw [List.flatten_cons, wrun_append] at hw
        rcases hw1 : wrun w ops with ⟨w1, r1⟩
        rw [hw1] at hw
        cases r1 with
        | error e => cases hw
        | ok u =>
          dsimp only at hw
          have hcall := h4 w e1 e2
          rw [hw1] at hcall
          have hconst := wrun_const ops w
          rw [hw1] at hconst
          obtain ⟨q1, q2⟩ := g4 w1 w' (hconst.1.trans e1) (hconst.2.trans e2) hw
          constructor
          · simp only [Wisard.pySession, hcall]; exact q1
          · intro r hr
            simp only [Wisard.pySession, hcall, List.mem_cons] at hr
            rcases hr with rfl | hr
            · rfl
            · exact q2 r hr
  obtain ⟨parts, g1, g2, g3, g4⟩ := step1
  obtain ⟨w, g⟩ := default_good hm hi hA hAn hn hb hp parts.flatten (fun op hop => (g2 op hop).1) (by omega)
  obtain ⟨q1, q2⟩ := g4 (Wisard.create A o) w rfl rfl g.ran
  exact ⟨parts, g1, g2, g3, by rw [q1]; exact g, q2⟩


theorem wrun_ok_play (ops : List WOp) : ∀ {w w' : Wisard}, wrun w ops = (w', .ok ()) → (wplay w ops).1 = w' := by
  intro w w' h
  obtain ⟨p, _, h2, h3⟩ := wrun_prefix ops w
  rw [h] at h2 h3
  rw [← h3 rfl]
  exact h2.symm

/-- Every class made by a program of good calls can be saved. -/
theorem good_savable {n A : Nat} {o : WisardOpts} (hm : o.mapping = []) (hi : o.indexes = [])
    (hA : 2 ≤ A) (hAn : A ≤ n) (hn : n + A ≤ 2147483647) (hb : InI32 o.base) {ops : List WOp} {w : Wisard}
    (g : GoodHistory (Wisard.create A o) ops w n) (hsize : ramsOf n A o.completeAddressing * (16 * ops.length + 1) ≤ 2147483648)
    {l : Str} {d : Discriminator} (hd : w.discriminators.find l = some d) :
    Savable (Wisard.create A o) ops l d ∧ ∃ op ∈ ops, op.label = l := by
  obtain ⟨_, _, _, h4⟩ := wrun_find g.start ops g.ran
  rcases h4 l with ⟨h, _⟩ | ⟨d', d0, rnd, img, rest, h1, h2, h3, h5⟩
  · rw [h] at hd; cases hd
  rw [h1] at hd
  obtain rfl : d' = d := by simpa using hd
  obtain ⟨_, _, hmap, _, _, hrep⟩ := g.rep h1
  have himg : ValidImage n o.base img := g.valid_ops l (.train img) (by rw [h2]; simp)
  have hle := run_le (opsOf l ops) d0
  rw [h5] at hle
  have hlen : d'.getNumberOfRAMS = ramsOf n A o.completeAddressing := by
    have e1 : d'.getNumberOfRAMS = d0.getNumberOfRAMS := (List.Forall₂.length_eq hle.2).symm
    rw [himg.1] at h3
    simp only [Wisard.create] at h3
    rw [newDiscriminator_default hm hi] at h3
    rw [e1]
    exact ((C18_default_wiring rnd A n
      { completeAddressing := o.completeAddressing, ignoreZero := o.ignoreZero, base := o.base } rfl rfl).2 d0 h3).1
  have hmem : ∃ op ∈ ops, op.isTrain = true ∧ op.label = l := by
    have : Op.train img ∈ opsOf l ops := by rw [h2]; simp
    unfold opsOf at this
    have := (List.dropWhile_sublist _).subset this
    obtain ⟨wo, hwo, h⟩ := List.mem_filterMap.mp this
    refine ⟨wo, hwo, ?_⟩
    cases wo with
    | train env img' l' =>
      simp only [WOp.on] at h
      split at h
      · rename_i hl; exact ⟨rfl, hl⟩
      · cases h
    | leave img' l' =>
      simp only [WOp.on] at h
      split at h <;> cases h
  obtain ⟨op, hop, ht, hl⟩ := hmem
  refine ⟨⟨?_, ?_, ?_, ?_⟩, op, hop, hl⟩
  · rw [hlen]
    unfold ramsOf
    split
    · exact Nat.div_pos (by omega) (by omega)
    · exact Nat.div_pos (by omega) (by omega)
  · obtain ⟨a, b, rfl⟩ := List.append_of_mem hop
    cases op with
    | leave img' l' => cases ht
    | train env img' l' =>
      simp only [WOp.label] at hl
      subst hl
      refine ⟨a, env, img', b, rfl, ?_⟩
      have hr := g.ran
      rw [wrun_append] at hr
      rcases ha : wrun (Wisard.create A o) a with ⟨w1, r1⟩
      rw [ha] at hr
      cases r1 with
      | error e => cases hr
      | ok u =>
        rw [wrun_ok_play a ha]
        simp only [wrun] at hr
        rcases hs : wstep w1 (.train env img' l') with ⟨w2, r2⟩
        rw [hs] at hr
        cases r2 with
        | ok u => rfl
        | error e => cases hr
  · refine ⟨?_, hb, ?_⟩
    · rw [hrep.entry]; exact ⟨by omega, by omega⟩
    · intro m hm' a ha
      obtain ⟨q1, q2⟩ := g.wired l d' h1 m hm' a ha
      exact ⟨by omega, by omega⟩
  · rw [hlen]
    refine le_trans (Nat.mul_le_mul_left _ ?_) hsize
    have : trainsOf l ops ≤ ops.length := List.length_filter_le _ _
    omega

theorem pyLoop_ok {w : Wisard} (k : Int) (xs : List Image) (h : ∀ x ∈ xs, ∃ s, w.classify1 x = .ok s) :
    ∃ rs, PyOut.loop w k xs = .ok rs ∧ rs.length = xs.length := by
  induction xs with
  | nil => exact ⟨[], rfl, rfl⟩
  | cons x xs ih =>
    obtain ⟨s, hs⟩ := h x (by simp)
    obtain ⟨rs, h1, h2⟩ := ih fun y hy => h y (List.mem_cons_of_mem _ hy)
    exact ⟨_, by unfold PyOut.loop; rw [hs, h1]; rfl, by simp [h2]⟩

/-- **C151**: a correct Python program never fails. `w = Wisard(A, **kws)` without `mapping` and `indexes`, then any calls of
`train`, `leaveOneOut` and `leaveMoreOut` with images of `n ≥ A` values in `[0, base)` and labels that are `str`s: every call
returns; `w.classify` of any non-empty list of such images returns a list of the same length whose labels are `str`s;
`w.json()` returns a `str`, and `Wisard(that str)` is a Wisard that no sequence of calls can tell from `w`. Conditions: the
options are usable (`base ≥ 2`, `base^A < 2^63`, `confidence` at most the number of RAMs) and the text fits
(`rams * (16 * images + 1) ≤ 2^31`). -/
theorem C151_program (L : PyLib) (ft : FloatText) {fs0 : Fs} {A n : Nat} {kws : List (Str × PyVal)} (hd : Distinct kws) {w0 : Wisard}
    (h0 : Wisard.py L ft fs0 [.int A] kws = some (.ok w0)) (hm : w0.opts.mapping = []) (hi : w0.opts.indexes = [])
    (hA : 2 ≤ A) (hAn : A ≤ n) (hn : n + A ≤ 2147483647) (hb : 2 ≤ w0.opts.base) (hp : w0.opts.base ^ A < 2 ^ 63)
    (hc : w0.opts.confidence ≤ ramsOf n A w0.opts.completeAddressing) (calls : List PyCall) (ks : List Nat)
    (hg : List.Forall₂ (GoodCall n w0.opts.base) calls ks)
    (hsize : ramsOf n A w0.opts.completeAddressing * (16 * ks.sum + 1) ≤ 2147483648) :
    let w := (w0.pySession L calls).1
    (w0.pySession L calls).2 = calls.map (fun _ => some (.ok ())) ∧
    (∀ x xs, PyImages x xs → xs ≠ [] → (∀ i ∈ xs, ValidImage n w0.opts.base (.vec i)) →
      ∃ rs ns, w.pyClassifyCall L [x] = some (.ok rs) ∧ rs.length = xs.length ∧ toPython rs = some ns) ∧
    ∀ (it : IterOrder) (fs fs' : Fs), ∃ cs w', w.pyJson L it ft fs (fun _ => []) [] = some (.ok (fs, cs)) ∧
      Wisard.py L ft fs' [.str cs] [] = some (.ok w') ∧ WIndistinguishable (fun _ => True) w w' := by
  rcases (C145_wisard L ft fs0 [.int A] kws (.ok w0)).mp h0 with ⟨x, s, h, _, h', _⟩ | ⟨x, a, h, h1, h2, h3, h4⟩
  · cases h; cases h'
  cases h
  cases h1
  obtain ⟨o, ho, rfl⟩ := ofKw_wisard _ h4.symm
  have hopt := wisardKw_are _ hd ho
  simp only [Wisard.create] at hm hi hb hp hc hsize
  have intOk : ∀ {name : Str} {dflt x : Int}, OptionIs kws name (casts L).int dflt x → InI32 dflt → InI32 x := by
    intro name dflt x h h'
    rcases h with ⟨v, _, h⟩ | ⟨_, rfl⟩
    · exact ((C145_options L v).2.1 x).mp h |>.2
    · exact h'
  have hbI : InI32 o.base := intOk hopt.base (by decide)
  have hcI : InI32 o.confidence := intOk hopt.confidence (by decide)
  have hRpos : 1 ≤ ramsOf n A o.completeAddressing := by
    unfold ramsOf
    split
    · exact Nat.div_pos (by omega) (by omega)
    · exact Nat.div_pos (by omega) (by omega)
  have hN : ks.sum ≤ 2147483645 := by
    have := Nat.mul_le_mul_right (16 * ks.sum + 1) hRpos
    omega
  obtain ⟨parts, g1, g2, g3, g, g5⟩ := good_session L hm hi hA hAn hn hb hp hc calls ks hg hN
  have hplay := wrun_ok_play parts.flatten g.ran
  intro w
  have hsav : ∀ l d, w.discriminators.find l = some d → Savable (Wisard.create A o) parts.flatten l d ∧ ∃ op ∈ parts.flatten, op.label = l :=
    fun l d hd' => good_savable hm hi hA hAn hn hbI g (by rw [g3]; exact hsize) hd'
  have hconst := wplay_const (Wisard.create A o) rfl parts.flatten
  have hkeys : ∀ l ∈ w.discriminators.keys, Utf8 l := by
    intro l hl
    obtain ⟨d, hd'⟩ := SMap.mem_keys_iff.mp hl
    obtain ⟨_, op, hop, rfl⟩ := hsav l d hd'
    exact (g2 op hop).2
  refine ⟨?_, ?_, ?_⟩
  · have hlen := (C150_session L calls (Wisard.create A o))
    obtain ⟨_, _, hlen, _⟩ := hlen
    apply List.ext_getElem
    · simp [hlen]
    · intro i q1 q2
      rw [List.getElem_map]
      exact g5 _ (List.getElem_mem q1)
  · intro x xs hx hne hv
    obtain ⟨w2, g', hcl⟩ := C73_valid_calls_succeed hm hi hA hAn hn hb hp parts.flatten (fun op hop => (g2 op hop).1) (by omega)
    obtain rfl : w2 = w := (Prod.mk.inj (g'.ran.symm.trans g.ran)).1
    have hR := rams_number hm hi hA hAn hn hb hp
    obtain ⟨rs, hrs, hlen⟩ := pyLoop_ok (w := w) (ramsOf n A o.completeAddressing : Int) (xs.map .vec) (by
      intro x hx
      obtain ⟨i, hi', rfl⟩ := List.mem_map.mp hx
      obtain ⟨ls, hls⟩ := hcl [.vec i] (fun y hy => by rw [List.mem_singleton.mp hy]; exact hv i hi')
      simp only [Wisard.classify] at hls
      obtain ⟨s, hs, _⟩ := bind_eq_ok hls
      exact ⟨s, hs⟩)
    have hpy : PyOut.pyClassify w (xs.map .vec) = .ok rs := by
      cases xs with
      | nil => exact absurd rfl hne
      | cons i xs =>
        have hi' := (hv i (by simp)).1
        simp only [Image.size] at hi'
        have e1 : w.addressSize = A := by rw [show w = _ from hplay.symm]; exact hconst.1
        have e2 : w.opts = o := by rw [show w = _ from hplay.symm]; exact hconst.2.1
        simp only [List.map_cons] at hrs ⊢
        simp only [PyOut.pyClassify, Image.size, hi', e1, e2, hR, Except.bind_ok]
        exact hrs
    obtain ⟨ns, hns, _⟩ := C147_labels_come_back w _ rs hpy (fun l hl => (hkeys l hl).of)
    exact ⟨rs, ns, (C145_wisard_classify L w [x] _).mpr (.inl ⟨x, xs, rfl, hx, by rw [hpy]⟩), by simpa using hlen, hns⟩
  · intro it fs fs'
    obtain ⟨t, j, ht, hj, hload⟩ := C99_wisard ft (A := A) (o := o) ⟨⟨by omega, by omega⟩, hbI, hcI, by simp [hi]⟩ parts.flatten
      (fun l d hd' => (hsav l d (by rw [hplay] at hd'; exact hd')).1) (fun l hl => hkeys l (by rw [hplay] at hl; exact hl)) it fs fs'
    rw [hplay] at ht hload
    obtain ⟨cs, hcs⟩ := (utf8_value hj).of
    obtain ⟨w', h5, h6⟩ := hload t ⟨[], t, [], by simp, by simp [Ws], hj, by simp [Ws]⟩
    refine ⟨cs, w', ?_, ?_, ?_⟩
    · unfold Wisard.pyJson
      rw [(C145_json L [] (false, [])).mpr (.inl ⟨rfl, rfl⟩)]
      dsimp only
      rw [ht]
      dsimp only
      rw [decode_of hcs]
    · exact (C145_wisard L ft fs' [.str cs] [] _).mpr (.inl ⟨_, t, rfl, rfl, .str hcs, by rw [h5]⟩)
    · intro ops _
      exact h6 ops fun op _ => .inr (by rw [hm]; rfl)


/-! A program that meets the conditions: `w = Wisard(2)`, `w.train([[1, 0, 1, 1], [0, 0, 1, 0]], ["é", "b"])`,
`w.leaveOneOut([1, 0, 1, 1], "é")`. -/

/-- An installed library. -/
def exPy : PyLib := ⟨id, fun i => some i, true⟩

/-- The calls. -/
def exCalls : List PyCall :=
  [.train (fun _ => ⟨Rnd.id, true⟩) [.list [.list [.int 1, .int 0, .int 1, .bool true], .list [.int 0, .int 0, .int 1, .int 0]],
    .list [.str [233], .str [98]]],
   .leaveOneOut [.list [.int 1, .int 0, .int 1, .int 1], .str [233]]]

theorem ex_images : PyImages (.list [.list [.int 1, .int 0, .int 1, .bool true], .list [.int 0, .int 0, .int 1, .int 0]])
    [[1, 0, 1, 1], [0, 0, 1, 0]] :=
  (images_ok (L := exPy)).mp rfl

theorem ex_texts : PyTexts (.list [.str [233], .str [98]]) [[0xC3, 0xA9], [0x62]] := (texts_ok (L := exPy)).mp rfl

theorem ex_utf8 : Utf8 [0xC3, 0xA9] ∧ Utf8 [0x62] :=
  ⟨(encode_iff.mp (show encode [233] = some _ by decide +kernel)).utf8, (encode_iff.mp (show encode [98] = some _ by decide +kernel)).utf8⟩

theorem ex_good : List.Forall₂ (GoodCall 4 2) exCalls [2, 1] := by
  refine .cons ⟨.lists ex_images ex_texts rfl rfl, fun _ _ _ => by decide, fun i hi => ?_⟩
    (.cons ⟨.leave ((image_ok (L := exPy)).mp rfl) (.str (encode_iff.mp (show encode [233] = some [0xC3, 0xA9] by decide +kernel))),
      fun _ _ h => (by cases h), fun i hi => ?_⟩ .nil)
  · match i, hi with
    | 0, _ => exact ⟨_, .lists ex_images ex_texts rfl rfl, example_valid.1, ex_utf8.1⟩
    | 1, _ => exact ⟨_, .lists ex_images ex_texts rfl rfl, example_valid.2, ex_utf8.2⟩
  · match i, hi with
    | 0, _ => exact ⟨_, .leave ((image_ok (L := exPy)).mp rfl) (.str (encode_iff.mp (show encode [233] = some [0xC3, 0xA9] by decide +kernel))),
        example_valid.1, ex_utf8.1⟩

example (ft : FloatText) (fs : Fs) : ∃ w0, Wisard.py exPy ft fs [.int (2 : Nat)] [] = some (.ok w0) ∧ w0.opts.mapping = [] ∧ w0.opts.indexes = [] ∧
    2 ≤ w0.opts.base ∧ w0.opts.base ^ 2 < 2 ^ 63 ∧ w0.opts.confidence ≤ ramsOf 4 2 w0.opts.completeAddressing ∧
    List.Forall₂ (GoodCall 4 w0.opts.base) exCalls [2, 1] ∧
    ramsOf 4 2 w0.opts.completeAddressing * (16 * ([2, 1] : List Nat).sum + 1) ≤ 2147483648 :=
  ⟨Wisard.create 2 {}, rfl, rfl, rfl, by decide, by decide, by decide, ex_good, by decide⟩

end Wis
