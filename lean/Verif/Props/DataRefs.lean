import Verif.Spec.DataRefs
/-!
# C183: what a data set returned stays what it was

Plan: a simulation between the memory of Model/DataRefs and the values of Spec/DataRefs: every live data set has an array of its own with
its inputs, every reference that is not outdated points into the array of its data set. Then the program that keeps a reference over
`k` more calls of `add` is followed for every `k`.
-/

namespace Wis

open Spec

namespace DMem

/-- The memory represents these values. -/
structure Sim (m : DMem) (w : DWorld) : Prop where
  inputs : m.inputs = w.inputs
  len : m.sets.length = w.sets.length
  live : ∀ (d : Nat) (h : HDataSet), m.sets[d]? = some (some h) →
    ∃ D : DataSet, w.sets[d]? = some (some D) ∧ m.bufs[h.buf]? = some (some D.data) ∧ h.labels = D.labels
  dead : ∀ d : Nat, m.sets[d]? = some none → w.sets[d]? = some none
  apart : ∀ (d d' : Nat) (h h' : HDataSet), m.sets[d]? = some (some h) → m.sets[d']? = some (some h') → h.buf = h'.buf → d = d'
  rlen : m.refs.length = w.refs.length
  refs : ∀ r buf i d j : Nat, m.refs[r]? = some (buf, i) → w.refs[r]? = some (d, j, true) →
    i = j ∧ ∃ h : HDataSet, m.sets[d]? = some (some h) ∧ h.buf = buf

theorem sim_empty : Sim {} {} := by
  constructor <;> intros <;> simp_all

variable {m : DMem} {w : DWorld}

/-- A variable holds the same data set, or neither can be used. -/
theorem Sim.data (S : Sim m w) (d : Nat) :
    (∃ (h : HDataSet) (D : DataSet), m.sets[d]? = some (some h) ∧ w.sets[d]? = some (some D) ∧ m.bufs[h.buf]? = some (some D.data) ∧
      h.labels = D.labels ∧ m.dataOf d = .ok (h, D.data) ∧ w.setOf d = .ok D) ∨
    (m.dataOf d = .error (.ub .uninitialised) ∧ w.setOf d = .error (.ub .uninitialised)) := by
  rcases hs : m.sets[d]? with _ | _ | h
  · right
    have : w.sets[d]? = none := by rw [List.getElem?_eq_none_iff] at hs ⊢; have := S.len; omega
    simp [dataOf, hs, DWorld.setOf, this]
  · right
    simp [dataOf, hs, DWorld.setOf, S.dead d hs]
  · left
    obtain ⟨D, h1, h2, h3⟩ := S.live d h hs
    exact ⟨h, D, rfl, h1, h2, h3, by simp [dataOf, hs, h2], by simp [DWorld.setOf, h1]⟩

theorem element_eq (D : DataSet) (i : Int) : element D.data i = D.get i := rfl

theorem get_nat {D : DataSet} {i : Nat} : D.get (i : Int) = match D.data[i]? with
    | some b => .ok b
    | none => .error (.ub .outOfBounds) := by
  simp only [DataSet.get, show ¬ ((i : Int) < 0) by omega, if_false, Int.toNat_natCast]
  cases D.data[i]? <;> rfl

/-- An argument that is not outdated has the value it should have. -/
theorem Sim.deref (S : Sim m w) (a : InputArg) (ha : w.current a) : m.deref a = w.value a := by
  cases a with
  | obj v =>
    simp only [DMem.deref, DWorld.value, S.inputs]
    cases w.inputs[v]? <;> rfl
  | ref r =>
    rcases hr : m.refs[r]? with _ | ⟨buf, i⟩
    · have : w.refs[r]? = none := by rw [List.getElem?_eq_none_iff] at hr ⊢; have := S.rlen; omega
      simp [DMem.deref, DWorld.value, hr, this]
    · rcases hw : w.refs[r]? with _ | ⟨d, j, ok⟩
      · exfalso
        rw [List.getElem?_eq_none_iff] at hw
        obtain ⟨hlt, _⟩ := List.getElem?_eq_some_iff.mp hr
        have := S.rlen
        omega
      · have hok : ok = true := ha d j ok hw
        subst hok
        obtain ⟨rfl, h, hs, rfl⟩ := S.refs r buf i d j hr hw
        obtain ⟨D, h1, h2, _⟩ := S.live d h hs
        simp only [DMem.deref, DWorld.value, hr, hw, DWorld.setOf, h1, h2, get_nat]
        cases D.data[i]? <;> rfl

/-- Neither the references nor the arrays of other data sets are touched by `push_back`. -/
theorem Sim.push (S : Sim m w) (im : VecImpl) {d : Nat} {h : HDataSet} {D : DataSet} (hs : m.sets[d]? = some (some h))
    (hw : w.sets[d]? = some (some D)) (hb : m.bufs[h.buf]? = some (some D.data)) (x : BinInput) (label : Str) (hl : h.labels = D.labels) :
    Sim (m.pushBack im d h D.data x (if label.length > 0 then DataSet.setLabel h.labels D.data.length label else h.labels))
      { w with sets := w.sets.set d (some (D.add x label)), refs := DWorld.outdate d w.refs } := by
  have hdl : d < m.sets.length := (List.getElem?_eq_some_iff.mp hs).1
  have hdw : d < w.sets.length := (List.getElem?_eq_some_iff.mp hw).1
  have hbl : h.buf < m.bufs.length := (List.getElem?_eq_some_iff.mp hb).1
  have hold : ∀ r buf i e j : Nat, m.refs[r]? = some (buf, i) → (DWorld.outdate d w.refs)[r]? = some (e, j, true) →
      e ≠ d ∧ i = j ∧ ∃ h : HDataSet, m.sets[e]? = some (some h) ∧ h.buf = buf := by
    intro r buf i e j h1 h2
    simp only [DWorld.outdate, List.getElem?_map, Option.map_eq_some_iff] at h2
    obtain ⟨⟨e', j', ok⟩, h3, h4⟩ := h2
    simp only [Prod.mk.injEq, Bool.and_eq_true, decide_eq_true_eq] at h4
    obtain ⟨rfl, rfl, rfl, h5⟩ := h4
    exact ⟨h5, S.refs r buf i e' j' h1 h3⟩
  unfold pushBack
  split
  · constructor
    · exact S.inputs
    · simpa using S.len
    · intro e h' he
      by_cases hed : e = d
      · subst hed
        rw [List.getElem?_set_self hdl] at he
        injection he with he; injection he with he; subst he
        exact ⟨_, List.getElem?_set_self hdw, List.getElem?_set_self hbl, by simp only [DataSet.add, hl]⟩
      · rw [List.getElem?_set_ne (Ne.symm hed)] at he
        obtain ⟨D', h1, h2, h3⟩ := S.live e h' he
        refine ⟨D', ?_, ?_, h3⟩
        · simp only [List.getElem?_set_ne (Ne.symm hed), h1]
        · have : h.buf ≠ h'.buf := fun hh => hed (S.apart d e h h' hs he hh).symm
          simp only [List.getElem?_set_ne this, h2]
    · intro e he
      by_cases hed : e = d
      · subst hed
        rw [List.getElem?_set_self hdl] at he
        simp at he
      · rw [List.getElem?_set_ne (Ne.symm hed)] at he
        simp only [List.getElem?_set_ne (Ne.symm hed), S.dead e he]
    · intro e e' g g' he he' hg
      have key : ∀ (e : Nat) (g : HDataSet), (m.sets.set d (some { h with labels := (if label.length > 0 then DataSet.setLabel h.labels D.data.length label
          else h.labels) }))[e]? = some (some g) → ∃ g0 : HDataSet, m.sets[e]? = some (some g0) ∧ g0.buf = g.buf := by
        intro e g he
        by_cases hed : e = d
        · subst hed
          rw [List.getElem?_set_self hdl] at he
          injection he with he; injection he with he; subst he
          exact ⟨h, hs, rfl⟩
        · rw [List.getElem?_set_ne (Ne.symm hed)] at he
          exact ⟨g, he, rfl⟩
      obtain ⟨g0, h1, h2⟩ := key e g he
      obtain ⟨g1, h3, h4⟩ := key e' g' he'
      exact S.apart e e' g0 g1 h1 h3 (by rw [h2, h4, hg])
    · simpa [DWorld.outdate] using S.rlen
    · intro r buf i e j h1 h2
      obtain ⟨hne, hij, g, hg, hgb⟩ := hold r buf i e j h1 h2
      exact ⟨hij, g, by simp only [List.getElem?_set_ne (Ne.symm hne), hg], hgb⟩
  · have hlt : ∀ (e : Nat) (g : HDataSet), m.sets[e]? = some (some g) → g.buf < m.bufs.length := by
      intro e g he
      obtain ⟨D', _, h2, _⟩ := S.live e g he
      exact (List.getElem?_eq_some_iff.mp h2).1
    constructor
    · exact S.inputs
    · simpa using S.len
    · intro e h' he
      by_cases hed : e = d
      · subst hed
        rw [List.getElem?_set_self hdl] at he
        injection he with he; injection he with he; subst he
        refine ⟨_, List.getElem?_set_self hdw, ?_, by simp only [DataSet.add, hl]⟩
        simp [DataSet.add]
      · rw [List.getElem?_set_ne (Ne.symm hed)] at he
        obtain ⟨D', h1, h2, h3⟩ := S.live e h' he
        refine ⟨D', ?_, ?_, h3⟩
        · simp only [List.getElem?_set_ne (Ne.symm hed), h1]
        · have : h.buf ≠ h'.buf := fun hh => hed (S.apart d e h h' hs he hh).symm
          rw [List.getElem?_append_left (by simpa using hlt e h' he), List.getElem?_set_ne this, h2]
    · intro e he
      by_cases hed : e = d
      · subst hed
        rw [List.getElem?_set_self hdl] at he
        simp at he
      · rw [List.getElem?_set_ne (Ne.symm hed)] at he
        simp only [List.getElem?_set_ne (Ne.symm hed), S.dead e he]
    · intro e e' g g' he he' hg
      by_cases hed : e = d <;> by_cases hed' : e' = d
      · rw [hed, hed']
      · subst hed
        rw [List.getElem?_set_self hdl] at he
        injection he with he; injection he with he; subst he
        rw [List.getElem?_set_ne (Ne.symm hed')] at he'
        have := hlt e' g' he'
        dsimp only at hg
        omega
      · subst hed'
        rw [List.getElem?_set_self hdl] at he'
        injection he' with he'; injection he' with he'; subst he'
        rw [List.getElem?_set_ne (Ne.symm hed)] at he
        have := hlt e g he
        dsimp only at hg
        omega
      · rw [List.getElem?_set_ne (Ne.symm hed)] at he
        rw [List.getElem?_set_ne (Ne.symm hed')] at he'
        exact S.apart e e' g g' he he' hg
    · simpa [DWorld.outdate] using S.rlen
    · intro r buf i e j h1 h2
      obtain ⟨hne, hij, g, hg, hgb⟩ := hold r buf i e j h1 h2
      exact ⟨hij, g, by simp only [List.getElem?_set_ne (Ne.symm hne), hg], hgb⟩

theorem Sim.inputs_change (S : Sim m w) (l : List BinInput) : Sim { m with inputs := l } { w with inputs := l } :=
  ⟨rfl, S.len, S.live, S.dead, S.apart, S.rlen, S.refs⟩

/-- A new data set with inputs `xs`. -/
theorem Sim.new (S : Sim m w) (D : DataSet) (cap : Nat) :
    Sim { m with bufs := m.bufs ++ [some D.data], sets := m.sets ++ [some ⟨m.bufs.length, cap, D.labels⟩] }
      { w with sets := w.sets ++ [some D] } := by
  have hlt : ∀ (e : Nat) (g : HDataSet), m.sets[e]? = some (some g) → g.buf < m.bufs.length := by
    intro e g he
    obtain ⟨D', _, h2, _⟩ := S.live e g he
    exact (List.getElem?_eq_some_iff.mp h2).1
  have split : ∀ (e : Nat) (o : Option HDataSet), (m.sets ++ [some ⟨m.bufs.length, cap, D.labels⟩])[e]? = some o →
      (m.sets[e]? = some o ∧ e < m.sets.length) ∨ (e = m.sets.length ∧ o = some ⟨m.bufs.length, cap, D.labels⟩) := by
    intro e o he
    by_cases h1 : e < m.sets.length
    · rw [List.getElem?_append_left h1] at he
      exact Or.inl ⟨he, h1⟩
    · rw [List.getElem?_append_right (by omega)] at he
      obtain ⟨h2, h3⟩ := List.getElem?_eq_some_iff.mp he
      simp only [List.length_singleton] at h2
      have : e - m.sets.length = 0 := by omega
      simp only [this, List.getElem_singleton] at h3
      exact Or.inr ⟨by omega, h3.symm⟩
  constructor
  · exact S.inputs
  · simp [S.len]
  · intro e g he
    rcases split e _ he with ⟨h1, h2⟩ | ⟨rfl, h2⟩
    · obtain ⟨D', h3, h4, h5⟩ := S.live e g h1
      exact ⟨D', by dsimp only; rw [List.getElem?_append_left (by rw [← S.len]; exact h2), h3],
        by dsimp only; rw [List.getElem?_append_left (hlt e g h1), h4], h5⟩
    · injection h2 with h2; subst h2
      exact ⟨D, by simp [S.len], by simp, rfl⟩
  · intro e he
    rcases split e _ he with ⟨h1, h2⟩ | ⟨rfl, h2⟩
    · dsimp only
      rw [List.getElem?_append_left (by rw [← S.len]; exact h2), S.dead e h1]
    · simp at h2
  · intro e e' g g' he he' hg
    rcases split e _ he with ⟨h1, h2⟩ | ⟨rfl, h2⟩ <;> rcases split e' _ he' with ⟨h3, h4⟩ | ⟨rfl, h4⟩
    · exact S.apart e e' g g' h1 h3 hg
    · injection h4 with h4; subst h4
      have := hlt e g h1
      dsimp only at hg; omega
    · injection h2 with h2; subst h2
      have := hlt e' g' h3
      dsimp only at hg; omega
    · rfl
  · exact S.rlen
  · intro r buf i e j h1 h2
    obtain ⟨hij, g, hg, hgb⟩ := S.refs r buf i e j h1 h2
    exact ⟨hij, g, by dsimp only; rw [List.getElem?_append_left (List.getElem?_eq_some_iff.mp hg).1, hg], hgb⟩

/-- The end of the life of a data set. -/
theorem Sim.drop (S : Sim m w) {d : Nat} {h : HDataSet} (hs : m.sets[d]? = some (some h)) (hw : d < w.sets.length) :
    Sim { m with bufs := m.bufs.set h.buf none, sets := m.sets.set d none }
      { w with sets := w.sets.set d none, refs := DWorld.outdate d w.refs } := by
  have hdl : d < m.sets.length := (List.getElem?_eq_some_iff.mp hs).1
  have other : ∀ (e : Nat) (g : HDataSet), (m.sets.set d none)[e]? = some (some g) → e ≠ d ∧ m.sets[e]? = some (some g) := by
    intro e g he
    by_cases hed : e = d
    · subst hed
      rw [List.getElem?_set_self hdl] at he
      simp at he
    · rw [List.getElem?_set_ne (Ne.symm hed)] at he
      exact ⟨hed, he⟩
  constructor
  · exact S.inputs
  · simpa using S.len
  · intro e g he
    obtain ⟨hed, he⟩ := other e g he
    obtain ⟨D', h1, h2, h3⟩ := S.live e g he
    refine ⟨D', ?_, ?_, h3⟩
    · simp only [List.getElem?_set_ne (Ne.symm hed), h1]
    · have : h.buf ≠ g.buf := fun hh => hed (S.apart d e h g hs he hh).symm
      simp only [List.getElem?_set_ne this, h2]
  · intro e he
    by_cases hed : e = d
    · subst hed
      exact List.getElem?_set_self hw
    · dsimp only at he ⊢
      rw [List.getElem?_set_ne (Ne.symm hed)] at he ⊢
      exact S.dead e he
  · intro e e' g g' he he' hg
    exact S.apart e e' g g' (other e g he).2 (other e' g' he').2 hg
  · simpa [DWorld.outdate] using S.rlen
  · intro r buf i e j h1 h2
    simp only [DWorld.outdate, List.getElem?_map, Option.map_eq_some_iff] at h2
    obtain ⟨⟨e', j', ok⟩, h3, h4⟩ := h2
    simp only [Prod.mk.injEq, Bool.and_eq_true, decide_eq_true_eq] at h4
    obtain ⟨rfl, rfl, rfl, h5⟩ := h4
    obtain ⟨hij, g, hg, hgb⟩ := S.refs r buf i e' j' h1 h3
    exact ⟨hij, g, by dsimp only; rw [List.getElem?_set_ne (Ne.symm h5), hg], hgb⟩

/-- One statement does what it should and the memory represents the new values. -/
theorem Sim.step (S : Sim m w) (im : VecImpl) (c : DCall) (hc : match c with
      | .add _ a _ => w.current a
      | .copyInput a => w.current a
      | .pixel a _ => w.current a
      | _ => True) : (m.step im c).2 = (w.step c).2 ∧ Sim (m.step im c).1 (w.step c).1 := by
  cases c with
  | newSet => exact ⟨rfl, S.new {} 0⟩
  | newInput b =>
    refine ⟨rfl, ?_⟩
    simp only [DMem.step, DWorld.step, S.inputs]
    exact S.inputs_change _
  | setPixel v i x =>
    simp only [DMem.step, DWorld.step, S.inputs]
    cases w.inputs[v]? with
    | none => exact ⟨rfl, S⟩
    | some b => exact ⟨rfl, S.inputs_change _⟩
  | add d a label =>
    have hd := S.deref a hc
    simp only [DMem.step, DWorld.step, hd]
    rcases S.data d with ⟨h, D, h1, h2, h3, h4, h5, h6⟩ | ⟨h1, h2⟩
    · rw [h5, h6]
      cases w.value a with
      | error e => exact ⟨rfl, S⟩
      | ok x => exact ⟨rfl, S.push im h1 h2 h3 x label h4⟩
    · rw [h1, h2]
      exact ⟨rfl, S⟩
  | get d i =>
    simp only [DMem.step, DWorld.step]
    rcases S.data d with ⟨h, D, h1, h2, h3, h4, h5, h6⟩ | ⟨h1, h2⟩
    · rw [h5, h6]
      simp only [Except.bind, element_eq]
      cases D.get i with
      | error e => exact ⟨rfl, S⟩
      | ok b =>
        refine ⟨rfl, S.inputs, S.len, S.live, S.dead, S.apart, by simp [S.rlen], ?_⟩
        intro r buf k e j hr hw
        by_cases hlt : r < m.refs.length
        · rw [List.getElem?_append_left hlt] at hr
          rw [List.getElem?_append_left (by rw [← S.rlen]; exact hlt)] at hw
          exact S.refs r buf k e j hr hw
        · have hr' := (List.getElem?_eq_some_iff.mp hr).1
          simp only [List.length_append, List.length_singleton] at hr'
          have : r = m.refs.length := by omega
          subst this
          simp only [List.getElem?_concat_length] at hr
          rw [S.rlen] at hw
          simp only [List.getElem?_concat_length] at hw
          simp only [Option.some.injEq, Prod.mk.injEq] at hr hw
          exact ⟨hr.2.symm.trans hw.2.1, h, hw.1 ▸ h1, hr.1⟩
    · rw [h1, h2]
      exact ⟨rfl, S⟩
  | getCopy d i =>
    simp only [DMem.step, DWorld.step]
    rcases S.data d with ⟨h, D, h1, h2, h3, h4, h5, h6⟩ | ⟨h1, h2⟩
    · rw [h5, h6]
      simp only [Except.bind, element_eq]
      cases D.get i with
      | error e => exact ⟨rfl, S⟩
      | ok b =>
        simp only [S.inputs]
        exact ⟨trivial, S.inputs_change _⟩
    · rw [h1, h2]
      exact ⟨rfl, S⟩
  | copyInput a =>
    have hd := S.deref a hc
    simp only [DMem.step, DWorld.step, hd, S.inputs]
    cases w.value a with
    | error e => exact ⟨rfl, S⟩
    | ok b => exact ⟨rfl, S.inputs_change _⟩
  | pixel a i =>
    have hd := S.deref a hc
    simp only [DMem.step, DWorld.step, hd]
    cases w.value a with
    | error e => exact ⟨rfl, S⟩
    | ok b => exact ⟨rfl, S⟩
  | size d =>
    simp only [DMem.step, DWorld.step]
    rcases S.data d with ⟨h, D, h1, h2, h3, h4, h5, h6⟩ | ⟨h1, h2⟩
    · rw [h5, h6]; exact ⟨rfl, S⟩
    · rw [h1, h2]; exact ⟨rfl, S⟩
  | label d i =>
    simp only [DMem.step, DWorld.step]
    rcases S.data d with ⟨h, D, h1, h2, h3, h4, h5, h6⟩ | ⟨h1, h2⟩
    · rw [h5, h6]; simp only [h4]; exact ⟨rfl, S⟩
    · rw [h1, h2]; exact ⟨rfl, S⟩
  | copySet d =>
    simp only [DMem.step, DWorld.step]
    rcases S.data d with ⟨h, D, h1, h2, h3, h4, h5, h6⟩ | ⟨h1, h2⟩
    · rw [h5, h6]; simp only [h4]; exact ⟨trivial, S.new D _⟩
    · rw [h1, h2]; exact ⟨rfl, S⟩
  | drop d =>
    simp only [DMem.step, DWorld.step]
    rcases S.data d with ⟨h, D, h1, h2, h3, h4, h5, h6⟩ | ⟨h1, h2⟩
    · rw [h5, h6]; exact ⟨rfl, S.drop h1 (List.getElem?_eq_some_iff.mp h2).1⟩
    · rw [h1, h2]; exact ⟨rfl, S⟩

theorem Sim.run (im : VecImpl) : ∀ (cs : List DCall) {m : DMem} {w : DWorld}, Sim m w → w.Careful cs → m.run im cs = w.run cs
  | [], _, _, _, _ => rfl
  | c :: cs, m, w, S, hc => by
    obtain ⟨h1, h2⟩ := S.step im c hc.1
    have ih := Sim.run im cs h2 hc.2
    simp only [DMem.run, DWorld.run, h1, ih]
    rcases (w.step c).2 with (_ | _) | _ <;> rfl

end DMem

theorem inPython_careful : ∀ (cs : List DCall) (w : DWorld), (∀ c ∈ cs, InPython c) → w.Careful cs
  | [], _, _ => trivial
  | c :: cs, w, h => by
    refine ⟨?_, inPython_careful cs _ fun c hc => h c (List.mem_cons_of_mem _ hc)⟩
    have := h c List.mem_cons_self
    cases c <;> simp_all [InPython] <;> (rename_i a _; cases a <;> simp_all [DWorld.current])

/-- **C183**, what holds: whatever the implementation of `std::vector`, a program that uses no reference after its data set was
changed or destroyed gets from every call what it would get if data sets and inputs were values and references stood for inputs
of data sets; adding an input of a data set to the same data set is included. Missing: references kept over an `add`, for which
it is false (`C183_window`). -/
theorem C183_careful_partial (im : VecImpl) (program : List DCall) (h : DWorld.Careful {} program) :
    DMem.run im {} program = DWorld.run {} program := DMem.sim_empty.run im program h

/-- **C183 in Python**: no Python program can tell data sets and inputs from values. -/
theorem C183_python (im : VecImpl) (program : List DCall) (h : ∀ c ∈ program, InPython c) :
    DMem.run im {} program = DWorld.run {} program := C183_careful_partial im program (inPython_careful program {} h)

/-! ## A reference kept over calls of `add` -/

/-- `DataSet d; BinInput v(…); d.add(v); const BinInput& r = d.get(0);`, then `k` times `d.add(v);`, then `r.get(i)`. -/
def keepProgram (b : BinInput) (k i : Nat) : List DCall :=
  [.newSet, .newInput b, .add 0 (.obj 0) [], .get 0 0] ++ List.replicate k (.add 0 (.obj 0) []) ++ [.pixel (.ref 0) i]

namespace DMem

theorem run_one (im : VecImpl) (m : DMem) (c : DCall) : m.run im [c] = [(m.step im c).2] := by
  simp only [DMem.run]
  rcases (m.step im c).2 with (_ | _) | _ <;> rfl

theorem run_ok (im : VecImpl) (m : DMem) (c : DCall) (cs : List DCall) (h : (m.step im c).2 = .ok .nothing) :
    m.run im (c :: cs) = .ok .nothing :: (m.step im c).1.run im cs := by
  simp only [DMem.run, h]

/-- The memory while the array still has room. -/
def roomy (im : VecImpl) (b : BinInput) (n : Nat) : DMem := ⟨[none, some (List.replicate n b)], [some ⟨1, im.grow 0, []⟩], [b], [(1, 0)]⟩

/-- The memory after the array was given back. -/
def Gone (b : BinInput) (m : DMem) : Prop :=
  ∃ (h : HDataSet) (xs : List BinInput), m.sets = [some h] ∧ m.bufs[h.buf]? = some (some xs) ∧ h.buf ≠ 1 ∧ m.bufs[1]? = some none ∧
    m.refs = [(1, 0)] ∧ m.inputs = [b]

theorem gone_add (im : VecImpl) (b : BinInput) (m : DMem) (hm : Gone b m) :
    (m.step im (.add 0 (.obj 0) [])).2 = .ok .nothing ∧ Gone b (m.step im (.add 0 (.obj 0) [])).1 := by
  obtain ⟨h, xs, h1, h2, h3, h4, h5, h6⟩ := hm
  have hd : m.dataOf 0 = .ok (h, xs) := by simp [dataOf, h1, h2]
  have ha : m.deref (.obj 0) = .ok b := by simp [deref, h6]
  have hl : h.buf < m.bufs.length := (List.getElem?_eq_some_iff.mp h2).1
  have hl1 : 1 < m.bufs.length := (List.getElem?_eq_some_iff.mp h4).1
  simp only [step, hd, ha, pushBack]
  refine ⟨trivial, ?_⟩
  split
  · exact ⟨_, xs ++ [b], by simp [h1], List.getElem?_set_self hl, h3, by dsimp only; rw [List.getElem?_set_ne h3, h4], h5, h6⟩
  · refine ⟨_, xs ++ [b], by simp [h1]; rfl, by simp, by dsimp only; omega, ?_, h5, h6⟩
    dsimp only
    rw [List.getElem?_append_left (by simpa using hl1), List.getElem?_set_ne h3, h4]

theorem gone_run (im : VecImpl) (b : BinInput) (i : Nat) : ∀ (k : Nat) (m : DMem), Gone b m →
    m.run im (List.replicate k (.add 0 (.obj 0) []) ++ [.pixel (.ref 0) i]) = List.replicate k (.ok .nothing) ++ [.error (.ub .outOfBounds)]
  | 0, m, hm => by
    obtain ⟨h, xs, h1, h2, h3, h4, h5, h6⟩ := hm
    simp only [List.replicate_zero, List.nil_append, run_one, step, deref, h5]
    simp [h4]
  | k + 1, m, hm => by
    obtain ⟨h1, h2⟩ := gone_add im b m hm
    rw [List.replicate_succ, List.cons_append, run_ok im m _ _ h1, gone_run im b i k _ h2]
    rfl

theorem roomy_run (im : VecImpl) (b : BinInput) (i : Nat) : ∀ (k n : Nat), 1 ≤ n → n ≤ im.grow 0 →
    (roomy im b n).run im (List.replicate k (.add 0 (.obj 0) []) ++ [.pixel (.ref 0) i]) =
      List.replicate k (.ok .nothing) ++ [if n + k ≤ im.grow 0 then (b.get i).map .int else .error (.ub .outOfBounds)]
  | 0, n, h1, h2 => by
    obtain ⟨n', rfl⟩ : ∃ n', n = n' + 1 := ⟨n - 1, by omega⟩
    simp only [List.replicate_zero, List.nil_append, run_one, step, deref, roomy]
    simp [List.replicate_succ, h2]
  | k + 1, n, h1, h2 => by
    have hd : (roomy im b n).dataOf 0 = .ok (⟨1, im.grow 0, []⟩, List.replicate n b) := by simp [dataOf, roomy]
    have ha : (roomy im b n).deref (.obj 0) = .ok b := by simp [deref, roomy]
    have hok : ((roomy im b n).step im (.add 0 (.obj 0) [])).2 = .ok .nothing := by simp only [step, hd, ha]
    rw [List.replicate_succ, List.cons_append, run_ok im _ _ _ hok]
    by_cases hlt : n < im.grow 0
    · have : ((roomy im b n).step im (.add 0 (.obj 0) [])).1 = roomy im b (n + 1) := by
        simp only [step, hd, ha, pushBack, List.length_replicate, hlt, if_true]
        simp [roomy, List.replicate_succ']
      rw [this, roomy_run im b i k (n + 1) (by omega) (by omega), show n + 1 + k = n + (k + 1) by omega]
      rfl
    · have : Gone b ((roomy im b n).step im (.add 0 (.obj 0) [])).1 := by
        simp only [step, hd, ha, pushBack, List.length_replicate, hlt, if_false]
        exact ⟨⟨2, im.grow n, []⟩, List.replicate n b ++ [b], by simp [roomy], by simp [roomy], by simp, by simp [roomy], rfl, rfl⟩
      rw [gone_run im b i k _ this, if_neg (by omega)]
      rfl

end DMem

namespace Spec.DWorld

theorem run_ok (w : DWorld) (c : DCall) (cs : List DCall) (h : (w.step c).2 = .ok .nothing) :
    w.run (c :: cs) = .ok .nothing :: (w.step c).1.run cs := by
  simp only [DWorld.run, h]

theorem kept_run (b : BinInput) (i : Nat) : ∀ (k n : Nat) (ok : Bool), 1 ≤ n →
    (DWorld.mk [some ⟨List.replicate n b, []⟩] [b] [(0, 0, ok)]).run (List.replicate k (.add 0 (.obj 0) []) ++ [.pixel (.ref 0) i]) =
      List.replicate k (.ok .nothing) ++ [(b.get i).map .int]
  | 0, n, ok, h1 => by
    obtain ⟨n', rfl⟩ : ∃ n', n = n' + 1 := ⟨n - 1, by omega⟩
    simp only [List.replicate_zero, List.nil_append, DWorld.run]
    have : ((DWorld.mk [some ⟨List.replicate (n' + 1) b, []⟩] [b] [(0, 0, ok)]).step (.pixel (.ref 0) i)).2 = (b.get i).map .int := by
      simp [step, value, setOf, DataSet.get, List.replicate_succ, Except.bind]
    rw [this]
    rcases (b.get i).map DAns.int with (_ | _) | _ <;> rfl
  | k + 1, n, ok, h1 => by
    have hs : (DWorld.mk [some ⟨List.replicate n b, []⟩] [b] [(0, 0, ok)]).step (.add 0 (.obj 0) []) =
        (DWorld.mk [some ⟨List.replicate (n + 1) b, []⟩] [b] [(0, 0, false)], .ok .nothing) := by
      simp [step, value, setOf, DataSet.add, outdate, List.replicate_succ']
    rw [List.replicate_succ, List.cons_append, run_ok _ _ _ (by rw [hs]), hs, kept_run b i k (n + 1) false (by omega)]
    rfl

end Spec.DWorld

/-- **C183 is false** of references kept over calls of `add`: reading one is undefined behaviour as soon as the array had to be
replaced, and before that gives the input. -/
theorem C183_window (im : VecImpl) (b : BinInput) (k i : Nat) :
    DMem.run im {} (keepProgram b k i) = List.replicate (4 + k) (.ok .nothing) ++
      [if 1 + k ≤ im.grow 0 then (b.get i).map .int else .error (.ub .outOfBounds)] ∧
    DWorld.run {} (keepProgram b k i) = List.replicate (4 + k) (.ok .nothing) ++ [(b.get i).map .int] := by
  constructor
  · have hg := im.grow_gt 0
    have := DMem.roomy_run im b i k 1 (by omega) (by omega)
    simp only [keepProgram, List.cons_append, List.nil_append]
    rw [DMem.run_ok im _ _ _ rfl, DMem.run_ok im _ _ _ rfl, DMem.run_ok im _ _ _ rfl, DMem.run_ok im _ _ _ rfl]
    have e : 4 + k = k + 1 + 1 + 1 + 1 := by omega
    rw [e]
    simp only [List.replicate_succ, List.cons_append]
    congr 4
  · have := DWorld.kept_run b i k 1 true (by omega)
    simp only [keepProgram, List.cons_append, List.nil_append]
    rw [DWorld.run_ok _ _ _ rfl, DWorld.run_ok _ _ _ rfl, DWorld.run_ok _ _ _ rfl, DWorld.run_ok _ _ _ rfl]
    have e : 4 + k = k + 1 + 1 + 1 + 1 := by omega
    rw [e]
    simp only [List.replicate_succ, List.cons_append]
    congr 4

/-- With every implementation of `std::vector` some number of calls of `add` makes a kept reference dangle. -/
theorem C183_refuted (im : VecImpl) (b : BinInput) : ∃ k, ∀ i,
    DMem.run im {} (keepProgram b k i) = List.replicate (4 + k) (.ok .nothing) ++ [.error (.ub .outOfBounds)] :=
  ⟨im.grow 0, fun i => by rw [(C183_window im b _ i).1, if_neg (by omega)]⟩

/-- No number of calls shows it everywhere: with some implementation it goes well. -/
theorem C183_unnoticed (b : BinInput) (k : Nat) : ∃ im : VecImpl, ∀ i,
    DMem.run im {} (keepProgram b k i) = DWorld.run {} (keepProgram b k i) :=
  ⟨⟨fun n => n + 1 + k, fun n => by omega, id, fun _ => Nat.le_refl _⟩, fun i => by
    rw [(C183_window _ b k i).1, (C183_window ⟨fun n => n + 1 + k, fun n => by omega, id, fun _ => Nat.le_refl _⟩ b k i).2, if_pos (by dsimp only; omega)]⟩

/-! ## Examples -/

/-- The implementation of libstdc++: the capacity doubles. -/
def exVec : VecImpl := ⟨fun n => if n = 0 then 1 else 2 * n, fun n => by split <;> omega, id, fun _ => Nat.le_refl _⟩

/-- A program that adds an input of a data set to the data set itself, twice, changes the original and asks. -/
def exData : List DCall :=
  [.newSet, .newInput ⟨0, [0b10100000]⟩, .add 0 (.obj 0) b!"a", .get 0 0, .add 0 (.ref 0) b!"b", .get 0 1, .copySet 0, .add 0 (.ref 1) [],
    .setPixel 0 0 0, .pixel (.obj 0) 0, .getCopy 0 2, .pixel (.obj 1) 0, .get 1 0, .pixel (.ref 2) 2, .size 0, .size 1, .label 0 1, .drop 0, .label 1 1]

/-- The hypothesis of `C183_careful_partial` is met by a program whose array is replaced twice. -/
example : DWorld.Careful {} exData := by
  simp [DWorld.Careful, exData, DWorld.step, DWorld.current, DWorld.value, DWorld.setOf, DataSet.get, DataSet.add, DWorld.outdate, Except.bind]

example : DMem.run exVec {} exData = [.ok .nothing, .ok .nothing, .ok .nothing, .ok .nothing, .ok .nothing, .ok .nothing, .ok .nothing, .ok .nothing,
    .ok .nothing, .ok (.int 0), .ok .nothing, .ok (.int 1), .ok .nothing, .ok (.int 1), .ok (.nat 3), .ok (.nat 2), .ok (.text b!"b"), .ok .nothing,
    .ok (.text b!"b")] := by decide +kernel

/-- With libstdc++ the first further `add` already makes the reference dangle. -/
example : DMem.run exVec {} (keepProgram ⟨0, [0b10100000]⟩ 1 0) = [.ok .nothing, .ok .nothing, .ok .nothing, .ok .nothing, .ok .nothing,
    .error (.ub .outOfBounds)] := by decide +kernel

/-- The hypothesis of `C183_python`. -/
example : ∀ c ∈ [DCall.newSet, .newInput ⟨0, [0b10100000]⟩, .add 0 (.obj 0) b!"a", .getCopy 0 0, .add 0 (.obj 1) [], .setPixel 1 0 0, .getCopy 0 1,
    .pixel (.obj 2) 0], InPython c := by simp [InPython]

end Wis
