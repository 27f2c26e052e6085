import Verif.Lemmas.Bind
/-!
# C145: a call from Python reaches the library with the values given, or fails without effect
-/

namespace Wis
open Spec PyBind

/-! ## Overload resolution -/

/-- Types whose conversion does not depend on implicit conversions being allowed. -/
def strict (t : CTy) : Bool := t != .bool && t != .float && t != .doubless

theorem load_strict {L : PyLib} {t : CTy} (h : strict t = true) (c : Bool) (x : PyVal) : load L c t x = load L false t x := by
  cases t <;> first | rfl | exact absurd h (by decide) | (cases x <;> rfl)

theorem loadArgs_strict {L : PyLib} (c : Bool) : ∀ {ts : List CTy} (xs : List PyVal), (∀ t ∈ ts, strict t = true) →
    loadArgs L c ts xs = loadArgs L false ts xs := by
  intro ts
  induction ts with
  | nil => intro xs _; cases xs <;> rfl
  | cons t ts ih =>
    intro xs h
    cases xs with
    | nil => rfl
    | cons x xs => simp only [loadArgs, load_strict (h t (by simp)) c, ih xs fun t ht => h t (by simp [ht])]

theorem firstOf_strict {L : PyLib} (c : Bool) {sigs : List (List CTy)} (xs : List PyVal) (h : ∀ ts ∈ sigs, ∀ t ∈ ts, strict t = true) :
    firstOf L c sigs xs = firstOf L false sigs xs := by
  induction sigs with
  | nil => rfl
  | cons ts sigs ih => simp only [firstOf, loadArgs_strict c xs (h ts (by simp)), ih fun t ht => h t (by simp [ht])]

theorem firstOf_cons {L : PyLib} {c : Bool} {ts : List CTy} {sigs : List (List CTy)} {xs : List PyVal} {vs : List CVal} :
    firstOf L c (ts :: sigs) xs = .ok vs ↔ loadArgs L c ts xs = .ok vs ∨ (loadArgs L c ts xs = .no ∧ firstOf L c sigs xs = .ok vs) := by
  simp only [firstOf]
  cases loadArgs L c ts xs <;> simp

theorem dispatch_strict {L : PyLib} {sigs : List (List CTy)} (h : ∀ ts ∈ sigs, ∀ t ∈ ts, strict t = true) {xs : List PyVal} {vs : List CVal} :
    dispatch L sigs xs = some vs ↔ firstOf L false sigs xs = .ok vs := by
  unfold dispatch
  rw [firstOf_strict true xs h]
  cases firstOf L false sigs xs <;> simp

theorem dispatch_iff {L : PyLib} {sigs : List (List CTy)} {xs : List PyVal} {vs : List CVal} :
    dispatch L sigs xs = some vs ↔ firstOf L false sigs xs = .ok vs ∨ (firstOf L false sigs xs = .no ∧ firstOf L true sigs xs = .ok vs) := by
  unfold dispatch
  cases firstOf L false sigs xs <;> cases firstOf L true sigs xs <;> simp

theorem loadArgs_cons {L : PyLib} {c : Bool} {t : CTy} {ts : List CTy} {xs : List PyVal} {vs : List CVal} :
    loadArgs L c (t :: ts) xs = .ok vs ↔ ∃ x ys v ws, xs = x :: ys ∧ vs = v :: ws ∧ load L c t x = .ok v ∧ loadArgs L c ts ys = .ok ws := by
  cases xs with
  | nil => simp [loadArgs]
  | cons x ys =>
    simp only [loadArgs, Load.map_ok, Load.both_ok]
    constructor
    · rintro ⟨p, ⟨h1, h2⟩, rfl⟩
      exact ⟨x, ys, p.1, p.2, rfl, rfl, h1, h2⟩
    · rintro ⟨x', ys', v, ws, he, rfl, h1, h2⟩
      cases he
      exact ⟨(v, ws), ⟨h1, h2⟩, rfl⟩

theorem loadArgs_nil {L : PyLib} {c : Bool} {xs : List PyVal} {vs : List CVal} : loadArgs L c [] xs = .ok vs ↔ xs = [] ∧ vs = [] := by
  cases xs <;> simp [loadArgs, eq_comm]

theorem loadArgs1 {L : PyLib} {c : Bool} {t : CTy} {xs : List PyVal} {vs : List CVal} :
    loadArgs L c [t] xs = .ok vs ↔ ∃ x v, xs = [x] ∧ vs = [v] ∧ load L c t x = .ok v := by
  rw [loadArgs_cons]
  simp only [loadArgs_nil]
  constructor
  · rintro ⟨x, ys, v, ws, rfl, rfl, h, rfl, rfl⟩; exact ⟨x, v, rfl, rfl, h⟩
  · rintro ⟨x, v, rfl, rfl, h⟩; exact ⟨x, [], v, [], rfl, rfl, h, rfl, rfl⟩

theorem loadArgs2 {L : PyLib} {c : Bool} {t u : CTy} {xs : List PyVal} {vs : List CVal} :
    loadArgs L c [t, u] xs = .ok vs ↔ ∃ x y v w, xs = [x, y] ∧ vs = [v, w] ∧ load L c t x = .ok v ∧ load L c u y = .ok w := by
  rw [loadArgs_cons]
  simp only [loadArgs1]
  constructor
  · rintro ⟨x, ys, v, ws, rfl, rfl, h, y, w, rfl, rfl, h2⟩; exact ⟨x, y, v, w, rfl, rfl, h, h2⟩
  · rintro ⟨x, y, v, w, rfl, rfl, h, h2⟩; exact ⟨x, [y], v, [w], rfl, rfl, h, y, w, rfl, rfl, h2⟩

theorem load_binInput {L : PyLib} {c : Bool} {x : PyVal} {v : CVal} : load L c .binInput x = .ok v ↔ ∃ b, x = .binInput b ∧ v = .binInput b := by
  cases x <;> simp [load, eq_comm]

theorem load_dataSet {L : PyLib} {c : Bool} {x : PyVal} {v : CVal} : load L c .dataSet x = .ok v ↔ ∃ d, x = .dataSet d ∧ v = .dataSet d := by
  cases x <;> simp [load, eq_comm]

theorem load_ints {L : PyLib} {c : Bool} {x : PyVal} {v : CVal} : load L c .ints x = .ok v ↔ ∃ i, PyImage x i ∧ v = .ints i := by
  simp only [load, Load.map_ok, image_ok]

theorem load_shorts {L : PyLib} {c : Bool} {x : PyVal} {v : CVal} : load L c .shorts x = .ok v ↔ ∃ i, PyShorts x i ∧ v = .ints i := by
  simp only [load, Load.map_ok, ints_ok (show (-32768 : Int) ≤ 0 by decide) (show (1 : Int) ≤ 32767 by decide)]

theorem load_intss {L : PyLib} {c : Bool} {x : PyVal} {v : CVal} : load L c .intss x = .ok v ↔ ∃ i, PyImages x i ∧ v = .intss i := by
  simp only [load, Load.map_ok, images_ok]

theorem load_strs {L : PyLib} {c : Bool} {x : PyVal} {v : CVal} : load L c .strs x = .ok v ↔ ∃ i, PyTexts x i ∧ v = .strs i := by
  simp only [load, Load.map_ok, texts_ok]

theorem load_str {L : PyLib} {c : Bool} {x : PyVal} {v : CVal} : load L c .str x = .ok v ↔ ∃ i, PyText x i ∧ v = .str i := by
  simp only [load, Load.map_ok, loadStr_ok]

theorem load_labels {L : PyLib} {c : Bool} {x : PyVal} {v : CVal} : load L c .labels x = .ok v ↔ ∃ i, PyLabels x i ∧ v = .labels i := by
  simp only [load, Load.map_ok, labels_ok]

theorem load_int {L : PyLib} {c : Bool} {x : PyVal} {v : CVal} :
    load L c .int x = .ok v ↔ ∃ i, (PyInt x i ∧ -2147483648 ≤ i ∧ i ≤ 2147483647) ∧ v = .int i := by
  simp only [load, Load.map_ok, loadI32_ok]

theorem load_size {L : PyLib} {c : Bool} {x : PyVal} {v : CVal} :
    load L c .size x = .ok v ↔ ∃ i, (PyInt x i ∧ 0 ≤ i ∧ i ≤ 18446744073709551615) ∧ v = .int i := by
  simp only [load, Load.map_ok, loadInt_ok (show (0 : Int) ≤ 0 by decide) (show (1 : Int) ≤ 18446744073709551615 by decide)]

theorem load_float {L : PyLib} {x : PyVal} {v : CVal} : load L true .float x = .ok v ↔ ∃ q, PyNumber L x q ∧ v = .float q := by
  simp only [load, Load.map_ok]
  constructor
  · rintro ⟨a, h, rfl⟩
    exact ⟨_, number_ok.mp (Load.map_ok.mpr ⟨a, h, rfl⟩), rfl⟩
  · rintro ⟨q, h, rfl⟩
    obtain ⟨a, ha, rfl⟩ := Load.map_ok.mp (number_ok.mpr h)
    exact ⟨a, ha, rfl⟩

theorem load_bool {L : PyLib} {x : PyVal} {v : CVal} : load L true .bool x = .ok v ↔ ∃ b, PyBool x b ∧ v = .bool b := by
  simp only [load, Load.map_ok, loadBool_ok]

/-- Types whose conversion never raises an exception of its own. -/
def calm (t : CTy) : Bool := t == .int || t == .size || t == .bool || t == .float || t == .str

theorem Load.map_raised {α β : Type} {f : α → β} {l : Load α} (h : l ≠ .raised) : l.map f ≠ .raised := by
  cases l with
  | no => simp [Load.map]
  | ok => simp [Load.map]
  | raised => exact absurd rfl h

theorem Load.both_raised {α β : Type} {a : Load α} {b : Load β} (h : a ≠ .raised) (h' : b ≠ .raised) : a.both b ≠ .raised := by
  cases a with
  | no => simp [Load.both]
  | ok => exact Load.map_raised h'
  | raised => exact absurd rfl h

theorem load_calm {L : PyLib} {c : Bool} {t : CTy} (x : PyVal) (h : calm t = true) : load L c t x ≠ .raised := by
  cases t <;> first | exact absurd h (by decide) | (simp only [load]; apply Load.map_raised)
  · unfold loadI32 loadInt; split <;> first | (split <;> simp) | simp
  · unfold loadInt; split <;> first | (split <;> simp) | simp
  · unfold loadBool; split <;> first | (split <;> simp) | simp
  · unfold loadDouble; split <;> first | (split <;> first | (split <;> simp) | simp) | simp
  · unfold loadStr; split <;> first | (split <;> simp) | simp

theorem loadArgs_calm {L : PyLib} {c : Bool} : ∀ {ts : List CTy} (xs : List PyVal), (∀ t ∈ ts, calm t = true) → loadArgs L c ts xs ≠ .raised := by
  intro ts
  induction ts with
  | nil => intro xs _; cases xs <;> simp [loadArgs]
  | cons t ts ih =>
    intro xs h
    cases xs with
    | nil => simp [loadArgs]
    | cons x xs => exact Load.map_raised (Load.both_raised (load_calm x (h t (by simp))) (ih xs fun t ht => h t (by simp [ht])))

theorem firstOf_calm {L : PyLib} {c : Bool} {sigs : List (List CTy)} (xs : List PyVal) (h : ∀ ts ∈ sigs, ∀ t ∈ ts, calm t = true) :
    firstOf L c sigs xs ≠ .raised := by
  induction sigs with
  | nil => simp [firstOf]
  | cons ts sigs ih =>
    have h1 := loadArgs_calm (L := L) (c := c) xs (h ts (by simp))
    have h2 := ih fun t ht => h t (by simp [ht])
    simp only [firstOf]
    split
    · exact h2
    · exact h1

/-! ## The overload sets -/

theorem wisardTrain_args {L : PyLib} {args : List PyVal} {v : List CVal} : dispatch L wisardTrainSigs args = some v ↔
    (∃ x y xs ls, args = [x, y] ∧ PyImages x xs ∧ PyTexts y ls ∧ v = [.intss xs, .strs ls]) ∨ (∃ ds, args = [.dataSet ds] ∧ v = [.dataSet ds]) := by
  rw [dispatch_strict (by decide)]
  simp only [wisardTrainSigs, firstOf_cons, loadArgs1, loadArgs2, load_intss, load_strs, load_dataSet]
  constructor
  · rintro (⟨x, y, _, _, rfl, rfl, ⟨xs, h1, rfl⟩, ls, h2, rfl⟩ | ⟨_, ⟨x, _, rfl, rfl, d, rfl, rfl⟩ | ⟨_, h⟩⟩)
    · exact .inl ⟨x, y, xs, ls, rfl, h1, h2, rfl⟩
    · exact .inr ⟨d, rfl, rfl⟩
    · cases h
  · rintro (⟨x, y, xs, ls, rfl, h1, h2, rfl⟩ | ⟨d, rfl, rfl⟩)
    · exact .inl ⟨x, y, _, _, rfl, rfl, ⟨xs, h1, rfl⟩, ls, h2, rfl⟩
    · refine .inr ⟨?_, .inl ⟨_, _, rfl, rfl, d, rfl, rfl⟩⟩
      rfl

theorem wisardClassify_args {L : PyLib} {args : List PyVal} {v : List CVal} : dispatch L wisardClassifySigs args = some v ↔
    (∃ x xs, args = [x] ∧ PyImages x xs ∧ v = [.intss xs]) ∨ (∃ ds, args = [.dataSet ds] ∧ v = [.dataSet ds]) := by
  rw [dispatch_strict (by decide)]
  simp only [wisardClassifySigs, firstOf_cons, loadArgs1, load_intss, load_dataSet]
  constructor
  · rintro (⟨x, _, rfl, rfl, xs, h1, rfl⟩ | ⟨_, ⟨x, _, rfl, rfl, d, rfl, rfl⟩ | ⟨_, h⟩⟩)
    · exact .inl ⟨x, xs, rfl, h1, rfl⟩
    · exact .inr ⟨d, rfl, rfl⟩
    · cases h
  · rintro (⟨x, xs, rfl, h1, rfl⟩ | ⟨d, rfl, rfl⟩)
    · exact .inl ⟨x, _, rfl, rfl, xs, h1, rfl⟩
    · exact .inr ⟨rfl, .inl ⟨_, _, rfl, rfl, d, rfl, rfl⟩⟩

theorem leaveOneOut_args {L : PyLib} {args : List PyVal} {v : List CVal} : dispatch L leaveOneOutSigs args = some v ↔
    ∃ x y i l, args = [x, y] ∧ PyImage x i ∧ PyText y l ∧ v = [.ints i, .str l] := by
  rw [dispatch_strict (by decide)]
  simp only [leaveOneOutSigs, firstOf_cons, loadArgs2, load_ints, load_str]
  constructor
  · rintro (⟨x, y, _, _, rfl, rfl, ⟨xs, h1, rfl⟩, ls, h2, rfl⟩ | ⟨_, h⟩)
    · exact ⟨x, y, xs, ls, rfl, h1, h2, rfl⟩
    · cases h
  · rintro ⟨x, y, xs, ls, rfl, h1, h2, rfl⟩
    exact .inl ⟨x, y, _, _, rfl, rfl, ⟨xs, h1, rfl⟩, ls, h2, rfl⟩

theorem leaveMoreOut_args {L : PyLib} {args : List PyVal} {v : List CVal} : dispatch L leaveMoreOutSigs args = some v ↔
    ∃ x y xs ls, args = [x, y] ∧ PyImages x xs ∧ PyTexts y ls ∧ v = [.intss xs, .strs ls] := by
  rw [dispatch_strict (by decide)]
  simp only [leaveMoreOutSigs, firstOf_cons, loadArgs2, load_intss, load_strs]
  constructor
  · rintro (⟨x, y, _, _, rfl, rfl, ⟨xs, h1, rfl⟩, ls, h2, rfl⟩ | ⟨_, h⟩)
    · exact ⟨x, y, xs, ls, rfl, h1, h2, rfl⟩
    · cases h
  · rintro ⟨x, y, xs, ls, rfl, h1, h2, rfl⟩
    exact .inl ⟨x, y, _, _, rfl, rfl, ⟨xs, h1, rfl⟩, ls, h2, rfl⟩

theorem clusTrain_args {L : PyLib} {args : List PyVal} {v : List CVal} : dispatch L clusTrainSigs args = some v ↔
    (∃ x y xs ls, args = [x, y] ∧ PyImages x xs ∧ PyTexts y ls ∧ v = [.intss xs, .strs ls]) ∨
    (∃ x y xs m, args = [x, y] ∧ PyImages x xs ∧ PyLabels y m ∧ v = [.intss xs, .labels m]) := by
  rw [dispatch_strict (by decide)]
  simp only [clusTrainSigs, firstOf_cons, loadArgs2, load_intss, load_strs, load_labels]
  constructor
  · rintro (⟨x, y, _, _, rfl, rfl, ⟨xs, h1, rfl⟩, ls, h2, rfl⟩ | ⟨_, ⟨x, y, _, _, rfl, rfl, ⟨xs, h1, rfl⟩, ls, h2, rfl⟩ | ⟨_, h⟩⟩)
    · exact .inl ⟨x, y, xs, ls, rfl, h1, h2, rfl⟩
    · exact .inr ⟨x, y, xs, ls, rfl, h1, h2, rfl⟩
    · cases h
  · rintro (⟨x, y, xs, ls, rfl, h1, h2, rfl⟩ | ⟨x, y, xs, m, rfl, h1, h2, rfl⟩)
    · exact .inl ⟨x, y, _, _, rfl, rfl, ⟨xs, h1, rfl⟩, ls, h2, rfl⟩
    · refine .inr ⟨?_, .inl ⟨x, y, _, _, rfl, rfl, ⟨xs, h1, rfl⟩, m, h2, rfl⟩⟩
      obtain ⟨kvs, rfl, _⟩ := h2
      simp only [loadArgs, load, images_ok.mpr h1, Load.map, Load.both]
      rfl

theorem clusImages_args {L : PyLib} {args : List PyVal} {v : List CVal} : dispatch L clusImagesSigs args = some v ↔
    ∃ x xs, args = [x] ∧ PyImages x xs ∧ v = [.intss xs] := by
  rw [dispatch_strict (by decide)]
  simp only [clusImagesSigs, firstOf_cons, loadArgs1, load_intss]
  constructor
  · rintro (⟨x, _, rfl, rfl, xs, h1, rfl⟩ | ⟨_, h⟩)
    · exact ⟨x, xs, rfl, h1, rfl⟩
    · cases h
  · rintro ⟨x, xs, rfl, h1, rfl⟩
    exact .inl ⟨x, _, rfl, rfl, xs, h1, rfl⟩

/-- A list of images that is not empty is no image. -/
theorem images_not_image {L : PyLib} {x : PyVal} {xs : List (List Int)} (h : PyImages x xs) (hn : xs ≠ []) :
    loadList L loadI32 x = .no := by
  obtain ⟨ys, rfl, h⟩ := h
  cases h with
  | nil => exact absurd rfl hn
  | cons h1 _ =>
    obtain ⟨zs, rfl, _⟩ := h1
    rfl

theorem images_nil {x : PyVal} : PyImages x [] ↔ x = .list [] := by
  constructor
  · rintro ⟨ys, rfl, h⟩; cases h; rfl
  · rintro rfl; exact ⟨[], rfl, .nil⟩

theorem discTrain_args {L : PyLib} {args : List PyVal} {v : List CVal} : dispatch L discTrainSigs args = some v ↔
    (∃ x i, args = [x] ∧ PyImage x i ∧ v = [.ints i]) ∨
    (∃ b, args = [.binInput b] ∧ L.getitemIsSequence = false ∧ v = [.binInput b]) ∨
    (∃ x xs, args = [x] ∧ PyImages x xs ∧ xs ≠ [] ∧ v = [.intss xs]) := by
  rw [dispatch_strict (by decide)]
  simp only [discTrainSigs, firstOf_cons, loadArgs1, load_ints, load_binInput, load_intss]
  constructor
  · rintro (⟨x, _, rfl, rfl, i, h1, rfl⟩ | ⟨hno, ⟨x, _, rfl, rfl, b, rfl, rfl⟩ | ⟨_, ⟨x, _, rfl, rfl, xs, h1, rfl⟩ | ⟨_, h⟩⟩⟩)
    · exact .inl ⟨x, i, rfl, h1, rfl⟩
    · refine .inr (.inl ⟨b, rfl, ?_, rfl⟩)
      cases hL : L.getitemIsSequence with
      | false => rfl
      | true => simp [loadArgs, load, loadList, hL, Load.map, Load.both] at hno
    · refine .inr (.inr ⟨x, xs, rfl, h1, ?_, rfl⟩)
      rintro rfl
      rw [images_nil] at h1
      subst h1
      cases hno
    · cases h
  · rintro (⟨x, i, rfl, h1, rfl⟩ | ⟨b, rfl, hL, rfl⟩ | ⟨x, xs, rfl, h1, hn, rfl⟩)
    · exact .inl ⟨x, _, rfl, rfl, i, h1, rfl⟩
    · refine .inr ⟨?_, .inl ⟨_, _, rfl, rfl, b, rfl, rfl⟩⟩
      simp [loadArgs, load, loadList, hL, Load.map, Load.both]
    · refine .inr ⟨?_, .inr ⟨?_, .inl ⟨x, _, rfl, rfl, xs, h1, rfl⟩⟩⟩
      · simp only [loadArgs, load, images_not_image h1 hn, Load.map, Load.both]
      · obtain ⟨ys, rfl, _⟩ := h1
        rfl

theorem discClassify_args {L : PyLib} {args : List PyVal} {v : List CVal} : dispatch L discClassifySigs args = some v ↔
    (∃ x i, args = [x] ∧ PyImage x i ∧ v = [.ints i]) ∨
    (∃ b, args = [.binInput b] ∧ L.getitemIsSequence = false ∧ v = [.binInput b]) := by
  rw [dispatch_strict (by decide)]
  simp only [discClassifySigs, firstOf_cons, loadArgs1, load_ints, load_binInput]
  constructor
  · rintro (⟨x, _, rfl, rfl, i, h1, rfl⟩ | ⟨hno, ⟨x, _, rfl, rfl, b, rfl, rfl⟩ | ⟨_, h⟩⟩)
    · exact .inl ⟨x, i, rfl, h1, rfl⟩
    · refine .inr ⟨b, rfl, ?_, rfl⟩
      cases hL : L.getitemIsSequence with
      | false => rfl
      | true => simp [loadArgs, load, loadList, hL, Load.map, Load.both] at hno
    · cases h
  · rintro (⟨x, i, rfl, h1, rfl⟩ | ⟨b, rfl, hL, rfl⟩)
    · exact .inl ⟨x, _, rfl, rfl, i, h1, rfl⟩
    · refine .inr ⟨?_, .inl ⟨_, _, rfl, rfl, b, rfl, rfl⟩⟩
      simp [loadArgs, load, loadList, hL, Load.map, Load.both]

theorem add_args {L : PyLib} {args : List PyVal} {v : List CVal} : dispatch L addSigs args = some v ↔
    (∃ b, args = [.binInput b] ∧ v = [.binInput b]) ∨
    (∃ b y l, args = [.binInput b, y] ∧ PyText y l ∧ v = [.binInput b, .str l]) ∨
    (∃ x i, args = [x] ∧ PyShorts x i ∧ v = [.ints i]) ∨
    (∃ x y i l, args = [x, y] ∧ PyShorts x i ∧ PyText y l ∧ v = [.ints i, .str l]) := by
  rw [dispatch_strict (by decide)]
  simp only [addSigs, firstOf_cons, loadArgs1, loadArgs2, load_shorts, load_binInput, load_str]
  constructor
  · rintro (⟨x, _, rfl, rfl, b, rfl, rfl⟩ | ⟨_, ⟨x, y, _, _, rfl, rfl, ⟨b, rfl, rfl⟩, l, h2, rfl⟩ | ⟨_, ⟨x, _, rfl, rfl, i, h1, rfl⟩ |
      ⟨_, ⟨x, y, _, _, rfl, rfl, ⟨i, h1, rfl⟩, l, h2, rfl⟩ | ⟨_, h⟩⟩⟩⟩)
    · exact .inl ⟨b, rfl, rfl⟩
    · exact .inr (.inl ⟨b, y, l, rfl, h2, rfl⟩)
    · exact .inr (.inr (.inl ⟨x, i, rfl, h1, rfl⟩))
    · exact .inr (.inr (.inr ⟨x, y, i, l, rfl, h1, h2, rfl⟩))
    · cases h
  · rintro (⟨b, rfl, rfl⟩ | ⟨b, y, l, rfl, h2, rfl⟩ | ⟨x, i, rfl, h1, rfl⟩ | ⟨x, y, i, l, rfl, h1, h2, rfl⟩)
    · exact .inl ⟨_, _, rfl, rfl, b, rfl, rfl⟩
    · exact .inr ⟨rfl, .inl ⟨_, y, _, _, rfl, rfl, ⟨b, rfl, rfl⟩, l, h2, rfl⟩⟩
    · refine .inr ⟨?_, .inr ⟨?_, .inl ⟨x, _, rfl, rfl, i, h1, rfl⟩⟩⟩ <;> (obtain ⟨ys, rfl, _⟩ := h1; rfl)
    · refine .inr ⟨?_, .inr ⟨?_, .inr ⟨?_, .inl ⟨x, y, _, _, rfl, rfl, ⟨i, h1, rfl⟩, l, h2, rfl⟩⟩⟩⟩
      · obtain ⟨ys, rfl, _⟩ := h1; rfl
      · obtain ⟨ys, rfl, _⟩ := h1; rfl
      · simp only [loadArgs, load, (ints_ok (L := L) (show (-32768 : Int) ≤ 0 by decide) (show (1 : Int) ≤ 32767 by decide)).mpr h1, Load.map, Load.both]

theorem binInput_args {L : PyLib} {args : List PyVal} {v : List CVal} : dispatch L binInputSigs args = some v ↔
    (∃ x n, args = [x] ∧ (PyInt x n ∧ 0 ≤ n ∧ n ≤ 18446744073709551615) ∧ v = [.int n]) ∨
    (∃ x i, args = [x] ∧ PyShorts x i ∧ v = [.ints i]) ∨
    (∃ x s, args = [x] ∧ PyText x s ∧ v = [.str s]) := by
  rw [dispatch_strict (by decide)]
  simp only [binInputSigs, firstOf_cons, loadArgs1, load_size, load_shorts, load_str]
  constructor
  · rintro (⟨x, _, rfl, rfl, n, h1, rfl⟩ | ⟨_, ⟨x, _, rfl, rfl, i, h1, rfl⟩ | ⟨_, ⟨x, _, rfl, rfl, s, h1, rfl⟩ | ⟨_, h⟩⟩⟩)
    · exact .inl ⟨x, n, rfl, h1, rfl⟩
    · exact .inr (.inl ⟨x, i, rfl, h1, rfl⟩)
    · exact .inr (.inr ⟨x, s, rfl, h1, rfl⟩)
    · cases h
  · rintro (⟨x, n, rfl, h1, rfl⟩ | ⟨x, i, rfl, h1, rfl⟩ | ⟨x, s, rfl, h1, rfl⟩)
    · exact .inl ⟨x, _, rfl, rfl, n, h1, rfl⟩
    · refine .inr ⟨?_, .inl ⟨x, _, rfl, rfl, i, h1, rfl⟩⟩
      obtain ⟨ys, rfl, _⟩ := h1; rfl
    · refine .inr ⟨?_, .inr ⟨?_, .inl ⟨x, _, rfl, rfl, s, h1, rfl⟩⟩⟩ <;> cases h1 <;> rfl

theorem json_args {L : PyLib} {args : List PyVal} {v : List CVal} : dispatch L jsonSigs args = some v ↔
    (args = [] ∧ v = []) ∨ (∃ x b, args = [x] ∧ PyBool x b ∧ v = [.bool b]) ∨
    (∃ x y b p, args = [x, y] ∧ PyBool x b ∧ PyText y p ∧ v = [.bool b, .str p]) := by
  have key : firstOf L true jsonSigs args = .ok v ↔
      (args = [] ∧ v = []) ∨ (∃ x b, args = [x] ∧ PyBool x b ∧ v = [.bool b]) ∨
        (∃ x y b p, args = [x, y] ∧ PyBool x b ∧ PyText y p ∧ v = [.bool b, .str p]) := by
    simp only [jsonSigs, firstOf_cons, loadArgs_nil, loadArgs1, loadArgs2, load_bool, load_str]
    constructor
    · rintro (⟨rfl, rfl⟩ | ⟨_, ⟨x, _, rfl, rfl, b, h1, rfl⟩ | ⟨_, ⟨x, y, _, _, rfl, rfl, ⟨b, h1, rfl⟩, p, h2, rfl⟩ | ⟨_, h⟩⟩⟩)
      · exact .inl ⟨rfl, rfl⟩
      · exact .inr (.inl ⟨x, b, rfl, h1, rfl⟩)
      · exact .inr (.inr ⟨x, y, b, p, rfl, h1, h2, rfl⟩)
      · cases h
    · rintro (⟨rfl, rfl⟩ | ⟨x, b, rfl, h1, rfl⟩ | ⟨x, y, b, p, rfl, h1, h2, rfl⟩)
      · exact .inl ⟨rfl, rfl⟩
      · exact .inr ⟨rfl, .inl ⟨x, _, rfl, rfl, b, h1, rfl⟩⟩
      · refine .inr ⟨rfl, .inr ⟨?_, .inl ⟨x, y, _, _, rfl, rfl, ⟨b, h1, rfl⟩, p, h2, rfl⟩⟩⟩
        simp only [loadArgs, load, loadBool_ok.mpr h1, Load.map, Load.both]
  rw [← key, dispatch_iff]
  have up : ∀ w, firstOf L false jsonSigs args = .ok w → firstOf L true jsonSigs args = .ok w := by
    intro w h
    simp only [jsonSigs, firstOf_cons, loadArgs_nil, loadArgs1, loadArgs2, load_str] at h ⊢
    rcases h with ⟨rfl, rfl⟩ | ⟨_, ⟨x, _, rfl, rfl, h1⟩ | ⟨_, ⟨x, y, _, _, rfl, rfl, h1, h2⟩ | ⟨_, h⟩⟩⟩
    · exact .inl ⟨rfl, rfl⟩
    · refine .inr ⟨rfl, .inl ⟨x, _, rfl, rfl, ?_⟩⟩
      simp only [load, Load.map_ok] at h1 ⊢
      obtain ⟨b, h1, rfl⟩ := h1
      exact ⟨b, loadBool_true h1, rfl⟩
    · simp only [load, Load.map_ok] at h1 ⊢
      obtain ⟨b, h1, rfl⟩ := h1
      refine .inr ⟨rfl, .inr ⟨?_, .inl ⟨x, y, _, _, rfl, rfl, ⟨b, loadBool_true h1, rfl⟩, h2⟩⟩⟩
      simp only [loadArgs, load, loadBool_true h1, Load.map, Load.both]
    · cases h
  constructor
  · rintro (h | ⟨_, h⟩)
    · exact up _ h
    · exact h
  · intro h
    cases hf : firstOf L false jsonSigs args with
    | ok w => left; rw [← hf]; rw [hf]; exact (up w hf).symm.trans h
    | no => exact .inr ⟨rfl, h⟩
    | raised => exact absurd hf (firstOf_calm args (by decide))

theorem loadArgs_length {L : PyLib} {c : Bool} : ∀ {ts : List CTy} {xs : List PyVal} {v : List CVal}, loadArgs L c ts xs = .ok v →
    xs.length = ts.length := by
  intro ts
  induction ts with
  | nil => intro xs v h; rw [loadArgs_nil] at h; simp [h.1]
  | cons t ts ih =>
    intro xs v h
    obtain ⟨x, ys, w, ws, rfl, rfl, _, h⟩ := loadArgs_cons.mp h
    simp [ih h]

theorem firstOf_arity {L : PyLib} {c : Bool} {sigs : List (List CTy)} {xs : List PyVal} {v : List CVal}
    (hc : ∀ ts ∈ sigs, ∀ t ∈ ts, calm t = true) (hd : sigs.Pairwise (fun a b => a.length ≠ b.length)) :
    firstOf L c sigs xs = .ok v ↔ ∃ ts ∈ sigs, loadArgs L c ts xs = .ok v := by
  induction sigs with
  | nil => simp [firstOf]
  | cons ts sigs ih =>
    rw [firstOf_cons, ih (fun t ht => hc t (by simp [ht])) hd.of_cons]
    constructor
    · rintro (h | ⟨_, us, hu, h⟩)
      · exact ⟨ts, by simp, h⟩
      · exact ⟨us, by simp [hu], h⟩
    · rintro ⟨us, hu, h⟩
      rcases List.mem_cons.mp hu with rfl | hu
      · exact .inl h
      · refine .inr ⟨?_, us, hu, h⟩
        have hl := loadArgs_length h
        have hne := List.rel_of_pairwise_cons hd hu
        have hr := loadArgs_calm (L := L) (c := c) xs (hc ts (by simp))
        cases hx : loadArgs L c ts xs with
        | no => rfl
        | ok w => exact absurd (loadArgs_length hx) (by omega)
        | raised => exact absurd hx hr

theorem load_up {L : PyLib} {t : CTy} {x : PyVal} {v : CVal} (ht : calm t = true) (h : load L false t x = .ok v) : load L true t x = .ok v := by
  cases t <;> first | exact absurd ht (by decide) | exact h | skip
  · simp only [load, Load.map_ok] at h ⊢
    obtain ⟨b, h, rfl⟩ := h
    exact ⟨b, loadBool_true h, rfl⟩
  · simp only [load, Load.map_ok] at h ⊢
    obtain ⟨q, h, rfl⟩ := h
    refine ⟨q, ?_, rfl⟩
    cases x <;> first | exact h | cases h

theorem loadArgs_up {L : PyLib} : ∀ {ts : List CTy} {xs : List PyVal} {v : List CVal}, (∀ t ∈ ts, calm t = true) →
    loadArgs L false ts xs = .ok v → loadArgs L true ts xs = .ok v := by
  intro ts
  induction ts with
  | nil => intro xs v _ h; rw [loadArgs_nil] at h ⊢; exact h
  | cons t ts ih =>
    intro xs v ht h
    obtain ⟨x, ys, w, ws, rfl, rfl, h1, h⟩ := loadArgs_cons.mp h
    exact loadArgs_cons.mpr ⟨x, ys, w, ws, rfl, rfl, load_up (ht t (by simp)) h1, ih (fun t h => ht t (by simp [h])) h⟩

theorem dispatch_arity {L : PyLib} {sigs : List (List CTy)} {xs : List PyVal} {v : List CVal}
    (hc : ∀ ts ∈ sigs, ∀ t ∈ ts, calm t = true) (hd : sigs.Pairwise (fun a b => a.length ≠ b.length)) :
    dispatch L sigs xs = some v ↔ ∃ ts ∈ sigs, loadArgs L true ts xs = .ok v := by
  rw [dispatch_iff]
  constructor
  · rintro (h | ⟨_, h⟩)
    · obtain ⟨ts, hts, h⟩ := (firstOf_arity hc hd).mp h
      exact ⟨ts, hts, loadArgs_up (hc ts hts) h⟩
    · exact (firstOf_arity hc hd).mp h
  · intro h
    have h' := (firstOf_arity (c := true) hc hd).mpr h
    cases hf : firstOf L false sigs xs with
    | ok w =>
      left
      obtain ⟨ts, hts, h⟩ := (firstOf_arity hc hd).mp hf
      have := (firstOf_arity hc hd).mpr ⟨ts, hts, loadArgs_up (hc ts hts) h⟩
      exact this.symm.trans h'
    | no => exact .inr ⟨rfl, h'⟩
    | raised => exact absurd hf (firstOf_calm xs hc)

theorem handleGet_args {L : PyLib} {args : List PyVal} {v : List CVal} : dispatch L handleGetSigs args = some v ↔
    (∃ x y r a, args = [x, y] ∧ (PyInt x r ∧ -2147483648 ≤ r ∧ r ≤ 2147483647) ∧ (PyInt y a ∧ -2147483648 ≤ a ∧ a ≤ 2147483647) ∧ v = [.int r, .int a]) ∨
    (∃ x r, args = [x] ∧ (PyInt x r ∧ -2147483648 ≤ r ∧ r ≤ 2147483647) ∧ v = [.int r]) := by
  rw [dispatch_arity (by decide) (by decide)]
  simp only [handleGetSigs, List.mem_cons, List.not_mem_nil, or_false, exists_eq_or_imp, exists_eq_left, loadArgs1, loadArgs2, load_int]
  constructor
  · rintro (⟨x, y, _, _, rfl, rfl, ⟨r, h1, rfl⟩, a, h2, rfl⟩ | ⟨x, _, rfl, rfl, r, h1, rfl⟩)
    · exact .inl ⟨x, y, r, a, rfl, h1, h2, rfl⟩
    · exact .inr ⟨x, r, rfl, h1, rfl⟩
  · rintro (⟨x, y, r, a, rfl, h1, h2, rfl⟩ | ⟨x, r, rfl, h1, rfl⟩)
    · exact .inl ⟨x, y, _, _, rfl, rfl, ⟨r, h1, rfl⟩, a, h2, rfl⟩
    · exact .inr ⟨x, _, rfl, rfl, r, h1, rfl⟩

theorem handleSet_args {L : PyLib} {args : List PyVal} {v : List CVal} : dispatch L handleSetSigs args = some v ↔
    ∃ x y z r a c, args = [x, y, z] ∧ (PyInt x r ∧ -2147483648 ≤ r ∧ r ≤ 2147483647) ∧ (PyInt y a ∧ -2147483648 ≤ a ∧ a ≤ 2147483647) ∧
      (PyInt z c ∧ -2147483648 ≤ c ∧ c ≤ 2147483647) ∧ v = [.int r, .int a, .int c] := by
  rw [dispatch_arity (by decide) (by decide)]
  simp only [handleSetSigs, List.mem_cons, List.not_mem_nil, or_false, exists_eq_left]
  rw [loadArgs_cons]
  simp only [loadArgs2, load_int]
  constructor
  · rintro ⟨x, _, _, _, rfl, rfl, ⟨r, h1, rfl⟩, y, z, _, _, rfl, rfl, ⟨a, h2, rfl⟩, c, h3, rfl⟩
    exact ⟨x, y, z, r, a, c, rfl, h1, h2, h3, rfl⟩
  · rintro ⟨x, y, z, r, a, c, rfl, h1, h2, h3, rfl⟩
    exact ⟨x, _, _, _, rfl, rfl, ⟨r, h1, rfl⟩, y, z, _, _, rfl, rfl, ⟨a, h2, rfl⟩, c, h3, rfl⟩

theorem discCtor_args {L : PyLib} {k : Bool} {args : List PyVal} {v : List CVal} : dispatch L (discSigs k) args = some v ↔
    (k = false ∧ ∃ x s, args = [x] ∧ PyText x s ∧ v = [.str s]) ∨
    (∃ x y a n, args = [x, y] ∧ (PyInt x a ∧ -2147483648 ≤ a ∧ a ≤ 2147483647) ∧ (PyInt y n ∧ -2147483648 ≤ n ∧ n ≤ 2147483647) ∧ v = [.int a, .int n]) := by
  cases k
  · rw [dispatch_arity (by decide) (by decide)]
    simp only [discSigs, Bool.false_eq_true, if_false, List.mem_cons, List.not_mem_nil, or_false, exists_eq_or_imp, exists_eq_left, loadArgs1, loadArgs2, load_int, load_str, true_and]
    constructor
    · rintro (⟨x, _, rfl, rfl, r, h1, rfl⟩ | ⟨x, y, _, _, rfl, rfl, ⟨r, h1, rfl⟩, a, h2, rfl⟩)
      · exact .inl ⟨x, r, rfl, h1, rfl⟩
      · exact .inr ⟨x, y, r, a, rfl, h1, h2, rfl⟩
    · rintro (⟨x, r, rfl, h1, rfl⟩ | ⟨x, y, r, a, rfl, h1, h2, rfl⟩)
      · exact .inl ⟨x, _, rfl, rfl, r, h1, rfl⟩
      · exact .inr ⟨x, y, _, _, rfl, rfl, ⟨r, h1, rfl⟩, a, h2, rfl⟩
  · rw [dispatch_arity (by decide) (by decide)]
    simp only [discSigs, if_true, List.mem_cons, List.not_mem_nil, or_false, exists_eq_left, loadArgs2, load_int, Bool.true_eq_false, false_and, false_or]
    constructor
    · rintro ⟨x, y, _, _, rfl, rfl, ⟨r, h1, rfl⟩, a, h2, rfl⟩
      exact ⟨x, y, r, a, rfl, h1, h2, rfl⟩
    · rintro ⟨x, y, r, a, rfl, h1, h2, rfl⟩
      exact ⟨x, y, _, _, rfl, rfl, ⟨r, h1, rfl⟩, a, h2, rfl⟩

theorem clusCtor_args {L : PyLib} {k : Bool} {args : List PyVal} {v : List CVal} : dispatch L (clusSigs k) args = some v ↔
    (k = false ∧ ∃ x s, args = [x] ∧ PyText x s ∧ v = [.str s]) ∨
    (∃ x m y z a q t d, args = [x, m, y, z] ∧ (PyInt x a ∧ -2147483648 ≤ a ∧ a ≤ 2147483647) ∧ PyNumber L m q ∧
      (PyInt y t ∧ -2147483648 ≤ t ∧ t ≤ 2147483647) ∧ (PyInt z d ∧ -2147483648 ≤ d ∧ d ≤ 2147483647) ∧ v = [.int a, .float q, .int t, .int d]) := by
  have four : loadArgs L true [.int, .float, .int, .int] args = .ok v ↔ (∃ x m y z a q t d, args = [x, m, y, z] ∧
      (PyInt x a ∧ -2147483648 ≤ a ∧ a ≤ 2147483647) ∧ PyNumber L m q ∧
      (PyInt y t ∧ -2147483648 ≤ t ∧ t ≤ 2147483647) ∧ (PyInt z d ∧ -2147483648 ≤ d ∧ d ≤ 2147483647) ∧ v = [.int a, .float q, .int t, .int d]) := by
    rw [loadArgs_cons]
    simp only [load_int]
    constructor
    · rintro ⟨x, ys, _, ws, rfl, rfl, ⟨a, h1, rfl⟩, h⟩
      obtain ⟨m, _, _, _, rfl, rfl, hm, h'⟩ := loadArgs_cons.mp h
      obtain ⟨q, gm, rfl⟩ := load_float.mp hm
      obtain ⟨y, z, _, _, rfl, rfl, hy, hz⟩ := loadArgs2.mp h'
      obtain ⟨t, gy, rfl⟩ := load_int.mp hy
      obtain ⟨d, gz, rfl⟩ := load_int.mp hz
      exact ⟨x, m, y, z, a, q, t, d, rfl, h1, gm, gy, gz, rfl⟩
    · rintro ⟨x, m, y, z, a, q, t, d, rfl, h1, hm, hy, hz, rfl⟩
      exact ⟨x, _, _, _, rfl, rfl, ⟨a, h1, rfl⟩, loadArgs_cons.mpr ⟨m, _, _, _, rfl, rfl, load_float.mpr ⟨q, hm, rfl⟩,
        loadArgs2.mpr ⟨y, z, _, _, rfl, rfl, load_int.mpr ⟨t, hy, rfl⟩, load_int.mpr ⟨d, hz, rfl⟩⟩⟩⟩
  cases k
  · rw [dispatch_arity (by decide) (by decide)]
    simp only [clusSigs, Bool.false_eq_true, if_false, List.mem_cons, List.not_mem_nil, or_false, exists_eq_or_imp, exists_eq_left, four, true_and, loadArgs1, load_str]
    apply or_congr_left
    constructor
    · rintro ⟨x, _, rfl, rfl, r, h1, rfl⟩; exact ⟨x, r, rfl, h1, rfl⟩
    · rintro ⟨x, r, rfl, h1, rfl⟩; exact ⟨x, _, rfl, rfl, r, h1, rfl⟩
  · rw [dispatch_arity (by decide) (by decide)]
    simp only [clusSigs, if_true, List.mem_cons, List.not_mem_nil, or_false, exists_eq_left, four, Bool.true_eq_false, false_and, false_or]

theorem wisardCtor_args {L : PyLib} {k : Bool} {args : List PyVal} {v : List CVal} : dispatch L (wisardSigs k) args = some v ↔
    (k = false ∧ ∃ x s, args = [x] ∧ PyText x s ∧ v = [.str s]) ∨
    (∃ x a, args = [x] ∧ (PyInt x a ∧ -2147483648 ≤ a ∧ a ≤ 2147483647) ∧ v = [.int a]) := by
  cases k
  · rw [dispatch_strict (by decide)]
    simp only [wisardSigs, Bool.false_eq_true, if_false, firstOf_cons, loadArgs1, load_str, load_int, true_and]
    constructor
    · rintro (⟨x, _, rfl, rfl, s, h1, rfl⟩ | ⟨_, ⟨x, _, rfl, rfl, a, h1, rfl⟩ | ⟨_, h⟩⟩)
      · exact .inl ⟨x, s, rfl, h1, rfl⟩
      · exact .inr ⟨x, a, rfl, h1, rfl⟩
      · cases h
    · rintro (⟨x, s, rfl, h1, rfl⟩ | ⟨x, a, rfl, h1, rfl⟩)
      · exact .inl ⟨x, _, rfl, rfl, s, h1, rfl⟩
      · refine .inr ⟨?_, .inl ⟨x, _, rfl, rfl, a, h1, rfl⟩⟩
        cases h1.1 <;> rfl
  · rw [dispatch_strict (by decide)]
    simp only [wisardSigs, if_true, firstOf_cons, loadArgs1, load_int, Bool.true_eq_false, false_and, false_or]
    constructor
    · rintro (⟨x, _, rfl, rfl, a, h1, rfl⟩ | ⟨_, h⟩)
      · exact ⟨x, a, rfl, h1, rfl⟩
      · cases h
    · rintro ⟨x, a, rfl, h1, rfl⟩
      exact .inl ⟨x, _, rfl, rfl, a, h1, rfl⟩

/-! ## The calls -/

/-- **C145** for `BinInput(...)`: a size, a list of pixels or a Base64 text. -/
theorem C145_binInput (L : PyLib) (args : List PyVal) (r : Res BinInput) :
    BinInput.py L args = some r ↔
    (∃ x n, args = [x] ∧ PyInt x n ∧ 0 ≤ n ∧ n ≤ 18446744073709551615 ∧ r = (.ok (BinInput.ofSize n.toNat))) ∨
    (∃ x i, args = [x] ∧ PyShorts x i ∧ r = BinInput.ofList i) ∨
    (∃ x s, args = [x] ∧ PyText x s ∧ r = BinInput.ofData s) := by
  constructor
  · intro h
    unfold BinInput.py at h
    cases hd : dispatch L _ _ with
    | none => rw [hd] at h; cases h
    | some v =>
      rw [hd] at h
      have ht := binInput_args.mp hd
      rcases ht with ⟨x, n, rfl, h0, rfl⟩ | ⟨x, i, rfl, h0, rfl⟩ | ⟨x, s, rfl, h0, rfl⟩
      · exact Or.inl (⟨x, n, rfl, h0.1, h0.2.1, h0.2.2, by cases h; rfl⟩)
      · exact Or.inr (Or.inl (⟨x, i, rfl, h0, by cases h; rfl⟩))
      · exact Or.inr (Or.inr (⟨x, s, rfl, h0, by cases h; rfl⟩))
  · rintro (⟨x, n, rfl, k1, k2, k3, rfl⟩ | ⟨x, i, rfl, h0, rfl⟩ | ⟨x, s, rfl, h0, rfl⟩)
    · unfold BinInput.py; rw [binInput_args.mpr (Or.inl (⟨x, n, rfl, ⟨k1, k2, k3⟩, rfl⟩))]
    · unfold BinInput.py; rw [binInput_args.mpr (Or.inr (Or.inl (⟨x, i, rfl, h0, rfl⟩)))]
    · unfold BinInput.py; rw [binInput_args.mpr (Or.inr (Or.inr (⟨x, s, rfl, h0, rfl⟩)))]

/-- **C145** for `DataSet.add(...)`: a `BinInput` or a list of pixels, with or without a label. -/
theorem C145_dataSet (L : PyLib) (d : DataSet) (args : List PyVal) (r : Res DataSet) :
    d.pyAdd L args = some r ↔
    (∃ b, args = [.binInput b] ∧ r = (.ok (d.add b))) ∨
    (∃ b y l, args = [.binInput b, y] ∧ PyText y l ∧ r = (.ok (d.add b l))) ∨
    (∃ x i, args = [x] ∧ PyShorts x i ∧ r = (BinInput.ofList i).map fun b => d.add b) ∨
    (∃ x y i l, args = [x, y] ∧ PyShorts x i ∧ PyText y l ∧ r = (BinInput.ofList i).map fun b => d.add b l) := by
  constructor
  · intro h
    unfold DataSet.pyAdd at h
    cases hd : dispatch L _ _ with
    | none => rw [hd] at h; cases h
    | some v =>
      rw [hd] at h
      have ht := add_args.mp hd
      rcases ht with ⟨b, rfl, rfl⟩ | ⟨b, y, l, rfl, h0, rfl⟩ | ⟨x, i, rfl, h0, rfl⟩ | ⟨x, y, i, l, rfl, h0, h1, rfl⟩
      · exact Or.inl (⟨b, rfl, by cases h; rfl⟩)
      · exact Or.inr (Or.inl (⟨b, y, l, rfl, h0, by cases h; rfl⟩))
      · exact Or.inr (Or.inr (Or.inl (⟨x, i, rfl, h0, by cases h; rfl⟩)))
      · exact Or.inr (Or.inr (Or.inr (⟨x, y, i, l, rfl, h0, h1, by cases h; rfl⟩)))
  · rintro (⟨b, rfl, rfl⟩ | ⟨b, y, l, rfl, h0, rfl⟩ | ⟨x, i, rfl, h0, rfl⟩ | ⟨x, y, i, l, rfl, h0, h1, rfl⟩)
    · unfold DataSet.pyAdd; rw [add_args.mpr (Or.inl (⟨b, rfl, rfl⟩))]
    · unfold DataSet.pyAdd; rw [add_args.mpr (Or.inr (Or.inl (⟨b, y, l, rfl, h0, rfl⟩)))]
    · unfold DataSet.pyAdd; rw [add_args.mpr (Or.inr (Or.inr (Or.inl (⟨x, i, rfl, h0, rfl⟩))))]
    · unfold DataSet.pyAdd; rw [add_args.mpr (Or.inr (Or.inr (Or.inr (⟨x, y, i, l, rfl, h0, h1, rfl⟩))))]

/-- **C145** for `Discriminator.train(...)`: an image, a `BinInput` (see C146) or a list of at least one image. -/
theorem C145_discriminator_train (L : PyLib) (d : Discriminator) (args : List PyVal) (r : Discriminator × Res Unit) :
    d.pyTrain L args = some r ↔
    (∃ x i, args = [x] ∧ PyImage x i ∧ r = d.train (.vec i)) ∨
    (∃ b, args = [.binInput b] ∧ L.getitemIsSequence = false ∧ r = d.train (.bin b)) ∨
    (∃ x xs, args = [x] ∧ PyImages x xs ∧ xs ≠ [] ∧ r = d.trainAll (xs.map .vec)) := by
  constructor
  · intro h
    unfold Discriminator.pyTrain at h
    cases hd : dispatch L _ _ with
    | none => rw [hd] at h; cases h
    | some v =>
      rw [hd] at h
      have ht := discTrain_args.mp hd
      rcases ht with ⟨x, i, rfl, h0, rfl⟩ | ⟨b, rfl, h0, rfl⟩ | ⟨x, xs, rfl, h0, h1, rfl⟩
      · exact Or.inl (⟨x, i, rfl, h0, by cases h; rfl⟩)
      · exact Or.inr (Or.inl (⟨b, rfl, h0, by cases h; rfl⟩))
      · exact Or.inr (Or.inr (⟨x, xs, rfl, h0, h1, by cases h; rfl⟩))
  · rintro (⟨x, i, rfl, h0, rfl⟩ | ⟨b, rfl, h0, rfl⟩ | ⟨x, xs, rfl, h0, h1, rfl⟩)
    · unfold Discriminator.pyTrain; rw [discTrain_args.mpr (Or.inl (⟨x, i, rfl, h0, rfl⟩))]
    · unfold Discriminator.pyTrain; rw [discTrain_args.mpr (Or.inr (Or.inl (⟨b, rfl, h0, rfl⟩)))]
    · unfold Discriminator.pyTrain; rw [discTrain_args.mpr (Or.inr (Or.inr (⟨x, xs, rfl, h0, h1, rfl⟩)))]

/-- **C145** for `Discriminator.classify(...)`: an image or a `BinInput` (see C146). -/
theorem C145_discriminator_classify (L : PyLib) (d : Discriminator) (args : List PyVal) (r : Res (List Int)) :
    d.pyClassify L args = some r ↔
    (∃ x i, args = [x] ∧ PyImage x i ∧ r = d.classify (.vec i)) ∨
    (∃ b, args = [.binInput b] ∧ L.getitemIsSequence = false ∧ r = d.classify (.bin b)) := by
  constructor
  · intro h
    unfold Discriminator.pyClassify at h
    cases hd : dispatch L _ _ with
    | none => rw [hd] at h; cases h
    | some v =>
      rw [hd] at h
      have ht := discClassify_args.mp hd
      rcases ht with ⟨x, i, rfl, h0, rfl⟩ | ⟨b, rfl, h0, rfl⟩
      · exact Or.inl (⟨x, i, rfl, h0, by cases h; rfl⟩)
      · exact Or.inr (⟨b, rfl, h0, by cases h; rfl⟩)
  · rintro (⟨x, i, rfl, h0, rfl⟩ | ⟨b, rfl, h0, rfl⟩)
    · unfold Discriminator.pyClassify; rw [discClassify_args.mpr (Or.inl (⟨x, i, rfl, h0, rfl⟩))]
    · unfold Discriminator.pyClassify; rw [discClassify_args.mpr (Or.inr (⟨b, rfl, h0, rfl⟩))]

/-- **C145** for `Wisard.train(...)`: a list of images and a list of labels, or a `DataSet`. -/
theorem C145_wisard_train (L : PyLib) (w : Wisard) (env : Nat → Env) (args : List PyVal) (r : Wisard × Res Unit) :
    w.pyTrain L env args = some r ↔
    (∃ x y xs ls, args = [x, y] ∧ PyImages x xs ∧ PyTexts y ls ∧ r = w.train env xs ls) ∨
    (∃ ds, args = [.dataSet ds] ∧ r = w.trainDataSet env ds) := by
  constructor
  · intro h
    unfold Wisard.pyTrain at h
    cases hd : dispatch L _ _ with
    | none => rw [hd] at h; cases h
    | some v =>
      rw [hd] at h
      have ht := wisardTrain_args.mp hd
      rcases ht with ⟨x, y, xs, ls, rfl, h0, h1, rfl⟩ | ⟨ds, rfl, rfl⟩
      · exact Or.inl (⟨x, y, xs, ls, rfl, h0, h1, by cases h; rfl⟩)
      · exact Or.inr (⟨ds, rfl, by cases h; rfl⟩)
  · rintro (⟨x, y, xs, ls, rfl, h0, h1, rfl⟩ | ⟨ds, rfl, rfl⟩)
    · unfold Wisard.pyTrain; rw [wisardTrain_args.mpr (Or.inl (⟨x, y, xs, ls, rfl, h0, h1, rfl⟩))]
    · unfold Wisard.pyTrain; rw [wisardTrain_args.mpr (Or.inr (⟨ds, rfl, rfl⟩))]

/-- **C145** for `Wisard.classify(...)`: a list of images or a `DataSet`. -/
theorem C145_wisard_classify (L : PyLib) (w : Wisard) (args : List PyVal) (r : Res (List PyLabel)) :
    w.pyClassifyCall L args = some r ↔
    (∃ x xs, args = [x] ∧ PyImages x xs ∧ r = PyOut.pyClassify w (xs.map .vec)) ∨
    (∃ ds, args = [.dataSet ds] ∧ r = PyOut.pyClassify w (ds.data.map .bin)) := by
  constructor
  · intro h
    unfold Wisard.pyClassifyCall at h
    cases hd : dispatch L _ _ with
    | none => rw [hd] at h; cases h
    | some v =>
      rw [hd] at h
      have ht := wisardClassify_args.mp hd
      rcases ht with ⟨x, xs, rfl, h0, rfl⟩ | ⟨ds, rfl, rfl⟩
      · exact Or.inl (⟨x, xs, rfl, h0, by cases h; rfl⟩)
      · exact Or.inr (⟨ds, rfl, by cases h; rfl⟩)
  · rintro (⟨x, xs, rfl, h0, rfl⟩ | ⟨ds, rfl, rfl⟩)
    · unfold Wisard.pyClassifyCall; rw [wisardClassify_args.mpr (Or.inl (⟨x, xs, rfl, h0, rfl⟩))]
    · unfold Wisard.pyClassifyCall; rw [wisardClassify_args.mpr (Or.inr (⟨ds, rfl, rfl⟩))]

/-- **C145** for `Wisard.leaveOneOut(...)`: an image and a label. -/
theorem C145_wisard_leaveOneOut (L : PyLib) (w : Wisard) (args : List PyVal) (r : Wisard × Res Unit) :
    w.pyLeaveOneOut L args = some r ↔
    (∃ x y i l, args = [x, y] ∧ PyImage x i ∧ PyText y l ∧ r = w.leaveOneOut i l) := by
  constructor
  · intro h
    unfold Wisard.pyLeaveOneOut at h
    cases hd : dispatch L _ _ with
    | none => rw [hd] at h; cases h
    | some v =>
      rw [hd] at h
      have ht := leaveOneOut_args.mp hd
      rcases ht with ⟨x, y, i, l, rfl, h0, h1, rfl⟩
      · exact ⟨x, y, i, l, rfl, h0, h1, by cases h; rfl⟩
  · rintro (⟨x, y, i, l, rfl, h0, h1, rfl⟩)
    · unfold Wisard.pyLeaveOneOut; rw [leaveOneOut_args.mpr (⟨x, y, i, l, rfl, h0, h1, rfl⟩)]

/-- **C145** for `Wisard.leaveMoreOut(...)`: a list of images and a list of labels. -/
theorem C145_wisard_leaveMoreOut (L : PyLib) (w : Wisard) (args : List PyVal) (r : Wisard × Res Unit) :
    w.pyLeaveMoreOut L args = some r ↔
    (∃ x y xs ls, args = [x, y] ∧ PyImages x xs ∧ PyTexts y ls ∧ r = w.leaveMoreOut xs ls) := by
  constructor
  · intro h
    unfold Wisard.pyLeaveMoreOut at h
    cases hd : dispatch L _ _ with
    | none => rw [hd] at h; cases h
    | some v =>
      rw [hd] at h
      have ht := leaveMoreOut_args.mp hd
      rcases ht with ⟨x, y, xs, ls, rfl, h0, h1, rfl⟩
      · exact ⟨x, y, xs, ls, rfl, h0, h1, by cases h; rfl⟩
  · rintro (⟨x, y, xs, ls, rfl, h0, h1, rfl⟩)
    · unfold Wisard.pyLeaveMoreOut; rw [leaveMoreOut_args.mpr (⟨x, y, xs, ls, rfl, h0, h1, rfl⟩)]

/-- **C145** for `ClusWisard.train(...)`: a list of images and a list of labels or a dict of labels by position. -/
theorem C145_clusWisard_train (L : PyLib) (f : Flt) (w : ClusWisard) (env : Bool → Nat → Env) (args : List PyVal) (r : ClusWisard × Res Unit) :
    w.pyTrain L f env args = some r ↔
    (∃ x y xs ls, args = [x, y] ∧ PyImages x xs ∧ PyTexts y ls ∧ r = w.train f (env true) xs ls) ∨
    (∃ x y xs m, args = [x, y] ∧ PyImages x xs ∧ PyLabels y m ∧ r = w.trainSemi f env xs m) := by
  constructor
  · intro h
    unfold ClusWisard.pyTrain at h
    cases hd : dispatch L _ _ with
    | none => rw [hd] at h; cases h
    | some v =>
      rw [hd] at h
      have ht := clusTrain_args.mp hd
      rcases ht with ⟨x, y, xs, ls, rfl, h0, h1, rfl⟩ | ⟨x, y, xs, m, rfl, h0, h1, rfl⟩
      · exact Or.inl (⟨x, y, xs, ls, rfl, h0, h1, by cases h; rfl⟩)
      · exact Or.inr (⟨x, y, xs, m, rfl, h0, h1, by cases h; rfl⟩)
  · rintro (⟨x, y, xs, ls, rfl, h0, h1, rfl⟩ | ⟨x, y, xs, m, rfl, h0, h1, rfl⟩)
    · unfold ClusWisard.pyTrain; rw [clusTrain_args.mpr (Or.inl (⟨x, y, xs, ls, rfl, h0, h1, rfl⟩))]
    · unfold ClusWisard.pyTrain; rw [clusTrain_args.mpr (Or.inr (⟨x, y, xs, m, rfl, h0, h1, rfl⟩))]

/-- **C145** for `ClusWisard.trainUnsupervised(...)`: a list of images. -/
theorem C145_clusWisard_unsupervised (L : PyLib) (f : Flt) (w : ClusWisard) (env : Nat → Env) (args : List PyVal) (r : ClusWisard × Res Unit) :
    w.pyTrainUnsupervised L f env args = some r ↔
    (∃ x xs, args = [x] ∧ PyImages x xs ∧ r = w.trainUnsupervised f env xs) := by
  constructor
  · intro h
    unfold ClusWisard.pyTrainUnsupervised at h
    cases hd : dispatch L _ _ with
    | none => rw [hd] at h; cases h
    | some v =>
      rw [hd] at h
      have ht := clusImages_args.mp hd
      rcases ht with ⟨x, xs, rfl, h0, rfl⟩
      · exact ⟨x, xs, rfl, h0, by cases h; rfl⟩
  · rintro (⟨x, xs, rfl, h0, rfl⟩)
    · unfold ClusWisard.pyTrainUnsupervised; rw [clusImages_args.mpr (⟨x, xs, rfl, h0, rfl⟩)]

/-- **C145** for `ClusWisard.classify(...)`: a list of images. -/
theorem C145_clusWisard_classify (L : PyLib) (w : ClusWisard) (args : List PyVal) (r : Res (List PyLabel)) :
    w.pyClassifyCall L args = some r ↔
    (∃ x xs, args = [x] ∧ PyImages x xs ∧ r = w.pyClassify xs) := by
  constructor
  · intro h
    unfold ClusWisard.pyClassifyCall at h
    cases hd : dispatch L _ _ with
    | none => rw [hd] at h; cases h
    | some v =>
      rw [hd] at h
      have ht := clusImages_args.mp hd
      rcases ht with ⟨x, xs, rfl, h0, rfl⟩
      · exact ⟨x, xs, rfl, h0, by cases h; rfl⟩
  · rintro (⟨x, xs, rfl, h0, rfl⟩)
    · unfold ClusWisard.pyClassifyCall; rw [clusImages_args.mpr (⟨x, xs, rfl, h0, rfl⟩)]

/-- **C145** for `RAMDataHandle.get(...)`: a RAM, or a RAM and a position. -/
theorem C145_handle_get (L : PyLib) (h : RamData) (args : List PyVal) (r : RamData × (RamT ⊕ Int)) :
    h.pyGet L args = some r ↔
    (∃ x y k a, args = [x, y] ∧ (PyInt x k ∧ -2147483648 ≤ k ∧ k ≤ 2147483647) ∧ (PyInt y a ∧ -2147483648 ≤ a ∧ a ≤ 2147483647) ∧ r = ((h.getAddr k a).1, .inr (h.getAddr k a).2)) ∨
    (∃ x k, args = [x] ∧ PyInt x k ∧ -2147483648 ≤ k ∧ k ≤ 2147483647 ∧ r = ((h.get k).1, .inl (h.get k).2)) := by
  constructor
  · intro h
    unfold RamData.pyGet at h
    cases hd : dispatch L _ _ with
    | none => rw [hd] at h; cases h
    | some v =>
      rw [hd] at h
      have ht := handleGet_args.mp hd
      rcases ht with ⟨x, y, k, a, rfl, h0, h1, rfl⟩ | ⟨x, k, rfl, h0, rfl⟩
      · exact Or.inl (⟨x, y, k, a, rfl, h0, h1, by cases h; rfl⟩)
      · exact Or.inr (⟨x, k, rfl, h0.1, h0.2.1, h0.2.2, by cases h; rfl⟩)
  · rintro (⟨x, y, k, a, rfl, h0, h1, rfl⟩ | ⟨x, k, rfl, k1, k2, k3, rfl⟩)
    · unfold RamData.pyGet; rw [handleGet_args.mpr (Or.inl (⟨x, y, k, a, rfl, h0, h1, rfl⟩))]
    · unfold RamData.pyGet; rw [handleGet_args.mpr (Or.inr (⟨x, k, rfl, ⟨k1, k2, k3⟩, rfl⟩))]

/-- **C145** for `RAMDataHandle.set(...)`: a RAM, a position and a content. -/
theorem C145_handle_set (L : PyLib) (h : RamData) (args : List PyVal) (r : RamData) :
    h.pySet L args = some r ↔
    (∃ x y z k a c, args = [x, y, z] ∧ (PyInt x k ∧ -2147483648 ≤ k ∧ k ≤ 2147483647) ∧ (PyInt y a ∧ -2147483648 ≤ a ∧ a ≤ 2147483647) ∧ (PyInt z c ∧ -2147483648 ≤ c ∧ c ≤ 2147483647) ∧ r = h.set k a c) := by
  constructor
  · intro h
    unfold RamData.pySet at h
    cases hd : dispatch L _ _ with
    | none => rw [hd] at h; cases h
    | some v =>
      rw [hd] at h
      have ht := handleSet_args.mp hd
      rcases ht with ⟨x, y, z, k, a, c, rfl, h0, h1, h2, rfl⟩
      · exact ⟨x, y, z, k, a, c, rfl, h0, h1, h2, by cases h; rfl⟩
  · rintro (⟨x, y, z, k, a, c, rfl, h0, h1, h2, rfl⟩)
    · unfold RamData.pySet; rw [handleSet_args.mpr (⟨x, y, z, k, a, c, rfl, h0, h1, h2, rfl⟩)]

/-- **C145** for `Wisard(...)`: a saved text without keyword arguments, or the address size with options. -/
theorem C145_wisard (L : PyLib) (ft : FloatText) (fs : Fs) (args : List PyVal) (kws : List (Str × PyVal)) (r : Res Wisard) :
    Wisard.py L ft fs args kws = some r ↔
    (∃ x s, args = [x] ∧ kws = [] ∧ PyText x s ∧ r = Wisard.ofText ft fs s) ∨
    (∃ x a, args = [x] ∧ PyInt x a ∧ -2147483648 ≤ a ∧ a ≤ 2147483647 ∧ r = Wisard.ofKwargs (casts L) a kws) := by
  constructor
  · intro h
    unfold Wisard.py at h
    cases hd : dispatch L _ _ with
    | none => rw [hd] at h; cases h
    | some v =>
      rw [hd] at h
      have ht := wisardCtor_args.mp hd
      rcases ht with ⟨hk, x, s, rfl, h1, rfl⟩ | ⟨x, a, rfl, h0, rfl⟩
      · exact Or.inl (⟨x, s, rfl, by simpa using hk, h1, by cases h; rfl⟩)
      · exact Or.inr (⟨x, a, rfl, h0.1, h0.2.1, h0.2.2, by cases h; rfl⟩)
  · rintro (⟨x, s, rfl, rfl, h1, rfl⟩ | ⟨x, a, rfl, k1, k2, k3, rfl⟩)
    · unfold Wisard.py; rw [(wisardCtor_args (k := !([] : List (Str × PyVal)).isEmpty)).mpr (Or.inl (⟨rfl, x, s, rfl, h1, rfl⟩))]
    · unfold Wisard.py; rw [wisardCtor_args.mpr (Or.inr (⟨x, a, rfl, ⟨k1, k2, k3⟩, rfl⟩))]

/-- **C145** for `ClusWisard(...)`: a saved text without keyword arguments, or the four numbers with options. -/
theorem C145_clusWisard (L : PyLib) (ft : FloatText) (fs : Fs) (args : List PyVal) (kws : List (Str × PyVal)) (r : Res ClusWisard) :
    ClusWisard.py L ft fs args kws = some r ↔
    (∃ x s, args = [x] ∧ kws = [] ∧ PyText x s ∧ r = ClusWisard.ofText ft fs s) ∨
    (∃ x m y z a q t d, args = [x, m, y, z] ∧ (PyInt x a ∧ -2147483648 ≤ a ∧ a ≤ 2147483647) ∧ PyNumber L m q ∧ (PyInt y t ∧ -2147483648 ≤ t ∧ t ≤ 2147483647) ∧ (PyInt z d ∧ -2147483648 ≤ d ∧ d ≤ 2147483647) ∧ r = ClusWisard.ofKwargs (casts L) a q t d kws) := by
  constructor
  · intro h
    unfold ClusWisard.py at h
    cases hd : dispatch L _ _ with
    | none => rw [hd] at h; cases h
    | some v =>
      rw [hd] at h
      have ht := clusCtor_args.mp hd
      rcases ht with ⟨hk, x, s, rfl, h1, rfl⟩ | ⟨x, m, y, z, a, q, t, d, rfl, h0, h1, h2, h3, rfl⟩
      · exact Or.inl (⟨x, s, rfl, by simpa using hk, h1, by cases h; rfl⟩)
      · exact Or.inr (⟨x, m, y, z, a, q, t, d, rfl, h0, h1, h2, h3, by cases h; rfl⟩)
  · rintro (⟨x, s, rfl, rfl, h1, rfl⟩ | ⟨x, m, y, z, a, q, t, d, rfl, h0, h1, h2, h3, rfl⟩)
    · unfold ClusWisard.py; rw [(clusCtor_args (k := !([] : List (Str × PyVal)).isEmpty)).mpr (Or.inl (⟨rfl, x, s, rfl, h1, rfl⟩))]
    · unfold ClusWisard.py; rw [clusCtor_args.mpr (Or.inr (⟨x, m, y, z, a, q, t, d, rfl, h0, h1, h2, h3, rfl⟩))]

/-- **C145** for `Discriminator(...)`: a saved text without keyword arguments, or the address size and the image size with options. -/
theorem C145_discriminator (L : PyLib) (ft : FloatText) (fs : Fs) (rnd : Rnd) (args : List PyVal) (kws : List (Str × PyVal)) (r : Res Discriminator) :
    Discriminator.py L ft fs rnd args kws = some r ↔
    (∃ x s, args = [x] ∧ kws = [] ∧ PyText x s ∧ r = Discriminator.ofText ft fs s) ∨
    (∃ x y a n, args = [x, y] ∧ (PyInt x a ∧ -2147483648 ≤ a ∧ a ≤ 2147483647) ∧ (PyInt y n ∧ -2147483648 ≤ n ∧ n ≤ 2147483647) ∧ r = Discriminator.ofKwargs (casts L) rnd a n kws) := by
  constructor
  · intro h
    unfold Discriminator.py at h
    cases hd : dispatch L _ _ with
    | none => rw [hd] at h; cases h
    | some v =>
      rw [hd] at h
      have ht := discCtor_args.mp hd
      rcases ht with ⟨hk, x, s, rfl, h1, rfl⟩ | ⟨x, y, a, n, rfl, h0, h1, rfl⟩
      · exact Or.inl (⟨x, s, rfl, by simpa using hk, h1, by cases h; rfl⟩)
      · exact Or.inr (⟨x, y, a, n, rfl, h0, h1, by cases h; rfl⟩)
  · rintro (⟨x, s, rfl, rfl, h1, rfl⟩ | ⟨x, y, a, n, rfl, h0, h1, rfl⟩)
    · unfold Discriminator.py; rw [(discCtor_args (k := !([] : List (Str × PyVal)).isEmpty)).mpr (Or.inl (⟨rfl, x, s, rfl, h1, rfl⟩))]
    · unfold Discriminator.py; rw [discCtor_args.mpr (Or.inr (⟨x, y, a, n, rfl, h0, h1, rfl⟩))]

/-- **C145** for The arguments of `json(...)` of the three models: nothing, `huge`, or `huge` and a path. -/
theorem C145_json (L : PyLib) (args : List PyVal) (r : Bool × Str) :
    PyBind.jsonArgs L args = some r ↔
    (args = [] ∧ r = (false, [])) ∨
    (∃ x b, args = [x] ∧ PyBool x b ∧ r = (b, [])) ∨
    (∃ x y b p, args = [x, y] ∧ PyBool x b ∧ PyText y p ∧ r = (b, p)) := by
  constructor
  · intro h
    unfold PyBind.jsonArgs at h
    cases hd : dispatch L _ _ with
    | none => rw [hd] at h; cases h
    | some v =>
      rw [hd] at h
      have ht := json_args.mp hd
      rcases ht with ⟨rfl, rfl⟩ | ⟨x, b, rfl, h0, rfl⟩ | ⟨x, y, b, p, rfl, h0, h1, rfl⟩
      · exact Or.inl (⟨rfl, by cases h; rfl⟩)
      · exact Or.inr (Or.inl (⟨x, b, rfl, h0, by cases h; rfl⟩))
      · exact Or.inr (Or.inr (⟨x, y, b, p, rfl, h0, h1, by cases h; rfl⟩))
  · rintro (⟨rfl, rfl⟩ | ⟨x, b, rfl, h0, rfl⟩ | ⟨x, y, b, p, rfl, h0, h1, rfl⟩)
    · unfold PyBind.jsonArgs; rw [json_args.mpr (Or.inl (⟨rfl, rfl⟩))]
    · unfold PyBind.jsonArgs; rw [json_args.mpr (Or.inr (Or.inl (⟨x, b, rfl, h0, rfl⟩)))]
    · unfold PyBind.jsonArgs; rw [json_args.mpr (Or.inr (Or.inr (⟨x, y, b, p, rfl, h0, h1, rfl⟩)))]

end Wis
