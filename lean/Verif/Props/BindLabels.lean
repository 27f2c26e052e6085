import Verif.Props.Bind
import Verif.Props.Discriminator
import Verif.Props.Wisard
import Verif.Props.PyOutput
import Verif.Props.Kwargs
/-!
# C145 for options, C146: lists and BinInput given to a Discriminator, C147: labels come back
-/

namespace Wis
open Spec PyBind

/-! ## C145: keyword values -/

theorem get?_iff {α : Type} {l : Load α} {a : α} : get? l = some a ↔ l = .ok a := by
  cases l <;> simp [get?]

/-- C145 for the values of keyword arguments: what each option accepts and which value it gets. -/
theorem C145_options (L : PyLib) (x : PyVal) :
    (∀ b, (casts L).bool x = some b ↔ PyBool x b) ∧
    (∀ i, (casts L).int x = some i ↔ PyInt x i ∧ -2147483648 ≤ i ∧ i ≤ 2147483647) ∧
    (∀ q, (casts L).float x = some q ↔ PyNumber L x q) ∧
    (∀ v, (casts L).ints x = some v ↔ PyImage x v) ∧
    (∀ v, (casts L).intss x = some v ↔ PyImages x v) := by
  refine ⟨fun b => ?_, fun i => ?_, fun q => ?_, fun v => ?_, fun v => ?_⟩
  · simp only [casts, get?_iff, loadBool_ok]
  · simp only [casts, get?_iff, loadI32_ok]
  · simp only [casts, ← number_ok, Load.map_ok, Option.map_eq_some_iff, get?_iff]
    exact exists_congr fun a => and_congr_right fun _ => eq_comm
  · simp only [casts, get?_iff, image_ok]
  · simp only [casts, get?_iff, images_ok]

theorem toMap_go {α : Type} : ∀ (l : List (Str × α)) (m : SMap α), m.Sorted →
    (l.foldl putNew m).Sorted ∧
    ∀ k, (l.foldl putNew m).find k =
      (m.find k).or ((l.find? (fun e => decide (e.1 = k))).map (·.2)) := by
  intro l
  induction l with
  | nil => intro m h; exact ⟨h, fun k => by simp⟩
  | cons e l ih =>
    intro m h
    simp only [List.foldl_cons, putNew]
    cases hf : m.find e.1 with
    | some v =>
      obtain ⟨h1, h2⟩ := ih m h
      refine ⟨h1, fun k => ?_⟩
      rw [h2]
      by_cases hk : e.1 = k
      · subst hk; simp [hf]
      · rw [List.find?_cons_of_neg (by simpa using hk)]
    | none =>
      obtain ⟨h1, h2⟩ := ih (m.set e.1 e.2) (SMap.sorted_set h _ _)
      refine ⟨h1, fun k => ?_⟩
      rw [h2]
      by_cases hk : e.1 = k
      · subst hk; simp [hf, SMap.find_set_self]
      · rw [List.find?_cons_of_neg (by simpa using hk), SMap.find_set_ne _ _ (fun h => hk h.symm)]

/-- C145 for the option `mapping` of a Wisard: a dict from labels to lists of lists of positions. -/
theorem C145_mapping (L : PyLib) (x : PyVal) (m : SMap (List (List Int))) :
    (casts L).mapping x = some m → ∃ kvs l, x = .dict kvs ∧
      List.Forall₂ (fun (e : PyVal × PyVal) (p : Str × List (List Int)) => PyText e.1 p.1 ∧ PyImages e.2 p.2) kvs l ∧
      ∀ k, m.find k = (l.find? (fun e => decide (e.1 = k))).map (·.2) := by
  intro h
  simp only [casts, Option.map_eq_some_iff, get?_iff] at h
  obtain ⟨l, h, rfl⟩ := h
  unfold loadDict at h
  split at h
  · next kvs =>
    refine ⟨kvs, l, rfl, (allOf_ok.mp h).imp fun e p hp => ?_, fun k => ?_⟩
    · obtain ⟨h1, h2⟩ := Load.both_ok.mp hp
      exact ⟨loadStr_ok.mp h1, images_ok.mp h2⟩
    · rw [toMap, (toMap_go l [] SMap.sorted_nil).2 k]
      rfl
  · cases h

/-- A dict of labels and positions is accepted. -/
theorem C145_mapping_accepted (L : PyLib) (kvs : List (PyVal × PyVal)) (l : List (Str × List (List Int)))
    (h : List.Forall₂ (fun (e : PyVal × PyVal) (p : Str × List (List Int)) => PyText e.1 p.1 ∧ PyImages e.2 p.2) kvs l) :
    ∃ m, (casts L).mapping (.dict kvs) = some m := by
  refine ⟨toMap l, ?_⟩
  simp only [casts, Option.map_eq_some_iff, get?_iff]
  refine ⟨l, allOf_ok.mpr (h.imp fun e p hp => Load.both_ok.mpr ⟨loadStr_ok.mpr hp.1, images_ok.mpr hp.2⟩), rfl⟩

/-! ## C146 -/

/-- **C146**, what holds: a list of at least one image trains every image in turn, also from Python. Missing: the empty list
(`C146_empty_list`) and `BinInput` (`C146_binInput`), for which the claim is false. -/
theorem C146_images_partial (L : PyLib) (d : Discriminator) (x : PyVal) (xs : List (List Int)) (h : PyImages x xs) (hn : xs ≠ []) :
    d.pyTrain L [x] = some (d.trainAll (xs.map .vec)) :=
  (C145_discriminator_train L d [x] _).mpr (.inr (.inr ⟨x, xs, rfl, h, hn, rfl⟩))

/-- **C146 is false** for the empty list: training no images does nothing (C++), but from Python `[]` is taken for one image
without pixels and the call fails. -/
theorem C146_empty_list (L : PyLib) (d : Discriminator) (h : d.entrySize ≠ 0) :
    PyImages (.list []) [] ∧ d.trainAll [] = (d, .ok ()) ∧ d.pyTrain L [.list []] = some (d, .error (.throw .entrySize)) := by
  refine ⟨images_nil.mpr rfl, rfl, ?_⟩
  rw [(C145_discriminator_train L d [.list []] (d.train (.vec []))).mpr (.inl ⟨_, [], rfl, ⟨[], rfl, .nil, by simp⟩, rfl⟩)]
  rw [(C21_wrong_length_rejected d (.vec []) (by simpa [Image.size] using h.symm)).1]

/-- **C146 is false** for `BinInput`: `BinInput` has `__getitem__` (wisard_bind.cc:11) but no `__len__`. If pybind11 takes such
objects for sequences, as Python's `PySequence_Check` does, then the first overload raises an exception and no `BinInput` can
be trained or classified. -/
theorem C146_binInput (L : PyLib) (hL : L.getitemIsSequence = true) (d : Discriminator) (b : BinInput) :
    d.pyTrain L [.binInput b] = none ∧ d.pyClassify L [.binInput b] = none := by
  have h1 : ∀ i, ¬ PyImage (.binInput b) i := fun i h => by obtain ⟨ys, h, _⟩ := h; cases h
  have h2 : ∀ i, ¬ PyImages (.binInput b) i := fun i h => by obtain ⟨ys, h, _⟩ := h; cases h
  constructor
  · rw [Option.eq_none_iff_forall_ne_some]
    intro r h
    rcases (C145_discriminator_train L d _ r).mp h with ⟨x, i, hx, h, _⟩ | ⟨_, _, h, _⟩ | ⟨x, i, hx, h, _⟩
    · cases hx; exact h1 _ h
    · rw [hL] at h; cases h
    · cases hx; exact h2 _ h
  · rw [Option.eq_none_iff_forall_ne_some]
    intro r h
    rcases (C145_discriminator_classify L d _ r).mp h with ⟨x, i, hx, h, _⟩ | ⟨_, _, h, _⟩
    · cases hx; exact h1 _ h
    · rw [hL] at h; cases h

/-- C146: otherwise a `BinInput` is trained and classified like the list of its pixels would be in C++. -/
theorem C146_binInput_accepted (L : PyLib) (hL : L.getitemIsSequence = false) (d : Discriminator) (b : BinInput) :
    d.pyTrain L [.binInput b] = some (d.train (.bin b)) ∧ d.pyClassify L [.binInput b] = some (d.classify (.bin b)) :=
  ⟨(C145_discriminator_train L d _ _).mpr (.inr (.inl ⟨b, rfl, hL, rfl⟩)), (C145_discriminator_classify L d _ _).mpr (.inr ⟨b, rfl, hL, rfl⟩)⟩

/-! ## C147 -/

theorem train1_keys {w : Wisard} {env : Env} {img : Image} {l k : Str} (h : k ∈ (w.train1 env img l).1.discriminators.keys) :
    k ∈ w.discriminators.keys ∨ k = l := by
  by_cases hk : k = l
  · exact .inr hk
  · left
    rw [SMap.mem_keys_iff] at h ⊢
    rwa [(train1_other w env img l).2.2.1 k hk] at h

theorem trainLoop_keys {env : Nat → Env} : ∀ (es : List (Image × Str)) (w : Wisard) (i : Nat) (k : Str),
    k ∈ (w.trainLoop env es i).1.discriminators.keys → k ∈ w.discriminators.keys ∨ k ∈ es.map (·.2) := by
  intro es
  induction es with
  | nil => intro w i k h; exact .inl h
  | cons e es ih =>
    intro w i k h
    obtain ⟨img, l⟩ := e
    simp only [Wisard.trainLoop] at h
    have h1 := @train1_keys w (env i) img l k
    revert h h1
    rcases w.train1 (env i) img l with ⟨w', _ | u⟩ <;> intro h h1
    · rcases h1 h with h1 | h1
      · exact .inl h1
      · simp [h1]
    · rcases ih w' (i + 1) k h with h | h
      · rcases h1 h with h1 | h1
        · exact .inl h1
        · simp [h1]
      · exact .inr (by simp [h])

theorem trainDataLoop_keys {env : Nat → Env} {ds : DataSet} : ∀ (bs : List BinInput) (w : Wisard) (i : Nat) (k : Str),
    k ∈ (w.trainDataLoop env ds bs i).1.discriminators.keys → k ∈ w.discriminators.keys ∨ ∃ j, ds.getLabel j = .ok k := by
  intro bs
  induction bs with
  | nil => intro w i k h; exact .inl h
  | cons b bs ih =>
    intro w i k h
    simp only [Wisard.trainDataLoop] at h
    cases hl : ds.getLabel i with
    | error e => rw [hl] at h; exact .inl h
    | ok l =>
      rw [hl] at h
      simp only at h
      have h1 := @train1_keys w (env i) (.bin b) l k
      revert h h1
      rcases w.train1 (env i) (.bin b) l with ⟨w', _ | u⟩ <;> intro h h1
      · rcases h1 h with h1 | h1
        · exact .inl h1
        · exact .inr ⟨i, h1 ▸ hl⟩
      · rcases ih w' (i + 1) k h with h | h
        · rcases h1 h with h1 | h1
          · exact .inl h1
          · exact .inr ⟨i, h1 ▸ hl⟩
        · exact .inr h

/-- C147: after a training call from Python, failing or not, every class is one that was there or one of the labels
given. -/
theorem C147_classes (L : PyLib) (w w' : Wisard) (env : Nat → Env) (args : List PyVal) (res : Res Unit)
    (h : w.pyTrain L env args = some (w', res)) (k : Str) (hk : k ∈ w'.discriminators.keys) :
    k ∈ w.discriminators.keys ∨ (∃ x y ls, args = [x, y] ∧ PyTexts y ls ∧ k ∈ ls) ∨ (∃ ds j, args = [.dataSet ds] ∧ ds.getLabel j = .ok k) := by
  rcases (C145_wisard_train L w env args _).mp h with ⟨x, y, xs, ls, rfl, _, hl, hr⟩ | ⟨ds, rfl, hr⟩
  · have : w' = (w.train env xs ls).1 := congrArg Prod.fst hr
    subst this
    unfold Wisard.train at hk
    split at hk
    · exact .inl hk
    · rcases trainLoop_keys _ _ _ _ hk with hk | hk
      · exact .inl hk
      · refine .inr (.inl ⟨x, y, ls, rfl, hl, ?_⟩)
        simp only [List.mem_map, Prod.exists, exists_eq_right] at hk
        obtain ⟨i, hk⟩ := hk
        exact (List.of_mem_zip hk).2
  · have : w' = (w.trainDataSet env ds).1 := congrArg Prod.fst hr
    subst this
    unfold Wisard.trainDataSet at hk
    dsimp only at hk
    split at hk
    · exact .inl hk
    · rcases trainDataLoop_keys _ _ _ _ hk with hk | ⟨j, hk⟩
      · exact .inl hk
      · exact .inr (.inr ⟨ds, j, rfl, hk⟩)

/-- C147: the labels of a list of `str` are their UTF-8. -/
theorem C147_str_labels (cs : List (List Nat)) (ls : List Str) (h : PyTexts (.list (cs.map .str)) ls) : List.Forall₂ Utf8Of cs ls := by
  obtain ⟨xs, hx, h⟩ := h
  cases hx
  rw [List.forall₂_map_left_iff] at h
  exact h.imp fun c l h => by cases h; assumption

theorem touch_keys {s : Scores} {a k : Str} (h : k ∈ (PyOut.touch s a).1.keys) : k ∈ s.keys ∨ k = a := by
  unfold PyOut.touch at h
  split at h
  · exact .inl h
  · rcases SMap.keys_set.mp h with h | h
    · exact .inr h
    · exact .inl h

theorem output_names {o : WisardOpts} {a : Str} {k : Int} {s : Scores} {n : Str} (h : n ∈ (PyOut.setClassifyOutput o a k s).names) :
    n = a ∨ n ∈ s.keys := by
  unfold PyOut.setClassifyOutput at h
  split at h
  · simp only [PyLabel.names, List.mem_singleton] at h; exact .inl h
  · have deg : ∀ c : Scores, n ∈ (PyOut.getClassesDegrees c).map (·.1) → n ∈ c.keys := by
      intro c hc
      simpa [PyOut.getClassesDegrees, SMap.keys] using hc
    cases g1 : o.returnActivationDegree <;> cases g2 : o.returnConfidence <;> cases g3 : o.returnClassesDegrees <;>
      simp only [PyLabel.names, g1, g2, g3, if_true, if_false, Bool.false_eq_true, Option.getD_some, Option.getD_none, List.map_nil, List.mem_cons, List.not_mem_nil, or_false] at h
    all_goals (first | exact .inl h | (rcases h with h | h; · exact .inl h))
    · exact .inr (deg _ h)
    · rcases touch_keys (deg _ h) with h | h
      · exact .inr h
      · exact .inl h
    · rcases touch_keys (deg _ h) with h | h
      · exact .inr h
      · exact .inl h
    · rcases touch_keys (deg _ h) with h | h
      · rcases touch_keys h with h | h
        · exact .inr h
        · exact .inl h
      · exact .inl h

/-- Every name returned is a class of the model, or `""` if there is none. -/
theorem pyClassify_names {w : Wisard} {xs : List Image} {rs : List PyLabel} (h : PyOut.pyClassify w xs = .ok rs) :
    ∀ r ∈ rs, ∀ n ∈ r.names, n ∈ w.discriminators.keys ∨ (w.discriminators = [] ∧ n = []) := by
  unfold PyOut.pyClassify at h
  split at h
  · cases h
  · obtain ⟨k, _, h⟩ := bind_eq_ok h
    intro r hr n hn
    obtain ⟨i, hi⟩ := List.mem_iff_getElem?.mp hr
    obtain ⟨x, _, s, hs, rfl⟩ := loop_get w k _ rs h i r hi
    obtain ⟨k1, k2⟩ := classify1_keys hs
    rcases output_names hn with hn | hn
    · by_cases hne : s = []
      · subst hne
        right
        refine ⟨?_, hn⟩
        simpa [SMap.keys] using k1.symm
      · left
        obtain ⟨pre, y, post, e1, _, _, e4⟩ := Bleaching.biggest_spec hne k2
        rw [hn, e4, ← k1, e1]
        simp [SMap.keys]
    · left; rwa [← k1]

theorem mapM_decode {ls : List Str} (h : ∀ l ∈ ls, Utf8 l) : ∃ cs, ls.mapM decode = some cs ∧ List.Forall₂ (fun l c => Utf8Of c l) ls cs := by
  induction ls with
  | nil => exact ⟨[], rfl, .nil⟩
  | cons l ls ih =>
    obtain ⟨cs, h1, h2⟩ := ih fun l hl => h l (by simp [hl])
    obtain ⟨c, hc⟩ := (h l (by simp)).of
    refine ⟨c :: cs, ?_, .cons hc h2⟩
    rw [List.mapM_cons, decode_of hc, h1]
    rfl

theorem mapM_decode_none {ls : List Str} {l : Str} (hl : l ∈ ls) (h : ¬ Utf8 l) : ls.mapM decode = none := by
  induction ls with
  | nil => cases hl
  | cons a ls ih =>
    rw [List.mapM_cons]
    rcases List.mem_cons.mp hl with rfl | hl
    · have : decode l = none := by
        rw [Option.eq_none_iff_forall_ne_some]
        intro cs hc
        exact h (decode_iff.mp hc).utf8
      rw [this]; rfl
    · rw [ih hl]
      cases decode a <;> rfl

/-- **C147**: if all classes have labels that were given as `str`, then every label returned by `classify` arrives in Python as
the `str` that was given: the label decoded is the label of a class (or `""` without classes), with the same characters. -/
theorem C147_labels_come_back (w : Wisard) (xs : List Image) (rs : List PyLabel) (h : PyOut.pyClassify w xs = .ok rs)
    (hu : ∀ l ∈ w.discriminators.keys, ∃ cs, Utf8Of cs l) :
    ∃ ns, PyBind.toPython rs = some ns ∧ List.Forall₂ (fun r n => List.Forall₂ (fun l cs => Utf8Of cs l ∧
      (l ∈ w.discriminators.keys ∨ (w.discriminators = [] ∧ l = []))) r.names n) rs ns := by
  have hn := pyClassify_names h
  clear h
  induction rs with
  | nil => exact ⟨[], rfl, .nil⟩
  | cons r rs ih =>
    obtain ⟨ns, h1, h2⟩ := ih fun r hr => hn r (by simp [hr])
    have hr := hn r (by simp)
    obtain ⟨n, h3, h4⟩ := mapM_decode (ls := r.names) fun l hl => by
      rcases hr l hl with h | ⟨_, rfl⟩
      · obtain ⟨cs, h⟩ := hu l h; exact h.utf8
      · exact .nil
    refine ⟨n :: ns, by simp only [PyBind.toPython, h3, h1], .cons ?_ h2⟩
    clear h3
    generalize r.names = names at h4 hr
    induction h4 with
    | nil => exact .nil
    | cons a _ ih' => exact .cons ⟨a, hr _ (by simp)⟩ (ih' fun l hl => hr l (by simp [hl]))

/-- C147: the characters of a label are unique, so a label decodes to the `str` it was encoded from. -/
theorem C147_same_text (cs ds : List Nat) (l : Str) (h : Utf8Of cs l) (h' : Utf8Of ds l) : cs = ds := h.unique h'

/-- C147: a label given as `bytes` that is not UTF-8 is accepted for training, but `classify` raises `UnicodeDecodeError` whenever
it has to return it. -/
theorem C147_bytes_raise (rs : List PyLabel) (r : PyLabel) (hr : r ∈ rs) (l : Str) (hl : l ∈ r.names) (hu : ¬ Utf8 l) :
    PyBind.toPython rs = none := by
  induction rs with
  | nil => cases hr
  | cons a rs ih =>
    simp only [PyBind.toPython]
    rcases List.mem_cons.mp hr with rfl | hr
    · rw [mapM_decode_none hl hu]
    · rw [ih hr]
      cases a.names.mapM decode <;> rfl

/-! ## Examples -/

/-- Exact numbers; `BinInput` counts as a sequence. -/
def exLib : PyLib := ⟨id, fun i => some i, true⟩

/-- `[[0, True], (1, 1)]` is a list of two images. -/
example : PyImages (.list [.list [.int 0, .bool true], .list [.int 1, .int 1]]) [[0, 1], [1, 1]] :=
  ⟨_, rfl, .cons ⟨_, rfl, .cons (.int 0) (.cons .true .nil), by decide⟩ (.cons ⟨_, rfl, .cons (.int 1) (.cons (.int 1) .nil), by decide⟩ .nil)⟩

/-- `["é", b"b"]` is a list of two labels. -/
example : PyTexts (.list [.str [0xE9], .bytes b!"b"]) [[0xC3, 0xA9], b!"b"] :=
  ⟨_, rfl, .cons (.str (encode_iff.mp rfl)) (.cons (.bytes _) .nil)⟩

/-- `w.train([[1.0]], ["a"])`, `w.train([[4294967296]], ["a"])` and `w.train([[1]], [3])` are refused. -/
example (w : Wisard) (env : Nat → Env) : w.pyTrain exLib env [.list [.list [.float 1]], .list [.str [0x61]]] = none ∧
    w.pyTrain exLib env [.list [.list [.int 4294967296]], .list [.str [0x61]]] = none ∧
    w.pyTrain exLib env [.list [.list [.int 1]], .list [.int 3]] = none := ⟨rfl, rfl, rfl⟩

/-- `Wisard(3, base=4)` and `Wisard(base=4)`. -/
example (ft : FloatText) (fs : Fs) : Wisard.py exLib ft fs [.int 3] [(b!"base", .int 4)] = some (.ok (Wisard.create 3 { base := 4 })) ∧
    Wisard.py exLib ft fs [] [(b!"base", .int 4)] = none := ⟨rfl, rfl⟩

/-- A label that was given as `bytes` and is not UTF-8. -/
def exBytes : Wisard :=
  ((Wisard.create 3 { bleachingActivated := false }).train (fun _ => ⟨Rnd.id, true⟩) [[0, 1, 1]] [[0xE9]]).1

example : PyOut.pyClassify exBytes [.vec [0, 1, 1]] = .ok [.plain [0xE9]] ∧ PyBind.toPython [.plain [0xE9]] = none := by decide +kernel

/-- The same with the label `"é"`. -/
def exStr : Wisard :=
  ((Wisard.create 3 { bleachingActivated := false }).train (fun _ => ⟨Rnd.id, true⟩) [[0, 1, 1]] [[0xC3, 0xA9]]).1

example : PyOut.pyClassify exStr [.vec [0, 1, 1]] = .ok [.plain [0xC3, 0xA9]] ∧ PyBind.toPython [.plain [0xC3, 0xA9]] = some [[[0xE9]]] ∧
    exStr.discriminators.keys = [[0xC3, 0xA9]] := by decide +kernel

end Wis
