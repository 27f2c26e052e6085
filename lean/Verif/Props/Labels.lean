import Verif.Props.Semantics
/-!
# Properties C112, C113: labels are opaque names

C112: renaming the labels by a function that keeps their order renames the results and changes nothing else, for all
options. C113: renaming by any injective function (which may change the order) keeps all scores, unless bleaching runs
with a confidence above 1; only ties are then decided differently.
-/

namespace Wis.Spec

/-- `f` keeps the (byte-wise) order of labels. -/
def KeepsOrder (f : Str → Str) : Prop := ∀ a b, Str.lt a b = true → Str.lt (f a) (f b) = true

/-- All keys of a map renamed, in place. -/
def renameMap {V : Type} (f : Str → Str) (m : SMap V) : SMap V := m.map (fun e => (f e.1, e.2))

/-- The options with the labels of `mapping` renamed. -/
def renameOpts (f : Str → Str) (o : WisardOpts) : WisardOpts := { o with mapping := renameMap f o.mapping }

/-- The call with its label renamed. -/
def WOp.rename (f : Str → Str) : WOp → WOp
  | .train env img l => .train env img (f l)
  | .leave img l => .leave img (f l)

end Wis.Spec

namespace Wis
open Spec

/-- The model with all labels renamed. -/
def renameW (f : Str → Str) (w : Wisard) : Wisard :=
  { w with opts := renameOpts f w.opts, discriminators := renameMap f w.discriminators }

theorem Spec.KeepsOrder.inj {f : Str → Str} (h : KeepsOrder f) {a b : Str} (e : f a = f b) : a = b := by
  apply Classical.byContradiction
  intro hne
  cases hl : Str.lt a b with
  | true => exact Str.lt_ne (h _ _ hl) e
  | false => exact Str.lt_ne (h _ _ (Str.lt_total hne hl)) e.symm

theorem Spec.KeepsOrder.lt_eq {f : Str → Str} (h : KeepsOrder f) (a b : Str) : Str.lt (f a) (f b) = Str.lt a b := by
  cases hl : Str.lt a b with
  | true => exact h _ _ hl
  | false =>
    by_cases e : a = b
    · rw [e]; exact Str.lt_irrefl _
    · exact Str.lt_asymm (h _ _ (Str.lt_total e hl))

theorem find_rename {V : Type} {f : Str → Str} (hf : ∀ a b, f a = f b → a = b) (m : SMap V) (l : Str) :
    (renameMap f m).find (f l) = m.find l := by
  induction m with
  | nil => rfl
  | cons e m ih =>
    obtain ⟨k, v⟩ := e
    simp only [renameMap, List.map_cons, SMap.find] at ih ⊢
    by_cases h : k = l
    · simp [h]
    · rw [if_neg h, if_neg (fun e => h (hf _ _ e))]; exact ih

theorem set_rename {V : Type} {f : Str → Str} (hf : KeepsOrder f) (m : SMap V) (l : Str) (v : V) :
    (renameMap f m).set (f l) v = renameMap f (m.set l v) := by
  induction m with
  | nil => rfl
  | cons e m ih =>
    obtain ⟨k, u⟩ := e
    simp only [renameMap, List.map_cons, SMap.set] at ih ⊢
    by_cases h : k = l
    · subst h
      simp
    · rw [if_neg h, if_neg (fun e => h (hf.inj e)), hf.lt_eq]
      cases Str.lt l k with
      | true => simp
      | false => simp [ih]

theorem new_rename {f : Str → Str} (hf : ∀ a b, f a = f b → a = b) (rnd : Rnd) (A : Int) (o : WisardOpts) (l : Str) (n : Int) :
    Wisard.newDiscriminator rnd A (renameOpts f o) (f l) n = Wisard.newDiscriminator rnd A o l n := by
  unfold Wisard.newDiscriminator
  rw [show (renameOpts f o).mapping = renameMap f o.mapping from rfl, find_rename hf]
  rfl

theorem trainKnown_rename {f : Str → Str} (hf : KeepsOrder f) (w : Wisard) (img : Image) (l : Str) :
    (renameW f w).trainKnown img (f l) = (renameW f (w.trainKnown img l).1, (w.trainKnown img l).2) := by
  unfold Wisard.trainKnown
  simp only [renameW, find_rename (fun _ _ => hf.inj), set_rename hf]

theorem wstep_rename {f : Str → Str} (hf : KeepsOrder f) (w : Wisard) (o : WOp) :
    wstep (renameW f w) (o.rename f) = (renameW f (wstep w o).1, (wstep w o).2) := by
  cases o with
  | train env img l =>
    simp only [wstep, WOp.rename, Wisard.train1]
    have h1 : (renameW f w).discriminators.find (f l) = w.discriminators.find l := find_rename (fun _ _ => hf.inj) _ _
    rw [h1]
    cases w.discriminators.find l with
    | some d => exact trainKnown_rename hf w img l
    | none =>
      have hm : (renameW f w).makeDiscriminator env (f l) img.size =
          (renameW f (w.makeDiscriminator env l img.size).1, (w.makeDiscriminator env l img.size).2) := by
        unfold Wisard.makeDiscriminator
        rw [show (renameW f w).opts = renameOpts f w.opts from rfl, show (renameW f w).addressSize = w.addressSize from rfl,
          new_rename (fun _ _ => hf.inj)]
        cases Wisard.newDiscriminator env.rnd w.addressSize w.opts l img.size with
        | ok d => simp only [renameW, set_rename hf]
        | error e => cases env.lhsFirst <;> simp [renameW, set_rename hf]
      simp only [hm]
      cases hw : w.makeDiscriminator env l img.size with
      | mk w' r =>
        cases r with
        | ok u => exact trainKnown_rename hf w' img l
        | error e => rfl
  | leave img l =>
    simp only [wstep, WOp.rename, Wisard.leaveOneOut]
    have h1 : (renameW f w).discriminators.find (f l) = w.discriminators.find l := find_rename (fun _ _ => hf.inj) _ _
    rw [h1]
    cases w.discriminators.find l with
    | none => rfl
    | some d => simp only [renameW, set_rename hf]

theorem wplay_rename {f : Str → Str} (hf : KeepsOrder f) (ops : List WOp) : ∀ w : Wisard,
    wplay (renameW f w) (ops.map (WOp.rename f)) = (renameW f (wplay w ops).1, (wplay w ops).2) := by
  induction ops with
  | nil => intro w; rfl
  | cons o ops ih =>
    intro w
    simp only [List.map_cons, wplay, wstep_rename hf, ih]

theorem allvotes_rename (f : Str → Str) (x : Image) (m : SMap Discriminator) :
    Wisard.allvotes x (renameMap f m) = (Wisard.allvotes x m).map (renameMap f) := by
  induction m with
  | nil => rfl
  | cons e m ih =>
    obtain ⟨l, d⟩ := e
    simp only [renameMap, List.map_cons, Wisard.allvotes] at ih ⊢
    cases d.classify x with
    | error e => rfl
    | ok v =>
      simp only [Except.bind_ok, ih]
      cases Wisard.allvotes x m with
      | error e => rfl
      | ok vs => rfl

theorem activeAll_rename (f : Str → Str) (b : Int) (votes : Votes) :
    activeAll b (renameMap f votes) = renameMap f (activeAll b votes) := by
  simp [activeAll, renameMap, List.map_map, Function.comp_def]

theorem ambLoop_rename (f : Str → Str) (c : Int) (s : Scores) : ∀ (b : Int) (a : Bool),
    Bleaching.ambLoop c (renameMap f s) b a = Bleaching.ambLoop c s b a := by
  induction s with
  | nil => intro b a; rfl
  | cons e s ih =>
    obtain ⟨l, v⟩ := e
    intro b a
    simp only [renameMap, List.map_cons, Bleaching.ambLoop] at ih ⊢
    simp only [ih]

theorem loop_rename (f : Str → Str) (votes : Votes) (bl : Bool) (c : Int) (b : Int) :
    Bleaching.loop (renameMap f votes) bl c b = (Bleaching.loop votes bl c b).map (fun p => (renameMap f p.1, p.2)) := by
  have hs : ∀ b, Bleaching.scores (renameMap f votes) b = renameMap f (Bleaching.scores votes b) := by
    intro b; simp only [Bleaching.scores_eq, activeAll_rename]
  have ha : ∀ b, Bleaching.again (renameMap f (Bleaching.scores votes b)) c = Bleaching.again (Bleaching.scores votes b) c := by
    intro b; unfold Bleaching.again Bleaching.isThereAmbiguity; rw [ambLoop_rename]
  induction b using Bleaching.loop.induct (allvotes := votes) (bleachingActivated := bl) (confidence := c) with
  | case1 b hbl =>
    rw [Bleaching.loop, Bleaching.loop.eq_def votes]
    simp [hbl, hs, Except.map]
  | case2 b hbl e he =>
    rw [Bleaching.loop, Bleaching.loop.eq_def votes]
    simp [hbl, he, Except.map]
  | case3 b labels hbl v hv h ih =>
    rw [Bleaching.loop, Bleaching.loop.eq_def votes]
    simp only [hbl, hv, hs, ha]
    rw [dif_pos h, dif_pos h]
    simpa using ih
  | case4 b labels hbl v hv h =>
    rw [Bleaching.loop, Bleaching.loop.eq_def votes]
    simp only [hbl, hv, hs, ha]
    rw [dif_neg h, dif_neg h]
    simp [Except.map]

theorem make_rename (f : Str → Str) (votes : Votes) (bl sbc : Bool) (c : Int) :
    Bleaching.make (renameMap f votes) bl sbc c = (Bleaching.make votes bl sbc c).map (renameMap f) := by
  have : ∀ sbc, Bleaching.make (renameMap f votes) bl sbc c = (Bleaching.make votes bl sbc c).map (renameMap f) := by
    intro sbc
    have h := loop_rename f votes bl c 1
    cases sbc <;>
    · unfold Bleaching.make Bleaching.makeWithConfidence Bleaching.makeConfidenceless
      simp only [h, if_true, Bool.false_eq_true, if_false]
      cases Bleaching.loop votes bl c 1 with
      | error e => rfl
      | ok p => rfl
  exact this sbc

theorem biggestLoop_rename (f : Str → Str) (s : Scores) : ∀ (l : Str) (b : Int),
    Bleaching.biggestLoop (renameMap f s) (f l) b = f (Bleaching.biggestLoop s l b) := by
  induction s with
  | nil => intro l b; rfl
  | cons e s ih =>
    obtain ⟨k, v⟩ := e
    intro l b
    simp only [renameMap, List.map_cons, Bleaching.biggestLoop] at ih ⊢
    by_cases h : v ≥ b
    · rw [if_pos h, if_pos h, ih]
    · rw [if_neg h, if_neg h, ih]

theorem biggest_rename (f : Str → Str) (s : Scores) (hne : s ≠ []) (h0 : ∀ e ∈ s, 0 ≤ e.2) :
    Bleaching.getBiggestCandidate (renameMap f s) = f (Bleaching.getBiggestCandidate s) := by
  obtain ⟨e, s, rfl⟩ := List.exists_cons_of_ne_nil hne
  obtain ⟨k, v⟩ := e
  have hv : v ≥ 0 := h0 (k, v) (by simp)
  have := biggestLoop_rename f s k v
  unfold Bleaching.getBiggestCandidate
  simp only [renameMap, List.map_cons, Bleaching.biggestLoop] at this ⊢
  rw [if_pos hv, if_pos hv]
  exact this

theorem classify1_rename (f : Str → Str) (w : Wisard) (x : Image) :
    (renameW f w).classify1 x = (w.classify1 x).map (renameMap f) := by
  unfold Wisard.classify1
  rw [show (renameW f w).discriminators = renameMap f w.discriminators from rfl, allvotes_rename]
  cases Wisard.allvotes x w.discriminators with
  | error e => rfl
  | ok v => exact make_rename f v _ _ _

theorem classify1_shape {w : Wisard} {x : Image} {s : Scores} (h : w.classify1 x = .ok s) :
    SMap.keys s = w.discriminators.keys ∧ ∀ e ∈ s, 0 ≤ e.2 := by
  unfold Wisard.classify1 at h
  obtain ⟨v, h1, h⟩ := bind_eq_ok h
  obtain ⟨b, _, h2, _⟩ := C38_scores_at_least_threshold _ _ _ _ _ h
  rw [h2]
  exact ⟨(Bleaching.activeAll_keys b v).trans (allvotes_ok h1).1, Bleaching.activeAll_nonneg b v⟩

theorem classify_rename (f : Str → Str) (w : Wisard) (hne : w.discriminators ≠ []) (xs : List Image) :
    (renameW f w).classify xs = (w.classify xs).map (List.map f) := by
  induction xs with
  | nil => rfl
  | cons x xs ih =>
    simp only [Wisard.classify, classify1_rename, ih]
    cases h : w.classify1 x with
    | error e => rfl
    | ok s =>
      obtain ⟨h1, h2⟩ := classify1_shape h
      have hs : s ≠ [] := by
        intro h0
        rw [h0] at h1
        exact hne (List.map_eq_nil_iff.mp h1.symm)
      cases w.classify xs with
      | error e => rfl
      | ok ls =>
        change Except.ok (_ :: _) = Except.ok (_ :: _)
        rw [biggest_rename f s hs h2]

theorem mentalImages_rename (f : Str → Str) (it : IterOrder) (m : SMap Discriminator) :
    Wisard.mentalImagesLoop it (renameMap f m) = (Wisard.mentalImagesLoop it m).map (renameMap f) := by
  induction m with
  | nil => rfl
  | cons e m ih =>
    obtain ⟨l, d⟩ := e
    simp only [renameMap, List.map_cons, Wisard.mentalImagesLoop] at ih ⊢
    cases d.getMentalImage it with
    | error e => rfl
    | ok v =>
      simp only [Except.bind_ok, ih]
      cases Wisard.mentalImagesLoop it m with
      | error e => rfl
      | ok vs => rfl

/-! ## C112 -/

/-- C112: perform any calls on a new model, and the same calls with all labels renamed by `f`, which keeps their order,
on a new model whose `mapping` option is renamed likewise. All calls return the same, and afterwards scores, labels
returned and mental images are the same with the labels renamed. -/
theorem C112_order_kept {f : Str → Str} (hf : KeepsOrder f) (A : Int) (o : WisardOpts) (ops : List WOp) :
    let w := (wplay (Wisard.create A o) ops).1
    let w' := (wplay (Wisard.create A (renameOpts f o)) (ops.map (WOp.rename f))).1
    (wplay (Wisard.create A (renameOpts f o)) (ops.map (WOp.rename f))).2 = (wplay (Wisard.create A o) ops).2 ∧
    w'.discriminators.keys = w.discriminators.keys.map f ∧
    (∀ x, w'.classify1 x = (w.classify1 x).map (renameMap f)) ∧
    (w.discriminators ≠ [] → ∀ xs, w'.classify xs = (w.classify xs).map (List.map f)) ∧
    ∀ it, w'.getMentalImages it = (w.getMentalImages it).map (renameMap f) := by
  intro w w'
  have h : wplay (Wisard.create A (renameOpts f o)) (ops.map (WOp.rename f)) = (renameW f w, (wplay (Wisard.create A o) ops).2) :=
    wplay_rename hf ops (Wisard.create A o)
  have hw : w' = renameW f w := congrArg Prod.fst h
  refine ⟨by rw [h], ?_, ?_, ?_, ?_⟩
  · rw [hw]; simp [renameW, renameMap, SMap.keys, List.map_map, Function.comp_def]
  · intro x; rw [hw]; exact classify1_rename f w x
  · intro hne xs; rw [hw]; exact classify_rename f w hne xs
  · intro it; rw [hw]; exact mentalImages_rename f it w.discriminators

/-- Renamings that keep the order exist: a common prefix. -/
theorem prefix_keeps (p : Str) : KeepsOrder (p ++ ·) := by
  intro a b h
  induction p with
  | nil => exact h
  | cons c p ih => simp [Str.lt, ih]

/-- The hypotheses of C112 are met by renaming `a`, `b`, … to `x-a`, `x-b`, …. -/
example : KeepsOrder (b!"x-" ++ ·) ∧
    [WOp.train ⟨Rnd.id, true⟩ (.vec [1, 0, 1, 1]) b!"a"].map (WOp.rename (b!"x-" ++ ·)) =
      [WOp.train ⟨Rnd.id, true⟩ (.vec [1, 0, 1, 1]) b!"x-a"] := ⟨prefix_keeps _, rfl⟩

/-! ## C113 -/

/-- The map `m'` is `m` with the keys renamed, in whatever order. -/
structure RenamedMap {V : Type} (f : Str → Str) (m m' : SMap V) : Prop where
  sorted : SMap.Sorted m
  sorted' : SMap.Sorted m'
  find : ∀ l, m'.find (f l) = m.find l
  keys : ∀ k ∈ m'.keys, ∃ l, k = f l

theorem RenamedMap.set {V : Type} {f : Str → Str} (hf : ∀ a b, f a = f b → a = b) {m m' : SMap V} (h : RenamedMap f m m')
    (l : Str) (v : V) : RenamedMap f (m.set l v) (m'.set (f l) v) where
  sorted := SMap.sorted_set h.sorted _ _
  sorted' := SMap.sorted_set h.sorted' _ _
  find := by
    intro k
    by_cases hk : k = l
    · subst hk; rw [SMap.find_set_self, SMap.find_set_self]
    · rw [SMap.find_set_ne _ _ hk, SMap.find_set_ne _ _ (fun e => hk (hf _ _ e)), h.find]
  keys := by
    intro k hk
    rcases SMap.keys_set.mp hk with h1 | h1
    · exact ⟨l, h1⟩
    · exact h.keys k h1

/-- `w'` is `w` with all labels renamed. -/
structure Renamed (f : Str → Str) (w w' : Wisard) : Prop where
  size : w'.addressSize = w.addressSize
  opts : ∃ m, w'.opts = { w.opts with mapping := m } ∧ ∀ l, m.find (f l) = w.opts.mapping.find l
  classes : RenamedMap f w.discriminators w'.discriminators

theorem Renamed.new {f : Str → Str} {w w' : Wisard} (h : Renamed f w w') (rnd : Rnd) (l : Str) (n : Int) :
    Wisard.newDiscriminator rnd w'.addressSize w'.opts (f l) n = Wisard.newDiscriminator rnd w.addressSize w.opts l n := by
  obtain ⟨m, h1, h2⟩ := h.opts
  unfold Wisard.newDiscriminator
  rw [h1, h.size]
  simp only [h2]

theorem Renamed.trainKnown {f : Str → Str} (hf : ∀ a b, f a = f b → a = b) {w w' : Wisard} (h : Renamed f w w') (img : Image)
    (l : Str) : Renamed f (w.trainKnown img l).1 (w'.trainKnown img (f l)).1 ∧
      (w'.trainKnown img (f l)).2 = (w.trainKnown img l).2 := by
  unfold Wisard.trainKnown
  simp only [h.classes.find]
  exact ⟨⟨h.size, h.opts, h.classes.set hf _ _⟩, trivial⟩

theorem Renamed.step {f : Str → Str} (hf : ∀ a b, f a = f b → a = b) {w w' : Wisard} (h : Renamed f w w') (o : WOp) :
    Renamed f (wstep w o).1 (wstep w' (o.rename f)).1 ∧ (wstep w' (o.rename f)).2 = (wstep w o).2 := by
  cases o with
  | leave img l =>
    simp only [wstep, WOp.rename, Wisard.leaveOneOut, h.classes.find]
    cases w.discriminators.find l with
    | none => exact ⟨h, rfl⟩
    | some d => exact ⟨⟨h.size, h.opts, h.classes.set hf _ _⟩, rfl⟩
  | train env img l =>
    simp only [wstep, WOp.rename, Wisard.train1, h.classes.find]
    cases w.discriminators.find l with
    | some d => exact h.trainKnown hf img l
    | none =>
      simp only [Wisard.makeDiscriminator, h.new]
      cases Wisard.newDiscriminator env.rnd w.addressSize w.opts l img.size with
      | ok d =>
        exact Renamed.trainKnown hf (w := { w with discriminators := w.discriminators.set l d })
          (w' := { w' with discriminators := w'.discriminators.set (f l) d })
          ⟨h.size, h.opts, h.classes.set hf _ _⟩ img l
      | error e =>
        cases env.lhsFirst with
        | false => exact ⟨h, rfl⟩
        | true => exact ⟨⟨h.size, h.opts, h.classes.set hf _ _⟩, rfl⟩

theorem Renamed.play {f : Str → Str} (hf : ∀ a b, f a = f b → a = b) (ops : List WOp) : ∀ {w w' : Wisard}, Renamed f w w' →
    Renamed f (wplay w ops).1 (wplay w' (ops.map (WOp.rename f))).1 ∧
      (wplay w' (ops.map (WOp.rename f))).2 = (wplay w ops).2 := by
  induction ops with
  | nil => intro w w' h; exact ⟨h, rfl⟩
  | cons o ops ih =>
    intro w w' h
    obtain ⟨h1, h2⟩ := h.step hf o
    obtain ⟨h3, h4⟩ := ih h1
    simp only [List.map_cons, wplay]
    exact ⟨h3, by rw [h4, h2]⟩

theorem RenamedMap.mem' {V : Type} {f : Str → Str} {m m' : SMap V} (h : RenamedMap f m m') {l : Str} {v : V} :
    (f l, v) ∈ m' ↔ (l, v) ∈ m := by
  constructor
  · intro h1; have := SMap.find_of_mem h.sorted' h1; rw [h.find] at this; exact SMap.mem_of_find this
  · intro h1; have := SMap.find_of_mem h.sorted h1; rw [← h.find] at this; exact SMap.mem_of_find this

theorem RenamedMap.mem {V : Type} {f : Str → Str} {m m' : SMap V} (h : RenamedMap f m m') {e : Str × V} (he : e ∈ m') :
    ∃ l, e.1 = f l ∧ (l, e.2) ∈ m := by
  obtain ⟨l, hl⟩ := h.keys e.1 (List.mem_map.mpr ⟨e, he, rfl⟩)
  exact ⟨l, hl, h.mem'.mp (by rw [← hl]; exact he)⟩

theorem RenamedMap.active {f : Str → Str} {m m' : Votes} (h : RenamedMap f m m') (b : Int) :
    RenamedMap f (activeAll b m) (activeAll b m') where
  sorted := Bleaching.activeAll_sorted h.sorted b
  sorted' := Bleaching.activeAll_sorted h.sorted' b
  find := by
    intro l
    have e : ∀ (v : Votes) k, SMap.find (activeAll b v) k = (SMap.find v k).map (fun x => (Spec.active b x : Int)) :=
      fun v k => SMap.find_map v (fun x => (Spec.active b x : Int)) k
    rw [e, e, h.find]
  keys := by
    intro k hk
    rw [Bleaching.activeAll_keys] at hk
    exact h.keys k hk

theorem tied_renamed {f : Str → Str} (hf : ∀ a b, f a = f b → a = b) {s s' : Scores} (h : RenamedMap f s s') :
    TiedAbove1 s' ↔ TiedAbove1 s := by
  constructor
  · rintro ⟨a, b, ha, hb, h1, h2, h3, h4⟩
    obtain ⟨la, a1, a2⟩ := h.mem ha
    obtain ⟨lb, b1, b2⟩ := h.mem hb
    refine ⟨_, _, a2, b2, ?_, h2, h3, ?_⟩
    · intro e; exact h1 (by rw [a1, b1]; exact congrArg f e)
    · intro e he
      exact h4 (f e.1, e.2) (h.mem'.mpr he)
  · rintro ⟨a, b, ha, hb, h1, h2, h3, h4⟩
    refine ⟨(f a.1, a.2), (f b.1, b.2), h.mem'.mpr ha, h.mem'.mpr hb, fun e => h1 (hf _ _ e), h2, h3, ?_⟩
    intro e he
    obtain ⟨l, _, h5⟩ := h.mem he
    exact h4 (l, e.2) h5

theorem again_renamed {f : Str → Str} (hf : ∀ a b, f a = f b → a = b) {s s' : Scores} (h : RenamedMap f s s') {c : Int}
    (hc : c ≤ 1) : Bleaching.again s' c = Bleaching.again s c := by
  rw [Bool.eq_iff_iff, Bleaching.again_iff, Bleaching.again_iff]
  by_cases h1 : c = 1
  · subst h1
    rw [Bleaching.rival_one_iff h.sorted, Bleaching.rival_one_iff h.sorted', tied_renamed hf h]
  · have no : ∀ s : Scores, ¬ LaterRivalWithin c s := by
      rintro s ⟨pre, x, post, h7, h8, h9, h10, e, he, h11⟩
      have := h9 e he
      omega
    exact ⟨fun h => absurd h (no _), fun h => absurd h (no _)⟩

theorem loop_renamed {f : Str → Str} (hf : ∀ a b, f a = f b → a = b) {votes votes' : Votes} (h : RenamedMap f votes votes')
    {bl : Bool} {c : Int} (hc : bl = false ∨ c ≤ 1) (b : Int) :
    Bleaching.loop votes' bl c b = (Bleaching.loop votes bl c b).map (fun p => (activeAll p.2 votes', p.2)) := by
  have ha : bl = true → ∀ b, Bleaching.again (Bleaching.scores votes' b) c = Bleaching.again (Bleaching.scores votes b) c := by
    intro hbl b
    rw [Bleaching.scores_eq, Bleaching.scores_eq]
    exact again_renamed hf (h.active b) (hc.resolve_left (by rw [hbl]; decide))
  induction b using Bleaching.loop.induct (allvotes := votes) (bleachingActivated := bl) (confidence := c) with
  | case1 b hbl =>
    rw [Bleaching.loop, Bleaching.loop.eq_def votes]
    simp [hbl, Except.map, Bleaching.scores_eq]
  | case2 b hbl e he =>
    rw [Bleaching.loop, Bleaching.loop.eq_def votes]
    simp [hbl, he, Except.map]
  | case3 b labels hbl v hv h1 ih =>
    rw [Bleaching.loop, Bleaching.loop.eq_def votes]
    simp only [hbl, hv, ha (by simpa using hbl)]
    rw [dif_pos h1, dif_pos h1]
    simpa using ih
  | case4 b labels hbl v hv h1 =>
    rw [Bleaching.loop, Bleaching.loop.eq_def votes]
    simp only [hbl, hv, ha (by simpa using hbl)]
    rw [dif_neg h1, dif_neg h1]
    simp [Except.map, Bleaching.scores_eq]

theorem make_renamed {f : Str → Str} (hf : ∀ a b, f a = f b → a = b) {votes votes' : Votes} (h : RenamedMap f votes votes')
    {bl : Bool} {c : Int} (hc : bl = false ∨ c ≤ 1) (sbc : Bool) {s : Scores} (hs : Bleaching.make votes bl sbc c = .ok s) :
    ∃ s', Bleaching.make votes' bl sbc c = .ok s' ∧ RenamedMap f s s' := by
  obtain ⟨b, hb⟩ := Bleaching.make_ok hs
  have h1 := loop_renamed hf h hc 1
  rw [hb] at h1
  refine ⟨activeAll b votes', Bleaching.make_of_loop h1, ?_⟩
  rw [(Bleaching.loop_spec votes bl c 1 hb).2.1]
  exact h.active b

theorem allvotes_all {x : Image} {m : SMap Discriminator} (h : ∀ e ∈ m, ∃ v, e.2.classify x = .ok v) :
    ∃ v, Wisard.allvotes x m = .ok v := by
  induction m with
  | nil => exact ⟨[], rfl⟩
  | cons e m ih =>
    obtain ⟨l, d⟩ := e
    obtain ⟨v, hv⟩ := h (l, d) (by simp)
    obtain ⟨vs, hvs⟩ := ih (fun e he => h e (List.mem_cons_of_mem _ he))
    simp only at hv
    exact ⟨(l, v) :: vs, by simp only [Wisard.allvotes, hv, hvs, Except.bind_ok]⟩

theorem allvotes_renamed {f : Str → Str} {m m' : SMap Discriminator} (h : RenamedMap f m m')
    {x : Image} {v : Votes} (hv : Wisard.allvotes x m = .ok v) :
    ∃ v', Wisard.allvotes x m' = .ok v' ∧ RenamedMap f v v' := by
  obtain ⟨h1, h2⟩ := allvotes_ok hv
  obtain ⟨v', hv'⟩ := allvotes_all (x := x) (m := m') (by
    intro e he
    obtain ⟨l, _, h3⟩ := h.mem he
    rcases h2 l with ⟨_, h4⟩ | ⟨d, vs, h4, _, h5⟩
    · rw [SMap.find_of_mem h.sorted h3] at h4; cases h4
    · rw [SMap.find_of_mem h.sorted h3] at h4
      cases h4
      exact ⟨vs, h5⟩)
  obtain ⟨h1', h2'⟩ := allvotes_ok hv'
  refine ⟨v', hv', sorted_of_keys h.sorted h1, sorted_of_keys h.sorted' h1', ?_, ?_⟩
  · intro l
    rcases h2 l with ⟨h3, h4⟩ | ⟨d, vs, h4, h3, h5⟩
    · rcases h2' (f l) with ⟨h6, _⟩ | ⟨d', vs', h6, _, _⟩
      · rw [h3, h6]
      · rw [h.find, h4] at h6; cases h6
    · rcases h2' (f l) with ⟨_, h6⟩ | ⟨d', vs', h6, h7, h8⟩
      · rw [h.find, h4] at h6; cases h6
      · rw [h.find, h4] at h6
        cases h6
        rw [h5] at h8
        cases h8
        rw [h3, h7]
  · intro k hk
    rw [h1'] at hk
    exact h.keys k hk

theorem Renamed.classify1 {f : Str → Str} (hf : ∀ a b, f a = f b → a = b) {w w' : Wisard} (h : Renamed f w w')
    (hc : w.opts.bleachingActivated = false ∨ w.opts.confidence ≤ 1) {x : Image} {s : Scores} (hs : w.classify1 x = .ok s) :
    ∃ s', w'.classify1 x = .ok s' ∧ RenamedMap f s s' := by
  unfold Wisard.classify1 at hs ⊢
  obtain ⟨v, h1, h2⟩ := bind_eq_ok hs
  obtain ⟨v', h3, h4⟩ := allvotes_renamed h.classes h1
  obtain ⟨m, h5, _⟩ := h.opts
  rw [h3, Except.bind_ok, h5]
  exact make_renamed hf h4 hc _ h2

/-- C113: perform any calls on a new model, and the same calls with all labels renamed by an injective `f` on a new
model whose option `mapping` is renamed likewise. All calls return the same. If bleaching is off or the confidence is
at most 1 (the default), then every image that can be scored has the same score for every class, and if one class has
the highest score alone, its (renamed) label is returned: names only decide ties. -/
theorem C113_any_renaming {f : Str → Str} (hf : ∀ a b, f a = f b → a = b) (A : Int) (o o' : WisardOpts) (m : SMap (List (List Int)))
    (ho : o' = { o with mapping := m }) (hm : ∀ l, m.find (f l) = o.mapping.find l) (ops : List WOp) :
    let w := (wplay (Wisard.create A o) ops).1
    let w' := (wplay (Wisard.create A o') (ops.map (WOp.rename f))).1
    (wplay (Wisard.create A o') (ops.map (WOp.rename f))).2 = (wplay (Wisard.create A o) ops).2 ∧
    (o.bleachingActivated = false ∨ o.confidence ≤ 1 → ∀ x s, w.classify1 x = .ok s →
      ∃ s', w'.classify1 x = .ok s' ∧ (∀ l, s'.find (f l) = s.find l) ∧ (∀ k ∈ SMap.keys s', ∃ l ∈ SMap.keys s, k = f l) ∧
        ∀ e ∈ s, (∀ e' ∈ s, e'.1 ≠ e.1 → e'.2 < e.2) → w.classify [x] = .ok [e.1] ∧ w'.classify [x] = .ok [f e.1]) := by
  intro w w'
  have hr : Renamed f (Wisard.create A o) (Wisard.create A o') :=
    ⟨rfl, ⟨m, ho, hm⟩, ⟨SMap.sorted_nil, SMap.sorted_nil, fun _ => rfl, fun k hk => by cases hk⟩⟩
  obtain ⟨h1, h2⟩ := hr.play hf ops
  refine ⟨h2, ?_⟩
  intro hc x s hs
  have hopt : w.opts = o := by
    have : ∀ (ops : List WOp) (w : Wisard), (wplay w ops).1.opts = w.opts := by
      intro ops
      induction ops with
      | nil => intro w; rfl
      | cons o ops ih => intro w; simp only [wplay]; rw [ih]; exact (wstep_other w o).2.1
    exact this ops _
  obtain ⟨s', h3, h4⟩ := h1.classify1 hf (by rw [show (wplay (Wisard.create A o) ops).1.opts = o from hopt]; exact hc) hs
  have hn := (classify1_shape hs).2
  have hn' := (classify1_shape h3).2
  refine ⟨s', h3, h4.find, ?_, ?_⟩
  · intro k hk
    obtain ⟨e, he, rfl⟩ := List.mem_map.mp hk
    obtain ⟨l, h5, h6⟩ := h4.mem he
    exact ⟨l, List.mem_map.mpr ⟨_, h6, rfl⟩, h5⟩
  · intro e he hwin
    have he' := h4.mem'.mpr (show (e.1, e.2) ∈ s from he)
    constructor
    · obtain ⟨p, p1, p2, p3, _⟩ := C39_winner s h4.sorted (List.ne_nil_of_mem he) hn
      have : e.1 = p.1 := Classical.byContradiction fun hne => by
        have := hwin p p1 (Ne.symm hne); have := p3 e he; omega
      simp only [Wisard.classify, hs, Except.bind_ok, p2, this]
    · obtain ⟨p, p1, p2, p3, _⟩ := C39_winner s' h4.sorted' (List.ne_nil_of_mem he') hn'
      obtain ⟨l, q1, q2⟩ := h4.mem p1
      have : l = e.1 := Classical.byContradiction fun hne => by
        have := hwin _ q2 hne
        have := p3 _ he'
        simp only at *
        omega
      have h3' : w'.classify1 x = .ok s' := h3
      simp only [Wisard.classify, h3', Except.bind_ok, p2, q1, this]

/-- Exchange `a` and `b`. -/
def swapAB (l : Str) : Str := if l = b!"a" then b!"b" else if l = b!"b" then b!"a" else l

/-- The hypotheses are met by exchanging two labels, which changes the order. -/
example : (∀ x y, swapAB x = swapAB y → x = y) ∧ ¬ KeepsOrder swapAB := by
  refine ⟨?_, ?_⟩
  · intro x y h
    unfold swapAB at h
    split at h <;> split at h <;> (try split at h) <;> (try split at h) <;> simp_all
  · intro h
    have := h b!"a" b!"b" (by decide)
    revert this
    decide

/-- The limit on the confidence is needed: with confidence 2 exchanging the labels changes the scores. -/
theorem C113_confidence_two : ∃ votes votes' s s', RenamedMap swapAB votes votes' ∧
    Bleaching.make votes true false 2 = .ok s ∧ Bleaching.make votes' true false 2 = .ok s' ∧
    SMap.find s b!"a" ≠ SMap.find s' (swapAB b!"a") := by
  refine ⟨[(b!"a", [1, 1, 0]), (b!"b", [2, 2, 2])], [(b!"a", [2, 2, 2]), (b!"b", [1, 1, 0])], _, _, ?_,
    C41_margin_violated.1, C41_margin_violated.2, by decide⟩
  refine ⟨sorted_ab _ _, sorted_ab _ _, ?_, ?_⟩
  · intro l
    by_cases ha : l = b!"a"
    · subst ha; rfl
    · by_cases hb : l = b!"b"
      · subst hb; rfl
      · have : swapAB l = l := by unfold swapAB; rw [if_neg ha, if_neg hb]
        rw [this]
        simp [SMap.find, Ne.symm ha, Ne.symm hb]
  · intro k hk
    simp only [SMap.keys, List.map_cons, List.map_nil, List.mem_cons, List.not_mem_nil, or_false] at hk
    rcases hk with rfl | rfl
    · exact ⟨b!"b", by decide⟩
    · exact ⟨b!"a", by decide⟩

end Wis
