import Verif.Model.Kwargs
import Verif.Lemmas.Discriminator
import Mathlib.Data.List.Perm.Basic
/-!
# C94, C95: keyword arguments of the Python constructors
-/

namespace Wis

namespace Spec

/-- The option `name` has the value given by the keyword arguments (converted to its type), or its default. -/
def OptionIs {V α : Type} (kws : List (Str × V)) (name : Str) (cast : V → Option α) (dflt x : α) : Prop :=
  (∃ v, (name, v) ∈ kws ∧ cast v = some x) ∨ ((∀ v, (name, v) ∉ kws) ∧ x = dflt)

/-- The option is not given, or with a value of the right type. -/
def TypeOk {V α : Type} (kws : List (Str × V)) (name : Str) (cast : V → Option α) : Prop :=
  ∀ v, (name, v) ∈ kws → ∃ x, cast v = some x

/-- Keyword arguments have distinct names. -/
def Distinct {V : Type} (kws : List (Str × V)) : Prop := (kws.map (·.1)).Nodup

end Spec

open Spec

/-! ## The loop -/

section
variable {V σ α : Type}

/-- What a table does with the field `get` for the name `n`. -/
structure KwField (t : List (KwOpt V σ)) (n : Str) (cast : V → Option α) (get : σ → α) : Prop where
  own : ∀ r ∈ t, r.name = n → ∀ v o o', r.apply v o = some o' → cast v = some (get o')
  other : ∀ r ∈ t, r.name ≠ n → ∀ v o o', r.apply v o = some o' → get o' = get o
  mem : n ∈ t.map (·.name)

theorem kwStep_other {t : List (KwOpt V σ)} {n : Str} {get : σ → α}
    (h : ∀ r ∈ t, r.name ≠ n → ∀ v o o', r.apply v o = some o' → get o' = get o) :
    ∀ {k : Str} {v : V} {o o' : σ}, k ≠ n → kwStep t k v o = .ok o' → get o' = get o := by
  induction t with
  | nil => intro k v o o' _ ho; cases ho; rfl
  | cons r t ih =>
    intro k v o o' hk ho
    have ih' := @ih (fun r hr => h r (by simp [hr]))
    rw [kwStep] at ho
    split at ho
    · rename_i hn
      cases ha : r.apply v o with
      | none => rw [ha] at ho; cases ho
      | some o1 =>
        rw [ha] at ho
        rw [ih' hk ho]
        exact h r (by simp) (by rw [← hn]; exact hk) v o o1 ha
    · exact ih' hk ho

theorem kwStep_own {t : List (KwOpt V σ)} {n : Str} {cast : V → Option α} {get : σ → α}
    (h1 : ∀ r ∈ t, r.name = n → ∀ v o o', r.apply v o = some o' → cast v = some (get o'))
    (hm : n ∈ t.map (·.name)) :
    ∀ {v : V} {o o' : σ}, kwStep t n v o = .ok o' → cast v = some (get o') := by
  induction t with
  | nil => simp at hm
  | cons r t ih =>
    intro v o o' ho
    rw [kwStep] at ho
    by_cases hn : n = r.name
    · rw [if_pos hn] at ho
      cases ha : r.apply v o with
      | none => rw [ha] at ho; cases ho
      | some o1 =>
        rw [ha] at ho
        simp only at ho
        by_cases hm' : n ∈ t.map (·.name)
        · exact ih (fun r hr => h1 r (by simp [hr])) hm' ho
        · have : o' = o1 := by
            have hno : ∀ (t : List (KwOpt V σ)), n ∉ t.map (·.name) → kwStep t n v o1 = .ok o' → o' = o1 := by
              intro t
              induction t with
              | nil => intro _ ho; cases ho; rfl
              | cons r t ih =>
                intro hm ho
                simp only [List.map_cons, List.mem_cons, not_or] at hm
                rw [kwStep, if_neg hm.1] at ho
                exact ih hm.2 ho
            exact hno t hm' ho
          rw [this]
          exact h1 r (by simp) hn.symm v o o1 ha
    · rw [if_neg hn] at ho
      simp only [List.map_cons, List.mem_cons] at hm
      exact ih (fun r hr => h1 r (by simp [hr])) (hm.resolve_left hn) ho

/-- After the loop the field has the value of the option. -/
theorem kwLoop_field {t : List (KwOpt V σ)} {n : Str} {cast : V → Option α} {get : σ → α} (h : KwField t n cast get) :
    ∀ {kws : List (Str × V)} {o o' : σ}, Distinct kws → kwLoop t kws o = .ok o' → OptionIs kws n cast (get o) (get o') := by
  intro kws
  induction kws with
  | nil => intro o o' _ ho; cases ho; exact Or.inr ⟨by simp, rfl⟩
  | cons e kws ih =>
    intro o o' hd ho
    obtain ⟨k, v⟩ := e
    rw [kwLoop] at ho
    obtain ⟨o1, h1, ho⟩ := bind_eq_ok ho
    unfold Distinct at hd
    simp only [List.map_cons, List.nodup_cons] at hd
    have ih' := ih hd.2 ho
    by_cases hk : k = n
    · subst hk
      have hv := kwStep_own h.own h.mem h1
      rcases ih' with ⟨v', hv', _⟩ | ⟨_, he⟩
      · exact absurd (List.mem_map_of_mem (f := (·.1)) hv') hd.1
      · exact Or.inl ⟨v, by simp, by rw [he]; exact hv⟩
    · have hv := kwStep_other h.other hk h1
      rcases ih' with ⟨v', hv', hc⟩ | ⟨hn, he⟩
      · exact Or.inl ⟨v', by simp [hv'], hc⟩
      · refine Or.inr ⟨?_, by rw [he, hv]⟩
        intro v' hv'
        rcases List.mem_cons.mp hv' with h | h
        · cases h; exact hk rfl
        · exact hn v' h

theorem kwStep_err {t : List (KwOpt V σ)} : ∀ {k : Str} {v : V} {o : σ} {e : Err}, kwStep t k v o = .error e → e = .throw .pyCast := by
  induction t with
  | nil => intro k v o e h; cases h
  | cons r t ih =>
    intro k v o e h
    rw [kwStep] at h
    split at h
    · cases ha : r.apply v o with
      | none => rw [ha] at h; cases h; rfl
      | some o1 => rw [ha] at h; exact ih h
    · exact ih h

theorem kwLoop_err {t : List (KwOpt V σ)} : ∀ {kws : List (Str × V)} {o : σ} {e : Err}, kwLoop t kws o = .error e →
    e = .throw .pyCast := by
  intro kws
  induction kws with
  | nil => intro o e h; cases h
  | cons p kws ih =>
    intro o e h
    obtain ⟨k, v⟩ := p
    rw [kwLoop] at h
    cases hs : kwStep t k v o with
    | error e' => rw [hs] at h; cases h; exact kwStep_err hs
    | ok o1 => rw [hs] at h; exact ih h

/-- Whether a value can be converted does not depend on the options. -/
def KwPure (t : List (KwOpt V σ)) : Prop := ∀ r ∈ t, ∀ v o o', (r.apply v o).isSome = (r.apply v o').isSome

/-- All arguments can be converted. -/
def KwOk (t : List (KwOpt V σ)) (kws : List (Str × V)) : Prop := ∀ r ∈ t, ∀ v, (r.name, v) ∈ kws → ∀ o, (r.apply v o).isSome = true

theorem kwStep_ok {t : List (KwOpt V σ)} (hp : KwPure t) : ∀ {k : Str} {v : V} {o : σ},
    (∃ o', kwStep t k v o = .ok o') ↔ ∀ r ∈ t, r.name = k → ∀ o, (r.apply v o).isSome = true := by
  induction t with
  | nil => intro k v o; exact ⟨fun _ _ h => by simp at h, fun _ => ⟨o, rfl⟩⟩
  | cons r t ih =>
    intro k v o
    have ih' := @ih (fun r hr => hp r (by simp [hr]))
    rw [kwStep]
    by_cases hk : k = r.name
    · rw [if_pos hk]
      cases ha : r.apply v o with
      | none =>
        refine ⟨?_, ?_⟩
        · rintro ⟨o', h⟩; cases h
        · intro h
          have := h r (by simp) hk.symm o
          rw [ha] at this
          cases this
      | some o1 =>
        rw [ih']
        refine ⟨?_, fun h r' hr' => h r' (by simp [hr'])⟩
        intro h r' hr' hn o2
        rcases List.mem_cons.mp hr' with rfl | hr'
        · rw [hp r' (by simp) v o2 o, ha]; rfl
        · exact h r' hr' hn o2
    · rw [if_neg hk, ih']
      refine ⟨?_, fun h r' hr' => h r' (by simp [hr'])⟩
      intro h r' hr' hn o2
      rcases List.mem_cons.mp hr' with rfl | hr'
      · exact absurd hn.symm hk
      · exact h r' hr' hn o2

theorem kwLoop_ok {t : List (KwOpt V σ)} (hp : KwPure t) : ∀ {kws : List (Str × V)} {o : σ},
    (∃ o', kwLoop t kws o = .ok o') ↔ KwOk t kws := by
  intro kws
  induction kws with
  | nil => intro o; exact ⟨fun _ _ _ _ h => by simp at h, fun _ => ⟨o, rfl⟩⟩
  | cons e kws ih =>
    intro o
    obtain ⟨k, v⟩ := e
    rw [kwLoop]
    refine ⟨?_, ?_⟩
    · rintro ⟨o', h⟩
      obtain ⟨o1, h1, h2⟩ := bind_eq_ok h
      have ha := (kwStep_ok hp).mp ⟨o1, h1⟩
      have hb := ih.mp ⟨o', h2⟩
      intro r hr v' hv' o2
      rcases List.mem_cons.mp hv' with he | hv'
      · cases he; exact ha r hr rfl o2
      · exact hb r hr v' hv' o2
    · intro h
      obtain ⟨o1, h1⟩ := (kwStep_ok hp (o := o) (k := k) (v := v)).mpr (fun r hr hn o2 => h r hr v (by rw [hn]; simp) o2)
      obtain ⟨o', h2⟩ := (ih (o := o1)).mpr (fun r hr v' hv' o2 => h r hr v' (by simp [hv']) o2)
      exact ⟨o', by rw [h1]; exact h2⟩

theorem kwStep_unknown {t : List (KwOpt V σ)} {k : Str} (hk : k ∉ t.map (·.name)) (v : V) (o : σ) : kwStep t k v o = .ok o := by
  induction t with
  | nil => rfl
  | cons r t ih =>
    simp only [List.map_cons, List.mem_cons, not_or] at hk
    rw [kwStep, if_neg hk.1]
    exact ih hk.2

theorem kwLoop_unknown {t : List (KwOpt V σ)} {k : Str} (hk : k ∉ t.map (·.name)) (v : V) :
    ∀ (a b : List (Str × V)) (o : σ), kwLoop t (a ++ (k, v) :: b) o = kwLoop t (a ++ b) o := by
  intro a
  induction a with
  | nil =>
    intro b o
    rw [List.nil_append, kwLoop, kwStep_unknown hk v o, Except.bind_ok, List.nil_append]
  | cons e a ih =>
    intro b o
    obtain ⟨k', v'⟩ := e
    rw [List.cons_append, List.cons_append, kwLoop, kwLoop]
    congr 1
    funext o1
    exact ih b o1

/-- The value of an option does not depend on the order. -/
theorem Spec.OptionIs.unique {kws kws' : List (Str × V)} {n : Str} {cast : V → Option α} {d x x' : α} (hd : Distinct kws)
    (hp : kws.Perm kws') (h : OptionIs kws n cast d x) (h' : OptionIs kws' n cast d x') : x = x' := by
  have inj : ∀ (kws : List (Str × V)), Distinct kws → ∀ v w, (n, v) ∈ kws → (n, w) ∈ kws → v = w := by
    intro kws
    induction kws with
    | nil => intro _ v w h; simp at h
    | cons e kws ih =>
      intro hd v w hv hw
      unfold Distinct at hd
      simp only [List.map_cons, List.nodup_cons] at hd
      rcases List.mem_cons.mp hv with rfl | hv' <;> rcases List.mem_cons.mp hw with hw' | hw'
      · cases hw'; rfl
      · exact absurd (List.mem_map_of_mem (f := (·.1)) hw') hd.1
      · subst hw'; exact absurd (List.mem_map_of_mem (f := (·.1)) hv') hd.1
      · exact ih hd.2 v w hv' hw'
  rcases h with ⟨v, hv, hc⟩ | ⟨hn, he⟩ <;> rcases h' with ⟨v', hv', hc'⟩ | ⟨hn', he'⟩
  · have := inj kws hd v v' hv (hp.mem_iff.mpr hv')
    subst this
    rw [hc] at hc'
    cases hc'
    rfl
  · exact absurd (hp.mem_iff.mp hv) (hn' v)
  · exact absurd (hp.mem_iff.mpr hv') (hn v')
  · rw [he, he']

theorem Spec.Distinct.perm {kws kws' : List (Str × V)} (h : Distinct kws) (hp : kws.Perm kws') : Distinct kws' :=
  (hp.map _).nodup_iff.mp h

theorem kwOk_perm {t : List (KwOpt V σ)} {kws kws' : List (Str × V)} (hp : kws.Perm kws') (h : KwOk t kws) : KwOk t kws' :=
  fun r hr v hv o => h r hr v (hp.mem_iff.mpr hv) o

end

/-! ## The four tables -/

theorem map_some {α β : Type} {x : Option α} {f : α → β} {b : β} (h : x.map f = some b) : ∃ a, x = some a ∧ f a = b :=
  Option.map_eq_some_iff.mp h

/-- Proves the table facts. -/
macro "kwfield" : tactic => `(tactic| (
  refine ⟨?_, ?_, ?_⟩
  · simp only [wisardKw, clusKw, discKw, canvasKw, List.forall_mem_cons]
    and_intros
    all_goals first
      | (intro hn; exfalso; revert hn; decide)
      | (intro _ v o o' h; obtain ⟨x, hx, he⟩ := map_some h; subst he; exact hx)
      | (intro r hr; exact absurd hr (List.not_mem_nil))
  · simp only [wisardKw, clusKw, discKw, canvasKw, List.forall_mem_cons]
    and_intros
    all_goals first
      | (intro hn; exact absurd rfl hn)
      | (intro hn; exact absurd trivial hn)
      | (intro hn; exact False.elim hn)
      | (intro _ v o o' h; obtain ⟨x, hx, he⟩ := map_some h; subst he; rfl)
      | (intro r hr; exact absurd hr (List.not_mem_nil))
  · simp [wisardKw, clusKw, discKw, canvasKw]))

/-- Proves that conversions do not depend on the state. -/
macro "kwpure" : tactic => `(tactic| (
  unfold KwPure
  simp only [wisardKw, clusKw, discKw, canvasKw, List.forall_mem_cons]
  and_intros
  all_goals first
    | (intro v o o'; simp only [Option.isSome_map])
    | (intro r hr; exact absurd hr (List.not_mem_nil))))

/-- Two results of the same arguments in another order. -/
theorem kwLoop_perm {V σ : Type} {t : List (KwOpt V σ)} (hp : KwPure t) {kws kws' : List (Str × V)} (h : kws.Perm kws') {o : σ}
    (ext : ∀ o1 o2, kwLoop t kws o = .ok o1 → kwLoop t kws' o = .ok o2 → o1 = o2) : kwLoop t kws o = kwLoop t kws' o := by
  cases h1 : kwLoop t kws o with
  | ok o1 =>
    obtain ⟨o2, h2⟩ := (kwLoop_ok hp (o := o)).mpr (kwOk_perm h ((kwLoop_ok hp).mp ⟨o1, h1⟩))
    rw [h2, ext o1 o2 h1 h2]
  | error e =>
    cases h2 : kwLoop t kws' o with
    | error e' => rw [kwLoop_err h1, kwLoop_err h2]
    | ok o2 =>
      obtain ⟨o1, h3⟩ := (kwLoop_ok hp (o := o)).mpr (kwOk_perm h.symm ((kwLoop_ok hp).mp ⟨o2, h2⟩))
      rw [h1] at h3
      cases h3

namespace Spec

variable {V : Type} (c : PyCasts V) (kws : List (Str × V))

/-- The options of a `Wisard` (docs/models/wisard.md), with their defaults. -/
structure WisardOptionsAre (o : WisardOpts) : Prop where
  bleachingActivated : OptionIs kws b!"bleachingActivated" c.bool true o.bleachingActivated
  verbose : OptionIs kws b!"verbose" c.bool false o.verbose
  ignoreZero : OptionIs kws b!"ignoreZero" c.bool false o.ignoreZero
  completeAddressing : OptionIs kws b!"completeAddressing" c.bool true o.completeAddressing
  mapping : OptionIs kws b!"mapping" c.mapping [] o.mapping
  indexes : OptionIs kws b!"indexes" c.ints [] o.indexes
  base : OptionIs kws b!"base" c.int 2 o.base
  searchBestConfidence : OptionIs kws b!"searchBestConfidence" c.bool false o.searchBestConfidence
  returnConfidence : OptionIs kws b!"returnConfidence" c.bool false o.returnConfidence
  returnActivationDegree : OptionIs kws b!"returnActivationDegree" c.bool false o.returnActivationDegree
  returnClassesDegrees : OptionIs kws b!"returnClassesDegrees" c.bool false o.returnClassesDegrees
  confidence : OptionIs kws b!"confidence" c.int 1 o.confidence

/-- Every option of a `Wisard` that is given has a value of its type. -/
structure WisardTypesOk : Prop where
  bleachingActivated : TypeOk kws b!"bleachingActivated" c.bool
  verbose : TypeOk kws b!"verbose" c.bool
  ignoreZero : TypeOk kws b!"ignoreZero" c.bool
  completeAddressing : TypeOk kws b!"completeAddressing" c.bool
  mapping : TypeOk kws b!"mapping" c.mapping
  indexes : TypeOk kws b!"indexes" c.ints
  base : TypeOk kws b!"base" c.int
  searchBestConfidence : TypeOk kws b!"searchBestConfidence" c.bool
  returnConfidence : TypeOk kws b!"returnConfidence" c.bool
  returnActivationDegree : TypeOk kws b!"returnActivationDegree" c.bool
  returnClassesDegrees : TypeOk kws b!"returnClassesDegrees" c.bool
  confidence : TypeOk kws b!"confidence" c.int

/-- The options of a `ClusWisard` that its constructor reads, with their defaults. -/
structure ClusOptionsAre (o : ClusOpts) : Prop where
  bleachingActivated : OptionIs kws b!"bleachingActivated" c.bool true o.bleachingActivated
  verbose : OptionIs kws b!"verbose" c.bool false o.verbose
  ignoreZero : OptionIs kws b!"ignoreZero" c.bool false o.ignoreZero
  completeAddressing : OptionIs kws b!"completeAddressing" c.bool true o.completeAddressing
  base : OptionIs kws b!"base" c.int 2 o.base
  searchBestConfidence : OptionIs kws b!"searchBestConfidence" c.bool false o.searchBestConfidence
  returnConfidence : OptionIs kws b!"returnConfidence" c.bool false o.returnConfidence
  returnActivationDegree : OptionIs kws b!"returnActivationDegree" c.bool false o.returnActivationDegree
  returnClassesDegrees : OptionIs kws b!"returnClassesDegrees" c.bool false o.returnClassesDegrees
  confidence : OptionIs kws b!"confidence" c.int 1 o.confidence

structure ClusTypesOk : Prop where
  bleachingActivated : TypeOk kws b!"bleachingActivated" c.bool
  verbose : TypeOk kws b!"verbose" c.bool
  ignoreZero : TypeOk kws b!"ignoreZero" c.bool
  completeAddressing : TypeOk kws b!"completeAddressing" c.bool
  base : TypeOk kws b!"base" c.int
  searchBestConfidence : TypeOk kws b!"searchBestConfidence" c.bool
  returnConfidence : TypeOk kws b!"returnConfidence" c.bool
  returnActivationDegree : TypeOk kws b!"returnActivationDegree" c.bool
  returnClassesDegrees : TypeOk kws b!"returnClassesDegrees" c.bool
  confidence : TypeOk kws b!"confidence" c.int

/-- The options of a `Discriminator`, with their defaults. -/
structure DiscOptionsAre (o : Options) : Prop where
  ignoreZero : OptionIs kws b!"ignoreZero" c.bool false o.ignoreZero
  completeAddressing : OptionIs kws b!"completeAddressing" c.bool true o.completeAddressing
  base : OptionIs kws b!"base" c.int 2 o.base
  indexes : OptionIs kws b!"indexes" c.ints [] o.indexes
  mapping : OptionIs kws b!"mapping" c.intss [] o.mapping

structure DiscTypesOk : Prop where
  ignoreZero : TypeOk kws b!"ignoreZero" c.bool
  completeAddressing : TypeOk kws b!"completeAddressing" c.bool
  base : TypeOk kws b!"base" c.int
  indexes : TypeOk kws b!"indexes" c.ints
  mapping : TypeOk kws b!"mapping" c.intss

/-- The options of a `KernelCanvas`, with their defaults. -/
structure CanvasOptionsAre (f : Flt) (bits : Int) (deg : Rat) (dir : Bool) : Prop where
  bitsByKernel : OptionIs kws b!"bitsByKernel" c.int 3 bits
  activationDegree : OptionIs kws b!"activationDegree" c.float (f.rnd (7/100)) deg
  useDirection : OptionIs kws b!"useDirection" c.bool false dir

structure CanvasTypesOk : Prop where
  bitsByKernel : TypeOk kws b!"bitsByKernel" c.int
  activationDegree : TypeOk kws b!"activationDegree" c.float
  useDirection : TypeOk kws b!"useDirection" c.bool

end Spec

variable {V : Type} (c : PyCasts V)

theorem wisardKw_pure : KwPure (wisardKw c) := by kwpure
theorem clusKw_pure : KwPure (clusKw c) := by kwpure
theorem discKw_pure : KwPure (discKw c) := by kwpure
theorem canvasKw_pure : KwPure (canvasKw c) := by kwpure

theorem wisardKw_are {kws : List (Str × V)} (hd : Distinct kws) {o : WisardOpts} (h : kwLoop (wisardKw c) kws {} = .ok o) :
    WisardOptionsAre c kws o := by
  constructor
  · exact kwLoop_field (show KwField (wisardKw c) b!"bleachingActivated" c.bool (·.bleachingActivated) by kwfield) hd h
  · exact kwLoop_field (show KwField (wisardKw c) b!"verbose" c.bool (·.verbose) by kwfield) hd h
  · exact kwLoop_field (show KwField (wisardKw c) b!"ignoreZero" c.bool (·.ignoreZero) by kwfield) hd h
  · exact kwLoop_field (show KwField (wisardKw c) b!"completeAddressing" c.bool (·.completeAddressing) by kwfield) hd h
  · exact kwLoop_field (show KwField (wisardKw c) b!"mapping" c.mapping (·.mapping) by kwfield) hd h
  · exact kwLoop_field (show KwField (wisardKw c) b!"indexes" c.ints (·.indexes) by kwfield) hd h
  · exact kwLoop_field (show KwField (wisardKw c) b!"base" c.int (·.base) by kwfield) hd h
  · exact kwLoop_field (show KwField (wisardKw c) b!"searchBestConfidence" c.bool (·.searchBestConfidence) by kwfield) hd h
  · exact kwLoop_field (show KwField (wisardKw c) b!"returnConfidence" c.bool (·.returnConfidence) by kwfield) hd h
  · exact kwLoop_field (show KwField (wisardKw c) b!"returnActivationDegree" c.bool (·.returnActivationDegree) by kwfield) hd h
  · exact kwLoop_field (show KwField (wisardKw c) b!"returnClassesDegrees" c.bool (·.returnClassesDegrees) by kwfield) hd h
  · exact kwLoop_field (show KwField (wisardKw c) b!"confidence" c.int (·.confidence) by kwfield) hd h

theorem clusKw_are {kws : List (Str × V)} (hd : Distinct kws) {o : ClusOpts} (h : kwLoop (clusKw c) kws {} = .ok o) :
    ClusOptionsAre c kws o := by
  constructor
  · exact kwLoop_field (show KwField (clusKw c) b!"bleachingActivated" c.bool (·.bleachingActivated) by kwfield) hd h
  · exact kwLoop_field (show KwField (clusKw c) b!"verbose" c.bool (·.verbose) by kwfield) hd h
  · exact kwLoop_field (show KwField (clusKw c) b!"ignoreZero" c.bool (·.ignoreZero) by kwfield) hd h
  · exact kwLoop_field (show KwField (clusKw c) b!"completeAddressing" c.bool (·.completeAddressing) by kwfield) hd h
  · exact kwLoop_field (show KwField (clusKw c) b!"base" c.int (·.base) by kwfield) hd h
  · exact kwLoop_field (show KwField (clusKw c) b!"searchBestConfidence" c.bool (·.searchBestConfidence) by kwfield) hd h
  · exact kwLoop_field (show KwField (clusKw c) b!"returnConfidence" c.bool (·.returnConfidence) by kwfield) hd h
  · exact kwLoop_field (show KwField (clusKw c) b!"returnActivationDegree" c.bool (·.returnActivationDegree) by kwfield) hd h
  · exact kwLoop_field (show KwField (clusKw c) b!"returnClassesDegrees" c.bool (·.returnClassesDegrees) by kwfield) hd h
  · exact kwLoop_field (show KwField (clusKw c) b!"confidence" c.int (·.confidence) by kwfield) hd h

theorem discKw_are {kws : List (Str × V)} (hd : Distinct kws) {o : Options} (h : kwLoop (discKw c) kws {} = .ok o) :
    DiscOptionsAre c kws o := by
  constructor
  · exact kwLoop_field (show KwField (discKw c) b!"ignoreZero" c.bool (·.ignoreZero) by kwfield) hd h
  · exact kwLoop_field (show KwField (discKw c) b!"completeAddressing" c.bool (·.completeAddressing) by kwfield) hd h
  · exact kwLoop_field (show KwField (discKw c) b!"base" c.int (·.base) by kwfield) hd h
  · exact kwLoop_field (show KwField (discKw c) b!"indexes" c.ints (·.indexes) by kwfield) hd h
  · exact kwLoop_field (show KwField (discKw c) b!"mapping" c.intss (·.mapping) by kwfield) hd h

theorem canvasKw_are {kws : List (Str × V)} (f : Flt) (hd : Distinct kws) {o : CanvasOpts}
    (h : kwLoop (canvasKw c) kws ⟨3, f.rnd (7/100), false⟩ = .ok o) :
    CanvasOptionsAre c kws f o.bitsByKernel o.activationDegree o.useDirection := by
  constructor
  · exact kwLoop_field (show KwField (canvasKw c) b!"bitsByKernel" c.int (·.bitsByKernel) by kwfield) hd h
  · exact kwLoop_field (show KwField (canvasKw c) b!"activationDegree" c.float (·.activationDegree) by kwfield) hd h
  · exact kwLoop_field (show KwField (canvasKw c) b!"useDirection" c.bool (·.useDirection) by kwfield) hd h

instance : Inhabited WisardOpts := ⟨{}⟩
instance : Inhabited ClusOpts := ⟨{}⟩
instance : Inhabited Options := ⟨{}⟩
instance : Inhabited CanvasOpts := ⟨⟨3, 0, false⟩⟩

/-- Proves that the table accepts exactly arguments of the right types. -/
macro "kwtypes" : tactic => `(tactic| (
  unfold KwOk
  simp only [wisardKw, clusKw, discKw, canvasKw, List.forall_mem_cons, List.not_mem_nil, IsEmpty.forall_iff, implies_true, and_true,
    Option.isSome_map, forall_const]
  simp only [Option.isSome_iff_exists]))

theorem wisardKw_types (kws : List (Str × V)) : KwOk (wisardKw c) kws ↔ WisardTypesOk c kws := by
  kwtypes
  exact ⟨fun ⟨h0,h1,h2,h3,h4,h5,h6,h7,h8,h9,h10,h11⟩ => ⟨h0,h1,h2,h3,h4,h5,h6,h7,h8,h9,h10,h11⟩, fun ⟨h0,h1,h2,h3,h4,h5,h6,h7,h8,h9,h10,h11⟩ => ⟨h0,h1,h2,h3,h4,h5,h6,h7,h8,h9,h10,h11⟩⟩

theorem clusKw_types (kws : List (Str × V)) : KwOk (clusKw c) kws ↔ ClusTypesOk c kws := by
  kwtypes
  exact ⟨fun ⟨h0,h1,h2,h3,h4,h5,h6,h7,h8,h9⟩ => ⟨h0,h1,h2,h3,h4,h5,h6,h7,h8,h9⟩, fun ⟨h0,h1,h2,h3,h4,h5,h6,h7,h8,h9⟩ => ⟨h0,h1,h2,h3,h4,h5,h6,h7,h8,h9⟩⟩

theorem discKw_types (kws : List (Str × V)) : KwOk (discKw c) kws ↔ DiscTypesOk c kws := by
  kwtypes
  exact ⟨fun ⟨h0,h1,h2,h3,h4⟩ => ⟨h0,h1,h2,h3,h4⟩, fun ⟨h0,h1,h2,h3,h4⟩ => ⟨h0,h1,h2,h3,h4⟩⟩

theorem canvasKw_types (kws : List (Str × V)) : KwOk (canvasKw c) kws ↔ CanvasTypesOk c kws := by
  kwtypes
  exact ⟨fun ⟨h0,h1,h2⟩ => ⟨h0,h1,h2⟩, fun ⟨h0,h1,h2⟩ => ⟨h0,h1,h2⟩⟩

/-! ## C94 -/

theorem ofKw_wisard {A : Int} {kws : List (Str × V)} {w : Wisard} (h : Wisard.ofKwargs c A kws = .ok w) :
    ∃ o, kwLoop (wisardKw c) kws {} = .ok o ∧ w = Wisard.create A o := by
  obtain ⟨o, h1, h2⟩ := bind_eq_ok h
  cases h2
  exact ⟨o, h1, rfl⟩

/-- C94 for `Wisard(addressSize, **kwargs)`: the call succeeds exactly when every option given has a value of its type,
otherwise it throws pybind11's cast error; on success every option has the value given or its documented default, the address
size is the one given and there are no classes. -/
theorem C94_wisard (A : Int) (kws : List (Str × V)) (hd : Distinct kws) :
    (WisardTypesOk c kws → ∃ w, Wisard.ofKwargs c A kws = .ok w)
    ∧ (¬ WisardTypesOk c kws → Wisard.ofKwargs c A kws = .error (.throw .pyCast))
    ∧ ∀ w, Wisard.ofKwargs c A kws = .ok w →
        WisardOptionsAre c kws w.opts ∧ w.addressSize = A ∧ w.discriminators = [] := by
  refine ⟨fun h => ?_, fun h => ?_, fun w h => ?_⟩
  · obtain ⟨o, ho⟩ := (kwLoop_ok (wisardKw_pure c) (o := {})).mpr ((wisardKw_types c kws).mpr h)
    exact ⟨_, by unfold Wisard.ofKwargs; rw [ho]; rfl⟩
  · cases ho : kwLoop (wisardKw c) kws {} with
    | ok o => exact absurd ((wisardKw_types c kws).mp ((kwLoop_ok (wisardKw_pure c)).mp ⟨o, ho⟩)) h
    | error e =>
      unfold Wisard.ofKwargs
      rw [ho, kwLoop_err ho]
      rfl
  · obtain ⟨o, ho, rfl⟩ := ofKw_wisard c h
    exact ⟨wisardKw_are c hd ho, rfl, rfl⟩

/-- C94: the order of the keyword arguments has no effect. -/
theorem C94_wisard_order (A : Int) (kws kws' : List (Str × V)) (hd : Distinct kws) (h : kws.Perm kws') :
    Wisard.ofKwargs c A kws = Wisard.ofKwargs c A kws' := by
  unfold Wisard.ofKwargs
  rw [kwLoop_perm (wisardKw_pure c) h]
  intro o1 o2 h1 h2
  have a := wisardKw_are c hd h1
  have b := wisardKw_are c (hd.perm h) h2
  obtain ⟨x1, x2, x3, x4, x5, x6, x7, x8, x9, x10, x11, x12⟩ := o1
  obtain ⟨y1, y2, y3, y4, y5, y6, y7, y8, y9, y10, y11, y12⟩ := o2
  obtain ⟨a1, a2, a3, a4, a5, a6, a7, a8, a9, a10, a11, a12⟩ := a
  obtain ⟨b1, b2, b3, b4, b5, b6, b7, b8, b9, b10, b11, b12⟩ := b
  cases a1.unique hd h b1
  cases a2.unique hd h b2
  cases a3.unique hd h b3
  cases a4.unique hd h b4
  cases a5.unique hd h b5
  cases a6.unique hd h b6
  cases a7.unique hd h b7
  cases a8.unique hd h b8
  cases a9.unique hd h b9
  cases a10.unique hd h b10
  cases a11.unique hd h b11
  cases a12.unique hd h b12
  rfl

/-- C94 for `ClusWisard(addressSize, minScore, threshold, discriminatorsLimit, **kwargs)`; the positional arguments are checked
as without options. -/
theorem C94_clusWisard (A : Int) (ms : Rat) (t l : Int) (kws : List (Str × V)) (hd : Distinct kws) :
    (∀ e, ClusWisard.create A ms t l {} = .error e → ClusWisard.ofKwargs c A ms t l kws = .error e)
    ∧ ∀ w0, ClusWisard.create A ms t l {} = .ok w0 →
      (ClusTypesOk c kws → ∃ w, ClusWisard.ofKwargs c A ms t l kws = .ok w)
      ∧ (¬ ClusTypesOk c kws → ClusWisard.ofKwargs c A ms t l kws = .error (.throw .pyCast))
      ∧ ∀ w, ClusWisard.ofKwargs c A ms t l kws = .ok w → ClusOptionsAre c kws w.opts ∧ w = { w0 with opts := w.opts } := by
  refine ⟨fun e h => by unfold ClusWisard.ofKwargs; rw [h]; rfl, fun w0 h0 => ⟨fun h => ?_, fun h => ?_, fun w h => ?_⟩⟩
  · obtain ⟨o, ho⟩ := (kwLoop_ok (clusKw_pure c) (o := {})).mpr ((clusKw_types c kws).mpr h)
    exact ⟨_, by unfold ClusWisard.ofKwargs; rw [h0, Except.bind_ok, ho]; rfl⟩
  · cases ho : kwLoop (clusKw c) kws {} with
    | ok o => exact absurd ((clusKw_types c kws).mp ((kwLoop_ok (clusKw_pure c)).mp ⟨o, ho⟩)) h
    | error e =>
      unfold ClusWisard.ofKwargs
      rw [h0, Except.bind_ok, ho, kwLoop_err ho]
      rfl
  · unfold ClusWisard.ofKwargs at h
    rw [h0, Except.bind_ok] at h
    obtain ⟨o, ho, h2⟩ := bind_eq_ok h
    cases h2
    exact ⟨clusKw_are c hd ho, rfl⟩

theorem C94_clusWisard_order (A : Int) (ms : Rat) (t l : Int) (kws kws' : List (Str × V)) (hd : Distinct kws)
    (h : kws.Perm kws') : ClusWisard.ofKwargs c A ms t l kws = ClusWisard.ofKwargs c A ms t l kws' := by
  unfold ClusWisard.ofKwargs
  rw [kwLoop_perm (clusKw_pure c) h]
  intro o1 o2 h1 h2
  have a := clusKw_are c hd h1
  have b := clusKw_are c (hd.perm h) h2
  obtain ⟨x1, x2, x3, x4, x5, x6, x7, x8, x9, x10⟩ := o1
  obtain ⟨y1, y2, y3, y4, y5, y6, y7, y8, y9, y10⟩ := o2
  obtain ⟨a1, a2, a3, a4, a5, a6, a7, a8, a9, a10⟩ := a
  obtain ⟨b1, b2, b3, b4, b5, b6, b7, b8, b9, b10⟩ := b
  cases a1.unique hd h b1
  cases a2.unique hd h b2
  cases a3.unique hd h b3
  cases a4.unique hd h b4
  cases a5.unique hd h b5
  cases a6.unique hd h b6
  cases a7.unique hd h b7
  cases a8.unique hd h b8
  cases a9.unique hd h b9
  cases a10.unique hd h b10
  rfl

/-- C94 for `Discriminator(addressSize, entrySize, **kwargs)`: it is the constructor with the options given or their
defaults. -/
theorem C94_discriminator (rnd : Rnd) (A n : Int) (kws : List (Str × V)) (hd : Distinct kws) :
    (DiscTypesOk c kws → ∃ o, DiscOptionsAre c kws o ∧ Discriminator.ofKwargs c rnd A n kws = Discriminator.create rnd A n o)
    ∧ (¬ DiscTypesOk c kws → Discriminator.ofKwargs c rnd A n kws = .error (.throw .pyCast)) := by
  refine ⟨fun h => ?_, fun h => ?_⟩
  · obtain ⟨o, ho⟩ := (kwLoop_ok (discKw_pure c) (o := {})).mpr ((discKw_types c kws).mpr h)
    exact ⟨o, discKw_are c hd ho, by unfold Discriminator.ofKwargs; rw [ho]; rfl⟩
  · cases ho : kwLoop (discKw c) kws {} with
    | ok o => exact absurd ((discKw_types c kws).mp ((kwLoop_ok (discKw_pure c)).mp ⟨o, ho⟩)) h
    | error e =>
      unfold Discriminator.ofKwargs
      rw [ho, kwLoop_err ho]
      rfl

theorem C94_discriminator_order (rnd : Rnd) (A n : Int) (kws kws' : List (Str × V)) (hd : Distinct kws) (h : kws.Perm kws') :
    Discriminator.ofKwargs c rnd A n kws = Discriminator.ofKwargs c rnd A n kws' := by
  unfold Discriminator.ofKwargs
  rw [kwLoop_perm (discKw_pure c) h]
  intro o1 o2 h1 h2
  have a := discKw_are c hd h1
  have b := discKw_are c (hd.perm h) h2
  obtain ⟨x1, x2, x3, x4, x5⟩ := o1
  obtain ⟨y1, y2, y3, y4, y5⟩ := o2
  obtain ⟨a1, a2, a3, a4, a5⟩ := a
  obtain ⟨b1, b2, b3, b4, b5⟩ := b
  cases a1.unique hd h b1
  cases a2.unique hd h b2
  cases a3.unique hd h b3
  cases a4.unique hd h b4
  cases a5.unique hd h b5
  rfl

/-- C94 for `KernelCanvas(dim, numberOfKernels, **kwargs)`. -/
theorem C94_kernelCanvas (f : Flt) (o : FOps) (rand : Nat → Nat → o.F) (dim nk : Int) (kws : List (Str × V)) (hd : Distinct kws) :
    (CanvasTypesOk c kws → ∃ bits deg dir, CanvasOptionsAre c kws f bits deg dir ∧
      KernelCanvas.ofKwargs c f o rand dim nk kws = KernelCanvas.create f o rand dim nk bits deg dir)
    ∧ (¬ CanvasTypesOk c kws → KernelCanvas.ofKwargs c f o rand dim nk kws = .error (.throw .pyCast)) := by
  refine ⟨fun h => ?_, fun h => ?_⟩
  · obtain ⟨k, ho⟩ := (kwLoop_ok (canvasKw_pure c) (o := ⟨3, f.rnd (7/100), false⟩)).mpr ((canvasKw_types c kws).mpr h)
    exact ⟨_, _, _, canvasKw_are c f hd ho, by unfold KernelCanvas.ofKwargs; rw [ho]; rfl⟩
  · cases ho : kwLoop (canvasKw c) kws ⟨3, f.rnd (7/100), false⟩ with
    | ok o => exact absurd ((canvasKw_types c kws).mp ((kwLoop_ok (canvasKw_pure c)).mp ⟨o, ho⟩)) h
    | error e =>
      unfold KernelCanvas.ofKwargs
      rw [ho, kwLoop_err ho]
      rfl

theorem C94_kernelCanvas_order (f : Flt) (o : FOps) (rand : Nat → Nat → o.F) (dim nk : Int) (kws kws' : List (Str × V))
    (hd : Distinct kws) (h : kws.Perm kws') :
    KernelCanvas.ofKwargs c f o rand dim nk kws = KernelCanvas.ofKwargs c f o rand dim nk kws' := by
  unfold KernelCanvas.ofKwargs
  rw [kwLoop_perm (canvasKw_pure c) h]
  intro o1 o2 h1 h2
  have a := canvasKw_are c f hd h1
  have b := canvasKw_are c f (hd.perm h) h2
  obtain ⟨x1, x2, x3⟩ := o1
  obtain ⟨y1, y2, y3⟩ := o2
  obtain ⟨a1, a2, a3⟩ := a
  obtain ⟨b1, b2, b3⟩ := b
  cases a1.unique hd h b1
  cases a2.unique hd h b2
  cases a3.unique hd h b3
  rfl

/-! ## C95 -/

/-- C95 does not hold: a keyword argument whose name is no option is ignored, by all constructors. -/
theorem C95_unknown_ignored (k : Str) (v : V) (a b : List (Str × V)) :
    (k ∉ (wisardKw c).map (·.name) → ∀ A, Wisard.ofKwargs c A (a ++ (k, v) :: b) = Wisard.ofKwargs c A (a ++ b))
    ∧ (k ∉ (clusKw c).map (·.name) → ∀ A ms t l,
        ClusWisard.ofKwargs c A ms t l (a ++ (k, v) :: b) = ClusWisard.ofKwargs c A ms t l (a ++ b))
    ∧ (k ∉ (discKw c).map (·.name) → ∀ rnd A n,
        Discriminator.ofKwargs c rnd A n (a ++ (k, v) :: b) = Discriminator.ofKwargs c rnd A n (a ++ b))
    ∧ (k ∉ (canvasKw c).map (·.name) → ∀ f o rand d n,
        KernelCanvas.ofKwargs c f o rand d n (a ++ (k, v) :: b) = KernelCanvas.ofKwargs c f o rand d n (a ++ b)) := by
  refine ⟨fun h A => ?_, fun h A ms t l => ?_, fun h rnd A n => ?_, fun h f o rand d n => ?_⟩
  · unfold Wisard.ofKwargs; rw [kwLoop_unknown h]
  · unfold ClusWisard.ofKwargs; rw [kwLoop_unknown h]
  · unfold Discriminator.ofKwargs; rw [kwLoop_unknown h]
  · unfold KernelCanvas.ofKwargs; rw [kwLoop_unknown h]

/-- The names `Wisard` knows. -/
theorem C95_wisard_names : (wisardKw c).map (·.name) = [b!"bleachingActivated", b!"verbose", b!"ignoreZero",
    b!"completeAddressing", b!"mapping", b!"indexes", b!"base", b!"searchBestConfidence", b!"returnConfidence",
    b!"returnActivationDegree", b!"returnClassesDegrees", b!"confidence"] := rfl

/-- C95 does not hold for an option the documentation of `ClusWisard` lists (docs/models/cluswisard.md:21): `indexes` is
ignored, whatever its value, and so is `mapping`. -/
theorem C95_clusWisard_indexes_ignored (k : Str) (hk : k = b!"indexes" ∨ k = b!"mapping") (v : V) (a b : List (Str × V)) (A : Int)
    (ms : Rat) (t l : Int) :
    ClusWisard.ofKwargs c A ms t l (a ++ (k, v) :: b) = ClusWisard.ofKwargs c A ms t l (a ++ b) := by
  refine (C95_unknown_ignored c k v a b).2.1 ?_ A ms t l
  have : (clusKw c).map (·.name) = [b!"bleachingActivated", b!"verbose", b!"ignoreZero", b!"completeAddressing", b!"base",
    b!"searchBestConfidence", b!"returnConfidence", b!"returnActivationDegree", b!"returnClassesDegrees", b!"confidence"] := rfl
  rw [this]
  rcases hk with rfl | rfl <;> decide

theorem Spec.OptionIs.given {V α : Type} {kws : List (Str × V)} {n : Str} {cast : V → Option α} {d x : α} (h : OptionIs kws n cast d x)
    (hd : Distinct kws) : ∀ v, (n, v) ∈ kws → cast v = some x := by
  intro v hv
  rcases h with ⟨v', hv', hc⟩ | ⟨hn, _⟩
  · have : v' = v := Spec.OptionIs.unique (cast := some) (d := v) hd (List.Perm.refl _) (Or.inl ⟨v', hv', rfl⟩) (Or.inl ⟨v, hv, rfl⟩)
    rw [← this]; exact hc
  · exact absurd hv (hn v)

/-- C95, the part that holds: an option of `Wisard` that is known is never ignored — the model has its value, or the call throws. -/
theorem C95_known_used_partial (A : Int) (kws : List (Str × V)) (hd : Distinct kws) :
    Wisard.ofKwargs c A kws = .error (.throw .pyCast) ∨ ∃ w, Wisard.ofKwargs c A kws = .ok w
      ∧ (∀ v, (b!"bleachingActivated", v) ∈ kws → c.bool v = some w.opts.bleachingActivated)
      ∧ (∀ v, (b!"verbose", v) ∈ kws → c.bool v = some w.opts.verbose)
      ∧ (∀ v, (b!"ignoreZero", v) ∈ kws → c.bool v = some w.opts.ignoreZero)
      ∧ (∀ v, (b!"completeAddressing", v) ∈ kws → c.bool v = some w.opts.completeAddressing)
      ∧ (∀ v, (b!"mapping", v) ∈ kws → c.mapping v = some w.opts.mapping)
      ∧ (∀ v, (b!"indexes", v) ∈ kws → c.ints v = some w.opts.indexes)
      ∧ (∀ v, (b!"base", v) ∈ kws → c.int v = some w.opts.base)
      ∧ (∀ v, (b!"searchBestConfidence", v) ∈ kws → c.bool v = some w.opts.searchBestConfidence)
      ∧ (∀ v, (b!"returnConfidence", v) ∈ kws → c.bool v = some w.opts.returnConfidence)
      ∧ (∀ v, (b!"returnActivationDegree", v) ∈ kws → c.bool v = some w.opts.returnActivationDegree)
      ∧ (∀ v, (b!"returnClassesDegrees", v) ∈ kws → c.bool v = some w.opts.returnClassesDegrees)
      ∧ (∀ v, (b!"confidence", v) ∈ kws → c.int v = some w.opts.confidence) := by
  by_cases h : WisardTypesOk c kws
  · obtain ⟨w, hw⟩ := (C94_wisard c A kws hd).1 h
    obtain ⟨a0, a1, a2, a3, a4, a5, a6, a7, a8, a9, a10, a11⟩ := ((C94_wisard c A kws hd).2.2 w hw).1
    exact Or.inr ⟨w, hw, a0.given hd, a1.given hd, a2.given hd, a3.given hd, a4.given hd, a5.given hd, a6.given hd, a7.given hd, a8.given hd, a9.given hd, a10.given hd, a11.given hd⟩
  · exact Or.inl ((C94_wisard c A kws hd).2.1 h)

/-! ## Examples -/

/-- Python values: integers and booleans only (a small part of `PyBind.casts` of Model/Bind.lean). -/
inductive ExVal | int (i : Int) | bool (b : Bool) | str
def exCasts : PyCasts ExVal where
  bool | .bool b => some b | _ => none
  int | .int i => some i | .bool b => some (if b then 1 else 0) | _ => none
  float | .int i => some i | _ => none
  ints _ := none
  intss _ := none
  mapping _ := none

/-- `Wisard(3, base=4, ignoreZero=True, adressing=7)`: the misspelled option is ignored, the others are used. -/
example : Distinct [(b!"base", ExVal.int 4), (b!"ignoreZero", ExVal.bool true), (b!"adressing", ExVal.int 7)]
    ∧ Wisard.ofKwargs exCasts 3 [(b!"base", ExVal.int 4), (b!"ignoreZero", ExVal.bool true), (b!"adressing", ExVal.int 7)]
      = .ok (Wisard.create 3 { base := 4, ignoreZero := true }) := by
  constructor
  · unfold Distinct; decide
  · rfl

/-- `Wisard(3, base="x")` throws. -/
example : Wisard.ofKwargs exCasts 3 [(b!"base", ExVal.str)] = .error (.throw .pyCast) := rfl

/-- `ClusWisard(3, 0.5, 10, 5, confidence=2)`. -/
example : ∃ w, ClusWisard.ofKwargs exCasts 3 (1/2) 10 5 [(b!"confidence", ExVal.int 2)] = .ok w ∧ w.opts.confidence = 2 := by
  have h0 : ∃ w, ClusWisard.create 3 (1/2) 10 5 {} = .ok w := by
    have h : ClusWisard.checkConfigInputs (1/2) 10 5 = .ok () := by
      unfold ClusWisard.checkConfigInputs
      rw [if_neg (by decide +kernel), if_neg (by decide), if_neg (by decide)]
    exact ⟨_, by unfold ClusWisard.create; rw [h]; rfl⟩
  obtain ⟨w0, h0⟩ := h0
  exact ⟨_, by unfold ClusWisard.ofKwargs; rw [h0]; rfl, rfl⟩

end Wis
