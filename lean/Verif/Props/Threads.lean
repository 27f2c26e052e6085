import Verif.Lemmas.ThreadsIdem
import Verif.Props.Rand
/-!
# C135–C138, C180: several threads
-/

namespace Wis
open Spec

/-! ## C135 -/

/-- C135: the accesses of a call, made without interruption, do what the call does according to the other modules. -/
theorem C135_refines (c : Impl) (m : Mem c.g) (h : Ordered (world m)) (x : Call) :
    world ((c.callP x).run m).1 = (World.call c (world m) x).1 ∧ ((c.callP x).run m).2 = (World.call c (world m) x).2 ∧
    Ordered (world ((c.callP x).run m).1) := Impl.callP_run x m h

/-- C135: and every state of the models is the contents of some memory. -/
theorem C135_every_world {g : CRand} (W : World g) (h : Ordered W) : ∃ m : Mem g, world m = W := ⟨memOf W, world_memOf W h⟩

/-- C135: what training does here, with the shared generator, is the training of the other modules. -/
theorem C135_train (g : CRand) (lf : Bool) (s : g.S) (w : Wisard) (images : List (List Int)) (labels : List Str) :
    ∃ env : Nat → Env, (Wisard.trainG g lf s w images labels).1 = w.train env images labels := by
  have loop : ∀ (es : List (Image × Str)) (s : g.S) (w : Wisard) (i : Nat), ∃ env : Nat → Env,
      (Wisard.trainLoopG g lf s w es).1 = w.trainLoop env es i := by
    intro es
    induction es with
    | nil => intro s w i; exact ⟨fun _ => ⟨Rnd.id, lf⟩, rfl⟩
    | cons e es ih =>
      obtain ⟨img, l⟩ := e
      intro s w i
      obtain ⟨rnd, hr⟩ := train1G_eq g lf s w img l
      obtain ⟨env, he⟩ := ih (Wisard.train1G g lf s w img l).2 (Wisard.train1G g lf s w img l).1.1 (i + 1)
      have cut : ∀ (es : List (Image × Str)) (w : Wisard) (j : Nat), i < j →
          w.trainLoop (fun k => if k = i then ⟨rnd, lf⟩ else env k) es j = w.trainLoop env es j := by
        intro es
        induction es with
        | nil => intro w j _; rfl
        | cons e es ih =>
          obtain ⟨img, l⟩ := e
          intro w j hj
          unfold Wisard.trainLoop
          simp only [if_neg (show ¬ j = i by omega)]
          rcases w.train1 (env j) img l with ⟨w', r⟩
          cases r with
          | error e => rfl
          | ok _ => exact ih w' (j + 1) (by omega)
      refine ⟨fun k => if k = i then ⟨rnd, lf⟩ else env k, ?_⟩
      unfold Wisard.trainLoopG Wisard.trainLoop
      simp only [if_true]
      revert he hr
      rcases Wisard.train1G g lf s w img l with ⟨⟨w', r⟩, s'⟩
      intro hr he
      rw [← hr]
      cases r with
      | error e => rfl
      | ok _ =>
        show (Wisard.trainLoopG g lf s' w' es).1 = w'.trainLoop _ es (i + 1)
        rw [cut es w' (i + 1) (by omega)]
        exact he
  unfold Wisard.trainG Wisard.train
  cases w.trainChecks images labels with
  | error e => exact ⟨fun _ => ⟨Rnd.id, lf⟩, rfl⟩
  | ok _ => exact loop _ s w 0

/-- C135: the same for data sets. -/
theorem C135_trainDataSet (g : CRand) (lf : Bool) (s : g.S) (w : Wisard) (ds : DataSet) :
    ∃ env : Nat → Env, (Wisard.trainDataSetG g lf s w ds).1 = w.trainDataSet env ds := by
  have loop : ∀ (bs : List BinInput) (s : g.S) (w : Wisard) (i : Nat), ∃ env : Nat → Env,
      (Wisard.trainDataLoopG g lf ds s w bs i).1 = w.trainDataLoop env ds bs i := by
    intro bs
    induction bs with
    | nil => intro s w i; exact ⟨fun _ => ⟨Rnd.id, lf⟩, rfl⟩
    | cons b bs ih =>
      intro s w i
      unfold Wisard.trainDataLoopG Wisard.trainDataLoop
      cases ds.getLabel i with
      | error e => exact ⟨fun _ => ⟨Rnd.id, lf⟩, rfl⟩
      | ok l =>
        obtain ⟨rnd, hr⟩ := train1G_eq g lf s w (.bin b) l
        obtain ⟨env, he⟩ := ih (Wisard.train1G g lf s w (.bin b) l).2 (Wisard.train1G g lf s w (.bin b) l).1.1 (i + 1)
        have cut : ∀ (bs : List BinInput) (w : Wisard) (j : Nat), i < j →
            w.trainDataLoop (fun k => if k = i then ⟨rnd, lf⟩ else env k) ds bs j = w.trainDataLoop env ds bs j := by
          intro bs
          induction bs with
          | nil => intro w j _; rfl
          | cons b bs ih =>
            intro w j hj
            unfold Wisard.trainDataLoop
            cases ds.getLabel j with
            | error e => rfl
            | ok l =>
              simp only [if_neg (show ¬ j = i by omega)]
              rcases w.train1 (env j) (.bin b) l with ⟨w', r⟩
              cases r with
              | error e => rfl
              | ok _ => exact ih w' (j + 1) (by omega)
        refine ⟨fun k => if k = i then ⟨rnd, lf⟩ else env k, ?_⟩
        simp only [if_true]
        revert he hr
        rcases Wisard.train1G g lf s w (.bin b) l with ⟨⟨w', r⟩, s'⟩
        intro hr he
        rw [← hr]
        cases r with
        | error e => rfl
        | ok _ =>
          show (Wisard.trainDataLoopG g lf ds s' w' bs (i + 1)).1 = w'.trainDataLoop _ ds bs (i + 1)
          rw [cut bs w' (i + 1) (by omega)]
          exact he
  have e : w.trainDataSet = fun env ds => match w.dataChecks ds with
      | .error e => (w, .error e)
      | .ok () => w.trainDataLoop env ds ds.data 0 := rfl
  unfold Wisard.trainDataSetG
  rw [e]
  dsimp only
  cases w.dataChecks ds with
  | error e => exact ⟨fun _ => ⟨Rnd.id, lf⟩, rfl⟩
  | ok _ => exact loop _ s w 0

/-- C135: any number of threads that only ask, of the same models or of others, in any order of their accesses: there is no data
race, nothing changes, every thread gets, for each of its calls, the answer that the call has when it is made alone, and all
threads can finish. -/
theorem C135_questions (c : Impl) (m : Mem c.g) (h : Ordered (world m)) (scripts : List (List Call))
    (ha : ∀ s ∈ scripts, ∀ x ∈ s, Asks c x) (ts : List Nat) :
    ¬ ((start c m scripts).exec ts).Race ∧ ((start c m scripts).exec ts).mem = m ∧
    (∀ (t : Nat) (s : List Call) (a : List (Res Reply)), scripts[t]? = some s → ((start c m scripts).exec ts).Finished t a →
      a = s.map fun x => (World.call c (world m) x).2) ∧
    ∃ ts' : List Nat, ((start c m scripts).exec (ts ++ ts')).AllFinished := by
  have hu : ∀ s ∈ scripts, Impl.Uses' m (fun _ => True) (fun _ => True) (fun _ => False) (c.scriptP s) := fun s hs =>
    Impl.scriptP_uses s (fun x hx => by
      have := ha s hs x hx
      refine Impl.callP_uses x (fun _ _ => trivial) ?_ ?_
      · rintro l (⟨_, _, _, h2, _⟩ | ⟨_, h2, _⟩)
        · exact changes_not_asks h2 this
        · exact h2 this
      · cases x <;> first | (cases this; done) | trivial)
  have sep : Config.Separate (fun _ _ => True) (fun _ _ => False) (Okay m fun _ => True) (start c m scripts) := by
    refine ⟨fun t p hp => ?_, fun _ _ _ _ h => h.elim, fun l => ?_⟩
    · have hp : (scripts.map c.scriptP)[t]? = some p := hp
      obtain ⟨s, hs, rfl⟩ := List.mem_map.mp (List.mem_of_getElem? hp)
      exact hu s hs
    · cases l <;> first | trivial | exact fun _ _ hk => hk | exact fun _ => rfl
  have asks : ∀ s : List Call, (∀ x ∈ s, Asks c x) → World.calls c (world m) s = (world m, s.map fun x => (World.call c (world m) x).2) := by
    intro s
    induction s with
    | nil => intro _; rfl
    | cons x xs ih =>
      intro hs
      have e : (World.call c (world m) x).1 = world m := by
        have := hs x (List.mem_cons_self)
        cases x <;> first | (cases this; done) | rfl
      unfold World.calls
      rw [e, ih (fun y hy => hs y (List.mem_cons_of_mem _ hy))]
      rfl
  refine ⟨(sep.exec ts).1.no_race, ?_, ?_, ?_⟩
  · funext l
    exact (sep.exec ts).2.2 l (fun _ _ h => h)
  · intro t s a hs hf
    have hp : (start c m scripts).threads[t]? = some (c.scriptP s) := by
      show (scripts.map c.scriptP)[t]? = _
      rw [List.getElem?_map, hs]; rfl
    have := (sep.finished ts hp hf).1
    rw [this]
    show ((c.scriptP s).run m).2 = _
    rw [(Impl.scriptP_run s m h).2.1, asks s (ha s (List.mem_of_getElem? hs))]
  · obtain ⟨ts', h'⟩ := Config.can_finish ((start c m scripts).exec ts)
    exact ⟨ts', by rw [Config.exec_append]; exact h'⟩

/-! ## C136 -/

/-- C136: if what one call does changes the answer of another, making both at the same time is a data race. -/
theorem C136_influence (c : Impl) (m : Mem c.g) (h : Ordered (world m)) (x y : Call)
    (hi : (World.call c (World.call c (world m) x).1 y).2 ≠ (World.call c (world m) y).2) :
    ∃ ts : List Nat, ((start c m [[x], [y]]).exec ts).Race := by
  obtain ⟨e1, _, e3⟩ := Impl.scriptP_run (c := c) [x] m h
  refine Config.race_of_influence (c.scriptP [y]) (c.scriptP [x]) m ?_
  rw [(Impl.scriptP_run [y] _ e3).2.1, (Impl.scriptP_run [y] m h).2.1, e1]
  intro e
  injection e with e
  exact hi e

/-- C136: a call that changes a model (or the state of the generator) races with a second call of the same kind. -/
theorem C136_twice (c : Impl) (m : Mem c.g) (h : Ordered (world m)) (x : Call) (hi : (World.call c (world m) x).1 ≠ world m) :
    ∃ ts : List Nat, ((start c m [[x], [x]]).exec ts).Race := by
  refine Config.self_race (c.scriptP [x]) m ?_
  intro e
  apply hi
  have := (Impl.scriptP_run (c := c) [x] m h).1
  rw [e] at this
  exact this.symm

/-- C136: even if accesses of one location never disturb one another, work is lost: two threads making the same calls can both
finish with the replies of a thread that is alone, and leave what one thread alone leaves. For training this means that one of
two images is forgotten, silently. -/
theorem C136_lost (c : Impl) (m : Mem c.g) (h : Ordered (world m)) (s : List Call) : ∃ ts : List Nat,
    ((start c m [s, s]).exec ts).AllFinished ∧
    (∀ t < 2, ((start c m [s, s]).exec ts).Finished t (World.calls c (world m) s).2) ∧
    world ((start c m [s, s]).exec ts).mem = (World.calls c (world m) s).1 := by
  have idem : ∀ s : List Call, (c.scriptP s).Idem := by
    intro s
    induction s with
    | nil => trivial
    | cons x xs ih => exact (Impl.callP_idem x).bind (fun r => ih.bind (fun _ => trivial))
  obtain ⟨ts, hts⟩ := lockstep (idem s) m
  obtain ⟨e1, e2, _⟩ := Impl.scriptP_run (c := c) s m h
  refine ⟨ts, ?_, ?_, ?_⟩
  · show ((Config.mk m [c.scriptP s, c.scriptP s]).exec ts).AllFinished
    rw [hts]
    intro p hp
    simp only [List.mem_cons, List.not_mem_nil, or_false, or_self] at hp
    exact ⟨_, hp⟩
  · intro t ht
    show ((Config.mk m [c.scriptP s, c.scriptP s]).exec ts).threads[t]? = _
    rw [hts, ← e2]
    match t, ht with
    | 0, _ => rfl
    | 1, _ => rfl
  · show world ((Config.mk m [c.scriptP s, c.scriptP s]).exec ts).mem = _
    rw [hts]
    exact e1

/-- C136: a question that is not one: the mental image of an unknown class of a ClusWisard, asked by two threads, is a data race. -/
theorem C136_clus_mental (c : Impl) (m : Mem c.g) (h : Ordered (world m)) (o : Nat) (l : Str) (it : IterOrder)
    (hu : ((world m).clus o).clusters.find l = none) : ∃ ts : List Nat, ((start c m [[.clusMental o l it], [.clusMental o l it]]).exec ts).Race := by
  refine C136_twice c m h _ ?_
  intro e
  have e1 := congrFun (congrArg World.clus e) o
  have e2 : (put (world m).clus o (((world m).clus o).getMentalImage it l).1) o = (world m).clus o := e1
  unfold put at e2
  rw [if_pos rfl] at e2
  unfold ClusWisard.getMentalImage at e2
  rw [hu] at e2
  have e3 : (((world m).clus o).clusters.set l Cluster.default).find l = ((world m).clus o).clusters.find l :=
    congrArg (fun w => w.clusters.find l) e2
  rw [SMap.find_set_self, hu] at e3
  cases e3

/-! ## C137 -/

theorem calls_append (c : Impl) (xs ys : List Call) : ∀ W : World c.g,
    (World.calls c W (xs ++ ys)).1 = (World.calls c (World.calls c W xs).1 ys).1 := by
  induction xs with
  | nil => intro W; rfl
  | cons x xs ih => intro W; exact ih _

theorem inOrder_world (c : Impl) (scripts : List (List Call)) : ∀ m : Mem c.g, Ordered (world m) →
    world (Config.inOrder (scripts.map c.scriptP) m) = (World.calls c (world m) scripts.flatten).1 := by
  induction scripts with
  | nil => intro m _; rfl
  | cons s ss ih =>
    intro m h
    obtain ⟨e1, _, e3⟩ := Impl.scriptP_run (c := c) s m h
    rw [List.flatten_cons, calls_append, ← e1, ← ih _ e3]
    rfl

/-- C137 (partial): threads whose calls are on different models, or only ask, or train and unlearn different classes that exist, or
work on the two halves of a ClusWisard, of which at most one uses the random numbers of the C library, do not disturb one another: in any order of their accesses there is no data
race, every thread gets the replies that it gets when it runs alone, all threads can finish, and then the models are what they
are when the threads run one after the other. Missing: two threads that use random numbers (next theorems). -/
theorem C137_independent_partial (c : Impl) (m : Mem c.g) (h : Ordered (world m)) (scripts : List (List Call))
    (hi : AllIndependent c (world m) scripts) (ts : List Nat) :
    ¬ ((start c m scripts).exec ts).Race ∧
    (∀ (t : Nat) (s : List Call) (a : List (Res Reply)), scripts[t]? = some s → ((start c m scripts).exec ts).Finished t a →
      a = (World.calls c (world m) s).2) ∧
    (∃ ts' : List Nat, ((start c m scripts).exec (ts ++ ts')).AllFinished) ∧
    (((start c m scripts).exec ts).AllFinished →
      world ((start c m scripts).exec ts).mem = (World.calls c (world m) scripts.flatten).1) := by
  -- Wisards that are not made anew
  let fixed : Nat → Prop := fun o => ∀ s ∈ scripts, ∀ now A opts, Call.newWisard o now A opts ∉ s
  let F : Nat → Loc → Prop := fun t l => ∃ s, scripts[t]? = some s ∧ ∃ x ∈ s, x.uses c (world m) fixed l
  let W : Nat → Loc → Prop := fun t l => ∃ s, scripts[t]? = some s ∧ ∃ x ∈ s, x.writes c (world m) fixed l
  -- a Wisard used in different threads, not only for questions, is not made anew
  have alone : ∀ {t t' : Nat} {s s' : List Call} {o : Nat} {x : Call}, scripts[t]? = some s → scripts[t']? = some s' → x ∈ s → x.model = .wis o →
      ∀ now A opts, Call.newWisard o now A opts ∈ s' → t = t' := by
    intro t t' s s' o x hs hs' hx hxm now A opts hn
    by_cases e : t = t'
    · exact e
    · exfalso
      obtain ⟨h1, _⟩ := hi t t' s s' e hs hs' x hx _ hn
      rcases h1 with h1 | h1 | h1 | ⟨_, _, ⟨_, h1⟩ | ⟨_, h1, _⟩⟩ | ⟨_, _, ⟨h1, _⟩ | ⟨_, _, _, h1⟩⟩
      · exact h1 hxm
      · exact h1.2
      · obtain ⟨_, _, _, _, c2, _⟩ := h1
        cases c2
      · cases h1
      · cases h1
      · exact h1
      · cases h1
  have sep : Config.Separate F W (Okay m fixed) (start c m scripts) := by
    refine ⟨fun t p hp => ?_, ?_, fun l => ?_⟩
    · have hp : (scripts.map c.scriptP)[t]? = some p := hp
      rw [List.getElem?_map] at hp
      cases hs : scripts[t]? with
      | none => rw [hs] at hp; cases hp
      | some s =>
        rw [hs] at hp
        injection hp with hp
        subst hp
        refine Impl.scriptP_uses s (fun x hx => ?_)
        refine Impl.callP_uses x (fun l hl => ⟨s, hs, x, hx, hl⟩) (fun l hl => ⟨s, hs, x, hx, hl⟩) ?_
        have gen : ∀ o, x.model = .wis o → fixed o ∨ (F t .gen ∧ W t .gen) := by
          intro o hxm
          by_cases hf : fixed o
          · exact .inl hf
          · right
            have : ∃ s' ∈ scripts, ∃ now A opts, Call.newWisard o now A opts ∈ s' := by
              by_cases hex : ∃ s' ∈ scripts, ∃ now A opts, Call.newWisard o now A opts ∈ s'
              · exact hex
              · exact absurd (fun s' hs' now A opts hm => hex ⟨s', hs', now, A, opts, hm⟩) hf
            obtain ⟨s', hs', now, A, opts, hm⟩ := this
            obtain ⟨t', ht', e'⟩ := List.mem_iff_getElem.mp hs'
            have hs' : scripts[t']? = some s' := by rw [List.getElem?_eq_getElem ht', e']
            have := alone hs hs' hx hxm now A opts hm
            subst this
            rw [hs] at hs'
            injection hs' with hs'
            subst hs'
            exact ⟨⟨s, hs, _, hm, .inr ⟨(fun k => k.1), .inr ⟨trivial, rfl⟩⟩⟩, ⟨s, hs, _, hm, .inr ⟨(fun k => k.1), (fun k => k), .inr ⟨trivial, rfl⟩⟩⟩⟩
        cases x <;> try trivial
        · rename_i o now A opts
          exact fun hf => hf s (List.mem_of_getElem? hs) now A opts hx
        · exact gen _ rfl
        · exact gen _ rfl
    · rintro t t' l hne ⟨s, hs, x, hx, hw⟩ ⟨s', hs', y, hy, hu⟩
      refine Call.apart (hi t t' s s' hne hs hs' x hx y hy) (fun ha o ho => ?_) hw hu
      intro s'' hs'' now A opts hm
      obtain ⟨t'', ht'', e''⟩ := List.mem_iff_getElem.mp hs''
      have hs'' : scripts[t'']? = some s'' := by rw [List.getElem?_eq_getElem ht'', e'']
      have h1 := alone hs hs'' hx ho now A opts hm
      have h2 : y.model = .wis o := by
        obtain ⟨o', _, _, c1, c2, _⟩ := ha
        rw [changes_model c2, ← changes_model c1]
        exact ho
      have h3 := alone hs' hs'' hy h2 now A opts hm
      exact hne (h1.trans h3.symm)
    · cases l <;> first | trivial | exact fun _ _ hk => hk | exact fun _ => rfl
  refine ⟨(sep.exec ts).1.no_race, ?_, ?_, ?_⟩
  · intro t s a hs hf
    have hp : (start c m scripts).threads[t]? = some (c.scriptP s) := by
      show (scripts.map c.scriptP)[t]? = _
      rw [List.getElem?_map, hs]; rfl
    rw [(sep.finished ts hp hf).1]
    exact (Impl.scriptP_run s m h).2.1
  · obtain ⟨ts', h'⟩ := Config.can_finish ((start c m scripts).exec ts)
    exact ⟨ts', by rw [Config.exec_append]; exact h'⟩
  · intro hf
    obtain ⟨ts', k1, k2⟩ := Config.run_in_order (scripts.map c.scriptP) m [] (by intro p hp; cases hp)
    have : ((start c m scripts).exec ts).mem = ((start c m scripts).exec ts').mem :=
      sep.final (fun t l ⟨s, hs, x, hx, hw⟩ => ⟨s, hs, x, hx, Call.writes_uses hw⟩) hf k1
    rw [this]
    show world ((Config.mk m ([] ++ scripts.map c.scriptP)).exec ts').mem = _
    rw [k2]
    exact inOrder_world c scripts m h

/-- C137 (refuted): two threads that each make a Wisard of their own have a data race, whatever their arguments: both constructors
seed the generator of the C library. -/
theorem C137_constructors_refuted (c : Impl) (m : Mem c.g) (o o' now now' : Nat) (A A' : Int) (opts opts' : WisardOpts) :
    ∃ ts : List Nat, ((start c m [[.newWisard o now A opts], [.newWisard o' now' A' opts']]).exec ts).Race :=
  Config.first_race (loc := Loc.gen) _ _ m (show Loc.gen = Loc.gen from rfl) (show Loc.gen = Loc.gen from rfl)

/-- C137 (refuted): so do two calls on different models that both change the state of the generator, such as two trainings, of
different Wisards, that make classes with random wiring. -/
theorem C137_random_refuted (c : Impl) (m : Mem c.g) (h : Ordered (world m)) (x y : Call) (hm : x.model ≠ y.model)
    (hx : (World.call c (world m) x).1.gen ≠ (world m).gen) (hy : (World.call c (world m) y).1.gen ≠ (world m).gen) :
    ∃ ts : List Nat, ((start c m [[x], [y]]).exec ts).Race := by
  have uses : ∀ x : Call, Impl.Uses' m (fun _ => False) (fun l => l.model = some x.model ∨ l = .gen) (fun l => l.model = some x.model ∨ l = .gen)
      (c.scriptP [x]) := by
    intro x
    refine Impl.scriptP_uses [x] (fun z hz => ?_)
    have hz := List.mem_singleton.mp hz
    subst hz
    have nk : ¬ TrainsKnown c (world m) (fun _ => False) z := by
      cases z <;> first | exact fun k => k.1 | exact fun k => k.2 _ _ rfl
    refine Impl.callP_uses z ?_ ?_ ?_
    · rintro l (⟨k, _⟩ | ⟨_, k | k⟩)
      · exact absurd k nk
      · exact .inl k.1
      · exact .inr k.2
    · rintro l (⟨k, _⟩ | ⟨_, _, k | k⟩)
      · exact absurd k nk
      · exact .inl k.1
      · exact .inr k.2
    · cases z <;> first | trivial | exact fun k => k | exact .inr ⟨.inr rfl, .inr rfl⟩
  have ok0 : ∀ m' : Mem c.g, ∀ l, Okay m (fun _ => False) l (m' l) := fun m' l => by
    cases l <;> first | trivial | exact fun k => k.elim
  have gen : ∀ z : Call, ((c.scriptP [z]).run m).1 .gen = (World.call c (world m) z).1.gen := fun z =>
    congrArg World.gen (Impl.scriptP_run (c := c) [z] m h).1
  -- the first thread stops just before it writes the generator
  obtain ⟨n, p', k1, k2, k3⟩ := Config.reach_write (c.scriptP [x]) (start c m [[x], [y]]) 0 .gen rfl (uses x) (ok0 m) (by
    show ((c.scriptP [x]).run m).1 .gen ≠ m .gen
    rw [gen x]; exact hx)
  generalize hc : (start c m [[x], [y]]).exec (List.replicate n 0) = c1 at k1 k3
  have agree := (uses y).agree (m := m) (m' := c1.mem) (fun l _ => ok0 m l) (fun l hl => by
    symm
    refine k3 l ?_
    rcases hl with hl | hl
    · refine .inl ?_
      rintro (hl' | hl')
      · rw [hl] at hl'; injection hl' with hl'; exact hm hl'.symm
      · subst hl'; cases hl
    · exact .inr hl)
  have e1 : c1.threads = [p', c.scriptP [y]] := k1
  have g1 : c1.mem .gen = m .gen := k3 .gen (.inr rfl)
  -- the second too
  obtain ⟨n', q', j1, j2, _⟩ := Config.reach_write (c.scriptP [y]) c1 1 .gen (by rw [e1]; rfl) (uses y) (ok0 c1.mem) (by
    rw [← agree.2 .gen (.inr rfl), g1, gen y]; exact hy)
  refine ⟨List.replicate n 0 ++ List.replicate n' 1, ?_⟩
  rw [Config.exec_append, hc]
  rw [e1] at j1
  exact ⟨0, 1, p', q', .gen, true, true, by omega, by rw [j1]; rfl, by rw [j1]; rfl, k2, j2, .inl rfl⟩

/-! ## C138 -/

/-- C138 (partial): where `operator[]` of `std::map` only searches if the key exists (as in libstdc++), any number of threads can
train one Wisard at the same time, if the classes exist and no class is trained by two threads: no data race, every training has
the outcome that it has alone, and in the end the Wisard is as after training one thread's images after the other's. Missing: the
C++ standard does not promise this (next theorem), and classes that do not exist yet. -/
theorem C138_parallel_partial (c : Impl) (hb : c.bracketWrites = false) (m : Mem c.g) (h : Ordered (world m)) (o : Nat)
    (jobs : List (List (List (List Int) × List Str))) (hk : ∀ job ∈ jobs, ∀ b ∈ job, ∀ l ∈ b.2, Known (world m) o l)
    (hd : ∀ (t t' : Nat) job job', t ≠ t' → jobs[t]? = some job → jobs[t']? = some job' → ∀ b ∈ job, ∀ b' ∈ job', ∀ l ∈ b.2, l ∉ b'.2)
    (ts : List Nat) (scripts : List (List Call)) (hs : scripts = jobs.map fun job => job.map fun b => Call.train o b.1 b.2) :
    ¬ ((start c m scripts).exec ts).Race ∧
    (∀ (t : Nat) (s : List Call) (a : List (Res Reply)), scripts[t]? = some s → ((start c m scripts).exec ts).Finished t a →
      a = (World.calls c (world m) s).2) ∧
    (∃ ts' : List Nat, ((start c m scripts).exec (ts ++ ts')).AllFinished) ∧
    (((start c m scripts).exec ts).AllFinished →
      world ((start c m scripts).exec ts).mem = (World.calls c (world m) scripts.flatten).1) := by
  refine C137_independent_partial c m h scripts ?_ ts
  intro t t' s s' hne hs1 hs2 x hx y hy
  subst hs
  rw [List.getElem?_map] at hs1 hs2
  cases e1 : jobs[t]? with
  | none => rw [e1] at hs1; cases hs1
  | some job =>
    cases e2 : jobs[t']? with
    | none => rw [e2] at hs2; cases hs2
    | some job' =>
      rw [e1] at hs1; rw [e2] at hs2
      injection hs1 with hs1; injection hs2 with hs2
      subst hs1; subst hs2
      obtain ⟨b, hbm, rfl⟩ := List.mem_map.mp hx
      obtain ⟨b', hbm', rfl⟩ := List.mem_map.mp hy
      have k1 := hk job (List.mem_of_getElem? e1) b hbm
      have k2 := hk job' (List.mem_of_getElem? e2) b' hbm'
      refine ⟨.inr (.inr (.inl ⟨o, b.2, b'.2, rfl, rfl, ⟨hb, k1⟩, ⟨hb, k2⟩, hd t t' job job' hne e1 e2 b hbm b' hbm'⟩)), ?_⟩
      rintro ⟨⟨l, hl, hn, _⟩, _⟩
      exact hn (k1 l hl)

/-- C138 (refuted): by the letter of the C++ standard, where `operator[]` of `std::map` counts as a write, two trainings of one
Wisard that pass the checks have a data race, even if all classes exist and are different. -/
theorem C138_standard_refuted (c : Impl) (hb : c.bracketWrites = true) (m : Mem c.g) (o : Nat) (img img' : List Int) (imgs imgs' : List (List Int))
    (l l' : Str) (ls ls' : List Str) (hk : Known (world m) o l) (hk' : Known (world m) o l')
    (hc : ((world m).wis o).trainChecks (img :: imgs) (l :: ls) = .ok ()) (hc' : ((world m).wis o).trainChecks (img' :: imgs') (l' :: ls') = .ok ()) :
    ∃ ts : List Nat, ((start c m [[.train o (img :: imgs) (l :: ls)], [.train o (img' :: imgs') (l' :: ls')]]).exec ts).Race := by
  have key : ∀ (img : List Int) (imgs : List (List Int)) (l : Str) (ls : List Str), Known (world m) o l →
      ((world m).wis o).trainChecks (img :: imgs) (l :: ls) = .ok () →
      (c.scriptP [.train o (img :: imgs) (l :: ls)]).WritesFirst (.map o) m := by
    intro img imgs l ls hk hc
    refine Prog.WritesFirst.bind ?_ _
    have hm := (known_iff m o l).mp hk
    show Prog.WritesFirst (Loc.map o) (match Wisard.trainChecks ⟨(m (.opts o)).1, (m (.opts o)).2, []⟩ (img :: imgs) (l :: ls) with
      | .error e => .done (.error e)
      | .ok () => c.trainLoopP o (((img :: imgs).map Image.vec).zip (l :: ls)) (.done (.ok Reply.nothing))) m
    have e : Wisard.trainChecks ⟨(m (.opts o)).1, (m (.opts o)).2, []⟩ (img :: imgs) (l :: ls) = .ok () := hc
    rw [e]
    show Prog.WritesFirst (Loc.map o) (if l ∈ m (.map o) then c.bracketP o l _ else _) m
    rw [if_pos hm]
    show Prog.WritesFirst (Loc.map o) (if l ∈ m (.map o) then (if c.bracketWrites then .write (.map o) (fun ls => ls) _ else _) else _) m
    rw [if_pos hm, if_pos hb]
    rfl
  exact Config.first_race (loc := Loc.map o) _ _ m (key img imgs l ls hk hc) (key img' imgs' l' ls' hk' hc')

/-! ## C180 -/

/-- C180: any number of threads can unlearn images of one Wisard at the same time, if no class is unlearnt by two threads: whatever
the implementation of `std::map`, known classes or not, no data race, every call has the outcome that it has alone, and in the end the
Wisard is as after one thread's calls after the other's. -/
theorem C180_parallel (c : Impl) (m : Mem c.g) (h : Ordered (world m)) (o : Nat)
    (jobs : List (List (List (List Int) × List Str)))
    (hd : ∀ (t t' : Nat) job job', t ≠ t' → jobs[t]? = some job → jobs[t']? = some job' → ∀ b ∈ job, ∀ b' ∈ job', ∀ l ∈ b.2, l ∉ b'.2)
    (ts : List Nat) (scripts : List (List Call)) (hs : scripts = jobs.map fun job => job.map fun b => Call.leaveMoreOut o b.1 b.2) :
    ¬ ((start c m scripts).exec ts).Race ∧
    (∀ (t : Nat) (s : List Call) (a : List (Res Reply)), scripts[t]? = some s → ((start c m scripts).exec ts).Finished t a →
      a = (World.calls c (world m) s).2) ∧
    (∃ ts' : List Nat, ((start c m scripts).exec (ts ++ ts')).AllFinished) ∧
    (((start c m scripts).exec ts).AllFinished →
      world ((start c m scripts).exec ts).mem = (World.calls c (world m) scripts.flatten).1) := by
  refine C137_independent_partial c m h scripts ?_ ts
  intro t t' s s' hne hs1 hs2 x hx y hy
  subst hs
  rw [List.getElem?_map] at hs1 hs2
  cases e1 : jobs[t]? with
  | none => rw [e1] at hs1; cases hs1
  | some job =>
    cases e2 : jobs[t']? with
    | none => rw [e2] at hs2; cases hs2
    | some job' =>
      rw [e1] at hs1; rw [e2] at hs2
      injection hs1 with hs1; injection hs2 with hs2
      subst hs1; subst hs2
      obtain ⟨b, hbm, rfl⟩ := List.mem_map.mp hx
      obtain ⟨b', hbm', rfl⟩ := List.mem_map.mp hy
      refine ⟨.inr (.inr (.inl ⟨o, b.2, b'.2, rfl, rfl, trivial, trivial, hd t t' job job' hne e1 e2 b hbm b' hbm'⟩)), ?_⟩
      exact fun k => k.1

/-- C180: threads that train and unlearn, each its own classes. Training needs classes that exist and an `operator[]` that only
searches; unlearning needs neither. -/
theorem C180_mixed (c : Impl) (m : Mem c.g) (h : Ordered (world m)) (o : Nat) (scripts : List (List Call))
    (hk : ∀ s ∈ scripts, ∀ x ∈ s, LooksUp c (world m) x ∧ x.model = .wis o)
    (hd : ∀ (t t' : Nat) s s', t ≠ t' → scripts[t]? = some s → scripts[t']? = some s' → ∀ x ∈ s, ∀ y ∈ s', ∀ ls ls',
      Changes x = some (o, ls) → Changes y = some (o, ls') → ∀ l ∈ ls, l ∉ ls') (ts : List Nat) :
    ¬ ((start c m scripts).exec ts).Race ∧
    (∀ (t : Nat) (s : List Call) (a : List (Res Reply)), scripts[t]? = some s → ((start c m scripts).exec ts).Finished t a →
      a = (World.calls c (world m) s).2) ∧
    (∃ ts' : List Nat, ((start c m scripts).exec (ts ++ ts')).AllFinished) ∧
    (((start c m scripts).exec ts).AllFinished →
      world ((start c m scripts).exec ts).mem = (World.calls c (world m) scripts.flatten).1) := by
  refine C137_independent_partial c m h scripts ?_ ts
  have ch : ∀ {x : Call}, LooksUp c (world m) x → x.model = .wis o → ∃ ls, Changes x = some (o, ls) := by
    intro x hu hm
    cases x <;> first | (cases hu; done) | (injection hm with hm; subst hm; exact ⟨_, rfl⟩)
  have nd : ∀ {x : Call}, LooksUp c (world m) x → ¬ Draws (world m) x := by
    intro x hu hx
    cases x <;> first | (cases hu; done) | (cases hx; done) | (obtain ⟨l, hl, hn, _⟩ := hx; exact hn (hu.2 l hl))
  intro t t' s s' hne hs1 hs2 x hx y hy
  obtain ⟨u1, m1⟩ := hk s (List.mem_of_getElem? hs1) x hx
  obtain ⟨u2, m2⟩ := hk s' (List.mem_of_getElem? hs2) y hy
  obtain ⟨ls, c1⟩ := ch u1 m1
  obtain ⟨ls', c2⟩ := ch u2 m2
  exact ⟨.inr (.inr (.inl ⟨o, ls, ls', c1, c2, u1, u2, hd t t' s s' hne hs1 hs2 x hx y hy ls ls' c1 c2⟩)), fun k => nd u1 k.1⟩

/-- C180: unlearning next to training of another class is a data race where `operator[]` counts as a write. -/
theorem C180_training_race (c : Impl) (hb : c.bracketWrites = true) (m : Mem c.g) (o : Nat) (img img' : List Int) (imgs : List (List Int))
    (l l' : Str) (ls : List Str) (hk : Known (world m) o l) (hc : ((world m).wis o).trainChecks (img :: imgs) (l :: ls) = .ok ()) :
    ∃ ts : List Nat, ((start c m [[.train o (img :: imgs) (l :: ls)], [.leaveOneOut o img' l']]).exec ts).Race := by
  have hm := (known_iff m o l).mp hk
  have e : Wisard.trainChecks ⟨(m (.opts o)).1, (m (.opts o)).2, []⟩ (img :: imgs) (l :: ls) = .ok () := hc
  have stop : ∀ (p q : Prog (Val c.g.S) (List (Res Reply))) (lo : Loc), p.WritesFirst lo m → Config.About q lo false →
      ∃ ts : List Nat, ((Config.mk m [p, q]).exec ts).Race := by
    intro p q lo hp hq
    induction p with
    | done a => cases hp
    | read l next ih =>
      obtain ⟨ts, hts⟩ := ih (m l) hp
      exact ⟨0 :: ts, hts⟩
    | write l u next _ =>
      have hp : l = lo := hp
      subst hp
      exact ⟨[], 0, 1, _, q, l, true, false, by omega, rfl, rfl, ⟨rfl, rfl⟩, hq, .inl rfl⟩
  refine stop _ _ (.map o) (Prog.WritesFirst.bind ?_ _) ⟨rfl, rfl⟩
  show Prog.WritesFirst (Loc.map o) (match Wisard.trainChecks ⟨(m (.opts o)).1, (m (.opts o)).2, []⟩ (img :: imgs) (l :: ls) with
    | .error e => .done (.error e)
    | .ok () => c.trainLoopP o (((img :: imgs).map Image.vec).zip (l :: ls)) (.done (.ok Reply.nothing))) m
  rw [e]
  show Prog.WritesFirst (Loc.map o) (if l ∈ m (.map o) then c.bracketP o l _ else _) m
  rw [if_pos hm]
  show Prog.WritesFirst (Loc.map o) (if l ∈ m (.map o) then (if c.bracketWrites then .write (.map o) (fun ls => ls) _ else _) else _) m
  rw [if_pos hm, if_pos hb]
  rfl

/-! ## Concrete cases -/

/-- A Wisard with classes "a" and "b". -/
def exShared : Wisard :=
  (((Wisard.create 2 { indexes := [0, 1, 2, 3] }).train1 ⟨Rnd.id, true⟩ (.vec [1, 1, 0, 0]) b!"a").1.train1 ⟨Rnd.id, true⟩ (.vec [0, 0, 1, 1]) b!"b").1

/-- libstdc++. -/
def exImpl : Impl := ⟨lcg, true, false, Flt.exact⟩

/-- Every Wisard variable holds that one, except number 1, which is new and wires at random. -/
def exThreads : World exImpl.g where
  discs _ := (((Discriminator.create Rnd.id 2 4 {}).toOption).getD Discriminator.default)
  wis o := if o = 1 then Wisard.create 2 {} else exShared
  clus _ := ⟨2, 1 / 10, 10, 5, {}, [], Cluster.default⟩
  gen := (7 : Nat)

theorem exThreads_ordered : Ordered exThreads := by
  intro o
  refine ⟨?_, List.Pairwise.nil⟩
  show SMap.Sorted (if o = 1 then Wisard.create 2 {} else exShared).discriminators
  by_cases h : o = 1
  · rw [if_pos h]; exact List.Pairwise.nil
  · rw [if_neg h]; unfold SMap.Sorted; decide

/-- A case for C135: two threads that ask the same Wisard; the answers. -/
example : (∀ s ∈ [[Call.classify 0 [.vec [1, 1, 0, 0]], .mentalImages 0 IterOrder.id], [.classify 0 [.vec [0, 0, 1, 1], .vec [0, 0, 1, 0]]]], ∀ x ∈ s, Asks exImpl x) ∧
    ((World.call exImpl exThreads (.classify 0 [.vec [1, 1, 0, 0]])).2 = .ok (.labels [b!"a"])) ∧
    (World.call exImpl exThreads (.mentalImages 0 IterOrder.id)).2 = .ok (.images [(b!"a", [1, 1, 0, 0]), (b!"b", [0, 0, 1, 1])]) ∧
    (World.call exImpl exThreads (.classify 0 [.vec [0, 0, 1, 1], .vec [0, 0, 1, 0]])).2 = .ok (.labels [b!"b", b!"b"]) := by
  refine ⟨?_, by decide +kernel, by decide +kernel, by decide +kernel⟩
  intro s hs x hx
  simp only [List.mem_cons, List.not_mem_nil, or_false] at hs
  rcases hs with rfl | rfl <;> simp only [List.mem_cons, List.not_mem_nil, or_false] at hx
  · rcases hx with rfl | rfl <;> trivial
  · subst hx; trivial

/-- Cases for C136: training changes the answer to a classification; asking for the mental image of an unknown class changes the
ClusWisard. -/
example : (World.call exImpl (World.call exImpl exThreads (.discTrain 3 (.vec [1, 0, 1, 0]))).1 (.discClassify 3 (.vec [1, 0, 1, 1]))).2 = .ok (.votes [1, 0]) ∧
    (World.call exImpl exThreads (.discClassify 3 (.vec [1, 0, 1, 1]))).2 = .ok (.votes [0, 0]) ∧
    (exThreads.clus 2).clusters.find b!"x" = none := by decide

/-- A case for C136: of two trainings one is lost, and both report success. -/
example : ∃ (m : Mem exImpl.g) (ts : List Nat), world m = exThreads ∧
    (∀ t < 2, ((start exImpl m [[.discTrain 3 (.vec [1, 0, 1, 0])], [.discTrain 3 (.vec [1, 0, 1, 0])]]).exec ts).Finished t [.ok .nothing]) ∧
    ((world ((start exImpl m [[.discTrain 3 (.vec [1, 0, 1, 0])], [.discTrain 3 (.vec [1, 0, 1, 0])]]).exec ts).mem).discs 3).classify (.vec [1, 0, 1, 0]) = .ok [1, 1] := by
  obtain ⟨ts, _, h2, h3⟩ := C136_lost exImpl (memOf exThreads) (by rw [world_memOf _ exThreads_ordered]; exact exThreads_ordered)
    [.discTrain 3 (.vec [1, 0, 1, 0])]
  rw [world_memOf _ exThreads_ordered] at h2 h3
  refine ⟨memOf exThreads, ts, world_memOf _ exThreads_ordered, h2, ?_⟩
  rw [h3]
  decide

/-- A case for C137: a thread that makes a Wisard and trains new classes of it, at random; one that trains a new class of another
Wisard, wired by its options; and one that asks a third. -/
example : AllIndependent exImpl exThreads [[.newWisard 5 1000 2 {}, .train 5 [[1, 0, 1, 0]] [b!"z"]], [.train 2 [[1, 0, 1, 0]] [b!"c"]], [.classify 0 [.vec [1, 1, 0, 0]]]] ∧
    (World.call exImpl exThreads (.train 2 [[1, 0, 1, 0]] [b!"c"])).2 = .ok .nothing := by
  have d2 : ¬ Draws exThreads (.train 2 [[1, 0, 1, 0]] [b!"c"]) := by
    rintro ⟨l, _, _, _, h⟩
    revert h
    decide
  refine ⟨?_, by decide⟩
  intro t t' s s' hne hs hs' x hx y hy
  have cases3 : ∀ (t : Nat) (s : List Call) (x : Call), [[Call.newWisard 5 1000 2 {}, .train 5 [[1, 0, 1, 0]] [b!"z"]], [.train 2 [[1, 0, 1, 0]] [b!"c"]], [.classify 0 [.vec [1, 1, 0, 0]]]][t]? = some s → x ∈ s →
      (t = 0 ∧ x.model = .wis 5) ∨ (t = 1 ∧ x.model = .wis 2 ∧ ¬ Draws exThreads x) ∨ (t = 2 ∧ x.model = .wis 0 ∧ ¬ Draws exThreads x) := by
    intro t s x hs hx
    match t, hs with
    | 0, hs =>
      injection hs with hs
      subst hs
      simp only [List.mem_cons, List.not_mem_nil, or_false] at hx
      rcases hx with rfl | rfl <;> exact .inl ⟨rfl, rfl⟩
    | 1, hs =>
      injection hs with hs
      subst hs
      rw [List.mem_singleton.mp hx]
      exact .inr (.inl ⟨rfl, rfl, d2⟩)
    | 2, hs =>
      injection hs with hs
      subst hs
      rw [List.mem_singleton.mp hx]
      exact .inr (.inr ⟨rfl, rfl, fun h => h⟩)
    | n + 3, hs => cases hs
  have diff : ∀ {a b : Nat}, a ≠ b → Model.wis a ≠ Model.wis b := fun h e => by injection e with e; exact h e
  rcases cases3 t s x hs hx with ⟨e, mx⟩ | ⟨e, mx, dx⟩ | ⟨e, mx, dx⟩ <;> rcases cases3 t' s' y hs' hy with ⟨e', my⟩ | ⟨e', my, dy⟩ | ⟨e', my, dy⟩ <;>
    first
    | exact absurd (e.trans e'.symm) hne
    | exact ⟨.inl (by rw [mx, my]; exact diff (by decide)), fun h => dx h.1⟩
    | exact ⟨.inl (by rw [mx, my]; exact diff (by decide)), fun h => dy h.2⟩

/-- The state of the generator. -/
def exGen (W : World exImpl.g) : Nat := W.gen

/-- A case for C137 (refuted): two trainings on different Wisards that draw. -/
example : let W := { exThreads with wis := fun _ => Wisard.create 2 {} }
    (World.call exImpl W (.train 1 [[1, 0, 1, 0]] [b!"z"])).1.gen ≠ W.gen ∧
    (World.call exImpl W (.train 2 [[1, 0, 1, 0]] [b!"z"])).1.gen ≠ W.gen ∧
    Call.model (.train 1 [[1, 0, 1, 0]] [b!"z"]) ≠ Call.model (.train 2 [[1, 0, 1, 0]] [b!"z"]) := by
  refine ⟨?_, ?_, fun e => by cases e⟩
  · show exGen (World.call exImpl { exThreads with wis := fun _ => Wisard.create 2 {} } (.train 1 [[1, 0, 1, 0]] [b!"z"])).1 ≠ 7
    decide +kernel
  · show exGen (World.call exImpl { exThreads with wis := fun _ => Wisard.create 2 {} } (.train 2 [[1, 0, 1, 0]] [b!"z"])).1 ≠ 7
    decide +kernel

/-- A case for C138: one thread trains "a", the other "b"; the checks pass. -/
example : (∀ job ∈ [[([[1, 1, 1, 0]], [b!"a"])], [([[0, 1, 1, 1]], [b!"b"])]], ∀ b ∈ job, ∀ l ∈ b.2, Known exThreads 0 l) ∧
    (exThreads.wis 0).trainChecks [[1, 1, 1, 0]] [b!"a"] = .ok () ∧ (exThreads.wis 0).trainChecks [[0, 1, 1, 1]] [b!"b"] = .ok () ∧
    (World.calls exImpl exThreads [.train 0 [[1, 1, 1, 0]] [b!"a"], .train 0 [[0, 1, 1, 1]] [b!"b"]]).2 = [.ok .nothing, .ok .nothing] := by
  refine ⟨?_, by decide, by decide, by decide⟩
  intro job hj b hb l hl
  simp only [List.mem_cons, List.not_mem_nil, or_false] at hj
  rcases hj with rfl | rfl
  · rw [List.mem_singleton.mp hb] at hl
    rw [List.mem_singleton.mp hl]
    exact ⟨((exShared.discriminators.find b!"a").getD Discriminator.default), by decide⟩
  · rw [List.mem_singleton.mp hb] at hl
    rw [List.mem_singleton.mp hl]
    exact ⟨((exShared.discriminators.find b!"b").getD Discriminator.default), by decide⟩

/-- Cases for C180: one thread unlearns "a" and an unknown class, the other "b"; an answer after that; and one
thread trains "a" while another unlearns "b". -/
example : (∀ (t t' : Nat) job job', t ≠ t' → [[([[1, 1, 0, 0]], [b!"a"]), ([[1, 1, 0, 0]], [b!"x"])], [([[0, 0, 1, 1]], [b!"b"])]][t]? = some job →
      [[([[1, 1, 0, 0]], [b!"a"]), ([[1, 1, 0, 0]], [b!"x"])], [([[0, 0, 1, 1]], [b!"b"])]][t']? = some job' → ∀ b ∈ job, ∀ b' ∈ job', ∀ l ∈ b.2, l ∉ b'.2) ∧
    (World.calls exImpl exThreads [.leaveMoreOut 0 [[1, 1, 0, 0]] [b!"a"], .leaveMoreOut 0 [[1, 1, 0, 0]] [b!"x"], .leaveMoreOut 0 [[0, 0, 1, 1]] [b!"b"]]).2 =
      [.ok .nothing, .ok .nothing, .ok .nothing] ∧
    (World.call exImpl (World.call exImpl exThreads (.leaveOneOut 0 [1, 1, 0, 0] b!"a")).1 (.classify 0 [.vec [1, 1, 1, 1]])).2 = .ok (.labels [b!"b"]) ∧
    (∀ s ∈ [[Call.train 0 [[1, 1, 1, 0]] [b!"a"]], [.leaveOneOut 0 [0, 0, 1, 1] b!"b"]], ∀ x ∈ s, LooksUp exImpl exThreads x ∧ x.model = .wis 0) := by
  refine ⟨?_, by decide, by decide +kernel, ?_⟩
  · intro t t' job job' hne h1 h2
    match t, t', h1, h2 with
    | 0, 0, _, _ => exact absurd rfl hne
    | 0, 1, h1, h2 => injection h1 with h1; injection h2 with h2; subst h1; subst h2; decide
    | 1, 0, h1, h2 => injection h1 with h1; injection h2 with h2; subst h1; subst h2; decide
    | 1, 1, _, _ => exact absurd rfl hne
    | n + 2, _, h1, _ => cases h1
    | 0, n + 2, _, h2 => cases h2
    | 1, n + 2, _, h2 => cases h2
  · intro s hs x hx
    simp only [List.mem_cons, List.not_mem_nil, or_false] at hs
    rcases hs with rfl | rfl
    · rw [List.mem_singleton.mp hx]
      refine ⟨⟨rfl, fun l hl => ?_⟩, rfl⟩
      rw [List.mem_singleton.mp hl]
      exact ⟨((exShared.discriminators.find b!"a").getD Discriminator.default), by decide⟩
    · rw [List.mem_singleton.mp hx]
      exact ⟨trivial, rfl⟩

end Wis
