import Verif.Props.Threads
import Verif.Props.RandClus
/-!
# C182: ClusWisards in several threads
-/

namespace Wis

/-- A call that may change a ClusWisard, made on variable `o`. -/
def Spec.CCall.on (o : Nat) : Spec.CCall → Call
  | .train images labels => .clusTrain o images labels
  | .semi images labels => .clusSemi o images labels
  | .unsup images => .clusUnsup o images
  | .mental it l => .clusMental o l it

open Spec

/-- C182: the accesses of a call that may change a ClusWisard, made without interruption, do what the call does according to the other
modules, for some random choices; no other ClusWisard, and no Wisard or discriminator, changes. -/
theorem C182_alone (c : Impl) (m : Mem c.g) (h : Ordered (world m)) (o : Nat) (call : CCall) :
    ∃ op : COp, op.call = call ∧
      (world ((c.callP (call.on o)).run m).1).clus o = (cstep c.f ((world m).clus o) op).1 ∧
      ((c.callP (call.on o)).run m).2.map (fun _ => ()) = (cstep c.f ((world m).clus o) op).2 ∧
      (∀ k, k ≠ o → (world ((c.callP (call.on o)).run m).1).clus k = (world m).clus k) ∧
      (world ((c.callP (call.on o)).run m).1).wis = (world m).wis ∧ (world ((c.callP (call.on o)).run m).1).discs = (world m).discs := by
  obtain ⟨op, h1, h2⟩ := cgstep_eq c.f c.g c.lhsFirst ((world m).clus o) (world m).gen call
  obtain ⟨e1, e2, _⟩ := C135_refines c m h (call.on o)
  refine ⟨op, h1, ?_⟩
  rw [e1, e2, ← h2]
  have pso : ∀ x : ClusWisard, put (world m).clus o x o = x := fun x => if_pos rfl
  have pne : ∀ (x : ClusWisard) k, k ≠ o → put (world m).clus o x k = (world m).clus k := fun x k hk => if_neg hk
  cases call with
  | train images labels =>
    refine ⟨pso _, ?_, pne _, rfl, rfl⟩
    show Except.map _ (Except.map _ (ClusWisard.trainG c.f c.g c.lhsFirst (world m).gen ((world m).clus o) images labels).1.2) =
      (ClusWisard.trainG c.f c.g c.lhsFirst (world m).gen ((world m).clus o) images labels).1.2
    cases (ClusWisard.trainG c.f c.g c.lhsFirst (world m).gen ((world m).clus o) images labels).1.2 <;> rfl
  | semi images labels =>
    refine ⟨pso _, ?_, pne _, rfl, rfl⟩
    show Except.map _ (Except.map _ (ClusWisard.trainSemiG c.f c.g c.lhsFirst (world m).gen ((world m).clus o) images labels).1.2) =
      (ClusWisard.trainSemiG c.f c.g c.lhsFirst (world m).gen ((world m).clus o) images labels).1.2
    cases (ClusWisard.trainSemiG c.f c.g c.lhsFirst (world m).gen ((world m).clus o) images labels).1.2 <;> rfl
  | unsup images =>
    refine ⟨pso _, ?_, pne _, rfl, rfl⟩
    show Except.map _ (Except.map _ (ClusWisard.trainUnsupervisedG c.f c.g c.lhsFirst (world m).gen ((world m).clus o) images).1.2) =
      (ClusWisard.trainUnsupervisedG c.f c.g c.lhsFirst (world m).gen ((world m).clus o) images).1.2
    cases (ClusWisard.trainUnsupervisedG c.f c.g c.lhsFirst (world m).gen ((world m).clus o) images).1.2 <;> rfl
  | mental it l =>
    refine ⟨pso _, ?_, pne _, rfl, rfl⟩
    show Except.map _ (Except.map _ (((world m).clus o).getMentalImage it l).2) = Except.map _ (((world m).clus o).getMentalImage it l).2
    cases (((world m).clus o).getMentalImage it l).2 <;> rfl

/-- C182: one thread works on the labelled classes of a ClusWisard (trains, classifies, asks for mental images), another classifies
with its unsupervised cluster: no data race, both get the replies that they get alone, both can finish, and then everything is as after
the one and then the other. -/
theorem C182_halves (c : Impl) (m : Mem c.g) (h : Ordered (world m)) (o : Nat) (s s' : List Call) (hs : ∀ x ∈ s, Labelled o x)
    (hs' : ∀ y ∈ s', ∃ images, y = .unsupClassify o images) (ts : List Nat) :
    ¬ ((start c m [s, s']).exec ts).Race ∧
    (∀ (t : Nat) (r : List Call) (a : List (Res Reply)), [s, s'][t]? = some r → ((start c m [s, s']).exec ts).Finished t a →
      a = (World.calls c (world m) r).2) ∧
    (∃ ts' : List Nat, ((start c m [s, s']).exec (ts ++ ts')).AllFinished) ∧
    (((start c m [s, s']).exec ts).AllFinished →
      world ((start c m [s, s']).exec ts).mem = (World.calls c (world m) (s ++ s')).1) := by
  have := C137_independent_partial c m h [s, s'] (by
    intro t t' r r' hne hr hr' x hx y hy
    match t, t', hr, hr' with
    | 0, 0, _, _ => exact absurd rfl hne
    | 0, 1, hr, hr' =>
      injection hr with hr; injection hr' with hr'; subst hr; subst hr'
      obtain ⟨images, rfl⟩ := hs' y hy
      exact ⟨.inr (.inr (.inr (.inl ⟨o, images, .inl ⟨hs x hx, rfl⟩⟩))), fun k => k.2⟩
    | 1, 0, hr, hr' =>
      injection hr with hr; injection hr' with hr'; subst hr; subst hr'
      obtain ⟨images, rfl⟩ := hs' x hx
      exact ⟨.inr (.inr (.inr (.inr ⟨o, images, .inl ⟨hs y hy, rfl⟩⟩))), fun k => k.1⟩
    | 1, 1, _, _ => exact absurd rfl hne
    | n + 2, _, hr, _ => cases hr
    | 0, n + 2, _, hr' => cases hr'
    | 1, n + 2, _, hr' => cases hr') ts
  rw [show List.flatten [s, s'] = s ++ s' by simp] at this
  exact this

/-- C182: where `operator[]` of an existing key only searches, one thread trains the unsupervised cluster and any number of threads
classify with the labelled classes of the same ClusWisard: no data race, all get the replies that they get alone, and in the end
everything is as after that training. -/
theorem C182_unsupervised_next_to_questions (c : Impl) (hb : c.bracketWrites = false) (m : Mem c.g) (h : Ordered (world m)) (o : Nat)
    (s : List Call) (ss : List (List Call)) (hs : ∀ x ∈ s, ∃ images, x = .clusUnsup o images)
    (hss : ∀ r ∈ ss, ∀ y ∈ r, ∃ images, y = .clusClassify o images) (ts : List Nat) :
    ¬ ((start c m (s :: ss)).exec ts).Race ∧
    (∀ (t : Nat) (r : List Call) (a : List (Res Reply)), (s :: ss)[t]? = some r → ((start c m (s :: ss)).exec ts).Finished t a →
      a = (World.calls c (world m) r).2) ∧
    (∃ ts' : List Nat, ((start c m (s :: ss)).exec (ts ++ ts')).AllFinished) ∧
    (((start c m (s :: ss)).exec ts).AllFinished →
      world ((start c m (s :: ss)).exec ts).mem = (World.calls c (world m) s).1) := by
  have quiet : ∀ (ys : List Call) (W : World c.g), (∀ y ∈ ys, ∃ images, y = Call.clusClassify o images) → (World.calls c W ys).1 = W := by
    intro ys
    induction ys with
    | nil => intro W _; rfl
    | cons y ys ih =>
      intro W hy
      obtain ⟨images, rfl⟩ := hy y List.mem_cons_self
      exact ih W (fun z hz => hy z (List.mem_cons_of_mem _ hz))
  obtain ⟨h1, h2, h3, h4⟩ := C137_independent_partial c m h (s :: ss) (by
    intro t t' r r' hne hr hr' x hx y hy
    match t, t', hr, hr' with
    | 0, 0, _, _ => exact absurd rfl hne
    | 0, n' + 1, hr, hr' =>
      injection hr with hr; subst hr
      obtain ⟨images, rfl⟩ := hs x hx
      obtain ⟨images', rfl⟩ := hss r' (List.mem_of_getElem? (i := n') hr') y hy
      exact ⟨.inr (.inr (.inr (.inr ⟨o, images, .inr ⟨hb, rfl, images', rfl⟩⟩))), fun k => k.2⟩
    | n + 1, 0, hr, hr' =>
      injection hr' with hr'; subst hr'
      obtain ⟨images, rfl⟩ := hs y hy
      obtain ⟨images', rfl⟩ := hss r (List.mem_of_getElem? (i := n) hr) x hx
      exact ⟨.inr (.inr (.inr (.inl ⟨o, images, .inr ⟨hb, rfl, images', rfl⟩⟩))), fun k => k.1⟩
    | n + 1, n' + 1, hr, hr' =>
      obtain ⟨images, rfl⟩ := hss r (List.mem_of_getElem? (i := n) hr) x hx
      obtain ⟨images', rfl⟩ := hss r' (List.mem_of_getElem? (i := n') hr') y hy
      exact ⟨.inr (.inl ⟨hb, hb⟩), fun k => k.1⟩) ts
  refine ⟨h1, h2, h3, fun hf => ?_⟩
  rw [h4 hf, List.flatten_cons, calls_append]
  refine quiet _ _ (fun y hy => ?_)
  obtain ⟨r, hr, hy⟩ := List.mem_flatten.mp hy
  exact hss r hr y hy

/-- C182 (refuted): by the letter of the C++ standard, where `operator[]` of `std::map` counts as a write even if the key exists, two
threads that only classify with one ClusWisard have a data race, once it has learnt anything. -/
theorem C182_classify_refuted (c : Impl) (hb : c.bracketWrites = true) (m : Mem c.g) (o : Nat) (img img' : List Int) (imgs imgs' : List (List Int))
    (hn : ∀ e ∈ ((world m).clus o).clusters, none ∉ e.2.discriminators) (hk : ∃ e ∈ ((world m).clus o).clusters, e.2.discriminators ≠ []) :
    ∃ ts : List Nat, ((start c m [[.clusClassify o (img :: imgs)], [.clusClassify o (img' :: imgs')]]).exec ts).Race := by
  -- the first `operator[]`
  have loop : ∀ (img : List Int) (cs : SMap (Option ClusterCfg × List Bool)) (v : Votes) (k : Votes → c.P Reply), (∀ e ∈ cs, false ∉ e.2.2) →
      (∃ e ∈ cs, e.2.2 ≠ []) → (c.clusVotesP o img cs v k).WritesFirst (.clusters o) m := by
    intro img cs
    induction cs with
    | nil => rintro v k _ ⟨e, he, _⟩; cases he
    | cons e cs ih =>
      intro v k h1 h2
      obtain ⟨l, cfg, bs⟩ := e
      cases bs with
      | nil =>
        refine ih _ k (fun e he => h1 e (List.mem_cons_of_mem _ he)) ?_
        obtain ⟨e, he, hne⟩ := h2
        rcases List.mem_cons.mp he with rfl | he
        · exact absurd rfl hne
        · exact ⟨e, he, hne⟩
      | cons b bs =>
        cases b with
        | false => exact absurd List.mem_cons_self (h1 _ List.mem_cons_self)
        | true =>
          show Prog.WritesFirst (Loc.clusters o) (c.touchP (.clusters o) _) m
          unfold Impl.touchP
          rw [if_pos hb]
          rfl
  have discs : ∀ (ref : Nat → Ref) (bs : List Bool) (j : Nat), (none ∉ m.discsFrom ref j bs → false ∉ bs) ∧ (m.discsFrom ref j bs ≠ [] → bs ≠ []) := by
    intro ref bs
    induction bs with
    | nil => intro j; exact ⟨fun _ h => (by cases h), fun h => absurd rfl h⟩
    | cons b bs ih =>
      intro j
      refine ⟨fun h hf => ?_, fun _ e => by cases e⟩
      rcases List.mem_cons.mp hf with rfl | hf
      · exact h List.mem_cons_self
      · exact (ih (j + 1)).1 (fun hm => h (List.mem_cons_of_mem _ hm)) hf
  have g1 : ∀ e ∈ m (.clusters o), false ∉ e.2.2 := fun e he =>
    (discs (Ref.clus o e.1) e.2.2 0).1 (hn _ (List.mem_map.mpr ⟨e, he, rfl⟩))
  have g2 : ∃ e ∈ m (.clusters o), e.2.2 ≠ [] := by
    obtain ⟨e, he, hne⟩ := hk
    obtain ⟨e', he', rfl⟩ := List.mem_map.mp he
    exact ⟨e', he', (discs (Ref.clus o e'.1) e'.2.2 0).2 hne⟩
  have key : ∀ (img : List Int) (imgs : List (List Int)), (c.scriptP [.clusClassify o (img :: imgs)]).WritesFirst (.clusters o) m :=
    fun img imgs => Prog.WritesFirst.bind (loop img _ _ _ g1 g2) _
  exact Config.first_race (loc := Loc.clusters o) _ _ m (key img imgs) (key img' imgs')

/-- C182 (refuted): so have two threads that classify with its unsupervised cluster. -/
theorem C182_unsupervised_refuted (c : Impl) (hb : c.bracketWrites = true) (m : Mem c.g) (o : Nat) (img img' : List Int) (imgs imgs' : List (List Int))
    (d : Discriminator) (ds : List (Option Discriminator)) (hd : ((world m).clus o).unsupervisedCluster.discriminators = some d :: ds) :
    ∃ ts : List Nat, ((start c m [[.unsupClassify o (img :: imgs)], [.unsupClassify o (img' :: imgs')]]).exec ts).Race := by
  have hb0 : ∃ bs, (m (.ucluster o)).2 = true :: bs := by
    have hd : m.discsFrom (Ref.unsup o) 0 (m (.ucluster o)).2 = some d :: ds := hd
    cases e : (m (.ucluster o)).2 with
    | nil => rw [e] at hd; cases hd
    | cons b bs =>
      rw [e] at hd
      cases b with
      | true => exact ⟨bs, rfl⟩
      | false => injection hd with hd _; cases hd
  obtain ⟨bs, e⟩ := hb0
  have key : ∀ (img : List Int) (imgs : List (List Int)), (c.scriptP [.unsupClassify o (img :: imgs)]).WritesFirst (.ucluster o) m := by
    intro img imgs
    refine Prog.WritesFirst.bind ?_ _
    show Prog.WritesFirst (Loc.ucluster o) (c.clusterVotesP (.ucluster o) (Ref.unsup o) (.vec img) (m (.ucluster o)).2 0 _) m
    rw [e]
    show Prog.WritesFirst (Loc.ucluster o) (c.touchP (.ucluster o) _) m
    unfold Impl.touchP
    rw [if_pos hb]
    rfl
  exact Config.first_race (loc := Loc.ucluster o) _ _ m (key img imgs) (key img' imgs')

/-- C182 (refuted): a thread that makes a ClusWisard of its own has a data race with a thread that makes another model, whatever the
arguments, even if they are refused. -/
theorem C182_constructors_refuted (c : Impl) (m : Mem c.g) (o now : Nat) (A : Int) (ms : Rat) (t dl : Int) (opts : ClusOpts)
    (o' now' : Nat) (A' : Int) (ms' : Rat) (t' dl' : Int) (opts' : ClusOpts) (wopts : WisardOpts) :
    (∃ ts : List Nat, ((start c m [[.newClus o now A ms t dl opts], [.newClus o' now' A' ms' t' dl' opts']]).exec ts).Race) ∧
    ∃ ts : List Nat, ((start c m [[.newClus o now A ms t dl opts], [.newWisard o' now' A' wopts]]).exec ts).Race :=
  ⟨Config.first_race (loc := Loc.gen) _ _ m (show Loc.gen = Loc.gen from rfl) (show Loc.gen = Loc.gen from rfl),
    Config.first_race (loc := Loc.gen) _ _ m (show Loc.gen = Loc.gen from rfl) (show Loc.gen = Loc.gen from rfl)⟩

/-- C182 (refuted): two threads that train ClusWisards of their own, each a first image, have a data race: both wire at random. -/
theorem C182_training_refuted (c : Impl) (m : Mem c.g) (h : Ordered (world m)) (o o' : Nat) (ho : o ≠ o') (x y : CCall)
    (hx : (World.call c (world m) (x.on o)).1.gen ≠ (world m).gen) (hy : (World.call c (world m) (y.on o')).1.gen ≠ (world m).gen) :
    ∃ ts : List Nat, ((start c m [[x.on o], [y.on o']]).exec ts).Race := by
  refine C137_random_refuted c m h _ _ ?_ hx hy
  have e : ∀ (z : CCall) (o : Nat), (z.on o).model = .clus o := fun z o => by cases z <;> rfl
  rw [e, e]
  intro k
  injection k with k
  exact ho k

/-! ## Concrete cases -/

/-- A process with a ClusWisard that has learnt, in every variable. -/
def exClusThreads : World exImpl.g := (World.calls exImpl { exThreads with clus := fun _ => cw0 }
  [.clusUnsup 0 [[1, 0, 1, 0]], .clusTrain 0 [[1, 1, 0, 0], [0, 0, 1, 1]] [b!"a", b!"b"]]).1

/-- It answers; its clusters have discriminators and no null pointers; so has the unsupervised cluster. -/
example : (World.call exImpl exClusThreads (.clusClassify 0 [[1, 1, 0, 0]])).2 = .ok (.labels [b!"a"]) := by decide +kernel
example : (World.call exImpl exClusThreads (.unsupClassify 0 [[1, 0, 1, 0]])).2 = .ok (.labels [b!"0"]) := by decide +kernel
example : (∀ e ∈ (exClusThreads.clus 0).clusters, none ∉ e.2.discriminators) ∧ (∃ e ∈ (exClusThreads.clus 0).clusters, e.2.discriminators ≠ []) ∧
    (exClusThreads.clus 0).unsupervisedCluster.discriminators.map Option.isSome = [true] := by decide +kernel

/-- Training that draws. -/
example : exGen (World.call exImpl { exThreads with clus := fun _ => cw0 } (CCall.on 1 (.train [[1, 1, 0, 0]] [b!"a"]))).1 ≠ 7 ∧
    exGen (World.call exImpl { exThreads with clus := fun _ => cw0 } (CCall.on 2 (.unsup [[1, 1, 0, 0]]))).1 ≠ 7 := by decide +kernel

/-- One half and the other. -/
example : (∀ x ∈ [Call.clusTrain 0 [[1, 0, 0, 0]] [b!"c"], .clusClassify 0 [[1, 1, 0, 0]], .clusMental 0 b!"a" IterOrder.id], Labelled 0 x) ∧
    (∀ y ∈ [Call.unsupClassify 0 [[1, 0, 1, 0]]], ∃ images, y = .unsupClassify 0 images) := by
  refine ⟨fun x hx => ?_, fun y hy => ⟨_, List.mem_singleton.mp hy⟩⟩
  simp only [List.mem_cons, List.not_mem_nil, or_false] at hx
  rcases hx with rfl | rfl | rfl <;> rfl

end Wis
