import Verif.Model.Threads
/-!
# Threads that share memory: schedules, data races, and what the calls do one at a time
-/

namespace Wis.Spec

/-- A process: memory and threads. -/
structure Config {L : Type} (V : L → Type) (α : Type) where
  mem : Store V
  threads : List (Prog V α)

namespace Config
variable {L : Type} [DecidableEq L] {V : L → Type} {α : Type}

/-- Thread `t` performs its next access, if there is one. -/
def step (c : Config V α) (t : Nat) : Config V α :=
  match c.threads[t]? with
  | some (.read l next) => ⟨c.mem, c.threads.set t (next (c.mem l))⟩
  | some (.write l f next) => ⟨c.mem.upd l f, c.threads.set t next⟩
  | _ => c

/-- A schedule: the numbers of the threads, in the order of their accesses. -/
def exec (c : Config V α) : List Nat → Config V α
  | [] => c
  | t :: ts => (c.step t).exec ts

/-- The thread is about to read (`false`) or write (`true`) this location. -/
def About : Prog V α → L → Bool → Prop
  | .done _, _, _ => False
  | .read l _, l', w => l' = l ∧ w = false
  | .write l _ _, l', w => l' = l ∧ w = true

/-- Two threads are about to access the same location, one of them to write it: a data race. -/
def Race (c : Config V α) : Prop := ∃ (t t' : Nat) (p p' : Prog V α) (l : L) (w w' : Bool), t ≠ t' ∧ c.threads[t]? = some p ∧ c.threads[t']? = some p' ∧
  About p l w ∧ About p' l w' ∧ (w = true ∨ w' = true)

/-- Thread `t` has finished with this result. -/
def Finished (c : Config V α) (t : Nat) (a : α) : Prop := c.threads[t]? = some (.done a)

/-- All threads have finished. -/
def AllFinished (c : Config V α) : Prop := ∀ p ∈ c.threads, ∃ a, p = .done a

end Config

/-- The variables of a process, as values. -/
structure World (g : CRand) where
  discs : Nat → Discriminator
  wis : Nat → Wisard
  clus : Nat → ClusWisard
  gen : g.S

/-- The values in a memory. -/
def world {g : CRand} (m : Mem g) : World g := ⟨fun o => m.disc (.own o), m.wisard, m.clusWisard, m .gen⟩

/-- Every `std::map` has its keys in order (which the standard library guarantees). -/
def Ordered {g : CRand} (W : World g) : Prop :=
  ∀ o, SMap.Sorted (W.wis o).discriminators ∧ SMap.Sorted (W.clus o).clusters

/-- Assignment to one variable. -/
def put {α : Type} (f : Nat → α) (o : Nat) (x : α) : Nat → α := fun k => if k = o then x else f k

/-- What a call does when nothing happens at the same time: new values and reply. -/
def World.call (c : Impl) (W : World c.g) : Call → World c.g × Res Reply
  | .discTrain o img => ({ W with discs := put W.discs o ((W.discs o).train img).1 }, ((W.discs o).train img).2.map fun _ => .nothing)
  | .discClassify o img => (W, ((W.discs o).classify img).map .votes)
  | .discMental o it => (W, ((W.discs o).getMentalImage it).map .image)
  | .discUntrain o img =>
    ({ W with discs := put W.discs o ((W.discs o).untrain (.vec img)).1 }, ((W.discs o).untrain (.vec img)).2.map fun _ => .nothing)
  | .newWisard o now a opts =>
    ({ W with wis := put W.wis o (Wisard.createG c.g now W.gen a opts).1, gen := (Wisard.createG c.g now W.gen a opts).2 }, .ok .nothing)
  | .train o images labels =>
    let r := Wisard.trainG c.g c.lhsFirst W.gen (W.wis o) images labels
    ({ W with wis := put W.wis o r.1.1, gen := r.2 }, r.1.2.map fun _ => .nothing)
  | .trainDataSet o ds =>
    let r := Wisard.trainDataSetG c.g c.lhsFirst W.gen (W.wis o) ds
    ({ W with wis := put W.wis o r.1.1, gen := r.2 }, r.1.2.map fun _ => .nothing)
  | .leaveOneOut o img l =>
    ({ W with wis := put W.wis o ((W.wis o).leaveOneOut img l).1 }, ((W.wis o).leaveOneOut img l).2.map fun _ => .nothing)
  | .leaveMoreOut o images labels =>
    ({ W with wis := put W.wis o ((W.wis o).leaveMoreOut images labels).1 }, ((W.wis o).leaveMoreOut images labels).2.map fun _ => .nothing)
  | .classify o images => (W, ((W.wis o).classify images).map .labels)
  | .mentalImages o it => (W, ((W.wis o).getMentalImages it).map .images)
  | .clusClassify o images => (W, ((W.clus o).classify images).map .labels)
  | .unsupClassify o images => (W, ((W.clus o).classifyUnsupervised images).map .labels)
  | .clusMental o l it =>
    ({ W with clus := put W.clus o ((W.clus o).getMentalImage it l).1 }, ((W.clus o).getMentalImage it l).2.map .clusImages)
  | .newClus o now A ms t dl opts =>
    let r := ClusWisard.createG c.g now W.gen A ms t dl opts
    ({ W with clus := match r.1 with | .ok w => put W.clus o w | .error _ => W.clus, gen := r.2 }, r.1.map fun _ => .nothing)
  | .clusTrain o images labels =>
    let r := ClusWisard.trainG c.f c.g c.lhsFirst W.gen (W.clus o) images labels
    ({ W with clus := put W.clus o r.1.1, gen := r.2 }, r.1.2.map fun _ => .nothing)
  | .clusSemi o images labels =>
    let r := ClusWisard.trainSemiG c.f c.g c.lhsFirst W.gen (W.clus o) images labels
    ({ W with clus := put W.clus o r.1.1, gen := r.2 }, r.1.2.map fun _ => .nothing)
  | .clusUnsup o images =>
    let r := ClusWisard.trainUnsupervisedG c.f c.g c.lhsFirst W.gen (W.clus o) images
    ({ W with clus := put W.clus o r.1.1, gen := r.2 }, r.1.2.map fun _ => .nothing)

/-- One call after the other. -/
def World.calls (c : Impl) (W : World c.g) : List Call → World c.g × List (Res Reply)
  | [] => (W, [])
  | x :: xs => (((W.call c x).1.calls c xs).1, (W.call c x).2 :: ((W.call c x).1.calls c xs).2)

/-- Threads that make these calls, starting with this memory. -/
def start (c : Impl) (m : Mem c.g) (scripts : List (List Call)) : Config (Val c.g.S) (List (Res Reply)) :=
  ⟨m, scripts.map c.scriptP⟩

/-- Calls that only ask: classification and mental images; of a ClusWisard only the classifications, which use `operator[]` of
`std::map`, and only where that does not count as a write if the key exists. -/
def Asks (c : Impl) : Call → Prop
  | .discClassify _ _ | .discMental _ _ | .classify _ _ | .mentalImages _ _ => True
  | .clusClassify _ _ | .unsupClassify _ _ => c.bracketWrites = false
  | _ => False

end Wis.Spec

namespace Wis

/-- The model that a call is made on. -/
inductive Spec.Model where
  | disc (o : Nat)
  | wis (o : Nat)
  | clus (o : Nat)

/-- The model that a call is made on. -/
def Call.model : Call → Spec.Model
  | .discTrain o _ | .discClassify o _ | .discMental o _ | .discUntrain o _ => .disc o
  | .newWisard o _ _ _ | .train o _ _ | .trainDataSet o _ | .leaveOneOut o _ _ | .leaveMoreOut o _ _ | .classify o _ | .mentalImages o _ => .wis o
  | .clusClassify o _ | .unsupClassify o _ | .clusMental o _ _ => .clus o
  | .newClus o _ _ _ _ _ _ | .clusTrain o _ _ | .clusSemi o _ _ | .clusUnsup o _ => .clus o

namespace Spec

/-- The class exists. -/
def Known {g : CRand} (W : World g) (o : Nat) (l : Str) : Prop := ∃ d, (W.wis o).discriminators.find l = some d

/-- The labels of the entries of a data set. -/
def dataLabels (ds : DataSet) : List Str := (List.range ds.data.length).filterMap fun i => (ds.getLabel i).toOption

/-- The call may use the random numbers of the C library: a constructor, training that makes a new class whose wiring is not
given by the options `mapping` or `indexes`, or any training of a ClusWisard. -/
def Draws {g : CRand} (W : World g) : Call → Prop
  | .newWisard _ _ _ _ => True
  | .newClus _ _ _ _ _ _ _ | .clusTrain _ _ _ | .clusSemi _ _ _ | .clusUnsup _ _ => True
  | .train o _ labels => ∃ l ∈ labels, ¬ Known W o l ∧ (W.wis o).opts.mapping.find l = none ∧ (W.wis o).opts.indexes = []
  | .trainDataSet o ds => ∃ l ∈ dataLabels ds, ¬ Known W o l ∧ (W.wis o).opts.mapping.find l = none ∧ (W.wis o).opts.indexes = []
  | _ => False

/-- The Wisard and the classes that a call trains or unlearns. -/
def Changes : Call → Option (Nat × List Str)
  | .train o _ labels => some (o, labels)
  | .trainDataSet o ds => some (o, dataLabels ds)
  | .leaveOneOut o _ label => some (o, [label])
  | .leaveMoreOut o _ labels => some (o, labels)
  | _ => none

/-- The call only looks classes up: it unlearns, or it trains classes that exist and `operator[]` of `std::map` does not write then. -/
def LooksUp (c : Impl) (W : World c.g) : Call → Prop
  | .train o _ labels => c.bracketWrites = false ∧ ∀ l ∈ labels, Known W o l
  | .trainDataSet o ds => c.bracketWrites = false ∧ ∀ l ∈ dataLabels ds, Known W o l
  | .leaveOneOut _ _ _ | .leaveMoreOut _ _ _ => True
  | _ => False

/-- Both train or unlearn classes of one Wisard, without new classes, and no class in common. -/
def ClassesApart (c : Impl) (W : World c.g) (x y : Call) : Prop :=
  ∃ (o : Nat) (ls ls' : List Str), Changes x = some (o, ls) ∧ Changes y = some (o, ls') ∧ LooksUp c W x ∧ LooksUp c W y ∧ ∀ l ∈ ls, l ∉ ls'

/-- The call works on the labelled classes of ClusWisard `o` only. -/
def Labelled (o : Nat) : Call → Prop
  | .clusClassify o' _ | .clusTrain o' _ _ | .clusSemi o' _ _ | .clusMental o' _ _ => o' = o
  | _ => False

/-- One works on the labelled classes of a ClusWisard, the other asks for its unsupervised clusters; or one asks for labels while the
other trains the unsupervised clusters, where `operator[]` of `std::map` does not count as a write if the key exists. -/
def OtherHalf (c : Impl) (x y : Call) : Prop :=
  ∃ (o : Nat) (images : List (List Int)), (Labelled o x ∧ y = .unsupClassify o images) ∨
    (c.bracketWrites = false ∧ y = .clusUnsup o images ∧ ∃ images', x = .clusClassify o images')

/-- Two calls that may be made at the same time. -/
def Independent (c : Impl) (W : World c.g) (x y : Call) : Prop :=
  (x.model ≠ y.model ∨ (Asks c x ∧ Asks c y) ∨ ClassesApart c W x y ∨ OtherHalf c x y ∨ OtherHalf c y x) ∧ ¬ (Draws W x ∧ Draws W y)

/-- Calls of different threads may be made at the same time. -/
def AllIndependent (c : Impl) (W : World c.g) (scripts : List (List Call)) : Prop :=
  ∀ (t t' : Nat) (s s' : List Call), t ≠ t' → scripts[t]? = some s → scripts[t']? = some s' → ∀ x ∈ s, ∀ y ∈ s', Independent c W x y

end Spec
end Wis
