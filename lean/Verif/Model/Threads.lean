import Verif.Model.RandClus
/-!
# Calls as sequences of accesses to memory that threads may share

`wisardpkg.hpp` has no locks; the Python module keeps the GIL during every call. Here a call is a program that reads and writes
locations of the memory, one access at a time, so that calls made by different threads can be interleaved (`Spec/Threads.lean`).
That the accesses, performed without interruption, do what the other modules say, is `C135_refines` of `Props/Threads.lean`.

The granularity follows the rules of the C++ standard for data races: the structure of a container is one location, every entry
of a `std::map` and every RAM is a location of its own. Arguments and local variables belong to the calling thread. Not modelled
here: `verbose` output, copies, JSON and changes of a `DataSet` (data sets are arguments).
-/

namespace Wis

/-- A thread, on a memory with locations `L` holding values of types `V`: it has finished, or reads a location, or changes one.
Used for discriminator.cc, wisard.cc and cluswisard.cc. -/
inductive Prog {L : Type} (V : L → Type) (α : Type) where
  | done (a : α)
  | read (loc : L) (next : V loc → Prog V α)
  | write (loc : L) (upd : V loc → V loc) (next : Prog V α)

/-- A memory: a value for every location.
Models calls of the classes discriminator.cc:1-370, wisard.cc:1-265 and cluswisard.cc:1-336 (member variables as locations). -/
abbrev Store {L : Type} (V : L → Type) := ∀ l : L, V l

/-- Change one location.
Models calls of the classes discriminator.cc:1-370, wisard.cc:1-265 and cluswisard.cc:1-336 (member variables as locations). -/
def Store.upd {L : Type} [DecidableEq L] {V : L → Type} (m : Store V) (loc : L) (f : V loc → V loc) : Store V := fun l =>
  if h : l = loc then h ▸ f (m loc) else m l

namespace Prog
variable {L : Type} [DecidableEq L] {V : L → Type} {α β : Type}

/-- Run without interruption.
Models calls of the classes discriminator.cc:1-370, wisard.cc:1-265 and cluswisard.cc:1-336 (member variables as locations). -/
def run : Prog V α → Store V → Store V × α
  | done a, m => (m, a)
  | read l next, m => (next (m l)).run m
  | write l f next, m => next.run (m.upd l f)

/-- One program, then another.
Models calls of the classes discriminator.cc:1-370, wisard.cc:1-265 and cluswisard.cc:1-336 (member variables as locations). -/
def bind : Prog V α → (α → Prog V β) → Prog V β
  | done a, f => f a
  | read l next, f => read l (fun v => (next v).bind f)
  | write l u next, f => write l u (next.bind f)

end Prog

/-- A place where a discriminator is kept: a variable, an entry of the map of a Wisard, or an object owned by a ClusWisard (in the
`j`-th entry of the cluster of a label, or of the unsupervised cluster).
Models calls of the classes discriminator.cc:1-370, wisard.cc:1-265 and cluswisard.cc:1-336 (member variables as locations). -/
inductive Ref where
  | own (o : Nat)
  | wis (o : Nat) (label : Str)
  | clus (o : Nat) (label : Str) (j : Nat)
  | unsup (o : Nat) (j : Nat)
  deriving DecidableEq

/-- Locations; `o` is the number of a variable.
Models calls of the classes discriminator.cc:1-370, wisard.cc:1-265 and cluswisard.cc:1-336 (member variables as locations). -/
inductive Loc where
  /-- The structure of the map of a Wisard. -/
  | map (o : Nat)
  /-- The members of a Wisard set by its constructor. -/
  | opts (o : Nat)
  /-- The structure of the map of clusters of a ClusWisard and of the maps of discriminators in them. -/
  | clusters (o : Nat)
  /-- The members of a ClusWisard set by its constructor. -/
  | copts (o : Nat)
  /-- The structure of the unsupervised cluster of a ClusWisard. -/
  | ucluster (o : Nat)
  /-- Members `entrySize` and `rams` of a discriminator, without the maps `positions`. -/
  | disc (r : Ref)
  /-- Member `count` of a discriminator. -/
  | count (r : Ref)
  /-- The map `positions` of RAM `i` of a discriminator, with its contents. -/
  | ram (r : Ref) (i : Nat)
  /-- The generator behind `rand()`: the C standard does not require calls of `rand` to be free of data races. -/
  | gen
  deriving DecidableEq

/-- The members of a RAM that are set by its constructor, ram.cc:151, 153-154. -/
structure Wire where
  addresses : List Int
  ignoreZero : Bool
  base : Int
  deriving DecidableEq, Repr

/-- The RAM with these members and contents. Members: ram.cc:151-154. -/
def Wire.ram (w : Wire) (positions : RamT) : Ram := ⟨w.addresses, positions, w.ignoreZero, w.base⟩

/-- The members of a RAM without the contents. Members: ram.cc:151-154. -/
def Ram.wire (r : Ram) : Wire := ⟨r.addresses, r.ignoreZero, r.base⟩

/-- What a location holds: for `map` the keys; for clusters the members of each, and for each pointer to a discriminator whether it is
not null.
Models calls of the classes discriminator.cc:1-370, wisard.cc:1-265 and cluswisard.cc:1-336 (member variables as locations). -/
@[reducible] def Val (S : Type) : Loc → Type
  | .map _ => List Str
  | .opts _ => Int × WisardOpts
  | .clusters _ => SMap (Option ClusterCfg × List Bool)
  | .copts _ => (Int × Rat × Int × Int) × ClusOpts
  | .ucluster _ => Option ClusterCfg × List Bool
  | .disc _ => Int × List Wire
  | .count _ => Int
  | .ram _ _ => RamT
  | .gen => S

/-- The memory of a process.
Models calls of the classes discriminator.cc:1-370, wisard.cc:1-265 and cluswisard.cc:1-336 (member variables as locations). -/
abbrev Mem (g : CRand) := Store (Val g.S)

namespace Mem
variable {g : CRand}

/-- The RAMs of a discriminator from number `i` on. discriminator.cc:369. -/
def ramsFrom (m : Mem g) (r : Ref) : Nat → List Wire → List Ram
  | _, [] => []
  | i, w :: ws => w.ram (m (.ram r i)) :: ramsFrom m r (i + 1) ws

/-- The discriminator at a place, as a value. Members: discriminator.cc:367-369. -/
def disc (m : Mem g) (r : Ref) : Discriminator := ⟨(m (.disc r)).1, m (.count r), m.ramsFrom r 0 (m (.disc r)).2⟩

/-- A Wisard, as a value. Members: wisard.cc:251-264. -/
def wisard (m : Mem g) (o : Nat) : Wisard :=
  ⟨(m (.opts o)).1, (m (.opts o)).2, List.map (fun l => (l, m.disc (.wis o l))) (m (.map o))⟩

/-- The discriminators of a cluster from number `j` on. cluster.cc:122. -/
def discsFrom (m : Mem g) (ref : Nat → Ref) : Nat → List Bool → List (Option Discriminator)
  | _, [] => []
  | j, b :: bs => (if b then some (m.disc (ref j)) else none) :: discsFrom m ref (j + 1) bs

/-- A cluster, as a value. Members: cluster.cc:122-130. -/
def cluster (m : Mem g) (ref : Nat → Ref) (c : Option ClusterCfg × List Bool) : Cluster := ⟨c.1, m.discsFrom ref 0 c.2⟩

/-- A ClusWisard, as a value. Members: cluswisard.cc:320-335. -/
def clusWisard (m : Mem g) (o : Nat) : ClusWisard :=
  ⟨(m (.copts o)).1.1, (m (.copts o)).1.2.1, (m (.copts o)).1.2.2.1, (m (.copts o)).1.2.2.2, (m (.copts o)).2,
    List.map (fun e => (e.1, m.cluster (Ref.clus o e.1) e.2)) (m (.clusters o)), m.cluster (Ref.unsup o) (m (.ucluster o))⟩

end Mem

/-- Insertion into a sorted list of keys. For the maps wisard.cc:264, cluswisard.cc:334. -/
def insertKey (k : Str) : List Str → List Str
  | [] => [k]
  | l :: ls => if l = k then l :: ls else if Str.lt k l then k :: l :: ls else l :: insertKey k ls

/-- Loop of `train(images, labels)`, wisard.cc:89-92, drawing from the generator; compare `trainLoop`. -/
def Wisard.trainLoopG (g : CRand) (lhsFirst : Bool) : g.S → Wisard → List (Image × Str) → (Wisard × Res Unit) × g.S
  | s, w, [] => ((w, .ok ()), s)
  | s, w, (img, l) :: es =>
    match Wisard.train1G g lhsFirst s w img l with
    | ((w', .ok ()), s') => trainLoopG g lhsFirst s' w' es
    | ((w', .error e), s') => ((w', .error e), s')

/-- `train(images, labels)`, wisard.cc:85-94; compare `train`. -/
def Wisard.trainG (g : CRand) (lhsFirst : Bool) (s : g.S) (w : Wisard) (images : List (List Int)) (labels : List Str) :
    (Wisard × Res Unit) × g.S :=
  match w.trainChecks images labels with
  | .error e => ((w, .error e), s)
  | .ok () => Wisard.trainLoopG g lhsFirst s w ((images.map Image.vec).zip labels)

/-- Loop of `train(dataset)`, wisard.cc:79-82, drawing from the generator; compare `trainDataLoop`. -/
def Wisard.trainDataLoopG (g : CRand) (lhsFirst : Bool) (ds : DataSet) : g.S → Wisard → List BinInput → Nat → (Wisard × Res Unit) × g.S
  | s, w, [], _ => ((w, .ok ()), s)
  | s, w, b :: bs, i =>
    match ds.getLabel i with
    | .error e => ((w, .error e), s)
    | .ok l =>
      match Wisard.train1G g lhsFirst s w (.bin b) l with
      | ((w', .ok ()), s') => trainDataLoopG g lhsFirst ds s' w' bs (i + 1)
      | ((w', .error e), s') => ((w', .error e), s')

/-- The checks of `train(dataset)`, wisard.cc:77-78. -/
def Wisard.dataChecks (w : Wisard) (ds : DataSet) : Res Unit := do
  let b ← ds.get 0
  let n ← calculateNumberOfRams b.size w.addressSize w.opts.completeAddressing
  w.checkConfidence n

/-- `train(dataset)`, wisard.cc:76-83; compare `trainDataSet`. -/
def Wisard.trainDataSetG (g : CRand) (lhsFirst : Bool) (s : g.S) (w : Wisard) (ds : DataSet) : (Wisard × Res Unit) × g.S :=
  match w.dataChecks ds with
  | .error e => ((w, .error e), s)
  | .ok () => Wisard.trainDataLoopG g lhsFirst ds s w ds.data 0

/-- What a call returns.
Models calls of the classes discriminator.cc:1-370, wisard.cc:1-265 and cluswisard.cc:1-336 (member variables as locations). -/
inductive Reply where
  | nothing
  | votes (v : List Int)
  | labels (l : List Str)
  | image (m : List Int)
  | images (m : SMap (List Int))
  | clusImages (m : List (List Int))
  deriving DecidableEq

/-- The place of discriminator `j` in the cluster of a label, or in the unsupervised cluster (`none`), of ClusWisard `o`.
cluswisard.cc:334-335. -/
def slotRef (o : Nat) : Option Str → Nat → Ref
  | some l => Ref.clus o l
  | none => Ref.unsup o

/-- The location of that cluster's map. cluswisard.cc:334-335. -/
def slotLoc (o : Nat) : Option Str → Loc
  | some _ => .clusters o
  | none => .ucluster o

/-- The compiled library: the C library's generator, the order of evaluation of assignments (see `Env`), whether `operator[]`
of `std::map` counts as a write even if the key exists, as the C++ standard has it ([container.requirements.dataraces]; in
libstdc++ it only searches then), and the rounding of `float`.
Models calls of the classes discriminator.cc:1-370, wisard.cc:1-265 and cluswisard.cc:1-336 (member variables as locations). -/
structure Impl where
  g : CRand
  lhsFirst : Bool
  bracketWrites : Bool
  f : Flt

namespace Impl
variable (c : Impl)

/-- A program of a thread.
Models calls of the classes discriminator.cc:1-370, wisard.cc:1-265 and cluswisard.cc:1-336 (member variables as locations). -/
abbrev P (α : Type) := Prog (Val c.g.S) (Res α)

/-- Read the members of the discriminator at `r`. Members: discriminator.cc:367-369. -/
abbrev readDisc {α : Type} (r : Ref) (k : Int → List Wire → c.P α) : c.P α := .read (.disc r) fun d : Int × List Wire => k d.1 d.2

/-- `getVote`, ram.cc:135-147, of RAM `i`. -/
def voteP {α : Type} (r : Ref) (img : Image) (i : Nat) (w : Wire) (k : Int → c.P α) : c.P α :=
  match (w.ram []).getIndex img with
  | .error e => .done (.error e)
  | .ok index =>
    if w.ignoreZero && decide (index = 0) then k 0
    else .read (.ram r i) fun pos : RamT => k ((RamT.find pos index).getD 0)

/-- Loop of `_classify`, discriminator.cc:287-289, from RAM `i` on; the wiring was read before. -/
def votesP {α : Type} (r : Ref) (img : Image) : List Wire → Nat → (List Int → c.P α) → c.P α
  | [], _, k => k []
  | w :: ws, i, k => c.voteP r img i w fun v => votesP r img ws (i + 1) fun vs => k (v :: vs)

/-- `checkEntrySize`, discriminator.cc:324-328. -/
def checkEntry (entrySize : Int) (img : Image) : Res Unit := Discriminator.checkEntrySize ⟨entrySize, 0, []⟩ img.size

/-- `classify(image)` of a discriminator, discriminator.cc:64-70, 283-291. -/
def discClassifyP {α : Type} (r : Ref) (img : Image) (k : List Int → c.P α) : c.P α :=
  c.readDisc r fun entrySize ws =>
    match checkEntry entrySize img with
    | .error e => .done (.error e)
    | .ok () => c.votesP r img ws 0 k

/-- `train(image)` of RAM `i`, ram.cc:123-133: `find`, then `insert` or `it->second++`, which reads and writes. -/
def trainRamP {α : Type} (r : Ref) (img : Image) (i : Nat) (w : Wire) (k : c.P α) : c.P α :=
  match (w.ram []).getIndex img with
  | .error e => .done (.error e)
  | .ok index =>
    .read (.ram r i) fun pos : RamT =>
      match RamT.find pos index with
      | none => .write (.ram r i) (fun pos : RamT => RamT.set pos index 1) k
      | some v =>
        match i32 (v + 1) with
        | .error e => .done (.error e)
        | .ok v' => .write (.ram r i) (fun pos : RamT => RamT.set pos index v') k

/-- Loop of `train`, discriminator.cc:317-319, from RAM `i` on. -/
def trainRamsP {α : Type} (r : Ref) (img : Image) : List Wire → Nat → c.P α → c.P α
  | [], _, k => k
  | w :: ws, i, k => c.trainRamP r img i w (trainRamsP r img ws (i + 1) k)

/-- `train(image)` of a discriminator, discriminator.cc:72-78, 313-320: `count++` reads and writes. -/
def discTrainP {α : Type} (r : Ref) (img : Image) (k : c.P α) : c.P α :=
  c.readDisc r fun entrySize ws =>
    match checkEntry entrySize img with
    | .error e => .done (.error e)
    | .ok () =>
      .read (.count r) fun n : Int =>
        match i32 (n + 1) with
        | .error e => .done (.error e)
        | .ok n' => .write (.count r) (fun _ => n') (c.trainRamsP r img ws 0 k)

/-- `untrain(image)` of RAM `i`, ram.cc:39-45: `find`, then `it->second--`, which reads and writes. -/
def untrainRamP {α : Type} (r : Ref) (img : Image) (i : Nat) (w : Wire) (k : c.P α) : c.P α :=
  match (w.ram []).getIndex img with
  | .error e => .done (.error e)
  | .ok index =>
    .read (.ram r i) fun pos : RamT =>
      match RamT.find pos index with
      | none => k
      | some v =>
        match i32 (v - 1) with
        | .error e => .done (.error e)
        | .ok v' => .write (.ram r i) (fun pos : RamT => RamT.set pos index v') k

/-- Loop of `untrain`, discriminator.cc:89-91, from RAM `i` on. -/
def untrainRamsP {α : Type} (r : Ref) (img : Image) : List Wire → Nat → c.P α → c.P α
  | [], _, k => k
  | w :: ws, i, k => c.untrainRamP r img i w (untrainRamsP r img ws (i + 1) k)

/-- `untrain(image)` of a discriminator, discriminator.cc:86-92: `count--` reads and writes. -/
def discUntrainP {α : Type} (r : Ref) (img : Image) (k : c.P α) : c.P α :=
  c.readDisc r fun entrySize ws =>
    match checkEntry entrySize img with
    | .error e => .done (.error e)
    | .ok () =>
      .read (.count r) fun n : Int =>
        match i32 (n - 1) with
        | .error e => .done (.error e)
        | .ok n' => .write (.count r) (fun _ => n') (c.untrainRamsP r img ws 0 k)

/-- Loop of `getMentalImage`, discriminator.cc:105-110, from RAM `i` on. -/
def mentalLoopP {α : Type} (r : Ref) (it : IterOrder) : List Wire → Nat → List Int → (List Int → c.P α) → c.P α
  | [], _, m, k => k m
  | w :: ws, i, m, k =>
    .read (.ram r i) fun pos : RamT =>
      match (w.ram pos).getMentalImage it with
      | .error e => .done (.error e)
      | .ok piece =>
        match Discriminator.addPieces piece m with
        | .error e => .done (.error e)
        | .ok m' => mentalLoopP r it ws (i + 1) m' k

/-- `getMentalImage`, discriminator.cc:102-112. -/
def discMentalP {α : Type} (r : Ref) (it : IterOrder) (k : List Int → c.P α) : c.P α :=
  c.readDisc r fun entrySize ws =>
    if entrySize < 0 then .done (.error (.throw .stdLengthError))
    else c.mentalLoopP r it ws 0 (List.replicate entrySize.toNat 0) k

/-- Insertion of a default discriminator into the map of a Wisard (`operator[]` of a new key), discriminator.cc:4. -/
def insertP {α : Type} (o : Nat) (label : Str) (k : c.P α) : c.P α :=
  .write (.disc (.wis o label)) (fun _ => ((0, []) : Int × List Wire)) <| .write (.count (.wis o label)) (fun _ => (0 : Int)) <|
    .write (.map o) (fun ls : List Str => insertKey label ls) k

/-- `discriminators[label]` of a Wisard. wisard.cc:227, 231, 235. -/
def bracketP {α : Type} (o : Nat) (label : Str) (k : c.P α) : c.P α :=
  .read (.map o) fun ls : List Str =>
    if label ∈ ls then (if c.bracketWrites then .write (.map o) (fun ls => ls) k else k)
    else c.insertP o label k

/-- The right-hand sides of `makeDiscriminator`, wisard.cc:227, 231, 235; all numbers drawn for one wiring are one access. -/
def newDiscP {α : Type} (addressSize : Int) (o : WisardOpts) (label : Str) (entrySize : Int) (k : Res Discriminator → c.P α) : c.P α :=
  match o.mapping.find label with
  | some m => k (Discriminator.setRAMByMapping m entrySize o.ignoreZero o.base)
  | none =>
    if o.indexes.length ≠ 0 then k (Discriminator.setRAMByIndex o.indexes entrySize addressSize o.ignoreZero o.base)
    else .read .gen fun gs : c.g.S =>
      .write .gen (fun _ => (Discriminator.setRAMShuffleG c.g gs entrySize addressSize o.ignoreZero o.completeAddressing o.base).2)
        (k (Discriminator.setRAMShuffleG c.g gs entrySize addressSize o.ignoreZero o.completeAddressing o.base).1)

/-- Writing the RAMs of an assigned discriminator, from RAM `i` on. wisard.cc:227, 231, 235. -/
def assignRamsP {α : Type} (r : Ref) : List Ram → Nat → c.P α → c.P α
  | [], _, k => k
  | x :: xs, i, k => .write (.ram r i) (fun _ => x.positions) (assignRamsP r xs (i + 1) k)

/-- `discriminators[label] = d`: assignment of all members. wisard.cc:227, 231, 235. -/
def assignP {α : Type} (r : Ref) (d : Discriminator) (k : c.P α) : c.P α :=
  .write (.disc r) (fun _ => ((d.entrySize, d.rams.map Ram.wire) : Int × List Wire)) <| .write (.count r) (fun _ => d.count) <|
    c.assignRamsP r d.rams 0 k

/-- `makeDiscriminator`, wisard.cc:223-237: `discriminators[label] = Discriminator(…)`, with the left-hand side first or last. -/
def makeP {α : Type} (o : Nat) (label : Str) (entrySize : Int) (k : c.P α) : c.P α :=
  .read (.opts o) fun p : Int × WisardOpts =>
    if c.lhsFirst then
      c.bracketP o label <| c.newDiscP p.1 p.2 label entrySize fun r =>
        match r with
        | .error e => .done (.error e)
        | .ok d => c.assignP (.wis o label) d k
    else
      c.newDiscP p.1 p.2 label entrySize fun r =>
        match r with
        | .error e => .done (.error e)
        | .ok d => c.bracketP o label (c.assignP (.wis o label) d k)

/-- `train<T>(image, label)`, wisard.cc:148-154. -/
def train1P {α : Type} (o : Nat) (img : Image) (label : Str) (k : c.P α) : c.P α :=
  .read (.map o) fun ls : List Str =>
    if label ∈ ls then c.bracketP o label (c.discTrainP (.wis o label) img k)
    else c.makeP o label img.size (c.bracketP o label (c.discTrainP (.wis o label) img k))

/-- Loop of `train(images, labels)`, wisard.cc:89-92. -/
def trainLoopP {α : Type} (o : Nat) : List (Image × Str) → c.P α → c.P α
  | [], k => k
  | (img, l) :: es, k => c.train1P o img l (trainLoopP o es k)

/-- `train(images, labels)`, wisard.cc:85-94. -/
def trainP {α : Type} (o : Nat) (images : List (List Int)) (labels : List Str) (k : c.P α) : c.P α :=
  .read (.opts o) fun p : Int × WisardOpts =>
    match Wisard.trainChecks ⟨p.1, p.2, []⟩ images labels with
    | .error e => .done (.error e)
    | .ok () => c.trainLoopP o ((images.map Image.vec).zip labels) k

/-- Loop of `train(dataset)`, wisard.cc:79-82. The data set is an argument: the threads may share it, nothing writes it. -/
def trainDataLoopP {α : Type} (o : Nat) (ds : DataSet) : List BinInput → Nat → c.P α → c.P α
  | [], _, k => k
  | b :: bs, i, k =>
    match ds.getLabel i with
    | .error e => .done (.error e)
    | .ok l => c.train1P o (.bin b) l (trainDataLoopP o ds bs (i + 1) k)

/-- `train(dataset)`, wisard.cc:76-83. -/
def trainDataP {α : Type} (o : Nat) (ds : DataSet) (k : c.P α) : c.P α :=
  .read (.opts o) fun p : Int × WisardOpts =>
    match Wisard.dataChecks ⟨p.1, p.2, []⟩ ds with
    | .error e => .done (.error e)
    | .ok () => c.trainDataLoopP o ds ds.data 0 k

/-- `leaveOneOut(image, label)`, wisard.cc:104-109: `find`, which inserts nothing. -/
def leave1P {α : Type} (o : Nat) (img : List Int) (label : Str) (k : c.P α) : c.P α :=
  .read (.map o) fun ls : List Str => if label ∈ ls then c.discUntrainP (.wis o label) (.vec img) k else k

/-- Loop of `leaveMoreOut`, wisard.cc:113-116. -/
def leaveLoopP {α : Type} (o : Nat) : List (List Int × Str) → c.P α → c.P α
  | [], k => k
  | (img, l) :: es, k => c.leave1P o img l (leaveLoopP o es k)

/-- `leaveMoreOut(images, labels)`, wisard.cc:111-118. -/
def leaveMoreP {α : Type} (o : Nat) (images : List (List Int)) (labels : List Str) (k : c.P α) : c.P α :=
  match Wisard.checkInputSizes images.length labels.length with
  | .error e => .done (.error e)
  | .ok () => c.leaveLoopP o (images.zip labels) k

/-- Loop of `__classify`, wisard.cc:182-184, over the keys `ls`; `++i` reads the map. Simplification: the keys are those at the
start of the loop (keys inserted meanwhile by another thread, in a data race, are not visited). -/
def allvotesP {α : Type} (o : Nat) (img : Image) : List Str → (Votes → c.P α) → c.P α
  | [], k => k []
  | l :: ls, k => c.discClassifyP (.wis o l) img fun v => .read (.map o) fun _ => allvotesP o img ls fun vs => k ((l, v) :: vs)

/-- `classify(image)`, wisard.cc:170-186. -/
def classify1P {α : Type} (o : Nat) (img : Image) (k : Scores → c.P α) : c.P α :=
  .read (.map o) fun ls : List Str => c.allvotesP o img ls fun votes =>
    .read (.opts o) fun p : Int × WisardOpts =>
      match Bleaching.make votes p.2.bleachingActivated p.2.searchBestConfidence p.2.confidence with
      | .error e => .done (.error e)
      | .ok candidates => k candidates

/-- Loop of `_classify`, wisard.cc:161-165. -/
def classifyP {α : Type} (o : Nat) : List Image → (List Str → c.P α) → c.P α
  | [], k => k []
  | img :: imgs, k => c.classify1P o img fun candidates => classifyP o imgs fun ls => k (Bleaching.getBiggestCandidate candidates :: ls)

/-- Loop of `getMentalImages`, wisard.cc:122-124, over the keys. -/
def mentalsP {α : Type} (o : Nat) (it : IterOrder) : List Str → (SMap (List Int) → c.P α) → c.P α
  | [], k => k []
  | l :: ls, k => c.discMentalP (.wis o l) it fun m => .read (.map o) fun _ => mentalsP o it ls fun ms => k ((l, m) :: ms)

/-- `getMentalImages`, wisard.cc:120-126. -/
def mentalImagesP {α : Type} (o : Nat) (it : IterOrder) (k : SMap (List Int) → c.P α) : c.P α :=
  .read (.map o) fun ls : List Str => c.mentalsP o it ls k

/-- `operator[]` of a `std::map` at `loc`, of a key that exists.
wisard.cc:153, 227-235, cluswisard.cc:219, 226, cluster.cc:139-175. -/
def touchP {α : Type} (loc : Loc) (k : c.P α) : c.P α :=
  if c.bracketWrites then .write loc (fun v => v) k else .read loc fun _ => k

/-- `classify` of a cluster, cluster.cc:179-186, from discriminator `j` on; `loc` is the location of its map: `discriminators[i]`, and
`size()` in the condition of the loop. -/
def clusterVotesP {α : Type} (loc : Loc) (ref : Nat → Ref) (img : Image) : List Bool → Nat → (List (List Int) → c.P α) → c.P α
  | [], _, k => k []
  | false :: _, _, _ => .done (.error (.ub .nullDeref))
  | true :: bs, j, k => c.touchP loc <| c.discClassifyP (ref j) img fun v => .read loc fun _ =>
      clusterVotesP loc ref img bs (j + 1) fun vs => k (v :: vs)

/-- Loop of `classify(image)`, cluswisard.cc:232-237. -/
def clusVotesP {α : Type} (o : Nat) (img : List Int) : List (Str × Option ClusterCfg × List Bool) → Votes → (Votes → c.P α) → c.P α
  | [], m, k => k m
  | (l, _, bs) :: ls, m, k => c.clusterVotesP (.clusters o) (Ref.clus o l) (.vec img) bs 0 fun vs =>
      .read (.clusters o) fun _ => clusVotesP o img ls (ClusWisard.addVotes l vs 0 m) k

/-- `classify(image, searchBestConfidence)`, cluswisard.cc:229-240; `best` is the second argument. -/
def clusClassify1P {α : Type} (o : Nat) (img : List Int) (best : ClusOpts → Bool) (k : Scores → c.P α) : c.P α :=
  .read (.clusters o) fun cs : SMap (Option ClusterCfg × List Bool) => c.clusVotesP o img cs [] fun votes =>
    .read (.copts o) fun p : (Int × Rat × Int × Int) × ClusOpts =>
      match Bleaching.make votes p.2.bleachingActivated (best p.2) p.2.confidence with
      | .error e => .done (.error e)
      | .ok candidates => k candidates

/-- `classify(images)`, cluswisard.cc:134-149. -/
def clusClassifyP {α : Type} (o : Nat) : List (List Int) → (List Str → c.P α) → c.P α
  | [], k => k []
  | img :: imgs, k => c.clusClassify1P o img (fun p => p.searchBestConfidence) fun candidates => clusClassifyP o imgs fun ls =>
      k (beforeSep (Bleaching.getBiggestCandidate candidates) :: ls)

/-- `classifyUnsupervised(image)`, cluswisard.cc:242-249. -/
def unsupClassify1P {α : Type} (o : Nat) (img : List Int) (k : Scores → c.P α) : c.P α :=
  .read (.ucluster o) fun cl : Option ClusterCfg × List Bool =>
    c.clusterVotesP (.ucluster o) (Ref.unsup o) (.vec img) cl.2 0 fun vs =>
      .read (.copts o) fun p : (Int × Rat × Int × Int) × ClusOpts =>
        match Bleaching.make (ClusWisard.unsupVotes vs 0 []) p.2.bleachingActivated false 1 with
        | .error e => .done (.error e)
        | .ok candidates => k candidates

/-- `classifyUnsupervised(images)`, cluswisard.cc:151-164. -/
def unsupClassifyP {α : Type} (o : Nat) : List (List Int) → (List Str → c.P α) → c.P α
  | [], k => k []
  | img :: imgs, k => c.unsupClassify1P o img fun candidates => unsupClassifyP o imgs fun ls =>
      k (beforeSep (Bleaching.getBiggestCandidate candidates) :: ls)

/-- `getMentalImages` of a cluster, cluster.cc:84-90, from discriminator `j` on. -/
def clusterMentalP {α : Type} (o : Nat) (l : Str) (it : IterOrder) : List Bool → Nat → (List (List Int) → c.P α) → c.P α
  | [], _, k => k []
  | false :: _, _, _ => .done (.error (.ub .nullDeref))
  | true :: bs, j, k => c.discMentalP (.clus o l j) it fun m => .read (.clusters o) fun _ =>
      clusterMentalP o l it bs (j + 1) fun ms => k (m :: ms)

/-- `getMentalImage(label)`, cluswisard.cc:166-168: `clusters[label]` inserts an empty cluster for an unknown label. -/
def clusMentalP {α : Type} (o : Nat) (l : Str) (it : IterOrder) (k : List (List Int) → c.P α) : c.P α :=
  .read (.clusters o) fun cs : SMap (Option ClusterCfg × List Bool) =>
    match SMap.find cs l with
    | some cl =>
      if c.bracketWrites then .write (.clusters o) (fun cs => cs) (c.clusterMentalP o l it cl.2 0 k)
      else c.clusterMentalP o l it cl.2 0 k
    | none => .write (.clusters o) (fun cs : SMap (Option ClusterCfg × List Bool) => SMap.set cs l (none, [])) (k [])

/-- `srand(randint(0, bound))` of the constructors (see `reseed`). wisard.cc:6, cluswisard.cc:10, discriminator.cc:20. -/
def reseedP {α : Type} (now : Nat) (bound : Int) (k : c.P α) : c.P α :=
  .write .gen (fun _ => c.g.srand now) <| .read .gen fun s : c.g.S => .write .gen (fun _ => (c.g.rand s).2) <|
    match randint (c.g.rand s).1 0 bound with
    | .error _ => k
    | .ok n => .write .gen (fun _ => c.g.srand n.toNat) k

/-- `Wisard(addressSize, options)`, wisard.cc:5-44, in variable `o`. -/
def newWisardP {α : Type} (o now : Nat) (addressSize : Int) (opts : WisardOpts) (k : c.P α) : c.P α :=
  c.reseedP now 1000000 <| .write (.opts o) (fun _ => ((addressSize, opts) : Int × WisardOpts)) <|
    .write (.map o) (fun _ => ([] : List Str)) k

/-- Read the cluster of a label, or the unsupervised cluster (`none`), of ClusWisard `o`. cluswisard.cc:334-335. -/
def readSlotP {α : Type} (o : Nat) : Option Str → (Option ClusterCfg × List Bool → c.P α) → c.P α
  | some l, k => .read (.clusters o) fun cs : SMap (Option ClusterCfg × List Bool) => k ((SMap.find cs l).getD (none, []))
  | none, k => .read (.ucluster o) fun cl : Option ClusterCfg × List Bool => k cl

/-- Change it. cluswisard.cc:334-335. -/
def writeSlotP {α : Type} (o : Nat) : Option Str → (Option ClusterCfg × List Bool → Option ClusterCfg × List Bool) → c.P α → c.P α
  | some l, u, k => .write (.clusters o) (fun cs : SMap (Option ClusterCfg × List Bool) => SMap.set cs l (u ((SMap.find cs l).getD (none, [])))) k
  | none, u, k => .write (.ucluster o) (fun cl : Option ClusterCfg × List Bool => u cl) k

/-- The right-hand side of `makeDiscriminator`, cluster.cc:133; all numbers drawn for one wiring are one access. -/
def newClusterDiscP {α : Type} (cf : ClusterCfg) (k : Discriminator → c.P α) : c.P α :=
  .read .gen fun gs : c.g.S =>
    .write .gen (fun _ => (Discriminator.setRAMShuffleG c.g gs cf.entrySize cf.addressSize cf.ignoreZero cf.completeAddressing cf.base).2) <|
      match (Discriminator.setRAMShuffleG c.g gs cf.entrySize cf.addressSize cf.ignoreZero cf.completeAddressing cf.base).1 with
      | .error e => .done (.error e)
      | .ok d => k d

/-- `discriminators[j]` for a key that may not exist: a null pointer is inserted then. Keys are 0, 1, …, n-1 (see `Cluster`); should
another thread, in a data race, have changed them meanwhile, the gap is filled with null pointers.
cluster.cc:133, 168-170. -/
def insertAt (bs : List Bool) (j : Nat) : List Bool := if j < bs.length then bs else bs ++ List.replicate (j + 1 - bs.length) false

/-- `makeDiscriminator(j)` for a new key `j`, cluster.cc:132-134: `discriminators[j] = new Discriminator(…)`, with the left-hand side
(which inserts a null pointer) first or last. -/
def makeDiscP {α : Type} (o : Nat) (p : Option Str) (cf : ClusterCfg) (j : Nat) (k : c.P α) : c.P α :=
  if c.lhsFirst then
    c.writeSlotP o p (fun cl => (cl.1, insertAt cl.2 j)) <| c.newClusterDiscP cf fun d =>
      c.assignP (slotRef o p j) d <| c.writeSlotP o p (fun cl => (cl.1, cl.2.set j true)) k
  else
    c.newClusterDiscP cf fun d =>
      c.assignP (slotRef o p j) d <| c.writeSlotP o p (fun cl => (cl.1, (insertAt cl.2 j).set j true)) k

/-- `makeDiscriminator(j)` and `discriminators[j]->train(image)`, cluster.cc:139-140, 168-170; `cfg` are the members read for it. -/
def trainNewP {α : Type} (o : Nat) (p : Option Str) (cfg : Option ClusterCfg) (j : Nat) (img : Image) (k : c.P α) : c.P α :=
  match cfg with
  | none => .done (.error (.ub .uninitialised))
  | some cf => c.makeDiscP o p cf j <| c.touchP (slotLoc o p) <| c.discTrainP (slotRef o p j) img k

/-- The loop over the discriminators, cluster.cc:148-165, from number `i` on; compare `Cluster.scan`. -/
def scanP {α : Type} (o : Nat) (p : Option Str) (cf : ClusterCfg) (img : Image) : List Bool → Nat → Rat → Option Nat → Bool →
    (Option Nat × Bool → c.P α) → c.P α
  | [], _, _, bestDiscriminator, trained, k => k (bestDiscriminator, trained)
  | false :: _, _, _, _, _, _ => .done (.error (.ub .nullDeref))
  | true :: bs, i, bestValue, bestDiscriminator, trained, k =>
    c.touchP (slotLoc o p) <| c.discClassifyP (slotRef o p i) img fun votes =>
      c.touchP (slotLoc o p) <| .read (.count (slotRef o p i)) fun count : Int =>
        let score := Cluster.getScore c.f votes
        let bestDiscriminator' := if score ≥ bestValue then some i else bestDiscriminator
        let bestValue' := if score ≥ bestValue then score else bestValue
        if score ≥ Cluster.limit c.f cf count then
          c.touchP (slotLoc o p) <| c.discTrainP (slotRef o p i) img <| .read (slotLoc o p) fun _ =>
            scanP o p cf img bs (i + 1) bestValue' bestDiscriminator' true k
        else .read (slotLoc o p) fun _ => scanP o p cf img bs (i + 1) bestValue' bestDiscriminator' trained k

/-- `bestDiscriminator->train(image)`, cluster.cc:175; compare `Cluster.trainAt`. -/
def trainAtP {α : Type} (o : Nat) (p : Option Str) (bs : List Bool) (i : Nat) (img : Image) (k : c.P α) : c.P α :=
  match bs[i]? with
  | some true => c.discTrainP (slotRef o p i) img k
  | _ => .done (.error (.ub .nullDeref))

/-- `train<T>(image)` of a cluster, cluster.cc:136-177. -/
def clusterTrainP {α : Type} (o : Nat) (p : Option Str) (img : Image) (k : c.P α) : c.P α :=
  c.readSlotP o p fun cl =>
    if cl.2.length = 0 then c.trainNewP o p cl.1 0 img k
    else
      match cl.1 with
      | none => .done (.error (.ub .uninitialised))
      | some cf => c.scanP o p cf img cl.2 0 0 none false fun r =>
          if r.2 then k
          else if (cl.2.length : Int) < cf.discriminatorsLimit then c.trainNewP o p (some cf) cl.2.length img k
          else
            match r.1 with
            | none => k
            | some i => c.trainAtP o p cl.2 i img k

/-- `clusters[label].train(image)`, cluswisard.cc:219, 226. -/
def clusTrainInP {α : Type} (o : Nat) (img : List Int) (l : Str) (k : c.P α) : c.P α :=
  .read (.clusters o) fun cs : SMap (Option ClusterCfg × List Bool) =>
    match SMap.find cs l with
    | some _ => c.touchP (.clusters o) <| c.clusterTrainP o (some l) (.vec img) k
    | none => .write (.clusters o) (fun cs : SMap (Option ClusterCfg × List Bool) => SMap.set cs l (none, [])) <|
        c.clusterTrainP o (some l) (.vec img) k

/-- A ClusWisard with these members and no clusters. cluswisard.cc:320-335. -/
def members (p : (Int × Rat × Int × Int) × ClusOpts) : ClusWisard := ⟨p.1.1, p.1.2.1, p.1.2.2.1, p.1.2.2.2, p.2, [], Cluster.default⟩

/-- `train(image, label)`, cluswisard.cc:215-220, with `makeClusters`, cluswisard.cc:287-289. -/
def clusTrain1P {α : Type} (o : Nat) (img : List Int) (l : Str) (k : c.P α) : c.P α :=
  .read (.clusters o) fun cs : SMap (Option ClusterCfg × List Bool) =>
    match SMap.find cs l with
    | some _ => c.clusTrainInP o img l k
    | none => .read (.copts o) fun p : (Int × Rat × Int × Int) × ClusOpts =>
        .write (.clusters o) (fun cs : SMap (Option ClusterCfg × List Bool) => SMap.set cs l (some ((members p).clusterCfg img.length), [])) <|
          c.clusTrainInP o img l k

/-- `train(image)`, cluswisard.cc:222-227. -/
def clusTrainOwnP {α : Type} (o : Nat) (img : List Int) (k : c.P α) : c.P α :=
  c.clusClassify1P o img (fun _ => false) fun candidates => c.clusTrainInP o img (beforeSep (Bleaching.getBiggestCandidate candidates)) k

/-- Loop of `train(images, labels)`, cluswisard.cc:84-87. -/
def clusTrainLoopP {α : Type} (o : Nat) : List (List Int × Str) → c.P α → c.P α
  | [], k => k
  | (img, l) :: es, k => c.clusTrain1P o img l (clusTrainLoopP o es k)

/-- `train(images, labels)`, cluswisard.cc:79-89. -/
def clusTrainP {α : Type} (o : Nat) (images : List (List Int)) (labels : List Str) (k : c.P α) : c.P α :=
  .read (.copts o) fun p : (Int × Rat × Int × Int) × ClusOpts =>
    match (members p).trainChecks images labels with
    | .error e => .done (.error e)
    | .ok () => c.clusTrainLoopP o (images.zip labels) k

/-- First loop of semi-supervised training, cluswisard.cc:99-112. -/
def semiLoopP {α : Type} (o : Nat) (labels : LabelMap) : List (List Int) → Nat → List Int → Nat → (List Int → c.P α) → c.P α
  | [], _, labelless, _, k => k labelless
  | img :: imgs, i, labelless, j, k =>
    match labels.find i with
    | none =>
      match ClusWisard.noteLabelless labelless j i with
      | .error e => .done (.error e)
      | .ok labelless' => semiLoopP o labels imgs (i + 1) labelless' (j + 1) k
    | some l => c.clusTrain1P o img l (semiLoopP o labels imgs (i + 1) labelless j k)

/-- Second loop of semi-supervised training, cluswisard.cc:117-120. -/
def ownLoopP {α : Type} (o : Nat) : List (List Int) → c.P α → c.P α
  | [], k => k
  | img :: imgs, k => c.clusTrainOwnP o img (ownLoopP o imgs k)

/-- `train(images, labels)` with a map of labels, cluswisard.cc:91-123. -/
def semiP {α : Type} (o : Nat) (images : List (List Int)) (labels : LabelMap) (k : c.P α) : c.P α :=
  .read (.copts o) fun p : (Int × Rat × Int × Int) × ClusOpts =>
    match (members p).semiChecks images labels with
    | .error e => .done (.error e)
    | .ok () => c.semiLoopP o labels images 0 (List.replicate (images.length - labels.length) 0) 0 fun labelless =>
        if labelless.length = images.length then .done (.error (.throw .noValidIndex))
        else c.ownLoopP o (images.take labelless.length) k

/-- Loop of `trainUnsupervised`, cluswisard.cc:129-131. -/
def unsupLoopP {α : Type} (o : Nat) : List (List Int) → c.P α → c.P α
  | [], k => k
  | img :: imgs, k => c.clusterTrainP o none (.vec img) (unsupLoopP o imgs k)

/-- `trainUnsupervised(images)`, cluswisard.cc:125-132. -/
def unsupP {α : Type} (o : Nat) (images : List (List Int)) (k : c.P α) : c.P α :=
  .read (.clusters o) fun cs : SMap (Option ClusterCfg × List Bool) =>
    if cs.length = 0 then
      match images with
      | [] => .done (.error (.ub .outOfBounds))
      | i0 :: _ => .read (.copts o) fun p : (Int × Rat × Int × Int) × ClusOpts =>
          .write (.ucluster o) (fun _ => ((some { (members p).clusterCfg i0.length with base := 2 }, []) : Option ClusterCfg × List Bool)) <|
            c.unsupLoopP o images k
    else c.unsupLoopP o images k

/-- `ClusWisard(addressSize, minScore, threshold, discriminatorsLimit, options)`, cluswisard.cc:5-44, in variable `o`. -/
def newClusP {α : Type} (o now : Nat) (A : Int) (ms : Rat) (t dl : Int) (opts : ClusOpts) (k : c.P α) : c.P α :=
  c.reseedP now 1000000 <|
    match ClusWisard.create A ms t dl opts with
    | .error e => .done (.error e)
    | .ok _ => .write (.copts o) (fun _ => (((A, ms, t, dl), opts) : (Int × Rat × Int × Int) × ClusOpts)) <|
        .write (.clusters o) (fun _ => ([] : SMap (Option ClusterCfg × List Bool))) <|
          .write (.ucluster o) (fun _ => ((none, []) : Option ClusterCfg × List Bool)) k

end Impl

/-- Calls of the library, with the number of the variable they are made on.
Models calls of the classes discriminator.cc:1-370, wisard.cc:1-265 and cluswisard.cc:1-336 (member variables as locations). -/
inductive Call where
  | discTrain (o : Nat) (img : Image)
  | discClassify (o : Nat) (img : Image)
  | discMental (o : Nat) (it : IterOrder)
  | discUntrain (o : Nat) (img : List Int)
  | newWisard (o now : Nat) (addressSize : Int) (opts : WisardOpts)
  | train (o : Nat) (images : List (List Int)) (labels : List Str)
  | trainDataSet (o : Nat) (ds : DataSet)
  | leaveOneOut (o : Nat) (img : List Int) (label : Str)
  | leaveMoreOut (o : Nat) (images : List (List Int)) (labels : List Str)
  | classify (o : Nat) (images : List Image)
  | mentalImages (o : Nat) (it : IterOrder)
  | clusClassify (o : Nat) (images : List (List Int))
  | unsupClassify (o : Nat) (images : List (List Int))
  | clusMental (o : Nat) (label : Str) (it : IterOrder)
  | newClus (o now : Nat) (addressSize : Int) (minScore : Rat) (threshold discriminatorsLimit : Int) (opts : ClusOpts)
  | clusTrain (o : Nat) (images : List (List Int)) (labels : List Str)
  | clusSemi (o : Nat) (images : List (List Int)) (labels : LabelMap)
  | clusUnsup (o : Nat) (images : List (List Int))

/-- The accesses of a call.
Models calls of the classes discriminator.cc:1-370, wisard.cc:1-265 and cluswisard.cc:1-336 (member variables as locations). -/
def Impl.callP (c : Impl) : Call → c.P Reply
  | .discTrain o img => c.discTrainP (.own o) img (.done (.ok .nothing))
  | .discClassify o img => c.discClassifyP (.own o) img fun v => .done (.ok (.votes v))
  | .discMental o it => c.discMentalP (.own o) it fun m => .done (.ok (.image m))
  | .discUntrain o img => c.discUntrainP (.own o) (.vec img) (.done (.ok .nothing))
  | .newWisard o now a opts => c.newWisardP o now a opts (.done (.ok .nothing))
  | .train o images labels => c.trainP o images labels (.done (.ok .nothing))
  | .trainDataSet o ds => c.trainDataP o ds (.done (.ok .nothing))
  | .leaveOneOut o img l => c.leave1P o img l (.done (.ok .nothing))
  | .leaveMoreOut o images labels => c.leaveMoreP o images labels (.done (.ok .nothing))
  | .classify o images => c.classifyP o images fun l => .done (.ok (.labels l))
  | .mentalImages o it => c.mentalImagesP o it fun m => .done (.ok (.images m))
  | .clusClassify o images => c.clusClassifyP o images fun l => .done (.ok (.labels l))
  | .unsupClassify o images => c.unsupClassifyP o images fun l => .done (.ok (.labels l))
  | .clusMental o l it => c.clusMentalP o l it fun m => .done (.ok (.clusImages m))
  | .newClus o now A ms t dl opts => c.newClusP o now A ms t dl opts (.done (.ok .nothing))
  | .clusTrain o images labels => c.clusTrainP o images labels (.done (.ok .nothing))
  | .clusSemi o images labels => c.semiP o images labels (.done (.ok .nothing))
  | .clusUnsup o images => c.unsupP o images (.done (.ok .nothing))

/-- A thread that makes one call after the other and collects what they return; an exception does not end it.
Models calls of the classes discriminator.cc:1-370, wisard.cc:1-265 and cluswisard.cc:1-336 (member variables as locations). -/
def Impl.scriptP (c : Impl) : List Call → Prog (Val c.g.S) (List (Res Reply))
  | [] => .done []
  | call :: calls => (c.callP call).bind fun r => (scriptP c calls).bind fun rs => .done (r :: rs)

end Wis
