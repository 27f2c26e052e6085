import Verif.Lemmas.ThreadsCalls
/-!
# Which locations a call accesses
-/

namespace Wis
open Spec

/-- What never changes while the threads run: the options of Wisards that are not made anew, and that their classes stay. -/
def Okay {g : CRand} (m0 : Mem g) (fixed : Nat → Prop) : ∀ l : Loc, Val g.S l → Prop
  | .map o, (v : List Str) => fixed o → ∀ k ∈ m0 (.map o), k ∈ v
  | .opts o, v => fixed o → v = m0 (.opts o)
  | _, _ => True

namespace Impl
variable {c : Impl} {α : Type} {F W : Loc → Prop} {m0 : Mem c.g} {fixed : Nat → Prop}

section
variable {ok : ∀ l : Loc, Val c.g.S l → Prop}

theorem voteP_uses {r : Ref} {img : Image} {i : Nat} {w : Wire} {k : Int → c.P α} (hF : F (.ram r i)) (hk : ∀ v, (k v).Uses F W ok) :
    (c.voteP r img i w k).Uses F W ok := by
  unfold voteP
  cases (w.ram []).getIndex img with
  | error e => trivial
  | ok index =>
    simp only
    by_cases h : (w.ignoreZero && decide (index = 0)) = true
    · rw [if_pos h]; exact hk _
    · rw [if_neg h]; exact ⟨hF, fun v _ => hk _⟩

theorem votesP_uses {r : Ref} {img : Image} (hF : ∀ i, F (.ram r i)) (ws : List Wire) : ∀ (i : Nat) (k : List Int → c.P α),
    (∀ v, (k v).Uses F W ok) → (c.votesP r img ws i k).Uses F W ok := by
  induction ws with
  | nil => intro i k hk; exact hk _
  | cons w ws ih => intro i k hk; exact voteP_uses (hF i) (fun v => ih (i + 1) _ (fun vs => hk _))

theorem discClassifyP_uses {r : Ref} {img : Image} {k : List Int → c.P α} (hF : ∀ l : Loc, l.place = some r → F l)
    (hk : ∀ v, (k v).Uses F W ok) : (c.discClassifyP r img k).Uses F W ok := by
  refine ⟨hF (.disc r) rfl, fun d _ => ?_⟩
  try dsimp only
  cases checkEntry d.1 img with
  | error e => trivial
  | ok _ => exact votesP_uses (fun i => hF (.ram r i) rfl) _ 0 k hk

theorem mentalLoopP_uses {r : Ref} {it : IterOrder} (hF : ∀ i, F (.ram r i)) (ws : List Wire) : ∀ (i : Nat) (v : List Int) (k : List Int → c.P α),
    (∀ v, (k v).Uses F W ok) → (c.mentalLoopP r it ws i v k).Uses F W ok := by
  induction ws with
  | nil => intro i v k hk; exact hk _
  | cons w ws ih =>
    intro i v k hk
    refine ⟨hF i, fun pos _ => ?_⟩
    try dsimp only
    cases (w.ram pos).getMentalImage it with
    | error e => trivial
    | ok piece =>
      simp only
      cases Discriminator.addPieces piece v with
      | error e => trivial
      | ok v' => exact ih (i + 1) v' k hk

theorem discMentalP_uses {r : Ref} {it : IterOrder} {k : List Int → c.P α} (hF : ∀ l : Loc, l.place = some r → F l)
    (hk : ∀ v, (k v).Uses F W ok) : (c.discMentalP r it k).Uses F W ok := by
  refine ⟨hF (.disc r) rfl, fun d _ => ?_⟩
  by_cases h : d.1 < 0
  · simp only [if_pos h]; trivial
  · simp only [if_neg h]; exact mentalLoopP_uses (fun i => hF (.ram r i) rfl) _ 0 _ k hk

theorem allvotesP_uses {o : Nat} {img : Image} (hF : ∀ (l : Loc) lab, l.place = some (.wis o lab) → F l) (hm : F (.map o)) (ls : List Str) :
    ∀ (k : Votes → c.P α), (∀ v, (k v).Uses F W ok) → (c.allvotesP o img ls k).Uses F W ok := by
  induction ls with
  | nil => intro k hk; exact hk _
  | cons l ls ih =>
    intro k hk
    exact discClassifyP_uses (fun x hx => hF x l hx) (fun v => ⟨hm, fun _ _ => ih _ (fun vs => hk _)⟩)

theorem classify1P_uses {o : Nat} {img : Image} (hF : ∀ (l : Loc) lab, l.place = some (.wis o lab) → F l) (hm : F (.map o)) (ho : F (.opts o))
    {k : Scores → c.P α} (hk : ∀ v, (k v).Uses F W ok) : (c.classify1P o img k).Uses F W ok := by
  refine ⟨hm, fun ls _ => allvotesP_uses hF hm _ _ (fun votes => ⟨ho, fun p _ => ?_⟩)⟩
  try dsimp only
  cases Bleaching.make votes p.2.bleachingActivated p.2.searchBestConfidence p.2.confidence with
  | error e => trivial
  | ok x => exact hk _

theorem classifyP_uses {o : Nat} (hF : ∀ (l : Loc) lab, l.place = some (.wis o lab) → F l) (hm : F (.map o)) (ho : F (.opts o)) (imgs : List Image) :
    ∀ (k : List Str → c.P α), (∀ v, (k v).Uses F W ok) → (c.classifyP o imgs k).Uses F W ok := by
  induction imgs with
  | nil => intro k hk; exact hk _
  | cons img imgs ih => intro k hk; exact classify1P_uses hF hm ho (fun v => ih _ (fun ls => hk _))

theorem mentalsP_uses {o : Nat} {it : IterOrder} (hF : ∀ (l : Loc) lab, l.place = some (.wis o lab) → F l) (hm : F (.map o)) (ls : List Str) :
    ∀ (k : SMap (List Int) → c.P α), (∀ v, (k v).Uses F W ok) → (c.mentalsP o it ls k).Uses F W ok := by
  induction ls with
  | nil => intro k hk; exact hk _
  | cons l ls ih =>
    intro k hk
    exact discMentalP_uses (fun x hx => hF x l hx) (fun v => ⟨hm, fun _ _ => ih _ (fun vs => hk _)⟩)

theorem touchP_uses {loc : Loc} {k : c.P α} (hl : F loc) (hw : c.bracketWrites = true → W loc) (hk : k.Uses F W ok) :
    (c.touchP loc k).Uses F W ok := by
  unfold touchP
  by_cases hb : c.bracketWrites = true
  · rw [if_pos hb]; exact ⟨hl, hw hb, fun _ h => h, hk⟩
  · rw [if_neg hb]; exact ⟨hl, fun _ _ => hk⟩

theorem clusterVotesP_uses {loc : Loc} {ref : Nat → Ref} {img : Image} (hl : F loc) (hw : c.bracketWrites = true → W loc) (hF : ∀ (l : Loc) j, l.place = some (ref j) → F l)
    (bs : List Bool) : ∀ (j : Nat) (k : List (List Int) → c.P α), (∀ v, (k v).Uses F W ok) → (c.clusterVotesP loc ref img bs j k).Uses F W ok := by
  induction bs with
  | nil => intro j k hk; exact hk _
  | cons b bs ih =>
    intro j k hk
    cases b with
    | false => trivial
    | true => exact touchP_uses hl hw (discClassifyP_uses (fun x hx => hF x j hx) (fun v => ⟨hl, fun _ _ => ih (j + 1) _ (fun vs => hk _)⟩))

theorem clusVotesP_uses {o : Nat} {img : List Int} (hl : F (.clusters o)) (hw : c.bracketWrites = true → W (.clusters o)) (hF : ∀ (l : Loc) lab j, l.place = some (.clus o lab j) → F l)
    (cs : List (Str × Option ClusterCfg × List Bool)) : ∀ (v : Votes) (k : Votes → c.P α), (∀ v, (k v).Uses F W ok) →
    (c.clusVotesP o img cs v k).Uses F W ok := by
  induction cs with
  | nil => intro v k hk; exact hk _
  | cons e cs ih =>
    intro v k hk
    obtain ⟨l, cfg, bs⟩ := e
    exact clusterVotesP_uses hl hw (fun x j hx => hF x l j hx) bs 0 _ (fun vs => ⟨hl, fun _ _ => ih _ k hk⟩)

theorem clusClassify1P_uses {o : Nat} {img : List Int} {best : ClusOpts → Bool} (hl : F (.clusters o)) (hw : c.bracketWrites = true → W (.clusters o))
    (hc : F (.copts o)) (hF : ∀ (l : Loc) lab j, l.place = some (.clus o lab j) → F l) {k : Scores → c.P α} (hk : ∀ v, (k v).Uses F W ok) :
    (c.clusClassify1P o img best k).Uses F W ok := by
  refine ⟨hl, fun cs _ => clusVotesP_uses hl hw hF _ _ _ (fun votes => ⟨hc, fun p _ => ?_⟩)⟩
  try dsimp only
  cases Bleaching.make votes p.2.bleachingActivated (best p.2) p.2.confidence with
  | error e => trivial
  | ok x => exact hk _

theorem clusClassifyP_uses {o : Nat} (hl : F (.clusters o)) (hw : c.bracketWrites = true → W (.clusters o)) (hc : F (.copts o))
    (hF : ∀ (l : Loc) lab j, l.place = some (.clus o lab j) → F l)
    (imgs : List (List Int)) : ∀ (k : List Str → c.P α), (∀ v, (k v).Uses F W ok) → (c.clusClassifyP o imgs k).Uses F W ok := by
  induction imgs with
  | nil => intro k hk; exact hk _
  | cons img imgs ih =>
    intro k hk
    exact clusClassify1P_uses hl hw hc hF (fun v => ih _ (fun ls => hk _))

theorem unsupClassifyP_uses {o : Nat} (hl : F (.ucluster o)) (hw : c.bracketWrites = true → W (.ucluster o)) (hc : F (.copts o)) (hF : ∀ (l : Loc) j, l.place = some (.unsup o j) → F l)
    (imgs : List (List Int)) : ∀ (k : List Str → c.P α), (∀ v, (k v).Uses F W ok) → (c.unsupClassifyP o imgs k).Uses F W ok := by
  induction imgs with
  | nil => intro k hk; exact hk _
  | cons img imgs ih =>
    intro k hk
    refine ⟨hl, fun cl _ => clusterVotesP_uses hl hw hF _ 0 _ (fun vs => ⟨hc, fun p _ => ?_⟩)⟩
    try dsimp only
    cases Bleaching.make (ClusWisard.unsupVotes vs 0 []) p.2.bleachingActivated false 1 with
    | error e => trivial
    | ok x => exact ih _ (fun ls => hk _)

theorem clusterMentalP_uses {o : Nat} {l : Str} {it : IterOrder} (hl : F (.clusters o)) (hF : ∀ (x : Loc) j, x.place = some (.clus o l j) → F x)
    (bs : List Bool) : ∀ (j : Nat) (k : List (List Int) → c.P α), (∀ v, (k v).Uses F W ok) → (c.clusterMentalP o l it bs j k).Uses F W ok := by
  induction bs with
  | nil => intro j k hk; exact hk _
  | cons b bs ih =>
    intro j k hk
    cases b with
    | false => trivial
    | true => exact discMentalP_uses (fun x hx => hF x j hx) (fun v => ⟨hl, fun _ _ => ih (j + 1) _ (fun vs => hk _)⟩)

end

/-- The program, with what `Okay` says. -/
abbrev Uses' (m0 : Mem c.g) (fixed : Nat → Prop) (F W : Loc → Prop) (p : Prog (Val c.g.S) α) : Prop := p.Uses F W (Okay m0 fixed)

theorem okay_place {l : Loc} {r : Ref} (h : l.place = some r) (v : Val c.g.S l) : Okay m0 fixed l v := by
  cases l <;> first | trivial | cases h

theorem clusMentalP_uses {o : Nat} {l : Str} {it : IterOrder} {k : List (List Int) → c.P α} (hl : F (.clusters o)) (hw : W (.clusters o))
    (hF : ∀ (x : Loc) lab j, x.place = some (.clus o lab j) → F x) (hk : ∀ v, Uses' m0 fixed F W (k v)) :
    Uses' m0 fixed F W (c.clusMentalP o l it k) := by
  refine ⟨hl, fun cs _ => ?_⟩
  try dsimp only
  cases SMap.find cs l with
  | none => exact ⟨hl, hw, fun _ _ => trivial, hk _⟩
  | some cl =>
    simp only
    have := clusterMentalP_uses (it := it) hl (fun x j => hF x l j) cl.2 0 k hk
    by_cases hb : c.bracketWrites = true
    · rw [if_pos hb]; exact ⟨hl, hw, fun _ h => h, this⟩
    · rw [if_neg hb]; exact this

theorem trainRamsP_uses {r : Ref} {img : Image} (hF : ∀ i, F (.ram r i) ∧ W (.ram r i)) (ws : List Wire) : ∀ (i : Nat) (k : c.P α),
    Uses' m0 fixed F W k → Uses' m0 fixed F W (c.trainRamsP r img ws i k) := by
  induction ws with
  | nil => intro i k hk; exact hk
  | cons w ws ih =>
    intro i k hk
    unfold trainRamsP trainRamP
    cases (w.ram []).getIndex img with
    | error e => trivial
    | ok index =>
      refine ⟨(hF i).1, fun pos _ => ?_⟩
      try dsimp only
      cases RamT.find pos index with
      | none => exact ⟨(hF i).1, (hF i).2, fun _ _ => trivial, ih (i + 1) k hk⟩
      | some v =>
        simp only
        cases i32 (v + 1) with
        | error e => trivial
        | ok v' => exact ⟨(hF i).1, (hF i).2, fun _ _ => trivial, ih (i + 1) k hk⟩

theorem discTrainP_uses {r : Ref} {img : Image} {k : c.P α} (hF : ∀ l : Loc, l.place = some r → F l ∧ W l) (hk : Uses' m0 fixed F W k) :
    Uses' m0 fixed F W (c.discTrainP r img k) := by
  refine ⟨(hF (.disc r) rfl).1, fun d _ => ?_⟩
  try dsimp only
  cases checkEntry d.1 img with
  | error e => trivial
  | ok _ =>
    refine ⟨(hF (.count r) rfl).1, fun n _ => ?_⟩
    try dsimp only
    cases i32 (n + 1) with
    | error e => trivial
    | ok n' =>
      exact ⟨(hF (.count r) rfl).1, (hF (.count r) rfl).2, fun _ _ => trivial, trainRamsP_uses (fun i => hF (.ram r i) rfl) _ 0 k hk⟩

theorem untrainRamsP_uses {r : Ref} {img : Image} (hF : ∀ i, F (.ram r i) ∧ W (.ram r i)) (ws : List Wire) : ∀ (i : Nat) (k : c.P α),
    Uses' m0 fixed F W k → Uses' m0 fixed F W (c.untrainRamsP r img ws i k) := by
  induction ws with
  | nil => intro i k hk; exact hk
  | cons w ws ih =>
    intro i k hk
    unfold untrainRamsP untrainRamP
    cases (w.ram []).getIndex img with
    | error e => trivial
    | ok index =>
      refine ⟨(hF i).1, fun pos _ => ?_⟩
      try dsimp only
      cases RamT.find pos index with
      | none => exact ih (i + 1) k hk
      | some v =>
        simp only
        cases i32 (v - 1) with
        | error e => trivial
        | ok v' => exact ⟨(hF i).1, (hF i).2, fun _ _ => trivial, ih (i + 1) k hk⟩

theorem discUntrainP_uses {r : Ref} {img : Image} {k : c.P α} (hF : ∀ l : Loc, l.place = some r → F l ∧ W l) (hk : Uses' m0 fixed F W k) :
    Uses' m0 fixed F W (c.discUntrainP r img k) := by
  refine ⟨(hF (.disc r) rfl).1, fun d _ => ?_⟩
  try dsimp only
  cases checkEntry d.1 img with
  | error e => trivial
  | ok _ =>
    refine ⟨(hF (.count r) rfl).1, fun n _ => ?_⟩
    try dsimp only
    cases i32 (n - 1) with
    | error e => trivial
    | ok n' =>
      exact ⟨(hF (.count r) rfl).1, (hF (.count r) rfl).2, fun _ _ => trivial, untrainRamsP_uses (fun i => hF (.ram r i) rfl) _ 0 k hk⟩

theorem bracketP_uses {o : Nat} {label : Str} {k : c.P α} (hF : ∀ l : Loc, l.place = some (.wis o label) → F l ∧ W l) (hm : F (.map o) ∧ W (.map o))
    (hk : Uses' m0 fixed F W k) : Uses' m0 fixed F W (c.bracketP o label k) := by
  refine ⟨hm.1, fun ls _ => ?_⟩
  by_cases h : label ∈ ls
  · simp only [if_pos h]
    by_cases hb : c.bracketWrites = true
    · rw [if_pos hb]; exact ⟨hm.1, hm.2, fun _ h => h, hk⟩
    · rw [if_neg hb]; exact hk
  · simp only [if_neg h]
    exact ⟨(hF _ rfl).1, (hF _ rfl).2, fun _ _ => trivial, (hF _ rfl).1, (hF _ rfl).2, fun _ _ => trivial, hm.1, hm.2,
      fun v hv hf kk hkk => mem_insertKey.mpr (.inr (hv hf kk hkk)), hk⟩

theorem newDiscP_uses {A : Int} {os : WisardOpts} {label : Str} {n : Int} {k : Res Discriminator → c.P α}
    (hg : (F .gen ∧ W .gen) ∨ os.mapping.find label ≠ none ∨ os.indexes.length ≠ 0) (hk : ∀ r, Uses' m0 fixed F W (k r)) :
    Uses' m0 fixed F W (c.newDiscP A os label n k) := by
  unfold newDiscP
  cases hf : os.mapping.find label with
  | some mp => exact hk _
  | none =>
    simp only
    by_cases h : os.indexes.length ≠ 0
    · rw [if_pos h]; exact hk _
    · rw [if_neg h]
      have hg : F .gen ∧ W .gen := by
        rcases hg with hg | hg | hg
        · exact hg
        · exact absurd hf hg
        · exact absurd hg h
      exact ⟨hg.1, fun _ _ => ⟨hg.1, hg.2, fun _ _ => trivial, hk _⟩⟩

theorem assignRamsP_uses {r : Ref} (hF : ∀ l : Loc, l.place = some r → F l ∧ W l) (xs : List Ram) : ∀ (i : Nat) (k : c.P α),
    Uses' m0 fixed F W k → Uses' m0 fixed F W (c.assignRamsP r xs i k) := by
  induction xs with
  | nil => intro i k hk; exact hk
  | cons x xs ih => intro i k hk; exact ⟨(hF _ rfl).1, (hF _ rfl).2, fun _ _ => trivial, ih (i + 1) k hk⟩

theorem assignP_uses {r : Ref} {d : Discriminator} {k : c.P α} (hF : ∀ l : Loc, l.place = some r → F l ∧ W l) (hk : Uses' m0 fixed F W k) :
    Uses' m0 fixed F W (c.assignP r d k) :=
  ⟨(hF _ rfl).1, (hF _ rfl).2, fun _ _ => trivial, (hF _ rfl).1, (hF _ rfl).2, fun _ _ => trivial, assignRamsP_uses hF _ 0 k hk⟩

/-- Training one image. -/
theorem train1P_uses {o : Nat} {img : Image} {label : Str} {k : c.P α} (hF : ∀ l : Loc, l.place = some (.wis o label) → F l ∧ W l)
    (hm : F (.map o) ∧ W (.map o)) (ho : F (.opts o))
    (hg : (F .gen ∧ W .gen) ∨ (fixed o ∧ (label ∈ m0 (.map o) ∨ (m0 (.opts o)).2.mapping.find label ≠ none ∨ (m0 (.opts o)).2.indexes.length ≠ 0)))
    (hk : Uses' m0 fixed F W k) : Uses' m0 fixed F W (c.train1P o img label k) := by
  have h1 : Uses' m0 fixed F W (c.bracketP o label (c.discTrainP (.wis o label) img k)) := bracketP_uses hF hm (discTrainP_uses hF hk)
  refine ⟨hm.1, fun ls hls => ?_⟩
  by_cases h : label ∈ ls
  · simp only [if_pos h]; exact h1
  · simp only [if_neg h]
    refine ⟨ho, fun p hp => ?_⟩
    have hg' : (F .gen ∧ W .gen) ∨ p.2.mapping.find label ≠ none ∨ p.2.indexes.length ≠ 0 := by
      rcases hg with hg | ⟨hf, hg | hg⟩
      · exact .inl hg
      · exact absurd (hls hf label hg) h
      · have hp : p = m0 (.opts o) := hp hf
        rw [hp]; exact .inr hg
    by_cases hl : c.lhsFirst = true
    · simp only [if_pos hl]
      refine bracketP_uses hF hm (newDiscP_uses hg' (fun r => ?_))
      try dsimp only
      cases r with
      | error e => trivial
      | ok d => exact assignP_uses hF h1
    · simp only [if_neg hl]
      refine newDiscP_uses hg' (fun r => ?_)
      try dsimp only
      cases r with
      | error e => trivial
      | ok d => exact bracketP_uses hF hm (assignP_uses hF h1)

/-- Training one image of a class that exists, where `operator[]` only searches. -/
theorem train1P_uses_known {o : Nat} {img : Image} {label : Str} {k : c.P α} (hF : ∀ l : Loc, l.place = some (.wis o label) → F l ∧ W l)
    (hm : F (.map o)) (hb : c.bracketWrites = false) (hf : fixed o) (hl : label ∈ m0 (.map o)) (hk : Uses' m0 fixed F W k) :
    Uses' m0 fixed F W (c.train1P o img label k) := by
  refine ⟨hm, fun ls hls => ?_⟩
  simp only [if_pos (hls hf label hl)]
  refine ⟨hm, fun ls hls => ?_⟩
  simp only [if_pos (hls hf label hl), hb]
  exact discTrainP_uses hF hk

theorem trainLoopP_uses {o : Nat} (es : List (Image × Str)) {k : c.P α}
    (h1 : ∀ img label (k : c.P α), label ∈ es.map Prod.snd → Uses' m0 fixed F W k → Uses' m0 fixed F W (c.train1P o img label k))
    (hk : Uses' m0 fixed F W k) : Uses' m0 fixed F W (c.trainLoopP o es k) := by
  induction es with
  | nil => exact hk
  | cons e es ih =>
    obtain ⟨img, l⟩ := e
    exact h1 img l _ (by simp) (ih (fun img label k h => h1 img label k (by
      rw [List.map_cons]; exact List.mem_cons_of_mem _ h)))

theorem trainP_uses {o : Nat} {images : List (List Int)} {labels : List Str} {k : c.P α} (ho : F (.opts o))
    (h1 : ∀ img label (k : c.P α), label ∈ labels → Uses' m0 fixed F W k → Uses' m0 fixed F W (c.train1P o img label k))
    (hk : Uses' m0 fixed F W k) : Uses' m0 fixed F W (c.trainP o images labels k) := by
  refine ⟨ho, fun p _ => ?_⟩
  try dsimp only
  cases Wisard.trainChecks ⟨p.1, p.2, []⟩ images labels with
  | error e => trivial
  | ok _ =>
    refine trainLoopP_uses _ (fun img label k h => h1 img label k ?_) hk
    obtain ⟨⟨a, b⟩, he, rfl⟩ := List.mem_map.mp h
    exact (List.of_mem_zip he).2

theorem trainDataLoopP_uses {o : Nat} {ds : DataSet} (bs : List BinInput) {k : c.P α}
    (h1 : ∀ img label (k : c.P α), label ∈ dataLabels ds → Uses' m0 fixed F W k → Uses' m0 fixed F W (c.train1P o img label k))
    (hk : Uses' m0 fixed F W k) : ∀ i : Nat, i + bs.length ≤ ds.data.length → Uses' m0 fixed F W (c.trainDataLoopP o ds bs i k) := by
  induction bs with
  | nil => intro i _; exact hk
  | cons b bs ih =>
    intro i hi
    rw [List.length_cons] at hi
    unfold trainDataLoopP
    cases hl : ds.getLabel i with
    | error e => trivial
    | ok l =>
      refine h1 _ l _ ?_ (ih (i + 1) (by omega))
      exact List.mem_filterMap.mpr ⟨i, List.mem_range.mpr (by omega), by rw [hl]; rfl⟩

theorem trainDataP_uses {o : Nat} {ds : DataSet} {k : c.P α} (ho : F (.opts o))
    (h1 : ∀ img label (k : c.P α), label ∈ dataLabels ds → Uses' m0 fixed F W k → Uses' m0 fixed F W (c.train1P o img label k))
    (hk : Uses' m0 fixed F W k) : Uses' m0 fixed F W (c.trainDataP o ds k) := by
  refine ⟨ho, fun p _ => ?_⟩
  try dsimp only
  cases Wisard.dataChecks ⟨p.1, p.2, []⟩ ds with
  | error e => trivial
  | ok _ => exact trainDataLoopP_uses _ h1 hk 0 (by omega)

theorem leave1P_uses {o : Nat} {img : List Int} {label : Str} {k : c.P α} (hF : ∀ l : Loc, l.place = some (.wis o label) → F l ∧ W l)
    (hm : F (.map o)) (hk : Uses' m0 fixed F W k) : Uses' m0 fixed F W (c.leave1P o img label k) := by
  refine ⟨hm, fun ls _ => ?_⟩
  by_cases h : label ∈ ls
  · simp only [if_pos h]; exact discUntrainP_uses hF hk
  · simp only [if_neg h]; exact hk

theorem leaveMoreP_uses {o : Nat} {images : List (List Int)} {labels : List Str} {k : c.P α}
    (hF : ∀ label ∈ labels, ∀ l : Loc, l.place = some (.wis o label) → F l ∧ W l)
    (hm : F (.map o)) (hk : Uses' m0 fixed F W k) : Uses' m0 fixed F W (c.leaveMoreP o images labels k) := by
  have loop : ∀ es : List (List Int × Str), (∀ e ∈ es, e.2 ∈ labels) → Uses' m0 fixed F W (c.leaveLoopP o es k) := by
    intro es
    induction es with
    | nil => intro _; exact hk
    | cons e es ih =>
      intro he
      obtain ⟨img, l⟩ := e
      exact leave1P_uses (hF l (he _ (List.mem_cons_self))) hm (ih (fun e h => he e (List.mem_cons_of_mem _ h)))
  unfold leaveMoreP
  cases Wisard.checkInputSizes images.length labels.length with
  | error e => trivial
  | ok _ => exact loop _ (fun e he => (List.of_mem_zip (a := e.1) (b := e.2) he).2)

theorem newWisardP_uses {o now : Nat} {A : Int} {opts : WisardOpts} {k : c.P α} (hg : F .gen ∧ W .gen) (ho : F (.opts o) ∧ W (.opts o))
    (hm : F (.map o) ∧ W (.map o)) (hf : ¬ fixed o) (hk : Uses' m0 fixed F W k) : Uses' m0 fixed F W (c.newWisardP o now A opts k) := by
  have h2 : Uses' m0 fixed F W (.write (.opts o) (fun _ => ((A, opts) : Int × WisardOpts)) <| .write (.map o) (fun _ => ([] : List Str)) k : c.P α) :=
    ⟨ho.1, ho.2, fun _ _ h => absurd h hf, hm.1, hm.2, fun _ _ h => absurd h hf, hk⟩
  refine ⟨hg.1, hg.2, fun _ _ => trivial, hg.1, fun s _ => ⟨hg.1, hg.2, fun _ _ => trivial, ?_⟩⟩
  try dsimp only
  cases randint (c.g.rand s).1 0 1000000 with
  | error e => exact h2
  | ok n => exact ⟨hg.1, hg.2, fun _ _ => trivial, h2⟩

theorem newClusP_uses {o now : Nat} {A : Int} {ms : Rat} {t dl : Int} {opts : ClusOpts} {k : c.P α} (hg : F .gen ∧ W .gen)
    (h1 : F (.copts o) ∧ W (.copts o)) (h2 : F (.clusters o) ∧ W (.clusters o)) (h3 : F (.ucluster o) ∧ W (.ucluster o))
    (hk : Uses' m0 fixed F W k) : Uses' m0 fixed F W (c.newClusP o now A ms t dl opts k) := by
  unfold newClusP
  have h4 : Uses' m0 fixed F W (match ClusWisard.create A ms t dl opts with
    | .error e => .done (.error e)
    | .ok _ => .write (.copts o) (fun _ => (((A, ms, t, dl), opts) : (Int × Rat × Int × Int) × ClusOpts)) <|
        .write (.clusters o) (fun _ => ([] : SMap (Option ClusterCfg × List Bool))) <|
          .write (.ucluster o) (fun _ => ((none, []) : Option ClusterCfg × List Bool)) k : c.P α) := by
    cases ClusWisard.create A ms t dl opts with
    | error e => trivial
    | ok _ => exact ⟨h1.1, h1.2, fun _ _ => trivial, h2.1, h2.2, fun _ _ => trivial, h3.1, h3.2, fun _ _ => trivial, hk⟩
  refine ⟨hg.1, hg.2, fun _ _ => trivial, hg.1, fun s _ => ⟨hg.1, hg.2, fun _ _ => trivial, ?_⟩⟩
  try dsimp only
  cases randint (c.g.rand s).1 0 1000000 with
  | error e => exact h4
  | ok n => exact ⟨hg.1, hg.2, fun _ _ => trivial, h4⟩

section
variable {o : Nat} {p : Option Str}

theorem readSlotP_uses {k : Option ClusterCfg × List Bool → c.P α} (hS : F (slotLoc o p)) (hk : ∀ v, Uses' m0 fixed F W (k v)) :
    Uses' m0 fixed F W (c.readSlotP o p k) := by
  cases p with
  | some l => exact ⟨hS, fun _ _ => hk _⟩
  | none => exact ⟨hS, fun _ _ => hk _⟩

theorem writeSlotP_uses {u : Option ClusterCfg × List Bool → Option ClusterCfg × List Bool} {k : c.P α} (hS : F (slotLoc o p) ∧ W (slotLoc o p))
    (hk : Uses' m0 fixed F W k) : Uses' m0 fixed F W (c.writeSlotP o p u k) := by
  cases p with
  | some l => exact ⟨hS.1, hS.2, fun _ _ => trivial, hk⟩
  | none => exact ⟨hS.1, hS.2, fun _ _ => trivial, hk⟩

theorem newClusterDiscP_uses {cf : ClusterCfg} {k : Discriminator → c.P α} (hg : F .gen ∧ W .gen) (hk : ∀ d, Uses' m0 fixed F W (k d)) :
    Uses' m0 fixed F W (c.newClusterDiscP cf k) := by
  refine ⟨hg.1, fun gs _ => ⟨hg.1, hg.2, fun _ _ => trivial, ?_⟩⟩
  cases (Discriminator.setRAMShuffleG c.g gs cf.entrySize cf.addressSize cf.ignoreZero cf.completeAddressing cf.base).1 with
  | error e => trivial
  | ok d => exact hk d

theorem trainNewP_uses {cfg : Option ClusterCfg} {j : Nat} {img : Image} {k : c.P α} (hS : F (slotLoc o p) ∧ W (slotLoc o p))
    (hP : ∀ (l : Loc) j, l.place = some (slotRef o p j) → F l ∧ W l) (hg : F .gen ∧ W .gen) (hk : Uses' m0 fixed F W k) :
    Uses' m0 fixed F W (c.trainNewP o p cfg j img k) := by
  cases cfg with
  | none => trivial
  | some cf =>
    have h1 : Uses' m0 fixed F W (c.touchP (slotLoc o p) <| c.discTrainP (slotRef o p j) img k) :=
      touchP_uses hS.1 (fun _ => hS.2) (discTrainP_uses (fun l hl => hP l j hl) hk)
    show Uses' m0 fixed F W (c.makeDiscP o p cf j _)
    unfold makeDiscP
    by_cases hl : c.lhsFirst = true
    · simp only [if_pos hl]
      exact writeSlotP_uses hS (newClusterDiscP_uses hg (fun d => assignP_uses (fun l hl => hP l j hl) (writeSlotP_uses hS h1)))
    · simp only [if_neg hl]
      exact newClusterDiscP_uses hg (fun d => assignP_uses (fun l hl => hP l j hl) (writeSlotP_uses hS h1))

theorem scanP_uses {cf : ClusterCfg} {img : Image} (hS : F (slotLoc o p) ∧ W (slotLoc o p))
    (hP : ∀ (l : Loc) j, l.place = some (slotRef o p j) → F l ∧ W l) (bs : List Bool) : ∀ (i : Nat) (bv : Rat) (bd : Option Nat) (tr : Bool)
    (k : Option Nat × Bool → c.P α), (∀ r, Uses' m0 fixed F W (k r)) → Uses' m0 fixed F W (c.scanP o p cf img bs i bv bd tr k) := by
  induction bs with
  | nil => intro i bv bd tr k hk; exact hk _
  | cons b bs ih =>
    intro i bv bd tr k hk
    cases b with
    | false => trivial
    | true =>
      unfold scanP
      refine touchP_uses hS.1 (fun _ => hS.2) (discClassifyP_uses (fun l hl => (hP l i hl).1) (fun votes =>
        touchP_uses hS.1 (fun _ => hS.2) ⟨(hP (.count (slotRef o p i)) i rfl).1, fun count _ => ?_⟩))
      dsimp only
      by_cases h : Cluster.getScore c.f votes ≥ Cluster.limit c.f cf count
      · rw [if_pos h]
        exact touchP_uses hS.1 (fun _ => hS.2) (discTrainP_uses (fun l hl => hP l i hl) ⟨hS.1, fun _ _ => ih _ _ _ _ k hk⟩)
      · rw [if_neg h]
        exact ⟨hS.1, fun _ _ => ih _ _ _ _ k hk⟩

theorem clusterTrainP_uses {img : Image} {k : c.P α} (hS : F (slotLoc o p) ∧ W (slotLoc o p))
    (hP : ∀ (l : Loc) j, l.place = some (slotRef o p j) → F l ∧ W l) (hg : F .gen ∧ W .gen) (hk : Uses' m0 fixed F W k) :
    Uses' m0 fixed F W (c.clusterTrainP o p img k) := by
  refine readSlotP_uses hS.1 (fun cl => ?_)
  by_cases h0 : cl.2.length = 0
  · rw [if_pos h0]; exact trainNewP_uses hS hP hg hk
  · rw [if_neg h0]
    cases cl.1 with
    | none => trivial
    | some cf =>
      refine scanP_uses hS hP _ _ _ _ _ _ (fun r => ?_)
      by_cases h1 : r.2 = true
      · rw [if_pos h1]; exact hk
      · rw [if_neg h1]
        by_cases h2 : (cl.2.length : Int) < cf.discriminatorsLimit
        · rw [if_pos h2]; exact trainNewP_uses hS hP hg hk
        · rw [if_neg h2]
          cases r.1 with
          | none => exact hk
          | some i =>
            show Uses' m0 fixed F W (c.trainAtP o p cl.2 i img k)
            unfold trainAtP
            split
            · exact discTrainP_uses (fun l hl => hP l i hl) hk
            · trivial

end

section
variable {o : Nat} (hS : F (.clusters o) ∧ W (.clusters o)) (hc : F (.copts o)) (hP : ∀ (l : Loc) lab j, l.place = some (.clus o lab j) → F l ∧ W l)
  (hg : F .gen ∧ W .gen)
include hS hP hg

theorem clusTrainInP_uses {img : List Int} {l : Str} {k : c.P α} (hk : Uses' m0 fixed F W k) : Uses' m0 fixed F W (c.clusTrainInP o img l k) := by
  have h1 : Uses' m0 fixed F W (c.clusterTrainP o (some l) (.vec img) k) :=
    clusterTrainP_uses (p := some l) hS (fun x j hx => hP x l j hx) hg hk
  refine ⟨hS.1, fun cs _ => ?_⟩
  dsimp only
  cases SMap.find cs l with
  | some _ => exact touchP_uses hS.1 (fun _ => hS.2) h1
  | none => exact ⟨hS.1, hS.2, fun _ _ => trivial, h1⟩

include hc

theorem clusTrain1P_uses {img : List Int} {l : Str} {k : c.P α} (hk : Uses' m0 fixed F W k) : Uses' m0 fixed F W (c.clusTrain1P o img l k) := by
  have h1 : Uses' m0 fixed F W (c.clusTrainInP o img l k) := clusTrainInP_uses hS hP hg hk
  refine ⟨hS.1, fun cs _ => ?_⟩
  dsimp only
  cases SMap.find cs l with
  | some _ => exact h1
  | none => exact ⟨hc, fun _ _ => ⟨hS.1, hS.2, fun _ _ => trivial, h1⟩⟩

theorem clusTrainP_uses {images : List (List Int)} {labels : List Str} {k : c.P α} (hk : Uses' m0 fixed F W k) :
    Uses' m0 fixed F W (c.clusTrainP o images labels k) := by
  have loop : ∀ es : List (List Int × Str), Uses' m0 fixed F W (c.clusTrainLoopP o es k) := by
    intro es
    induction es with
    | nil => exact hk
    | cons e es ih => exact clusTrain1P_uses hS hc hP hg ih
  refine ⟨hc, fun q _ => ?_⟩
  dsimp only
  cases (members q).trainChecks images labels with
  | error e => trivial
  | ok _ => exact loop _

theorem ownLoopP_uses {imgs : List (List Int)} {k : c.P α} (hk : Uses' m0 fixed F W k) : Uses' m0 fixed F W (c.ownLoopP o imgs k) := by
  induction imgs with
  | nil => exact hk
  | cons img imgs ih =>
    unfold ownLoopP clusTrainOwnP
    exact clusClassify1P_uses hS.1 (fun _ => hS.2) hc (fun x l j hx => (hP x l j hx).1) (fun cs => clusTrainInP_uses hS hP hg ih)

theorem semiLoopP_uses {labels : LabelMap} (imgs : List (List Int)) : ∀ (i : Nat) (ll : List Int) (j : Nat) (k : List Int → c.P α),
    (∀ v, Uses' m0 fixed F W (k v)) → Uses' m0 fixed F W (c.semiLoopP o labels imgs i ll j k) := by
  induction imgs with
  | nil => intro i ll j k hk; exact hk _
  | cons img imgs ih =>
    intro i ll j k hk
    unfold semiLoopP
    cases labels.find i with
    | none =>
      dsimp only
      cases ClusWisard.noteLabelless ll j i with
      | error e => trivial
      | ok ll' => exact ih _ _ _ k hk
    | some l => exact clusTrain1P_uses hS hc hP hg (ih _ _ _ k hk)

theorem semiP_uses {images : List (List Int)} {labels : LabelMap} {k : c.P α} (hk : Uses' m0 fixed F W k) :
    Uses' m0 fixed F W (c.semiP o images labels k) := by
  refine ⟨hc, fun q _ => ?_⟩
  dsimp only
  cases (members q).semiChecks images labels with
  | error e => trivial
  | ok _ =>
    refine semiLoopP_uses hS hc hP hg _ _ _ _ _ (fun ll => ?_)
    by_cases h : ll.length = images.length
    · rw [if_pos h]; trivial
    · rw [if_neg h]; exact ownLoopP_uses hS hc hP hg hk

end

theorem unsupP_uses {o : Nat} {images : List (List Int)} {k : c.P α} (hl : F (.clusters o)) (hc : F (.copts o)) (hS : F (.ucluster o) ∧ W (.ucluster o))
    (hP : ∀ (l : Loc) j, l.place = some (.unsup o j) → F l ∧ W l) (hg : F .gen ∧ W .gen) (hk : Uses' m0 fixed F W k) :
    Uses' m0 fixed F W (c.unsupP o images k) := by
  have loop : ∀ imgs : List (List Int), Uses' m0 fixed F W (c.unsupLoopP o imgs k) := by
    intro imgs
    induction imgs with
    | nil => exact hk
    | cons img imgs ih => exact clusterTrainP_uses (p := none) hS (fun x j hx => hP x j hx) hg ih
  refine ⟨hl, fun cs _ => ?_⟩
  dsimp only
  by_cases h : List.length cs = 0
  · rw [if_pos h]
    cases images with
    | nil => trivial
    | cons i0 images => exact ⟨hc, fun _ _ => ⟨hS.1, hS.2, fun _ _ => trivial, loop _⟩⟩
  · rw [if_neg h]; exact loop _

end Impl

/-- The model that a place belongs to. -/
def Ref.model : Ref → Model
  | .own o => .disc o
  | .wis o _ => .wis o
  | .clus o _ _ | .unsup o _ => .clus o

/-- The model that a location belongs to. -/
def Loc.model : Loc → Option Model
  | .map o | .opts o => some (.wis o)
  | .clusters o | .copts o | .ucluster o => some (.clus o)
  | .disc r | .count r | .ram r _ => some r.model
  | .gen => none

theorem Loc.model_place {l : Loc} {r : Ref} (h : l.place = some r) : l.model = some r.model := by
  cases l <;> first | (cases h; done) | (injection h with h; subst h; rfl)

/-- The call only looks classes up, in a Wisard that is not made anew. -/
def TrainsKnown (c : Impl) (W : World c.g) (fixed : Nat → Prop) (x : Call) : Prop :=
  LooksUp c W x ∧ ∀ o ls, Changes x = some (o, ls) → fixed o

/-- The unsupervised half of a ClusWisard. -/
def Loc.Unsup : Loc → Prop
  | .ucluster _ | .disc (.unsup _ _) | .count (.unsup _ _) | .ram (.unsup _ _) _ => True
  | _ => False

/-- The part of its model that a call uses. -/
def Call.touches : Call → Loc → Prop
  | .clusClassify _ _, l | .clusTrain _ _ _, l | .clusSemi _ _ _, l | .clusMental _ _ _, l => ¬ l.Unsup
  | .unsupClassify _ _, l => l.Unsup ∨ ∃ o, l = .copts o
  | _, _ => True

/-- The part of its model that a call may change. -/
def Call.alters : Call → Loc → Prop
  | .clusClassify _ _, l | .clusTrain _ _ _, l | .clusSemi _ _ _, l | .clusMental _ _ _, l => ¬ l.Unsup ∧ ∀ o, l ≠ .copts o
  | .unsupClassify _ _, l | .clusUnsup _ _, l => l.Unsup
  | _, _ => True

theorem Call.alters_touches {x : Call} {l : Loc} (h : x.alters l) : x.touches l := by
  cases x <;> first | exact h.1 | exact trivial | exact .inl h

theorem Loc.unsup_place {l : Loc} {o j : Nat} (h : l.place = some (.unsup o j)) : l.Unsup := by
  cases l <;> first | (cases h; done) | (injection h with h; subst h; trivial)

theorem Loc.not_unsup_place {l : Loc} {o j : Nat} {k : Str} (h : l.place = some (.clus o k j)) : ¬ l.Unsup ∧ ∀ o, l ≠ .copts o := by
  cases l <;> first | (cases h; done) | (injection h with h; subst h; exact ⟨(fun h => h), fun _ e => by cases e⟩)

/-- The locations a call uses. -/
def Call.uses (c : Impl) (W : World c.g) (fixed : Nat → Prop) (x : Call) (l : Loc) : Prop :=
  (TrainsKnown c W fixed x ∧ ∃ o ls, Changes x = some (o, ls) ∧ (l = .map o ∨ l = .opts o ∨ ∃ lab ∈ ls, l.place = some (.wis o lab))) ∨
  (¬ TrainsKnown c W fixed x ∧ ((l.model = some x.model ∧ x.touches l) ∨ (Draws W x ∧ l = .gen)))

/-- The locations a call writes. -/
def Call.writes (c : Impl) (W : World c.g) (fixed : Nat → Prop) (x : Call) (l : Loc) : Prop :=
  (TrainsKnown c W fixed x ∧ ∃ o ls, Changes x = some (o, ls) ∧ ∃ lab ∈ ls, l.place = some (.wis o lab)) ∨
  (¬ TrainsKnown c W fixed x ∧ ¬ Asks c x ∧ ((l.model = some x.model ∧ x.alters l) ∨ (Draws W x ∧ l = .gen)))

theorem changes_model {x : Call} {o : Nat} {ls : List Str} (h : Changes x = some (o, ls)) : x.model = .wis o := by
  cases x <;> first | (cases h; done) | (injection h with h; injection h with h _; subst h; rfl)

theorem changes_not_asks {c : Impl} {x : Call} {o : Nat} {ls : List Str} (h : Changes x = some (o, ls)) : ¬ Asks c x := by
  cases x <;> first | (cases h; done) | exact fun k => k

theorem changes_part {x : Call} {o : Nat} {ls : List Str} (h : Changes x = some (o, ls)) (l : Loc) : x.touches l ∧ x.alters l := by
  cases x <;> first | (cases h; done) | exact ⟨trivial, trivial⟩

theorem changes_unique {x : Call} {o o' : Nat} {ls ls' : List Str} (h : Changes x = some (o, ls)) (h' : Changes x = some (o', ls')) : o = o' ∧ ls = ls' := by
  rw [h] at h'
  injection h' with h'
  injection h' with h1 h2
  exact ⟨h1, h2⟩

theorem known_iff {g : CRand} (m : Mem g) (o : Nat) (l : Str) : Known (world m) o l ↔ l ∈ m (.map o) := by
  unfold Known
  show (∃ d, (m.wisard o).discriminators.find l = some d) ↔ _
  rw [Mem.find_wisard]
  by_cases h : l ∈ m (.map o)
  · rw [if_pos h]; exact ⟨fun _ => h, fun _ => ⟨_, rfl⟩⟩
  · rw [if_neg h]; exact ⟨fun ⟨_, e⟩ => (by cases e), fun h' => absurd h' h⟩

theorem Call.writes_uses {c : Impl} {W : World c.g} {fixed : Nat → Prop} {x : Call} {l : Loc} (h : x.writes c W fixed l) : x.uses c W fixed l := by
  rcases h with ⟨h1, o, ls, h2, h3⟩ | ⟨h1, _, h2⟩
  · exact .inl ⟨h1, o, ls, h2, .inr (.inr h3)⟩
  · exact .inr ⟨h1, h2.imp (fun h => ⟨h.1, alters_touches h.2⟩) (fun h => h)⟩

/-- The part of a call that is not about classes of a Wisard. -/
theorem Call.writes_part {c : Impl} {W : World c.g} {fixed : Nat → Prop} {x : Call} {l : Loc} (hn : Changes x = none) (h : x.writes c W fixed l)
    (hg : l ≠ .gen) : ¬ Asks c x ∧ x.alters l := by
  rcases h with ⟨_, _, _, h, _⟩ | ⟨_, h1, h2 | h2⟩
  · rw [hn] at h; cases h
  · exact ⟨h1, h2.2⟩
  · exact absurd h2.2 hg

theorem Call.uses_part {c : Impl} {W : World c.g} {fixed : Nat → Prop} {x : Call} {l : Loc} (hn : Changes x = none) (h : x.uses c W fixed l)
    (hg : l ≠ .gen) : x.touches l := by
  rcases h with ⟨_, _, _, h, _⟩ | ⟨_, h2 | h2⟩
  · rw [hn] at h; cases h
  · exact h2.2
  · exact absurd h2.2 hg

theorem labelled_part {o : Nat} {x : Call} (h : Labelled o x) : Changes x = none ∧ ∀ l : Loc,
    (x.touches l → ¬ l.Unsup) ∧ (x.alters l → ¬ l.Unsup ∧ ∀ o, l ≠ .copts o) := by
  cases x <;> first | exact ⟨rfl, fun _ => ⟨fun h => h, fun h => h⟩⟩ | (cases h; done)

/-- Independent calls do not write what the other uses. -/
theorem Call.apart {c : Impl} {W : World c.g} {fixed : Nat → Prop} {x y : Call} (h : Independent c W x y)
    (hf : ClassesApart c W x y → ∀ o, x.model = .wis o → fixed o) {l : Loc} (hw : x.writes c W fixed l) : ¬ y.uses c W fixed l := by
  intro hu
  obtain ⟨h1, h2⟩ := h
  -- the model of what a call uses
  have mod : ∀ {z : Call}, z.uses c W fixed l → l.model = some z.model ∨ (Draws W z ∧ ¬ TrainsKnown c W fixed z ∧ l = .gen) := by
    rintro z (⟨k1, o, ls, k2, k3⟩ | ⟨k1, k2⟩)
    · rw [changes_model k2]
      rcases k3 with rfl | rfl | ⟨lab, _, k3⟩
      · exact .inl rfl
      · exact .inl rfl
      · exact .inl (Loc.model_place k3)
    · rcases k2 with k2 | k2
      · exact .inl k2.1
      · exact .inr ⟨k2.1, k1, k2.2⟩
  rcases mod hu with hy | ⟨hy, _, rfl⟩
  · rcases mod (writes_uses hw) with hx | ⟨_, _, rfl⟩
    · have e : x.model = y.model := by rw [hx] at hy; injection hy
      have hng : l ≠ .gen := by rintro rfl; cases hx
      rcases h1 with h1 | h1 | h1 | ⟨o, images, ⟨h1, rfl⟩ | ⟨hb, rfl, images', rfl⟩⟩ | ⟨o, images, ⟨h1, rfl⟩ | ⟨hb, rfl, images', rfl⟩⟩
      · exact h1 e
      · rcases hw with ⟨_, o, ls, k, _⟩ | ⟨_, k, _⟩
        · exact changes_not_asks k h1.1
        · exact k h1.1
      · have hfx := hf h1
        obtain ⟨o, ls, ls', c1, c2, u1, u2, hd⟩ := h1
        have hfo : fixed o := hfx o (changes_model c1)
        have tx : TrainsKnown c W fixed x := ⟨u1, fun o' _ e => by rw [← (changes_unique c1 e).1]; exact hfo⟩
        have ty : TrainsKnown c W fixed y := ⟨u2, fun o' _ e => by rw [← (changes_unique c2 e).1]; exact hfo⟩
        rcases hw with ⟨_, o1, l1, d1, lab, hlab, hp⟩ | ⟨hw, _⟩
        · rcases hu with ⟨_, o2, l2, d2, rfl | rfl | ⟨lab', hlab', hp'⟩⟩ | ⟨hu, _⟩
          · cases hp
          · cases hp
          · rw [hp] at hp'
            injection hp' with hp'
            injection hp' with _ hp'
            subst hp'
            rw [← (changes_unique c1 d1).2] at hlab
            rw [← (changes_unique c2 d2).2] at hlab'
            exact hd lab hlab hlab'
          · exact hu ty
        · exact hw tx
      · obtain ⟨hn, hl⟩ := labelled_part h1
        have a := (hl l).2 (writes_part hn hw hng).2
        rcases uses_part (x := .unsupClassify o images) rfl hu hng with b | ⟨o', b⟩
        · exact a.1 b
        · exact a.2 o' b
      · exact (writes_part (x := .clusClassify o images') rfl hw hng).1 hb
      · obtain ⟨hn, hl⟩ := labelled_part h1
        exact (hl l).1 (uses_part hn hu hng) (writes_part (x := .unsupClassify o images) rfl hw hng).2
      · exact uses_part (x := .clusClassify o images') rfl hu hng (writes_part (x := .clusUnsup o images) rfl hw hng).2
    · cases hy
  · rcases mod (writes_uses hw) with hx | ⟨hx, _, _⟩
    · cases hx
    · exact h2 ⟨hx, hy⟩

namespace Impl
variable {c : Impl} {m0 : Mem c.g} {fixed : Nat → Prop}

/-- A call uses these locations: alone it draws only if it says so, unless the Wisard is made anew. -/
theorem callP_uses {F W : Loc → Prop} (x : Call) (hF : ∀ l, x.uses c (world m0) fixed l → F l) (hW : ∀ l, x.writes c (world m0) fixed l → W l)
    (hfix : match x with
      | .newWisard o _ _ _ => ¬ fixed o
      | .train o _ _ => fixed o ∨ (F .gen ∧ W .gen)
      | .trainDataSet o _ => fixed o ∨ (F .gen ∧ W .gen)
      | _ => True) : Uses' m0 fixed F W (c.callP x) := by
  have nk : ∀ {x : Call}, Changes x = none → ¬ TrainsKnown c (world m0) fixed x := by
    intro x h hk
    have := hk.1
    cases x <;> first | (cases this; done) | (cases h; done)
  -- training of classes with these labels
  have trains : ∀ {o : Nat} {labels : List Str}, Changes x = some (o, labels) →
      (TrainsKnown c (world m0) fixed x → c.bracketWrites = false ∧ ∀ l ∈ labels, Known (world m0) o l) →
      (Draws (world m0) x ↔ ∃ l ∈ labels, ¬ Known (world m0) o l ∧ ((world m0).wis o).opts.mapping.find l = none ∧ ((world m0).wis o).opts.indexes = []) →
      (fixed o ∨ (F .gen ∧ W .gen)) →
      F (.opts o) ∧ ∀ img label (k : c.P Reply), label ∈ labels → Uses' m0 fixed F W k → Uses' m0 fixed F W (c.train1P o img label k) := by
    intro o labels hc hkn hdr hfx
    by_cases hk : TrainsKnown c (world m0) fixed x
    · have hf : fixed o := hk.2 o labels hc
      obtain ⟨hb, hl'⟩ := hkn hk
      refine ⟨hF _ (.inl ⟨hk, o, labels, hc, .inr (.inl rfl)⟩), fun img label k hl hu => ?_⟩
      exact train1P_uses_known (fun l hp => ⟨hF l (.inl ⟨hk, o, labels, hc, .inr (.inr ⟨label, hl, hp⟩)⟩), hW l (.inl ⟨hk, o, labels, hc, label, hl, hp⟩)⟩)
        (hF _ (.inl ⟨hk, o, labels, hc, .inl rfl⟩)) hb hf ((known_iff m0 o label).mp (hl' label hl)) hu
    · have g : ∀ l : Loc, l.model = some (.wis o) → F l ∧ W l := fun l hl => by
        rw [← changes_model hc] at hl
        exact ⟨hF l (.inr ⟨hk, .inl ⟨hl, (changes_part hc l).1⟩⟩), hW l (.inr ⟨hk, changes_not_asks hc, .inl ⟨hl, (changes_part hc l).2⟩⟩)⟩
      refine ⟨(g _ rfl).1, fun img label k hl hu => ?_⟩
      refine train1P_uses (fun l hp => g l (Loc.model_place hp)) (g _ rfl) (g _ rfl).1 ?_ hu
      rcases hfx with hf | hg
      · by_cases hd : Draws (world m0) x
        · exact .inl ⟨hF _ (.inr ⟨hk, .inr ⟨hd, rfl⟩⟩), hW _ (.inr ⟨hk, changes_not_asks hc, .inr ⟨hd, rfl⟩⟩)⟩
        · refine .inr ⟨hf, ?_⟩
          by_cases h1 : label ∈ m0 (.map o)
          · exact .inl h1
          · by_cases h2 : (m0 (.opts o)).2.mapping.find label = none
            · refine .inr (.inr (fun h3 => hd (hdr.mpr ⟨label, hl, (fun h => h1 ((known_iff m0 o label).mp h)), h2, List.eq_nil_of_length_eq_zero h3⟩)))
            · exact .inr (.inl h2)
      · exact .inl hg
  -- unlearning of classes with these labels
  have leaves : ∀ {o : Nat} {labels : List Str}, Changes x = some (o, labels) →
      F (.map o) ∧ ∀ label ∈ labels, ∀ l : Loc, l.place = some (.wis o label) → F l ∧ W l := by
    intro o labels hc
    by_cases hk : TrainsKnown c (world m0) fixed x
    · exact ⟨hF _ (.inl ⟨hk, o, labels, hc, .inl rfl⟩), fun label hl l hp =>
        ⟨hF l (.inl ⟨hk, o, labels, hc, .inr (.inr ⟨label, hl, hp⟩)⟩), hW l (.inl ⟨hk, o, labels, hc, label, hl, hp⟩)⟩⟩
    · have g : ∀ l : Loc, l.model = some (.wis o) → F l ∧ W l := fun l hl => by
        rw [← changes_model hc] at hl
        exact ⟨hF l (.inr ⟨hk, .inl ⟨hl, (changes_part hc l).1⟩⟩), hW l (.inr ⟨hk, changes_not_asks hc, .inl ⟨hl, (changes_part hc l).2⟩⟩)⟩
      exact ⟨(g _ rfl).1, fun label _ l hp => g l (Loc.model_place hp)⟩
  cases x with
  | discTrain o img =>
    exact discTrainP_uses (fun l hl => ⟨hF l (.inr ⟨nk rfl, .inl ⟨Loc.model_place hl, trivial⟩⟩),
      hW l (.inr ⟨nk rfl, (fun h => h), .inl ⟨Loc.model_place hl, trivial⟩⟩)⟩) trivial
  | discClassify o img =>
    exact discClassifyP_uses (fun l hl => hF l (.inr ⟨nk rfl, .inl ⟨Loc.model_place hl, trivial⟩⟩)) (fun _ => trivial)
  | discMental o it =>
    exact discMentalP_uses (fun l hl => hF l (.inr ⟨nk rfl, .inl ⟨Loc.model_place hl, trivial⟩⟩)) (fun _ => trivial)
  | newWisard o now A opts =>
    have n : ¬ TrainsKnown c (world m0) fixed (.newWisard o now A opts) := nk rfl
    have g : ∀ l : Loc, l.model = some (.wis o) ∨ l = .gen → F l ∧ W l := fun l hl => by
      rcases hl with hl | hl
      · exact ⟨hF l (.inr ⟨n, .inl ⟨hl, trivial⟩⟩), hW l (.inr ⟨n, (fun h => h), .inl ⟨hl, trivial⟩⟩)⟩
      · exact ⟨hF l (.inr ⟨n, .inr ⟨trivial, hl⟩⟩), hW l (.inr ⟨n, (fun h => h), .inr ⟨trivial, hl⟩⟩)⟩
    exact newWisardP_uses (g _ (.inr rfl)) (g _ (.inl rfl)) (g _ (.inl rfl)) hfix trivial
  | discUntrain o img =>
    exact discUntrainP_uses (fun l hl => ⟨hF l (.inr ⟨nk rfl, .inl ⟨Loc.model_place hl, trivial⟩⟩),
      hW l (.inr ⟨nk rfl, (fun h => h), .inl ⟨Loc.model_place hl, trivial⟩⟩)⟩) trivial
  | train o images labels =>
    obtain ⟨h1, h2⟩ := trains (o := o) (labels := labels) rfl (fun hk => hk.1) Iff.rfl hfix
    exact trainP_uses h1 h2 trivial
  | trainDataSet o ds =>
    obtain ⟨h1, h2⟩ := trains (o := o) (labels := dataLabels ds) rfl (fun hk => hk.1) Iff.rfl hfix
    exact trainDataP_uses h1 h2 trivial
  | leaveOneOut o img l =>
    obtain ⟨h1, h2⟩ := leaves (o := o) (labels := [l]) rfl
    exact leave1P_uses (h2 l (List.mem_singleton.mpr rfl)) h1 trivial
  | leaveMoreOut o images labels =>
    obtain ⟨h1, h2⟩ := leaves (o := o) (labels := labels) rfl
    exact leaveMoreP_uses h2 h1 trivial
  | classify o images =>
    have g : ∀ l : Loc, l.model = some (.wis o) → F l := fun l hl => hF l (.inr ⟨nk rfl, .inl ⟨hl, trivial⟩⟩)
    exact classifyP_uses (fun l _ hl => g l (Loc.model_place hl)) (g _ rfl) (g _ rfl) _ _ (fun _ => trivial)
  | mentalImages o it =>
    have g : ∀ l : Loc, l.model = some (.wis o) → F l := fun l hl => hF l (.inr ⟨nk rfl, .inl ⟨hl, trivial⟩⟩)
    exact ⟨g _ rfl, fun ls _ => mentalsP_uses (fun l _ hl => g l (Loc.model_place hl)) (g _ rfl) _ _ (fun _ => trivial)⟩
  | clusClassify o images =>
    have n : ¬ TrainsKnown c (world m0) fixed (.clusClassify o images) := nk rfl
    have g : ∀ l : Loc, l.model = some (.clus o) → ¬ l.Unsup → F l := fun l hl hu => hF l (.inr ⟨n, .inl ⟨hl, hu⟩⟩)
    exact clusClassifyP_uses (g _ rfl (fun h => h)) (fun hb => hW _ (.inr ⟨n, (fun h => by rw [show c.bracketWrites = false from h] at hb; cases hb),
      .inl ⟨rfl, (fun h => h), fun _ e => by cases e⟩⟩)) (g _ rfl (fun h => h))
      (fun l _ _ hl => g l (Loc.model_place hl) (Loc.not_unsup_place hl).1) _ _ (fun _ => trivial)
  | unsupClassify o images =>
    have n : ¬ TrainsKnown c (world m0) fixed (.unsupClassify o images) := nk rfl
    have g : ∀ l : Loc, l.model = some (.clus o) → (l.Unsup ∨ ∃ o, l = .copts o) → F l := fun l hl hu => hF l (.inr ⟨n, .inl ⟨hl, hu⟩⟩)
    exact unsupClassifyP_uses (g _ rfl (.inl trivial)) (fun hb => hW _ (.inr ⟨n, (fun h => by rw [show c.bracketWrites = false from h] at hb; cases hb),
      .inl ⟨rfl, trivial⟩⟩)) (g _ rfl (.inr ⟨o, rfl⟩))
      (fun l _ hl => g l (Loc.model_place hl) (.inl (Loc.unsup_place hl))) _ _ (fun _ => trivial)
  | clusMental o l it =>
    have n : ¬ TrainsKnown c (world m0) fixed (.clusMental o l it) := nk rfl
    have g : ∀ l : Loc, l.model = some (.clus o) → ¬ l.Unsup → F l := fun l hl hu => hF l (.inr ⟨n, .inl ⟨hl, hu⟩⟩)
    exact clusMentalP_uses (g _ rfl (fun h => h)) (hW _ (.inr ⟨n, (fun h => h), .inl ⟨rfl, (fun h => h), fun _ e => by cases e⟩⟩))
      (fun l _ _ hl => g l (Loc.model_place hl) (Loc.not_unsup_place hl).1) (fun _ => trivial)
  | newClus o now A ms t dl opts =>
    have n : ¬ TrainsKnown c (world m0) fixed (.newClus o now A ms t dl opts) := nk rfl
    have g : ∀ l : Loc, l.model = some (.clus o) ∨ l = .gen → F l ∧ W l := fun l hl => by
      rcases hl with hl | hl
      · exact ⟨hF l (.inr ⟨n, .inl ⟨hl, trivial⟩⟩), hW l (.inr ⟨n, (fun h => h), .inl ⟨hl, trivial⟩⟩)⟩
      · exact ⟨hF l (.inr ⟨n, .inr ⟨trivial, hl⟩⟩), hW l (.inr ⟨n, (fun h => h), .inr ⟨trivial, hl⟩⟩)⟩
    exact newClusP_uses (g _ (.inr rfl)) (g _ (.inl rfl)) (g _ (.inl rfl)) (g _ (.inl rfl)) trivial
  | clusTrain o images labels =>
    have n : ¬ TrainsKnown c (world m0) fixed (.clusTrain o images labels) := nk rfl
    have g : ∀ l : Loc, l.model = some (.clus o) → (¬ l.Unsup ∧ ∀ o, l ≠ .copts o) → F l ∧ W l := fun l hl hu =>
      ⟨hF l (.inr ⟨n, .inl ⟨hl, hu.1⟩⟩), hW l (.inr ⟨n, (fun h => h), .inl ⟨hl, hu⟩⟩)⟩
    exact clusTrainP_uses (g _ rfl ⟨(fun h => h), fun _ e => by cases e⟩) (hF _ (.inr ⟨n, .inl ⟨rfl, fun h => h⟩⟩))
      (fun l _ _ hl => g l (Loc.model_place hl) (Loc.not_unsup_place hl))
      ⟨hF _ (.inr ⟨n, .inr ⟨trivial, rfl⟩⟩), hW _ (.inr ⟨n, (fun h => h), .inr ⟨trivial, rfl⟩⟩)⟩ trivial
  | clusSemi o images labels =>
    have n : ¬ TrainsKnown c (world m0) fixed (.clusSemi o images labels) := nk rfl
    have g : ∀ l : Loc, l.model = some (.clus o) → (¬ l.Unsup ∧ ∀ o, l ≠ .copts o) → F l ∧ W l := fun l hl hu =>
      ⟨hF l (.inr ⟨n, .inl ⟨hl, hu.1⟩⟩), hW l (.inr ⟨n, (fun h => h), .inl ⟨hl, hu⟩⟩)⟩
    exact semiP_uses (g _ rfl ⟨(fun h => h), fun _ e => by cases e⟩) (hF _ (.inr ⟨n, .inl ⟨rfl, fun h => h⟩⟩))
      (fun l _ _ hl => g l (Loc.model_place hl) (Loc.not_unsup_place hl))
      ⟨hF _ (.inr ⟨n, .inr ⟨trivial, rfl⟩⟩), hW _ (.inr ⟨n, (fun h => h), .inr ⟨trivial, rfl⟩⟩)⟩ trivial
  | clusUnsup o images =>
    have n : ¬ TrainsKnown c (world m0) fixed (.clusUnsup o images) := nk rfl
    have g : ∀ l : Loc, l.model = some (.clus o) → l.Unsup → F l ∧ W l := fun l hl hu =>
      ⟨hF l (.inr ⟨n, .inl ⟨hl, trivial⟩⟩), hW l (.inr ⟨n, (fun h => h), .inl ⟨hl, hu⟩⟩)⟩
    exact unsupP_uses (hF _ (.inr ⟨n, .inl ⟨rfl, trivial⟩⟩)) (hF _ (.inr ⟨n, .inl ⟨rfl, trivial⟩⟩)) (g _ rfl trivial)
      (fun l _ hl => g l (Loc.model_place hl) (Loc.unsup_place hl))
      ⟨hF _ (.inr ⟨n, .inr ⟨trivial, rfl⟩⟩), hW _ (.inr ⟨n, (fun h => h), .inr ⟨trivial, rfl⟩⟩)⟩ trivial

theorem scriptP_uses {F W : Loc → Prop} (calls : List Call) (h : ∀ x ∈ calls, Uses' m0 fixed F W (c.callP x)) :
    Uses' m0 fixed F W (c.scriptP calls) := by
  induction calls with
  | nil => trivial
  | cons x xs ih =>
    exact Prog.Uses.bind (h x (List.mem_cons_self)) (fun r => Prog.Uses.bind (ih (fun y hy => h y (List.mem_cons_of_mem _ hy))) (fun _ => trivial))

end Impl
end Wis
