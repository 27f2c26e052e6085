import Verif.Lemmas.ThreadsUses
/-!
# Every write of a call, done twice, is the write done once; every world has a memory
-/

namespace Wis
open Spec

theorem insertKey_idem (k : Str) (ls : List Str) : insertKey k (insertKey k ls) = insertKey k ls := by
  induction ls with
  | nil =>
    show insertKey k [k] = [k]
    unfold insertKey
    rw [if_pos rfl]
  | cons l ls ih =>
    by_cases h : l = k
    · have e : insertKey k (l :: ls) = l :: ls := by unfold insertKey; rw [if_pos h]
      rw [e, e]
    · by_cases h' : Str.lt k l = true
      · have e : insertKey k (l :: ls) = k :: l :: ls := by unfold insertKey; rw [if_neg h, if_pos h']
        rw [e]
        unfold insertKey
        rw [if_pos rfl]
      · have e : ∀ ls, insertKey k (l :: ls) = l :: insertKey k ls := fun ls => by
          show (if l = k then l :: ls else if Str.lt k l then k :: l :: ls else l :: insertKey k ls) = _
          rw [if_neg h, if_neg h']
        rw [e, e, ih]

theorem ramT_set_idem (pos : RamT) (i : Addr) (v : Int) : RamT.set (RamT.set pos i v) i v = RamT.set pos i v := by
  induction pos with
  | nil => simp [RamT.set]
  | cons e pos ih =>
    obtain ⟨k, x⟩ := e
    by_cases h : k = i
    · simp [RamT.set, h]
    · simp [RamT.set, h, ih]

namespace Impl
variable {c : Impl} {α : Type}

theorem voteP_idem {r : Ref} {img : Image} {i : Nat} {w : Wire} {k : Int → c.P α} (hk : ∀ v, (k v).Idem) : (c.voteP r img i w k).Idem := by
  unfold voteP
  cases (w.ram []).getIndex img with
  | error e => trivial
  | ok index =>
    simp only
    by_cases h : (w.ignoreZero && decide (index = 0)) = true
    · rw [if_pos h]; exact hk _
    · rw [if_neg h]; exact fun v => hk _

theorem votesP_idem {r : Ref} {img : Image} (ws : List Wire) : ∀ (i : Nat) (k : List Int → c.P α),
    (∀ v, (k v).Idem) → (c.votesP r img ws i k).Idem := by
  induction ws with
  | nil => intro i k hk; exact hk _
  | cons w ws ih => intro i k hk; exact voteP_idem (fun v => ih (i + 1) _ (fun vs => hk _))

theorem discClassifyP_idem {r : Ref} {img : Image} {k : List Int → c.P α} (hk : ∀ v, (k v).Idem) : (c.discClassifyP r img k).Idem := by
  intro d
  dsimp only
  cases checkEntry d.1 img with
  | error e => trivial
  | ok _ => exact votesP_idem _ 0 k hk

theorem mentalLoopP_idem {r : Ref} {it : IterOrder} (ws : List Wire) : ∀ (i : Nat) (v : List Int) (k : List Int → c.P α),
    (∀ v, (k v).Idem) → (c.mentalLoopP r it ws i v k).Idem := by
  induction ws with
  | nil => intro i v k hk; exact hk _
  | cons w ws ih =>
    intro i v k hk pos
    dsimp only
    cases (w.ram pos).getMentalImage it with
    | error e => trivial
    | ok piece =>
      dsimp only
      cases Discriminator.addPieces piece v with
      | error e => trivial
      | ok v' => exact ih (i + 1) v' k hk

theorem discMentalP_idem {r : Ref} {it : IterOrder} {k : List Int → c.P α} (hk : ∀ v, (k v).Idem) : (c.discMentalP r it k).Idem := by
  intro d
  by_cases h : d.1 < 0
  · simp only [if_pos h]; trivial
  · simp only [if_neg h]; exact mentalLoopP_idem _ 0 _ k hk

theorem allvotesP_idem {o : Nat} {img : Image} (ls : List Str) : ∀ (k : Votes → c.P α), (∀ v, (k v).Idem) → (c.allvotesP o img ls k).Idem := by
  induction ls with
  | nil => intro k hk; exact hk _
  | cons l ls ih => intro k hk; exact discClassifyP_idem (fun v _ => ih _ (fun vs => hk _))

theorem classifyP_idem {o : Nat} (imgs : List Image) : ∀ (k : List Str → c.P α), (∀ v, (k v).Idem) → (c.classifyP o imgs k).Idem := by
  induction imgs with
  | nil => intro k hk; exact hk _
  | cons img imgs ih =>
    intro k hk ls
    refine allvotesP_idem _ _ (fun votes p => ?_)
    dsimp only
    cases Bleaching.make votes p.2.bleachingActivated p.2.searchBestConfidence p.2.confidence with
    | error e => trivial
    | ok x => exact ih _ (fun ls => hk _)

theorem mentalsP_idem {o : Nat} {it : IterOrder} (ls : List Str) : ∀ (k : SMap (List Int) → c.P α), (∀ v, (k v).Idem) →
    (c.mentalsP o it ls k).Idem := by
  induction ls with
  | nil => intro k hk; exact hk _
  | cons l ls ih => intro k hk; exact discMentalP_idem (fun v _ => ih _ (fun vs => hk _))

theorem touchP_idem {loc : Loc} {k : c.P α} (hk : k.Idem) : (c.touchP loc k).Idem := by
  unfold touchP
  by_cases hb : c.bracketWrites = true
  · rw [if_pos hb]; exact ⟨fun _ => rfl, hk⟩
  · rw [if_neg hb]; exact fun _ => hk

theorem clusterVotesP_idem {loc : Loc} {ref : Nat → Ref} {img : Image} (bs : List Bool) : ∀ (j : Nat) (k : List (List Int) → c.P α),
    (∀ v, (k v).Idem) → (c.clusterVotesP loc ref img bs j k).Idem := by
  induction bs with
  | nil => intro j k hk; exact hk _
  | cons b bs ih =>
    intro j k hk
    cases b with
    | false => trivial
    | true => exact touchP_idem (discClassifyP_idem (fun v _ => ih (j + 1) _ (fun vs => hk _)))

theorem clusVotesP_idem {o : Nat} {img : List Int} (cs : List (Str × Option ClusterCfg × List Bool)) : ∀ (v : Votes) (k : Votes → c.P α),
    (∀ v, (k v).Idem) → (c.clusVotesP o img cs v k).Idem := by
  induction cs with
  | nil => intro v k hk; exact hk _
  | cons e cs ih =>
    intro v k hk
    obtain ⟨l, cfg, bs⟩ := e
    exact clusterVotesP_idem bs 0 _ (fun vs _ => ih _ k hk)

theorem clusClassify1P_idem {o : Nat} {img : List Int} {best : ClusOpts → Bool} {k : Scores → c.P α} (hk : ∀ v, (k v).Idem) :
    (c.clusClassify1P o img best k).Idem := by
  intro cs
  refine clusVotesP_idem _ _ _ (fun votes p => ?_)
  dsimp only
  cases Bleaching.make votes p.2.bleachingActivated (best p.2) p.2.confidence with
  | error e => trivial
  | ok x => exact hk _

theorem clusClassifyP_idem {o : Nat} (imgs : List (List Int)) : ∀ (k : List Str → c.P α), (∀ v, (k v).Idem) → (c.clusClassifyP o imgs k).Idem := by
  induction imgs with
  | nil => intro k hk; exact hk _
  | cons img imgs ih => intro k hk; exact clusClassify1P_idem (fun v => ih _ (fun ls => hk _))

theorem unsupClassifyP_idem {o : Nat} (imgs : List (List Int)) : ∀ (k : List Str → c.P α), (∀ v, (k v).Idem) → (c.unsupClassifyP o imgs k).Idem := by
  induction imgs with
  | nil => intro k hk; exact hk _
  | cons img imgs ih =>
    intro k hk cl
    refine clusterVotesP_idem _ 0 _ (fun vs p => ?_)
    dsimp only
    cases Bleaching.make (ClusWisard.unsupVotes vs 0 []) p.2.bleachingActivated false 1 with
    | error e => trivial
    | ok x => exact ih _ (fun ls => hk _)

theorem clusterMentalP_idem {o : Nat} {l : Str} {it : IterOrder} (bs : List Bool) : ∀ (j : Nat) (k : List (List Int) → c.P α),
    (∀ v, (k v).Idem) → (c.clusterMentalP o l it bs j k).Idem := by
  induction bs with
  | nil => intro j k hk; exact hk _
  | cons b bs ih =>
    intro j k hk
    cases b with
    | false => trivial
    | true => exact discMentalP_idem (fun v _ => ih (j + 1) _ (fun vs => hk _))

theorem clusMentalP_idem {o : Nat} {l : Str} {it : IterOrder} {k : List (List Int) → c.P α} (hk : ∀ v, (k v).Idem) :
    (c.clusMentalP o l it k).Idem := by
  intro cs
  dsimp only
  cases SMap.find cs l with
  | none => exact ⟨fun v => SMap.set_set v l (none, []) (none, []), hk _⟩
  | some cl =>
    dsimp only
    by_cases hb : c.bracketWrites = true
    · rw [if_pos hb]; exact ⟨fun _ => rfl, clusterMentalP_idem _ 0 k hk⟩
    · rw [if_neg hb]; exact clusterMentalP_idem _ 0 k hk

theorem trainRamsP_idem {r : Ref} {img : Image} (ws : List Wire) : ∀ (i : Nat) (k : c.P α), k.Idem → (c.trainRamsP r img ws i k).Idem := by
  induction ws with
  | nil => intro i k hk; exact hk
  | cons w ws ih =>
    intro i k hk
    unfold trainRamsP trainRamP
    cases (w.ram []).getIndex img with
    | error e => trivial
    | ok index =>
      intro pos
      dsimp only
      cases RamT.find pos index with
      | none => exact ⟨fun v => ramT_set_idem v index 1, ih (i + 1) k hk⟩
      | some v =>
        dsimp only
        cases i32 (v + 1) with
        | error e => trivial
        | ok v' => exact ⟨fun v => ramT_set_idem v index v', ih (i + 1) k hk⟩

theorem discTrainP_idem {r : Ref} {img : Image} {k : c.P α} (hk : k.Idem) : (c.discTrainP r img k).Idem := by
  intro d
  dsimp only
  cases checkEntry d.1 img with
  | error e => trivial
  | ok _ =>
    intro n
    dsimp only
    cases i32 (n + 1) with
    | error e => trivial
    | ok n' => exact ⟨fun _ => rfl, trainRamsP_idem _ 0 k hk⟩

theorem untrainRamsP_idem {r : Ref} {img : Image} (ws : List Wire) : ∀ (i : Nat) (k : c.P α), k.Idem → (c.untrainRamsP r img ws i k).Idem := by
  induction ws with
  | nil => intro i k hk; exact hk
  | cons w ws ih =>
    intro i k hk
    unfold untrainRamsP untrainRamP
    cases (w.ram []).getIndex img with
    | error e => trivial
    | ok index =>
      intro pos
      dsimp only
      cases RamT.find pos index with
      | none => exact ih (i + 1) k hk
      | some v =>
        dsimp only
        cases i32 (v - 1) with
        | error e => trivial
        | ok v' => exact ⟨fun v => ramT_set_idem v index v', ih (i + 1) k hk⟩

theorem discUntrainP_idem {r : Ref} {img : Image} {k : c.P α} (hk : k.Idem) : (c.discUntrainP r img k).Idem := by
  intro d
  dsimp only
  cases checkEntry d.1 img with
  | error e => trivial
  | ok _ =>
    intro n
    dsimp only
    cases i32 (n - 1) with
    | error e => trivial
    | ok n' => exact ⟨fun _ => rfl, untrainRamsP_idem _ 0 k hk⟩

theorem bracketP_idem {o : Nat} {label : Str} {k : c.P α} (hk : k.Idem) : (c.bracketP o label k).Idem := by
  intro ls
  by_cases h : label ∈ ls
  · simp only [if_pos h]
    by_cases hb : c.bracketWrites = true
    · rw [if_pos hb]; exact ⟨fun _ => rfl, hk⟩
    · rw [if_neg hb]; exact hk
  · simp only [if_neg h]
    exact ⟨fun _ => rfl, fun _ => rfl, fun v => insertKey_idem label v, hk⟩

theorem newDiscP_idem {A : Int} {os : WisardOpts} {label : Str} {n : Int} {k : Res Discriminator → c.P α} (hk : ∀ r, (k r).Idem) :
    (c.newDiscP A os label n k).Idem := by
  unfold newDiscP
  cases os.mapping.find label with
  | some mp => exact hk _
  | none =>
    dsimp only
    by_cases h : os.indexes.length ≠ 0
    · rw [if_pos h]; exact hk _
    · rw [if_neg h]; exact fun _ => ⟨fun _ => rfl, hk _⟩

theorem assignRamsP_idem {r : Ref} (xs : List Ram) : ∀ (i : Nat) (k : c.P α), k.Idem → (c.assignRamsP r xs i k).Idem := by
  induction xs with
  | nil => intro i k hk; exact hk
  | cons x xs ih => intro i k hk; exact ⟨fun _ => rfl, ih (i + 1) k hk⟩

theorem train1P_idem {o : Nat} {img : Image} {label : Str} {k : c.P α} (hk : k.Idem) : (c.train1P o img label k).Idem := by
  have h1 : (c.bracketP o label (c.discTrainP (.wis o label) img k)).Idem := bracketP_idem (discTrainP_idem hk)
  have h2 : ∀ d : Discriminator, (c.assignP (.wis o label) d (c.bracketP o label (c.discTrainP (.wis o label) img k))).Idem :=
    fun d => ⟨fun _ => rfl, fun _ => rfl, assignRamsP_idem _ 0 _ h1⟩
  intro ls
  by_cases h : label ∈ ls
  · simp only [if_pos h]; exact h1
  · simp only [if_neg h]
    intro p
    by_cases hl : c.lhsFirst = true
    · simp only [if_pos hl]
      refine bracketP_idem (newDiscP_idem (fun r => ?_))
      cases r with
      | error e => trivial
      | ok d => exact h2 d
    · simp only [if_neg hl]
      refine newDiscP_idem (fun r => ?_)
      cases r with
      | error e => trivial
      | ok d => exact bracketP_idem (h2 d)

theorem trainLoopP_idem {o : Nat} (es : List (Image × Str)) : ∀ {k : c.P α}, k.Idem → (c.trainLoopP o es k).Idem := by
  induction es with
  | nil => intro k hk; exact hk
  | cons e es ih => intro k hk; exact train1P_idem (ih hk)

theorem trainDataLoopP_idem {o : Nat} {ds : DataSet} (bs : List BinInput) : ∀ {i : Nat} {k : c.P α}, k.Idem → (c.trainDataLoopP o ds bs i k).Idem := by
  induction bs with
  | nil => intro i k hk; exact hk
  | cons b bs ih =>
    intro i k hk
    unfold trainDataLoopP
    cases ds.getLabel i with
    | error e => trivial
    | ok l => exact train1P_idem (ih hk)

theorem leave1P_idem {o : Nat} {img : List Int} {label : Str} {k : c.P α} (hk : k.Idem) : (c.leave1P o img label k).Idem := by
  intro ls
  by_cases h : label ∈ ls
  · simp only [if_pos h]; exact discUntrainP_idem hk
  · simp only [if_neg h]; exact hk

theorem leaveLoopP_idem {o : Nat} (es : List (List Int × Str)) : ∀ {k : c.P α}, k.Idem → (c.leaveLoopP o es k).Idem := by
  induction es with
  | nil => intro k hk; exact hk
  | cons e es ih => intro k hk; exact leave1P_idem (ih hk)

theorem writeSlotP_idem {o : Nat} {p : Option Str} {u : Option ClusterCfg × List Bool → Option ClusterCfg × List Bool} {k : c.P α}
    (hu : ∀ x, u (u x) = u x) (hk : k.Idem) : (c.writeSlotP o p u k).Idem := by
  cases p with
  | some l =>
    refine ⟨fun cs => ?_, hk⟩
    show SMap.set (SMap.set cs l _) l (u ((SMap.find (SMap.set cs l _) l).getD (none, []))) = SMap.set cs l _
    rw [SMap.set_set, SMap.find_set_self]
    show SMap.set cs l (u (u _)) = _
    rw [hu]
  | none => exact ⟨hu, hk⟩

theorem insertAt_length (bs : List Bool) (j : Nat) : j < (insertAt bs j).length := by
  unfold insertAt
  by_cases h : j < bs.length
  · rw [if_pos h]; exact h
  · rw [if_neg h, List.length_append, List.length_replicate]; omega

theorem insertAt_known {bs : List Bool} {j : Nat} (h : j < bs.length) : insertAt bs j = bs := if_pos h

theorem newClusterDiscP_idem {cf : ClusterCfg} {k : Discriminator → c.P α} (hk : ∀ d, (k d).Idem) : (c.newClusterDiscP cf k).Idem := by
  intro gs
  refine ⟨fun _ => rfl, ?_⟩
  cases (Discriminator.setRAMShuffleG c.g gs cf.entrySize cf.addressSize cf.ignoreZero cf.completeAddressing cf.base).1 with
  | error e => trivial
  | ok d => exact hk d

theorem trainNewP_idem {o : Nat} {p : Option Str} {cfg : Option ClusterCfg} {j : Nat} {img : Image} {k : c.P α} (hk : k.Idem) :
    (c.trainNewP o p cfg j img k).Idem := by
  cases cfg with
  | none => trivial
  | some cf =>
    have h1 : (c.touchP (slotLoc o p) <| c.discTrainP (slotRef o p j) img k).Idem := touchP_idem (discTrainP_idem hk)
    show (c.makeDiscP o p cf j _).Idem
    unfold makeDiscP
    by_cases hl : c.lhsFirst = true
    · simp only [if_pos hl]
      refine writeSlotP_idem (fun x => ?_) (newClusterDiscP_idem (fun d => ⟨fun _ => rfl, fun _ => rfl, assignRamsP_idem _ 0 _
        (writeSlotP_idem (fun x => ?_) h1)⟩))
      · rw [insertAt_known (insertAt_length _ _)]
      · dsimp only; rw [List.set_set]
    · simp only [if_neg hl]
      refine newClusterDiscP_idem (fun d => ⟨fun _ => rfl, fun _ => rfl, assignRamsP_idem _ 0 _ (writeSlotP_idem (fun x => ?_) h1)⟩)
      dsimp only
      rw [insertAt_known (by rw [List.length_set]; exact insertAt_length _ _), List.set_set]

theorem scanP_idem {o : Nat} {p : Option Str} {cf : ClusterCfg} {img : Image} (bs : List Bool) : ∀ (i : Nat) (bv : Rat) (bd : Option Nat) (tr : Bool)
    (k : Option Nat × Bool → c.P α), (∀ r, (k r).Idem) → (c.scanP o p cf img bs i bv bd tr k).Idem := by
  induction bs with
  | nil => intro i bv bd tr k hk; exact hk _
  | cons b bs ih =>
    intro i bv bd tr k hk
    cases b with
    | false => trivial
    | true =>
      unfold scanP
      refine touchP_idem (discClassifyP_idem (fun votes => touchP_idem (fun count => ?_)))
      dsimp only
      by_cases h : Cluster.getScore c.f votes ≥ Cluster.limit c.f cf count
      · rw [if_pos h]; exact touchP_idem (discTrainP_idem (fun _ => ih _ _ _ _ k hk))
      · rw [if_neg h]; exact fun _ => ih _ _ _ _ k hk

theorem clusterTrainP_idem {o : Nat} {p : Option Str} {img : Image} {k : c.P α} (hk : k.Idem) : (c.clusterTrainP o p img k).Idem := by
  have h : ∀ cl : Option ClusterCfg × List Bool, Prog.Idem (
    if cl.2.length = 0 then c.trainNewP o p cl.1 0 img k
    else
      match cl.1 with
      | none => .done (.error (.ub .uninitialised))
      | some cf => c.scanP o p cf img cl.2 0 0 none false fun r =>
          if r.2 then k
          else if (cl.2.length : Int) < cf.discriminatorsLimit then c.trainNewP o p (some cf) cl.2.length img k
          else
            match r.1 with
            | none => k
            | some i => c.trainAtP o p cl.2 i img k) := by
    intro cl
    by_cases h0 : cl.2.length = 0
    · rw [if_pos h0]; exact trainNewP_idem hk
    · rw [if_neg h0]
      cases cl.1 with
      | none => trivial
      | some cf =>
        refine scanP_idem _ _ _ _ _ _ (fun r => ?_)
        by_cases h1 : r.2 = true
        · rw [if_pos h1]; exact hk
        · rw [if_neg h1]
          by_cases h2 : (cl.2.length : Int) < cf.discriminatorsLimit
          · rw [if_pos h2]; exact trainNewP_idem hk
          · rw [if_neg h2]
            cases r.1 with
            | none => exact hk
            | some i =>
              show (c.trainAtP o p cl.2 i img k).Idem
              unfold trainAtP
              split
              · exact discTrainP_idem hk
              · trivial
  unfold clusterTrainP
  cases p with
  | some l => exact fun cs => h _
  | none => exact fun cl => h _

theorem clusTrainInP_idem {o : Nat} {img : List Int} {l : Str} {k : c.P α} (hk : k.Idem) : (c.clusTrainInP o img l k).Idem := by
  intro cs
  dsimp only
  cases SMap.find cs l with
  | some _ => exact touchP_idem (clusterTrainP_idem hk)
  | none => exact ⟨fun v => SMap.set_set v l _ _, clusterTrainP_idem hk⟩

theorem clusTrain1P_idem {o : Nat} {img : List Int} {l : Str} {k : c.P α} (hk : k.Idem) : (c.clusTrain1P o img l k).Idem := by
  intro cs
  dsimp only
  cases SMap.find cs l with
  | some _ => exact clusTrainInP_idem hk
  | none => exact fun q => ⟨fun v => SMap.set_set v l _ _, clusTrainInP_idem hk⟩

theorem clusTrainLoopP_idem {o : Nat} (es : List (List Int × Str)) : ∀ {k : c.P α}, k.Idem → (c.clusTrainLoopP o es k).Idem := by
  induction es with
  | nil => intro k hk; exact hk
  | cons e es ih => intro k hk; exact clusTrain1P_idem (ih hk)

theorem ownLoopP_idem {o : Nat} (imgs : List (List Int)) : ∀ {k : c.P α}, k.Idem → (c.ownLoopP o imgs k).Idem := by
  induction imgs with
  | nil => intro k hk; exact hk
  | cons img imgs ih =>
    intro k hk
    unfold ownLoopP clusTrainOwnP
    exact clusClassify1P_idem (fun _ => clusTrainInP_idem (ih hk))

theorem semiLoopP_idem {o : Nat} {labels : LabelMap} (imgs : List (List Int)) : ∀ (i : Nat) (ll : List Int) (j : Nat) (k : List Int → c.P α),
    (∀ v, (k v).Idem) → (c.semiLoopP o labels imgs i ll j k).Idem := by
  induction imgs with
  | nil => intro i ll j k hk; exact hk _
  | cons img imgs ih =>
    intro i ll j k hk
    unfold semiLoopP
    cases labels.find i with
    | none =>
      dsimp only
      cases ClusWisard.noteLabelless ll j i with
      | error e => trivial
      | ok ll' => exact ih _ _ _ k hk
    | some l => exact clusTrain1P_idem (ih _ _ _ k hk)

theorem unsupLoopP_idem {o : Nat} (imgs : List (List Int)) : ∀ {k : c.P α}, k.Idem → (c.unsupLoopP o imgs k).Idem := by
  induction imgs with
  | nil => intro k hk; exact hk
  | cons img imgs ih => intro k hk; exact clusterTrainP_idem (ih hk)

theorem callP_idem (x : Call) : (c.callP x).Idem := by
  cases x with
  | discTrain o img => exact discTrainP_idem trivial
  | discClassify o img => exact discClassifyP_idem (fun _ => trivial)
  | discMental o it => exact discMentalP_idem (fun _ => trivial)
  | newWisard o now A opts =>
    refine ⟨fun _ => rfl, fun s => ⟨fun _ => rfl, ?_⟩⟩
    cases randint (c.g.rand s).1 0 1000000 with
    | error e => exact ⟨fun _ => rfl, fun _ => rfl, trivial⟩
    | ok n => exact ⟨fun _ => rfl, fun _ => rfl, fun _ => rfl, trivial⟩
  | train o images labels =>
    intro p
    dsimp only
    cases Wisard.trainChecks ⟨p.1, p.2, []⟩ images labels with
    | error e => trivial
    | ok _ => exact trainLoopP_idem _ trivial
  | discUntrain o img => exact discUntrainP_idem trivial
  | trainDataSet o ds =>
    intro p
    dsimp only
    cases Wisard.dataChecks ⟨p.1, p.2, []⟩ ds with
    | error e => trivial
    | ok _ => exact trainDataLoopP_idem _ trivial
  | leaveOneOut o img l => exact leave1P_idem trivial
  | leaveMoreOut o images labels =>
    show Prog.Idem (c.leaveMoreP o images labels (.done (.ok Reply.nothing)))
    unfold leaveMoreP
    cases Wisard.checkInputSizes images.length labels.length with
    | error e => trivial
    | ok _ => exact leaveLoopP_idem _ trivial
  | classify o images => exact classifyP_idem _ _ (fun _ => trivial)
  | mentalImages o it => exact fun ls => mentalsP_idem _ _ (fun _ => trivial)
  | clusClassify o images => exact clusClassifyP_idem _ _ (fun _ => trivial)
  | unsupClassify o images => exact unsupClassifyP_idem _ _ (fun _ => trivial)
  | clusMental o l it => exact clusMentalP_idem (fun _ => trivial)
  | newClus o now A ms t dl opts =>
    have h4 : Prog.Idem (match ClusWisard.create A ms t dl opts with
      | .error e => .done (.error e)
      | .ok _ => .write (.copts o) (fun _ => (((A, ms, t, dl), opts) : (Int × Rat × Int × Int) × ClusOpts)) <|
          .write (.clusters o) (fun _ => ([] : SMap (Option ClusterCfg × List Bool))) <|
            .write (.ucluster o) (fun _ => ((none, []) : Option ClusterCfg × List Bool)) (.done (.ok Reply.nothing)) : c.P Reply) := by
      cases ClusWisard.create A ms t dl opts with
      | error e => trivial
      | ok _ => exact ⟨fun _ => rfl, fun _ => rfl, fun _ => rfl, trivial⟩
    refine ⟨fun _ => rfl, fun s => ⟨fun _ => rfl, ?_⟩⟩
    cases randint (c.g.rand s).1 0 1000000 with
    | error e => exact h4
    | ok n => exact ⟨fun _ => rfl, h4⟩
  | clusTrain o images labels =>
    intro q
    dsimp only
    cases (members q).trainChecks images labels with
    | error e => trivial
    | ok _ => exact clusTrainLoopP_idem _ trivial
  | clusSemi o images labels =>
    intro q
    dsimp only
    cases (members q).semiChecks images labels with
    | error e => trivial
    | ok _ =>
      refine semiLoopP_idem _ _ _ _ _ (fun ll => ?_)
      by_cases h : ll.length = images.length
      · rw [if_pos h]; trivial
      · rw [if_neg h]; exact ownLoopP_idem _ trivial
  | clusUnsup o images =>
    intro cs
    dsimp only
    by_cases h : List.length cs = 0
    · rw [if_pos h]
      cases images with
      | nil => trivial
      | cons i0 images => exact fun _ => ⟨fun _ => rfl, unsupLoopP_idem _ trivial⟩
    · rw [if_neg h]; exact unsupLoopP_idem _ trivial

end Impl

/-- The discriminator at a place of a world. -/
def discAt {g : CRand} (W : World g) : Ref → Discriminator
  | .own o => W.discs o
  | .wis o l => ((W.wis o).discriminators.find l).getD Discriminator.default
  | .clus o l j => (((((W.clus o).clusters.find l).getD Cluster.default).discriminators[j]?).getD none).getD Discriminator.default
  | .unsup o j => (((W.clus o).unsupervisedCluster.discriminators[j]?).getD none).getD Discriminator.default

/-- A memory with these values. -/
def memOf {g : CRand} (W : World g) : Mem g
  | .map o => (W.wis o).discriminators.map Prod.fst
  | .opts o => ((W.wis o).addressSize, (W.wis o).opts)
  | .clusters o => (W.clus o).clusters.map fun e => (e.1, e.2.cfg, e.2.discriminators.map Option.isSome)
  | .copts o => (((W.clus o).addressSize, (W.clus o).minScore, (W.clus o).threshold, (W.clus o).discriminatorsLimit), (W.clus o).opts)
  | .ucluster o => ((W.clus o).unsupervisedCluster.cfg, (W.clus o).unsupervisedCluster.discriminators.map Option.isSome)
  | .disc r => ((discAt W r).entrySize, (discAt W r).rams.map Ram.wire)
  | .count r => (discAt W r).count
  | .ram r i => (((discAt W r).rams[i]?).map Ram.positions).getD []
  | .gen => W.gen

theorem memOf_rams {g : CRand} (W : World g) (r : Ref) (rs : List Ram) : ∀ pre : List Ram, (discAt W r).rams = pre ++ rs →
    (memOf W).ramsFrom r pre.length (rs.map Ram.wire) = rs := by
  induction rs with
  | nil => intro pre _; rfl
  | cons x rs ih =>
    intro pre h
    show x.wire.ram ((((discAt W r).rams[pre.length]?).map Ram.positions).getD []) :: (memOf W).ramsFrom r (pre.length + 1) (rs.map Ram.wire) = _
    have := ih (pre ++ [x]) (by rw [h]; simp)
    rw [List.length_append] at this
    rw [show pre.length + 1 = pre.length + [x].length from rfl, this, h]
    simp
    rfl

theorem memOf_disc {g : CRand} (W : World g) (r : Ref) : (memOf W).disc r = discAt W r := by
  show Discriminator.mk _ _ ((memOf W).ramsFrom r 0 ((discAt W r).rams.map Ram.wire)) = _
  rw [show (0 : Nat) = ([] : List Ram).length from rfl, memOf_rams W r (discAt W r).rams [] rfl]
  rfl

theorem memOf_discs {g : CRand} (W : World g) (ref : Nat → Ref) (all : List (Option Discriminator))
    (hr : ∀ j, discAt W (ref j) = ((all[j]?).getD none).getD Discriminator.default) (ds : List (Option Discriminator)) :
    ∀ pre : List (Option Discriminator), all = pre ++ ds → (memOf W).discsFrom ref pre.length (ds.map Option.isSome) = ds := by
  induction ds with
  | nil => intro pre _; rfl
  | cons x ds ih =>
    intro pre h
    show (if x.isSome then some ((memOf W).disc (ref pre.length)) else none) :: (memOf W).discsFrom ref (pre.length + 1) (ds.map Option.isSome) = _
    have := ih (pre ++ [x]) (by rw [h]; simp)
    rw [List.length_append] at this
    rw [show pre.length + 1 = pre.length + [x].length from rfl, this, memOf_disc, hr, h]
    cases x <;> simp

theorem world_memOf {g : CRand} (W : World g) (h : Ordered W) : world (memOf W) = W := by
  unfold world
  have e1 : (fun o => (memOf W).disc (.own o)) = W.discs := by funext o; exact memOf_disc W _
  have e2 : (memOf W).wisard = W.wis := by
    funext o
    unfold Mem.wisard
    have : List.map (fun l => (l, (memOf W).disc (.wis o l))) ((W.wis o).discriminators.map Prod.fst) = (W.wis o).discriminators := by
      rw [List.map_map]
      conv => rhs; rw [← List.map_id (W.wis o).discriminators]
      apply List.map_congr_left
      intro e he
      obtain ⟨l, d⟩ := e
      show (l, (memOf W).disc (.wis o l)) = (l, d)
      rw [memOf_disc]
      show (l, ((W.wis o).discriminators.find l).getD Discriminator.default) = (l, d)
      rw [SMap.find_of_mem (h o).1 he]
      rfl
    show Wisard.mk _ _ (List.map (fun l => (l, (memOf W).disc (.wis o l))) ((W.wis o).discriminators.map Prod.fst)) = _
    rw [this]
    rfl
  have e3 : (memOf W).clusWisard = W.clus := by
    funext o
    unfold Mem.clusWisard
    have hc : List.map (fun e : Str × Option ClusterCfg × List Bool => (e.1, (memOf W).cluster (Ref.clus o e.1) e.2))
        ((W.clus o).clusters.map fun e => (e.1, e.2.cfg, e.2.discriminators.map Option.isSome)) = (W.clus o).clusters := by
      rw [List.map_map]
      conv => rhs; rw [← List.map_id (W.clus o).clusters]
      apply List.map_congr_left
      intro e he
      obtain ⟨l, cl⟩ := e
      show (l, Cluster.mk cl.cfg ((memOf W).discsFrom (Ref.clus o l) 0 (cl.discriminators.map Option.isSome))) = (l, cl)
      rw [show (0 : Nat) = ([] : List (Option Discriminator)).length from rfl, memOf_discs W (Ref.clus o l) cl.discriminators (fun j => by
        show (((((W.clus o).clusters.find l).getD Cluster.default).discriminators[j]?).getD none).getD Discriminator.default = _
        rw [SMap.find_of_mem (h o).2 he]
        rfl) cl.discriminators [] rfl]
    have hu : (memOf W).cluster (Ref.unsup o) ((W.clus o).unsupervisedCluster.cfg, (W.clus o).unsupervisedCluster.discriminators.map Option.isSome) =
        (W.clus o).unsupervisedCluster := by
      show Cluster.mk _ ((memOf W).discsFrom (Ref.unsup o) 0 ((W.clus o).unsupervisedCluster.discriminators.map Option.isSome)) = _
      rw [show (0 : Nat) = ([] : List (Option Discriminator)).length from rfl,
        memOf_discs W (Ref.unsup o) (W.clus o).unsupervisedCluster.discriminators (fun j => rfl) _ [] rfl]
    show ClusWisard.mk _ _ _ _ _ (List.map (fun e : Str × Option ClusterCfg × List Bool => (e.1, (memOf W).cluster (Ref.clus o e.1) e.2))
        ((W.clus o).clusters.map fun e => (e.1, e.2.cfg, e.2.discriminators.map Option.isSome)))
      ((memOf W).cluster (Ref.unsup o) ((W.clus o).unsupervisedCluster.cfg, (W.clus o).unsupervisedCluster.discriminators.map Option.isSome)) = _
    rw [hc, hu]
    rfl
  rw [e1, e2, e3]
  rfl

end Wis
