import Verif.Lemmas.Prog
import Verif.Lemmas.Rand
import Verif.Lemmas.SMap
/-!
# The accesses of a call, without interruption, do what the call does
-/

namespace Wis
open Spec

namespace Impl
variable (c : Impl)

/-- Go on with the value, or end with the error. -/
def go {α β : Type} (x : Res β) (k : β → c.P α) (m : Mem c.g) : Mem c.g × Res α :=
  match x with
  | .ok b => (k b).run m
  | .error e => (m, .error e)

variable {c} {α : Type}

theorem wire_index (w : Wire) (pos : RamT) (img : Image) : (w.ram pos).getIndex img = (w.ram []).getIndex img := rfl

theorem voteP_run (r : Ref) (img : Image) (i : Nat) (w : Wire) (k : Int → c.P α) (m : Mem c.g) :
    (c.voteP r img i w k).run m = c.go ((w.ram (m (.ram r i))).getVote img) k m := by
  unfold voteP Ram.getVote
  rw [wire_index w (m (.ram r i)) img]
  cases (w.ram []).getIndex img with
  | error e => rfl
  | ok index =>
    simp only [Except.bind_ok]
    by_cases h : (w.ignoreZero && decide (index = 0)) = true
    · rw [if_pos h, if_pos (show ((w.ram (m (.ram r i))).ignoreZero && decide (index = 0)) = true from h)]
      rfl
    · rw [if_neg h, if_neg (show ¬ ((w.ram (m (.ram r i))).ignoreZero && decide (index = 0)) = true from h)]
      show (k ((RamT.find (m (.ram r i)) index).getD 0)).run m = c.go (match RamT.find (m (.ram r i)) index with
        | none => .ok 0
        | some x => .ok x) k m
      cases RamT.find (m (.ram r i)) index <;> rfl

theorem votesP_run (r : Ref) (img : Image) (ws : List Wire) : ∀ (i : Nat) (k : List Int → c.P α) (m : Mem c.g),
    (c.votesP r img ws i k).run m = c.go (Discriminator.votes img (m.ramsFrom r i ws)) k m := by
  induction ws with
  | nil => intro i k m; rfl
  | cons w ws ih =>
    intro i k m
    unfold votesP Mem.ramsFrom Discriminator.votes
    rw [voteP_run]
    cases (w.ram (m (.ram r i))).getVote img with
    | error e => rfl
    | ok v =>
      show (c.votesP r img ws (i + 1) fun vs => k (v :: vs)).run m = _
      rw [ih]
      simp only [Except.bind_ok]
      cases Discriminator.votes img (m.ramsFrom r (i + 1) ws) <;> rfl

theorem discClassifyP_run (r : Ref) (img : Image) (k : List Int → c.P α) (m : Mem c.g) :
    (c.discClassifyP r img k).run m = c.go ((m.disc r).classify img) k m := by
  unfold discClassifyP Discriminator.classify
  show Prog.run (match checkEntry (m (.disc r)).1 img with
    | .error e => .done (.error e)
    | .ok () => c.votesP r img (m (.disc r)).2 0 k) m = _
  have : checkEntry (m (.disc r)).1 img = (m.disc r).checkEntrySize img.size := rfl
  rw [this]
  cases (m.disc r).checkEntrySize img.size with
  | error e => rfl
  | ok _ => exact votesP_run r img _ 0 k m

theorem mentalLoopP_run (r : Ref) (it : IterOrder) (ws : List Wire) : ∀ (i : Nat) (v : List Int) (k : List Int → c.P α) (m : Mem c.g),
    (c.mentalLoopP r it ws i v k).run m = c.go (Discriminator.mentalLoop it (m.ramsFrom r i ws) v) k m := by
  induction ws with
  | nil => intro i v k m; rfl
  | cons w ws ih =>
    intro i v k m
    unfold mentalLoopP Mem.ramsFrom Discriminator.mentalLoop
    show Prog.run (match (w.ram (m (.ram r i))).getMentalImage it with
      | .error e => .done (.error e)
      | .ok piece =>
        match Discriminator.addPieces piece v with
        | .error e => .done (.error e)
        | .ok m' => c.mentalLoopP r it ws (i + 1) m' k) m = _
    cases (w.ram (m (.ram r i))).getMentalImage it with
    | error e => rfl
    | ok piece =>
      simp only [Except.bind_ok]
      cases Discriminator.addPieces piece v with
      | error e => rfl
      | ok v' =>
        simp only [Except.bind_ok]
        exact ih _ _ _ _

theorem discMentalP_run (r : Ref) (it : IterOrder) (k : List Int → c.P α) (m : Mem c.g) :
    (c.discMentalP r it k).run m = c.go ((m.disc r).getMentalImage it) k m := by
  unfold discMentalP Discriminator.getMentalImage
  show Prog.run (if (m (.disc r)).1 < 0 then .done (.error (.throw .stdLengthError))
      else c.mentalLoopP r it (m (.disc r)).2 0 (List.replicate (m (.disc r)).1.toNat 0) k) m = _
  by_cases h : (m (.disc r)).1 < 0
  · rw [if_pos h, if_pos (show (m.disc r).entrySize < 0 from h)]; rfl
  · rw [if_neg h, if_neg (show ¬ (m.disc r).entrySize < 0 from h)]
    exact mentalLoopP_run r it _ 0 _ k m

theorem allvotesP_run (o : Nat) (img : Image) (ls : List Str) : ∀ (k : Votes → c.P α) (m : Mem c.g),
    (c.allvotesP o img ls k).run m = c.go (Wisard.allvotes img (ls.map fun l => (l, m.disc (.wis o l)))) k m := by
  induction ls with
  | nil => intro k m; rfl
  | cons l ls ih =>
    intro k m
    unfold allvotesP
    rw [discClassifyP_run]
    show _ = c.go (Wisard.allvotes img ((l, m.disc (.wis o l)) :: ls.map fun l => (l, m.disc (.wis o l)))) k m
    unfold Wisard.allvotes
    cases (m.disc (.wis o l)).classify img with
    | error e => rfl
    | ok v =>
      show (c.allvotesP o img ls fun vs => k ((l, v) :: vs)).run m = _
      rw [ih]
      simp only [Except.bind_ok]
      cases Wisard.allvotes img (ls.map fun l => (l, m.disc (.wis o l))) <;> rfl

theorem classify1P_run (o : Nat) (img : Image) (k : Scores → c.P α) (m : Mem c.g) :
    (c.classify1P o img k).run m = c.go ((m.wisard o).classify1 img) k m := by
  unfold classify1P Wisard.classify1
  show (c.allvotesP o img (m (.map o)) _).run m = _
  rw [allvotesP_run]
  show _ = c.go (do
    let votes ← Wisard.allvotes img (List.map (fun l => (l, m.disc (.wis o l))) (m (.map o)))
    Bleaching.make votes _ _ _) k m
  cases Wisard.allvotes img (List.map (fun l => (l, m.disc (.wis o l))) (m (.map o))) with
  | error e => rfl
  | ok votes =>
    simp only [Except.bind_ok]
    show Prog.run (match Bleaching.make votes (m.wisard o).opts.bleachingActivated (m.wisard o).opts.searchBestConfidence
      (m.wisard o).opts.confidence with
      | .error e => .done (.error e)
      | .ok candidates => k candidates) m = _
    cases Bleaching.make votes (m.wisard o).opts.bleachingActivated (m.wisard o).opts.searchBestConfidence
      (m.wisard o).opts.confidence <;> rfl

theorem classifyP_run (o : Nat) (imgs : List Image) : ∀ (k : List Str → c.P α) (m : Mem c.g),
    (c.classifyP o imgs k).run m = c.go ((m.wisard o).classify imgs) k m := by
  induction imgs with
  | nil => intro k m; rfl
  | cons img imgs ih =>
    intro k m
    unfold classifyP Wisard.classify
    rw [classify1P_run]
    cases (m.wisard o).classify1 img with
    | error e => rfl
    | ok cs =>
      show (c.classifyP o imgs fun ls => k (Bleaching.getBiggestCandidate cs :: ls)).run m = _
      rw [ih]
      simp only [Except.bind_ok]
      cases (m.wisard o).classify imgs <;> rfl

theorem mentalsP_run (o : Nat) (it : IterOrder) (ls : List Str) : ∀ (k : SMap (List Int) → c.P α) (m : Mem c.g),
    (c.mentalsP o it ls k).run m = c.go (Wisard.mentalImagesLoop it (ls.map fun l => (l, m.disc (.wis o l)))) k m := by
  induction ls with
  | nil => intro k m; rfl
  | cons l ls ih =>
    intro k m
    unfold mentalsP
    rw [discMentalP_run]
    show _ = c.go (Wisard.mentalImagesLoop it ((l, m.disc (.wis o l)) :: ls.map fun l => (l, m.disc (.wis o l)))) k m
    unfold Wisard.mentalImagesLoop
    cases (m.disc (.wis o l)).getMentalImage it with
    | error e => rfl
    | ok v =>
      show (c.mentalsP o it ls fun vs => k ((l, v) :: vs)).run m = _
      rw [ih]
      simp only [Except.bind_ok]
      cases Wisard.mentalImagesLoop it (ls.map fun l => (l, m.disc (.wis o l))) <;> rfl

theorem mentalImagesP_run (o : Nat) (it : IterOrder) (k : SMap (List Int) → c.P α) (m : Mem c.g) :
    (c.mentalImagesP o it k).run m = c.go ((m.wisard o).getMentalImages it) k m := mentalsP_run o it _ k m

theorem touchP_run (loc : Loc) (k : c.P α) (m : Mem c.g) : (c.touchP loc k).run m = k.run m := by
  unfold touchP
  by_cases hb : c.bracketWrites = true
  · rw [if_pos hb]
    show k.run (Store.upd m loc (fun v => v)) = _
    rw [Store.upd_id]
  · rw [if_neg hb]; rfl

theorem clusterVotesP_run (loc : Loc) (ref : Nat → Ref) (img : Image) (bs : List Bool) : ∀ (j : Nat) (k : List (List Int) → c.P α) (m : Mem c.g),
    (c.clusterVotesP loc ref img bs j k).run m = c.go (Cluster.classifyLoop img (m.discsFrom ref j bs)) k m := by
  induction bs with
  | nil => intro j k m; rfl
  | cons b bs ih =>
    intro j k m
    cases b with
    | false => rfl
    | true =>
      show (c.touchP loc (c.discClassifyP (ref j) img _)).run m = c.go (Cluster.classifyLoop img (some (m.disc (ref j)) :: m.discsFrom ref (j + 1) bs)) k m
      rw [touchP_run, discClassifyP_run]
      unfold Cluster.classifyLoop
      cases (m.disc (ref j)).classify img with
      | error e => rfl
      | ok v =>
        show (c.clusterVotesP loc ref img bs (j + 1) fun vs => k (v :: vs)).run m = _
        rw [ih]
        simp only [Except.bind_ok]
        cases Cluster.classifyLoop img (m.discsFrom ref (j + 1) bs) <;> rfl

theorem clusVotesP_run (o : Nat) (img : List Int) (cs : List (Str × Option ClusterCfg × List Bool)) :
    ∀ (v : Votes) (k : Votes → c.P α) (m : Mem c.g),
    (c.clusVotesP o img cs v k).run m = c.go (ClusWisard.allvotes img (cs.map fun e => (e.1, m.cluster (Ref.clus o e.1) e.2)) v) k m := by
  induction cs with
  | nil => intro v k m; rfl
  | cons e cs ih =>
    intro v k m
    obtain ⟨l, cfg, bs⟩ := e
    show (c.clusterVotesP (.clusters o) (Ref.clus o l) (.vec img) bs 0 _).run m = c.go (ClusWisard.allvotes img
      ((l, m.cluster (Ref.clus o l) (cfg, bs)) :: cs.map fun e => (e.1, m.cluster (Ref.clus o e.1) e.2)) v) k m
    rw [clusterVotesP_run]
    unfold ClusWisard.allvotes Cluster.classify
    show c.go (Cluster.classifyLoop (.vec img) (m.discsFrom (Ref.clus o l) 0 bs)) _ m = c.go (do
      let vs ← Cluster.classifyLoop (.vec img) (m.discsFrom (Ref.clus o l) 0 bs)
      ClusWisard.allvotes img _ (ClusWisard.addVotes l vs 0 v)) k m
    cases Cluster.classifyLoop (.vec img) (m.discsFrom (Ref.clus o l) 0 bs) with
    | error e => rfl
    | ok vs =>
      simp only [Except.bind_ok]
      exact ih _ _ _

theorem clusClassify1P_run (o : Nat) (img : List Int) (best : ClusOpts → Bool) (k : Scores → c.P α) (m : Mem c.g) :
    (c.clusClassify1P o img best k).run m =
      c.go ((m.clusWisard o).classify1 img (best (m.clusWisard o).opts)) k m := by
  unfold clusClassify1P ClusWisard.classify1
  show (c.clusVotesP o img (m (.clusters o)) [] _).run m = _
  rw [clusVotesP_run]
  show _ = c.go (do
    let votes ← ClusWisard.allvotes img (List.map (fun e => (e.1, m.cluster (Ref.clus o e.1) e.2)) (m (.clusters o))) []
    Bleaching.make votes _ _ _) k m
  cases ClusWisard.allvotes img (List.map (fun e => (e.1, m.cluster (Ref.clus o e.1) e.2)) (m (.clusters o))) [] with
  | error e => rfl
  | ok votes =>
    simp only [Except.bind_ok]
    show Prog.run (match Bleaching.make votes (m.clusWisard o).opts.bleachingActivated (best (m.clusWisard o).opts)
      (m.clusWisard o).opts.confidence with
      | .error e => .done (.error e)
      | .ok candidates => k candidates) m = _
    cases Bleaching.make votes (m.clusWisard o).opts.bleachingActivated (best (m.clusWisard o).opts)
      (m.clusWisard o).opts.confidence <;> rfl

theorem clusClassifyP_run (o : Nat) (imgs : List (List Int)) : ∀ (k : List Str → c.P α) (m : Mem c.g),
    (c.clusClassifyP o imgs k).run m = c.go ((m.clusWisard o).classify imgs) k m := by
  induction imgs with
  | nil => intro k m; rfl
  | cons img imgs ih =>
    intro k m
    unfold clusClassifyP ClusWisard.classify
    rw [clusClassify1P_run]
    cases (m.clusWisard o).classify1 img (m.clusWisard o).opts.searchBestConfidence with
    | error e => rfl
    | ok cs =>
      show (c.clusClassifyP o imgs fun ls => k (beforeSep (Bleaching.getBiggestCandidate cs) :: ls)).run m = _
      rw [ih]
      simp only [Except.bind_ok]
      cases (m.clusWisard o).classify imgs <;> rfl

theorem unsupClassify1P_run (o : Nat) (img : List Int) (k : Scores → c.P α) (m : Mem c.g) :
    (c.unsupClassify1P o img k).run m = c.go ((m.clusWisard o).classifyUnsupervised1 img) k m := by
  unfold unsupClassify1P ClusWisard.classifyUnsupervised1
  show (c.clusterVotesP (.ucluster o) (Ref.unsup o) (.vec img) (m (.ucluster o)).2 0 _).run m = _
  rw [clusterVotesP_run]
  show _ = c.go (do
    let votes ← Cluster.classifyLoop (.vec img) (m.discsFrom (Ref.unsup o) 0 (m (.ucluster o)).2)
    Bleaching.make (ClusWisard.unsupVotes votes 0 []) _ false 1) k m
  cases Cluster.classifyLoop (.vec img) (m.discsFrom (Ref.unsup o) 0 (m (.ucluster o)).2) with
  | error e => rfl
  | ok votes =>
    simp only [Except.bind_ok]
    show Prog.run (match Bleaching.make (ClusWisard.unsupVotes votes 0 []) (m.clusWisard o).opts.bleachingActivated false 1 with
      | .error e => .done (.error e)
      | .ok candidates => k candidates) m = _
    cases Bleaching.make (ClusWisard.unsupVotes votes 0 []) (m.clusWisard o).opts.bleachingActivated false 1 <;> rfl

theorem unsupClassifyP_run (o : Nat) (imgs : List (List Int)) : ∀ (k : List Str → c.P α) (m : Mem c.g),
    (c.unsupClassifyP o imgs k).run m = c.go ((m.clusWisard o).classifyUnsupervised imgs) k m := by
  induction imgs with
  | nil => intro k m; rfl
  | cons img imgs ih =>
    intro k m
    unfold unsupClassifyP ClusWisard.classifyUnsupervised
    rw [unsupClassify1P_run]
    cases (m.clusWisard o).classifyUnsupervised1 img with
    | error e => rfl
    | ok cs =>
      show (c.unsupClassifyP o imgs fun ls => k (beforeSep (Bleaching.getBiggestCandidate cs) :: ls)).run m = _
      rw [ih]
      simp only [Except.bind_ok]
      cases (m.clusWisard o).classifyUnsupervised imgs <;> rfl

theorem clusterMentalP_run (o : Nat) (l : Str) (it : IterOrder) (bs : List Bool) : ∀ (j : Nat) (k : List (List Int) → c.P α) (m : Mem c.g),
    (c.clusterMentalP o l it bs j k).run m = c.go (Cluster.mentalLoop it (m.discsFrom (Ref.clus o l) j bs)) k m := by
  induction bs with
  | nil => intro j k m; rfl
  | cons b bs ih =>
    intro j k m
    cases b with
    | false => rfl
    | true =>
      show (c.discMentalP (.clus o l j) it _).run m =
        c.go (Cluster.mentalLoop it (some (m.disc (.clus o l j)) :: m.discsFrom (Ref.clus o l) (j + 1) bs)) k m
      rw [discMentalP_run]
      unfold Cluster.mentalLoop
      cases (m.disc (.clus o l j)).getMentalImage it with
      | error e => rfl
      | ok v =>
        show (c.clusterMentalP o l it bs (j + 1) fun vs => k (v :: vs)).run m = _
        rw [ih]
        simp only [Except.bind_ok]
        cases Cluster.mentalLoop it (m.discsFrom (Ref.clus o l) (j + 1) bs) <;> rfl

end Impl
end Wis
