import Verif.Spec.RandClus
import Verif.Props.Rand
import Verif.Lemmas.ClusWisard
import Verif.Props.Recode
/-!
# C181: where the wirings of a ClusWisard come from
-/

namespace Wis
open Spec

/-! ## The calls are calls of Model/ClusWisard with some random choices -/

theorem cluster_trainNewG_eq (g : CRand) (lf : Bool) (s : g.S) (cl : Cluster) (img : Image) :
    ∃ rnd : Rnd, (Cluster.trainNewG g lf s cl img).1 = cl.trainNew ⟨rnd, lf⟩ img := by
  unfold Cluster.trainNewG Cluster.trainNew
  cases cl.cfg with
  | none => exact ⟨Rnd.id, rfl⟩
  | some c =>
    obtain ⟨rnd, h⟩ := setRAMShuffleG_eq g s c.entrySize c.addressSize c.ignoreZero c.completeAddressing c.base
    refine ⟨rnd, ?_⟩
    simp only [Cluster.newDiscriminator, ← h]
    rcases Discriminator.setRAMShuffleG g s c.entrySize c.addressSize c.ignoreZero c.completeAddressing c.base with ⟨r, s'⟩
    cases r with
    | ok d => rfl
    | error e => rfl

theorem cluster_trainG_eq (f : Flt) (g : CRand) (lf : Bool) (s : g.S) (cl : Cluster) (img : Image) :
    ∃ rnd : Rnd, (Cluster.trainG f g lf s cl img).1 = cl.train f ⟨rnd, lf⟩ img := by
  unfold Cluster.trainG Cluster.train
  by_cases h0 : cl.discriminators.length = 0
  · rw [if_pos h0]
    simp only [if_pos h0]
    exact cluster_trainNewG_eq g lf s cl img
  · rw [if_neg h0]
    simp only [if_neg h0]
    cases cl.cfg with
    | none => exact ⟨Rnd.id, rfl⟩
    | some c =>
      dsimp only
      rcases Cluster.scan f c img cl.discriminators 0 0 none false with ⟨ds, r⟩
      cases r with
      | error e => exact ⟨Rnd.id, rfl⟩
      | ok bt =>
        obtain ⟨best, trained⟩ := bt
        dsimp only
        cases trained with
        | true => exact ⟨Rnd.id, rfl⟩
        | false =>
          simp only [Bool.false_eq_true, if_false]
          by_cases hl : (ds.length : Int) < c.discriminatorsLimit
          · simp only [if_pos hl]
            exact cluster_trainNewG_eq g lf s _ img
          · simp only [if_neg hl]
            cases best with
            | none => exact ⟨Rnd.id, rfl⟩
            | some i => exact ⟨Rnd.id, rfl⟩

theorem clus_trainInG_eq (f : Flt) (g : CRand) (lf : Bool) (s : g.S) (w : ClusWisard) (img : List Int) (l : Str) :
    ∃ rnd : Rnd, (ClusWisard.trainInG f g lf s w img l).1 = w.trainIn f ⟨rnd, lf⟩ img l := by
  obtain ⟨rnd, h⟩ := cluster_trainG_eq f g lf s ((w.clusters.find l).getD Cluster.default) (.vec img)
  refine ⟨rnd, ?_⟩
  unfold ClusWisard.trainInG ClusWisard.trainIn
  dsimp only
  rw [← h]

theorem clus_train1G_eq (f : Flt) (g : CRand) (lf : Bool) (s : g.S) (w : ClusWisard) (img : List Int) (l : Str) :
    ∃ rnd : Rnd, (ClusWisard.train1G f g lf s w img l).1 = w.train1 f ⟨rnd, lf⟩ img l := by
  unfold ClusWisard.train1G ClusWisard.train1
  cases w.clusters.find l with
  | some _ => exact clus_trainInG_eq f g lf s w img l
  | none => exact clus_trainInG_eq f g lf s _ img l

theorem clus_trainOwnG_eq (f : Flt) (g : CRand) (lf : Bool) (s : g.S) (w : ClusWisard) (img : List Int) :
    ∃ rnd : Rnd, (ClusWisard.trainOwnG f g lf s w img).1 = w.trainOwn f ⟨rnd, lf⟩ img := by
  unfold ClusWisard.trainOwnG ClusWisard.trainOwn
  cases w.classify1 img false with
  | error e => exact ⟨Rnd.id, rfl⟩
  | ok c => exact clus_trainInG_eq f g lf s w img _

/-- The choices `e` at `i`, and `env` elsewhere. -/
def choiceAt (e : Env) (i : Nat) (env : Nat → Env) : Nat → Env := fun k => if k = i then e else env k

theorem choiceAt_self (e : Env) (i : Nat) (env : Nat → Env) : choiceAt e i env i = e := if_pos rfl

theorem choiceAt_ne {e : Env} {i j : Nat} (env : Nat → Env) (h : i < j) : choiceAt e i env j = env j := if_neg (by omega)

theorem clus_trainLoop_cut {f : Flt} {env env' : Nat → Env} (es : List (List Int × Str)) : ∀ (w : ClusWisard) (i : Nat),
    (∀ j, i ≤ j → env j = env' j) → w.trainLoop f env es i = w.trainLoop f env' es i := by
  induction es with
  | nil => intro w i _; rfl
  | cons e es ih =>
    obtain ⟨img, l⟩ := e
    intro w i h
    unfold ClusWisard.trainLoop
    rw [h i (Nat.le_refl i)]
    rcases w.train1 f (env' i) img l with ⟨w', r⟩
    cases r with
    | error e => rfl
    | ok _ => exact ih w' (i + 1) (fun j hj => h j (by omega))

theorem clus_ownLoop_cut {f : Flt} {env env' : Nat → Env} (imgs : List (List Int)) : ∀ (w : ClusWisard) (i : Nat),
    (∀ j, i ≤ j → env j = env' j) → w.ownLoop f env imgs i = w.ownLoop f env' imgs i := by
  induction imgs with
  | nil => intro w i _; rfl
  | cons img imgs ih =>
    intro w i h
    unfold ClusWisard.ownLoop
    rw [h i (Nat.le_refl i)]
    rcases w.trainOwn f (env' i) img with ⟨w', r⟩
    cases r with
    | error e => rfl
    | ok _ => exact ih w' (i + 1) (fun j hj => h j (by omega))

theorem clus_unsupLoop_cut {f : Flt} {env env' : Nat → Env} (imgs : List (List Int)) : ∀ (w : ClusWisard) (i : Nat),
    (∀ j, i ≤ j → env j = env' j) → w.unsupLoop f env imgs i = w.unsupLoop f env' imgs i := by
  induction imgs with
  | nil => intro w i _; rfl
  | cons img imgs ih =>
    intro w i h
    unfold ClusWisard.unsupLoop
    rw [h i (Nat.le_refl i)]
    rcases w.unsupervisedCluster.train f (env' i) (.vec img) with ⟨w', r⟩
    cases r with
    | error e => rfl
    | ok _ => exact ih _ (i + 1) (fun j hj => h j (by omega))

theorem clus_semiLoop_cut {f : Flt} {env env' : Nat → Env} {labels : LabelMap} (imgs : List (List Int)) : ∀ (i : Nat) (w : ClusWisard) (ll : List Int) (j : Nat),
    (∀ k, i ≤ k → env k = env' k) → ClusWisard.semiLoop f env labels imgs i w ll j = ClusWisard.semiLoop f env' labels imgs i w ll j := by
  induction imgs with
  | nil => intro i w ll j _; rfl
  | cons img imgs ih =>
    intro i w ll j h
    unfold ClusWisard.semiLoop
    cases labels.find i with
    | none =>
      dsimp only
      cases ClusWisard.noteLabelless ll j i with
      | error e => rfl
      | ok ll' => exact ih (i + 1) w ll' (j + 1) (fun k hk => h k (by omega))
    | some l =>
      dsimp only
      rw [h i (Nat.le_refl i)]
      rcases w.train1 f (env' i) img l with ⟨w', r⟩
      cases r with
      | error e => rfl
      | ok _ => exact ih (i + 1) w' ll j (fun k hk => h k (by omega))

theorem clus_trainLoopG_eq (f : Flt) (g : CRand) (lf : Bool) (es : List (List Int × Str)) : ∀ (s : g.S) (w : ClusWisard) (i : Nat),
    ∃ env : Nat → Env, (ClusWisard.trainLoopG f g lf s w es).1 = w.trainLoop f env es i := by
  induction es with
  | nil => intro s w i; exact ⟨fun _ => ⟨Rnd.id, lf⟩, rfl⟩
  | cons e es ih =>
    obtain ⟨img, l⟩ := e
    intro s w i
    obtain ⟨rnd, hr⟩ := clus_train1G_eq f g lf s w img l
    obtain ⟨env, he⟩ := ih (ClusWisard.train1G f g lf s w img l).2 (ClusWisard.train1G f g lf s w img l).1.1 (i + 1)
    refine ⟨choiceAt ⟨rnd, lf⟩ i env, ?_⟩
    unfold ClusWisard.trainLoopG ClusWisard.trainLoop
    rw [choiceAt_self]
    revert he hr
    rcases ClusWisard.train1G f g lf s w img l with ⟨⟨w', r⟩, s'⟩
    intro hr he
    rw [← hr]
    cases r with
    | error e => rfl
    | ok _ => exact he.trans (clus_trainLoop_cut es w' (i + 1) (fun j hj => (choiceAt_ne env (by omega)).symm))

theorem clus_ownLoopG_eq (f : Flt) (g : CRand) (lf : Bool) (imgs : List (List Int)) : ∀ (s : g.S) (w : ClusWisard) (i : Nat),
    ∃ env : Nat → Env, (ClusWisard.ownLoopG f g lf s w imgs).1 = w.ownLoop f env imgs i := by
  induction imgs with
  | nil => intro s w i; exact ⟨fun _ => ⟨Rnd.id, lf⟩, rfl⟩
  | cons img imgs ih =>
    intro s w i
    obtain ⟨rnd, hr⟩ := clus_trainOwnG_eq f g lf s w img
    obtain ⟨env, he⟩ := ih (ClusWisard.trainOwnG f g lf s w img).2 (ClusWisard.trainOwnG f g lf s w img).1.1 (i + 1)
    refine ⟨choiceAt ⟨rnd, lf⟩ i env, ?_⟩
    unfold ClusWisard.ownLoopG ClusWisard.ownLoop
    rw [choiceAt_self]
    revert he hr
    rcases ClusWisard.trainOwnG f g lf s w img with ⟨⟨w', r⟩, s'⟩
    intro hr he
    rw [← hr]
    cases r with
    | error e => rfl
    | ok _ => exact he.trans (clus_ownLoop_cut imgs w' (i + 1) (fun j hj => (choiceAt_ne env (by omega)).symm))

theorem clus_unsupLoopG_eq (f : Flt) (g : CRand) (lf : Bool) (imgs : List (List Int)) : ∀ (s : g.S) (w : ClusWisard) (i : Nat),
    ∃ env : Nat → Env, (ClusWisard.unsupLoopG f g lf s w imgs).1 = w.unsupLoop f env imgs i := by
  induction imgs with
  | nil => intro s w i; exact ⟨fun _ => ⟨Rnd.id, lf⟩, rfl⟩
  | cons img imgs ih =>
    intro s w i
    obtain ⟨rnd, hr⟩ := cluster_trainG_eq f g lf s w.unsupervisedCluster (.vec img)
    obtain ⟨env, he⟩ := ih (Cluster.trainG f g lf s w.unsupervisedCluster (.vec img)).2
      { w with unsupervisedCluster := (Cluster.trainG f g lf s w.unsupervisedCluster (.vec img)).1.1 } (i + 1)
    refine ⟨choiceAt ⟨rnd, lf⟩ i env, ?_⟩
    unfold ClusWisard.unsupLoopG ClusWisard.unsupLoop
    rw [choiceAt_self]
    revert he hr
    rcases Cluster.trainG f g lf s w.unsupervisedCluster (.vec img) with ⟨⟨w', r⟩, s'⟩
    intro hr he
    rw [← hr]
    cases r with
    | error e => rfl
    | ok _ => exact he.trans (clus_unsupLoop_cut imgs _ (i + 1) (fun j hj => (choiceAt_ne env (by omega)).symm))

theorem clus_semiLoopG_eq (f : Flt) (g : CRand) (lf : Bool) (labels : LabelMap) (imgs : List (List Int)) : ∀ (s : g.S) (i : Nat) (w : ClusWisard) (ll : List Int) (j : Nat),
    ∃ env : Nat → Env, (ClusWisard.semiLoopG f g lf labels s imgs i w ll j).1 = ClusWisard.semiLoop f env labels imgs i w ll j := by
  induction imgs with
  | nil => intro s i w ll j; exact ⟨fun _ => ⟨Rnd.id, lf⟩, rfl⟩
  | cons img imgs ih =>
    intro s i w ll j
    unfold ClusWisard.semiLoopG ClusWisard.semiLoop
    cases labels.find i with
    | none =>
      dsimp only
      cases ClusWisard.noteLabelless ll j i with
      | error e => exact ⟨fun _ => ⟨Rnd.id, lf⟩, rfl⟩
      | ok ll' => exact ih s (i + 1) w ll' (j + 1)
    | some l =>
      dsimp only
      obtain ⟨rnd, hr⟩ := clus_train1G_eq f g lf s w img l
      obtain ⟨env, he⟩ := ih (ClusWisard.train1G f g lf s w img l).2 (i + 1) (ClusWisard.train1G f g lf s w img l).1.1 ll j
      refine ⟨choiceAt ⟨rnd, lf⟩ i env, ?_⟩
      rw [choiceAt_self]
      revert he hr
      rcases ClusWisard.train1G f g lf s w img l with ⟨⟨w', r⟩, s'⟩
      intro hr he
      rw [← hr]
      cases r with
      | error e => rfl
      | ok _ => exact he.trans (clus_semiLoop_cut imgs (i + 1) w' ll j (fun k hk => (choiceAt_ne env (by omega)).symm))

theorem cgstep_eq (f : Flt) (g : CRand) (lf : Bool) (w : ClusWisard) (s : g.S) (c : CCall) :
    ∃ op : COp, op.call = c ∧ (cgstep f g lf w s c).1 = cstep f w op := by
  cases c with
  | train images labels =>
    obtain ⟨env, he⟩ := clus_trainLoopG_eq f g lf (images.zip labels) s w 0
    refine ⟨.train env images labels, rfl, ?_⟩
    show (ClusWisard.trainG f g lf s w images labels).1 = (match w.trainChecks images labels with
      | .error e => (w, .error e)
      | .ok () => w.trainLoop f env (images.zip labels) 0)
    unfold ClusWisard.trainG
    cases w.trainChecks images labels with
    | error e => rfl
    | ok _ => exact he
  | semi images labels =>
    obtain ⟨env, he⟩ := clus_semiLoopG_eq f g lf labels images s 0 w (List.replicate (images.length - labels.length) 0) 0
    generalize hg : ClusWisard.semiLoopG f g lf labels s images 0 w (List.replicate (images.length - labels.length) 0) 0 = p at he
    obtain ⟨⟨w', r⟩, s'⟩ := p
    have own : ∀ imgs : List (List Int), ∃ env : Nat → Env, (ClusWisard.ownLoopG f g lf s' w' imgs).1 = w'.ownLoop f env imgs 0 :=
      fun imgs => clus_ownLoopG_eq f g lf imgs s' w' 0
    have key : ∃ env' : Nat → Env, (match r with
        | .error e => ((w', .error e), s')
        | .ok labelless =>
          if labelless.length = images.length then ((w', .error (.throw .noValidIndex)), s')
          else ClusWisard.ownLoopG f g lf s' w' (images.take labelless.length) : (ClusWisard × Res Unit) × g.S).1 =
        (match r with
        | .error e => (w', .error e)
        | .ok labelless =>
          if labelless.length = images.length then (w', .error (.throw .noValidIndex))
          else w'.ownLoop f env' (images.take labelless.length) 0) := by
      cases r with
      | error e => exact ⟨env, rfl⟩
      | ok ll =>
        dsimp only
        by_cases h : ll.length = images.length
        · exact ⟨env, by rw [if_pos h, if_pos h]⟩
        · obtain ⟨env', he'⟩ := own (images.take ll.length)
          exact ⟨env', by rw [if_neg h, if_neg h]; exact he'⟩
    obtain ⟨env', hk⟩ := key
    refine ⟨.semi (fun b => if b then env' else env) images labels, rfl, ?_⟩
    show (ClusWisard.trainSemiG f g lf s w images labels).1 = (match w.semiChecks images labels with
      | .error e => (w, .error e)
      | .ok () =>
        match ClusWisard.semiLoop f env labels images 0 w (List.replicate (images.length - labels.length) 0) 0 with
        | (w', .error e) => (w', .error e)
        | (w', .ok labelless) =>
          if labelless.length = images.length then (w', .error (.throw .noValidIndex))
          else w'.ownLoop f env' (images.take labelless.length) 0)
    unfold ClusWisard.trainSemiG
    rw [← he, hg]
    cases w.semiChecks images labels with
    | error e => rfl
    | ok _ =>
      dsimp only
      cases r with
      | error e => rfl
      | ok ll => exact hk
  | unsup images =>
    show ∃ op : COp, op.call = .unsup images ∧ (ClusWisard.trainUnsupervisedG f g lf s w images).1 = cstep f w op
    unfold ClusWisard.trainUnsupervisedG
    by_cases h0 : w.clusters.length = 0
    · rw [if_pos h0]
      cases images with
      | nil =>
        refine ⟨.unsup (fun _ => ⟨Rnd.id, lf⟩) [], rfl, ?_⟩
        show _ = w.trainUnsupervised f (fun _ => ⟨Rnd.id, lf⟩) []
        unfold ClusWisard.trainUnsupervised
        rw [if_pos h0]
      | cons i0 imgs =>
        obtain ⟨env, he⟩ := clus_unsupLoopG_eq f g lf (i0 :: imgs) s { w with unsupervisedCluster := Cluster.create { w.clusterCfg i0.length with base := 2 } } 0
        refine ⟨.unsup env (i0 :: imgs), rfl, ?_⟩
        show _ = w.trainUnsupervised f env (i0 :: imgs)
        unfold ClusWisard.trainUnsupervised
        rw [if_pos h0]
        exact he
    · rw [if_neg h0]
      obtain ⟨env, he⟩ := clus_unsupLoopG_eq f g lf images s w 0
      refine ⟨.unsup env images, rfl, ?_⟩
      show _ = w.trainUnsupervised f env images
      unfold ClusWisard.trainUnsupervised
      rw [if_neg h0]
      exact he
  | mental it l => exact ⟨.mental it l, rfl, rfl⟩

/-! ## C181 -/

/-- C181: the ClusWisard of a process, whatever else the process does with the generator, is the result of the same calls with some
random choices, replies included: what the other properties say for all random choices holds for it. -/
theorem C181_process (f : Flt) (g : CRand) (lf : Bool) (ops : List (CGOp g.S)) : ∀ (w : ClusWisard) (s : g.S),
    ∃ cops : List COp, cops.map COp.call = ccalls ops ∧ cgplay f g lf w s ops = cplay f w cops := by
  induction ops with
  | nil => intro w s; exact ⟨[], rfl, rfl⟩
  | cons o ops ih =>
    intro w s
    cases o with
    | other s' => exact ih w s'
    | call c =>
      obtain ⟨op, h1, h2⟩ := cgstep_eq f g lf w s c
      obtain ⟨cops, h3, h4⟩ := ih (cgstep f g lf w s c).1.1 (cgstep f g lf w s c).2
      refine ⟨op :: cops, by rw [List.map_cons, h1, h3]; rfl, ?_⟩
      simp only [cgplay, cplay, h4, ← h2]

/-- C181: two ClusWisards made with the same arguments in the same second, whatever their processes did before, and then used alike
are equal, with equal replies. -/
theorem C181_same_second (f : Flt) (g : CRand) (lf : Bool) (now : Nat) (s s' : g.S) (A : Int) (ms : Rat) (t dl : Int) (o : ClusOpts)
    (w : ClusWisard) (h : (ClusWisard.createG g now s A ms t dl o).1 = .ok w) (ops : List (CGOp g.S)) :
    (ClusWisard.createG g now s' A ms t dl o).1 = .ok w ∧
    cgplay f g lf w (ClusWisard.createG g now s A ms t dl o).2 ops = cgplay f g lf w (ClusWisard.createG g now s' A ms t dl o).2 ops := by
  refine ⟨h, ?_⟩
  unfold ClusWisard.createG
  rw [show reseed g now s 1000000 = reseed g now s' 1000000 from reseed_same g now s s' 1000000]

/-- C181: at all times and in all processes, the same construction and calls lead to at most 1000001 different ClusWisards. -/
theorem C181_few (f : Flt) (g : CRand) (lf : Bool) (A : Int) (ms : Rat) (t dl : Int) (o : ClusOpts) (calls : List CCall) :
    ∃ L : List (ClusWisard × List (Res Unit)), L.length ≤ 1000001 ∧
      ∀ now s w, (ClusWisard.createG g now s A ms t dl o).1 = .ok w →
        cgplay f g lf w (ClusWisard.createG g now s A ms t dl o).2 (calls.map .call) ∈ L := by
  cases hw : ClusWisard.create A ms t dl o with
  | error e =>
    refine ⟨[], by simp, fun now s w h => ?_⟩
    have h : ClusWisard.create A ms t dl o = .ok w := h
    rw [hw] at h
    cases h
  | ok w0 =>
    refine ⟨(List.range 1000001).map fun k => cgplay f g lf w0 (g.srand k) (calls.map .call), by rw [List.length_map, List.length_range], ?_⟩
    intro now s w h
    have h : ClusWisard.create A ms t dl o = .ok w := h
    rw [hw] at h
    injection h with h
    subst h
    refine List.mem_map.mpr ⟨(g.rand (g.srand now)).1 % 1000001, List.mem_range.mpr (Nat.mod_lt _ (by omega)), ?_⟩
    have hs : reseed g now s 1000000 = g.srand ((g.rand (g.srand now)).1 % 1000001) := reseed_eq g now s 1000000
    show _ = cgplay f g lf w0 (reseed g now s 1000000) (calls.map .call)
    rw [hs]

/-- The discriminator of a new class, when training succeeds. -/
theorem clus_new_class (f : Flt) (g : CRand) (lf : Bool) (s : g.S) (w : ClusWisard) (img : List Int) (l : Str) (hn : w.clusters.find l = none)
    (hok : (ClusWisard.train1G f g lf s w img l).1.2 = .ok ()) :
    ∃ d d', (Discriminator.setRAMShuffleG g s img.length w.addressSize w.opts.ignoreZero w.opts.completeAddressing w.opts.base).1 = .ok d ∧
      d.train (.vec img) = (d', .ok ()) ∧
      (ClusWisard.train1G f g lf s w img l).1.1 = { w with clusters := w.clusters.set l ⟨some (w.clusterCfg img.length), [some d']⟩ } := by
  revert hok
  unfold ClusWisard.train1G
  rw [hn]
  dsimp only
  unfold ClusWisard.trainInG
  dsimp only
  rw [SMap.find_set_self, Option.getD_some, SMap.set_set]
  unfold Cluster.trainG Cluster.trainNewG
  rw [show (Cluster.create (w.clusterCfg img.length)).discriminators = [] from rfl, show (Cluster.create (w.clusterCfg img.length)).cfg = some (w.clusterCfg img.length) from rfl]
  rw [if_pos (show ([] : List (Option Discriminator)).length = 0 from rfl)]
  dsimp only [ClusWisard.clusterCfg]
  rcases Discriminator.setRAMShuffleG g s img.length w.addressSize w.opts.ignoreZero w.opts.completeAddressing w.opts.base with ⟨r, s'⟩
  cases r with
  | error e =>
    dsimp only
    cases lf with
    | true => intro h; cases h
    | false => intro h; cases h
  | ok d =>
    dsimp only
    intro h
    refine ⟨d, (d.train (.vec img)).1, rfl, ?_, rfl⟩
    rw [← h]

/-- C181: if a Wisard or a ClusWisard is made between two trainings, all in one second, the first discriminators of the two new
classes read the same pixels. -/
theorem C181_repeated_wiring (f : Flt) (g : CRand) (lf : Bool) (now : Nat) (s s' : g.S) (w : ClusWisard) (img img' : List Int) (l l' : Str)
    (hne : l ≠ l') (hlen : img.length = img'.length) (hl : w.clusters.find l = none) (hl' : w.clusters.find l' = none)
    (p q : (ClusWisard × Res Unit) × g.S)
    (hp : p = ClusWisard.train1G f g lf (reseed g now s 1000000) w img l)
    (hq : q = ClusWisard.train1G f g lf (reseed g now s' 1000000) p.1.1 img' l') (h1 : p.1.2 = .ok ()) (h2 : q.1.2 = .ok ()) :
    ∃ d d' : Discriminator, (q.1.1.clusters.find l).map Cluster.discriminators = some [some d] ∧
      (q.1.1.clusters.find l').map Cluster.discriminators = some [some d'] ∧ d.mapping = d'.mapping := by
  subst hp
  obtain ⟨d, e, a1, a2, a3⟩ := clus_new_class f g lf _ w img l hl h1
  rw [a3] at hq
  subst hq
  have hl2 : (w.clusters.set l ⟨some (w.clusterCfg img.length), [some e]⟩).find l' = none := by
    rw [SMap.find_set_ne _ _ (Ne.symm hne)]; exact hl'
  obtain ⟨d2, e2, b1, b2, b3⟩ := clus_new_class f g lf _ { w with clusters := w.clusters.set l ⟨some (w.clusterCfg img.length), [some e]⟩ } img' l' hl2 h2
  have hs : reseed g now s' 1000000 = reseed g now s 1000000 := reseed_same g now s' s 1000000
  rw [hs, ← hlen, a1] at b1
  injection b1 with b1
  subst b1
  refine ⟨e, e2, ?_, ?_, ?_⟩
  · rw [b3]
    show ((SMap.set (w.clusters.set l _) l' _).find l).map _ = _
    rw [SMap.find_set_ne _ _ hne, SMap.find_set_self]; rfl
  · rw [b3]
    show ((SMap.set (w.clusters.set l _) l' _).find l').map _ = _
    rw [SMap.find_set_self]; rfl
  · rw [train_mapping a2, train_mapping b2]


/-! ## Concrete cases -/

/-- Two trainings of new classes in a ClusWisard with 2-bit RAMs made in the second 1700000000, with another constructor in the same
second between them or not; the pixels that the discriminators of the classes read. -/
def randClus (again : Bool) : Res (List (List (List Int))) := do
  let t := ClusWisard.train1G Flt.exact lcg true (reseed lcg 1700000000 (lcg.srand 7) 1000000) cw0 [1, 1, 1, 1, 1, 1] b!"a"
  let s := if again then reseed lcg 1700000000 t.2 1000000 else t.2
  let u := ClusWisard.train1G Flt.exact lcg true s t.1.1 [0, 0, 0, 1, 1, 1] b!"b"
  let _ ← t.1.2
  let _ ← u.1.2
  .ok (u.1.1.clusters.flatMap fun e => e.2.discriminators.flatMap fun d => (d.map Discriminator.mapping).toList)

example : randClus false = .ok [[[3, 4], [1, 2], [5, 0]], [[5, 1], [0, 2], [4, 3]]] := by decide +kernel
example : randClus true = .ok [[[3, 4], [1, 2], [5, 0]], [[3, 4], [1, 2], [5, 0]]] := by decide +kernel

/-- That ClusWisard can be made. -/
example : (ClusWisard.createG lcg 1700000000 (lcg.srand 7) 2 (1 / 2) 10 3 {}).1 = .ok cw0 := by decide +kernel

/-- The hypotheses of `C181_repeated_wiring` are met by that process. -/
example : cw0.clusters.find b!"a" = none ∧ cw0.clusters.find b!"b" = none ∧
    (ClusWisard.train1G Flt.exact lcg true (reseed lcg 1700000000 (lcg.srand 7) 1000000) cw0 [1, 1, 1, 1, 1, 1] b!"a").1.2 = .ok () := by
  decide +kernel

end Wis
