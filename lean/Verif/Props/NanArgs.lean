import Verif.Model.NanArgs
import Verif.Lemmas.Cluster
import Verif.Props.KernelCanvas
/-!
# Float arguments that are not numbers: C131
-/

namespace Wis
open Spec

/-! ## ClusWisard -/

/-- **C131**, what holds: infinite values of `minScore` are rejected; on numbers the check is the one of the model. Missing: NaN
(`C131_refuted_minScore`). -/
theorem C131_minScore_partial (threshold limit : Int) :
    (∀ s, ClusWisard.checkConfigInputsF (.inf s) threshold limit = .error (.throw .minScore)) ∧
    (∀ q : Rat, ClusWisard.checkConfigInputsF (.fin q) threshold limit = ClusWisard.checkConfigInputs q threshold limit) ∧
    (∀ q : Rat, q < 0 ∨ 1 < q → ClusWisard.checkConfigInputsF (.fin q) threshold limit = .error (.throw .minScore)) := by
  have h : ∀ q : Rat, ClusWisard.checkConfigInputsF (.fin q) threshold limit = ClusWisard.checkConfigInputs q threshold limit := by
    intro q
    unfold ClusWisard.checkConfigInputsF ClusWisard.checkConfigInputs
    simp only [F32.lt, Bool.or_eq_true, decide_eq_true_eq, gt_iff_lt]
  refine ⟨fun s => by cases s <;> rfl, h, fun q hq => ?_⟩
  rw [h]
  unfold ClusWisard.checkConfigInputs
  rw [if_pos hq]

/-- **C131 is false**: a NaN `minScore` is accepted. -/
theorem C131_refuted_minScore (threshold limit : Int) (ht : 1 ≤ threshold) (hl : 1 ≤ limit) :
    ClusWisard.checkConfigInputsF .nan threshold limit = .ok () := by
  unfold ClusWisard.checkConfigInputsF
  rw [if_neg (by decide), if_neg (by omega), if_neg (by omega)]

namespace Cluster

theorem rnd_pos (f : Flt) {n : Nat} (h : n ≠ 0) : 0 < f.rnd n := by
  have h1 : (1 : Rat) ≤ n := by exact_mod_cast Nat.one_le_iff_ne_zero.mpr h
  have := f.mono h1
  rw [f.one] at this
  exact lt_of_lt_of_le (by norm_num) this

theorem limitF_fin (f : Flt) (c : ClusterCfg) (ht : c.threshold ≠ 0) (x : Rat) (count : Int) :
    F32.numGe x (limitF f (.fin c.minScore) c.threshold count) = decide (x ≥ limit f c count) := by
  unfold limitF limit F32.quot
  rw [if_neg (ne_of_gt (rnd_pos f ht))]
  simp only [F32.add, F32.lt, decide_eq_true_eq, gt_iff_lt]
  split <;> rfl

theorem scanF_fin (f : Flt) (c : ClusterCfg) (ht : c.threshold ≠ 0) (img : Image) (ds : List (Option Discriminator)) : ∀ (i : Nat) (bv : Rat) (b : Option Nat) (tr : Bool),
    scanF f (.fin c.minScore) c.threshold img ds i bv b tr = scan f c img ds i bv b tr := by
  induction ds with
  | nil => intros; rfl
  | cons d ds ih =>
    intro i bv b tr
    cases d with
    | none => rfl
    | some d =>
      simp only [scanF, scan, limitF_fin f c ht, decide_eq_true_eq, ih]
      cases d.classify img with
      | error e => rfl
      | ok votes =>
        simp only
        split
        · rcases d.train img with ⟨d', e | ⟨⟩⟩ <;> rfl
        · rfl

/-- For a `minScore` that is a number and a threshold other than 0 `trainF` is `train`. -/
theorem trainF_fin (f : Flt) {cl : Cluster} {c : ClusterCfg} (hc : cl.cfg = some c) (ht : c.threshold ≠ 0) (env : Env) (img : Image) :
    trainF f (.fin c.minScore) cl env img = train f cl env img := by
  unfold trainF train
  rw [hc]
  simp only [scanF_fin f c ht]
  split
  · rfl
  · rcases scan f c img cl.discriminators 0 0 none false with ⟨ds, e | ⟨b, tr⟩⟩
    · rfl
    · simp only
      split
      · rfl
      · split
        · rfl
        · cases b <;> rfl

/-- With NaN no discriminator is similar enough. -/
theorem scanF_nan (f : Flt) (th : Nat) (img : Image) (ds : List (Option Discriminator)) : ∀ (i : Nat) (bv : Rat) (b : Option Nat) (tr : Bool)
    (ds' : List (Option Discriminator)) (b' : Option Nat) (tr' : Bool), scanF f .nan th img ds i bv b tr = (ds', .ok (b', tr')) → ds' = ds ∧ tr' = tr := by
  induction ds with
  | nil =>
    intro i bv b tr ds' b' tr' h
    simp only [scanF, Prod.mk.injEq, Except.ok.injEq] at h
    exact ⟨h.1.symm, h.2.2.symm⟩
  | cons d ds ih =>
    intro i bv b tr ds' b' tr' h
    cases d with
    | none => simp [scanF] at h
    | some d =>
      have hn : ∀ x, F32.numGe x (limitF f .nan th d.getNumberOfTrainings) = false := by
        intro x
        unfold limitF
        have : ∀ q, F32.add f.rnd .nan q = .nan := fun q => by cases q <;> rfl
        rw [this]
        rfl
      simp only [scanF, hn] at h
      cases hv : d.classify img with
      | error e => rw [hv] at h; simp at h
      | ok votes =>
        rw [hv] at h
        simp only [Bool.false_eq_true, if_false] at h
        generalize hs : scanF f .nan th img ds (i + 1) _ _ tr = r at h
        rcases r with ⟨r1, r2⟩
        simp only [Prod.mk.injEq] at h
        obtain ⟨rfl, rfl⟩ := h
        obtain ⟨rfl, rfl⟩ := ih _ _ _ _ _ _ _ hs
        exact ⟨rfl, rfl⟩

theorem trainAt_length (ds : List (Option Discriminator)) (i : Nat) (img : Image) : (trainAt ds i img).1.length = ds.length := by
  unfold trainAt
  split
  · simp
  · rfl

theorem trainAt_others (ds : List (Option Discriminator)) (i : Nat) (img : Image) (j : Nat) (h : j ≠ i) : (trainAt ds i img).1[j]? = ds[j]? := by
  unfold trainAt
  split
  · rw [List.getElem?_set_ne (by omega)]
  · rfl

end Cluster

/-- **C131**, the consequence: with a NaN `minScore` a successful training of an image adds a discriminator for it alone as long as there is room,
leaving the others untouched, however similar the image is to what they have learnt; later it changes at most one discriminator. -/
theorem C131_nan_train (f : Flt) (cl : Cluster) (c : ClusterCfg) (hc : cl.cfg = some c) (hl : 1 ≤ c.discriminatorsLimit) (env : Env) (img : Image) (cl' : Cluster)
    (h : cl.trainF f .nan env img = (cl', .ok ())) : cl'.cfg = some c ∧
    ((cl.discriminators.length : Int) < c.discriminatorsLimit → ∃ d, cl'.discriminators = cl.discriminators ++ [some d]) ∧
    (c.discriminatorsLimit ≤ cl.discriminators.length → cl'.discriminators.length = cl.discriminators.length ∧
      ∃ i, ∀ j : Nat, j ≠ i → cl'.discriminators[j]? = cl.discriminators[j]?) := by
  unfold Cluster.trainF at h
  split at h
  · rename_i h0
    obtain ⟨c', d0, d1, h1, _, _, rfl⟩ := trainNew_ok h
    obtain rfl : c' = c := Option.some.inj (h1.symm.trans hc)
    exact ⟨rfl, fun _ => ⟨d1, rfl⟩, fun h2 => by omega⟩
  · rw [hc] at h
    simp only at h
    generalize hs : Cluster.scanF f .nan c.threshold img cl.discriminators 0 0 none false = r at h
    rcases r with ⟨ds, e | ⟨b, tr⟩⟩
    · simp at h
    · obtain ⟨rfl, rfl⟩ := Cluster.scanF_nan f _ img _ _ _ _ _ _ _ _ hs
      simp only [Bool.false_eq_true, if_false] at h
      split at h
      · rename_i hlt
        obtain ⟨c', d0, d1, h1, _, _, rfl⟩ := trainNew_ok h
        obtain rfl : c' = c := Option.some.inj h1.symm
        exact ⟨rfl, fun _ => ⟨d1, rfl⟩, fun h2 => by omega⟩
      · rename_i hge
        cases b with
        | none =>
          simp only [Prod.mk.injEq] at h
          obtain ⟨rfl, _⟩ := h
          exact ⟨rfl, fun h => absurd h hge, fun _ => ⟨rfl, 0, fun _ _ => rfl⟩⟩
        | some i =>
          simp only [Prod.mk.injEq] at h
          obtain ⟨rfl, _⟩ := h
          exact ⟨rfl, fun h => absurd h hge, fun _ => ⟨Cluster.trainAt_length _ _ _, i, fun j hj => Cluster.trainAt_others _ _ _ _ hj⟩⟩

/-- The cluster after training the images one by one; `none` if a training does not succeed. -/
def trainAllF (f : Flt) (minScore : F32) (env : Nat → Env) : Nat → Cluster → List Image → Option Cluster
  | _, cl, [] => some cl
  | i, cl, img :: imgs =>
    match cl.trainF f minScore (env i) img with
    | (cl', .ok ()) => trainAllF f minScore env (i + 1) cl' imgs
    | _ => none

/-- **C131**, the consequence for a class: its number of discriminators is the number of images trained, up to `discriminatorsLimit`, even if
all images are equal. -/
theorem C131_nan_class (f : Flt) (c : ClusterCfg) (hl : 1 ≤ c.discriminatorsLimit) (env : Nat → Env) (imgs : List Image) (cl : Cluster)
    (h : trainAllF f .nan env 0 (Cluster.create c) imgs = some cl) : (cl.getSize : Int) = min (imgs.length : Int) c.discriminatorsLimit := by
  have key : ∀ (imgs : List Image) (i : Nat) (cl0 : Cluster), cl0.cfg = some c → (cl0.discriminators.length : Int) ≤ c.discriminatorsLimit →
      trainAllF f .nan env i cl0 imgs = some cl → (cl.getSize : Int) = min (cl0.discriminators.length + imgs.length : Int) c.discriminatorsLimit := by
    intro imgs
    induction imgs with
    | nil =>
      intro i cl0 hc hle h
      simp only [trainAllF, Option.some.injEq] at h
      subst h
      unfold Cluster.getSize
      simp only [List.length_nil]
      omega
    | cons img imgs ih =>
      intro i cl0 hc hle h
      simp only [trainAllF] at h
      generalize hr : cl0.trainF f .nan (env i) img = r at h
      rcases r with ⟨cl1, e | ⟨⟩⟩
      · simp at h
      · obtain ⟨h1, h2, h3⟩ := C131_nan_train f cl0 c hc hl (env i) img cl1 hr
        simp only at h
        rw [List.length_cons]
        by_cases hlt : (cl0.discriminators.length : Int) < c.discriminatorsLimit
        · obtain ⟨d, hd⟩ := h2 hlt
          have hlen : cl1.discriminators.length = cl0.discriminators.length + 1 := by rw [hd]; simp
          have := ih (i + 1) cl1 h1 (by omega) h
          rw [hlen] at this
          omega
        · obtain ⟨h4, _⟩ := h3 (by omega)
          have := ih (i + 1) cl1 h1 (by omega) h
          rw [h4] at this
          omega
  have := key imgs 0 (Cluster.create c) rfl (by show ((0 : Nat) : Int) ≤ _; omega) h
  rw [this]
  show min (((0 : Nat) : Int) + _) _ = _
  omega

/-- Three times the same image: three discriminators with NaN, one with `minScore` 1/2. -/
example : let c : ClusterCfg := ⟨2, 4, 1/2, 10, 5, true, false, 2⟩
    let img : Image := .vec [1, 0, 1, 1]
    (trainAllF Flt.exact .nan (fun _ => ⟨Rnd.id, true⟩) 0 (Cluster.create c) [img, img, img]).map Cluster.getSize = some 3 ∧
    (trainAllF Flt.exact (.fin (1/2)) (fun _ => ⟨Rnd.id, true⟩) 0 (Cluster.create c) [img, img, img]).map Cluster.getSize = some 1 := by
  decide +kernel

/-! ## KernelCanvas -/

/-- **C131**, what holds: infinite activation degrees are rejected; on numbers the constructor is the one of the model. Missing: NaN
(`C131_refuted_degree`). -/
theorem C131_degree_partial (f : Flt) (o : FOps) (rand : Nat → Nat → o.F) (dim N bits : Int) (ud : Bool) :
    (∀ s, ∃ t, KernelCanvas.createF f o rand dim N bits (.inf s) ud = .error (.throw t)) ∧
    (∀ q : Rat, KernelCanvas.createF f o rand dim N bits (.fin q) ud = KernelCanvas.create f o rand dim N bits q ud) := by
  constructor
  · intro s
    unfold KernelCanvas.createF KernelCanvas.checkInputsF
    split; · exact ⟨_, rfl⟩
    split; · exact ⟨_, rfl⟩
    split; · exact ⟨_, rfl⟩
    rw [if_pos (by cases s <;> decide)]
    exact ⟨_, rfl⟩
  · intro q
    unfold KernelCanvas.createF KernelCanvas.create KernelCanvas.checkInputsF KernelCanvas.checkInputs
    simp only [F32.lt, Bool.or_eq_true, decide_eq_true_eq, gt_iff_lt, KernelCanvas.timesKernels, KernelCanvas.intRound]

/-- **C131 is false** of KernelCanvas: with valid numbers and a NaN activation degree the constructor does not throw but converts NaN to an
`int`. -/
theorem C131_refuted_degree (f : Flt) (o : FOps) (rand : Nat → Nat → o.F) (dim N bits : Int) (ud : Bool) (h1 : 1 ≤ N) (h2 : 1 ≤ dim) (h3 : 1 ≤ bits) :
    KernelCanvas.createF f o rand dim N bits .nan ud = .error (.ub .overflow) := by
  unfold KernelCanvas.createF KernelCanvas.checkInputsF
  rw [if_neg (by omega), if_neg (by omega), if_neg (by omega), if_neg (by decide)]
  rfl

end Wis
