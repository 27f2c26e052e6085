import Verif.Lemmas.RecodeSim
/-!
# Properties C165, C166: pixel values are only names for Discriminators and ClusWisards
-/

namespace Wis
open Spec

theorem DRec.play {R : Image → Image → Prop} {ops ops' : List Op}
    (ho : List.Forall₂ (fun o o' : Op => R o.img o'.img ∧ o.isTrain = o'.isTrain) ops ops') : ∀ {d d' : Discriminator}, DRec R d d' →
    DRec R (Spec.play d ops).1 (Spec.play d' ops').1 ∧ (Spec.play d' ops').2 = (Spec.play d ops).2 := by
  induction ho with
  | nil => intro d d' h; exact ⟨h, rfl⟩
  | @cons o o' ops ops' h1 _ ih =>
    intro d d' h
    cases o with
    | train x =>
      cases o' with
      | untrain x' => cases h1.2
      | train x' =>
        obtain ⟨a, b⟩ := h.train h1.1
        obtain ⟨c, e⟩ := ih a
        exact ⟨c, by simp only [Spec.play, Op.img] at *; rw [b, e]⟩
    | untrain x =>
      cases o' with
      | train x' => cases h1.2
      | untrain x' =>
        obtain ⟨a, b⟩ := h.untrain h1.1
        obtain ⟨c, e⟩ := ih a
        exact ⟨c, by simp only [Spec.play, Op.img] at *; rw [b, e]⟩

/-- **C165**: pixel values are only names. Two Discriminators made by the same constructor call, `base` excepted, and wired inside
the entry. One receives images in `c` colours, the other the same pictures in `c'` colours (within their bases). Every call of any
sequence of trainings and untrainings has the same outcome, also if it fails, and afterwards every picture gets the same votes. -/
theorem C165_discriminator {rnd : Rnd} {A n : Nat} {o : Options} {base' : Int} {d d' : Discriminator}
    (h : Discriminator.create rnd A n o = .ok d) (h' : Discriminator.create rnd A n { o with base := base' } = .ok d')
    (hi : WiredInside n d.mapping) {c c' : Int} (hc : c ≤ o.base) (hc' : c' ≤ base') {φ : Int → Int → Int}
    (hf : Faithful o.ignoreZero c φ) {ops ops' : List Op} (hops : List.Forall₂ (TwinCall n c c' φ) ops ops') :
    (play d' ops').2 = (play d ops).2 ∧ (play d' ops').1.getNumberOfTrainings = (play d ops).1.getNumberOfTrainings ∧
    ∀ x x', Twin n c c' φ x x' → (play d' ops').1.classify x' = (play d ops).1.classify x := by
  have hd := dRec_fresh h h' (create_same h h') hi rfl hf hc hc'
  obtain ⟨a, b⟩ := DRec.play (hops.imp (by
    rintro _ _ (⟨h⟩ | ⟨h⟩)
    · exact ⟨h, rfl⟩
    · exact ⟨h, rfl⟩)) hd
  exact ⟨b, a.count, fun x x' hx => a.classify hx⟩

/-- A picture with four pixels, and its negative. -/
def negOps : List Op := [.train (.vec [1, 0, 1, 1]), .untrain (.vec [0, 0, 0, 1]), .train (.vec [1, 0, 0, 1])]
def negOps' : List Op := [.train (.vec [0, 1, 0, 0]), .untrain (.vec [1, 1, 1, 0]), .train (.vec [0, 1, 1, 0])]

theorem bits_valid (l : List Int) (h : ∀ v ∈ l, v = 0 ∨ v = 1) : ValidImage l.length 2 (.vec l) := by
  refine ⟨rfl, fun i hi => ?_⟩
  change i < l.length at hi
  refine ⟨l[i], by simp [Image.read, hi], ?_⟩
  rcases h l[i] (List.getElem_mem hi) with e | e <;> rw [e] <;> decide

theorem negative_twin (l : List Int) (h : ∀ v ∈ l, v = 0 ∨ v = 1) (n : Int) (hn : n = l.length) :
    Twin n 2 2 (fun _ v => 1 - v) (.vec l) (.vec (l.map (fun v => 1 - v))) := by
  subst hn
  refine ⟨bits_valid l h, ?_, ?_⟩
  · have := bits_valid (l.map (fun v => 1 - v)) (by
      intro v hv
      obtain ⟨u, hu, rfl⟩ := List.mem_map.mp hv
      rcases h u hu with e | e <;> rw [e] <;> decide)
    rwa [List.length_map] at this
  · intro a ha b hb v hv
    rw [List.mem_singleton.mp hb] at hv ⊢
    have ha : a < l.length := by omega
    have hr : ∀ l' : List Int, ∀ h : a < l'.length, Image.read (.vec l') (a : Int) = .ok l'[a] := by
      intro l' h; simp [Image.read, h]
    rw [hr l ha] at hv
    rw [id, hr (l.map (fun v => 1 - v)) (by simpa using ha), ← Except.ok.inj hv]
    simp

/-- The hypotheses of C165 are met: a history and its negative. -/
example : (∃ d, Discriminator.create Rnd.id (2 : Nat) (4 : Nat) {} = .ok d ∧ WiredInside (4 : Nat) d.mapping) ∧
    (∃ d', Discriminator.create Rnd.id (2 : Nat) (4 : Nat) { base := 7 } = .ok d') ∧
    Faithful false 2 (fun _ v => 1 - v) ∧ List.Forall₂ (TwinCall (4 : Nat) 2 2 (fun _ v => 1 - v)) negOps negOps' :=
  ⟨⟨_, rfl, by decide⟩, (C18_default_wiring Rnd.id 2 4 { base := 7 } rfl rfl).1 (by decide) (by decide) (by decide) (by decide) (by decide), ⟨fun _ _ _ _ _ _ _ h => by omega, fun h => by cases h⟩,
    .cons (.train (negative_twin [1, 0, 1, 1] (by decide) _ rfl)) (.cons (.untrain (negative_twin [0, 0, 0, 1] (by decide) _ rfl))
      (.cons (.train (negative_twin [1, 0, 0, 1] (by decide) _ rfl)) .nil))⟩

/-! ## ClusWisard -/

theorem faithful_mono {z : Bool} {c c' : Int} {φ : Int → Int → Int} (h : Faithful z c φ) (hc : c' ≤ c) : Faithful z c' φ :=
  ⟨fun a v v' h1 h2 h3 h4 => h.inj a v v' h1 (by omega) h3 (by omega), fun hz a v h1 h2 => h.zero hz a v h1 (by omega)⟩

theorem cfgRec {A n : Nat} {c c' b b' : Int} {φ : Int → Int → Int} {cf : ClusterCfg} (hA : cf.addressSize = A) (hn : cf.entrySize = n)
    (h2 : 2 ≤ A) (hAn : A ≤ n) (hs : n + A ≤ 2147483647) (hb : 2 ≤ b) (hp : b ^ A < 2 ^ 63) (hb' : 2 ≤ b') (hp' : b' ^ A < 2 ^ 63)
    (hf : Faithful cf.ignoreZero c φ) (hc : c ≤ b) (hc' : c' ≤ b') :
    CfgRec (Twin n c c' φ) id { cf with base := b } { cf with base := b' } := by
  refine ⟨fun _ _ => rfl, rfl, fun rnd => ?_⟩
  have hcr : ∀ b : Int, Cluster.newDiscriminator rnd { cf with base := b } =
      Discriminator.create rnd A n { ignoreZero := cf.ignoreZero, completeAddressing := cf.completeAddressing, base := b } := by
    intro b
    unfold Cluster.newDiscriminator Discriminator.create
    simp [hA, hn]
  obtain ⟨d, hd⟩ := (C18_default_wiring rnd A n { ignoreZero := cf.ignoreZero, completeAddressing := cf.completeAddressing, base := b } rfl rfl).1 h2 hAn hs hb hp
  obtain ⟨d', hd'⟩ := (C18_default_wiring rnd A n { ignoreZero := cf.ignoreZero, completeAddressing := cf.completeAddressing, base := b' } rfl rfl).1 h2 hAn hs hb' hp'
  have hw := ((C18_default_wiring rnd A n { ignoreZero := cf.ignoreZero, completeAddressing := cf.completeAddressing, base := b } rfl rfl).2 d hd).2.2.1
  exact ⟨d, d', (hcr b).trans hd, (hcr b').trans hd', dRec_fresh hd hd' (create_same hd hd') hw rfl hf hc hc'⟩

theorem CWRec.step {n c c' : Int} {φ : Int → Int → Int} {U : Prop} {f : Flt} {w w' : ClusWisard} (h : CWRec (Twin n c c' φ) id U w w') {o o' : COp}
    (ho : TwinOp n c c' φ o o') (hU : o.isUnsup = true → U) :
    CWRec (Twin n c c' φ) id U (cstep f w o).1 (cstep f w' o').1 ∧ (cstep f w' o').2 = (cstep f w o).2 := by
  cases ho with
  | train env labels hx => exact h.train env hx labels
  | semi env labels hx => exact h.trainSemi env hx labels
  | unsup env hx => exact h.trainUnsupervised (hU rfl) env hx

theorem CWRec.play {n c c' : Int} {φ : Int → Int → Int} {U : Prop} {f : Flt} {ops ops' : List COp} (ho : List.Forall₂ (TwinOp n c c' φ) ops ops') :
    ∀ {w w' : ClusWisard}, (∀ o ∈ ops, o.isUnsup = true → U) → CWRec (Twin n c c' φ) id U w w' →
    CWRec (Twin n c c' φ) id U (cplay f w ops).1 (cplay f w' ops').1 ∧ (cplay f w' ops').2 = (cplay f w ops).2 := by
  induction ho with
  | nil => intro w w' _ h; exact ⟨h, rfl⟩
  | @cons o o' ops ops' h1 _ ih =>
    intro w w' hU h
    obtain ⟨a, b⟩ := h.step (f := f) h1 (hU o (by simp))
    obtain ⟨k1, k2⟩ := ih (fun o ho => hU o (by simp [ho])) a
    simp only [cplay]
    exact ⟨k1, by rw [b, k2]⟩

/-- **C166**: pixel values are only names for a ClusWisard too. Two ClusWisards made by the same constructor call, `base` excepted;
one receives images in `c` colours, the other the same pictures in `c'` colours, with the same random numbers. If
`trainUnsupervised` is used (it always works with base 2) the images must have two colours. Every training call, supervised,
semi-supervised or unsupervised, has the same outcome, also if it fails; afterwards the classes are the same and every list of
pictures gets the same answers. -/
theorem C166_cluswisard {f : Flt} {A n : Nat} {minScore : Rat} {threshold lim : Int} {o : ClusOpts} {base' : Int} {w w' : ClusWisard}
    (h : ClusWisard.create A minScore threshold lim o = .ok w) (h' : ClusWisard.create A minScore threshold lim { o with base := base' } = .ok w')
    (hA : 2 ≤ A) (hAn : A ≤ n) (hn : n + A ≤ 2147483647) (hb : 2 ≤ o.base) (hp : o.base ^ A < 2 ^ 63) (hb' : 2 ≤ base')
    (hp' : base' ^ A < 2 ^ 63) {c c' : Int} (hc : c ≤ o.base) (hc' : c' ≤ base') {φ : Int → Int → Int} (hf : Faithful o.ignoreZero c φ)
    {ops ops' : List COp} (hops : List.Forall₂ (TwinOp n c c' φ) ops ops') (hU : ∀ op ∈ ops, op.isUnsup = true → c ≤ 2 ∧ c' ≤ 2) :
    (cplay f w' ops').2 = (cplay f w ops).2 ∧ (cplay f w' ops').1.clusters.keys = (cplay f w ops).1.clusters.keys ∧
    ∀ xs xs', Twins n c c' φ xs xs' →
      (cplay f w' ops').1.classify xs' = (cplay f w ops).1.classify xs ∧
      (cplay f w' ops').1.pyClassify xs' = (cplay f w ops).1.pyClassify xs ∧
      (cplay f w' ops').1.classifyUnsupervised xs' = (cplay f w ops).1.classifyUnsupervised xs := by
  unfold ClusWisard.create at h h'
  obtain ⟨_, _, h⟩ := bind_eq_ok h
  obtain ⟨_, _, h'⟩ := bind_eq_ok h'
  cases h
  cases h'
  have hr : CWRec (Twin n c c' φ) id (c ≤ 2 ∧ c' ≤ 2) ⟨A, minScore, threshold, lim, o, [], Cluster.default⟩
      ⟨A, minScore, threshold, lim, { o with base := base' }, [], Cluster.default⟩ := by
    refine ⟨rfl, rfl, fun x x' hx => ?_, .nil, ⟨.none, .nil⟩⟩
    have e1 : (x.length : Int) = n := hx.left.1
    have e2 : (x'.length : Int) = n := hx.right.1
    refine ⟨by omega, ?_, fun hu => ?_⟩
    · exact cfgRec (cf := ClusWisard.clusterCfg ⟨A, minScore, threshold, lim, o, [], Cluster.default⟩ x.length) rfl e1 hA hAn hn hb hp hb' hp' hf hc hc'
    · have h2 : (2 : Int) ^ A < 2 ^ 63 := lt_of_le_of_lt (pow_le_pow_left₀ (by decide) hb A) hp
      exact cfgRec (cf := ClusWisard.clusterCfg ⟨A, minScore, threshold, lim, o, [], Cluster.default⟩ x.length) rfl e1 hA hAn hn (by decide) h2
        (by decide) h2 hf hu.1 hu.2
  obtain ⟨k1, k2⟩ := CWRec.play (f := f) hops hU hr
  exact ⟨k2, k1.cls.keys, fun xs xs' hx => ⟨k1.classify hx, k1.pyClassify hx, k1.classifyUnsupervised hx⟩⟩

theorem twin_self {n c : Int} {x : Image} (h : ValidImage n c x) : Twin n c c (fun _ v => v) x x :=
  ⟨h, h, fun _ _ _ _ _ hv => hv⟩

/-- **C166**: a `base` larger than needed changes no answer of a ClusWisard. -/
theorem C166_base {f : Flt} {A n : Nat} {minScore : Rat} {threshold lim : Int} {o : ClusOpts} {base' : Int} {w w' : ClusWisard}
    (h : ClusWisard.create A minScore threshold lim o = .ok w) (h' : ClusWisard.create A minScore threshold lim { o with base := base' } = .ok w')
    (hA : 2 ≤ A) (hAn : A ≤ n) (hn : n + A ≤ 2147483647) (hb : 2 ≤ o.base) (hbb : o.base ≤ base') (hp' : base' ^ A < 2 ^ 63)
    {c : Int} (hc : c ≤ o.base) {ops : List COp} (ht : ∀ op ∈ ops, op.trains = true)
    (hv : ∀ op ∈ ops, ∀ x ∈ op.images, ValidImage n c (.vec x)) (hU : ∀ op ∈ ops, op.isUnsup = true → c ≤ 2) :
    (cplay f w' ops).2 = (cplay f w ops).2 ∧ (cplay f w' ops).1.clusters.keys = (cplay f w ops).1.clusters.keys ∧
    ∀ xs, (∀ x ∈ xs, ValidImage n c (.vec x)) →
      (cplay f w' ops).1.classify xs = (cplay f w ops).1.classify xs ∧
      (cplay f w' ops).1.pyClassify xs = (cplay f w ops).1.pyClassify xs ∧
      (cplay f w' ops).1.classifyUnsupervised xs = (cplay f w ops).1.classifyUnsupervised xs := by
  have hp : o.base ^ A < 2 ^ 63 := lt_of_le_of_lt (pow_le_pow_left₀ (by omega) hbb A) hp'
  have self : ∀ xs : List (List Int), (∀ x ∈ xs, ValidImage n c (.vec x)) → Twins n c c (fun _ v => v) xs xs := fun xs hx =>
    List.forall₂_same.mpr fun x h => twin_self (hx x h)
  obtain ⟨a1, a2, a3⟩ := C166_cluswisard (f := f) h h' hA hAn hn hb hp (by omega) hp' hc (by omega : c ≤ base')
    (φ := fun _ v => v) ⟨fun _ _ _ _ _ _ _ h => h, fun _ _ _ _ _ => Iff.rfl⟩ (ops := ops) (ops' := ops) (List.forall₂_same.mpr fun op ho => by
      have hx := hv op ho
      have hk := ht op ho
      cases op with
      | train env xs labels => exact .train env labels (self xs hx)
      | semi env xs labels => exact .semi env labels (self xs hx)
      | unsup env xs => exact .unsup env (self xs hx)
      | mental it l => cases hk) (fun op ho hu => ⟨hU op ho hu, hU op ho hu⟩)
  exact ⟨a1, a2, fun xs hx => a3 xs xs (self xs hx)⟩

/-- The hypotheses of C166 are met: a history with all three kinds of training and its negative. -/
example : (∃ w, ClusWisard.create (2 : Nat) (1/10) 3 2 {} = .ok w) ∧ (∃ w, ClusWisard.create (2 : Nat) (1/10) 3 2 { base := 5 } = .ok w) ∧
    Faithful false 2 (fun _ v => 1 - v) ∧
    List.Forall₂ (TwinOp (4 : Nat) 2 2 (fun _ v => 1 - v))
      [.unsup (fun _ => ⟨Rnd.id, true⟩) [[1, 0, 1, 1]], .train (fun _ => ⟨Rnd.id, true⟩) [[1, 0, 1, 1]] [b!"a"],
        .semi (fun _ _ => ⟨Rnd.id, true⟩) [[0, 0, 0, 1], [1, 0, 1, 1]] [(0, b!"b")]]
      [.unsup (fun _ => ⟨Rnd.id, true⟩) [[0, 1, 0, 0]], .train (fun _ => ⟨Rnd.id, true⟩) [[0, 1, 0, 0]] [b!"a"],
        .semi (fun _ _ => ⟨Rnd.id, true⟩) [[1, 1, 1, 0], [0, 1, 0, 0]] [(0, b!"b")]] :=
  ⟨⟨⟨2, 1/10, 3, 2, {}, [], Cluster.default⟩, by decide +kernel⟩, ⟨⟨2, 1/10, 3, 2, { base := 5 }, [], Cluster.default⟩, by decide +kernel⟩, ⟨fun _ _ _ _ _ _ _ h => by omega, fun h => by cases h⟩,
    .cons (.unsup _ (.cons (negative_twin [1, 0, 1, 1] (by decide) _ rfl) .nil))
      (.cons (.train _ _ (.cons (negative_twin [1, 0, 1, 1] (by decide) _ rfl) .nil))
        (.cons (.semi _ _ (.cons (negative_twin [0, 0, 0, 1] (by decide) _ rfl) (.cons (negative_twin [1, 0, 1, 1] (by decide) _ rfl) .nil))) .nil))⟩

end Wis
