import Verif.Props.ClusMore
import Verif.Props.RecodeClus
import Verif.Model.PyFloat
/-!
# C174: the `float` score of a discriminator; training one image again and again
-/

namespace Wis
open Spec

/-! ## The score in `float` arithmetic -/

theorem single_int {n : Int} (h : |n| ≤ 2 ^ 24) : Flt.single.rnd (n : Rat) = n :=
  Ieee.rnd_int (F := Ieee.single) (by decide) h

theorem topVote_ge (votes : List Int) : 0 ≤ topVote votes ∧ ∀ v ∈ votes, v ≤ topVote votes := by
  unfold topVote
  have gen : ∀ (l : List Int) (b : Int), b ≤ l.foldl max b ∧ ∀ v ∈ l, v ≤ l.foldl max b := by
    intro l
    induction l with
    | nil => intro b; simp
    | cons a l ih =>
      intro b
      obtain ⟨h1, h2⟩ := ih (max b a)
      rw [List.foldl_cons]
      refine ⟨by omega, ?_⟩
      intro v hv
      rcases List.mem_cons.mp hv with rfl | hv
      · omega
      · exact h2 v hv
  exact gen votes 0

theorem topVote_mem (votes : List Int) : topVote votes = 0 ∨ topVote votes ∈ votes := by
  unfold topVote
  have gen : ∀ (l : List Int) (b : Int), l.foldl max b = b ∨ l.foldl max b ∈ l := by
    intro l
    induction l with
    | nil => intro b; simp
    | cons a l ih =>
      intro b
      rw [List.foldl_cons]
      rcases ih (max b a) with h | h
      · rw [h]
        rcases max_choice b a with h' | h'
        · left; omega
        · right; rw [h']; simp
      · right; exact List.mem_cons_of_mem _ h
  exact gen votes 0

theorem sum_le_top (votes : List Int) (T : Int) (h : ∀ v ∈ votes, v ≤ T) : votes.sum ≤ T * votes.length := by
  induction votes with
  | nil => simp
  | cons a l ih =>
    have h1 := h a (by simp)
    have h2 := ih (fun v hv => h v (by simp [hv]))
    rw [List.sum_cons, List.length_cons]
    push_cast
    linarith

theorem sum_eq_top (votes : List Int) (T : Int) (h : ∀ v ∈ votes, v ≤ T) : votes.sum = T * votes.length ↔ ∀ v ∈ votes, v = T := by
  induction votes with
  | nil => simp
  | cons a l ih =>
    have h1 := h a (by simp)
    have h2 := fun v hv => h v (List.mem_cons_of_mem _ hv)
    have h3 := sum_le_top l T h2
    have ih := ih h2
    rw [List.sum_cons, List.length_cons]
    constructor
    · intro e
      push_cast at e
      have e1 : a = T := by linarith
      have e2 := ih.mp (by linarith)
      intro v hv
      rcases List.mem_cons.mp hv with rfl | hv
      · exact e1
      · exact e2 v hv
    · intro e
      rw [e a (by simp), ih.mpr (fun v hv => e v (by simp [hv]))]
      push_cast
      ring

theorem fsum_exact (votes : List Int) (h0 : ∀ v ∈ votes, 0 ≤ v) (hs : votes.sum ≤ 2 ^ 24) :
    fsum Flt.single votes = (votes.sum : Int) := by
  unfold fsum
  have gen : ∀ (vs : List Int) (s : Int), 0 ≤ s → (∀ v ∈ vs, 0 ≤ v) → s + vs.sum ≤ 2 ^ 24 →
      vs.foldl (fun (s : Rat) (v : Int) => Flt.single.rnd (s + Flt.single.rnd v)) (s : Rat) = ((s + vs.sum : Int) : Rat) := by
    intro vs
    induction vs with
    | nil => intro s _ _ _; simp
    | cons v vs ih =>
      intro s h1 h2 h3
      have hv := h2 v (by simp)
      have hr : 0 ≤ vs.sum := List.sum_nonneg (fun x hx => h2 x (by simp [hx]))
      rw [List.sum_cons] at h3
      rw [List.foldl_cons, single_int (n := v) (by rw [abs_of_nonneg hv]; linarith)]
      have e : (s : Rat) + (v : Rat) = ((s + v : Int) : Rat) := by push_cast; rfl
      rw [e, single_int (n := s + v) (by rw [abs_of_nonneg (by omega)]; linarith)]
      rw [ih (s + v) (by omega) (fun x hx => h2 x (by simp [hx])) (by linarith)]
      rw [List.sum_cons]
      push_cast
      ring
  have := gen votes 0 (by omega) h0 (by linarith)
  simpa using this

/-- C174: as long as the greatest vote times the number of RAMs is at most 2^24, the `float` score of a discriminator is the exact one (sum
of the votes over greatest vote times number of RAMs) rounded once; it lies between 0 and 1 and is 1 exactly if all RAMs give the
same vote. -/
theorem C174_score (votes : List Int) (h0 : ∀ v ∈ votes, 0 ≤ v) (hb : topVote votes * votes.length ≤ 2 ^ 24) (hz : topVote votes ≠ 0) :
    score Flt.single votes = r32 ((votes.sum : Int) / (topVote votes * votes.length : Int)) ∧
    0 ≤ score Flt.single votes ∧ score Flt.single votes ≤ 1 ∧
    (score Flt.single votes = 1 ↔ ∀ v ∈ votes, ∀ u ∈ votes, v = u) := by
  obtain ⟨t0, t1⟩ := topVote_ge votes
  have hmem : topVote votes ∈ votes := (topVote_mem votes).resolve_left hz
  have hlen : 1 ≤ (votes.length : Int) := by
    have := List.length_pos_of_mem hmem
    omega
  have hsle := sum_le_top votes _ t1
  have hs0 : 0 ≤ votes.sum := List.sum_nonneg h0
  have htl : 1 ≤ topVote votes * (votes.length : Int) := by nlinarith [show 1 ≤ topVote votes by omega]
  have e : score Flt.single votes = r32 ((votes.sum : Int) / (topVote votes * votes.length : Int)) := by
    unfold score
    rw [if_neg hz, fsum_exact votes h0 (by linarith)]
    have e2 : ((topVote votes : Rat) * (votes.length : Rat)) = ((topVote votes * votes.length : Int) : Rat) := by push_cast; rfl
    rw [e2, single_int (by rw [abs_of_nonneg (by omega)]; exact hb)]
    rfl
  have hq0 : (0 : Rat) ≤ (votes.sum : Int) / (topVote votes * votes.length : Int) :=
    div_nonneg (by exact_mod_cast hs0) (by exact_mod_cast (by omega : (0 : Int) ≤ topVote votes * votes.length))
  have hpos : (0 : Rat) < (topVote votes * votes.length : Int) := by exact_mod_cast (by omega : (0 : Int) < topVote votes * votes.length)
  have hq1 : ((votes.sum : Int) / (topVote votes * votes.length : Int) : Rat) ≤ 1 := by
    rw [div_le_one hpos]; exact_mod_cast hsle
  refine ⟨e, ?_, ?_, ?_⟩
  · rw [e]
    have := Flt.single.mono hq0
    rw [Flt.single.zero] at this
    exact this
  · rw [e]
    have := Flt.single.mono hq1
    rw [Flt.single.one] at this
    exact this
  · rw [e]
    have hall : (∀ v ∈ votes, ∀ u ∈ votes, v = u) ↔ votes.sum = topVote votes * votes.length := by
      rw [sum_eq_top votes _ t1]
      exact ⟨fun h v hv => h v hv _ hmem, fun h v hv u hu => by rw [h v hv, h u hu]⟩
    rw [hall]
    constructor
    · intro h
      by_contra hne
      have hlt : votes.sum + 1 ≤ topVote votes * votes.length := by omega
      have hb' : ((topVote votes * votes.length : Int) : Rat) ≤ 2 ^ 24 := by exact_mod_cast hb
      have hle : ((votes.sum : Int) / (topVote votes * votes.length : Int) : Rat) ≤ 1 - 1 / 2 ^ 24 := by
        rw [div_le_iff₀ hpos]
        have h1 : ((votes.sum : Int) : Rat) + 1 ≤ (topVote votes * votes.length : Int) := by exact_mod_cast hlt
        have h2 : ((topVote votes * votes.length : Int) : Rat) * (1 / 2 ^ 24) ≤ 1 := by
          rw [mul_one_div, div_le_one (by norm_num)]; exact hb'
        linarith
      have hf : Ieee.IsFloat Ieee.single (1 - 1 / 2 ^ 24 : Rat) := by
        refine ⟨2 ^ 24 - 1, -24, by decide, by decide, ?_⟩
        norm_num
      have := Ieee.rnd_mono Ieee.single hle
      rw [Ieee.rnd_of_isFloat hf] at this
      unfold r32 at h
      rw [h] at this
      norm_num at this
    · intro h
      have : ((votes.sum : Int) : Rat) / (topVote votes * votes.length : Int) = 1 := by
        rw [h]; exact div_self (ne_of_gt hpos)
      rw [this]
      exact Flt.single.one

/-- The sums cannot overflow: whatever the number of RAMs, with votes that are `int` numbers the partial sums stay at or below 2^56 (the greatest
`float` is about 2^128). -/
theorem C174_finite (votes : List Int) (h : ∀ v ∈ votes, 0 ≤ v ∧ v ≤ 2147483647) :
    0 ≤ fsum Flt.single votes ∧ fsum Flt.single votes ≤ 2 ^ 56 := by
  unfold fsum
  have hbig : Flt.single.rnd (2 ^ 56 + 2 ^ 31 : Rat) = 2 ^ 56 := by decide +kernel
  have h31 : Flt.single.rnd (2 ^ 31 : Rat) = 2 ^ 31 := by decide +kernel
  have gen : ∀ (vs : List Int) (s : Rat), (∀ v ∈ vs, 0 ≤ v ∧ v ≤ 2147483647) → 0 ≤ s → s ≤ 2 ^ 56 →
      0 ≤ vs.foldl (fun (s : Rat) (v : Int) => Flt.single.rnd (s + Flt.single.rnd v)) s ∧
      vs.foldl (fun (s : Rat) (v : Int) => Flt.single.rnd (s + Flt.single.rnd v)) s ≤ 2 ^ 56 := by
    intro vs
    induction vs with
    | nil => intro s _ h0 h1; exact ⟨h0, h1⟩
    | cons v vs ih =>
      intro s hv h0 h1
      rw [List.foldl_cons]
      obtain ⟨v0, v1⟩ := hv v (by simp)
      have r0 : 0 ≤ Flt.single.rnd (v : Rat) := by
        have := Flt.single.mono (show (0 : Rat) ≤ v by exact_mod_cast v0)
        rwa [Flt.single.zero] at this
      have r1 : Flt.single.rnd (v : Rat) ≤ 2 ^ 31 := by
        have := Flt.single.mono (show (v : Rat) ≤ 2 ^ 31 by
          have : (v : Rat) ≤ 2147483647 := by exact_mod_cast v1
          linarith)
        rwa [h31] at this
      refine ih _ (fun x hx => hv x (by simp [hx])) ?_ ?_
      · have := Flt.single.mono (show (0 : Rat) ≤ s + Flt.single.rnd v by linarith)
        rwa [Flt.single.zero] at this
      · have := Flt.single.mono (show s + Flt.single.rnd v ≤ 2 ^ 56 + 2 ^ 31 by linarith)
        rwa [hbig] at this
  exact gen votes 0 h (by norm_num) (by norm_num)

/-- The same of the total of the scores that the classes' degrees are divided by: it lies between 0 (excluded) and 2^56, whatever the number of classes. (A partial
sum is the total of fewer classes.) -/
theorem C128_finite (s : Scores) (h : ∀ e ∈ s, 0 ≤ e.2 ∧ e.2 ≤ 2147483647) : 0 < PyOut.totalF s ∧ PyOut.totalF s ≤ 2 ^ 56 := by
  have hfold : s.foldl (fun t e => r32 (t + r32 e.2)) 0 = fsum Flt.single (s.map (·.2)) := by
    unfold fsum
    rw [List.foldl_map]
    rfl
  obtain ⟨h0, h1⟩ := C174_finite (s.map (·.2)) (by
    intro v hv
    obtain ⟨e, he, rfl⟩ := List.mem_map.mp hv
    exact h e he)
  unfold PyOut.totalF
  simp only [hfold]
  split
  · norm_num
  · exact ⟨lt_of_le_of_ne h0 (fun e => by simp_all), h1⟩

/-- Votes 3, 3, 2 (three RAMs): the score is 8/9, rounded. -/
example : topVote [3, 3, 2] * 3 ≤ 2 ^ 24 ∧ topVote [3, 3, 2] ≠ 0 ∧ score Flt.single [3, 3, 2] = 14913081 / 16777216 := by
  refine ⟨by decide, by decide, by decide +kernel⟩

/-! ## One image again and again -/

/-- Lifting from the discriminators of the class to the calls. -/
theorem repeat_lift (f : Flt) {A n : Nat} {ms : Rat} {t dl : Int} {o : ClusOpts} {w0 : ClusWisard} (hint : InI32 t)
    (h0 : ClusWisard.create A ms t dl o = .ok w0) (hA : 2 ≤ A) (hAn : A ≤ n) (hn : n + A ≤ 2147483647)
    (hb : 2 ≤ o.base) (hp : o.base ^ A < 2 ^ 63) (env : Nat → Env) (l : Str) {x : List Int} (hv : ValidImage n o.base (.vec x))
    (k : Nat) (hk : 1 ≤ k) (hlen : k ≤ 2147483647) (hc : w0.confidenceCheck [x] = .ok ())
    (P : Nat → List Discriminator → Prop) (hP0 : P 0 [])
    (hs : ∀ (j : Nat) (ds ds' : List Discriminator) (rnd : Rnd), j < k → P j ds → 
      Learns f ⟨A, n, ms, t.toNat, dl, o.completeAddressing, o.ignoreZero, o.base⟩ rnd (.vec x) ds ds' → P (j + 1) ds') :
    ∃ w' ds, w0.train f env (List.replicate k x) (List.replicate k l) = (w', .ok ()) ∧ discs w' l = ds.map some ∧ P k ds := by
  obtain ⟨rfl, _, _, ht1, hdl⟩ := create_shape h0
  have hcfg : (⟨A, ms, t, dl, o, [], Cluster.default⟩ : ClusWisard).clusterCfg n =
      ⟨A, n, ms, t.toNat, dl, o.completeAddressing, o.ignoreZero, o.base⟩ := by
    unfold ClusWisard.clusterCfg
    have : (BitVec.ofInt 32 t).toNat = t.toNat := by
      unfold InI32 at hint
      rw [BitVec.toNat_ofInt]
      congr 1
      exact Int.emod_eq_of_lt (by omega) (by omega)
    rw [this]
  have hok := cfgOK_of (ms := ms) (t := t) (dl := dl) hA hAn hn hb hp hdl [] Cluster.default
  rw [hcfg] at hok
  generalize hcd : (⟨A, n, ms, t.toNat, dl, o.completeAddressing, o.ignoreZero, o.base⟩ : ClusterCfg) = c at *
  have hbase : c.base = o.base := by rw [← hcd]
  have hdlc : c.discriminatorsLimit = dl := by rw [← hcd]
  have hx : (x.length : Int) = n := hv.1
  have gen : ∀ (m j : Nat) (cs : SMap Cluster) (u : Cluster) (ds : List Discriminator) (i : Nat), j + m = k →
      ((⟨A, ms, t, dl, o, cs, u⟩ : ClusWisard).target x l) = ⟨some c, ds.map some⟩ →
      (1 ≤ j → cs.find l = some ⟨some c, ds.map some⟩) →
      GoodC c n (List.replicate j (.vec x)) ds → (ds.length : Int) ≤ dl → P j ds →
      ∃ w' ds', (⟨A, ms, t, dl, o, cs, u⟩ : ClusWisard).trainLoop f env ((List.replicate m x).zip (List.replicate m l)) i = (w', .ok ()) ∧
        discs w' l = ds'.map some ∧ P k ds' := by
    intro m
    induction m with
    | zero =>
      intro j cs u ds i hj htg hf hg hl hPj
      have : j = k := by omega
      subst this
      refine ⟨_, ds, rfl, ?_, hPj⟩
      unfold discs
      rw [hf (by omega)]
    | succ m ih =>
      intro j cs u ds i hj htg hf hg hl hPj
      obtain ⟨ds', e1, e2, e3, e4⟩ := hg.train (f := f) hok (by rw [hdlc]; exact hl) (by simp; omega) (env i) (by rw [hbase]; exact hv)
      have ht : (⟨A, ms, t, dl, o, cs, u⟩ : ClusWisard).train1 f (env i) x l =
          (⟨A, ms, t, dl, o, cs.set l ⟨some c, ds'.map some⟩, u⟩, .ok ()) := by
        rw [ClusWisard.train1_eq, htg, e1]
      simp only [List.replicate_succ, List.zip_cons_cons, ClusWisard.trainLoop, ht]
      have hfs : (cs.set l ⟨some c, ds'.map some⟩).find l = some ⟨some c, ds'.map some⟩ := SMap.find_set_self _ _ _
      refine ih (j + 1) _ u ds' (i + 1) (by omega) ?_ (fun _ => hfs) ?_ (by rw [hdlc] at e4; exact e4) (hs j ds ds' _ (by omega) hPj e2)
      · unfold ClusWisard.target
        rw [hfs, Option.getD_some]
      · rw [List.replicate_succ']; exact e3
  obtain ⟨w', ds', g1, g2, g3⟩ := gen k 0 [] Cluster.default [] 0 (by omega) (by
      unfold ClusWisard.target
      simp only [SMap.find, Option.getD_none]
      rw [hx, hcfg]
      rfl) (by omega) ⟨by simp, by simp⟩ (by simp; omega) hP0
  refine ⟨w', ds', ?_, g2, g3⟩
  cases k with
  | zero => omega
  | succ k =>
    have hc' : (⟨A, ms, t, dl, o, [], Cluster.default⟩ : ClusWisard).confidenceCheck (List.replicate (k + 1) x) = .ok () := hc
    unfold ClusWisard.train
    simp only [hc', Except.bind_ok, Wisard.checkInputSizes, List.length_replicate, ne_eq, not_true, if_false]
    exact g1

/-- A class whose only discriminator was trained `j` times with `x`. -/
def Alone (c : ClusterCfg) (x : List Int) (j : Nat) (ds : List Discriminator) : Prop :=
  (j = 0 ∧ ds = []) ∨ (1 ≤ j ∧ ∃ rnd d0 d, ds = [d] ∧ IsNew c rnd d0 ∧ d0.trainAll (List.replicate j (.vec x)) = (d, .ok ()))

theorem trainAll_snoc {d d1 d2 : Discriminator} {imgs : List Image} {i : Image} (h1 : d.trainAll imgs = (d1, .ok ()))
    (h2 : d1.train i = (d2, .ok ())) : d.trainAll (imgs ++ [i]) = (d2, .ok ()) := by
  rw [trainAll_eq_run] at h1 ⊢
  rw [List.map_append]
  refine run_snoc h1 _ ?_
  simp only [run, h2]

theorem matchCount_replicate (m : List Int) (x : Image) (j : Nat) : matchCount m (List.replicate j x) x = j := by
  have h : Agree m x x := fun _ _ => rfl
  unfold matchCount
  rw [List.filter_replicate_of_pos (by simpa using h), List.length_replicate]

/-- What such a discriminator answers for `x`. -/
theorem repeat_votes {c : ClusterCfg} {A n : Nat} (hA : c.addressSize = A) (hn : c.entrySize = n) {rnd : Rnd} {d0 d : Discriminator} (hnew : IsNew c rnd d0)
    {x : List Int} (hv : ValidImage n c.base (.vec x)) {j : Nat} (hj : j ≤ 2147483647)
    (h : d0.trainAll (List.replicate j (.vec x)) = (d, .ok ())) :
    (c.ignoreZero = false → d.classify (.vec x) = .ok (List.replicate (if c.completeAddressing then (n + A - 1) / A else n / A) (j : Int))) ∧
    (c.ignoreZero = true → (∀ v ∈ x, v = 0) →
      d.classify (.vec x) = .ok (List.replicate (if c.completeAddressing then (n + A - 1) / A else n / A) 0)) ∧
    d.getNumberOfTrainings = j := by
  unfold IsNew at hnew
  rw [hA, hn] at hnew
  obtain ⟨q1, _, q3, _, _⟩ := (C18_default_wiring rnd A n _ rfl rfl).2 d0 hnew
  obtain ⟨d', g1, g2⟩ := C11_vote_counts_matching_images hnew q3 (List.replicate j (.vec x))
    (fun i hi => by rw [List.eq_of_mem_replicate hi]; exact hv) (by simpa using hj) (.vec x) hv
  rw [h] at g1
  cases g1
  have hml : d0.mapping.length = if c.completeAddressing then (n + A - 1) / A else n / A := by
    rw [← q1]
    unfold Discriminator.mapping Discriminator.getNumberOfRAMS
    rw [List.length_map]
  refine ⟨?_, ?_, ?_⟩
  · intro hz
    rw [g2]
    congr 1
    rw [← hml, ← List.map_const']
    apply List.map_congr_left
    intro m _
    simp [hz, matchCount_replicate]
  · intro hz hx
    rw [g2]
    congr 1
    rw [← hml, ← List.map_const']
    apply List.map_congr_left
    intro m hm
    have hzo : ZeroOn m (.vec x) := by
      intro a ha
      obtain ⟨a0, a1⟩ := q3 m hm a ha
      have hl : (x.length : Int) = n := hv.1
      have hlt : a.toNat < x.length := by omega
      have hv0 := hx _ (List.getElem_mem hlt)
      simp [Image.read, not_lt.mpr a0, List.getElem?_eq_getElem hlt, hv0]
    exact if_pos ⟨hz, hzo⟩
  · rw [trainAll_eq_run] at h
    rw [C23_number_of_trainings hnew _ h]
    simp [Op.isTrain]

/-- The configuration of the clusters. -/
abbrev Spec.clusCfg (A n : Nat) (ms : Rat) (t dl : Int) (o : ClusOpts) : ClusterCfg :=
  ⟨A, n, ms, t.toNat, dl, o.completeAddressing, o.ignoreZero, o.base⟩

/-- The number of RAMs of a discriminator. -/
abbrev Spec.clusRams (A n : Nat) (o : ClusOpts) : Nat := if o.completeAddressing then (n + A - 1) / A else n / A

theorem required_le_one (f : Flt) (c : ClusterCfg) (count : Int) : required f c count ≤ 1 := min_le_left _ _

/-- One more training of `x`. -/
theorem Alone.step {f : Flt} {A n : Nat} {ms : Rat} {t dl : Int} {o : ClusOpts} (hz : o.ignoreZero = false) {x : List Int}
    (hv : ValidImage n o.base (.vec x)) {j : Nat} (hj : j ≤ 2147483647) {ds ds' : List Discriminator} {rnd : Rnd}
    (h : Alone (clusCfg A n ms t dl o) x j ds) (hl : Learns f (clusCfg A n ms t dl o) rnd (.vec x) ds ds') :
    (j = 0 ∨ required f (clusCfg A n ms t dl o) j ≤ score f (List.replicate (clusRams A n o) (j : Int)) → Alone (clusCfg A n ms t dl o) x (j + 1) ds') ∧
    (1 ≤ j → score f (List.replicate (clusRams A n o) (j : Int)) < required f (clusCfg A n ms t dl o) j → 2 ≤ dl →
      ∃ d d1, ds' = [d, d1] ∧ d.getNumberOfTrainings = j ∧ d1.getNumberOfTrainings = 1) := by
  rcases h with ⟨rfl, rfl⟩ | ⟨hj1, rnd0, d0, d, rfl, hnew, htr⟩
  · refine ⟨fun _ => ?_, fun h => absurd h (by decide)⟩
    cases hl with
    | fitting hs _ => obtain ⟨d, hd, _⟩ := hs; simp at hd
    | @fresh d0 d1 _ _ hnew ht =>
      exact .inr ⟨by omega, rnd, d0, d1, rfl, hnew, by simp only [List.replicate_succ, List.replicate_zero, Discriminator.trainAll, ht]⟩
    | best _ _ hsp _ _ => simp at hsp
  · obtain ⟨v1, _, v3⟩ := repeat_votes (c := clusCfg A n ms t dl o) (A := A) (n := n) rfl rfl hnew hv hj htr
    have hcl := v1 hz
    have hiff : Reaches f (clusCfg A n ms t dl o) (.vec x) d ↔
        required f (clusCfg A n ms t dl o) j ≤ score f (List.replicate (clusRams A n o) (j : Int)) := by
      unfold Reaches HasScore
      rw [v3]
      constructor
      · rintro ⟨s, ⟨votes, h1, h2⟩, h3⟩
        rw [hcl] at h1
        cases h1
        rw [← h2] at h3
        exact h3
      · intro h
        exact ⟨_, ⟨_, hcl, rfl⟩, h⟩
    constructor
    · intro h
      have hr := hiff.mpr (h.resolve_left (by omega))
      cases hl with
      | fitting _ he =>
        cases he with
        | @cons _ d' _ _ h1 h2 =>
          cases h2
          rcases h1 with ⟨_, h1⟩ | ⟨h1, _⟩
          · exact .inr ⟨by omega, rnd0, d0, d', rfl, hnew, by rw [List.replicate_succ']; exact trainAll_snoc htr h1⟩
          · exact absurd hr h1
      | fresh hno _ _ _ => exact absurd hr (hno d (by simp))
      | best hno _ _ _ _ => exact absurd hr (hno d (by simp))
    · intro _ hlt hdl
      have hr : ¬ Reaches f (clusCfg A n ms t dl o) (.vec x) d := fun h => absurd (hiff.mp h) (not_le.mpr hlt)
      cases hl with
      | fitting hs _ =>
        obtain ⟨d', hd', h'⟩ := hs
        rw [List.mem_singleton.mp hd'] at h'
        exact absurd h' hr
      | @fresh d0' d1 _ _ hnew' ht' => exact ⟨d, d1, rfl, v3, by rw [train_count ht', isNew_count hnew']; rfl⟩
      | best _ hroom _ _ _ => simp at hroom; omega

/-- As long as the score of the only discriminator suffices it learns. -/
theorem repeat_alone (f : Flt) {A n : Nat} {ms : Rat} {t dl : Int} {o : ClusOpts} {w0 : ClusWisard} (hint : InI32 t)
    (h0 : ClusWisard.create A ms t dl o = .ok w0) (hA : 2 ≤ A) (hAn : A ≤ n) (hn : n + A ≤ 2147483647)
    (hb : 2 ≤ o.base) (hp : o.base ^ A < 2 ^ 63) (hz : o.ignoreZero = false) (env : Nat → Env) (l : Str) {x : List Int}
    (hv : ValidImage n o.base (.vec x)) (k : Nat) (hk : 1 ≤ k) (hlen : k ≤ 2147483647) (hc : w0.confidenceCheck [x] = .ok ())
    (hs : ∀ j : Nat, 1 ≤ j → j < k → required f (clusCfg A n ms t dl o) j ≤ score f (List.replicate (clusRams A n o) (j : Int))) :
    ∃ w' d, w0.train f env (List.replicate k x) (List.replicate k l) = (w', .ok ()) ∧ discs w' l = [some d] ∧
      d.getNumberOfTrainings = k ∧ d.classify (.vec x) = .ok (List.replicate (clusRams A n o) (k : Int)) := by
  obtain ⟨w', ds, g1, g2, g3⟩ := repeat_lift f hint h0 hA hAn hn hb hp env l hv k hk hlen hc (Alone (clusCfg A n ms t dl o) x) (.inl ⟨rfl, rfl⟩) (by
    intro j ds ds' rnd hj hP hl
    refine (hP.step hz hv (by omega) hl).1 ?_
    by_cases h : j = 0
    · exact .inl h
    · exact .inr (hs j (by omega) hj))
  rcases g3 with ⟨h, _⟩ | ⟨_, rnd0, d0, d, rfl, hnew, htr⟩
  · omega
  · obtain ⟨v1, _, v3⟩ := repeat_votes (c := clusCfg A n ms t dl o) (A := A) (n := n) rfl rfl hnew hv hlen htr
    exact ⟨w', d, g1, g2, v3, v1 hz⟩

theorem topVote_replicate (N : Nat) (j : Int) (hN : 1 ≤ N) (hj : 0 ≤ j) : topVote (List.replicate N j) = j := by
  obtain ⟨_, h1⟩ := topVote_ge (List.replicate N j)
  have h2 := h1 j (List.mem_replicate.mpr ⟨by omega, rfl⟩)
  rcases topVote_mem (List.replicate N j) with h | h
  · omega
  · exact List.eq_of_mem_replicate h

theorem rams_pos {A n : Nat} (hA : 2 ≤ A) (hAn : A ≤ n) (o : ClusOpts) : 1 ≤ clusRams A n o := by
  unfold clusRams
  split
  · rw [Nat.le_div_iff_mul_le (by omega)]; omega
  · rw [Nat.le_div_iff_mul_le (by omega)]; omega

/-- C174: training one and the same image again and again, without ignoreZero: as long as the number of trainings times the number of RAMs is at most
2^24 (and for any number of trainings in exact arithmetic), the class keeps one discriminator, which has learnt all of them and all of
whose RAMs answer the number of trainings — whatever minScore, threshold and the limit on discriminators. -/
theorem C174_repeat {A n : Nat} {ms : Rat} {t dl : Int} {o : ClusOpts} {w0 : ClusWisard} (hint : InI32 t)
    (h0 : ClusWisard.create A ms t dl o = .ok w0) (hA : 2 ≤ A) (hAn : A ≤ n) (hn : n + A ≤ 2147483647)
    (hb : 2 ≤ o.base) (hp : o.base ^ A < 2 ^ 63) (hz : o.ignoreZero = false) (env : Nat → Env) (l : Str) {x : List Int}
    (hv : ValidImage n o.base (.vec x)) (k : Nat) (hk : 1 ≤ k) (hlen : k ≤ 2147483647) (hc : w0.confidenceCheck [x] = .ok ())
    (f : Flt) (hf : f = Flt.exact ∨ f = Flt.single ∧ k * clusRams A n o ≤ 2 ^ 24) :
    ∃ w' d, w0.train f env (List.replicate k x) (List.replicate k l) = (w', .ok ()) ∧ discs w' l = [some d] ∧
      d.getNumberOfTrainings = k ∧ d.classify (.vec x) = .ok (List.replicate (clusRams A n o) (k : Int)) := by
  refine repeat_alone f hint h0 hA hAn hn hb hp hz env l hv k hk hlen hc ?_
  intro j hj1 hjk
  have hN := rams_pos hA hAn o
  have hsc : score f (List.replicate (clusRams A n o) (j : Int)) = 1 := by
    have ht := topVote_replicate (clusRams A n o) (j : Int) hN (by omega)
    rcases hf with rfl | ⟨rfl, hk24⟩
    · rw [(C57_exact _ ⟨0, 0, 0, 0, 0, true, true, 0⟩ 0).1, ht, if_neg (by omega), List.sum_replicate, List.length_replicate]
      have h1 : (j : Rat) ≠ 0 := by exact_mod_cast (by omega : j ≠ 0)
      have h2 : (clusRams A n o : Rat) ≠ 0 := by exact_mod_cast (by omega : clusRams A n o ≠ 0)
      generalize clusRams A n o = N at h2 ⊢
      simp only [nsmul_eq_mul]
      push_cast
      field_simp
    · refine ((C174_score _ ?_ ?_ ?_).2.2.2).mpr ?_
      · intro v hv; rw [List.eq_of_mem_replicate hv]; omega
      · rw [ht, List.length_replicate]
        have : j * clusRams A n o ≤ k * clusRams A n o := Nat.mul_le_mul_right _ (by omega)
        exact_mod_cast this.trans hk24
      · rw [ht]; omega
      · intro v hv u hu; rw [List.eq_of_mem_replicate hv, List.eq_of_mem_replicate hu]
  rw [hsc]
  exact required_le_one _ _ _

/-- The bound is needed: with six RAMs, a threshold of at most 3355445 and room for a second discriminator, some number of trainings of one
and the same image — at most 3355446 — gives its class two discriminators: adding up six times 3355445 in `float` gives less than the product. -/
theorem C174_needs_few {A n : Nat} {ms : Rat} {t dl : Int} {o : ClusOpts} {w0 : ClusWisard}
    (h0 : ClusWisard.create A ms t dl o = .ok w0) (hA : 2 ≤ A) (hAn : A ≤ n) (hn : n + A ≤ 2147483647)
    (hb : 2 ≤ o.base) (hp : o.base ^ A < 2 ^ 63) (hz : o.ignoreZero = false) (env : Nat → Env) (l : Str) {x : List Int}
    (hv : ValidImage n o.base (.vec x)) (hc : w0.confidenceCheck [x] = .ok ()) (h6 : clusRams A n o = 6) (ht : t ≤ 3355445) (hdl : 2 ≤ dl) :
    ∃ k w' d d1, k ≤ 3355446 ∧ w0.train Flt.single env (List.replicate k x) (List.replicate k l) = (w', .ok ()) ∧
      discs w' l = [some d, some d1] ∧ d1.getNumberOfTrainings = 1 := by
  obtain ⟨rfl, hm, _, ht1, _⟩ := create_shape h0
  have hint : InI32 t := by unfold InI32; omega
  have hbad' : 1 ≤ 3355445 ∧ score Flt.single (List.replicate 6 ((3355445 : Nat) : Int)) < required Flt.single (clusCfg A n ms t dl o) (3355445 : Nat) := by
    refine ⟨by omega, ?_⟩
    rw [C64_strict_partial Flt.single _ hm ?_ _ (by simp; omega)]
    · decide +kernel
    · have : Flt.single.rnd 1 ≤ Flt.single.rnd (clusCfg A n ms t dl o).threshold := Flt.single.mono (by
        have : 1 ≤ t.toNat := by omega
        exact_mod_cast this)
      rw [Flt.single.one] at this
      linarith
  have hex : ∃ j : Nat, 1 ≤ j ∧ score Flt.single (List.replicate 6 (j : Int)) < required Flt.single (clusCfg A n ms t dl o) j := ⟨_, hbad'⟩
  classical
  obtain ⟨k, hk⟩ : ∃ k, k = Nat.find hex := ⟨_, rfl⟩
  have hk1 := Nat.find_spec hex
  have hkle : k ≤ 3355445 := by rw [hk]; exact Nat.find_min' hex hbad'
  have hmin : ∀ j : Nat, 1 ≤ j → j < k → required Flt.single (clusCfg A n ms t dl o) j ≤ score Flt.single (List.replicate 6 (j : Int)) := by
    intro j h1 h2
    rw [hk] at h2
    have := Nat.find_min hex h2
    exact not_lt.mp (fun h => this ⟨h1, h⟩)
  rw [← hk] at hk1
  obtain ⟨w', ds, g1, g2, g3⟩ := repeat_lift Flt.single hint h0 hA hAn hn hb hp env l hv (k + 1) (by omega) (by omega) hc
    (fun j ds => (j ≤ k → Alone (clusCfg A n ms t dl o) x j ds) ∧
      (j = k + 1 → ∃ d d1, ds = [d, d1] ∧ d.getNumberOfTrainings = k ∧ d1.getNumberOfTrainings = 1)) ⟨fun _ => .inl ⟨rfl, rfl⟩, by omega⟩ (by
    intro j ds ds' rnd hj hP hl
    have := (hP.1 (by omega)).step hz hv (by omega) hl
    rw [h6] at this
    constructor
    · intro hjk
      refine this.1 ?_
      by_cases h : j = 0
      · exact .inl h
      · exact .inr (hmin j (by omega) (by omega))
    · intro hjk
      have hjk : j = k := by omega
      subst hjk
      exact this.2 hk1.1 hk1.2 hdl)
  obtain ⟨d, d1, rfl, _, h1⟩ := g3.2 rfl
  exact ⟨k + 1, w', d, d1, by omega, g1, g2, h1⟩

/-- Without ignoreZero, too: with ignoreZero the image of zeros is never recognised, and each of its trainings opens a further discriminator until the limit is
reached. -/
theorem C174_needs_nonzero {A n : Nat} {ms : Rat} {t dl : Int} {o : ClusOpts} {w0 : ClusWisard} (hint : InI32 t)
    (h0 : ClusWisard.create A ms t dl o = .ok w0) (hA : 2 ≤ A) (hAn : A ≤ n) (hn : n + A ≤ 2147483647)
    (hb : 2 ≤ o.base) (hp : o.base ^ A < 2 ^ 63) (hz : o.ignoreZero = true) (env : Nat → Env) (l : Str)
    (k : Nat) (hk : 1 ≤ k) (hlen : k ≤ 2147483647) (hkdl : k ≤ dl) (hc : w0.confidenceCheck [List.replicate n 0] = .ok ())
    (f : Flt) (hf : f = Flt.exact ∨ f = Flt.single) :
    ∃ (w' : ClusWisard) (ds : List Discriminator), w0.train f env (List.replicate k (List.replicate n 0)) (List.replicate k l) = (w', .ok ()) ∧ discs w' l = ds.map some ∧
      ds.length = k ∧ ∀ d ∈ ds, d.getNumberOfTrainings = 1 := by
  obtain ⟨rfl, hm, _, ht1, _⟩ := create_shape h0
  have hv : ValidImage n o.base (.vec (List.replicate n 0)) := by
    refine ⟨by simp [Image.size], ?_⟩
    intro i hi
    simp only [Image.size, List.length_replicate] at hi
    refine ⟨0, ?_, by omega, by omega⟩
    simp [Image.read, hi]
  have hreq : 0 < required f (clusCfg A n ms t dl o) 1 := by
    have ht32 : (t.toNat : Rat) ≤ 2 ^ 31 := by
      have : t.toNat ≤ 2 ^ 31 := by unfold InI32 at hint; omega
      exact_mod_cast this
    have ht0 : (1 : Rat) ≤ t.toNat := by
      have : 1 ≤ t.toNat := by omega
      exact_mod_cast this
    unfold required
    refine lt_min (by norm_num) ?_
    rcases hf with rfl | rfl
    · show 0 < ms + ((1 : Int) : Rat) / (t.toNat : Rat)
      have : (0 : Rat) < ((1 : Int) : Rat) / (t.toNat : Rat) := div_pos (by norm_num) (by linarith)
      linarith
    · have r1 : Flt.single.rnd ((1 : Int) : Rat) = 1 := by simpa using Flt.single.one
      have r2 : Flt.single.rnd (t.toNat : Rat) ≤ 2 ^ 31 := by
        have := Flt.single.mono ht32
        rwa [show Flt.single.rnd (2 ^ 31 : Rat) = 2 ^ 31 by decide +kernel] at this
      have r3 : 1 ≤ Flt.single.rnd (t.toNat : Rat) := by
        have := Flt.single.mono ht0
        rwa [Flt.single.one] at this
      have r31 : Flt.single.rnd (1 / 2 ^ 31 : Rat) = 1 / 2 ^ 31 := by decide +kernel
      have r4 : (1 / 2 ^ 31 : Rat) ≤ Flt.single.rnd (Flt.single.rnd ((1 : Int) : Rat) / Flt.single.rnd (t.toNat : Rat)) := by
        rw [← r31]
        refine Flt.single.mono ?_
        rw [r1]
        exact one_div_le_one_div_of_le (by linarith) r2
      have r5 : (1 / 2 ^ 31 : Rat) ≤ Flt.single.rnd (ms + Flt.single.rnd (Flt.single.rnd ((1 : Int) : Rat) / Flt.single.rnd (t.toNat : Rat))) := by
        rw [← r31]
        refine Flt.single.mono ?_
        linarith
      have : (0 : Rat) < 1 / 2 ^ 31 := by norm_num
      linarith
  obtain ⟨w', ds, g1, g2, g3, g4⟩ := repeat_lift f hint h0 hA hAn hn hb hp env l hv k hk hlen hc
    (fun j ds => ds.length = j ∧ ∀ d ∈ ds, ∃ rnd d0, IsNew (clusCfg A n ms t dl o) rnd d0 ∧ d0.trainAll [.vec (List.replicate n 0)] = (d, .ok ()))
    ⟨rfl, by simp⟩ (by
    rintro j ds ds' rnd hj ⟨hP1, hP2⟩ hl
    have hno : ∀ d ∈ ds, ¬ Reaches f (clusCfg A n ms t dl o) (.vec (List.replicate n 0)) d := by
      intro d hd
      obtain ⟨rnd0, d0, hnew, htr⟩ := hP2 d hd
      obtain ⟨_, v2, v3⟩ := repeat_votes (c := clusCfg A n ms t dl o) (A := A) (n := n) rfl rfl hnew hv (j := 1) (by omega) htr
      have hcl := v2 hz (fun v hv => List.eq_of_mem_replicate hv)
      rintro ⟨s, ⟨votes, q1, q2⟩, q3⟩
      rw [hcl] at q1
      cases q1
      rw [v3] at q3
      have hs0 : score f (List.replicate (clusRams A n o) 0) = 0 := by
        unfold score
        rw [topVote_replicate _ 0 (rams_pos hA hAn o) (by omega), if_pos rfl]
      rw [hs0] at q2
      rw [← q2] at q3
      exact absurd q3 (not_le.mpr hreq)
    cases hl with
    | fitting hs _ => obtain ⟨d, hd, hr⟩ := hs; exact absurd hr (hno d hd)
    | @fresh d0 d1 _ _ hnew ht =>
      refine ⟨by simp [hP1], ?_⟩
      intro d hd
      rcases List.mem_append.mp hd with hd | hd
      · exact hP2 d hd
      · rw [List.mem_singleton.mp hd]
        exact ⟨rnd, d0, hnew, by simp only [Discriminator.trainAll, ht]⟩
    | best _ hroom _ _ _ => simp only [hP1] at hroom; omega)
  refine ⟨w', ds, g1, g2, g3, ?_⟩
  intro d hd
  obtain ⟨rnd0, d0, hnew, htr⟩ := g4 d hd
  exact (repeat_votes (c := clusCfg A n ms t dl o) (A := A) (n := n) rfl rfl hnew hv (j := 1) (by omega) htr).2.2

/-! ### The hypotheses can be met -/

/-- Three trainings of one image with two RAMs and room for five discriminators. -/
example : ∃ w0 : ClusWisard, ClusWisard.create 2 (1/2) 2 5 {} = .ok w0 ∧ w0.confidenceCheck [[1, 0, 1, 1]] = .ok () ∧
    ValidImage 4 2 (.vec [1, 0, 1, 1]) ∧ 3 * clusRams 2 4 {} ≤ 2 ^ 24 :=
  ⟨⟨2, 1/2, 2, 5, {}, [], Cluster.default⟩, by decide +kernel, by decide +kernel, bits_valid _ (by decide), by decide⟩

/-- Six RAMs, threshold 10, two discriminators. -/
example : ∃ w0 : ClusWisard, ClusWisard.create 2 (1/2) 10 2 {} = .ok w0 ∧ w0.confidenceCheck [List.replicate 12 1] = .ok () ∧
    ValidImage 12 2 (.vec (List.replicate 12 1)) ∧ clusRams 2 12 {} = 6 :=
  ⟨⟨2, 1/2, 10, 2, {}, [], Cluster.default⟩, by decide +kernel, by decide +kernel, bits_valid _ (by decide), by decide⟩

/-- ignoreZero, the image of four zeros, room for three discriminators. -/
example : ∃ w0 : ClusWisard, ClusWisard.create 2 (1/2) 2 3 { ignoreZero := true } = .ok w0 ∧
    w0.confidenceCheck [List.replicate 4 0] = .ok () ∧ (3 : Nat) ≤ (3 : Int) :=
  ⟨⟨2, 1/2, 2, 3, { ignoreZero := true }, [], Cluster.default⟩, by decide +kernel, by decide +kernel, by decide⟩

end Wis
