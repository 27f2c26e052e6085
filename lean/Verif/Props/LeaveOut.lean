import Verif.Props.Noise
/-!
# Property C172: leave-one-out evaluation

The evaluation for which `leaveOneOut` is made: for every sample, leave it out, classify it, train it again. Every round gives
back exactly the model it started from, and the answer for a sample is the one of a model trained with all other samples, as long
as its class has another sample.
-/

namespace Wis.Spec

/-- The program: for every sample (with the environment's choices for the training call) leave it out, classify it and train it
again; the first failure ends it. -/
def leaveOneOutEvaluation (w : Wisard) : List (Env × List Int × Str) → Wisard × Res (List Str)
  | [] => (w, .ok [])
  | (env, img, l) :: S =>
    match w.leaveOneOut img l with
    | (w1, .error e) => (w1, .error e)
    | (w1, .ok ()) =>
      match w1.classify [.vec img] with
      | .error e => (w1, .error e)
      | .ok a =>
        match w1.train1 env (.vec img) l with
        | (w2, .error e) => (w2, .error e)
        | (w2, .ok ()) =>
          match leaveOneOutEvaluation w2 S with
          | (w3, .error e) => (w3, .error e)
          | (w3, .ok as) => (w3, .ok (a ++ as))

end Wis.Spec

namespace Wis
open Spec

/-! ## Leaving out and training again is the identity -/

theorem ramT_set_back (m : RamT) (k : Addr) (c c' : Int) (h : m.find k = some c) : (m.set k c').set k c = m := by
  induction m with
  | nil => cases h
  | cons e m ih =>
    obtain ⟨k', v⟩ := e
    simp only [RamT.find] at h
    by_cases hk : k' = k
    · rw [if_pos hk] at h
      cases h
      simp only [RamT.set, if_true, hk]
    · rw [if_neg hk] at h
      simp only [RamT.set, if_neg hk, ih h]

theorem ram_back {n base : Int} {r0 r : Ram} {ops : List Op} (hb : r0.base = base) (hb2 : 2 ≤ base) (hfit : base ^ r0.addresses.length ≤ 2 ^ 64)
    (h : RamRep n r0 r ops) (hin : InsideRam n r0) {img : Image} (hv : ValidImage n base img) (hvo : ∀ o ∈ ops, ValidImage n base o.img)
    (hex : ∃ o ∈ ops, o.isTrain = true ∧ Same img o.img) (hlen : ops.length < 2147483647) :
    ∃ r', r.untrain img = (r', .ok ()) ∧ r'.train img = (r, .ok ()) := by
  have hidx : r.getIndex img = .ok (key r0.base r0.addresses img) := by
    rw [getIndex_valid (n := n) (by rw [h.base, hb]; exact hv) (by rw [h.addr]; exact hin), h.base, h.addr]
  have hf := h.find (key r0.base r0.addresses img)
  obtain ⟨o, ho, hot, hs⟩ := hex
  have hany : (ops.filter (fun o => decide (key r0.base r0.addresses o.img = key r0.base r0.addresses img))).any Op.isTrain = true := by
    rw [List.any_eq_true]
    refine ⟨o, List.mem_filter.mpr ⟨ho, decide_eq_true ?_⟩, hot⟩
    rw [hb, key_eq_iff (by omega) (hvo o ho) hv hin hfit]
    exact agree_same hin (hvo o ho).1 hs.symm
  rw [cell_eq, if_pos hany] at hf
  generalize hc : net ((ops.filter (fun o => decide (key r0.base r0.addresses o.img = key r0.base r0.addresses img))).dropWhile
    (fun o => !o.isTrain)) = c at hf
  have hbd : -(ops.length : Int) ≤ c ∧ c ≤ ops.length := by
    have := cell_bound _ c (by rw [cell_eq, if_pos hany, hc])
    have h2 := List.length_filter_le (fun o => decide (key r0.base r0.addresses o.img = key r0.base r0.addresses img)) ops
    omega
  refine ⟨{ r with positions := r.positions.set (key r0.base r0.addresses img) (c - 1) }, ?_, ?_⟩
  · unfold Ram.untrain
    rw [hidx]
    simp only [hf, i32_ok (show -2147483648 ≤ c - 1 ∧ c - 1 ≤ 2147483647 by omega)]
  · unfold Ram.train
    have : ({ r with positions := r.positions.set (key r0.base r0.addresses img) (c - 1) } : Ram).getIndex img =
        .ok (key r0.base r0.addresses img) := hidx
    rw [this]
    simp only [RamT.find_set, if_true, i32_ok (show -2147483648 ≤ c - 1 + 1 ∧ c - 1 + 1 ≤ 2147483647 by omega)]
    rw [show c - 1 + 1 = c by omega, ramT_set_back _ _ _ _ hf]

theorem rams_back {n base : Int} {rs0 rs : List Ram} {ops : List Op} (hb2 : 2 ≤ base)
    (h0 : ∀ r ∈ rs0, r.base = base ∧ base ^ r.addresses.length ≤ 2 ^ 64)
    (h : List.Forall₂ (fun r0 r => RamRep n r0 r ops) rs0 rs) (hin : ∀ r ∈ rs0, InsideRam n r) {img : Image}
    (hv : ValidImage n base img) (hvo : ∀ o ∈ ops, ValidImage n base o.img)
    (hex : ∃ o ∈ ops, o.isTrain = true ∧ Same img o.img) (hlen : ops.length < 2147483647) :
    ∃ rs', Discriminator.untrainRams img rs = (rs', .ok ()) ∧ Discriminator.trainRams img rs' = (rs, .ok ()) := by
  induction h with
  | nil => exact ⟨[], rfl, rfl⟩
  | @cons r0 r rs0 rs h1 _ ih =>
    obtain ⟨rs', e1, e2⟩ := ih (fun q hq => h0 q (List.mem_cons_of_mem _ hq)) (fun q hq => hin q (List.mem_cons_of_mem _ hq))
    obtain ⟨r', e3, e4⟩ := ram_back (h0 r0 (by simp)).1 hb2 (h0 r0 (by simp)).2 h1 (hin r0 (by simp)) hv hvo hex hlen
    refine ⟨r' :: rs', ?_, ?_⟩
    · simp only [Discriminator.untrainRams, e3, e1]
    · simp only [Discriminator.trainRams, e4, e2]

theorem disc_back {n base : Int} {iz : Bool} {d0 d : Discriminator} {ops : List Op} (hf : Fresh d0 n base iz)
    (hin : WiredInside n d0.mapping) (h : DRep n d0 d ops) {img : Image}
    (hv : ValidImage n base img) (hvo : ∀ o ∈ ops, ValidImage n base o.img)
    (hex : ∃ o ∈ ops, o.isTrain = true ∧ Same img o.img) (hlen : ops.length < 2147483647) :
    ∃ d', d.untrain img = (d', .ok ()) ∧ d'.train img = (d, .ok ()) := by
  obtain ⟨rs', e1, e2⟩ := rams_back hf.base2 (fun r hr => ⟨(hf.rams r hr).2.1, (hf.rams r hr).2.2.2⟩) h.rams (inside_of hin) hv hvo hex hlen
  have hc := net_bound ops
  have hcnt := h.count
  have hz : d.entrySize = (img.size : Int) := by rw [h.entry, hv.1]
  refine ⟨{ d with count := d.count - 1
                   rams := rs' }, ?_, ?_⟩
  · unfold Discriminator.untrain Discriminator.checkEntrySize
    rw [if_neg (by simpa using hz)]
    simp only [i32_ok (show -2147483648 ≤ d.count - 1 ∧ d.count - 1 ≤ 2147483647 by omega), e1]
  · unfold Discriminator.train Discriminator.checkEntrySize
    rw [if_neg (by simpa using hz)]
    simp only [i32_ok (show -2147483648 ≤ d.count - 1 + 1 ∧ d.count - 1 + 1 ≤ 2147483647 by omega), e2]
    rw [show d.count - 1 + 1 = d.count by omega]

theorem smap_set_back {V : Type} (m : SMap V) (hs : SMap.Sorted m) {k : Str} {v : V} (h : m.find k = some v) : m.set k v = m := by
  apply SMap.ext (SMap.sorted_set hs k v) hs
  intro l
  by_cases hl : l = k
  · subst hl; rw [SMap.find_set_self, h]
  · rw [SMap.find_set_ne _ _ hl]

theorem mem_dropWhile_train {i : Image} {L : List Op} (h : Op.train i ∈ L) : Op.train i ∈ L.dropWhile (fun o => !o.isTrain) := by
  induction L with
  | nil => cases h
  | cons a as ih =>
    rw [List.dropWhile_cons]
    split
    · rename_i ha
      rcases List.mem_cons.mp h with q | q
      · subst q; cases ha
      · exact ih q
    · exact h

/-- C172: after any history, leaving out an image that was trained with this label and training it again gives back exactly the
same model. -/
theorem C172_back {w0 w : Wisard} {ops : List WOp} {n : Int} (g : GoodHistory w0 ops w n) (hlen : ops.length < 2147483647)
    {img : List Int} {l : Str} (hex : ∃ o ∈ ops, o.isTrain = true ∧ o.label = l ∧ Same (.vec img) o.img) (env : Env) :
    ∃ w1, w.leaveOneOut img l = (w1, .ok ()) ∧ w1.train1 env (.vec img) l = (w, .ok ()) := by
  obtain ⟨o, ho, hot, hol, hs⟩ := hex
  obtain ⟨env', i, rfl⟩ : ∃ env' i, o = .train env' i l := by
    cases o with
    | train e i k => cases hol; exact ⟨e, i, rfl⟩
    | leave i k => cases hot
  obtain ⟨_, _, hsort, hF⟩ := wrun_find g.start ops g.ran
  have hin' : Op.train i ∈ ops.filterMap (WOp.on l) := List.mem_filterMap.mpr ⟨_, ho, by simp [WOp.on]⟩
  have hin : Op.train i ∈ opsOf l ops := by
    unfold opsOf
    exact mem_dropWhile_train hin'
  cases hd : w.discriminators.find l with
  | none =>
    rcases hF l with ⟨_, q⟩ | ⟨d, _, _, _, _, q, _⟩
    · rw [q] at hin; cases hin
    · rw [hd] at q; cases q
  | some d =>
    obtain ⟨d0, f1, f2, f3, _, f5⟩ := g.rep hd
    have hv := g.valid _ ho
    have hvi : ValidImage n w0.opts.base (.vec img) := by
      refine ⟨by rw [hs.1]; exact hv.1, fun j hj => ?_⟩
      have := hv.2 j (by rw [← hs.1]; exact hj)
      rw [hs.2 j hj]
      exact this
    have hol := opsOf_length l ops
    obtain ⟨d', e1, e2⟩ := disc_back f1 f3 f5 hvi (g.valid_ops l) ⟨_, hin, rfl, hs⟩ (by omega)
    refine ⟨{ w with discriminators := w.discriminators.set l d' }, ?_, ?_⟩
    · simp only [Wisard.leaveOneOut, hd, e1]
    · simp only [Wisard.train1, SMap.find_set_self, Wisard.trainKnown, Option.getD_some, e2, SMap.set_set]
      rw [smap_set_back _ hsort hd]

/-! ## The answer without the sample -/

/-- Equal tables: the same classes, wiring and votes. -/
theorem classify1_congr {w0 wa wb : Wisard} {opsa opsb : List WOp} {n : Int} (ga : GoodHistory w0 opsa wa n)
    (gb : GoodHistory w0 opsb wb n) (hnone : ∀ k, wa.discriminators.find k = none ↔ wb.discriminators.find k = none)
    (hwire : ∀ k da db, wa.discriminators.find k = some da → wb.discriminators.find k = some db → da.mapping = db.mapping)
    {x : Image} (hx : ValidImage n w0.opts.base x)
    (hvote : ∀ k da, wa.discriminators.find k = some da → ∀ m ∈ da.mapping, vote m (opsOf k opsa) x = vote m (opsOf k opsb) x) :
    wa.classify1 x = wb.classify1 x := by
  obtain ⟨_, oa, sa, _⟩ := wrun_find ga.start opsa ga.ran
  obtain ⟨_, ob, sb, _⟩ := wrun_find gb.start opsb gb.ran
  unfold Wisard.classify1
  rw [ga.allvotes hx, gb.allvotes hx, oa, ob]
  congr 1
  congr 1
  refine SMap.ext (SMap.sorted_map sa _) (SMap.sorted_map sb _) (fun k => ?_)
  have e1 := find_map_key wa.discriminators (fun k d => specVotes w0 opsa x k d.mapping) k
  have e2 := find_map_key wb.discriminators (fun k d => specVotes w0 opsb x k d.mapping) k
  rw [e1, e2]
  cases ha : wa.discriminators.find k with
  | none => rw [(hnone k).mp ha]; rfl
  | some da =>
    cases hb : wb.discriminators.find k with
    | none => rw [(hnone k).mpr hb] at ha; cases ha
    | some db =>
      simp only [Option.map_some, Option.some.injEq]
      rw [← hwire k da db ha hb]
      unfold specVotes
      apply List.map_congr_left
      intro m hm
      rw [hvote k da ha m hm]

theorem classify_congr {wa wb : Wisard} {xs : List Image} (h : ∀ x ∈ xs, wa.classify1 x = wb.classify1 x) :
    wa.classify xs = wb.classify xs := by
  induction xs with
  | nil => rfl
  | cons x xs ih =>
    simp only [Wisard.classify, h x (by simp), ih (fun y hy => h y (List.mem_cons_of_mem _ hy))]

theorem matchCount_append (m : List Int) (a b : List Image) (x : Image) : matchCount m (a ++ b) x = matchCount m a x + matchCount m b x := by
  unfold matchCount
  rw [List.filter_append, List.length_append]

theorem vote_leave {n base : Int} {imgs : List Image} (hv : ∀ i ∈ imgs, ValidImage n base i) {m : List Int}
    (hm : ∀ a ∈ m, 0 ≤ a ∧ a < n) {y i : Image} (hi : i ∈ imgs) (hs : Same y i) (x : Image) :
    vote m (imgs.map Op.train ++ [.untrain y]) x = (matchCount m imgs x : Int) - if Agree m x y then 1 else 0 := by
  have h0 := vote_trains hv hm x
  unfold vote matching at h0 ⊢
  rw [← cell_getD] at h0 ⊢
  rw [List.filter_append]
  by_cases ha : Agree m x y
  · rw [if_pos ha, show [Op.untrain y].filter (fun o => decide (Agree m x o.img)) = [.untrain y] by simp [Op.img, ha], cell_append]
    have hany : ((imgs.map Op.train).filter (fun o => decide (Agree m x o.img))).any Op.isTrain = true := by
      rw [List.any_eq_true]
      refine ⟨.train i, List.mem_filter.mpr ⟨List.mem_map.mpr ⟨i, hi, rfl⟩, decide_eq_true ?_⟩, rfl⟩
      exact (hs.symm.agree hm (hv i hi).1).mpr ha
    rw [cell_eq, if_pos hany] at h0 ⊢
    simp only [Option.getD_some] at h0
    simp only [cellStep, Option.getD_some, h0]
  · rw [if_neg ha, show [Op.untrain y].filter (fun o => decide (Agree m x o.img)) = [] by simp [Op.img, ha], List.append_nil, h0]
    omega

/-- A call with a known label extends the history. -/
theorem Spec.GoodHistory.snoc {w0 w w1 : Wisard} {ops : List WOp} {n : Int} (g : GoodHistory w0 ops w n) {o : WOp}
    (hl : w.discriminators.find o.label ≠ none) (hv : ValidImage n w0.opts.base o.img) (hlen : ops.length < 2147483647)
    (h : wstep w o = (w1, .ok ())) : GoodHistory w0 (ops ++ [o]) w1 n ∧ 
      (∀ k, w1.discriminators.find k = none ↔ w.discriminators.find k = none) ∧
      ∀ k d d1, w.discriminators.find k = some d → w1.discriminators.find k = some d1 → d1.mapping = d.mapping := by
  have hwire : ∀ k d d1, w.discriminators.find k = some d → w1.discriminators.find k = some d1 → d1.mapping = d.mapping := by
    intro k d d1 hd hd1
    obtain ⟨d', q1, q2⟩ := wstep_wiring (o := o) hd
    rw [h, hd1] at q1
    cases q1
    exact q2
  have hnone : ∀ k, w1.discriminators.find k = none ↔ w.discriminators.find k = none := by
    intro k
    constructor
    · intro q
      cases hd : w.discriminators.find k with
      | none => rfl
      | some d =>
        obtain ⟨d', q1, _⟩ := wstep_wiring (o := o) hd
        rw [h, q] at q1
        cases q1
    · intro q
      have hne : k ≠ o.label := fun e => hl (by rw [← e]; exact q)
      have := (wstep_other w o).2.2.1 k hne
      rw [h] at this
      rw [this]; exact q
  refine ⟨⟨g.start, ?_, ?_, ?_, ?_⟩, hnone, hwire⟩
  · rw [wrun_append, g.ran]
    simp only [wrun, h]
  · intro q hq
    rcases List.mem_append.mp hq with hq | hq
    · exact g.valid q hq
    · rw [List.mem_singleton.mp hq]; exact hv
  · intro k d1 hd1
    cases hd : w.discriminators.find k with
    | none => rw [(hnone k).mpr hd] at hd1; cases hd1
    | some d =>
      rw [hwire k d d1 hd hd1]
      exact g.wired k d hd
  · rw [List.length_append, List.length_singleton]; omega

/-- C172: a model trained with a list of labelled images and left without one of them, whose class has another image, gives every
image the same scores and labels as a model of the same wiring trained with the other images only. -/
theorem C172_without {w0 w w1 w' : Wisard} {pre post : List WOp} {n : Int} {env : Env} {i : Image} {l : Str} {img : List Int}
    (g : GoodHistory w0 (pre ++ .train env i l :: post) w n) (t : ∀ o ∈ pre ++ post, o.isTrain = true)
    (hlen : (pre ++ post).length + 2 ≤ 2147483647) (hs : Same (.vec img) i) (h1 : w.leaveOneOut img l = (w1, .ok ()))
    (g' : GoodHistory w0 (pre ++ post) w' n)
    (hwire : ∀ k d d', w.discriminators.find k = some d → w'.discriminators.find k = some d' → d.mapping = d'.mapping)
    (hother : trainedWith l (pre ++ post) ≠ []) (xs : List Image) (hxs : ∀ x ∈ xs, ValidImage n w0.opts.base x) :
    (∀ x ∈ xs, w1.classify1 x = w'.classify1 x) ∧ w1.classify xs = w'.classify xs := by
  have tt : ∀ o ∈ pre ++ .train env i l :: post, o.isTrain = true := by
    intro o ho
    rcases List.mem_append.mp ho with q | q
    · exact t o (List.mem_append_left _ q)
    · rcases List.mem_cons.mp q with rfl | q
      · rfl
      · exact t o (List.mem_append_right _ q)
  have hvi : ValidImage n w0.opts.base i := g.valid (.train env i l) (by simp)
  have hvy : ValidImage n w0.opts.base (.vec img) := by
    refine ⟨by rw [hs.1]; exact hvi.1, fun j hj => ?_⟩
    rw [hs.2 j hj]
    exact hvi.2 j (by rw [← hs.1]; exact hj)
  -- images per class
  have hA : ∀ k, trainedWith k (pre ++ .train env i l :: post) =
      trainedWith k pre ++ (if l = k then [i] else []) ++ trainedWith k post := by
    intro k
    rw [trainedWith_append, List.append_assoc]
    congr 1
    unfold trainedWith
    simp only [trained, List.filter_cons]
    by_cases hk : l = k
    · simp [hk]
    · simp [hk]
  have hB : ∀ k, trainedWith k (pre ++ post) = trainedWith k pre ++ trainedWith k post := fun k => trainedWith_append k pre post
  have hmemi : i ∈ trainedWith l (pre ++ .train env i l :: post) := by rw [hA]; simp
  have hknown : w.discriminators.find l ≠ none := by
    rw [ne_eq, g.class_iff tt]
    intro h
    rw [h] at hmemi
    cases hmemi
  have hlen' : (pre ++ .train env i l :: post).length < 2147483647 := by
    simp only [List.length_append, List.length_cons] at hlen ⊢
    omega
  obtain ⟨g1, n1, m1⟩ := g.snoc (o := .leave img l) hknown hvy hlen' h1
  have key : ∀ x, ValidImage n w0.opts.base x → w1.classify1 x = w'.classify1 x := by
    intro x hx
    refine classify1_congr g1 g' ?_ ?_ hx ?_
    · intro k
      rw [n1, g.class_iff tt, g'.class_iff t, hA, hB]
      by_cases hk : l = k
      · subst hk
        rw [hB] at hother
        constructor
        · intro h; simp at h
        · intro h; exact absurd h hother
      · rw [if_neg hk, List.append_nil]
    · intro k d1 d' hd1 hd'
      cases hd : w.discriminators.find k with
      | none => rw [(n1 k).mpr hd] at hd1; cases hd1
      | some d => rw [m1 k d d1 hd hd1]; exact hwire k d d' hd hd'
    · intro k d1 hd1 m hm
      have hin := g1.wired k d1 hd1 m hm
      have v2 : vote m (opsOf k (pre ++ post)) x = matchCount m (trainedWith k (pre ++ post)) x := by
        rw [opsOf_trains t]
        exact vote_trains (g'.images_valid t k) hin x
      rw [v2, hB, matchCount_append]
      by_cases hk : k = l
      · subst hk
        have hne : opsOf k (pre ++ .train env i k :: post) ≠ [] := by
          rw [opsOf_trains tt]
          intro h
          rw [show ((trained (pre ++ .train env i k :: post)).filter (fun e => decide (e.2 = k))).map (·.1) =
            trainedWith k (pre ++ .train env i k :: post) from rfl, List.map_eq_nil_iff] at h
          rw [h] at hmemi
          cases hmemi
        rw [opsOf_snoc_leave, if_neg hne, opsOf_trains tt]
        have := vote_leave (g.images_valid tt k) hin hmemi hs x
        unfold trainedWith at this
        rw [this]
        have e : matchCount m (((trained (pre ++ .train env i k :: post)).filter (fun e => decide (e.2 = k))).map (·.1)) x =
            matchCount m (trainedWith k pre) x + (if Agree m x i then 1 else 0) + matchCount m (trainedWith k post) x := by
          rw [show ((trained (pre ++ .train env i k :: post)).filter (fun e => decide (e.2 = k))).map (·.1) =
            trainedWith k (pre ++ .train env i k :: post) from rfl, hA, if_pos rfl, matchCount_append, matchCount_append]
          congr 2
          unfold matchCount
          by_cases ha : Agree m x i <;> simp [ha]
        rw [e]
        have hag : Agree m x (.vec img) ↔ Agree m x i := hs.agree hin hvy.1
        by_cases ha : Agree m x i
        · rw [if_pos ha, if_pos (hag.mpr ha)]; omega
        · rw [if_neg ha, if_neg (fun h => ha (hag.mp h))]; omega
      · rw [opsOf_snoc_other k _ (.leave img l) hk, opsOf_trains tt]
        have := vote_trains (g.images_valid tt k) hin x
        unfold trainedWith at this
        rw [this]
        have e : ((trained (pre ++ .train env i l :: post)).filter (fun e => decide (e.2 = k))).map (·.1) =
            trainedWith k pre ++ trainedWith k post := by
          have := hA k
          rw [if_neg (Ne.symm hk), List.append_nil] at this
          exact this
        rw [e, matchCount_append]
  exact ⟨fun x hx => key x (hxs x hx), classify_congr fun x hx => key x (hxs x hx)⟩

theorem trained_of_mem {e : Env} {i : Image} {l : Str} {ops : List WOp} (h : .train e i l ∈ ops) : (i, l) ∈ trained ops := by
  induction ops with
  | nil => cases h
  | cons o ops ih =>
    rcases List.mem_cons.mp h with q | q
    · subst q; simp [trained]
    · cases o with
      | train _ _ _ => exact List.mem_cons_of_mem _ (ih q)
      | leave _ _ => exact ih q

/-- C172: the whole evaluation succeeds and gives back exactly the same model, and every answer is the one of a model of the same
wiring trained with all samples but this one (if the class has another sample). -/
theorem C172_evaluation {w0 w : Wisard} {ops : List WOp} {n : Int} (g : GoodHistory w0 ops w n)
    (t : ∀ o ∈ ops, o.isTrain = true) (hlen : ops.length + 2 ≤ 2147483645) (S : List (Env × List Int × Str))
    (hS : ∀ e ∈ S, ∃ o ∈ ops, o.label = e.2.2 ∧ Same (.vec e.2.1) o.img) :
    ∃ ls, leaveOneOutEvaluation w S = (w, .ok ls) ∧
      List.Forall₂ (fun (e : Env × List Int × Str) a => ∀ pre env i post w', ops = pre ++ .train env i e.2.2 :: post →
        Same (.vec e.2.1) i → GoodHistory w0 (pre ++ post) w' n →
        (∀ k d d', w.discriminators.find k = some d → w'.discriminators.find k = some d' → d.mapping = d'.mapping) →
        trainedWith e.2.2 (pre ++ post) ≠ [] → w'.classify [.vec e.2.1] = .ok [a]) S ls := by
  induction S with
  | nil => exact ⟨[], rfl, .nil⟩
  | cons e S ih =>
    obtain ⟨env, img, l⟩ := e
    obtain ⟨ls, i1, i2⟩ := ih (fun e he => hS e (List.mem_cons_of_mem _ he))
    obtain ⟨o, ho, hol, hs⟩ := hS (env, img, l) (by simp)
    simp only at hol hs
    obtain ⟨w1, b1, b2⟩ := C172_back g (by omega) ⟨o, ho, t o ho, hol, hs⟩ env
    have hvo := g.valid o ho
    have hvy : ValidImage n w0.opts.base (.vec img) := by
      refine ⟨by rw [hs.1]; exact hvo.1, fun j hj => ?_⟩
      rw [hs.2 j hj]
      exact hvo.2 j (by rw [← hs.1]; exact hj)
    have hknown : w.discriminators.find l ≠ none := by
      rw [ne_eq, g.class_iff t]
      intro h
      have : o.img ∈ trainedWith l ops := by
        rw [mem_trainedWith]
        have hto := t o ho
        cases o with
        | leave i k => cases hto
        | train e i k =>
          simp only [WOp.label] at hol
          subst hol
          exact trained_of_mem ho
      rw [h] at this
      cases this
    obtain ⟨g1, _⟩ := g.snoc (o := .leave img l) hknown hvy (by omega) b1
    obtain ⟨sc, _, ha⟩ := g1.answer hvy (by rw [List.length_append, List.length_singleton]; omega)
    generalize Bleaching.getBiggestCandidate sc = a at ha
    refine ⟨a :: ls, ?_, .cons ?_ i2⟩
    · simp only [leaveOneOutEvaluation, b1, ha, b2, i1, List.cons_append, List.nil_append]
    · intro pre env' i post w' hops hsi g' hwire hother
      subst hops
      have := (C172_without g (fun o ho => t o (by
        rcases List.mem_append.mp ho with q | q
        · exact List.mem_append_left _ q
        · exact List.mem_append_right _ (List.mem_cons_of_mem _ q))) (by
          simp only [List.length_append, List.length_cons] at hlen ⊢; omega) hsi b1 g' hwire hother [.vec img] (by
          intro x hx; rw [List.mem_singleton.mp hx]; exact hvy)).2
      rw [← this]
      exact ha

/-! ## A class with a single sample -/

/-- Two classes with one sample each. -/
def singleOps : List WOp :=
  [.train ⟨Rnd.id, true⟩ (.vec [1, 1, 1]) b!"a", .train ⟨Rnd.id, true⟩ (.vec [0, 0, 0]) b!"b"]

/-- C172 is false for a class with a single sample: `leaveOneOut` leaves an empty class behind, which still takes part. Here the
evaluation answers "b" for the only sample of "b"; a model trained with the other sample only answers "a". -/
theorem C172_needs_other : (wrun (Wisard.create 3 { bleachingActivated := false }) singleOps).2 = .ok () ∧
    (leaveOneOutEvaluation (wrun (Wisard.create 3 { bleachingActivated := false }) singleOps).1 [(⟨Rnd.id, true⟩, [0, 0, 0], b!"b")]).2 =
      .ok [b!"b"] ∧
    (wrun (Wisard.create 3 { bleachingActivated := false }) (singleOps.take 1)).2 = .ok () ∧
    ((wrun (Wisard.create 3 { bleachingActivated := false }) (singleOps.take 1)).1.classify [.vec [0, 0, 0]]) = .ok [b!"a"] := by
  refine ⟨by decide +kernel, by decide +kernel, by decide +kernel, by decide +kernel⟩

/-! ## The hypotheses are met -/

/-- The four samples of `flipOps`, evaluated; the answer for the last one is that of the model trained with the first three. -/
example : ∃ w w' ls a, GoodHistory (Wisard.create 2 {}) flipOps w 6 ∧ GoodHistory (Wisard.create 2 {}) (flipOps.take 3) w' 6 ∧
    leaveOneOutEvaluation w [(⟨Rnd.id, true⟩, [1, 0, 1, 0, 1, 0], b!"a"), (⟨Rnd.id, true⟩, [1, 1, 0, 1, 0, 1], b!"a"),
      (⟨Rnd.id, true⟩, [1, 0, 1, 0, 1, 0], b!"b")] = (w, .ok ls) ∧ ls[2]? = some a ∧ w'.classify [.vec [1, 0, 1, 0, 1, 0]] = .ok [a] := by
  have hv : ∀ q ∈ flipOps, ValidImage 6 2 q.img := by
    intro q hq
    simp only [flipOps, List.mem_cons, List.not_mem_nil, or_false] at hq
    rcases hq with rfl | rfl | rfl | rfl <;> exact bits_valid _ (by decide)
  obtain ⟨w, g, _⟩ := C73_valid_calls_succeed (A := 2) (n := 6) (o := {}) rfl rfl (by omega) (by omega)
    (by omega) (show (2 : Int) ≤ 2 by decide) (show (2 : Int) ^ 2 < 2 ^ 63 by decide) flipOps hv (by decide)
  obtain ⟨w', g', _⟩ := C73_valid_calls_succeed (A := 2) (n := 6) (o := {}) rfl rfl (by omega) (by omega)
    (by omega) (show (2 : Int) ≤ 2 by decide) (show (2 : Int) ^ 2 < 2 ^ 63 by decide) (flipOps.take 3)
    (fun q hq => hv q (List.mem_of_mem_take hq)) (by decide)
  obtain ⟨ls, h1, h2⟩ := C172_evaluation g (by decide) (by decide) [(⟨Rnd.id, true⟩, [1, 0, 1, 0, 1, 0], b!"a"),
    (⟨Rnd.id, true⟩, [1, 1, 0, 1, 0, 1], b!"a"), (⟨Rnd.id, true⟩, [1, 0, 1, 0, 1, 0], b!"b")] (by
      intro e he
      simp only [List.mem_cons, List.not_mem_nil, or_false] at he
      rcases he with rfl | rfl | rfl
      · exact ⟨.train ⟨Rnd.id, true⟩ (.vec [1, 0, 1, 0, 1, 0]) b!"a", by simp [flipOps], rfl, Spec.Same.refl _⟩
      · exact ⟨.train ⟨Rnd.id, true⟩ (.vec [1, 1, 0, 1, 0, 1]) b!"a", by simp [flipOps], rfl, Spec.Same.refl _⟩
      · exact ⟨.train ⟨Rnd.id, true⟩ (.vec [1, 0, 1, 0, 1, 0]) b!"b", by simp [flipOps], rfl, Spec.Same.refl _⟩)
  have hl := h2.length_eq
  match ls, hl, h2 with
  | [a0, a1, a2], _, .cons _ (.cons _ (.cons h .nil)) =>
    refine ⟨w, w', _, a2, g, g', h1, rfl, ?_⟩
    refine h (flipOps.take 3) ⟨Rnd.id, true⟩ (.vec [1, 0, 1, 0, 1, 0]) [] w' rfl (Spec.Same.refl _) (by rw [List.append_nil]; exact g') ?_ (by decide)
    intro k d d' hd hd'
    have gx : wrun (Wisard.create 2 {}) flipOps = (w, .ok ()) := g.ran
    have gx' : wrun (Wisard.create 2 {}) (flipOps.take 3) = (w', .ok ()) := g'.ran
    have e : w = (wrun (Wisard.create 2 {}) flipOps).1 := by rw [gx]
    have e' : w' = (wrun (Wisard.create 2 {}) (flipOps.take 3)).1 := by rw [gx']
    have all : ∀ q ∈ w.discriminators, q.2.mapping = [[0, 1], [2, 3], [4, 5]] := by rw [e]; decide +kernel
    have all' : ∀ q ∈ w'.discriminators, q.2.mapping = [[0, 1], [2, 3], [4, 5]] := by rw [e']; decide +kernel
    rw [all _ (SMap.mem_of_find hd), all' _ (SMap.mem_of_find hd')]

end Wis
