import Verif.Lemmas.DiscState
import Verif.Lemmas.BinInput
import Mathlib.Tactic.IntervalCases
/-!
# Properties C11–C26: discriminators

Common reading of the hypotheses: `Discriminator.create rnd A n o = .ok d0` says that the constructor with
address size `A`, entry size `n` and options `o` returned `d0`, for some outcome `rnd` of the random
choices. `d0.mapping` is the wiring shown by `json()`. `WiredInside n d0.mapping` holds for the default
wiring (C18) and for every valid list of indexes (C19); with the option `mapping` it is up to the caller
(C20). Histories are bounded by 2^31-1 calls because counters are `int`.
-/

namespace Wis
open Spec

/-! ## Support: batch training is a history -/

theorem trainAll_eq_run (imgs : List Image) : ∀ d : Discriminator,
    d.trainAll imgs = run d (imgs.map Op.train) := by
  induction imgs with
  | nil => intro d; rfl
  | cons i is ih =>
    intro d
    simp only [Discriminator.trainAll, List.map_cons, run]
    split <;> simp_all

theorem run_created {rnd : Rnd} {A n : Int} {o : Options} {d0 : Discriminator}
    (hc : Discriminator.create rnd A n o = .ok d0) (hw : WiredInside n d0.mapping) (ops : List Op)
    (hv : ∀ op ∈ ops, ValidImage n o.base op.img) (hlen : ops.length ≤ 2147483647) :
    ∃ d, run d0 ops = (d, .ok ()) ∧ DRep n d0 d ops := by
  have hf := create_fresh hc
  obtain ⟨d, h1, h2⟩ := run_rep hf hw ops (fresh_rep hf) hv (by simpa using hlen)
  exact ⟨d, h1, by simpa using h2⟩

theorem classify_created {rnd : Rnd} {A n : Int} {o : Options} {d0 d : Discriminator}
    (hc : Discriminator.create rnd A n o = .ok d0) (hw : WiredInside n d0.mapping) {ops : List Op}
    (hv : ∀ op ∈ ops, ValidImage n o.base op.img) (hlen : ops.length ≤ 2147483647)
    (hr : run d0 ops = (d, .ok ())) {x : Image} (hx : ValidImage n o.base x) :
    d.classify x = .ok (d0.mapping.map (fun m =>
      if o.ignoreZero = true ∧ ZeroOn m x then 0 else vote m ops x)) := by
  obtain ⟨d', h1, h2⟩ := run_created hc hw ops hv hlen
  rw [hr] at h1
  obtain rfl : d = d' := (Prod.mk.inj h1).1
  exact classify_rep (create_fresh hc) hw h2 hv hx

theorem mem_trains {imgs : List Image} {P : Image → Prop} (h : ∀ i ∈ imgs, P i) :
    ∀ op ∈ imgs.map Op.train, P op.img := by
  intro op hop
  obtain ⟨i, hi, rfl⟩ := List.mem_map.mp hop
  exact h i hi

/-! ## C11 -/

/-- C11: after training any images with entries in `[0, base)`, each RAM votes the number of trained
images that agree with `x` on the RAM's positions (or 0 for the all-zero pattern under `ignoreZero`). -/
theorem C11_vote_counts_matching_images {rnd : Rnd} {A n : Int} {o : Options} {d0 : Discriminator}
    (hc : Discriminator.create rnd A n o = .ok d0) (hw : WiredInside n d0.mapping)
    (imgs : List Image) (hv : ∀ i ∈ imgs, ValidImage n o.base i) (hlen : imgs.length ≤ 2147483647)
    (x : Image) (hx : ValidImage n o.base x) :
    ∃ d, d0.trainAll imgs = (d, .ok ()) ∧
      d.classify x = .ok (d0.mapping.map (fun m =>
        if o.ignoreZero = true ∧ ZeroOn m x then 0 else (matchCount m imgs x : Int))) := by
  have hv' := mem_trains hv
  obtain ⟨d, h1, h2⟩ := run_created hc hw (imgs.map Op.train) hv' (by simpa using hlen)
  refine ⟨d, by rw [trainAll_eq_run]; exact h1, ?_⟩
  rw [classify_created hc hw hv' (by simpa using hlen) h1 hx]
  congr 1
  apply List.map_congr_left
  intro m hm
  rw [vote_trains hv (fun a ha => hw m hm a ha)]

/-- A created, inside-wired discriminator and valid images exist (address size 2, entry size 4). -/
theorem example_created : ∃ d0, Discriminator.create Rnd.id 2 4 {} = .ok d0 ∧ d0.mapping = [[0, 1], [2, 3]] ∧
    WiredInside 4 d0.mapping := ⟨_, rfl, by decide, by decide⟩

theorem example_valid : ValidImage 4 2 (.vec [1, 0, 1, 1]) ∧ ValidImage 4 2 (.vec [0, 0, 1, 0]) := by
  constructor <;> refine ⟨rfl, fun i hi => ?_⟩ <;> simp only [Image.size, List.length_cons, List.length_nil] at hi <;>
    (interval_cases i) <;> exact ⟨_, rfl, by decide, by decide⟩

example : ∃ d0 d, Discriminator.create Rnd.id 2 4 {} = .ok d0 ∧
    d0.trainAll [.vec [1, 0, 1, 1], .vec [1, 0, 1, 0]] = (d, .ok ()) ∧
    d.classify (.vec [1, 0, 1, 1]) = .ok [2, 1] ∧ d.classify (.vec [0, 0, 1, 0]) = .ok [0, 1] :=
  ⟨_, _, rfl, rfl, by decide, by decide⟩

/-! ## C12 -/

/-- C12 (partial): an accepted discriminator has `base ^ n ≤ 2^64` for each of its RAMs with `n`
addresses, and no two valid images that differ on the RAM's positions get the same address. Missing:
"too big is rejected by an exception" is false for `base ≠ 2`, see the next two theorems. -/
theorem C12_accepted_no_collision_partial {rnd : Rnd} {A n : Int} {o : Options} {d0 : Discriminator}
    (hc : Discriminator.create rnd A n o = .ok d0) (hw : WiredInside n d0.mapping) :
    ∀ r ∈ d0.rams, o.base ^ r.addresses.length ≤ 2 ^ 64 ∧
      ∀ x y, ValidImage n o.base x → ValidImage n o.base y →
        ∃ kx ky, r.getIndex x = .ok kx ∧ r.getIndex y = .ok ky ∧ (kx = ky ↔ Agree r.addresses x y) := by
  intro r hr
  have hf := create_fresh hc
  obtain ⟨_, hb, _, hfit⟩ := hf.rams r hr
  refine ⟨hfit, fun x y hx hy => ?_⟩
  have hin := inside_of hw r hr
  refine ⟨_, _, getIndex_valid (n := n) (by rw [hb]; exact hx) hin, getIndex_valid (n := n) (by rw [hb]; exact hy) hin, ?_⟩
  rw [hb]
  exact key_eq_iff (by have := hf.base2; omega) hx hy hin hfit

/-- C12 for base 2: a RAM with `n` addresses is rejected exactly when `2^n > 2^64`. -/
theorem C12_base2_limit (is : List Int) (iz : Bool) :
    (Ram.create is iz 2 = .error (.throw .limit64) ↔ (2 : Int) ^ is.length > 2 ^ 64) ∧
    ((2 : Int) ^ is.length ≤ 2 ^ 64 → ∃ r, Ram.create is iz 2 = .ok r) := by
  have hpow : (2 : Int) ^ is.length ≤ 2 ^ 64 ↔ is.length ≤ 64 :=
    ⟨fun h => by
      by_contra hc
      have := pow_le_pow' (b := 2) (by omega) (show 65 ≤ is.length by omega)
      omega, fun h => pow_le_pow' (by omega) h⟩
  unfold Ram.create
  rw [checkLimit_eq (by omega), if_pos rfl]
  by_cases h : is.length > 64
  · rw [if_pos h]
    simp only [Except.bind_error, true_iff]
    exact ⟨by rw [gt_iff_lt, ← Int.not_le, hpow]; omega, fun h' => by have := hpow.mp h'; omega⟩
  · rw [if_neg h]
    simp only [Except.bind_ok, reduceCtorEq, false_iff]
    exact ⟨by rw [gt_iff_lt, Int.not_lt, hpow]; omega, fun _ => ⟨_, rfl⟩⟩

/-- C12 is false: for every base ≥ 3 the limit exception is never thrown; an address size with
`base^n ≥ 2^63` (in particular one beyond the documented limit `2^64`) is undefined behaviour instead. -/
theorem C12_limit_never_thrown (is : List Int) (iz : Bool) (base : Int) (hb : 3 ≤ base) :
    Ram.create is iz base ≠ .error (.throw .limit64) ∧
    (base ^ is.length ≥ 2 ^ 63 → Ram.create is iz base = .error (.ub .overflow)) := by
  unfold Ram.create
  rw [checkLimit_eq (by omega), if_neg (by omega)]
  by_cases h : base ^ is.length < 2 ^ 63
  · rw [if_pos h]
    simp only [Except.bind_ok]
    exact ⟨by simp, fun h' => by omega⟩
  · rw [if_neg h]
    simp only [Except.bind_error]
    exact ⟨by simp, fun _ => trivial⟩

example : (3 : Int) ^ 41 > 2 ^ 64 ∧ ∀ iz, Ram.create (List.replicate 41 0) iz 3 = .error (.ub .overflow) :=
  ⟨by decide, fun iz => (C12_limit_never_thrown (List.replicate 41 0) iz 3 (by decide)).2 (by simp)⟩

/-! ## C13 -/

/-- C13: training a permutation of the same images gives the same votes on every image and the same
number of trainings. -/
theorem C13_training_order_irrelevant {rnd : Rnd} {A n : Int} {o : Options} {d0 : Discriminator}
    (hc : Discriminator.create rnd A n o = .ok d0) (hw : WiredInside n d0.mapping)
    (imgs imgs' : List Image) (hp : imgs.Perm imgs') (hv : ∀ i ∈ imgs, ValidImage n o.base i)
    (hlen : imgs.length ≤ 2147483647) :
    ∃ d d', d0.trainAll imgs = (d, .ok ()) ∧ d0.trainAll imgs' = (d', .ok ()) ∧
      d.getNumberOfTrainings = d'.getNumberOfTrainings ∧
      ∀ x, ValidImage n o.base x → d.classify x = d'.classify x := by
  have hv' : ∀ i ∈ imgs', ValidImage n o.base i := fun i hi => hv i (hp.mem_iff.mpr hi)
  have hlen' : imgs'.length ≤ 2147483647 := by rw [← hp.length_eq]; exact hlen
  obtain ⟨d, h1, h2⟩ := run_created hc hw (imgs.map Op.train) (mem_trains hv) (by simpa using hlen)
  obtain ⟨d', h1', h2'⟩ := run_created hc hw (imgs'.map Op.train) (mem_trains hv') (by simpa using hlen')
  refine ⟨d, d', by rw [trainAll_eq_run]; exact h1, by rw [trainAll_eq_run]; exact h1', ?_, ?_⟩
  · unfold Discriminator.getNumberOfTrainings
    rw [h2.count, h2'.count]
    have e := net_filter_trains (fun _ => true) imgs
    have e' := net_filter_trains (fun _ => true) imgs'
    simp only [List.filter_true] at e e'
    rw [e, e', hp.length_eq]
  · intro x hx
    rw [classify_created hc hw (mem_trains hv) (by simpa using hlen) h1 hx,
      classify_created hc hw (mem_trains hv') (by simpa using hlen') h1' hx]
    congr 1
    apply List.map_congr_left
    intro m hm
    rw [vote_trains hv (fun a ha => hw m hm a ha), vote_trains hv' (fun a ha => hw m hm a ha)]
    unfold matchCount
    rw [(hp.filter _).length_eq]

example : ([.vec [1, 0, 1, 1], .vec [0, 0, 1, 0]] : List Image).Perm [.vec [0, 0, 1, 0], .vec [1, 0, 1, 1]] := by
  decide

/-! ## C14 -/

theorem legal_snoc_train {ops : List Op} (h : Legal ops) (i : Image) : Legal (ops ++ [Op.train i]) := by
  intro pre img post he
  rcases List.eq_nil_or_concat post with hp | ⟨post', o', hp⟩
  · subst hp
    have := List.append_inj_right' he rfl
    simp at this
  · subst hp
    rw [List.concat_eq_append, ← List.cons_append, ← List.append_assoc] at he
    exact h pre img post' (List.append_inj_left' he rfl)

theorem legal_snoc_untrain {ops : List Op} (h : Legal ops) (i : Image)
    (hi : 0 < net (ops.filter (fun o => decide (Same i o.img)))) : Legal (ops ++ [Op.untrain i]) := by
  intro pre img post he
  rcases List.eq_nil_or_concat post with hp | ⟨post', o', hp⟩
  · subst hp
    have h1 := List.append_inj_right' he rfl
    have h2 := List.append_inj_left' he rfl
    simp only [List.cons.injEq, Op.untrain.injEq, and_true] at h1
    subst h1; subst h2
    exact hi
  · subst hp
    rw [List.concat_eq_append, ← List.cons_append, ← List.append_assoc] at he
    exact h pre img post' (List.append_inj_left' he rfl)

theorem legal_undo {ops : List Op} (h : Legal ops) (i : Image) :
    Legal (ops ++ [Op.train i, Op.untrain i]) := by
  have e : ops ++ [Op.train i, Op.untrain i] = (ops ++ [Op.train i]) ++ [Op.untrain i] := by simp
  rw [e]
  apply legal_snoc_untrain (legal_snoc_train h i)
  obtain ⟨M, hM⟩ := legal_bag ops h
  have h1 := hM (fun z => decide (Same i z)) (fun a b hab => by
    rw [decide_eq_decide]; exact ⟨fun h => h.trans hab, fun h => h.trans hab.symm⟩)
  rw [List.filter_append, net_append, h1]
  have h2 : net ([Op.train i].filter (fun o => decide (Same i o.img))) = 1 := by
    simp [Op.img, Same.refl, net]
  rw [h2]; omega

theorem vote_undo (as : List Int) (ops : List Op) (i x : Image) :
    vote as (ops ++ [Op.train i, Op.untrain i]) x = vote as ops x := by
  unfold vote matching
  rw [← cell_getD, ← cell_getD, List.filter_append]
  by_cases h : Agree as x i
  · have : [Op.train i, Op.untrain i].filter (fun o => decide (Agree as x o.img)) = [Op.train i] ++ [Op.untrain i] := by
      simp [Op.img, h]
    rw [this, ← List.append_assoc, cell_append, cell_append]
    cases cell (ops.filter fun o => decide (Agree as x o.img)) <;> simp [cellStep]
  · have : [Op.train i, Op.untrain i].filter (fun o => decide (Agree as x o.img)) = [] := by
      simp [Op.img, h]
    rw [this, List.append_nil]

theorem mental_undo_ram {n : Int} {r0 r r2 : Ram} {ops : List Op} {i : Image} (h : RamRep n r0 r ops)
    (h2 : RamRep n r0 r2 (ops ++ [Op.train i, Op.untrain i])) (hin : InsideRam n r0) (hb : 2 ≤ r0.base)
    (hl : Legal ops) (hv : ∀ o ∈ ops, (o.img.size : Int) = n) (hi : (i.size : Int) = n) (it it' : IterOrder) :
    r2.getMentalImage it' = r.getMentalImage it := by
  obtain ⟨p1, w1⟩ := legal_positions h hin hl hv
  obtain ⟨p2, w2⟩ := legal_positions h2 hin (legal_undo hl i) (by
    intro o ho
    simp only [List.mem_append, List.mem_cons, List.not_mem_nil, or_false] at ho
    rcases ho with ho | ho | ho
    · exact hv o ho
    · subst ho; exact hi
    · subst ho; exact hi)
  have hm : mentalVals r2 = mentalVals r := by
    unfold mentalVals
    rw [h2.addr, h2.base, h.addr, h.base]
    apply List.map_congr_left
    intro j _
    rw [w1, w2, List.filter_append, net_append]
    have : net ([Op.train i, Op.untrain i].filter (fun o => digitOn r0.base j (key r0.base r0.addresses o.img))) = 0 := by
      by_cases hd : digitOn r0.base j (key r0.base r0.addresses i) = true <;>
        simp [Op.img, hd, net]
    omega
  rw [ramMental_eq r2 (by rw [h2.base]; omega) p2, ramMental_eq r (by rw [h.base]; omega) p1, hm, h2.addr, h.addr]

theorem mental_undo {n base : Int} {iz : Bool} {d0 d d2 : Discriminator} {ops : List Op} {i : Image}
    (hf : Fresh d0 n base iz) (hw : WiredInside n d0.mapping) (h : DRep n d0 d ops)
    (h2 : DRep n d0 d2 (ops ++ [Op.train i, Op.untrain i])) (hl : Legal ops)
    (hv : ∀ o ∈ ops, (o.img.size : Int) = n) (hi : (i.size : Int) = n) (it it' : IterOrder) :
    d2.getMentalImage it' = d.getMentalImage it := by
  unfold Discriminator.getMentalImage
  rw [h.entry, h2.entry]
  have key : ∀ (rs0 rs rs2 : List Ram), (∀ r ∈ rs0, InsideRam n r ∧ 2 ≤ r.base) →
      List.Forall₂ (fun r0 r => RamRep n r0 r ops) rs0 rs →
      List.Forall₂ (fun r0 r => RamRep n r0 r (ops ++ [Op.train i, Op.untrain i])) rs0 rs2 →
      ∀ m, Discriminator.mentalLoop it' rs2 m = Discriminator.mentalLoop it rs m := by
    intro rs0
    induction rs0 with
    | nil => intro rs rs2 _ a b m; cases a; cases b; rfl
    | cons r0 rs0 ih =>
      intro rs rs2 hr a b m
      cases a with
      | cons a1 a2 =>
        cases b with
        | cons b1 b2 =>
          obtain ⟨q1, q2⟩ := hr r0 (by simp)
          simp only [Discriminator.mentalLoop]
          rw [mental_undo_ram a1 b1 q1 q2 hl hv hi it it']
          congr 1; funext p; congr 1; funext m'
          exact ih _ _ (fun r hr' => hr r (List.mem_cons_of_mem _ hr')) a2 b2 m'
  rw [key d0.rams d.rams d2.rams (fun r hr => ⟨inside_of hw r hr, by
    rw [(hf.rams r hr).2.1]; exact hf.base2⟩) h.rams h2.rams]

/-- C14: from any state reached by a history of valid calls, `train(img)` followed by `untrain(img)`
succeeds and leaves every vote and the number of trainings as before; if moreover no image was untrained
more often than trained, it leaves the mental image (or the failure to compute it) as before, whatever
the iteration orders of the hash tables. -/
theorem C14_untrain_undoes_train {rnd : Rnd} {A n : Int} {o : Options} {d0 d : Discriminator}
    (hc : Discriminator.create rnd A n o = .ok d0) (hw : WiredInside n d0.mapping)
    (ops : List Op) (hv : ∀ op ∈ ops, ValidImage n o.base op.img) (hlen : ops.length + 2 ≤ 2147483647)
    (hr : run d0 ops = (d, .ok ())) (img : Image) (hi : ValidImage n o.base img) :
    ∃ d1 d2, d.train img = (d1, .ok ()) ∧ d1.untrain img = (d2, .ok ()) ∧
      (∀ x, ValidImage n o.base x → d2.classify x = d.classify x) ∧
      d2.getNumberOfTrainings = d.getNumberOfTrainings ∧
      (Legal ops → ∀ it it', d2.getMentalImage it' = d.getMentalImage it) := by
  have hf := create_fresh hc
  obtain ⟨d', h1, h2⟩ := run_created hc hw ops hv (by omega)
  rw [hr] at h1
  obtain rfl : d = d' := (Prod.mk.inj h1).1
  obtain ⟨d1, t1, r1⟩ := train_rep hf hw h2 hi (by omega)
  obtain ⟨d2, t2, r2⟩ := untrain_rep hf hw r1 hi (by simp; omega)
  rw [List.append_assoc] at r2
  refine ⟨d1, d2, t1, t2, ?_, ?_, ?_⟩
  · intro x hx
    have hv2 : ∀ op ∈ ops ++ ([Op.train img] ++ [Op.untrain img]), ValidImage n o.base op.img := by
      intro op hop
      simp only [List.mem_append, List.mem_cons, List.not_mem_nil, or_false] at hop
      rcases hop with h | h | h
      · exact hv op h
      · subst h; exact hi
      · subst h; exact hi
    rw [classify_rep hf hw r2 hv2 hx, classify_rep hf hw h2 hv hx]
    congr 1
    apply List.map_congr_left
    intro m _
    rw [show ops ++ ([Op.train img] ++ [Op.untrain img]) = ops ++ [Op.train img, Op.untrain img] by simp, vote_undo]
  · unfold Discriminator.getNumberOfTrainings
    rw [r2.count, h2.count, net_append]
    simp [net]
  · intro hl it it'
    exact mental_undo hf hw h2 (by simpa using r2) hl (fun op hop => (hv op hop).1) hi.1 it it'

example : ∃ d0 d d2, Discriminator.create Rnd.id 2 4 {} = .ok d0 ∧
    run d0 [Op.train (.vec [1, 0, 1, 1])] = (d, .ok ()) ∧ Legal [Op.train (.vec [1, 0, 1, 1])] ∧
    run d [.train (.vec [0, 0, 1, 1]), .untrain (.vec [0, 0, 1, 1])] = (d2, .ok ()) ∧ d2 ≠ d :=
  ⟨_, _, _, rfl, rfl, legal_trains [.vec [1, 0, 1, 1]], rfl, by decide⟩

/-! ## C15 -/

/-- C15: after any history in which every untrained image was, up to then, trained more often than
untrained, each vote is the number of matching trainings minus matching untrainings, and not negative. -/
theorem C15_votes_are_trainings_minus_untrainings {rnd : Rnd} {A n : Int} {o : Options} {d0 : Discriminator}
    (hc : Discriminator.create rnd A n o = .ok d0) (hw : WiredInside n d0.mapping)
    (ops : List Op) (hl : Legal ops) (hv : ∀ op ∈ ops, ValidImage n o.base op.img)
    (hlen : ops.length ≤ 2147483647) (x : Image) (hx : ValidImage n o.base x) :
    ∃ d vs, run d0 ops = (d, .ok ()) ∧ d.classify x = .ok vs ∧ (∀ v ∈ vs, 0 ≤ v) ∧
      vs = d0.mapping.map (fun m =>
        if o.ignoreZero = true ∧ ZeroOn m x then 0 else
          ((ops.filter (fun op => op.isTrain && decide (Agree m x op.img))).length : Int) -
          (ops.filter (fun op => !op.isTrain && decide (Agree m x op.img))).length) := by
  obtain ⟨d, h1, h2⟩ := run_created hc hw ops hv hlen
  have hnet : ∀ m, net (matching m x ops) =
      ((ops.filter (fun op => op.isTrain && decide (Agree m x op.img))).length : Int) -
          (ops.filter (fun op => !op.isTrain && decide (Agree m x op.img))).length := by
    intro m
    unfold matching
    clear hv hlen hl h1 h2
    induction ops with
    | nil => rfl
    | cons op ops ih =>
      cases op with
      | train i => by_cases h : Agree m x i <;> simp [Op.img, Op.isTrain, h, net] at ih ⊢ <;> omega
      | untrain i => by_cases h : Agree m x i <;> simp [Op.img, Op.isTrain, h, net] at ih ⊢ <;> omega
  refine ⟨d, _, h1, classify_created hc hw hv hlen h1 hx, ?_, ?_⟩
  · intro v hv'
    obtain ⟨m, hm, rfl⟩ := List.mem_map.mp hv'
    split
    · exact Int.le_refl 0
    · have := legal_vote hl hv (fun a ha => hw m hm a ha) x
      omega
  · apply List.map_congr_left
    intro m hm
    rw [(legal_vote hl hv (fun a ha => hw m hm a ha) x).1, hnet]

/-- C15, arbitrary histories: the vote starts counting at the first matching training (an untraining of
a pattern that was never trained is ignored), and may become negative. -/
theorem C15_votes_any_history {rnd : Rnd} {A n : Int} {o : Options} {d0 : Discriminator}
    (hc : Discriminator.create rnd A n o = .ok d0) (hw : WiredInside n d0.mapping)
    (ops : List Op) (hv : ∀ op ∈ ops, ValidImage n o.base op.img)
    (hlen : ops.length ≤ 2147483647) (x : Image) (hx : ValidImage n o.base x) :
    ∃ d, run d0 ops = (d, .ok ()) ∧ d.classify x = .ok (d0.mapping.map (fun m =>
        if o.ignoreZero = true ∧ ZeroOn m x then 0 else vote m ops x)) := by
  obtain ⟨d, h1, _⟩ := run_created hc hw ops hv hlen
  exact ⟨d, h1, classify_created hc hw hv hlen h1 hx⟩

example : Legal [Op.train (.vec [1, 0, 1, 1]), Op.untrain (.vec [1, 0, 1, 1])] :=
  legal_undo (ops := []) (fun pre img post h => by simp at h) _

/-- The bound on untraining is needed: one training and two untrainings of an image vote -1. -/
example : ∃ d0 d, Discriminator.create Rnd.id 2 4 {} = .ok d0 ∧
    run d0 [.train (.vec [1, 0, 1, 1]), .untrain (.vec [1, 0, 1, 1]), .untrain (.vec [1, 0, 1, 1])] = (d, .ok ()) ∧
    d.classify (.vec [1, 0, 1, 1]) = .ok [-1, -1] := ⟨_, _, rfl, rfl, by decide⟩

/-! ## C16 -/

/-- C16: two discriminators with the same wiring, one with and one without `ignoreZero`, after the same
history: a RAM whose positions are all zero in `x` votes 0 with `ignoreZero`, and every other RAM votes
the same in both. -/
theorem C16_ignoreZero_only_silences_zero {rnd rnd' : Rnd} {A A' n : Int} {o o' : Options}
    {d0 e0 d e : Discriminator}
    (hc : Discriminator.create rnd A n o = .ok d0) (hc' : Discriminator.create rnd' A' n o' = .ok e0)
    (hiz : o.ignoreZero = true) (hiz' : o'.ignoreZero = false) (hb : o'.base = o.base)
    (hm : e0.mapping = d0.mapping) (hw : WiredInside n d0.mapping)
    (ops : List Op) (hv : ∀ op ∈ ops, ValidImage n o.base op.img) (hlen : ops.length ≤ 2147483647)
    (hr : run d0 ops = (d, .ok ())) (hr' : run e0 ops = (e, .ok ()))
    (x : Image) (hx : ValidImage n o.base x) :
    ∃ vs ws, d.classify x = .ok vs ∧ e.classify x = .ok ws ∧
      ∃ (h1 : vs.length = d0.mapping.length) (h2 : ws.length = d0.mapping.length),
      ∀ r (h : r < d0.mapping.length),
        (ZeroOn d0.mapping[r] x → vs[r] = 0) ∧ (¬ ZeroOn d0.mapping[r] x → vs[r] = ws[r]) := by
  refine ⟨_, _, classify_created hc hw hv hlen hr hx,
    classify_created hc' (by rw [hm]; exact hw) (by rw [hb]; exact hv) hlen hr' (by rw [hb]; exact hx),
    by simp, by simp [hm], ?_⟩
  intro r h
  simp only [List.getElem_map, hiz, hiz', hm, true_and, Bool.false_eq_true, false_and, if_false]
  exact ⟨fun hz => by rw [if_pos hz], fun hz => by rw [if_neg hz]⟩

example : ∃ d0 e0, Discriminator.create Rnd.id 2 4 { ignoreZero := true } = .ok d0 ∧
    Discriminator.create Rnd.id 2 4 {} = .ok e0 ∧ e0.mapping = d0.mapping ∧ WiredInside 4 d0.mapping :=
  ⟨_, _, rfl, rfl, by decide, by decide⟩

/-! ## C17 -/

/-- C17, with untraining: the mental image at `i` is (wires to `i`) × (trainings − untrainings of images
with a non-zero value at `i`). -/
theorem C17_mental_image_history {rnd : Rnd} {A n : Int} {o : Options} {d0 : Discriminator}
    (hc : Discriminator.create rnd A n o = .ok d0) (hw : WiredInside n d0.mapping) (hn : 0 ≤ n)
    (hfit : ∀ m ∈ d0.mapping, o.base ^ m.length ≤ 2 ^ 31)
    (ops : List Op) (hl : Legal ops) (hv : ∀ op ∈ ops, ValidImage n o.base op.img)
    (hlen : ops.length ≤ 2147483647)
    (hsum : ∀ i : Int, (d0.mapping.flatten.count i : Int) * ops.length ≤ 2147483647) (it : IterOrder) :
    ∃ d m, run d0 ops = (d, .ok ()) ∧ d.getMentalImage it = .ok m ∧
      ∃ _ : (m.length : Int) = n, ∀ i (h : i < m.length), m[i] =
        (d0.mapping.flatten.count (i : Int) : Int) *
          net (ops.filter (fun op => decide (NonZeroAt i op.img))) := by
  obtain ⟨d, h1, h2⟩ := run_created hc hw ops hv hlen
  obtain ⟨m, h3, h4⟩ := mental_rep (create_fresh hc) hw h2 hl hn hv hfit hlen hsum it
  exact ⟨d, m, h1, h3, h4⟩

/-- C17: when `base^addressSize ≤ 2^31`, `getMentalImage()[i]` is the number of RAM inputs wired to `i`
times the number of trained images with a non-zero value at `i`, for every hash-table iteration order.
(`hsum`: the values fit an `int`.) -/
theorem C17_mental_image_counts {rnd : Rnd} {A n : Int} {o : Options} {d0 : Discriminator}
    (hc : Discriminator.create rnd A n o = .ok d0) (hw : WiredInside n d0.mapping) (hn : 0 ≤ n)
    (hfit : ∀ m ∈ d0.mapping, o.base ^ m.length ≤ 2 ^ 31)
    (imgs : List Image) (hv : ∀ i ∈ imgs, ValidImage n o.base i) (hlen : imgs.length ≤ 2147483647)
    (hsum : ∀ i : Int, (d0.mapping.flatten.count i : Int) * imgs.length ≤ 2147483647) (it : IterOrder) :
    ∃ d m, d0.trainAll imgs = (d, .ok ()) ∧ d.getMentalImage it = .ok m ∧
      ∃ _ : (m.length : Int) = n, ∀ i (h : i < m.length), m[i] =
        (d0.mapping.flatten.count (i : Int) : Int) *
          (imgs.filter (fun x => decide (NonZeroAt i x))).length := by
  obtain ⟨d, m, h1, h2, h3, h4⟩ := C17_mental_image_history hc hw hn hfit (imgs.map Op.train)
    (legal_trains imgs) (mem_trains hv) (by simpa using hlen) (by simpa using hsum) it
  refine ⟨d, m, by rw [trainAll_eq_run]; exact h1, h2, h3, fun i h => ?_⟩
  rw [h4 i h, net_filter_trains (fun x => decide (NonZeroAt i x)) imgs]

example : ∃ d0 d, Discriminator.create Rnd.id 2 4 {} = .ok d0 ∧ (∀ m ∈ d0.mapping, (2 : Int) ^ m.length ≤ 2 ^ 31) ∧
    d0.trainAll [.vec [1, 0, 1, 1], .vec [1, 0, 1, 0]] = (d, .ok ()) ∧
    d.getMentalImage IterOrder.id = .ok [2, 0, 2, 1] := ⟨_, _, rfl, by decide, rfl, by decide⟩

/-- The bound `2^31` is needed: with 33 address bits the highest pixel of the pattern is lost. -/
example : Ram.getMentalImage ⟨(List.range 33).map Int.ofNat, [((2 : BitVec 64) ^ 32, 1)], false, 2⟩
    IterOrder.id = .ok ((List.range 33).map (fun i => (Int.ofNat i, 0))) := by
  decide +kernel

/-! ## C18 -/

/-- C18: with default wiring (no `indexes`, no `mapping`), for every outcome of the random choices:
creation succeeds for every admissible size, and any discriminator created has `ceil(n/A)` RAMs
(`floor(n/A)` without `completeAddressing`) of exactly `A` inputs, wired inside the entry, reading every
position (without `completeAddressing`: no position twice). -/
theorem C18_default_wiring (rnd : Rnd) (A n : Nat) (o : Options) (hm : o.mapping = []) (hi : o.indexes = []) :
    (2 ≤ A → A ≤ n → n + A ≤ 2147483647 → 2 ≤ o.base → o.base ^ A < 2 ^ 63 →
      ∃ d, Discriminator.create rnd A n o = .ok d) ∧
    ∀ d, Discriminator.create rnd A n o = .ok d →
      (d.getNumberOfRAMS = if o.completeAddressing then (n + A - 1) / A else n / A) ∧
      (∀ m ∈ d.mapping, m.length = A) ∧ WiredInside n d.mapping ∧
      (o.completeAddressing = true → ∀ i : Nat, i < n → (i : Int) ∈ d.mapping.flatten) ∧
      (o.completeAddressing = false → d.mapping.flatten.Nodup) := by
  have hcr : Discriminator.create rnd A n o =
      Discriminator.setRAMShuffle rnd n A o.ignoreZero o.completeAddressing o.base := by
    unfold Discriminator.create
    rw [hm, hi]
    simp
  rw [hcr]
  constructor
  · intro h1 h2 h3 h4 h5
    exact shuffle_succeeds rnd h1 h2 h3 h4 (checkLimit_of_lt h4 h5)
  · intro d h
    have hw := shuffle_wiring h
    refine ⟨?_, hw.size, hw.inside, hw.covers, hw.once⟩
    rw [← hw.number]
    simp [Discriminator.getNumberOfRAMS, Discriminator.mapping]

example : ∃ d, Discriminator.create Rnd.id 3 4 {} = .ok d ∧ d.mapping = [[0, 1, 2], [3, 0, 0]] := ⟨_, rfl, by decide⟩

/-! ## C19 -/

/-- C19 (partial): creation with `indexes` succeeds (for admissible sizes) exactly when the list has
`entrySize` distinct entries below `entrySize`; if moreover none is negative it is a permutation of
`0..entrySize-1`; RAM `r` reads block `r`. Missing: negative indexes are accepted (next theorem). -/
theorem C19_indexes_partial (rnd : Rnd) (A n : Nat) (o : Options) (hm : o.mapping = []) (hi : o.indexes ≠ []) :
    (∀ d, Discriminator.create rnd A n o = .ok d →
      o.indexes.length = n ∧ o.indexes.Nodup ∧ (∀ i ∈ o.indexes, i < (n : Int)) ∧
      ((∀ i ∈ o.indexes, 0 ≤ i) → o.indexes.Perm ((List.range n).map Int.ofNat)) ∧
      d.getNumberOfRAMS = n / A ∧
      d.mapping = (List.range (n / A)).map (fun r => (o.indexes.take ((r + 1) * A)).drop (r * A))) ∧
    (2 ≤ A → A ≤ n → 2 ≤ o.base → o.base ^ A < 2 ^ 63 →
      o.indexes.Perm ((List.range n).map Int.ofNat) → ∃ d, Discriminator.create rnd A n o = .ok d) := by
  have hcr : Discriminator.create rnd A n o =
      Discriminator.setRAMByIndex o.indexes n A o.ignoreZero o.base := by
    unfold Discriminator.create
    rw [hm, if_neg (by simp), if_pos (by simpa using hi)]
  rw [hcr]
  constructor
  · intro d h
    obtain ⟨_, _, h1, h2, h3, h4⟩ := setRAMByIndex_ok h
    refine ⟨h1, h3, h2, fun h0 => perm_range_of h1 (fun i hi => ⟨h0 i hi, h2 i hi⟩) h3, ?_, h4⟩
    have : d.getNumberOfRAMS = d.mapping.length := by simp [Discriminator.getNumberOfRAMS, Discriminator.mapping]
    rw [this, h4]; simp
  · intro h1 h2 h3 h4 hp
    exact setRAMByIndex_succeeds h1 h2 h3 (checkLimit_of_lt h3 h4) (by rw [hp.length_eq]; simp)
      (fun i hi => (range_int_mem.mp (hp.mem_iff.mp hi)).2) (hp.nodup_iff.mpr (range_int_nodup n))

/-- C19 is false: for every entry size there is a list of indexes with negative entries that is
accepted; training any list image with the result is undefined behaviour. -/
theorem C19_negative_indexes_accepted (rnd : Rnd) (n : Nat) (hn : 2 ≤ n) :
    ∃ (is : List Int) (d : Discriminator), ¬ is.Perm ((List.range n).map Int.ofNat) ∧
      Discriminator.create rnd 2 n { indexes := is } = .ok d ∧
      ∀ l : List Int, l.length = n → (d.count = 0) ∧ (d.train (.vec l)).2 = .error (.ub .outOfBounds) := by
  refine ⟨(List.range n).map (fun k : Nat => -1 - (k : Int)), ?_⟩
  have hnd : ((List.range n).map (fun k : Nat => -1 - (k : Int))).Nodup :=
    List.Nodup.map (fun a b h => by have h : -1 - (a : Int) = -1 - (b : Int) := h; omega) List.nodup_range
  obtain ⟨d, hd⟩ := setRAMByIndex_succeeds (is := (List.range n).map (fun k : Nat => -1 - (k : Int))) (n := n) (A := 2)
    (iz := false) (base := 2) (by omega) hn (by omega) (by decide) (by simp) (by
      intro i hi
      obtain ⟨k, _, rfl⟩ := List.mem_map.mp hi
      omega) hnd
  have hcr : Discriminator.create rnd 2 n { indexes := (List.range n).map (fun k : Nat => -1 - (k : Int)) } = .ok d := by
    unfold Discriminator.create
    rw [if_neg (by simp), if_pos (by simp; omega)]
    exact hd
  refine ⟨d, ?_, hcr, ?_⟩
  · intro hp
    have : (-1 : Int) ∈ (List.range n).map (fun k : Nat => -1 - (k : Int)) :=
      List.mem_map.mpr ⟨0, by simp; omega, by simp⟩
    have := range_int_mem.mp (hp.mem_iff.mp this)
    omega
  · intro l hl
    have hf := create_fresh hcr
    refine ⟨hf.count, ?_⟩
    obtain ⟨_, _, _, _, _, hmap⟩ := setRAMByIndex_ok hd
    unfold Discriminator.train Discriminator.checkEntrySize
    rw [if_neg (by rw [hf.entry]; simp [Image.size, hl])]
    simp only [hf.count]
    rw [i32_ok (by omega)]
    simp only
    cases hrs : d.rams with
    | nil =>
      simp only [Discriminator.mapping, hrs, List.map_nil] at hmap
      have := congrArg List.length hmap
      simp at this
      omega
    | cons r rs =>
      have hr : r.addresses = [-1, -2] := by
        have h1 := congrArg List.head? hmap
        simp only [Discriminator.mapping, hrs, List.map_cons, List.head?_cons] at h1
        have h2 : n / 2 = (n / 2 - 1) + 1 := by omega
        rw [h2, List.range_succ_eq_map] at h1
        simp only [List.map_cons, List.head?_cons, Option.some.injEq] at h1
        rw [h1]
        obtain ⟨k, rfl⟩ : ∃ k, n = k + 2 := ⟨n - 2, by omega⟩
        simp [List.range_succ_eq_map]
      simp only [Discriminator.trainRams]
      have : r.train (.vec l) = (r, .error (.ub .outOfBounds)) := by
        unfold Ram.train Ram.getIndex
        rw [hr]
        simp [Ram.indexLoop, Image.read, bind, Except.bind]
      rw [this]

/-! ## C20 -/

/-- C20 (partial): with all wires inside the entry, classification never is undefined behaviour and
training never reads outside the image, whatever the state, the image and its values. (`Readable` holds
for every list and every BinInput the program can build, see C03/C04.) Missing: a mapping with an index
outside is *not* rejected, see the next theorem. -/
theorem C20_inside_wiring_no_out_of_bounds_partial (d : Discriminator) (hw : WiredInside d.entrySize d.mapping)
    (x : Image) (hx : Readable x) :
    ¬ IsUB (d.classify x) ∧ (d.train x).2 ≠ .error (.ub .outOfBounds) ∧
      (d.untrain x).2 ≠ .error (.ub .outOfBounds) := by
  by_cases hs : d.entrySize = (x.size : Int)
  · have hidx : ∀ r ∈ d.rams, (∃ k, r.getIndex x = .ok k) ∨ r.getIndex x = .error (.throw .valueTooBig) := by
      intro r hr
      apply indexLoop_inside x r.base r.addresses _ hx
      intro a ha
      rw [← hs]
      exact inside_of hw r hr a ha
    have hi : ∀ c, i32 c ≠ .error (.ub .outOfBounds) := by
      intro c; unfold i32; split <;> simp
    refine ⟨?_, ?_, ?_⟩
    · unfold Discriminator.classify Discriminator.checkEntrySize
      rw [if_neg (by simpa using hs)]
      simp only [Except.bind_ok]
      clear hw hs hi
      generalize d.rams = rs at hidx
      have : (∃ vs, Discriminator.votes x rs = .ok vs) ∨ Discriminator.votes x rs = .error (.throw .valueTooBig) := by
        induction rs with
        | nil => exact .inl ⟨[], rfl⟩
        | cons r rs ih =>
          have ih := ih (fun r hr => hidx r (List.mem_cons_of_mem _ hr))
          have hv : (∃ v, r.getVote x = .ok v) ∨ r.getVote x = .error (.throw .valueTooBig) := by
            unfold Ram.getVote
            rcases hidx r (by simp) with ⟨k, hk⟩ | hk
            · rw [hk]; simp only [Except.bind_ok]
              split
              · exact .inl ⟨_, rfl⟩
              · split <;> exact .inl ⟨_, rfl⟩
            · rw [hk]; exact .inr rfl
          simp only [Discriminator.votes]
          rcases hv with ⟨v, hv⟩ | hv
          · rw [hv]
            rcases ih with ⟨vs, ih⟩ | ih
            · rw [ih]; exact .inl ⟨_, rfl⟩
            · rw [ih]; exact .inr rfl
          · rw [hv]; exact .inr rfl
      rintro ⟨u, hu⟩
      rcases this with ⟨vs, h⟩ | h <;> rw [h] at hu <;> simp at hu
    · unfold Discriminator.train
      split
      · rename_i e he; simp only [Discriminator.checkEntrySize, if_neg (not_not.mpr hs)] at he; simp at he
      · split
        · rename_i e he; intro h; simp only at h; cases h; exact hi _ he
        · clear hw hs
          generalize d.rams = rs at hidx
          simp only
          induction rs with
          | nil => simp [Discriminator.trainRams]
          | cons r rs ih =>
            have ih := ih (fun r hr => hidx r (List.mem_cons_of_mem _ hr))
            have hv : (r.train x).2 ≠ .error (.ub .outOfBounds) := by
              unfold Ram.train
              rcases hidx r (by simp) with ⟨k, hk⟩ | hk
              · rw [hk]; simp only
                split
                · simp
                · split
                  · rename_i e he; intro h; simp only at h; cases h; exact hi _ he
                  · simp
              · rw [hk]; simp
            simp only [Discriminator.trainRams]
            split
            · exact ih
            · rename_i e he; rw [he] at hv; exact hv
    · unfold Discriminator.untrain
      split
      · rename_i e he; simp only [Discriminator.checkEntrySize, if_neg (not_not.mpr hs)] at he; simp at he
      · split
        · rename_i e he; intro h; simp only at h; cases h; exact hi _ he
        · clear hw hs
          generalize d.rams = rs at hidx
          simp only
          induction rs with
          | nil => simp [Discriminator.untrainRams]
          | cons r rs ih =>
            have ih := ih (fun r hr => hidx r (List.mem_cons_of_mem _ hr))
            have hv : (r.untrain x).2 ≠ .error (.ub .outOfBounds) := by
              unfold Ram.untrain
              rcases hidx r (by simp) with ⟨k, hk⟩ | hk
              · rw [hk]; simp only
                split
                · simp
                · split
                  · rename_i e he; intro h; simp only at h; cases h; exact hi _ he
                  · simp
              · rw [hk]; simp
            simp only [Discriminator.untrainRams]
            split
            · exact ih
            · rename_i e he; rw [he] at hv; exact hv
  · unfold Discriminator.classify Discriminator.train Discriminator.untrain Discriminator.checkEntrySize
    rw [if_pos hs]
    simp [IsUB, Except.bind_error]

/-- C20 is false: *every* mapping with an index outside the entry (and RAM sizes within the limit) is
accepted by the constructor, and the first classification or training of any valid list image then reads
out of bounds. -/
theorem C20_bad_mapping_accepted (rnd : Rnd) (A n base : Int) (iz ca : Bool) (is : List Int)
    (ms : List (List Int)) (hne : ms ≠ []) (hb : 2 ≤ base) (hfit : ∀ m ∈ ms, base ^ m.length < 2 ^ 63)
    (hout : ¬ WiredInside n ms) (l : List Int) (hl : (l.length : Int) = n) (hv : ∀ v ∈ l, v < base) :
    ∃ d, Discriminator.create rnd A n ⟨iz, ca, is, ms, base⟩ = .ok d ∧ d.mapping = ms ∧
      d.classify (.vec l) = .error (.ub .outOfBounds) ∧ (d.train (.vec l)).2 = .error (.ub .outOfBounds) := by
  obtain ⟨rs, hrs⟩ := ramsOfMapping_succeeds (iz := iz) (base := base) ms (by
    intro m hm
    exact checkLimit_of_lt hb (hfit m hm))
  obtain ⟨hr1, hr2⟩ := ramsOfMapping_ok hb ms hrs
  have hcb : Discriminator.checkBase base = .ok () := by
    unfold Discriminator.checkBase; rw [if_neg (by omega)]
  have hcr : Discriminator.create rnd A n ⟨iz, ca, is, ms, base⟩ =
      .ok { entrySize := n, count := 0, rams := rs } := by
    unfold Discriminator.create
    simp only
    rw [if_pos (by simpa using hne)]
    unfold Discriminator.setRAMByMapping
    rw [hcb, hrs]; rfl
  refine ⟨_, hcr, hr2, ?_⟩
  have hbad : ∃ r ∈ rs, ∃ a ∈ r.addresses, ¬ (0 ≤ a ∧ a < (l.length : Int)) := by
    by_contra hcon
    apply hout
    intro m hm a ha
    rw [← hr2] at hm
    obtain ⟨r, hr, rfl⟩ := List.mem_map.mp hm
    by_contra hc
    exact hcon ⟨r, hr, a, ha, by rw [hl]; exact hc⟩
  have hidx : ∀ r ∈ rs, (∃ k, r.getIndex (.vec l) = .ok k) ∨ r.getIndex (.vec l) = .error (.ub .outOfBounds) := by
    intro r hr
    obtain ⟨_, hrb, _⟩ := hr1 r hr
    by_cases hin : ∀ a ∈ r.addresses, 0 ≤ a ∧ a < (l.length : Int)
    · left
      rcases indexLoop_inside (.vec l) r.base r.addresses hin (readable_vec l) 0 1 with h | h
      · exact h
      · exfalso
        rw [hrb] at h
        have := indexLoop_ok (.vec l) base r.addresses (readVals (.vec l) r.addresses) 0 1
        clear this
        -- values below the base are never too big
        have hnt : ∀ (as : List Int), (∀ a ∈ as, 0 ≤ a ∧ a < (l.length : Int)) → ∀ i p,
            Ram.indexLoop (.vec l) base as i p ≠ .error (.throw .valueTooBig) := by
          intro as
          induction as with
          | nil => intro _ i p; simp [Ram.indexLoop]
          | cons a as ih =>
            intro ha i p
            have h0 := ha a (by simp)
            have hlt : a.toNat < l.length := by omega
            have hread : (Image.vec l).read a = .ok l[a.toNat] := by
              simp only [Image.read]
              rw [if_neg (by omega), List.getElem?_eq_getElem hlt]
            simp only [Ram.indexLoop, hread, Except.bind_ok]
            rw [if_neg (by have := hv _ (List.getElem_mem hlt); omega)]
            exact ih (fun a' h' => ha a' (List.mem_cons_of_mem _ h')) _ _
        exact hnt _ hin 0 1 h
    · right
      have : ∃ a ∈ r.addresses, ¬ (0 ≤ a ∧ a < (l.length : Int)) := by
        by_contra hc; apply hin; intro a ha; by_contra h; exact hc ⟨a, ha, h⟩
      exact indexLoop_outside l r.base r.addresses (by rw [hrb]; exact hv) this 0 1
  have hbad' : ∃ r ∈ rs, r.getIndex (.vec l) = .error (.ub .outOfBounds) := by
    obtain ⟨r, hr, h⟩ := hbad
    obtain ⟨_, hrb, _⟩ := hr1 r hr
    exact ⟨r, hr, indexLoop_outside l r.base r.addresses (by rw [hrb]; exact hv) h 0 1⟩
  have hpos : ∀ r ∈ rs, r.positions = [] := fun r hr => (hr1 r hr).1
  have hs : (l.length : Int) = n := hl
  clear hr1 hr2 hrs hbad hcr hout
  constructor
  · unfold Discriminator.classify Discriminator.checkEntrySize
    simp only [Image.size, hs, ne_eq, not_true_eq_false, if_false, Except.bind_ok]
    induction rs with
    | nil => simp at hbad'
    | cons r rs ih =>
      simp only [Discriminator.votes, Ram.getVote]
      rcases hidx r (by simp) with ⟨k, hk⟩ | hk
      · rw [hk]
        have := ih (fun r hr => hidx r (List.mem_cons_of_mem _ hr)) (by
          obtain ⟨r', hr', h'⟩ := hbad'
          rcases List.mem_cons.mp hr' with e | e
          · subst e; rw [hk] at h'; simp at h'
          · exact ⟨r', e, h'⟩) (fun r hr => hpos r (List.mem_cons_of_mem _ hr))
        rw [this]
        simp only [Except.bind_ok, hpos r (by simp), RamT.find]
        split <;> rfl
      · rw [hk]; rfl
  · unfold Discriminator.train Discriminator.checkEntrySize
    simp only [Image.size, hs, ne_eq, not_true_eq_false, if_false]
    rw [i32_ok (by omega)]
    simp only
    induction rs with
    | nil => simp at hbad'
    | cons r rs ih =>
      simp only [Discriminator.trainRams, Ram.train]
      rcases hidx r (by simp) with ⟨k, hk⟩ | hk
      · rw [hk]
        have := ih (fun r hr => hidx r (List.mem_cons_of_mem _ hr)) (by
          obtain ⟨r', hr', h'⟩ := hbad'
          rcases List.mem_cons.mp hr' with e | e
          · subst e; rw [hk] at h'; simp at h'
          · exact ⟨r', e, h'⟩) (fun r hr => hpos r (List.mem_cons_of_mem _ hr))
        simp only [hpos r (by simp), RamT.find]
        exact this
      · rw [hk]

example : ¬ WiredInside 4 [[0, 1], [2, 7]] := by decide

/-! ## C21 -/

/-- C21: an image of the wrong length is rejected by an exception and changes nothing. -/
theorem C21_wrong_length_rejected (d : Discriminator) (x : Image) (h : (x.size : Int) ≠ d.entrySize) :
    d.train x = (d, .error (.throw .entrySize)) ∧ d.untrain x = (d, .error (.throw .entrySize)) ∧
      d.classify x = .error (.throw .entrySize) := by
  unfold Discriminator.classify Discriminator.train Discriminator.untrain Discriminator.checkEntrySize
  rw [if_pos (fun e => h e.symm)]
  exact ⟨rfl, rfl, rfl⟩

/-- An image of the right length is never rejected for its length. -/
theorem C21_right_length_accepted (d : Discriminator) (x : Image) (h : (x.size : Int) = d.entrySize) :
    d.checkEntrySize x.size = .ok () := by
  unfold Discriminator.checkEntrySize; rw [if_neg (by simp [h])]

example : ((Image.vec [1, 0, 1]).size : Int) ≠ 4 := by decide

/-! ## C22 -/

theorem ram_train_tooBig {r : Ram} {x : Image} (hi : ∀ a ∈ r.addresses, 0 ≤ a ∧ a < (x.size : Int)) (hx : Readable x)
    (hb : ∃ a ∈ r.addresses, ∃ v, x.read a = .ok v ∧ r.base ≤ v) :
    r.getIndex x = .error (.throw .valueTooBig) := indexLoop_tooBig x r.base r.addresses hi hx hb 0 1

/-- C22 (partial): in every state reached by a history of valid calls, an image of the right length with
a wired value `>= base` makes `train` and `classify` throw. Missing: the failed `train` does change the
model, see the next theorem. -/
theorem C22_too_big_value_rejected_partial {rnd : Rnd} {A n : Int} {o : Options} {d0 d : Discriminator}
    (hc : Discriminator.create rnd A n o = .ok d0) (hw : WiredInside n d0.mapping)
    (ops : List Op) (hv : ∀ op ∈ ops, ValidImage n o.base op.img) (hlen : ops.length < 2147483647)
    (hr : run d0 ops = (d, .ok ())) (x : Image) (hx : Readable x) (hs : (x.size : Int) = n)
    (hbig : ∃ m ∈ d0.mapping, ∃ a ∈ m, ∃ v, x.read a = .ok v ∧ o.base ≤ v) :
    d.classify x = .error (.throw .valueTooBig) ∧ (d.train x).2 = .error (.throw .valueTooBig) ∧
      (d.train x).1.getNumberOfTrainings = d.getNumberOfTrainings + 1 := by
  have hf := create_fresh hc
  obtain ⟨d', h1, h2⟩ := run_created hc hw ops hv (by omega)
  rw [hr] at h1
  obtain rfl : d = d' := (Prod.mk.inj h1).1
  -- facts about each RAM
  have hram : ∀ r0 ∈ d0.rams, ∀ r, RamRep n r0 r ops →
      ((∃ k, r.getIndex x = .ok k) ∨ r.getIndex x = .error (.throw .valueTooBig)) ∧
      ((∃ a ∈ r0.addresses, ∃ v, x.read a = .ok v ∧ o.base ≤ v) → r.getIndex x = .error (.throw .valueTooBig)) ∧
      (∀ k c, r.positions.find k = some c → i32 (c + 1) = .ok (c + 1)) := by
    intro r0 hr0 r hrep
    have hin : ∀ a ∈ r.addresses, 0 ≤ a ∧ a < (x.size : Int) := by
      rw [hrep.addr, hs]; exact inside_of hw r0 hr0
    refine ⟨indexLoop_inside x r.base r.addresses hin hx 0 1, fun hb => ?_, ?_⟩
    · apply ram_train_tooBig hin hx
      rw [hrep.addr, hrep.base, (hf.rams r0 hr0).2.1]; exact hb
    · intro k c hfc
      rw [hrep.find] at hfc
      have hb := cell_bound _ _ hfc
      have hle := List.length_filter_le (fun o => decide (key r0.base r0.addresses (Op.img o) = k)) ops
      apply i32_ok
      omega
  have hbig' : ∃ r0 ∈ d0.rams, ∃ a ∈ r0.addresses, ∃ v, x.read a = .ok v ∧ o.base ≤ v := by
    obtain ⟨m, hm, h⟩ := hbig
    obtain ⟨r0, hr0, rfl⟩ := List.mem_map.mp hm
    exact ⟨r0, hr0, h⟩
  have hck : d.checkEntrySize x.size = .ok () := C21_right_length_accepted d x (by rw [h2.entry, hs])
  have hcount : i32 (d.count + 1) = .ok (d.count + 1) := by
    have := net_bound ops
    rw [h2.count]; apply i32_ok; omega
  have hrel := h2.rams
  refine ⟨?_, ?_, ?_⟩
  · unfold Discriminator.classify
    rw [hck]; simp only [Except.bind_ok]
    revert hram hbig'
    generalize d.rams = rs at hrel
    generalize d0.rams = rs0 at hrel
    intro hram hbig'
    induction hrel with
    | nil => simp at hbig'
    | @cons r0 r rs0 rs hrr _ ih =>
      obtain ⟨q1, q2, _⟩ := hram r0 (by simp) r hrr
      simp only [Discriminator.votes, Ram.getVote]
      rcases q1 with ⟨k, hk⟩ | hk
      · rw [hk]
        rw [ih (fun r0 hr0 => hram r0 (List.mem_cons_of_mem _ hr0)) (by
          obtain ⟨r', hr', h'⟩ := hbig'
          rcases List.mem_cons.mp hr' with e | e
          · subst e; rw [q2 h'] at hk; simp at hk
          · exact ⟨r', e, h'⟩)]
        simp only [Except.bind_ok]
        split
        · rfl
        · split <;> rfl
      · rw [hk]; rfl
  · unfold Discriminator.train
    rw [hck]; simp only; rw [hcount]; simp only
    revert hram hbig'
    generalize d.rams = rs at hrel
    generalize d0.rams = rs0 at hrel
    intro hram hbig'
    induction hrel with
    | nil => simp at hbig'
    | @cons r0 r rs0 rs hrr _ ih =>
      obtain ⟨q1, q2, q3⟩ := hram r0 (by simp) r hrr
      simp only [Discriminator.trainRams, Ram.train]
      rcases q1 with ⟨k, hk⟩ | hk
      · rw [hk]
        have := ih (fun r0 hr0 => hram r0 (List.mem_cons_of_mem _ hr0)) (by
          obtain ⟨r', hr', h'⟩ := hbig'
          rcases List.mem_cons.mp hr' with e | e
          · subst e; rw [q2 h'] at hk; simp at hk
          · exact ⟨r', e, h'⟩)
        simp only
        cases hfc : r.positions.find k with
        | none => exact this
        | some c => simp only; rw [q3 k c hfc]; exact this
      · rw [hk]
  · unfold Discriminator.train Discriminator.getNumberOfTrainings
    rw [hck]; simp only; rw [hcount]

/-- C22 is false: there is a failing `train` after which votes have changed (and, by the theorem above,
*every* such failing `train` increments the number of trainings). -/
theorem C22_failed_train_changes_votes : ∃ d0 d x y, Discriminator.create Rnd.id 2 4 {} = .ok d0 ∧
    d0.train x = (d, .error (.throw .valueTooBig)) ∧ d.getNumberOfTrainings ≠ d0.getNumberOfTrainings ∧
    d0.classify y = .ok [0, 0] ∧ d.classify y = .ok [1, 0] :=
  ⟨_, _, .vec [1, 1, 2, 0], .vec [1, 1, 0, 0], rfl, rfl, by decide, by decide, by decide⟩

/-! ## C23 -/

/-- C23: after any successful history from creation, `getNumberOfTrainings` is trainings minus
untrainings. -/
theorem C23_number_of_trainings {rnd : Rnd} {A n : Int} {o : Options} {d0 d : Discriminator}
    (hc : Discriminator.create rnd A n o = .ok d0) (ops : List Op) (hr : run d0 ops = (d, .ok ())) :
    d.getNumberOfTrainings =
      ((ops.filter (fun op => op.isTrain)).length : Int) - (ops.filter (fun op => !op.isTrain)).length := by
  unfold Discriminator.getNumberOfTrainings
  rw [run_count ops hr, (create_fresh hc).count]
  clear hr
  induction ops with
  | nil => rfl
  | cons op ops ih => cases op <;> simp [Op.isTrain, net] at ih ⊢ <;> omega

example : ∃ d0 d, Discriminator.create Rnd.id 2 4 {} = .ok d0 ∧
    run d0 [.train (.vec [1, 0, 1, 1]), .train (.vec [1, 0, 1, 0]), .untrain (.vec [1, 1, 1, 1])] = (d, .ok ()) ∧
    d.getNumberOfTrainings = 1 := ⟨_, _, rfl, rfl, by decide⟩

/-! ## C24 -/

/-- C24: `train(images)` is training one at a time in order; if an image is rejected, the outcome is the
one of training the images before it and then failing on it, and later images are not trained. -/
theorem C24_batch_is_sequence (d d1 : Discriminator) (pre : List Image)
    (hpre : d.trainAll pre = (d1, .ok ())) :
    (∀ img post d2, d1.train img = (d2, .ok ()) →
      d.trainAll (pre ++ [img]) = (d2, .ok ()) ∧ d.trainAll (pre ++ img :: post) = d2.trainAll post) ∧
    (∀ img post d2 e, d1.train img = (d2, .error e) → d.trainAll (pre ++ img :: post) = (d2, .error e)) := by
  have happ : ∀ post, d.trainAll (pre ++ post) = d1.trainAll post := by
    intro post
    rw [trainAll_eq_run, List.map_append, trainAll_eq_run]
    exact run_append _ _ (by rw [← trainAll_eq_run]; exact hpre)
  refine ⟨fun img post d2 h => ⟨?_, ?_⟩, fun img post d2 e h => ?_⟩
  · rw [happ]; simp only [Discriminator.trainAll, h]
  · rw [happ]; simp only [Discriminator.trainAll, h]
  · rw [happ]; simp only [Discriminator.trainAll, h]

example : ∃ d0 d1 d2, Discriminator.create Rnd.id 2 4 {} = .ok d0 ∧ d0.trainAll [.vec [1, 0, 1, 1]] = (d1, .ok ()) ∧
    d1.train (.vec [1, 0]) = (d2, .error (.throw .entrySize)) := ⟨_, _, _, rfl, rfl, rfl⟩

/-! ## C25 -/

theorem train_same {d : Discriminator} (hw : WiredInside d.entrySize d.mapping) {x y : Image} (h : Same x y) :
    d.train x = d.train y ∧ d.untrain x = d.untrain y ∧ d.classify x = d.classify y := by
  unfold Discriminator.train Discriminator.untrain Discriminator.classify
  rw [← h.1]
  by_cases hs : d.entrySize = (x.size : Int)
  · have hidx : ∀ r ∈ d.rams, r.getIndex x = r.getIndex y := by
      intro r hr
      apply getIndex_congr
      intro a ha
      have := inside_of hw r hr a ha
      exact h.read this.1 (by omega)
    rw [trainRams_congr _ hidx, untrainRams_congr _ hidx, votes_congr _ hidx]
    exact ⟨rfl, rfl, rfl⟩
  · unfold Discriminator.checkEntrySize
    rw [if_pos hs]
    exact ⟨rfl, rfl, rfl⟩

theorem same_ofList {l : List Int} (hlen : l.length < 2 ^ 62) (h01 : ∀ v ∈ l, v = 0 ∨ v = 1) :
    ∃ b, BinInput.ofList l = .ok b ∧ Same (.bin b) (.vec l) := by
  obtain ⟨b, h1, _, h2, h3⟩ := BinInput.ofList_spec l hlen h01
  refine ⟨b, h1, h2, fun i hi => ?_⟩
  simp only [Image.size] at hi
  have hi' : i < l.length := by rw [← h2]; exact hi
  simp only [Image.read]
  rw [if_neg (by omega), if_neg (by omega)]
  simp only [Int.toNat_natCast]
  rw [List.getElem?_eq_getElem hi', h3 i hi']

/-- C25: in every state with inside wiring, a BinInput built from a 0/1 list behaves exactly like the
list: same classification, same new state and result of training (and so do whole batches). -/
theorem C25_bininput_and_list_interchangeable (d : Discriminator) (hw : WiredInside d.entrySize d.mapping)
    (ls : List (List Int)) (hlen : ∀ l ∈ ls, l.length < 2 ^ 62) (h01 : ∀ l ∈ ls, ∀ v ∈ l, v = 0 ∨ v = 1) :
    ∃ bs : List BinInput, List.Forall₂ (fun l b => BinInput.ofList l = .ok b ∧
        d.classify (.bin b) = d.classify (.vec l)) ls bs ∧
      d.trainAll (bs.map Image.bin) = d.trainAll (ls.map Image.vec) := by
  have hbs : ∃ bs : List BinInput, List.Forall₂ (fun l b => BinInput.ofList l = .ok b ∧ Same (.bin b) (.vec l)) ls bs := by
    clear hw
    induction ls with
    | nil => exact ⟨[], .nil⟩
    | cons l ls ih =>
      obtain ⟨bs, hbs⟩ := ih (fun l hl => hlen l (List.mem_cons_of_mem _ hl)) (fun l hl => h01 l (List.mem_cons_of_mem _ hl))
      obtain ⟨b, h1, h2⟩ := same_ofList (hlen l (by simp)) (h01 l (by simp))
      exact ⟨b :: bs, .cons ⟨h1, h2⟩ hbs⟩
  obtain ⟨bs, hbs⟩ := hbs
  refine ⟨bs, hbs.imp (fun l b h => ⟨h.1, (train_same hw h.2).2.2⟩), ?_⟩
  clear hlen h01
  induction hbs generalizing d with
  | nil => rfl
  | @cons l b ls bs h _ ih =>
    simp only [List.map_cons, Discriminator.trainAll]
    rw [(train_same hw h.2).1]
    split
    · rename_i d' e
      have hle := train_le d (.vec l)
      rw [e] at hle
      exact ih d' (by rw [hle.mapping, hle.entry]; exact hw)
    · rfl

example : ∃ d0, Discriminator.create Rnd.id 2 4 {} = .ok d0 ∧ WiredInside d0.entrySize d0.mapping ∧
    ∀ v ∈ ([1, 0, 1, 1] : List Int), v = 0 ∨ v = 1 := ⟨_, rfl, by decide, by decide⟩

/-! ## C26 -/

/-- C26: `getsizeof` (for any fixed object sizes `sd`, `sr`), in every state and for every image, whether
the call succeeds or fails: training does not decrease it and adds at most 12 bytes per RAM; untraining
leaves it as it is; after an image was trained, and any further calls, training it again adds nothing. -/
theorem C26_memory_accounting (sd sr : Int) (d : Discriminator) (x : Image) :
    d.getsizeof sd sr ≤ (d.train x).1.getsizeof sd sr ∧
    (d.train x).1.getsizeof sd sr ≤ d.getsizeof sd sr + 12 * d.getNumberOfRAMS ∧
    (d.untrain x).1.getsizeof sd sr = d.getsizeof sd sr ∧
    ∀ d1, d.train x = (d1, .ok ()) → ∀ ops,
      ((run d1 ops).1.train x).1.getsizeof sd sr = (run d1 ops).1.getsizeof sd sr := by
  refine ⟨size_mono (train_le d x), ?_, ?_, ?_⟩
  · unfold Discriminator.train
    split
    · simp
    · split
      · simp
      · have := trainRams_size x sr d.rams
        simp only [size_eq, Discriminator.getNumberOfRAMS]
        omega
  · unfold Discriminator.untrain
    split
    · rfl
    · split
      · rfl
      · have := untrainRams_size x sr d.rams
        simp only [size_eq]
        omega
  · intro d1 h ops
    have hk : Knows x d1.rams := by
      unfold Discriminator.train at h
      split at h
      · simp at h
      · split at h
        · simp at h
        · simp only [Prod.mk.injEq] at h
          rw [← h.1]
          exact trainRams_knows d.rams h.2
    have hk2 := knows_le (run_le ops d1).rams hk
    generalize (run d1 ops).1 = d2 at hk2
    unfold Discriminator.train
    split
    · rfl
    · split
      · rfl
      · have := knows_trainRams_size sr d2.rams hk2
        simp only [size_eq]
        omega

example : ∃ d0 d1, Discriminator.create Rnd.id 2 4 {} = .ok d0 ∧ d0.train (.vec [1, 0, 1, 1]) = (d1, .ok ()) ∧
    d0.getsizeof 0 0 = 32 ∧ d1.getsizeof 0 0 = 56 := ⟨_, _, rfl, rfl, by decide, by decide⟩

/-! ## C72 -/

/-- C72 is false: negative values are not rejected, and they alias other patterns: with one RAM reading
positions 0 and 1, training `[-1, 1]` succeeds and is counted as a training of `[1, 0]`. -/
theorem C72_negative_value_accepted_and_aliases : ∃ d0 d, Discriminator.create Rnd.id 2 2 {} = .ok d0 ∧
    d0.mapping = [[0, 1]] ∧ d0.train (.vec [-1, 1]) = (d, .ok ()) ∧
    d0.classify (.vec [1, 0]) = .ok [0] ∧ d.classify (.vec [1, 0]) = .ok [1] :=
  ⟨_, _, rfl, by decide, rfl, by decide, by decide⟩

/-- C72 (partial): images with values inside `[0, base)` never alias (C11). Every list
image of the right length with all values below `base`, however negative, is accepted: there is no lower
bound check. Missing: the rejection the property asks for. -/
theorem C72_no_lower_bound_check_partial (r : Ram) (l : List Int) (hin : ∀ a ∈ r.addresses, 0 ≤ a ∧ a < (l.length : Int))
    (hv : ∀ v ∈ l, v < r.base) : ∃ k, r.getIndex (.vec l) = .ok k := by
  unfold Ram.getIndex
  generalize (0 : Addr) = i
  generalize (1 : Addr) = p
  generalize r.addresses = as at hin
  induction as generalizing i p with
  | nil => exact ⟨i, rfl⟩
  | cons a as ih =>
    have h0 := hin a (by simp)
    have hlt : a.toNat < l.length := by omega
    have hread : (Image.vec l).read a = .ok l[a.toNat] := by
      simp only [Image.read]
      rw [if_neg (by omega), List.getElem?_eq_getElem hlt]
    simp only [Ram.indexLoop, hread, Except.bind_ok]
    rw [if_neg (by have := hv _ (List.getElem_mem hlt); omega)]
    exact ih _ _ (fun a' h' => hin a' (List.mem_cons_of_mem _ h'))

end Wis
