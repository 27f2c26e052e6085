import Verif.Spec.Wisard
import Verif.Lemmas.SMap
import Verif.Lemmas.Bleaching
import Verif.Lemmas.DiscState
import Mathlib.Data.List.Induction
/-! Wisard: one discriminator per label, each following its own history. -/

namespace Wis
open Spec

theorem newDiscriminator_fresh {rnd : Rnd} {A n : Int} {o : WisardOpts} {l : Str} {d : Discriminator}
    (h : Wisard.newDiscriminator rnd A o l n = .ok d) : Fresh d n o.base o.ignoreZero := by
  unfold Wisard.newDiscriminator at h
  split at h
  · rename_i m _
    cases m with
    | nil =>
      unfold Discriminator.setRAMByMapping at h
      obtain ⟨_, hb, h⟩ := bind_eq_ok h
      obtain ⟨rs, hrs, h⟩ := bind_eq_ok h
      simp only [Except.ok.injEq] at h
      subst h
      have hb := checkBase_ok hb
      exact ⟨rfl, rfl, hb, (ramsOfMapping_ok hb _ hrs).1⟩
    | cons m ms =>
      exact create_fresh (rnd := rnd) (A := A) (o := { mapping := m :: ms, ignoreZero := o.ignoreZero, base := o.base })
        (by unfold Discriminator.create; rw [if_pos (by simp)]; exact h)
  · split at h
    · rename_i hi
      exact create_fresh (rnd := rnd) (A := A) (o := { indexes := o.indexes, ignoreZero := o.ignoreZero, base := o.base })
        (by unfold Discriminator.create; rw [if_neg (by simp), if_pos hi]; exact h)
    · exact create_fresh (rnd := rnd) (A := A)
        (o := { completeAddressing := o.completeAddressing, ignoreZero := o.ignoreZero, base := o.base })
        (by unfold Discriminator.create; rw [if_neg (by simp), if_neg (by simp)]; exact h)

theorem newDiscriminator_mapping {rnd : Rnd} {A n : Int} {o : WisardOpts} {l : Str} {d : Discriminator}
    {m : List (List Int)} (hm : o.mapping.find l = some m)
    (h : Wisard.newDiscriminator rnd A o l n = .ok d) : d.mapping = m := by
  unfold Wisard.newDiscriminator Discriminator.setRAMByMapping at h
  rw [hm] at h
  simp only at h
  obtain ⟨_, hb, h⟩ := bind_eq_ok h
  obtain ⟨rs, hrs, h⟩ := bind_eq_ok h
  simp only [Except.ok.injEq] at h
  subst h
  exact (ramsOfMapping_ok (checkBase_ok hb) _ hrs).2

/-! ## One call -/

/-- Effect of `train` on the map of classes. -/
theorem train1_find (w : Wisard) (env : Env) (img : Image) (l : Str) {w' : Wisard}
    (h : w.train1 env img l = (w', .ok ())) :
    w'.addressSize = w.addressSize ∧ w'.opts = w.opts ∧
    (∀ l', l' ≠ l → w'.discriminators.find l' = w.discriminators.find l') ∧
    ((∃ d d', w.discriminators.find l = some d ∧ d.train img = (d', .ok ()) ∧
        w'.discriminators.find l = some d') ∨
     (∃ d0 d', w.discriminators.find l = none ∧
        Wisard.newDiscriminator env.rnd w.addressSize w.opts l img.size = .ok d0 ∧ d0.train img = (d', .ok ()) ∧
        w'.discriminators.find l = some d')) := by
  unfold Wisard.train1 at h
  cases hf : w.discriminators.find l with
  | some d =>
    rw [hf] at h
    simp only [Wisard.trainKnown, hf, Option.getD_some] at h
    cases ht : d.train img with
    | mk d' r =>
      rw [ht] at h
      simp only [Prod.mk.injEq] at h
      obtain ⟨rfl, rfl⟩ := h
      exact ⟨rfl, rfl, fun l' hl => SMap.find_set_ne _ _ hl, .inl ⟨d, d', rfl, ht, SMap.find_set_self _ _ _⟩⟩
  | none =>
    rw [hf] at h
    simp only [Wisard.makeDiscriminator] at h
    cases hn : Wisard.newDiscriminator env.rnd w.addressSize w.opts l (img.size : Int) with
    | error e =>
      rw [hn] at h
      simp only at h
      cases hl : env.lhsFirst <;> simp [hl] at h
    | ok d0 =>
      rw [hn] at h
      simp only [Wisard.trainKnown, SMap.find_set_self, Option.getD_some] at h
      cases ht : d0.train img with
      | mk d' r =>
        rw [ht] at h
        simp only [Prod.mk.injEq] at h
        obtain ⟨rfl, rfl⟩ := h
        refine ⟨rfl, rfl, fun l' hl => ?_, .inr ⟨d0, d', rfl, rfl, ht, SMap.find_set_self _ _ _⟩⟩
        rw [SMap.find_set_ne _ _ hl, SMap.find_set_ne _ _ hl]

/-- Whatever `train` does, other classes and the options are untouched and the map stays sorted. -/
theorem train1_other (w : Wisard) (env : Env) (img : Image) (l : Str) :
    (w.train1 env img l).1.addressSize = w.addressSize ∧ (w.train1 env img l).1.opts = w.opts ∧
    (∀ l', l' ≠ l → (w.train1 env img l).1.discriminators.find l' = w.discriminators.find l') ∧
    (SMap.Sorted w.discriminators → SMap.Sorted (w.train1 env img l).1.discriminators) := by
  unfold Wisard.train1
  cases hf : w.discriminators.find l with
  | some d =>
    simp only [Wisard.trainKnown, hf, Option.getD_some]
    exact ⟨trivial, trivial, fun l' hl => SMap.find_set_ne _ _ hl, fun hs => SMap.sorted_set hs _ _⟩
  | none =>
    simp only [Wisard.makeDiscriminator]
    cases hn : Wisard.newDiscriminator env.rnd w.addressSize w.opts l (img.size : Int) with
    | error e =>
      simp only
      cases hl : env.lhsFirst
      · simp
      · simp only [if_true]
        exact ⟨trivial, trivial, fun l' hl => SMap.find_set_ne _ _ hl, fun hs => SMap.sorted_set hs _ _⟩
    | ok d0 =>
      simp only [Wisard.trainKnown]
      refine ⟨trivial, trivial, fun l' hl => ?_, fun hs => SMap.sorted_set (SMap.sorted_set hs _ _) _ _⟩
      rw [SMap.find_set_ne _ _ hl, SMap.find_set_ne _ _ hl]

theorem leave_other (w : Wisard) (img : List Int) (l : Str) :
    (w.leaveOneOut img l).1.addressSize = w.addressSize ∧ (w.leaveOneOut img l).1.opts = w.opts ∧
    (∀ l', l' ≠ l → (w.leaveOneOut img l).1.discriminators.find l' = w.discriminators.find l') ∧
    (SMap.Sorted w.discriminators → SMap.Sorted (w.leaveOneOut img l).1.discriminators) := by
  unfold Wisard.leaveOneOut
  cases hf : w.discriminators.find l with
  | some d =>
    simp only
    exact ⟨trivial, trivial, fun l' hl => SMap.find_set_ne _ _ hl, fun hs => SMap.sorted_set hs _ _⟩
  | none => simp

theorem wstep_other (w : Wisard) (o : WOp) :
    (wstep w o).1.addressSize = w.addressSize ∧ (wstep w o).1.opts = w.opts ∧
    (∀ l', l' ≠ o.label → (wstep w o).1.discriminators.find l' = w.discriminators.find l') ∧
    (SMap.Sorted w.discriminators → SMap.Sorted (wstep w o).1.discriminators) := by
  cases o with
  | train env img l => exact train1_other w env img l
  | leave img l => exact leave_other w img l

theorem leave_find (w : Wisard) (img : List Int) (l : Str) {w' : Wisard}
    (h : w.leaveOneOut img l = (w', .ok ())) :
    (w.discriminators.find l = none ∧ w' = w) ∨
    (∃ d d', w.discriminators.find l = some d ∧ d.untrain (.vec img) = (d', .ok ()) ∧
        w'.discriminators.find l = some d') := by
  unfold Wisard.leaveOneOut at h
  cases hf : w.discriminators.find l with
  | none =>
    rw [hf] at h
    simp only [Prod.mk.injEq, and_true] at h
    exact .inl ⟨rfl, h.symm⟩
  | some d =>
    rw [hf] at h
    simp only at h
    cases ht : d.untrain (.vec img) with
    | mk d' r =>
      rw [ht] at h
      simp only [Prod.mk.injEq] at h
      obtain ⟨rfl, rfl⟩ := h
      exact .inr ⟨d, d', rfl, ht, SMap.find_set_self _ _ _⟩

/-! ## Histories -/

theorem wrun_append (a b : List WOp) : ∀ w : Wisard, wrun w (a ++ b) =
    (match wrun w a with
      | (w', .ok ()) => wrun w' b
      | (w', .error e) => (w', .error e)) := by
  induction a with
  | nil => intro w; rfl
  | cons o a ih =>
    intro w
    simp only [List.cons_append, wrun]
    cases h : wstep w o with
    | mk w' r =>
      cases r with
      | ok u => simp only [ih]
      | error e => simp

theorem wrun_snoc_ok {w w2 : Wisard} {ops : List WOp} {o : WOp} (h : wrun w (ops ++ [o]) = (w2, .ok ())) :
    ∃ w1, wrun w ops = (w1, .ok ()) ∧ wstep w1 o = (w2, .ok ()) := by
  rw [wrun_append] at h
  cases h1 : wrun w ops with
  | mk w1 r =>
    rw [h1] at h
    cases r with
    | error e => simp at h
    | ok u =>
      simp only [wrun] at h
      refine ⟨w1, rfl, ?_⟩
      cases h2 : wstep w1 o with
      | mk w3 r =>
        rw [h2] at h
        cases r with
        | ok u => simpa using h
        | error e => simp at h

theorem run_snoc {d d1 d2 : Discriminator} {ops : List Op} (h1 : run d ops = (d1, .ok ())) (o : Op)
    (h2 : run d1 [o] = (d2, .ok ())) : run d (ops ++ [o]) = (d2, .ok ()) := by
  rw [run_append ops [o] h1]; exact h2

theorem opsOf_snoc_other (l : Str) (ops : List WOp) (o : WOp) (h : l ≠ o.label) : opsOf l (ops ++ [o]) = opsOf l ops := by
  unfold opsOf
  rw [List.filterMap_append]
  have : List.filterMap (WOp.on l) [o] = [] := by
    cases o <;> simp_all [WOp.on, WOp.label]
    all_goals
      intro h'; exact h h'.symm
  rw [this, List.append_nil]

theorem opsOf_snoc_train (l : Str) (ops : List WOp) (env : Env) (img : Image) :
    opsOf l (ops ++ [.train env img l]) = opsOf l ops ++ [.train img] := by
  unfold opsOf
  rw [List.filterMap_append, List.dropWhile_append]
  have h : List.filterMap (WOp.on l) [.train env img l] = [.train img] := by simp [WOp.on]
  have h' : List.dropWhile (fun o : Op => !o.isTrain) [Op.train img] = [Op.train img] := rfl
  rw [h, h']
  by_cases he : (List.dropWhile (fun o : Op => !o.isTrain) (List.filterMap (WOp.on l) ops)) = []
  · rw [he]; rfl
  · rw [if_neg (by simpa only [List.isEmpty_iff] using he)]

theorem opsOf_snoc_leave (l : Str) (ops : List WOp) (img : List Int) :
    opsOf l (ops ++ [.leave img l]) = if opsOf l ops = [] then [] else opsOf l ops ++ [.untrain (.vec img)] := by
  unfold opsOf
  rw [List.filterMap_append, List.dropWhile_append]
  have h : List.filterMap (WOp.on l) [.leave img l] = [.untrain (.vec img)] := by simp [WOp.on]
  have h' : List.dropWhile (fun o : Op => !o.isTrain) [Op.untrain (.vec img)] = [] := rfl
  rw [h, h']
  by_cases he : (List.dropWhile (fun o : Op => !o.isTrain) (List.filterMap (WOp.on l) ops)) = []
  · rw [he]; rfl
  · rw [if_neg (by simpa only [List.isEmpty_iff] using he), if_neg he]

theorem wrun_find {w0 : Wisard} (h0 : w0.discriminators = []) (ops : List WOp) : ∀ {w : Wisard},
    wrun w0 ops = (w, .ok ()) →
    w.addressSize = w0.addressSize ∧ w.opts = w0.opts ∧ SMap.Sorted w.discriminators ∧
    ∀ l, (w.discriminators.find l = none ∧ opsOf l ops = []) ∨
      ∃ d d0 rnd img rest, w.discriminators.find l = some d ∧ opsOf l ops = .train img :: rest ∧
        Wisard.newDiscriminator rnd w0.addressSize w0.opts l img.size = .ok d0 ∧
        run d0 (opsOf l ops) = (d, .ok ()) := by
  induction ops using List.reverseRecOn with
  | nil =>
    intro w h
    simp only [wrun, Prod.mk.injEq, and_true] at h
    subst h
    refine ⟨rfl, rfl, by rw [h0]; exact SMap.sorted_nil, fun l => .inl ⟨by rw [h0]; rfl, rfl⟩⟩
  | append_singleton ops o ih =>
    intro w2 h
    obtain ⟨w1, h1, h2⟩ := wrun_snoc_ok h
    obtain ⟨a1, a2, a3, a4⟩ := ih h1
    have hoth := wstep_other w1 o
    rw [h2] at hoth
    obtain ⟨b1, b2, b3, b4⟩ := hoth
    simp only at b1 b2 b3 b4
    refine ⟨by rw [b1, a1], by rw [b2, a2], b4 a3, ?_⟩
    intro l
    by_cases hl : l = o.label
    · subst hl
      cases o with
      | train env img l =>
        simp only [WOp.label] at *
        rw [opsOf_snoc_train]
        have hf := train1_find w1 env img l h2
        right
        rcases a4 l with ⟨c1, c2⟩ | ⟨d, d0, rnd, img0, rest, c1, c2, c3, c4⟩
        · rcases hf.2.2.2 with ⟨d, d', e1, _⟩ | ⟨d0, d', e1, e2, e3, e4⟩
          · rw [c1] at e1; cases e1
          · refine ⟨d', d0, env.rnd, img, [], e4, by rw [c2]; rfl, by rw [← a1, ← a2]; exact e2, ?_⟩
            rw [c2]
            simp only [List.nil_append, run, e3]
        · rcases hf.2.2.2 with ⟨d1, d', e1, e2, e3⟩ | ⟨d0, d', e1, _⟩
          · rw [c1] at e1
            obtain rfl : d = d1 := by simpa using e1
            refine ⟨d', d0, rnd, img0, rest ++ [.train img], e3, by rw [c2]; rfl, c3, ?_⟩
            exact run_snoc c4 _ (by simp only [run, e2])
          · rw [c1] at e1; cases e1
      | leave img l =>
        simp only [WOp.label] at *
        rw [opsOf_snoc_leave]
        have hf := leave_find w1 img l h2
        rcases a4 l with ⟨c1, c2⟩ | ⟨d, d0, rnd, img0, rest, c1, c2, c3, c4⟩
        · rcases hf with ⟨_, rfl⟩ | ⟨d, d', e1, _⟩
          · left; rw [if_pos c2]; exact ⟨c1, rfl⟩
          · rw [c1] at e1; cases e1
        · rcases hf with ⟨e1, _⟩ | ⟨d1, d', e1, e2, e3⟩
          · rw [c1] at e1; cases e1
          · rw [c1] at e1
            obtain rfl : d = d1 := by simpa using e1
            right
            rw [if_neg (by rw [c2]; simp)]
            refine ⟨d', d0, rnd, img0, rest ++ [.untrain (.vec img)], e3, by rw [c2]; rfl, c3, ?_⟩
            exact run_snoc c4 _ (by simp only [run, e2])
    · rw [opsOf_snoc_other l ops o hl, b3 l hl]
      exact a4 l

theorem mem_opsOf {l : Str} {ops : List WOp} {o : Op} (h : o ∈ opsOf l ops) :
    ∃ wo ∈ ops, wo.img = o.img ∧ wo.label = l := by
  unfold opsOf at h
  have h := (List.dropWhile_sublist _).subset h
  obtain ⟨wo, hwo, h⟩ := List.mem_filterMap.mp h
  refine ⟨wo, hwo, ?_⟩
  cases wo with
  | train env img l' =>
    simp only [WOp.on] at h
    split at h
    · rename_i hl; simp only [Option.some.injEq] at h; subst h; exact ⟨rfl, hl⟩
    · cases h
  | leave img l' =>
    simp only [WOp.on] at h
    split at h
    · rename_i hl; simp only [Option.some.injEq] at h; subst h; exact ⟨rfl, hl⟩
    · cases h

theorem opsOf_length (l : Str) (ops : List WOp) : (opsOf l ops).length ≤ ops.length := by
  unfold opsOf
  exact Nat.le_trans (List.dropWhile_sublist _).length_le (List.length_filterMap_le _ _)

theorem Spec.GoodHistory.valid_ops {w0 w : Wisard} {ops : List WOp} {n : Int} (g : GoodHistory w0 ops w n) (l : Str) :
    ∀ o ∈ opsOf l ops, ValidImage n w0.opts.base o.img := by
  intro o ho
  obtain ⟨wo, h1, h2, _⟩ := mem_opsOf ho
  rw [← h2]; exact g.valid wo h1

/-- Every class represents its own history. -/
theorem Spec.GoodHistory.rep {w0 w : Wisard} {ops : List WOp} {n : Int} (g : GoodHistory w0 ops w n) {l : Str}
    {d : Discriminator} (hd : w.discriminators.find l = some d) :
    ∃ d0, Fresh d0 n w0.opts.base w0.opts.ignoreZero ∧ d0.mapping = d.mapping ∧ WiredInside n d0.mapping ∧
      run d0 (opsOf l ops) = (d, .ok ()) ∧
      DRep n d0 d (opsOf l ops) := by
  obtain ⟨_, _, _, h4⟩ := wrun_find g.start ops g.ran
  rcases h4 l with ⟨h, _⟩ | ⟨d', d0, rnd, img, rest, h1, h2, h3, h5⟩
  · rw [h] at hd; cases hd
  · rw [h1] at hd
    obtain rfl : d' = d := by simpa using hd
    have hv := g.valid_ops l
    have himg : ValidImage n w0.opts.base img := hv (.train img) (by rw [h2]; simp)
    rw [himg.1] at h3
    have hf := newDiscriminator_fresh h3
    have hm : d0.mapping = d'.mapping := by
      have := run_le (opsOf l ops) d0
      rw [h5] at this
      exact this.mapping.symm
    have hw : WiredInside n d0.mapping := by rw [hm]; exact g.wired l d' h1
    obtain ⟨d2, e1, e2⟩ := run_rep hf hw (opsOf l ops) (fresh_rep hf) hv (by
      have := opsOf_length l ops; have := g.len; simp; omega)
    rw [h5] at e1
    obtain rfl : d' = d2 := (Prod.mk.inj e1).1
    exact ⟨d0, hf, hm, hw, h5, by simpa using e2⟩

theorem allvotes_eq {x : Image} (f : Str × Discriminator → List Int) (m : SMap Discriminator)
    (h : ∀ e ∈ m, e.2.classify x = .ok (f e)) : Wisard.allvotes x m = .ok (m.map (fun e => (e.1, f e))) := by
  induction m with
  | nil => rfl
  | cons e m ih =>
    obtain ⟨l, d⟩ := e
    simp only [Wisard.allvotes, h (l, d) (by simp), ih (fun e he => h e (List.mem_cons_of_mem _ he)), Except.bind_ok]
    rfl

theorem Spec.GoodHistory.allvotes {w0 w : Wisard} {ops : List WOp} {n : Int} (g : GoodHistory w0 ops w n) {x : Image}
    (hx : ValidImage n w0.opts.base x) :
    Wisard.allvotes x w.discriminators =
      .ok (w.discriminators.map (fun e => (e.1, specVotes w0 ops x e.1 e.2.mapping))) := by
  apply allvotes_eq (fun e => specVotes w0 ops x e.1 e.2.mapping)
  intro e he
  have hs := (wrun_find g.start ops g.ran).2.2.1
  obtain ⟨d0, h1, h2, h3, _, h4⟩ := g.rep (SMap.find_of_mem hs he)
  rw [classify_rep h1 h3 h4 (g.valid_ops e.1) hx, h2]
  rfl

/-- Inversion of the vote table. -/
theorem allvotes_ok {x : Image} {m : SMap Discriminator} {v : Votes} (h : Wisard.allvotes x m = .ok v) :
    SMap.keys v = SMap.keys m ∧ ∀ l, (SMap.find v l = none ∧ SMap.find m l = none) ∨
      ∃ d vs, SMap.find m l = some d ∧ SMap.find v l = some vs ∧ d.classify x = .ok vs := by
  induction m generalizing v with
  | nil =>
    simp only [Wisard.allvotes, Except.ok.injEq] at h
    subst h
    exact ⟨rfl, fun l => .inl ⟨rfl, rfl⟩⟩
  | cons e m ih =>
    obtain ⟨k, d⟩ := e
    simp only [Wisard.allvotes] at h
    obtain ⟨vs, h1, h⟩ := bind_eq_ok h
    obtain ⟨v', h2, h⟩ := bind_eq_ok h
    simp only [Except.ok.injEq] at h
    subst h
    obtain ⟨i1, i2⟩ := ih h2
    refine ⟨by simp only [SMap.keys, List.map_cons] at i1 ⊢; rw [i1], ?_⟩
    intro l
    simp only [SMap.find]
    by_cases hl : k = l
    · subst hl
      exact .inr ⟨d, vs, by simp, by simp, h1⟩
    · simp only [if_neg hl]
      exact i2 l

theorem sorted_of_keys {V W : Type} {m : SMap V} {m' : SMap W} (h : SMap.Sorted m) (hk : SMap.keys m' = SMap.keys m) :
    SMap.Sorted m' := by
  have : (SMap.keys m).Pairwise (fun a b => Str.lt a b = true) := by
    unfold SMap.keys; rw [List.pairwise_map]; exact h
  rw [← hk] at this
  unfold SMap.keys at this
  rw [List.pairwise_map] at this
  exact this

end Wis
