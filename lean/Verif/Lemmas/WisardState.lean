import Verif.Lemmas.Wisard
import Verif.Lemmas.Wiring
import Verif.Props.Discriminator
/-! More about Wisard states: positive counters, replacing one class, default wiring. -/

namespace Wis
open Spec

/-! ## Positive counters -/

/-- All stored counters are positive. -/
def Pos1 (rs : List Ram) : Prop := ∀ r ∈ rs, ∀ k c, r.positions.find k = some c → 1 ≤ c

theorem ramTrain_pos1 (r : Ram) (img : Image) (h : ∀ k c, r.positions.find k = some c → 1 ≤ c) :
    ∀ k c, (r.train img).1.positions.find k = some c → 1 ≤ c := by
  unfold Ram.train
  cases hg : r.getIndex img with
  | error e => exact h
  | ok index =>
    simp only
    cases hf : r.positions.find index with
    | none =>
      simp only
      intro k c
      rw [RamT.find_set]
      split
      · intro e; injection e with e; omega
      · exact h k c
    | some c0 =>
      simp only
      cases hi : i32 (c0 + 1) with
      | error e => exact h
      | ok c' =>
        simp only
        intro k c
        rw [RamT.find_set]
        split
        · intro e
          injection e with e
          have := h index c0 hf
          unfold i32 at hi
          split at hi
          · injection hi with hi; omega
          · cases hi
        · exact h k c

theorem trainRams_pos1 (img : Image) (rs : List Ram) (h : Pos1 rs) : Pos1 (Discriminator.trainRams img rs).1 := by
  induction rs with
  | nil => exact h
  | cons r rs ih =>
    have h1 := ramTrain_pos1 r img (h r (by simp))
    have ih := ih (fun r hr => h r (List.mem_cons_of_mem _ hr))
    simp only [Discriminator.trainRams]
    cases ht : r.train img with
    | mk r' res =>
      rw [ht] at h1
      cases res with
      | ok u =>
        simp only
        intro x hx
        rcases List.mem_cons.mp hx with e | e
        · rw [e]; exact h1
        · exact ih x e
      | error e =>
        simp only
        intro x hx
        rcases List.mem_cons.mp hx with e | e
        · rw [e]; exact h1
        · exact h x (List.mem_cons_of_mem _ e)

theorem train_pos1 (d : Discriminator) (img : Image) (h : Pos1 d.rams) : Pos1 (d.train img).1.rams := by
  unfold Discriminator.train
  cases d.checkEntrySize img.size with
  | error e => exact h
  | ok u =>
    simp only
    cases i32 (d.count + 1) with
    | error e => exact h
    | ok c => exact trainRams_pos1 img d.rams h

/-- After a history of trainings: counters are positive and every trained pattern is stored. -/
theorem run_trains_state (ops : List Op) : ∀ {d d' : Discriminator}, Pos1 d.rams → (∀ o ∈ ops, o.isTrain = true) →
    run d ops = (d', .ok ()) → Pos1 d'.rams ∧ ∀ img, Op.train img ∈ ops → Knows img d'.rams ∧
      (img.size : Int) = d'.entrySize := by
  induction ops using List.reverseRecOn with
  | nil =>
    intro d d' h _ hr
    simp only [run, Prod.mk.injEq, and_true] at hr
    subst hr
    exact ⟨h, by simp⟩
  | append_singleton ops o ih =>
    intro d d2 h ht hr
    obtain ⟨img, rfl⟩ : ∃ img, o = Op.train img := by
      have := ht o (by simp)
      cases o with
      | train img => exact ⟨img, rfl⟩
      | untrain img => simp [Op.isTrain] at this
    have hsplit : ∃ d1, run d ops = (d1, .ok ()) ∧ d1.train img = (d2, .ok ()) := by
      cases h1 : run d ops with
      | mk d1 r =>
        cases r with
        | ok u =>
          rw [run_append ops _ h1] at hr
          simp only [run] at hr
          refine ⟨d1, rfl, ?_⟩
          cases h2 : d1.train img with
          | mk d3 r =>
            rw [h2] at hr
            cases r with
            | ok u => simpa using hr
            | error e => simp at hr
        | error e =>
          have : run d (ops ++ [Op.train img]) = (d1, .error e) := by
            have gen : ∀ (ops : List Op) (d : Discriminator), run d ops = (d1, .error e) →
                run d (ops ++ [Op.train img]) = (d1, .error e) := by
              intro ops
              induction ops with
              | nil => intro d h; simp [run] at h
              | cons o ops ih2 =>
                intro d h
                cases o with
                | train i =>
                  simp only [List.cons_append, run] at h ⊢
                  cases hh : d.train i with
                  | mk d4 r =>
                    rw [hh] at h
                    cases r with
                    | ok u => simp only at h ⊢; exact ih2 _ h
                    | error e => simpa using h
                | untrain i =>
                  simp only [List.cons_append, run] at h ⊢
                  cases hh : d.untrain i with
                  | mk d4 r =>
                    rw [hh] at h
                    cases r with
                    | ok u => simp only at h ⊢; exact ih2 _ h
                    | error e => simpa using h
            exact gen ops d h1
          rw [this] at hr
          simp at hr
    obtain ⟨d1, h1, h2⟩ := hsplit
    obtain ⟨a1, a2⟩ := ih h (fun o ho => ht o (by simp [ho])) h1
    have hp := train_pos1 d1 img a1
    have hle := train_le d1 img
    rw [h2] at hp hle
    refine ⟨hp, ?_⟩
    intro x hx
    rcases List.mem_append.mp hx with hx | hx
    · obtain ⟨k1, k2⟩ := a2 x hx
      exact ⟨knows_le hle.2 k1, by rw [hle.1]; exact k2⟩
    · simp only [List.mem_singleton, Op.train.injEq] at hx
      subst hx
      unfold Discriminator.train Discriminator.checkEntrySize at h2
      by_cases hsz : d1.entrySize ≠ (x.size : Int)
      · rw [if_pos hsz] at h2; simp at h2
      · rw [if_neg hsz] at h2
        simp only at h2
        cases hi : i32 (d1.count + 1) with
        | error e => rw [hi] at h2; simp at h2
        | ok c =>
          rw [hi] at h2
          simp only [Prod.mk.injEq] at h2
          obtain ⟨e1, e2⟩ := h2
          have := trainRams_knows d1.rams e2
          subst e1
          exact ⟨this, by simp only; omega⟩

/-- Known patterns with positive counters: every RAM votes at least 1. -/
theorem votes_pos {x : Image} (rs : List Ram) (hk : Knows x rs) (hp : Pos1 rs) (hz : ∀ r ∈ rs, r.ignoreZero = false) :
    ∃ vs, Discriminator.votes x rs = .ok vs ∧ vs.length = rs.length ∧ ∀ v ∈ vs, 1 ≤ v := by
  induction rs with
  | nil => exact ⟨[], rfl, rfl, by simp⟩
  | cons r rs ih =>
    obtain ⟨vs, h1, h2, h3⟩ := ih (fun r hr => hk r (List.mem_cons_of_mem _ hr))
      (fun r hr => hp r (List.mem_cons_of_mem _ hr)) (fun r hr => hz r (List.mem_cons_of_mem _ hr))
    obtain ⟨k, k1, k2⟩ := hk r (by simp)
    cases hf : r.positions.find k with
    | none => exact absurd k2 ((RamT.find_none_iff _ _).mp hf)
    | some c =>
      have hc := hp r (by simp) k c hf
      refine ⟨c :: vs, ?_, by simp [h2], ?_⟩
      · simp only [Discriminator.votes, Ram.getVote, k1, Except.bind_ok, hz r (by simp), Bool.false_and, hf, h1]
        rfl
      · intro v hv
        rcases List.mem_cons.mp hv with e | e
        · omega
        · exact h3 v e

theorem classify_length {d : Discriminator} {x : Image} {vs : List Int} (h : d.classify x = .ok vs) :
    vs.length = d.rams.length := by
  unfold Discriminator.classify at h
  obtain ⟨_, _, h⟩ := bind_eq_ok h
  have gen : ∀ (rs : List Ram) (vs : List Int), Discriminator.votes x rs = .ok vs → vs.length = rs.length := by
    intro rs
    induction rs with
    | nil => intro vs h; simp [Discriminator.votes] at h; simp [← h]
    | cons r rs ih =>
      intro vs h
      simp only [Discriminator.votes] at h
      obtain ⟨v, _, h⟩ := bind_eq_ok h
      obtain ⟨vs', h', h⟩ := bind_eq_ok h
      simp only [Except.ok.injEq] at h
      subst h
      simp [ih vs' h']
  exact gen _ _ h

/-! ## Replacing one class by an equivalent one -/

theorem set_replace {V : Type} {m : SMap V} (hs : SMap.Sorted m) {l : Str} {v v' : V} (h : m.find l = some v) :
    ∃ a b, m = a ++ (l, v) :: b ∧ m.set l v' = a ++ (l, v') :: b := by
  induction m with
  | nil => simp [SMap.find] at h
  | cons e m ih =>
    obtain ⟨k, u⟩ := e
    obtain ⟨h1, h2⟩ := SMap.sorted_cons.mp hs
    simp only [SMap.find] at h
    by_cases hk : k = l
    · subst hk
      simp only [if_true, Option.some.injEq] at h
      subst h
      exact ⟨[], m, rfl, by simp [SMap.set]⟩
    · rw [if_neg hk] at h
      obtain ⟨a, b, e1, e2⟩ := ih h2 h
      have hlt := h1 _ (SMap.mem_of_find h)
      refine ⟨(k, u) :: a, b, by rw [e1]; rfl, ?_⟩
      simp only [SMap.set, if_neg hk, Str.lt_asymm hlt, Bool.false_eq_true, if_false, e2]
      rfl

theorem allvotes_replace {x : Image} (a : SMap Discriminator) {l : Str} {d d' : Discriminator}
    (b : SMap Discriminator) (h : d'.classify x = d.classify x) :
    Wisard.allvotes x (a ++ (l, d') :: b) = Wisard.allvotes x (a ++ (l, d) :: b) := by
  induction a with
  | nil => simp only [List.nil_append, Wisard.allvotes, h]
  | cons e a ih =>
    obtain ⟨k, u⟩ := e
    simp only [List.cons_append, Wisard.allvotes, ih]

theorem mental_replace {it : IterOrder} (a : SMap Discriminator) {l : Str} {d d' : Discriminator}
    (b : SMap Discriminator) (h : d'.getMentalImage it = d.getMentalImage it) :
    Wisard.mentalImagesLoop it (a ++ (l, d') :: b) = Wisard.mentalImagesLoop it (a ++ (l, d) :: b) := by
  induction a with
  | nil => simp only [List.nil_append, Wisard.mentalImagesLoop, h]
  | cons e a ih =>
    obtain ⟨k, u⟩ := e
    simp only [List.cons_append, Wisard.mentalImagesLoop, ih]

/-! ## Default wiring -/

theorem newDiscriminator_default {rnd : Rnd} {A n : Nat} {o : WisardOpts} {l : Str} (hm : o.mapping = [])
    (hi : o.indexes = []) :
    Wisard.newDiscriminator rnd A o l n = Discriminator.create rnd A n
      { completeAddressing := o.completeAddressing, ignoreZero := o.ignoreZero, base := o.base } := by
  unfold Wisard.newDiscriminator Discriminator.create
  rw [hm, hi]
  simp [SMap.find]

/-- With default wiring every history of valid calls succeeds. -/
theorem default_good {A n : Nat} {o : WisardOpts} (hm : o.mapping = []) (hi : o.indexes = [])
    (hA : 2 ≤ A) (hAn : A ≤ n) (hn : n + A ≤ 2147483647) (hb : 2 ≤ o.base) (hp : o.base ^ A < 2 ^ 63)
    (ops : List WOp) (hv : ∀ op ∈ ops, ValidImage n o.base op.img) (hlen : ops.length ≤ 2147483647) :
    ∃ w, GoodHistory (Wisard.create A o) ops w n := by
  induction ops using List.reverseRecOn with
  | nil =>
    refine ⟨Wisard.create A o, ⟨rfl, rfl, by simp, ?_, by simp⟩⟩
    intro l d h
    simp [Wisard.create, SMap.find] at h
  | append_singleton ops op ih =>
    simp only [List.length_append, List.length_singleton] at hlen
    obtain ⟨w, g⟩ := ih (fun x hx => hv x (by simp [hx])) (by omega)
    obtain ⟨hA', hO', hS', _⟩ := wrun_find g.start ops g.ran
    have hop := hv op (by simp)
    have hol := fun l => opsOf_length l ops
    have finish : ∀ w2, wstep w op = (w2, .ok ()) →
        (∀ l d, w2.discriminators.find l = some d → WiredInside n d.mapping) →
        GoodHistory (Wisard.create A o) (ops ++ [op]) w2 n := by
      intro w2 h1 h2
      refine ⟨rfl, ?_, hv, h2, by simp; omega⟩
      rw [wrun_append, g.ran]
      simp only [wrun, h1]
    cases op with
    | train env img l =>
      simp only [WOp.img] at hop
      cases hf : w.discriminators.find l with
      | some d =>
        obtain ⟨d0, f1, f2, f3, _, f5⟩ := g.rep hf
        obtain ⟨d', t1, t2⟩ := train_rep f1 f3 f5 hop (by have := hol l; omega)
        refine ⟨{ w with discriminators := w.discriminators.set l d' }, finish _ ?_ ?_⟩
        · simp only [wstep, Wisard.train1, hf, Wisard.trainKnown, Option.getD_some, t1]
        · intro l' d2 h
          by_cases hl : l' = l
          · subst hl
            rw [SMap.find_set_self] at h
            injection h with h
            subst h
            rw [mapping_rep t2]; exact f3
          · rw [SMap.find_set_ne _ _ hl] at h
            exact g.wired l' d2 h
      | none =>
        have hsz : img.size = n := by have := hop.1; omega
        obtain ⟨c1, c2⟩ := C18_default_wiring env.rnd A n
          { completeAddressing := o.completeAddressing, ignoreZero := o.ignoreZero, base := o.base } rfl rfl
        obtain ⟨d0, hd0⟩ := c1 hA hAn hn hb hp
        have hw0 := (c2 d0 hd0).2.2.1
        have hf0 := create_fresh hd0
        obtain ⟨d', t1, t2⟩ := train_rep hf0 hw0 (fresh_rep hf0) hop (by simp)
        refine ⟨{ w with discriminators := (w.discriminators.set l d0).set l d' }, finish _ ?_ ?_⟩
        · have hnew : Wisard.newDiscriminator env.rnd w.addressSize w.opts l (img.size : Int) = .ok d0 := by
            rw [hA', hO', hsz]
            simp only [Wisard.create]
            rw [newDiscriminator_default hm hi]; exact hd0
          simp only [wstep, Wisard.train1, hf, Wisard.makeDiscriminator, hnew, Wisard.trainKnown,
            SMap.find_set_self, Option.getD_some, t1]
        · intro l' d2 h
          by_cases hl : l' = l
          · subst hl
            rw [SMap.find_set_self] at h
            injection h with h
            subst h
            rw [mapping_rep t2]; exact hw0
          · rw [SMap.find_set_ne _ _ hl, SMap.find_set_ne _ _ hl] at h
            exact g.wired l' d2 h
    | leave img l =>
      simp only [WOp.img] at hop
      cases hf : w.discriminators.find l with
      | some d =>
        obtain ⟨d0, f1, f2, f3, _, f5⟩ := g.rep hf
        obtain ⟨d', t1, t2⟩ := untrain_rep f1 f3 f5 hop (by have := hol l; omega)
        refine ⟨{ w with discriminators := w.discriminators.set l d' }, finish _ ?_ ?_⟩
        · simp only [wstep, Wisard.leaveOneOut, hf, t1]
        · intro l' d2 h
          by_cases hl : l' = l
          · subst hl
            rw [SMap.find_set_self] at h
            injection h with h
            subst h
            rw [mapping_rep t2]; exact f3
          · rw [SMap.find_set_ne _ _ hl] at h
            exact g.wired l' d2 h
      | none =>
        refine ⟨w, finish _ ?_ g.wired⟩
        simp only [wstep, Wisard.leaveOneOut, hf]

/-! ## Training order -/

theorem opsOf_trains {ops : List WOp} (ht : ∀ o ∈ ops, o.isTrain = true) (l : Str) :
    opsOf l ops = (((trained ops).filter (fun e => decide (e.2 = l))).map (·.1)).map Op.train := by
  have h1 : ops.filterMap (WOp.on l) =
      (((trained ops).filter (fun e => decide (e.2 = l))).map (·.1)).map Op.train := by
    induction ops with
    | nil => rfl
    | cons o ops ih =>
      have ih := ih (fun x hx => ht x (List.mem_cons_of_mem _ hx))
      cases o with
      | leave i k => have := ht (.leave i k) (by simp); simp [WOp.isTrain] at this
      | train env img k =>
        simp only [List.filterMap_cons, WOp.on, trained, List.filter_cons]
        by_cases hk : k = l
        · simp [hk, ih]
        · simp [hk, ih]
  unfold opsOf
  rw [h1]
  cases ((trained ops).filter (fun e => decide (e.2 = l))).map (·.1) with
  | nil => rfl
  | cons i is => rfl

end Wis
