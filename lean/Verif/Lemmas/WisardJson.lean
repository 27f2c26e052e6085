import Verif.Spec.WisardJson
import Verif.Model.WisardJson
import Verif.Lemmas.Json
import Verif.Lemmas.WisardState
/-! Saving and loading a Wisard. -/

namespace Wis
open Spec

/-! ## Two similar Wisards behave alike -/

abbrev ClsSim := List.Forall₂ (fun (e e' : Str × Discriminator) => e'.1 = e.1 ∧ DSim e.2 e'.2)

/-- Options that the JSON keeps (all but `mapping` and `searchBestConfidence`, which has no effect). -/
structure OptSim (o o' : WisardOpts) : Prop where
  b : o'.bleachingActivated = o.bleachingActivated
  v : o'.verbose = o.verbose
  i : o'.indexes = o.indexes
  z : o'.ignoreZero = o.ignoreZero
  c : o'.completeAddressing = o.completeAddressing
  base : o'.base = o.base
  rc : o'.returnConfidence = o.returnConfidence
  ra : o'.returnActivationDegree = o.returnActivationDegree
  rd : o'.returnClassesDegrees = o.returnClassesDegrees
  conf : o'.confidence = o.confidence

structure WSim (w w' : Wisard) : Prop where
  addr : w'.addressSize = w.addressSize
  opts : OptSim w.opts w'.opts
  cls : ClsSim w.discriminators w'.discriminators

theorem ClsSim.keys {m m' : SMap Discriminator} (h : ClsSim m m') : m'.keys = m.keys := by
  induction h with
  | nil => rfl
  | cons h1 _ ih =>
    simp only [SMap.keys, List.map_cons] at ih ⊢
    rw [h1.1, ih]

theorem ClsSim.find {m m' : SMap Discriminator} (h : ClsSim m m') (l : Str) :
    (m.find l = none ∧ m'.find l = none) ∨ ∃ d d', m.find l = some d ∧ m'.find l = some d' ∧ DSim d d' := by
  induction h with
  | nil => exact .inl ⟨rfl, rfl⟩
  | @cons e e' m m' h1 _ ih =>
    obtain ⟨k, d⟩ := e
    obtain ⟨k', d'⟩ := e'
    obtain ⟨hk, hd⟩ := h1
    simp only at hk hd
    subst hk
    simp only [SMap.find]
    by_cases h : k' = l
    · simp only [if_pos h]; exact .inr ⟨d, d', rfl, rfl, hd⟩
    · simp only [if_neg h]; exact ih

theorem ClsSim.set {m m' : SMap Discriminator} (h : ClsSim m m') (l : Str) {d d' : Discriminator} (hd : DSim d d') :
    ClsSim (m.set l d) (m'.set l d') := by
  induction h with
  | nil => exact .cons ⟨rfl, hd⟩ .nil
  | @cons e e' m m' h1 h2 ih =>
    obtain ⟨k, u⟩ := e
    obtain ⟨k', u'⟩ := e'
    obtain ⟨hk, hu⟩ := h1
    simp only at hk hu
    subst hk
    simp only [SMap.set]
    split
    · exact .cons ⟨rfl, hd⟩ h2
    · split
      · exact .cons ⟨rfl, hd⟩ (.cons ⟨rfl, hu⟩ h2)
      · exact .cons ⟨rfl, hu⟩ ih

theorem make_sbc (v : Votes) (a s s' : Bool) (c : Int) : Bleaching.make v a s' c = Bleaching.make v a s c := by
  unfold Bleaching.make Bleaching.makeWithConfidence
  cases s <;> cases s' <;> rfl

theorem ClsSim.allvotes {m m' : SMap Discriminator} (h : ClsSim m m') (x : Image) :
    Wisard.allvotes x m' = Wisard.allvotes x m := by
  induction h with
  | nil => rfl
  | @cons e e' m m' h1 _ ih =>
    obtain ⟨k, d⟩ := e
    obtain ⟨k', d'⟩ := e'
    obtain ⟨hk, hd⟩ := h1
    simp only at hk hd
    subst hk
    simp only [Wisard.allvotes, hd.classify, ih]

theorem WSim.classify1 {w w' : Wisard} (h : WSim w w') (x : Image) : w'.classify1 x = w.classify1 x := by
  unfold Wisard.classify1
  rw [h.cls.allvotes, h.opts.b, h.opts.conf]
  simp only [make_sbc _ _ w.opts.searchBestConfidence w'.opts.searchBestConfidence]

theorem ClsSim.configClasses {m m' : SMap Discriminator} (h : ClsSim m m') :
    ∀ c, Wisard.configClassesJson m' c = Wisard.configClassesJson m c := by
  induction h with
  | nil => intro c; rfl
  | @cons e e' m m' h1 _ ih =>
    intro c
    obtain ⟨k, d⟩ := e
    obtain ⟨k', d'⟩ := e'
    obtain ⟨hk, hd⟩ := h1
    simp only at hk hd
    subst hk
    simp only [Wisard.configClassesJson, Discriminator.getConfigJSON, hd.getConfig, ih]

theorem WSim.jsonConfig {w w' : Wisard} (h : WSim w w') : w'.jsonConfig = w.jsonConfig := by
  unfold Wisard.jsonConfig Wisard.getConfig
  rw [h.cls.configClasses, h.addr, h.opts.b, h.opts.v, h.opts.i, h.opts.z, h.opts.c, h.opts.base, h.opts.conf, h.opts.rc,
    h.opts.ra, h.opts.rd]

theorem WSim.observe {w w' : Wisard} (h : WSim w w') : WObserve w w' where
  labels := h.cls.keys
  scores := h.classify1
  classify xs := by
    induction xs with
    | nil => rfl
    | cons x xs ih => simp only [Wisard.classify, h.classify1, ih]
  python xs := by
    have ho : ∀ l n c, PyOut.setClassifyOutput w'.opts l n c = PyOut.setClassifyOutput w.opts l n c := by
      intro l n c
      unfold PyOut.setClassifyOutput
      rw [h.opts.rc, h.opts.ra, h.opts.rd]
    have hl : ∀ n xs, PyOut.loop w' n xs = PyOut.loop w n xs := by
      intro n xs
      induction xs with
      | nil => rfl
      | cons x xs ih => simp only [PyOut.loop, h.classify1, ih, ho]
    unfold PyOut.pyClassify
    cases xs with
    | nil => rfl
    | cons x xs => simp only [h.addr, h.opts.c, hl]
  checks images labels := by
    unfold Wisard.trainChecks Wisard.checkConfidence
    rw [h.addr, h.opts.c, h.opts.conf]
  config ft := by unfold Wisard.jsonConfigText; rw [h.jsonConfig]
  size sw sd sr := by
    unfold Wisard.getsizeof
    rw [h.opts.i]
    generalize sw + 4 * (w.opts.indexes.length : Int) = a
    have := h.cls
    generalize w.discriminators = m at this
    generalize w'.discriminators = m' at this
    induction this generalizing a with
    | nil => rfl
    | cons h1 _ ih =>
      simp only [List.foldl_cons]
      rw [h1.1, h1.2.size]
      exact ih _
  classes l d d' h1 h2 := by
    rcases h.cls.find l with ⟨a, _⟩ | ⟨e, e', a, b, c⟩
    · rw [a] at h1; cases h1
    · rw [a] at h1; rw [b] at h2
      cases h1; cases h2
      exact c.observe

theorem WSim.leave {w w' : Wisard} (h : WSim w w') (img : List Int) (l : Str) :
    WSim (w.leaveOneOut img l).1 (w'.leaveOneOut img l).1 ∧ (w'.leaveOneOut img l).2 = (w.leaveOneOut img l).2 := by
  unfold Wisard.leaveOneOut
  rcases h.cls.find l with ⟨a, b⟩ | ⟨d, d', a, b, c⟩
  · rw [a, b]; exact ⟨h, rfl⟩
  · rw [a, b]
    obtain ⟨c1, c2⟩ := c.untrain (.vec img)
    exact ⟨⟨h.addr, h.opts, h.cls.set l c1⟩, c2⟩

theorem DSim.refl_default : DSim Discriminator.default Discriminator.default := ⟨rfl, rfl, .nil⟩

theorem WSim.trainKnown {w w' : Wisard} (h : WSim w w') (img : Image) (l : Str) :
    WSim (w.trainKnown img l).1 (w'.trainKnown img l).1 ∧ (w'.trainKnown img l).2 = (w.trainKnown img l).2 := by
  unfold Wisard.trainKnown
  rcases h.cls.find l with ⟨a, b⟩ | ⟨d, d', a, b, c⟩
  · rw [a, b]
    obtain ⟨c1, c2⟩ := DSim.refl_default.train img
    exact ⟨⟨h.addr, h.opts, h.cls.set l c1⟩, c2⟩
  · rw [a, b]
    obtain ⟨c1, c2⟩ := c.train img
    exact ⟨⟨h.addr, h.opts, h.cls.set l c1⟩, c2⟩

/-- A freshly made discriminator is similar to itself. -/
theorem new_self {rnd : Rnd} {A : Int} {o : WisardOpts} {l : Str} {n : Int} {d : Discriminator}
    (h : Wisard.newDiscriminator rnd A o l n = .ok d) : DSim d d := by
  have gen : ∀ (rs : List Ram), (∀ r ∈ rs, r.positions = [] ∧ 2 ≤ r.base) → RamsSim rs rs := by
    intro rs
    induction rs with
    | nil => intro _; exact .nil
    | cons r rs ih =>
      intro hp
      have h0 := hp r (by simp)
      exact .cons ⟨rfl, rfl, rfl, h0.2, by rw [h0.1]; exact List.nodup_nil, by rw [h0.1]; exact List.nodup_nil, fun _ => rfl⟩
        (ih (fun r hr => hp r (List.mem_cons_of_mem _ hr)))
  have hf := newDiscriminator_fresh h
  refine ⟨rfl, rfl, gen _ fun r hr => ⟨(hf.rams r hr).1, ?_⟩⟩
  rw [(hf.rams r hr).2.1]
  exact hf.base2

theorem WSim.newDiscriminator {w w' : Wisard} (h : WSim w w') {l : Str}
    (hm : w'.opts.mapping.find l = w.opts.mapping.find l) (rnd : Rnd) (n : Int) :
    Wisard.newDiscriminator rnd w'.addressSize w'.opts l n = Wisard.newDiscriminator rnd w.addressSize w.opts l n := by
  unfold Wisard.newDiscriminator
  rw [hm, h.addr, h.opts.i, h.opts.z, h.opts.base, h.opts.c]

theorem WSim.train1 {w w' : Wisard} (h : WSim w w') {l : Str}
    (hm : l ∈ w.discriminators.keys ∨ w'.opts.mapping.find l = w.opts.mapping.find l) (env : Env) (img : Image) :
    WSim (w.train1 env img l).1 (w'.train1 env img l).1 ∧ (w'.train1 env img l).2 = (w.train1 env img l).2 := by
  unfold Wisard.train1
  rcases h.cls.find l with ⟨a, b⟩ | ⟨d, d', a, b, c⟩
  · rw [a, b]
    have hm : w'.opts.mapping.find l = w.opts.mapping.find l := by
      rcases hm with hm | hm
      · exact absurd hm (SMap.find_none_iff.mp a)
      · exact hm
    simp only [Wisard.makeDiscriminator, h.newDiscriminator hm]
    cases hn : Wisard.newDiscriminator env.rnd w.addressSize w.opts l img.size with
    | ok d =>
      simp only
      exact WSim.trainKnown (w := { w with discriminators := w.discriminators.set l d })
        (w' := { w' with discriminators := w'.discriminators.set l d })
        ⟨h.addr, h.opts, h.cls.set l (new_self hn)⟩ img l
    | error e =>
      simp only
      cases env.lhsFirst with
      | true => exact ⟨⟨h.addr, h.opts, h.cls.set l DSim.refl_default⟩, rfl⟩
      | false => exact ⟨h, rfl⟩
  · rw [a, b]
    exact h.trainKnown img l

theorem WSim.step {w w' : Wisard} (h : WSim w w') (o : WOp)
    (hm : o.label ∈ w.discriminators.keys ∨ w'.opts.mapping.find o.label = w.opts.mapping.find o.label) :
    WSim (wstep w o).1 (wstep w' o).1 ∧ (wstep w' o).2 = (wstep w o).2 := by
  cases o with
  | train env img l => exact h.train1 hm env img
  | leave img l => exact h.leave img l

/-! ## Steps of one class -/

theorem wstep_some {w : Wisard} {o : WOp} {d : Discriminator} (h : w.discriminators.find o.label = some d) :
    ∃ op : Op, op.isTrain = o.isTrain ∧ (wstep w o).1.discriminators.find o.label = some (play d [op]).1 ∧
      ∀ env img, o = .train env img o.label → op = .train img ∧ (wstep w o).2 = (d.train img).2 := by
  cases o with
  | train env img l =>
    refine ⟨.train img, rfl, ?_, ?_⟩
    · simp only [wstep, WOp.label, Wisard.train1] at h ⊢
      rw [h]
      simp only [Wisard.trainKnown, h, Option.getD_some, SMap.find_set_self]
      rfl
    · intro env' img' he
      cases he
      refine ⟨rfl, ?_⟩
      simp only [wstep, WOp.label, Wisard.train1] at h ⊢
      rw [h]
      simp only [Wisard.trainKnown, h, Option.getD_some]
  | leave img l =>
    refine ⟨.untrain (.vec img), rfl, ?_, ?_⟩
    · simp only [wstep, WOp.label, Wisard.leaveOneOut] at h ⊢
      rw [h]
      simp only [SMap.find_set_self]
      rfl
    · intro env' img' he
      cases he

theorem wstep_none {w : Wisard} {o : WOp} (h : w.discriminators.find o.label = none) :
    ((wstep w o).1.discriminators.find o.label = none ∧ ∀ env img, o = .train env img o.label → (wstep w o).2 ≠ .ok ()) ∨
    ∃ env img, o = .train env img o.label ∧
      (((wstep w o).1.discriminators.find o.label = some Discriminator.default ∧ (wstep w o).2 ≠ .ok ()) ∨
        ∃ d0, Wisard.newDiscriminator env.rnd w.addressSize w.opts o.label img.size = .ok d0 ∧
          (wstep w o).1.discriminators.find o.label = some (d0.train img).1 ∧ (wstep w o).2 = (d0.train img).2) := by
  cases o with
  | leave img l =>
    left
    simp only [wstep, WOp.label, Wisard.leaveOneOut] at h ⊢
    rw [h]
    exact ⟨h, by intro _ _ he; cases he⟩
  | train env img l =>
    simp only [wstep, WOp.label, Wisard.train1] at h ⊢
    rw [h]
    simp only [Wisard.makeDiscriminator]
    cases hn : Wisard.newDiscriminator env.rnd w.addressSize w.opts l img.size with
    | ok d0 =>
      right
      refine ⟨env, img, rfl, .inr ⟨d0, hn, ?_, ?_⟩⟩
      · simp only [Wisard.trainKnown, SMap.find_set_self, Option.getD_some]
      · simp only [Wisard.trainKnown, SMap.find_set_self, Option.getD_some]
    | error e =>
      cases hl : env.lhsFirst with
      | true =>
        right
        refine ⟨env, img, rfl, .inl ?_⟩
        simp [SMap.find_set_self]
      | false =>
        left
        simp [h]

theorem wstep_keys {w : Wisard} {o : WOp} {l : Str} (h : l ∈ w.discriminators.keys) :
    l ∈ (wstep w o).1.discriminators.keys := by
  rw [SMap.mem_keys_iff] at h ⊢
  obtain ⟨d, hd⟩ := h
  by_cases hl : l = o.label
  · subst hl
    obtain ⟨op, _, h, _⟩ := wstep_some hd
    exact ⟨_, h⟩
  · rw [(wstep_other w o).2.2.1 l hl]; exact ⟨d, hd⟩

theorem WSim.play {P : Str → Prop} (ops : List WOp) : ∀ {w w' : Wisard}, WSim w w' →
    (∀ l, P l → l ∈ w.discriminators.keys ∨ w'.opts.mapping.find l = w.opts.mapping.find l) →
    (∀ o ∈ ops, P o.label) →
    WSim (wplay w ops).1 (wplay w' ops).1 ∧ (wplay w' ops).2 = (wplay w ops).2 := by
  induction ops with
  | nil => intro w w' h _ _; exact ⟨h, rfl⟩
  | cons o ops ih =>
    intro w w' h hm hp
    obtain ⟨a, b⟩ := h.step o (hm _ (hp o (by simp)))
    obtain ⟨c, e⟩ := ih a (fun l hl => by
      rw [(wstep_other w o).2.1, (wstep_other w' o).2.1]
      exact (hm l hl).imp wstep_keys _root_.id) (fun o ho => hp o (List.mem_cons_of_mem _ ho))
    exact ⟨c, by simp only [wplay, b, e]⟩

theorem WSim.indistinguishable {P : Str → Prop} {w w' : Wisard} (h : WSim w w')
    (hm : ∀ l, P l → l ∈ w.discriminators.keys ∨ w'.opts.mapping.find l = w.opts.mapping.find l) :
    WIndistinguishable P w w' := fun ops hp => ⟨(h.play ops hm hp).2, (h.play ops hm hp).1.observe⟩

/-! ## The history of one class -/

theorem wplay_append (a : List WOp) : ∀ (b : List WOp) (w : Wisard), (wplay w (a ++ b)).1 = (wplay (wplay w a).1 b).1 := by
  induction a with
  | nil => intro b w; rfl
  | cons o a ih => intro b w; exact ih b _

theorem wplay_snoc (w : Wisard) (a : List WOp) (o : WOp) : (wplay w (a ++ [o])).1 = (wstep (wplay w a).1 o).1 := by
  rw [wplay_append]; rfl

theorem learnt_snoc {w0 : Wisard} {ops : List WOp} {o : WOp} {l : Str} :
    LearntLabel w0 (ops ++ [o]) l ↔ LearntLabel w0 ops l ∨
      ∃ env img, o = .train env img l ∧ (wstep (wplay w0 ops).1 o).2 = .ok () := by
  constructor
  · rintro ⟨a, env, img, b, h, hr⟩
    rcases List.eq_nil_or_concat b with rfl | ⟨b', x, rfl⟩
    · obtain ⟨e1, e2⟩ := List.append_inj' h rfl
      cases e1
      cases e2
      exact .inr ⟨env, img, rfl, hr⟩
    · left
      rw [List.concat_eq_append, ← List.cons_append, ← List.append_assoc] at h
      obtain ⟨rfl, _⟩ := List.append_inj' h rfl
      exact ⟨a, env, img, b', rfl, hr⟩
  · rintro (⟨a, env, img, b, rfl, hr⟩ | ⟨env, img, rfl, hr⟩)
    · exact ⟨a, env, img, b ++ [o], by simp, hr⟩
    · exact ⟨ops, env, img, [], rfl, hr⟩

theorem trainsOf_snoc (l : Str) (ops : List WOp) (o : WOp) :
    trainsOf l (ops ++ [o]) = trainsOf l ops + (if o.isTrain = true ∧ o.label = l then 1 else 0) := by
  unfold trainsOf
  rw [List.filter_append, List.length_append]
  congr 1
  simp only [List.filter_cons, List.filter_nil, Bool.and_eq_true, decide_eq_true_eq]
  split <;> simp

/-- What is known of class `l` (or its absence) after the history `ops`. -/
def ClassFact (w0 : Wisard) (ops : List WOp) (l : Str) : Prop :=
  ((wplay w0 ops).1.discriminators.find l = none ∧ ¬ LearntLabel w0 ops l) ∨
  ∃ d0 s, (d0 = Discriminator.default ∨ ∃ rnd n, Wisard.newDiscriminator rnd w0.addressSize w0.opts l n = .ok d0) ∧
    (wplay w0 ops).1.discriminators.find l = some (play d0 s).1 ∧ trains s ≤ trainsOf l ops ∧
    (LearntLabel w0 ops l → LearntSomething d0 s)

theorem LearntSomething.snoc {d : Discriminator} {s : List Op} (h : LearntSomething d s) (o : Op) :
    LearntSomething d (s ++ [o]) := by
  obtain ⟨a, img, b, rfl, h⟩ := h
  exact ⟨a, img, b ++ [o], by simp, h⟩

theorem wplay_const (w0 : Wisard) (h0 : w0.discriminators = []) (ops : List WOp) :
    (wplay w0 ops).1.addressSize = w0.addressSize ∧ (wplay w0 ops).1.opts = w0.opts ∧
      SMap.Sorted (wplay w0 ops).1.discriminators := by
  induction ops using List.reverseRecOn with
  | nil => exact ⟨rfl, rfl, by rw [show (wplay w0 []).1.discriminators = [] from h0]; exact SMap.sorted_nil⟩
  | append_singleton ops o ih =>
    rw [wplay_snoc]
    obtain ⟨a, b, _, c⟩ := wstep_other (wplay w0 ops).1 o
    exact ⟨a.trans ih.1, b.trans ih.2.1, c ih.2.2⟩

theorem wplay_class (w0 : Wisard) (h0 : w0.discriminators = []) (ops : List WOp) (l : Str) : ClassFact w0 ops l := by
  induction ops using List.reverseRecOn with
  | nil =>
    left
    refine ⟨by show SMap.find w0.discriminators l = none; rw [h0]; rfl, ?_⟩
    rintro ⟨a, env, img, b, h, _⟩
    exact absurd h (by simp)
  | append_singleton ops o ih =>
    obtain ⟨hA, ho, _⟩ := wplay_const w0 h0 ops
    unfold ClassFact
    rw [wplay_snoc, learnt_snoc, trainsOf_snoc]
    by_cases hl : l = o.label
    · subst hl
      rcases ih with ⟨hn, hlt⟩ | ⟨d0, s, hd0, hf, ht, hlt⟩
      · rcases wstep_none hn with ⟨h1, h2⟩ | ⟨env, img, he, h⟩
        · left
          refine ⟨h1, ?_⟩
          rintro (h | ⟨env, img, he, h⟩)
          · exact hlt h
          · exact h2 env img he h
        · right
          have hit : o.isTrain = true := by rw [he]; rfl
          rcases h with ⟨h1, h2⟩ | ⟨d0, h1, h2, h3⟩
          · refine ⟨Discriminator.default, [], .inl rfl, h1, Nat.zero_le _, ?_⟩
            rintro (h | ⟨env, img, he, h⟩)
            · exact absurd h hlt
            · exact absurd h h2
          · rw [hA, ho] at h1
            refine ⟨d0, [.train img], .inr ⟨env.rnd, img.size, h1⟩, h2, ?_, ?_⟩
            · rw [if_pos ⟨hit, rfl⟩]
              show 1 ≤ _
              omega
            · rintro (h | ⟨env', img', he', h⟩)
              · exact absurd h hlt
              · refine ⟨[], img, [], rfl, ?_⟩
                rw [h3] at h
                exact h
      · right
        obtain ⟨op, hop, h1, h2⟩ := wstep_some hf
        refine ⟨d0, s ++ [op], hd0, by rw [play_append]; exact h1, ?_, ?_⟩
        · have hs : trains (s ++ [op]) = trains s + (if op.isTrain = true then 1 else 0) := by
            unfold trains
            rw [List.filter_append, List.length_append]
            congr 1
            simp only [List.filter_cons, List.filter_nil]
            split <;> simp
          rw [hs, hop]
          by_cases hb : o.isTrain = true
          · rw [if_pos hb, if_pos ⟨hb, rfl⟩]; omega
          · rw [if_neg hb, if_neg (fun h => hb h.1)]; omega
        · rintro (h | ⟨env, img, he, h⟩)
          · exact LearntSomething.snoc (hlt h) op
          · obtain ⟨rfl, h3⟩ := h2 env img he
            rw [h3] at h
            exact ⟨s, img, [], rfl, h⟩
    · have hs := (wstep_other (wplay w0 ops).1 o).2.2.1 l hl
      have hno : ¬ ∃ env img, o = .train env img l ∧ (wstep (wplay w0 ops).1 o).2 = .ok () := by
        rintro ⟨env, img, rfl, _⟩
        exact hl rfl
      rw [hs, if_neg (by rintro ⟨_, h⟩; exact hl h.symm)]
      rcases ih with ⟨hn, hlt⟩ | ⟨d0, s, hd0, hf, ht, hlt⟩
      · exact .inl ⟨hn, by rintro (h | h); exact hlt h; exact hno h⟩
      · refine .inr ⟨d0, s, hd0, hf, ht, ?_⟩
        rintro (h | h)
        · exact hlt h
        · exact absurd h hno

end Wis
