import Verif.Lemmas.Teach
import Verif.Props.ClusWisard
/-!
# Property C169: training a ClusWisard with its own answer

Without bleaching the answer stays; with bleaching it may change.
-/

namespace Wis
open Spec

/-- A training raises all votes for its own image by one (but those of ignored RAMs). -/
theorem trainRams_raised {x : Image} (rs : List Ram) : ∀ {rs' : List Ram}, Discriminator.trainRams x rs = (rs', .ok ()) →
    ∃ vs vs', Discriminator.votes x rs = .ok vs ∧ Discriminator.votes x rs' = .ok vs' ∧ List.Forall₂ Raised vs vs' := by
  induction rs with
  | nil =>
    intro rs' h
    simp only [Discriminator.trainRams, Prod.mk.injEq, and_true] at h
    subst h
    exact ⟨[], [], rfl, rfl, .nil⟩
  | cons r rs ih =>
    intro rs' h
    simp only [Discriminator.trainRams] at h
    cases hr : r.train x with
    | mk r' res =>
      rw [hr] at h
      cases res with
      | error e => simp at h
      | ok u =>
        simp only [Prod.mk.injEq] at h
        obtain ⟨h1, h2⟩ := h
        obtain ⟨vs, vs', i1, i2, i3⟩ := ih (Prod.ext rfl h2)
        have hv : ∃ v v', r.getVote x = .ok v ∧ r'.getVote x = .ok v' ∧ Raised v v' := by
          unfold Ram.train at hr
          cases hi : r.getIndex x with
          | error e => rw [hi] at hr; simp at hr
          | ok k =>
            rw [hi] at hr
            simp only at hr
            have key : ∀ c', r' = { r with positions := r.positions.set k c' } →
                r'.getVote x = (if r.ignoreZero && decide (k = 0) then .ok 0 else .ok c') := by
              intro c' he
              unfold Ram.getVote
              have hi' : r'.getIndex x = .ok k := by rw [he]; exact hi
              rw [hi', Except.bind_ok, he]
              simp only [RamT.find_set, if_true]
            have old : r.getVote x = (if r.ignoreZero && decide (k = 0) then .ok 0 else .ok ((r.positions.find k).getD 0)) := by
              unfold Ram.getVote
              rw [hi, Except.bind_ok]
              cases r.positions.find k <;> rfl
            cases hf : r.positions.find k with
            | none =>
              rw [hf] at hr
              simp only [Prod.mk.injEq, and_true] at hr
              have := key 1 hr.symm
              rw [this, old, hf]
              split
              · exact ⟨0, 0, rfl, rfl, .inr ⟨rfl, by omega⟩⟩
              · exact ⟨0, 1, rfl, rfl, .inl rfl⟩
            | some c =>
              rw [hf] at hr
              simp only at hr
              cases hc : i32 (c + 1) with
              | error e => rw [hc] at hr; simp at hr
              | ok c' =>
                rw [hc] at hr
                simp only [Prod.mk.injEq, and_true] at hr
                have := key c' hr.symm
                rw [this, old, hf]
                have hcc : c' = c + 1 := by
                  unfold i32 at hc
                  split at hc <;> simp_all
                split
                · exact ⟨0, 0, rfl, rfl, .inr ⟨rfl, by omega⟩⟩
                · exact ⟨c, c', rfl, rfl, .inl hcc⟩
        obtain ⟨v, v', j1, j2, j3⟩ := hv
        refine ⟨v :: vs, v' :: vs', ?_, ?_, .cons j3 i3⟩
        · simp only [Discriminator.votes, j1, i1, Except.bind_ok]
        · rw [← h1]
          simp only [Discriminator.votes, j2, i2, Except.bind_ok]

theorem train_raised {d d' : Discriminator} {x : Image} (h : d.train x = (d', .ok ())) :
    ∃ vs vs', d.classify x = .ok vs ∧ d'.classify x = .ok vs' ∧ List.Forall₂ Raised vs vs' := by
  unfold Discriminator.train at h
  cases hc : d.checkEntrySize x.size with
  | error e => rw [hc] at h; simp at h
  | ok u =>
    rw [hc] at h
    simp only at h
    cases hi : i32 (d.count + 1) with
    | error e => rw [hi] at h; simp at h
    | ok c =>
      rw [hi] at h
      simp only [Prod.mk.injEq] at h
      obtain ⟨rfl, h2⟩ := h
      obtain ⟨vs, vs', a1, a2, a3⟩ := trainRams_raised (x := x) d.rams (Prod.ext rfl h2)
      refine ⟨vs, vs', ?_, ?_, a3⟩
      · unfold Discriminator.classify
        rw [hc, Except.bind_ok]
        exact a1
      · unfold Discriminator.classify
        have : Discriminator.checkEntrySize { d with count := c, rams := (Discriminator.trainRams x d.rams).1 } x.size = .ok u := hc
        rw [this, Except.bind_ok]
        exact a2

theorem classifyLoop_cons {x : Image} {d : Discriminator} {ds : List (Option Discriminator)} {r : List (List Int)}
    (h : Cluster.classifyLoop x (some d :: ds) = .ok r) :
    ∃ v vs, d.classify x = .ok v ∧ Cluster.classifyLoop x ds = .ok vs ∧ r = v :: vs := by
  simp only [Cluster.classifyLoop] at h
  obtain ⟨v, h1, h⟩ := bind_eq_ok h
  obtain ⟨vs, h2, h⟩ := bind_eq_ok h
  simp only [Except.ok.injEq] at h
  exact ⟨v, vs, h1, h2, h.symm⟩

/-- Discriminators that are the same or were trained with `x` keep what they recognize of `x`. -/
theorem loop_raised {x : Image} {ds ds' : List Discriminator}
    (h : List.Forall₂ (fun d d' => d' = d ∨ d.train x = (d', .ok ())) ds ds') :
    ∀ {vs : List (List Int)}, Cluster.classifyLoop x (ds.map some) = .ok vs →
    ∃ vs', Cluster.classifyLoop x (ds'.map some) = .ok vs' ∧ List.Forall₂ (fun v v' => active 1 v ≤ active 1 v') vs vs' := by
  induction h with
  | nil => intro vs hv; simp only [List.map_nil, Cluster.classifyLoop, Except.ok.injEq] at hv ⊢; subst hv; exact ⟨[], rfl, .nil⟩
  | @cons d d' ds ds' h _ ih =>
    intro vs hv
    rw [List.map_cons] at hv
    obtain ⟨v, vs, h1, h2, rfl⟩ := classifyLoop_cons hv
    obtain ⟨vs', i1, i2⟩ := ih h2
    rcases h with rfl | h
    · exact ⟨v :: vs', by simp only [List.map_cons, Cluster.classifyLoop, h1, i1, Except.bind_ok], .cons (Nat.le_refl _) i2⟩
    · obtain ⟨u, u', a1, a2, a3⟩ := train_raised h
      rw [h1] at a1
      cases a1
      exact ⟨u' :: vs', by simp only [List.map_cons, Cluster.classifyLoop, a2, i1, Except.bind_ok],
        .cons (active_raised a3 (by omega)).1 i2⟩

theorem classifyLoop_append {x : Image} {a b : List (Option Discriminator)} {u v : List (List Int)}
    (ha : Cluster.classifyLoop x a = .ok u) (hb : Cluster.classifyLoop x b = .ok v) : Cluster.classifyLoop x (a ++ b) = .ok (u ++ v) := by
  induction a generalizing u with
  | nil => simp only [Cluster.classifyLoop, Except.ok.injEq] at ha; subst ha; exact hb
  | cons o a ih =>
    cases o with
    | none => simp [Cluster.classifyLoop] at ha
    | some d =>
      obtain ⟨w, ws, h1, h2, rfl⟩ := classifyLoop_cons ha
      simp only [List.cons_append, Cluster.classifyLoop, h1, ih h2, Except.bind_ok]

/-- What a class knows of `x` after learning `x`: the discriminators it had know no less. -/
theorem learns_votes {f : Flt} {c : ClusterCfg} {rnd : Rnd} {x : Image} {ds ds' : List Discriminator}
    (h : Learns f c rnd x ds ds') {vs : List (List Int)} (hv : Cluster.classifyLoop x (ds.map some) = .ok vs) :
    ∃ vs', Cluster.classifyLoop x (ds'.map some) = .ok vs' ∧
      ∀ (j : Nat) (v : List Int), vs[j]? = some v → ∃ v', vs'[j]? = some v' ∧ active 1 v ≤ active 1 v' := by
  have use : ∀ {us us' : List (List Int)}, List.Forall₂ (fun v v' => active 1 v ≤ active 1 v') us us' →
      ∀ (j : Nat) (v : List Int), us[j]? = some v → ∃ v', us'[j]? = some v' ∧ active 1 v ≤ active 1 v' := by
    intro us us' hf
    induction hf with
    | nil => intro j v h; simp at h
    | @cons a b _ _ hab _ ih =>
      intro j v h
      cases j with
      | zero => simp only [List.getElem?_cons_zero, Option.some.injEq] at h; subst h; exact ⟨b, rfl, hab⟩
      | succ j => exact ih j v h
  cases h with
  | fitting _ ex =>
    obtain ⟨vs', a1, a2⟩ := loop_raised (x := x) (ex.imp (fun _ _ q => by
      rcases q with ⟨_, q⟩ | ⟨_, q⟩
      · exact .inr q
      · exact .inl q)) hv
    exact ⟨vs', a1, use a2⟩
  | fresh _ _ _ tr =>
    obtain ⟨_, u, _, a2, _⟩ := train_raised tr
    refine ⟨vs ++ [u], ?_, ?_⟩
    · rw [List.map_append]
      exact classifyLoop_append hv (by simp only [List.map_cons, List.map_nil, Cluster.classifyLoop, a2, Except.bind_ok])
    · intro j v hj
      refine ⟨v, ?_, Nat.le_refl _⟩
      rw [List.getElem?_append_left (List.getElem?_eq_some_iff.mp hj).1]
      exact hj
  | @best pre post d d1 _ _ sp _ tr =>
    subst sp
    have self : ∀ l : List Discriminator, List.Forall₂ (fun d d' => d' = d ∨ d.train x = (d', .ok ())) l l := by
      intro l; rw [List.forall₂_same]; exact fun _ _ => .inl rfl
    obtain ⟨vs', a1, a2⟩ := loop_raised (x := x) (ds := pre ++ d :: post) (ds' := pre ++ d1 :: post)
      (List.rel_append (self pre) (.cons (.inr tr) (self post))) hv
    exact ⟨vs', a1, use a2⟩

theorem votesOf_discs {w : ClusWisard} (hs : SMap.Sorted w.clusters) (x : Image) (k : Str) (v : List Int) :
    VotesOf x w.clusters k v ↔ ∃ l j vs, Cluster.classifyLoop x (discs w l) = .ok vs ∧ k = dname l j ∧ vs[j]? = some v := by
  constructor
  · rintro ⟨l, c, j, vs, h1, h2, h3, h4⟩
    refine ⟨l, j, vs, ?_, h3, h4⟩
    unfold discs
    rw [SMap.find_of_mem hs h1]
    exact h2
  · rintro ⟨l, j, vs, h2, h3, h4⟩
    unfold discs at h2
    cases hf : w.clusters.find l with
    | none => rw [hf] at h2; simp only [Cluster.classifyLoop, Except.ok.injEq] at h2; subst h2; simp at h4
    | some c => rw [hf] at h2; exact ⟨l, c, j, vs, SMap.mem_of_find hf, h2, h3, h4⟩

theorem allvotes_some {img : List Int} (cs : SMap Cluster) (h : ∀ e ∈ cs, ∃ vs, e.2.classify (.vec img) = .ok vs) :
    ∀ m, ∃ m', ClusWisard.allvotes img cs m = .ok m' := by
  induction cs with
  | nil => intro m; exact ⟨m, rfl⟩
  | cons e cs ih =>
    intro m
    obtain ⟨l, c⟩ := e
    obtain ⟨vs, hv⟩ := h (l, c) (by simp)
    simp only at hv
    obtain ⟨m', hm⟩ := ih (fun e he => h e (by simp [he])) (ClusWisard.addVotes l vs 0 m)
    exact ⟨m', by simp only [ClusWisard.allvotes, hv, Except.bind_ok, hm]⟩

/-- C169, the part that holds: without bleaching, if a ClusWisard (after any calls) answers `l` for the image `x` and is
trained with `x` and `l`, it still answers `l`. Missing: bleaching, see `C169_refuted`. -/
theorem C169_reinforcement_partial (f : Flt) {A : Int} {ms : Rat} {t dl : Int} {o : ClusOpts} {w0 : ClusWisard}
    (h0 : ClusWisard.create A ms t dl o = .ok w0) (hb : o.bleachingActivated = false) (ops : List COp) {w' : ClusWisard}
    {env : Nat → Env} {x : List Int} {l : Str} (hans : (cplay f w0 ops).1.classify [x] = .ok [l])
    (htrain : (cplay f w0 ops).1.train f env [x] [l] = (w', .ok ())) : w'.classify [x] = .ok [l] := by
  have hi := WInv.play (f := f) h0 ops
  have hi' : WInv f w0 (labelsOf (ops ++ [COp.train env [x] [l]])) w' := by
    have := WInv.play (f := f) h0 (ops ++ [COp.train env [x] [l]])
    rw [cplay_append] at this
    simp only [cplay, cstep] at this
    rw [htrain] at this
    exact this
  obtain ⟨ds, ds', d1, d2, d3, d4, _⟩ := learns_class f h0 ops htrain
  generalize (cplay f w0 ops).1 = w at hi hans htrain d1 d4
  have ho : w.opts.bleachingActivated = false := by
    rw [hi.const]
    obtain ⟨rfl, _⟩ := create_shape h0
    exact hb
  have ho' : w'.opts.bleachingActivated = false := by
    rw [hi'.const]
    obtain ⟨rfl, _⟩ := create_shape h0
    exact hb
  obtain ⟨s, ls', e1, e2, e3⟩ := classify_cons hans
  simp only [List.cons.injEq] at e3
  obtain ⟨el, _⟩ := e3
  unfold ClusWisard.classify1 at e1
  obtain ⟨T, hT, e1⟩ := bind_eq_ok e1
  rw [ho, C38_without_bleaching] at e1
  cases e1
  obtain ⟨t1, t2, t3⟩ := allvotes_spec w.clusters SMap.sorted_nil (SMap.nodup_keys hi.sorted) hT
  have cls : ∀ q, ∃ vs, Cluster.classifyLoop (.vec x) (discs w q) = .ok vs := by
    intro q
    unfold discs
    cases hf : w.clusters.find q with
    | none => exact ⟨[], rfl⟩
    | some c => exact t2 _ (SMap.mem_of_find hf)
  obtain ⟨vs, hvs⟩ := cls l
  rw [d1] at hvs
  obtain ⟨vs', hvs', hmono⟩ := learns_votes d3 hvs
  have cls' : ∀ e ∈ w'.clusters, ∃ vs, e.2.classify (.vec x) = .ok vs := by
    intro e he
    have hf := SMap.find_of_mem hi'.sorted (show (e.1, e.2) ∈ w'.clusters from he)
    have hd : discs w' e.1 = e.2.discriminators := by unfold discs; rw [hf]
    unfold Cluster.classify
    rw [← hd]
    by_cases hq : e.1 = l
    · rw [hq, d2]; exact ⟨vs', hvs'⟩
    · rw [d4 _ hq]; exact cls _
  obtain ⟨T', hT'⟩ := allvotes_some w'.clusters cls' []
  obtain ⟨u1, u2, u3⟩ := allvotes_spec w'.clusters SMap.sorted_nil (SMap.nodup_keys hi'.sorted) hT'
  have get : ∀ k v, T.find k = some v ↔ VotesOf (.vec x) w.clusters k v := by
    intro k v
    rw [t3]
    constructor
    · rintro (h | ⟨_, h⟩)
      · exact h
      · cases h
    · exact .inl
  have get' : ∀ k v, T'.find k = some v ↔ VotesOf (.vec x) w'.clusters k v := by
    intro k v
    rw [u3]
    constructor
    · rintro (h | ⟨_, h⟩)
      · exact h
      · cases h
    · exact .inl
  have hc1 : w'.classify [x] = .ok [beforeSep (Bleaching.getBiggestCandidate (activeAll 1 T'))] := by
    simp only [ClusWisard.classify, ClusWisard.classify1, hT', Except.bind_ok, ho', C38_without_bleaching]
  rw [hc1]
  congr 2
  -- the new winner
  have hne' : T' ≠ [] := by
    obtain ⟨d, hd, _⟩ := d3.knows
    have hlen := classifyLoop_length _ hvs'
    rw [List.length_map] at hlen
    have hpos := List.length_pos_of_mem hd
    have hv0 : vs'[0]? = some (vs'[0]'(by omega)) := List.getElem?_eq_getElem (by omega)
    have := (get' _ _).mpr ((votesOf_discs hi'.sorted _ _ _).mpr ⟨l, 0, vs', by rw [d2]; exact hvs', rfl, hv0⟩)
    rintro rfl
    cases this
  have W' := winner_on u1 hne' 1
  have safe : SafeLabel l := by
    by_cases hne : T = []
    · subst hne
      have : l = [] := el
      rw [this]
      refine ⟨?_, ?_⟩
      · rintro ⟨a, b, h⟩; simp at h
      · rintro ⟨a, h⟩; simp at h
    · have W := winner_on t1 hne 1
      obtain ⟨v, hv⟩ := SMap.mem_keys_iff.mp W.1
      obtain ⟨q, j, _, _, hk, _⟩ := (votesOf_discs hi.sorted _ _ _).mp ((get _ _).mp hv)
      rw [el, hk]
      exact beforeSep_isSafe q _
  obtain ⟨v', hv'⟩ := SMap.mem_keys_iff.mp W'.1
  obtain ⟨q, j, us, hus, hk, hj⟩ := (votesOf_discs hi'.sorted _ _ _).mp ((get' _ _).mp hv')
  by_cases hq : q = l
  · rw [hk, hq]
    exact beforeSep_safe safe _
  · -- another class: it was the winner before
    rw [d4 _ hq] at hus
    have hold : T.find (Bleaching.getBiggestCandidate (activeAll 1 T')) = some v' :=
      (get _ _).mpr ((votesOf_discs hi.sorted _ _ _).mpr ⟨q, j, us, hus, hk, hj⟩)
    have hne : T ≠ [] := by rintro rfl; cases hold
    have W := winner_on t1 hne 1
    generalize hK : Bleaching.getBiggestCandidate (activeAll 1 T) = K at *
    generalize hK' : Bleaching.getBiggestCandidate (activeAll 1 T') = K' at *
    obtain ⟨v, hv⟩ := SMap.mem_keys_iff.mp W.1
    have sK : scoreAt T 1 K = active 1 v := by unfold scoreAt; rw [hv]; rfl
    have sK' : scoreAt T 1 K' = active 1 v' := by unfold scoreAt; rw [hold]; rfl
    have sK'' : scoreAt T' 1 K' = active 1 v' := by unfold scoreAt; rw [hv']; rfl
    -- the old winner has no less
    obtain ⟨q0, j0, us0, hus0, hk0, hj0⟩ := (votesOf_discs hi.sorted _ _ _).mp ((get _ _).mp hv)
    have up : ∃ v2, T'.find K = some v2 ∧ active 1 v ≤ active 1 v2 := by
      by_cases hq0 : q0 = l
      · rw [hq0, d1, hvs] at hus0
        cases hus0
        obtain ⟨v2, m1, m2⟩ := hmono j0 v hj0
        exact ⟨v2, (get' _ _).mpr ((votesOf_discs hi'.sorted _ _ _).mpr ⟨l, j0, vs', by rw [d2]; exact hvs', by rw [hk0, hq0], m1⟩), m2⟩
      · exact ⟨v, (get' _ _).mpr ((votesOf_discs hi'.sorted _ _ _).mpr ⟨q0, j0, us0, by rw [d4 _ hq0]; exact hus0, hk0, hj0⟩), Nat.le_refl _⟩
    obtain ⟨v2, hv2, hle⟩ := up
    have sK2 : scoreAt T' 1 K = active 1 v2 := by unfold scoreAt; rw [hv2]; rfl
    have a1 := W.2.1 K' (SMap.mem_keys_iff.mpr ⟨v', hold⟩)
    have a2 := W'.2.1 K (SMap.mem_keys_iff.mpr ⟨v2, hv2⟩)
    have hKK : K' = K := by
      rcases W.2.2 K' (SMap.mem_keys_iff.mpr ⟨v', hold⟩) (by omega) with h | h
      · exact h
      · rcases W'.2.2 K (SMap.mem_keys_iff.mpr ⟨v2, hv2⟩) (by omega) with h' | h'
        · exact h'.symm
        · exact absurd (strLt_tr _ _ _ h h') (strLt_irr _)
    rw [hKK]
    exact el.symm

/-! ## The hypotheses are met -/

/-- `cw0` without bleaching answers "a" and is trained with it. -/
example : ∃ w0 w', ClusWisard.create 2 (1/4) 4 10 { bleachingActivated := false } = .ok w0 ∧
    (cplay Flt.exact w0 [.train (fun _ => env0) [[1, 1, 1, 1], [0, 0, 1, 0]] [b!"a", b!"b"]]).1.classify [[1, 1, 1, 0]] = .ok [b!"b"] ∧
    (cplay Flt.exact w0 [.train (fun _ => env0) [[1, 1, 1, 1], [0, 0, 1, 0]] [b!"a", b!"b"]]).1.train Flt.exact (fun _ => env0)
      [[1, 1, 1, 0]] [b!"b"] = (w', .ok ()) ∧ w'.classify [[1, 1, 1, 0]] = .ok [b!"b"] := by
  refine ⟨⟨2, 1/4, 4, 10, { bleachingActivated := false }, [], Cluster.default⟩, _, by decide +kernel, by decide +kernel,
    Prod.ext rfl (by decide +kernel), ?_⟩
  exact C169_reinforcement_partial Flt.exact (A := 2) (ms := 1/4) (t := 4) (dl := 10) (o := { bleachingActivated := false }) (by decide +kernel) rfl
    [.train (fun _ => env0) [[1, 1, 1, 1], [0, 0, 1, 0]] [b!"a", b!"b"]] (env := fun _ => env0) (by decide +kernel) (Prod.ext rfl (by decide +kernel))

/-! ## C169 with bleaching -/

/-- The model: minScore 1/4, threshold 4, up to ten discriminators per class. -/
def reW0 : ClusWisard := ⟨2, 1/4, 4, 10, {}, [], Cluster.default⟩

/-- Trained with five images. -/
def reW : ClusWisard :=
  (cplay Flt.exact reW0 [.train (fun _ => env0) [[1, 1, 1, 1], [1, 1, 0, 0], [1, 1, 0, 0]] [b!"a", b!"a", b!"a"],
    .train (fun _ => env0) [[1, 1, 1, 0], [1, 1, 1, 0]] [b!"b", b!"b"]]).1

theorem make_once {V : Votes} {c : Int} {sbc : Bool} (h : Bleaching.again (Bleaching.scores V 1) c = false) :
    Bleaching.make V true sbc c = .ok (Bleaching.scores V 1) := by
  apply Bleaching.make_of_loop (b := 1)
  rw [Bleaching.loop]
  simp [h, i32, InI32]

theorem make_twice {V : Votes} {c : Int} {sbc : Bool} (h1 : Bleaching.again (Bleaching.scores V 1) c = true)
    (h2 : Bleaching.again (Bleaching.scores V 2) c = false) : Bleaching.make V true sbc c = .ok (Bleaching.scores V 2) := by
  apply Bleaching.make_of_loop (b := 2)
  rw [Bleaching.loop]
  simp [h1, i32, InI32]
  rw [Bleaching.loop]
  simp [h2, i32, InI32]

/-- C169 is false with bleaching: this model answers "a" for the image `[1, 1, 1, 1]`; after training it once with this image
and label it answers "b". (The image gets a new discriminator, which ties with the old one; bleaching then raises the
threshold and both lose.) -/
theorem C169_refuted : ClusWisard.create 2 (1/4) 4 10 {} = .ok reW0 ∧ reW.classify [[1, 1, 1, 1]] = .ok [b!"a"] ∧
    (reW.train Flt.exact (fun _ => env0) [[1, 1, 1, 1]] [b!"a"]).2 = .ok () ∧
    (reW.train Flt.exact (fun _ => env0) [[1, 1, 1, 1]] [b!"a"]).1.classify [[1, 1, 1, 1]] = .ok [b!"b"] := by
  refine ⟨by decide +kernel, ?_, by decide +kernel, ?_⟩
  · have hv : ClusWisard.allvotes [1, 1, 1, 1] reW.clusters [] = .ok [(b!"a::0", [3, 1]), (b!"b::0", [2, 0])] := by decide +kernel
    have ho : reW.opts = {} := by decide +kernel
    have hm := make_once (V := [(b!"a::0", [3, 1]), (b!"b::0", [2, 0])]) (c := 1) (sbc := false) (by decide +kernel)
    simp only [ClusWisard.classify, ClusWisard.classify1, hv, Except.bind_ok, ho, hm]
    decide +kernel
  · have hv : ClusWisard.allvotes [1, 1, 1, 1] (reW.train Flt.exact (fun _ => env0) [[1, 1, 1, 1]] [b!"a"]).1.clusters [] =
        .ok [(b!"a::0", [3, 1]), (b!"a::1", [1, 1]), (b!"b::0", [2, 0])] := by decide +kernel
    have ho : (reW.train Flt.exact (fun _ => env0) [[1, 1, 1, 1]] [b!"a"]).1.opts = {} := by decide +kernel
    have hm := make_twice (V := [(b!"a::0", [3, 1]), (b!"a::1", [1, 1]), (b!"b::0", [2, 0])]) (c := 1) (sbc := false)
      (by decide +kernel) (by decide +kernel)
    simp only [ClusWisard.classify, ClusWisard.classify1, hv, Except.bind_ok, ho, hm]
    decide +kernel

end Wis
