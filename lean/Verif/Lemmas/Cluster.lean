import Verif.Spec.Cluster
import Verif.Lemmas.WisardState
import Verif.Lemmas.Json
import Mathlib.Algebra.Order.Field.Rat
import Mathlib.Algebra.Order.Field.Basic
/-! Helper lemmas: clusters. -/

namespace Wis
open Spec

theorem scoreLoop_eq (f : Flt) (vs : List Int) : ∀ (m : Int) (s : Rat),
    Cluster.scoreLoop f vs m s = (vs.foldl max m, vs.foldl (fun (s : Rat) (v : Int) => f.rnd (s + f.rnd v)) s) := by
  induction vs with
  | nil => intro m s; rfl
  | cons v vs ih =>
    intro m s
    simp only [Cluster.scoreLoop, List.foldl_cons, ih]
    congr 2
    split <;> omega

theorem getScore_eq (f : Flt) (vs : List Int) : Cluster.getScore f vs = score f vs := by
  unfold Cluster.getScore score fsum topVote
  rw [scoreLoop_eq]

theorem limit_eq (f : Flt) (c : ClusterCfg) (n : Int) : Cluster.limit f c n = required f c n := by
  unfold Cluster.limit required
  simp only
  split
  · rename_i h; rw [min_eq_left (le_of_lt h)]
  · rename_i h; rw [min_eq_right (not_lt.mp h)]

theorem Flt.nonneg (f : Flt) {x : Rat} (h : 0 ≤ x) : 0 ≤ f.rnd x := by
  have := f.mono h
  rwa [f.zero] at this

theorem foldl_max_le (vs : List Int) : ∀ m : Int, m ≤ vs.foldl max m := by
  induction vs with
  | nil => intro m; simp
  | cons v vs ih => intro m; simp only [List.foldl_cons]; exact le_trans (le_max_left _ _) (ih _)

theorem topVote_nonneg (vs : List Int) : 0 ≤ topVote vs := foldl_max_le vs 0

theorem fsum_nonneg (f : Flt) (vs : List Int) (h : ∀ v ∈ vs, 0 ≤ v) : 0 ≤ fsum f vs := by
  unfold fsum
  have : ∀ s : Rat, 0 ≤ s → 0 ≤ vs.foldl (fun (s : Rat) (v : Int) => f.rnd (s + f.rnd v)) s := by
    induction vs with
    | nil => intro s hs; exact hs
    | cons v vs ih =>
      intro s hs
      simp only [List.foldl_cons]
      refine ih (fun v hv => h v (List.mem_cons_of_mem _ hv)) _ (f.nonneg ?_)
      have h1 : (0 : Rat) ≤ v := by exact_mod_cast h v (by simp)
      exact add_nonneg hs (f.nonneg h1)
  exact this 0 le_rfl

theorem score_nonneg (f : Flt) (vs : List Int) (h : ∀ v ∈ vs, 0 ≤ v) : 0 ≤ score f vs := by
  unfold score
  split
  · exact le_rfl
  · refine f.nonneg (div_nonneg (fsum_nonneg f vs h) (f.nonneg ?_))
    have h1 : (0 : Rat) ≤ topVote vs := by exact_mod_cast topVote_nonneg vs
    have h2 : (0 : Rat) ≤ (vs.length : Int) := by exact_mod_cast Nat.zero_le _
    exact_mod_cast mul_nonneg h1 h2

theorem HasScore.unique {f : Flt} {img : Image} {d : Discriminator} {s s' : Rat} (h : HasScore f img d s)
    (h' : HasScore f img d s') : s = s' := by
  obtain ⟨v, h1, h2⟩ := h
  obtain ⟨v', h3, h4⟩ := h'
  rw [h1] at h3
  cases h3
  rw [← h2, ← h4]

/-- The effect of the scan. -/
def Scanned (f : Flt) (c : ClusterCfg) (img : Image) (d d' : Discriminator) : Prop :=
  (Reaches f c img d ∧ d.train img = (d', .ok ())) ∨ (¬ Reaches f c img d ∧ d' = d)

theorem scan_ok {f : Flt} {c : ClusterCfg} {img : Image} (ds : List (Option Discriminator)) :
    ∀ {i : Nat} {bv : Rat} {bi : Option Nat} {tr : Bool} {ds' : List (Option Discriminator)} {b : Option Nat} {t : Bool},
    Cluster.scan f c img ds i bv bi tr = (ds', .ok (b, t)) →
    ∃ xs ys : List Discriminator, ds = xs.map some ∧ ds' = ys.map some ∧ List.Forall₂ (Scanned f c img) xs ys ∧
      (t = true ↔ tr = true ∨ ∃ d ∈ xs, Reaches f c img d) ∧
      ((b = bi ∧ ∀ d ∈ xs, ∃ s, HasScore f img d s ∧ s < bv) ∨
        ∃ pre d post s, xs = pre ++ d :: post ∧ b = some (i + pre.length) ∧ HasScore f img d s ∧ bv ≤ s ∧
          (∀ e ∈ pre, ∃ s', HasScore f img e s' ∧ s' ≤ s) ∧ ∀ e ∈ post, ∃ s', HasScore f img e s' ∧ s' < s) := by
  induction ds with
  | nil =>
    intro i bv bi tr ds' b t h
    simp only [Cluster.scan, Prod.mk.injEq, Except.ok.injEq] at h
    obtain ⟨rfl, rfl, rfl⟩ := h
    exact ⟨[], [], rfl, rfl, .nil, by simp, .inl ⟨rfl, by simp⟩⟩
  | cons od ds ih =>
    intro i bv bi tr ds' b t h
    cases od with
    | none => simp [Cluster.scan] at h
    | some d =>
      simp only [Cluster.scan] at h
      cases hc : d.classify img with
      | error e => rw [hc] at h; simp at h
      | ok votes =>
        rw [hc] at h
        simp only [getScore_eq, limit_eq] at h
        have hs : HasScore f img d (score f votes) := ⟨votes, hc, rfl⟩
        have hR : Reaches f c img d ↔ required f c d.getNumberOfTrainings ≤ score f votes := by
          constructor
          · rintro ⟨s, h1, h2⟩; rw [← HasScore.unique h1 hs]; exact h2
          · intro h1; exact ⟨_, hs, h1⟩
        -- the best so far
        have best : ∀ {xs : List Discriminator},
            ((b = (if score f votes ≥ bv then some i else bi) ∧ ∀ d ∈ xs, ∃ s, HasScore f img d s ∧ s < (if score f votes ≥ bv then score f votes else bv)) ∨
              ∃ pre d post s, xs = pre ++ d :: post ∧ b = some (i + 1 + pre.length) ∧ HasScore f img d s ∧ (if score f votes ≥ bv then score f votes else bv) ≤ s ∧
                (∀ e ∈ pre, ∃ s', HasScore f img e s' ∧ s' ≤ s) ∧ ∀ e ∈ post, ∃ s', HasScore f img e s' ∧ s' < s) →
            ((b = bi ∧ ∀ e ∈ d :: xs, ∃ s, HasScore f img e s ∧ s < bv) ∨
              ∃ pre e post s, d :: xs = pre ++ e :: post ∧ b = some (i + pre.length) ∧ HasScore f img e s ∧ bv ≤ s ∧
                (∀ e ∈ pre, ∃ s', HasScore f img e s' ∧ s' ≤ s) ∧ ∀ e ∈ post, ∃ s', HasScore f img e s' ∧ s' < s) := by
          intro xs hb
          by_cases hge : score f votes ≥ bv
          · right
            simp only [hge, if_true] at hb
            rcases hb with ⟨h1, h2⟩ | ⟨pre, e, post, s, h1, h2, h3, h4, h5, h6⟩
            · exact ⟨[], d, xs, _, rfl, by simpa using h1, hs, hge, by simp, h2⟩
            · refine ⟨d :: pre, e, post, s, by rw [h1]; rfl, by rw [h2]; simp only [List.length_cons]; congr 1; omega, h3, le_trans hge h4, ?_, h6⟩
              intro e' he'
              rcases List.mem_cons.mp he' with rfl | he'
              · exact ⟨_, hs, h4⟩
              · exact h5 e' he'
          · simp only [hge, if_false] at hb
            rcases hb with ⟨h1, h2⟩ | ⟨pre, e, post, s, h1, h2, h3, h4, h5, h6⟩
            · left
              refine ⟨h1, ?_⟩
              intro e' he'
              rcases List.mem_cons.mp he' with rfl | he'
              · exact ⟨_, hs, not_le.mp hge⟩
              · exact h2 e' he'
            · right
              refine ⟨d :: pre, e, post, s, by rw [h1]; rfl, by rw [h2]; simp only [List.length_cons]; congr 1; omega, h3, h4, ?_, h6⟩
              intro e' he'
              rcases List.mem_cons.mp he' with rfl | he'
              · exact ⟨_, hs, le_of_lt (lt_of_lt_of_le (not_le.mp hge) h4)⟩
              · exact h5 e' he'
        split at h
        · rename_i hreq
          split at h
          · rename_i d' htr
            generalize hsc : Cluster.scan f c img ds (i + 1) (if score f votes ≥ bv then score f votes else bv)
              (if score f votes ≥ bv then some i else bi) true = res at h
            obtain ⟨ds1, r⟩ := res
            simp only [Prod.mk.injEq] at h
            obtain ⟨rfl, rfl⟩ := h
            obtain ⟨xs, ys, rfl, rfl, h3, h4, h5⟩ := ih hsc
            refine ⟨d :: xs, d' :: ys, rfl, rfl, .cons (.inl ⟨hR.mpr hreq, htr⟩) h3, ?_, best h5⟩
            rw [h4]
            simp only [true_or, true_iff]
            exact .inr ⟨d, by simp, hR.mpr hreq⟩
          · simp at h
        · rename_i hreq
          generalize hsc : Cluster.scan f c img ds (i + 1) (if score f votes ≥ bv then score f votes else bv)
            (if score f votes ≥ bv then some i else bi) tr = res at h
          obtain ⟨ds1, r⟩ := res
          simp only [Prod.mk.injEq] at h
          obtain ⟨rfl, rfl⟩ := h
          obtain ⟨xs, ys, rfl, rfl, h3, h4, h5⟩ := ih hsc
          refine ⟨d :: xs, d :: ys, rfl, rfl, .cons (.inr ⟨fun h => hreq (hR.mp h), rfl⟩) h3, ?_, best h5⟩
          rw [h4]
          constructor
          · rintro (h | ⟨e, he, h⟩)
            · exact .inl h
            · exact .inr ⟨e, List.mem_cons_of_mem _ he, h⟩
          · rintro (h | ⟨e, he, h⟩)
            · exact .inl h
            · rcases List.mem_cons.mp he with rfl | he
              · exact absurd (hR.mp h) hreq
              · exact .inr ⟨e, he, h⟩


/-- A failed scan keeps the number of discriminators; each is as before or (partly) trained. -/
def Kept (img : Image) (o o' : Option Discriminator) : Prop :=
  (o = none ∧ o' = none) ∨ ∃ d d', o = some d ∧ o' = some d' ∧ (d' = d ∨ d' = (d.train img).1)

theorem Kept.refl (img : Image) (o : Option Discriminator) : Kept img o o := by
  cases o with
  | none => exact .inl ⟨rfl, rfl⟩
  | some d => exact .inr ⟨d, d, rfl, rfl, .inl rfl⟩

theorem kept_refl (img : Image) (ds : List (Option Discriminator)) : List.Forall₂ (Kept img) ds ds := by
  induction ds with
  | nil => exact .nil
  | cons o ds ih => exact .cons (Kept.refl img o) ih

theorem scan_kept {f : Flt} {c : ClusterCfg} {img : Image} (ds : List (Option Discriminator)) :
    ∀ (i : Nat) (bv : Rat) (bi : Option Nat) (tr : Bool),
    List.Forall₂ (Kept img) ds (Cluster.scan f c img ds i bv bi tr).1 := by
  induction ds with
  | nil => intro i bv bi tr; exact .nil
  | cons od ds ih =>
    intro i bv bi tr
    cases od with
    | none => exact kept_refl _ _
    | some d =>
      simp only [Cluster.scan]
      cases hc : d.classify img with
      | error e => exact kept_refl _ _
      | ok votes =>
        simp only
        split
        · split
          · rename_i d' htr
            exact .cons (.inr ⟨d, d', rfl, rfl, .inr (by rw [htr])⟩) (ih _ _ _ _)
          · rename_i d' e htr
            exact .cons (.inr ⟨d, d', rfl, rfl, .inr (by rw [htr])⟩) (kept_refl _ _)
        · exact .cons (Kept.refl _ _) (ih _ _ _ _)

theorem newDiscriminator_isNew {c : ClusterCfg} {rnd : Rnd} {d : Discriminator} :
    Cluster.newDiscriminator rnd c = .ok d ↔ IsNew c rnd d := Iff.rfl

theorem IsNew.fresh {c : ClusterCfg} {rnd : Rnd} {d : Discriminator} (h : IsNew c rnd d) :
    Fresh d c.entrySize c.base c.ignoreZero := create_fresh h

theorem trainNew_ok {cl : Cluster} {env : Env} {img : Image} {cl' : Cluster} (h : cl.trainNew env img = (cl', .ok ())) :
    ∃ c d0 d1, cl.cfg = some c ∧ IsNew c env.rnd d0 ∧ d0.train img = (d1, .ok ()) ∧
      cl' = ⟨some c, cl.discriminators ++ [some d1]⟩ := by
  unfold Cluster.trainNew at h
  cases hc : cl.cfg with
  | none => rw [hc] at h; simp at h
  | some c =>
    rw [hc] at h
    simp only at h
    cases hn : Cluster.newDiscriminator env.rnd c with
    | error e =>
      rw [hn] at h
      simp only at h
      split at h <;> simp at h
    | ok d0 =>
      rw [hn] at h
      simp only [Prod.mk.injEq] at h
      obtain ⟨rfl, h⟩ := h
      exact ⟨c, d0, (d0.train img).1, rfl, newDiscriminator_isNew.mp hn, by rw [← h], rfl⟩

/-- Invariant of reached clusters. -/
structure CInv (c : ClusterCfg) (cl : Cluster) : Prop where
  cfg : cl.cfg = some c
  len : 1 ≤ c.discriminatorsLimit → (cl.discriminators.length : Int) ≤ c.discriminatorsLimit
  disc : ∀ d, some d ∈ cl.discriminators → Pos1 d.rams ∧ d.entrySize = c.entrySize ∧ 2 ≤ c.base ∧
    ∀ r ∈ d.rams, r.ignoreZero = c.ignoreZero ∧ r.base = c.base

theorem disc_train {c : ClusterCfg} {d : Discriminator} (img : Image)
    (h : Pos1 d.rams ∧ d.entrySize = c.entrySize ∧ 2 ≤ c.base ∧ ∀ r ∈ d.rams, r.ignoreZero = c.ignoreZero ∧ r.base = c.base) :
    Pos1 (d.train img).1.rams ∧ (d.train img).1.entrySize = c.entrySize ∧ 2 ≤ c.base ∧
      ∀ r ∈ (d.train img).1.rams, r.ignoreZero = c.ignoreZero ∧ r.base = c.base := by
  obtain ⟨h1, h2, h3, h4⟩ := h
  have hle := train_le d img
  refine ⟨train_pos1 d img h1, by rw [hle.1, h2], h3, ?_⟩
  intro r hr
  obtain ⟨r0, hr0, hl⟩ := forall₂_mem_right hle.2 hr
  rw [hl.iz, hl.base]
  exact h4 r0 hr0

theorem disc_new {c : ClusterCfg} {rnd : Rnd} {d : Discriminator} (h : IsNew c rnd d) :
    Pos1 d.rams ∧ d.entrySize = c.entrySize ∧ 2 ≤ c.base ∧ ∀ r ∈ d.rams, r.ignoreZero = c.ignoreZero ∧ r.base = c.base := by
  have hf := IsNew.fresh h
  refine ⟨?_, hf.entry, hf.base2, fun r hr => ⟨(hf.rams r hr).2.2.1, (hf.rams r hr).2.1⟩⟩
  intro r hr k x hx
  rw [(hf.rams r hr).1] at hx
  simp [RamT.find] at hx

theorem CInv.kept {c : ClusterCfg} {cl : Cluster} (h : CInv c cl) {img : Image} {ds' : List (Option Discriminator)}
    (hk : List.Forall₂ (Kept img) cl.discriminators ds') : CInv c { cl with discriminators := ds' } := by
  refine ⟨h.cfg, ?_, ?_⟩
  · intro hl
    have := h.len hl
    simp only
    rw [← hk.length_eq]
    exact this
  · intro d hd
    obtain ⟨o, ho, hh⟩ := forall₂_mem_right hk hd
    rcases hh with ⟨_, h2⟩ | ⟨d0, d1, h1, h2, h3⟩
    · cases h2
    · cases h2
      subst h1
      rcases h3 with rfl | rfl
      · exact h.disc d ho
      · exact disc_train img (h.disc d0 ho)

theorem CInv.trainNew {c : ClusterCfg} {cl : Cluster} (h : CInv c cl) (env : Env) (img : Image)
    (hroom : 1 ≤ c.discriminatorsLimit → (cl.discriminators.length : Int) < c.discriminatorsLimit) : CInv c (cl.trainNew env img).1 := by
  unfold Cluster.trainNew
  rw [h.cfg]
  simp only
  cases hn : Cluster.newDiscriminator env.rnd c with
  | ok d0 =>
    simp only
    refine ⟨rfl, ?_, ?_⟩
    · intro hl
      have := hroom hl
      simp only [List.length_append, List.length_cons, List.length_nil]
      omega
    · intro d hd
      rcases List.mem_append.mp hd with hd | hd
      · exact h.disc d hd
      · simp only [List.mem_cons, Option.some.injEq, List.not_mem_nil, or_false] at hd
        subst hd
        exact disc_train img (disc_new (newDiscriminator_isNew.mp hn))
  | error e =>
    simp only
    split
    · refine ⟨rfl, ?_, ?_⟩
      · intro hl
        have := hroom hl
        simp only [List.length_append, List.length_cons, List.length_nil]
        omega
      · intro d hd
        rcases List.mem_append.mp hd with hd | hd
        · exact h.disc d hd
        · simp at hd
    · exact h

theorem trainAt_kept (ds : List (Option Discriminator)) (i : Nat) (img : Image) :
    List.Forall₂ (Kept img) ds (Cluster.trainAt ds i img).1 := by
  unfold Cluster.trainAt
  split
  · rename_i d hd
    obtain ⟨hi, hd⟩ := List.getElem?_eq_some_iff.mp hd
    rw [List.forall₂_iff_get]
    refine ⟨by simp, ?_⟩
    intro j h1 h2
    simp only [List.get_eq_getElem, List.getElem_set]
    split
    · rename_i hij
      subst hij
      rw [hd]
      exact .inr ⟨d, _, rfl, rfl, .inr rfl⟩
    · exact Kept.refl _ _
  · exact kept_refl _ _

theorem CInv.train {f : Flt} {c : ClusterCfg} {cl : Cluster} (h : CInv c cl) (env : Env) (img : Image) :
    CInv c (cl.train f env img).1 := by
  obtain ⟨cf, ds0⟩ := cl
  obtain rfl : cf = some c := h.cfg
  unfold Cluster.train
  split
  · rename_i h0
    exact h.trainNew env img (by intro hl; rw [h0]; exact_mod_cast hl)
  · simp only
    have hk := scan_kept (f := f) (c := c) (img := img) ds0 0 0 none false
    generalize Cluster.scan f c img ds0 0 0 none false = res at hk
    obtain ⟨ds, r⟩ := res
    simp only at hk
    have hi := h.kept hk
    cases r with
    | error e => exact hi
    | ok bt =>
      obtain ⟨b, t⟩ := bt
      simp only
      split
      · exact hi
      · split
        · rename_i hroom
          exact hi.trainNew env img (fun _ => hroom)
        · cases b with
          | none => exact hi
          | some i => exact hi.kept (trainAt_kept ds i img)

theorem Spec.Reached.inv {f : Flt} {c : ClusterCfg} {H : List Image} {cl : Cluster} (h : Reached f c H cl) : CInv c cl := by
  induction h with
  | new => exact ⟨rfl, by intro h; simp [Cluster.create]; omega, by simp [Cluster.create]⟩
  | train env img _ ih => exact ih.train env img

theorem votes_nonneg {d : Discriminator} (hp : Pos1 d.rams) {x : Image} {vs : List Int} (h : d.classify x = .ok vs) :
    ∀ v ∈ vs, 0 ≤ v := by
  unfold Discriminator.classify at h
  obtain ⟨_, _, h2⟩ := bind_eq_ok h
  clear h
  revert h2 hp
  generalize d.rams = rs
  intro hp h
  induction rs generalizing vs with
  | nil => simp only [Discriminator.votes, Except.ok.injEq] at h; subst h; simp
  | cons r rs ih =>
    simp only [Discriminator.votes] at h
    obtain ⟨v, hv, h⟩ := bind_eq_ok h
    obtain ⟨ws, hw, h⟩ := bind_eq_ok h
    simp only [Except.ok.injEq] at h
    subst h
    intro u hu
    rcases List.mem_cons.mp hu with rfl | hu
    · unfold Ram.getVote at hv
      obtain ⟨k, hk, hv⟩ := bind_eq_ok hv
      split at hv
      · cases hv; omega
      · split at hv
        · cases hv; omega
        · rename_i c hc
          cases hv
          have := hp r (by simp) k _ hc
          omega
    · exact ih (fun r hr => hp r (List.mem_cons_of_mem _ hr)) hw u hu

theorem map_some_inj {xs ys : List Discriminator} (h : xs.map some = ys.map some) : xs = ys :=
  List.map_injective_iff.mpr (Option.some_injective _) h

/-- The exact effect of a successful training. -/
theorem train_learns {f : Flt} {c : ClusterCfg} {cl cl' : Cluster} (hi : CInv c cl) (hlim : 1 ≤ c.discriminatorsLimit)
    {env : Env} {img : Image} (h : cl.train f env img = (cl', .ok ())) :
    ∃ ds ds' : List Discriminator, cl = ⟨some c, ds.map some⟩ ∧ cl' = ⟨some c, ds'.map some⟩ ∧
      Learns f c env.rnd img ds ds' := by
  have hcl : cl = ⟨some c, cl.discriminators⟩ := by rw [← hi.cfg]
  unfold Cluster.train at h
  split at h
  · rename_i h0
    have h0 := List.length_eq_zero_iff.mp h0
    obtain ⟨c', d0, d1, h1, h2, h3, h4⟩ := trainNew_ok h
    rw [hi.cfg] at h1
    cases h1
    refine ⟨[], [d1], by rw [hcl, h0]; rfl, by rw [h4, h0]; rfl, ?_⟩
    exact Learns.fresh (ds := []) (by simp) (by simp only [List.length_nil]; omega) h2 h3
  · rw [hi.cfg] at h
    simp only at h
    generalize hs : Cluster.scan f c img cl.discriminators 0 0 none false = res at h
    obtain ⟨ds1, r⟩ := res
    cases r with
    | error e => simp at h
    | ok bt =>
      obtain ⟨b, t⟩ := bt
      obtain ⟨xs, ys, h1, rfl, h3, h4, h5⟩ := scan_ok _ hs
      simp only at h
      refine ⟨xs, ?_⟩
      rw [h1] at hcl
      split at h
      · rename_i ht
        simp only [Prod.mk.injEq, and_true] at h
        refine ⟨ys, hcl, h.symm, .fitting ?_ h3⟩
        simpa using h4.mp ht
      · rename_i ht
        have hn : ∀ d ∈ xs, ¬ Reaches f c img d := by
          intro d hd hr
          exact ht (h4.mpr (.inr ⟨d, hd, hr⟩))
        have hxy : xs = ys := by
          have : ∀ {xs ys : List Discriminator}, List.Forall₂ (Scanned f c img) xs ys → (∀ d ∈ xs, ¬ Reaches f c img d) → xs = ys := by
            intro xs ys h
            induction h with
            | nil => intro _; rfl
            | cons h1 _ ih =>
              intro hn
              rcases h1 with ⟨h1, _⟩ | ⟨_, h1⟩
              · exact absurd h1 (hn _ (by simp))
              · rw [h1, ih (fun d hd => hn d (List.mem_cons_of_mem _ hd))]
          exact this h3 hn
        subst hxy
        split at h
        · rename_i hroom
          obtain ⟨c', d0, d1, e1, e2, e3, e4⟩ := trainNew_ok h
          simp only [Option.some.injEq] at e1
          subst e1
          refine ⟨xs ++ [d1], hcl, by rw [e4]; simp, .fresh hn (by simpa using hroom) e2 e3⟩
        · rename_i hroom
          simp only [List.length_map, not_lt] at hroom
          rcases h5 with ⟨e1, e2⟩ | ⟨pre, d, post, s, e1, e2, e3, e4, e5, e6⟩
          · -- no score reaches 0: impossible unless there is no discriminator
            exfalso
            cases xs with
            | nil => simp at hroom; omega
            | cons d xs =>
              obtain ⟨s, ⟨votes, g1, g2⟩, g3⟩ := e2 d (by simp)
              have := score_nonneg f votes (votes_nonneg (hi.disc d (by rw [h1]; simp)).1 g1)
              rw [g2] at this
              exact absurd g3 (not_lt.mpr this)
          · rw [e2] at h
            simp only [Nat.zero_add] at h
            have hget : (xs.map some)[pre.length]? = some (some d) := by rw [e1]; simp
            have hta : Cluster.trainAt (xs.map some) pre.length img =
                ((xs.map some).set pre.length (some (d.train img).1), (d.train img).2) := by
              unfold Cluster.trainAt
              rw [hget]
            rw [hta] at h
            simp only [Prod.mk.injEq] at h
            obtain ⟨e7, e8⟩ := h
            refine ⟨pre ++ (d.train img).1 :: post, hcl, ?_, .best hn hroom e1 ⟨s, e3, e5, e6⟩ (by rw [← e8])⟩
            rw [← e7, e1]
            simp


/-! ## Histories of discriminators -/

/-- `d` is a new discriminator of the cluster that was trained on `imgs`. -/
def Made (c : ClusterCfg) (imgs : List Image) (d : Discriminator) : Prop :=
  ∃ rnd d0, IsNew c rnd d0 ∧ (play d0 (imgs.map Op.train)).1 = d

theorem Made.train {c : ClusterCfg} {imgs : List Image} {d : Discriminator} (h : Made c imgs d) (img : Image) :
    Made c (imgs ++ [img]) (d.train img).1 := by
  obtain ⟨rnd, d0, h1, rfl⟩ := h
  refine ⟨rnd, d0, h1, ?_⟩
  rw [List.map_append, play_append]
  rfl

/-- All discriminators were trained on part of `H`. -/
def AllMade (c : ClusterCfg) (H : List Image) (ds : List (Option Discriminator)) : Prop :=
  ∀ d, some d ∈ ds → ∃ imgs, imgs ≠ [] ∧ imgs.Sublist H ∧ Made c imgs d

theorem AllMade.kept {c : ClusterCfg} {H : List Image} {ds ds' : List (Option Discriminator)} {img : Image}
    (h : AllMade c H ds) (hk : List.Forall₂ (Kept img) ds ds') : AllMade c (H ++ [img]) ds' := by
  intro d hd
  obtain ⟨o, ho, hh⟩ := forall₂_mem_right hk hd
  rcases hh with ⟨_, h2⟩ | ⟨d0, d1, h1, h2, h3⟩
  · cases h2
  · cases h2
    subst h1
    obtain ⟨imgs, i1, i2, i3⟩ := h d0 ho
    rcases h3 with rfl | rfl
    · exact ⟨imgs, i1, i2.trans (List.sublist_append_left _ _), i3⟩
    · exact ⟨imgs ++ [img], by simp, i2.append (List.Sublist.refl _), i3.train img⟩

/-- After a scan in which nothing was trained the discriminators are unchanged. -/
theorem scan_untrained {f : Flt} {c : ClusterCfg} {img : Image} {ds ds' : List (Option Discriminator)} {b : Option Nat}
    (h : Cluster.scan f c img ds 0 0 none false = (ds', .ok (b, false))) : ds' = ds := by
  obtain ⟨xs, ys, rfl, rfl, h3, h4, h5⟩ := scan_ok _ h
  have hn : ∀ d ∈ xs, ¬ Reaches f c img d := by
    intro d hd hr
    have := h4.mpr (.inr ⟨d, hd, hr⟩)
    cases this
  clear h h4 h5
  congr 1
  induction h3 with
  | nil => rfl
  | cons h1 _ ih =>
    rcases h1 with ⟨h1, _⟩ | ⟨_, h1⟩
    · exact absurd h1 (hn _ (by simp))
    · rw [h1, ih (fun d hd => hn d (List.mem_cons_of_mem _ hd))]

theorem AllMade.mono {c : ClusterCfg} {H : List Image} {ds : List (Option Discriminator)} (h : AllMade c H ds) (img : Image) :
    AllMade c (H ++ [img]) ds := by
  intro d hd
  obtain ⟨imgs, i1, i2, i3⟩ := h d hd
  exact ⟨imgs, i1, i2.trans (List.sublist_append_left _ _), i3⟩

theorem AllMade.trainNew {c : ClusterCfg} {H : List Image} {ds : List (Option Discriminator)} (h : AllMade c H ds)
    (env : Env) (img : Image) : AllMade c (H ++ [img]) (Cluster.trainNew ⟨some c, ds⟩ env img).1.discriminators := by
  unfold Cluster.trainNew
  simp only
  cases hn : Cluster.newDiscriminator env.rnd c with
  | ok d0 =>
    intro d hd
    rcases List.mem_append.mp hd with hd | hd
    · exact h.mono img d hd
    · simp only [List.mem_cons, Option.some.injEq, List.not_mem_nil, or_false] at hd
      subst hd
      exact ⟨[img], by simp, List.sublist_append_right _ _, _, d0, newDiscriminator_isNew.mp hn, rfl⟩
  | error e =>
    simp only
    split
    · intro d hd
      rcases List.mem_append.mp hd with hd | hd
      · exact h.mono img d hd
      · simp at hd
    · exact h.mono img

theorem Spec.Reached.made {f : Flt} {c : ClusterCfg} {H : List Image} {cl : Cluster} (h : Reached f c H cl) :
    AllMade c H cl.discriminators := by
  induction h with
  | new => intro d hd; simp [Cluster.create] at hd
  | @train H cl env img hr ih =>
    obtain ⟨cf, ds0⟩ := cl
    obtain rfl : cf = some c := hr.inv.cfg
    unfold Cluster.train
    split
    · exact ih.trainNew env img
    · simp only
      have hk := scan_kept (f := f) (c := c) (img := img) ds0 0 0 none false
      have hu := fun ds' b => scan_untrained (f := f) (c := c) (img := img) (ds := ds0) (ds' := ds') (b := b)
      generalize Cluster.scan f c img ds0 0 0 none false = res at hk hu
      obtain ⟨ds, r⟩ := res
      simp only at hk ih
      have hi := ih.kept hk
      cases r with
      | error e => exact hi
      | ok bt =>
        obtain ⟨b, t⟩ := bt
        simp only
        cases t with
        | true => exact hi
        | false =>
          have := hu ds b rfl
          subst this
          simp only [Bool.false_eq_true, if_false]
          split
          · exact ih.trainNew env img
          · cases b with
            | none => exact hi
            | some i => exact ih.kept (trainAt_kept ds i img)

theorem train_size (f : Flt) (cl : Cluster) (env : Env) (img : Image) : cl.getSize ≤ (cl.train f env img).1.getSize := by
  have hnew : ∀ cl : Cluster, cl.discriminators.length ≤ (cl.trainNew env img).1.discriminators.length := by
    intro cl
    unfold Cluster.trainNew
    split
    · exact Nat.le_refl _
    · split
      · simp
      · split
        · simp
        · exact Nat.le_refl _
  unfold Cluster.getSize Cluster.train
  split
  · exact hnew cl
  · split
    · exact Nat.le_refl _
    · rename_i c hc
      have hk := (scan_kept (f := f) (c := c) (img := img) cl.discriminators 0 0 none false).length_eq
      generalize Cluster.scan f c img cl.discriminators 0 0 none false = res at hk
      obtain ⟨ds, r⟩ := res
      simp only at hk
      cases r with
      | error e => simp only; omega
      | ok bt =>
        obtain ⟨b, t⟩ := bt
        simp only
        split
        · simp only; omega
        · split
          · have := hnew { cl with discriminators := ds }
            simp only at this
            omega
          · cases b with
            | none => simp only; omega
            | some i =>
              have := (trainAt_kept ds i img).length_eq
              simp only
              omega

theorem train_ok_size {f : Flt} {cl cl' : Cluster} {env : Env} {img : Image} (h : cl.train f env img = (cl', .ok ())) :
    1 ≤ cl'.getSize := by
  have hs := train_size f cl env img
  rw [h] at hs
  simp only at hs
  by_cases h0 : cl.discriminators.length = 0
  · unfold Cluster.train at h
    rw [if_pos h0] at h
    obtain ⟨c, d0, d1, _, _, _, rfl⟩ := trainNew_ok h
    simp [Cluster.getSize]
  · unfold Cluster.getSize at hs ⊢
    omega

theorem default_train (f : Flt) (env : Env) (img : Image) :
    Cluster.default.train f env img = (Cluster.default, .error (.ub .uninitialised)) := rfl

end Wis
