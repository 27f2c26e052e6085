import Verif.Props.Semantics
import Verif.Props.Reproducible
import Verif.Spec.Recode
/-!
# Properties C161–C163: only coincidences between pixels matter
-/

namespace Wis
open Spec

theorem net_congr {h1 h2 : List Op} (h : List.Forall₂ (fun a b : Op => a.isTrain = b.isTrain) h1 h2) : net h1 = net h2 := by
  induction h with
  | nil => rfl
  | @cons a b _ _ e _ ih => cases a <;> cases b <;> simp_all [net, Op.isTrain]

theorem forall₂_dropWhile {α β : Type} {R : α → β → Prop} {p : α → Bool} {q : β → Bool} (hp : ∀ a b, R a b → p a = q b) {l1 : List α} {l2 : List β}
    (h : List.Forall₂ R l1 l2) : List.Forall₂ R (l1.dropWhile p) (l2.dropWhile q) := by
  induction h with
  | nil => exact .nil
  | @cons a b _ _ e t ih =>
    simp only [List.dropWhile_cons, hp a b e]
    split
    · exact ih
    · exact .cons e t

theorem forall₂_filter {α β : Type} {R : α → β → Prop} {p : α → Bool} {q : β → Bool} (hp : ∀ a b, R a b → p a = q b) {l1 : List α} {l2 : List β}
    (h : List.Forall₂ R l1 l2) : List.Forall₂ R (l1.filter p) (l2.filter q) := by
  induction h with
  | nil => exact .nil
  | @cons a b _ _ e t ih =>
    simp only [List.filter_cons, hp a b e]
    split
    · exact .cons e ih
    · exact ih

/-- The vote depends only on which images agree. -/
theorem vote_congr {m1 m2 : List Int} {x1 x2 : Image} {h1 h2 : List Op}
    (h : List.Forall₂ (fun a b : Op => a.isTrain = b.isTrain ∧ (Agree m1 x1 a.img ↔ Agree m2 x2 b.img)) h1 h2) :
    vote m1 h1 x1 = vote m2 h2 x2 := by
  unfold vote matching
  apply net_congr
  have a := forall₂_filter (p := fun o => decide (Agree m1 x1 o.img)) (q := fun o => decide (Agree m2 x2 o.img))
    (fun a b e => decide_eq_decide.mpr e.2) h
  exact (forall₂_dropWhile (p := fun o => !o.isTrain) (q := fun o => !o.isTrain) (fun a b e => by rw [e.1]) a).imp fun _ _ e => e.1

theorem opsOf_pair {Q : WOp → WOp → Prop} (hk : ∀ a b, Q a b → a.isTrain = b.isTrain ∧ a.label = b.label) {ops1 ops2 : List WOp}
    (h : List.Forall₂ Q ops1 ops2) (l : Str) :
    List.Forall₂ (fun a b : Op => a.isTrain = b.isTrain ∧ ∃ o1 o2, Q o1 o2 ∧ o1.label = l ∧ o1.img = a.img ∧ o2.img = b.img)
      (opsOf l ops1) (opsOf l ops2) := by
  unfold opsOf
  refine forall₂_dropWhile (fun a b e => by rw [e.1]) ?_
  induction h with
  | nil => exact .nil
  | @cons o1 o2 _ _ e t ih =>
    obtain ⟨h1, h2⟩ := hk _ _ e
    cases o1 with
    | train e1 i1 l1 =>
      cases o2 with
      | leave i2 l2 => simp [WOp.isTrain] at h1
      | train e2 i2 l2 =>
        simp only [WOp.label] at h2
        subst h2
        simp only [List.filterMap_cons, WOp.on]
        by_cases hl : l1 = l
        · simp only [if_pos hl]
          exact .cons ⟨rfl, _, _, e, hl, rfl, rfl⟩ ih
        · simp only [if_neg hl]; exact ih
    | leave i1 l1 =>
      cases o2 with
      | train e2 i2 l2 => simp [WOp.isTrain] at h1
      | leave i2 l2 =>
        simp only [WOp.label] at h2
        subst h2
        simp only [List.filterMap_cons, WOp.on]
        by_cases hl : l1 = l
        · simp only [if_pos hl]
          exact .cons ⟨rfl, _, _, e, hl, rfl, rfl⟩ ih
        · simp only [if_neg hl]; exact ih

/-- **C161**, general form. Two histories of the same kind of calls with the same labels, on models with the same rules for
comparing classes, whose images have any lengths, values, wirings and bases. If the classes have equally many RAMs and every RAM
of a class finds the query equal to a training image (of this class) exactly when the corresponding RAM of the other model does,
the two models give the same scores. -/
theorem C161_coincidences {w01 w02 w1 w2 : Wisard} {ops1 ops2 : List WOp} {n1 n2 : Int} (g1 : GoodHistory w01 ops1 w1 n1)
    (g2 : GoodHistory w02 ops2 w2 n2) (hr : SameRules w01.opts w02.opts)
    (hops : List.Forall₂ (fun o1 o2 : WOp => o1.isTrain = o2.isTrain ∧ o1.label = o2.label) ops1 ops2) {x1 x2 : Image}
    (hx1 : ValidImage n1 w01.opts.base x1) (hx2 : ValidImage n2 w02.opts.base x2)
    (hwire : ∀ l d1 d2, w1.discriminators.find l = some d1 → w2.discriminators.find l = some d2 →
      List.Forall₂ (fun m1 m2 => (w01.opts.ignoreZero = true → (ZeroOn m1 x1 ↔ ZeroOn m2 x2)) ∧
        ∀ (i : Nat) o1 o2, ops1[i]? = some o1 → ops2[i]? = some o2 → o1.label = l → (Agree m1 x1 o1.img ↔ Agree m2 x2 o2.img))
        d1.mapping d2.mapping) :
    w1.classify1 x1 = w2.classify1 x2 := by
  obtain ⟨_, a2, a3, a4⟩ := wrun_find g1.start ops1 g1.ran
  obtain ⟨_, b2, b3, b4⟩ := wrun_find g2.start ops2 g2.ran
  unfold Wisard.classify1
  rw [g1.allvotes hx1, g2.allvotes hx2, Except.bind_ok, Except.bind_ok, a2, b2, hr.2.1, hr.2.2.1, hr.2.2.2]
  have hz : List.Forall₂ (fun o1 o2 : WOp => (o1.isTrain = o2.isTrain ∧ o1.label = o2.label) ∧
      ∃ i : Nat, ops1[i]? = some o1 ∧ ops2[i]? = some o2) ops1 ops2 := by
    rw [List.forall₂_iff_get] at hops ⊢
    refine ⟨hops.1, fun i h1 h2 => ⟨hops.2 i h1 h2, i, ?_, ?_⟩⟩
    · simp [List.get_eq_getElem, List.getElem?_eq_getElem h1]
    · simp [List.get_eq_getElem, List.getElem?_eq_getElem h2]
  have hp := opsOf_pair (Q := fun o1 o2 : WOp => (o1.isTrain = o2.isTrain ∧ o1.label = o2.label) ∧
      ∃ i : Nat, ops1[i]? = some o1 ∧ ops2[i]? = some o2) (fun _ _ h => h.1) hz
  congr 1
  apply SMap.ext (SMap.sorted_map a3 _) (SMap.sorted_map b3 _)
  intro l
  rw [find_map_key w1.discriminators (fun k d => specVotes w01 ops1 x1 k d.mapping) l,
    find_map_key w2.discriminators (fun k d => specVotes w02 ops2 x2 k d.mapping) l]
  have hlen := (hp l).length_eq
  rcases a4 l with ⟨e1, e2⟩ | ⟨d1, _, _, _, _, e1, e2, _, _⟩
  · rcases b4 l with ⟨f1, f2⟩ | ⟨d2, _, _, _, _, f1, f2, _, _⟩
    · rw [e1, f1]; rfl
    · rw [e2, f2] at hlen; simp at hlen
  · rcases b4 l with ⟨f1, f2⟩ | ⟨d2, _, _, _, _, f1, f2, _, _⟩
    · rw [e2, f2] at hlen; simp at hlen
    · rw [e1, f1]
      simp only [Option.map_some, Option.some.injEq]
      have hw := hwire l d1 d2 e1 f1
      unfold specVotes
      rw [hr.1]
      clear e1 f1
      generalize d1.mapping = M1 at *
      generalize d2.mapping = M2 at *
      induction hw with
      | nil => rfl
      | @cons m1 m2 _ _ h _ ih =>
        simp only [List.map_cons, List.cons.injEq]
        refine ⟨?_, ih⟩
        have hv : vote m1 (opsOf l ops1) x1 = vote m2 (opsOf l ops2) x2 := by
          apply vote_congr
          refine (hp l).imp fun a b ⟨k, o1, o2, ⟨_, i, i1, i2⟩, hl, j1, j2⟩ => ⟨k, ?_⟩
          rw [← j1, ← j2]
          exact h.2 i o1 o2 i1 i2 hl
        rw [hv]
        by_cases hz : w01.opts.ignoreZero = true
        · by_cases z : ZeroOn m1 x1
          · rw [if_pos ⟨hz, z⟩, if_pos ⟨hz, (h.1 hz).mp z⟩]
          · rw [if_neg (fun c => z c.2), if_neg (fun c => z ((h.1 hz).mpr c.2))]
        · rw [if_neg (fun c => hz c.1), if_neg (fun c => hz c.1)]

/-! ## Recoding -/

theorem valid_read {n base : Int} {x : Image} (hx : ValidImage n base x) {a : Int} (h0 : 0 ≤ a) (h1 : a < n) :
    ∃ v, x.read a = .ok v ∧ 0 ≤ v ∧ v < base := by
  obtain ⟨k, rfl⟩ := Int.eq_ofNat_of_zero_le h0
  exact hx.2 k (by have := hx.1; omega)

theorem agree_recoded {n base : Int} {z : Bool} {σ : Int → Int} {φ : Int → Int → Int} (hf : Faithful z base φ) {m : List Int}
    (hm : ∀ a ∈ m, 0 ≤ a ∧ a < n) {x y x' y' : Image} (hx : ValidImage n base x) (hy : ValidImage n base y) (rx : Recoded σ φ m x x')
    (ry : Recoded σ φ m y y') : Agree m x y ↔ Agree (m.map σ) x' y' := by
  constructor
  · intro h b hb
    obtain ⟨a, ha, rfl⟩ := List.mem_map.mp hb
    obtain ⟨v, hv, _⟩ := valid_read hx (hm a ha).1 (hm a ha).2
    rw [rx a ha v hv, ry a ha v (by rw [← h a ha]; exact hv)]
  · intro h a ha
    obtain ⟨v, hv, v0, v1⟩ := valid_read hx (hm a ha).1 (hm a ha).2
    obtain ⟨u, hu, u0, u1⟩ := valid_read hy (hm a ha).1 (hm a ha).2
    have e := h (σ a) (List.mem_map_of_mem ha)
    rw [rx a ha v hv, ry a ha u hu] at e
    rw [hv, hu, hf.inj a v u v0 v1 u0 u1 (Except.ok.inj e)]

theorem zero_recoded {n base : Int} {z : Bool} {σ : Int → Int} {φ : Int → Int → Int} (hf : Faithful z base φ) (hz : z = true) {m : List Int}
    (hm : ∀ a ∈ m, 0 ≤ a ∧ a < n) {x x' : Image} (hx : ValidImage n base x) (rx : Recoded σ φ m x x') :
    ZeroOn m x ↔ ZeroOn (m.map σ) x' := by
  constructor
  · intro h b hb
    obtain ⟨a, ha, rfl⟩ := List.mem_map.mp hb
    obtain ⟨v, hv, v0, v1⟩ := valid_read hx (hm a ha).1 (hm a ha).2
    have e := h a ha
    rw [hv] at e
    rw [rx a ha v hv, (hf.zero hz a v v0 v1).mpr (Except.ok.inj e)]
  · intro h a ha
    obtain ⟨v, hv, v0, v1⟩ := valid_read hx (hm a ha).1 (hm a ha).2
    have e := h (σ a) (List.mem_map_of_mem ha)
    rw [rx a ha v hv] at e
    rw [hv, (hf.zero hz a v v0 v1).mp (Except.ok.inj e)]

theorem Spec.Recoded.mono {σ : Int → Int} {φ : Int → Int → Int} {m m' : List Int} {x y : Image} (h : Recoded σ φ m x y) (hs : ∀ a ∈ m', a ∈ m) :
    Recoded σ φ m' x y := fun a ha => h a (hs a ha)

/-- **C161** for recoded images: two models with corresponding wiring, trained with the same pictures in different notations (pixels
moved by `σ`, values renamed by `φ`, other pixels arbitrary), classify every list of pictures alike. -/
theorem C161_recoding {w01 w02 w1 w2 : Wisard} {ops1 ops2 : List WOp} {n1 n2 : Int} (g1 : GoodHistory w01 ops1 w1 n1)
    (g2 : GoodHistory w02 ops2 w2 n2) (hr : SameRules w01.opts w02.opts) {σ : Int → Int} {φ : Int → Int → Int}
    (hf : Faithful w01.opts.ignoreZero w01.opts.base φ) {addrs : List Int} (ha : ∀ a, ReadsPixel w1 a → a ∈ addrs)
    (hops : List.Forall₂ (RecodedOp σ φ addrs) ops1 ops2)
    (hwire : ∀ l d1 d2, w1.discriminators.find l = some d1 → w2.discriminators.find l = some d2 → d2.mapping = d1.mapping.map (·.map σ))
    {xs ys : List Image} (hxs : ∀ x ∈ xs, ValidImage n1 w01.opts.base x) (hys : ∀ y ∈ ys, ValidImage n2 w02.opts.base y)
    (hxy : List.Forall₂ (Recoded σ φ addrs) xs ys) :
    List.Forall₂ (fun x y => w1.classify1 x = w2.classify1 y) xs ys ∧ w1.classify xs = w2.classify ys := by
  have key : ∀ x y, ValidImage n1 w01.opts.base x → ValidImage n2 w02.opts.base y → Recoded σ φ addrs x y → w1.classify1 x = w2.classify1 y := by
    intro x y hx hy hxy
    refine C161_coincidences g1 g2 hr (hops.imp fun _ _ h => ⟨h.kind, h.label⟩) hx hy fun l d1 d2 e1 e2 => ?_
    rw [hwire l d1 d2 e1 e2, List.forall₂_map_right_iff, List.forall₂_same]
    intro m hm
    have hin := g1.wired l d1 e1 m hm
    have hsub : ∀ a ∈ m, a ∈ addrs := fun a h => ha a ⟨l, d1, m, e1, hm, h⟩
    refine ⟨fun hz => zero_recoded hf hz hin hx (hxy.mono hsub), fun i o1 o2 h1 h2 _ => ?_⟩
    have ho : RecodedOp σ φ addrs o1 o2 := by
      rw [List.forall₂_iff_get] at hops
      obtain ⟨l1, rfl⟩ := List.getElem?_eq_some_iff.mp h1
      obtain ⟨l2, rfl⟩ := List.getElem?_eq_some_iff.mp h2
      exact hops.2 i l1 l2
    exact agree_recoded hf hin hx (g1.valid o1 (List.mem_of_getElem? h1)) (hxy.mono hsub) (ho.img.mono hsub)
  have h1 : List.Forall₂ (fun x y => w1.classify1 x = w2.classify1 y) xs ys := by
    rw [List.forall₂_iff_get] at hxy ⊢
    exact ⟨hxy.1, fun i a b => key _ _ (hxs _ (List.get_mem _ _)) (hys _ (List.get_mem _ _)) (hxy.2 i a b)⟩
  refine ⟨h1, ?_⟩
  clear hxy hxs hys
  induction h1 with
  | nil => rfl
  | cons h _ ih => simp only [Wisard.classify, h, ih]

/-! ## The wiring of the two models -/

theorem ramsOfMapping_addresses {iz : Bool} {base : Int} (ms : List (List Int)) : ∀ {rs : List Ram},
    Discriminator.ramsOfMapping iz base ms = .ok rs → rs.map (·.addresses) = ms := by
  induction ms with
  | nil => intro rs h; cases h; rfl
  | cons m ms ih =>
    intro rs h
    unfold Discriminator.ramsOfMapping at h
    obtain ⟨r, h1, h⟩ := bind_eq_ok h
    obtain ⟨rs', h2, h⟩ := bind_eq_ok h
    cases h
    unfold Ram.create at h1
    obtain ⟨_, _, h1⟩ := bind_eq_ok h1
    cases h1
    rw [List.map_cons, ih h2]

theorem setRAMByMapping_mapping {m : List (List Int)} {n : Int} {iz : Bool} {base : Int} {d : Discriminator}
    (h : Discriminator.setRAMByMapping m n iz base = .ok d) : d.mapping = m := by
  unfold Discriminator.setRAMByMapping at h
  obtain ⟨_, _, h⟩ := bind_eq_ok h
  obtain ⟨rs, h1, h⟩ := bind_eq_ok h
  cases h
  exact ramsOfMapping_addresses m h1

theorem shuffle_same {rnd : Rnd} {n A : Int} {iz1 iz2 c : Bool} {b1 b2 : Int} {d1 d2 : Discriminator}
    (h1 : Discriminator.setRAMShuffle rnd n A iz1 c b1 = .ok d1) (h2 : Discriminator.setRAMShuffle rnd n A iz2 c b2 = .ok d2) :
    d2.mapping = d1.mapping := by
  unfold Discriminator.setRAMShuffle at h1 h2
  obtain ⟨_, _, h1⟩ := bind_eq_ok h1
  obtain ⟨_, k1, h1⟩ := bind_eq_ok h1
  obtain ⟨s1, e1, h1⟩ := bind_eq_ok h1
  obtain ⟨x1, f1, h1⟩ := bind_eq_ok h1
  obtain ⟨r1, g1, h1⟩ := bind_eq_ok h1
  obtain ⟨_, _, h2⟩ := bind_eq_ok h2
  obtain ⟨_, k2, h2⟩ := bind_eq_ok h2
  obtain ⟨s2, e2, h2⟩ := bind_eq_ok h2
  obtain ⟨x2, f2, h2⟩ := bind_eq_ok h2
  obtain ⟨r2, g2, h2⟩ := bind_eq_ok h2
  cases h1
  cases h2
  rw [e1] at e2
  cases e2
  rw [f1] at f2
  cases f2
  exact ((ramsFrom_mapping (checkBase_ok k2) g2).1).trans ((ramsFrom_mapping (checkBase_ok k1) g1).1).symm

/-- Corresponding constructor calls give corresponding wirings. -/
theorem new_recode {r1 r2 : Rnd} {A : Int} {o1 o2 : WisardOpts} {l : Str} {n1 n2 : Nat} {d1 d2 : Discriminator} {σ : Int → Int}
    (hm : o2.mapping = o1.mapping.map (fun e => (e.1, e.2.map (·.map σ)))) (hi : o2.indexes = o1.indexes.map σ)
    (hc : o2.completeAddressing = o1.completeAddressing)
    (hg : WiringGiven o1 l ∨ (σ = id ∧ r1 = r2 ∧ n1 = n2)) (h1 : Wisard.newDiscriminator r1 A o1 l n1 = .ok d1)
    (h2 : Wisard.newDiscriminator r2 A o2 l n2 = .ok d2) : d2.mapping = d1.mapping.map (·.map σ) := by
  unfold Wisard.newDiscriminator at h1 h2
  rw [hm, find_map_key o1.mapping (fun _ m => m.map (·.map σ)) l] at h2
  cases hf : o1.mapping.find l with
  | some m =>
    rw [hf] at h1 h2
    rw [setRAMByMapping_mapping h1, setRAMByMapping_mapping h2]
  | none =>
    rw [hf] at h1 h2
    simp only [Option.map_none] at h1 h2
    by_cases hi1 : o1.indexes.length ≠ 0
    · rw [if_pos hi1] at h1
      rw [hi, if_pos (by rw [List.length_map]; exact hi1)] at h2
      have hA : 2 ≤ A := by
        unfold Discriminator.setRAMByIndex at h1
        obtain ⟨_, k, _⟩ := bind_eq_ok h1
        exact (checkAddressSize_ok k).1
      obtain ⟨B, rfl⟩ := Int.eq_ofNat_of_zero_le (show 0 ≤ A by omega)
      obtain ⟨_, _, a3, _, _, a6⟩ := setRAMByIndex_ok h1
      obtain ⟨_, _, b3, _, _, b6⟩ := setRAMByIndex_ok h2
      rw [List.length_map] at b3
      rw [a6, b6, ← a3, ← b3, List.map_map]
      apply List.map_congr_left
      intro j _
      simp only [Function.comp_apply, List.map_drop, List.map_take]
    · rw [if_neg hi1] at h1
      rw [hi, if_neg (by rw [List.length_map]; exact hi1)] at h2
      rcases hg with hg | ⟨rfl, rfl, rfl⟩
      · rcases hg with hg | hg
        · exact absurd (List.length_eq_zero_iff.mp (by omega)) hg
        · rw [SMap.find_none_iff] at hf
          exact absurd hg hf
      · rw [hc] at h2
        rw [shuffle_same h1 h2]
        simp

/-- The wirings of two states correspond. -/
def WiredAlike (σ : Int → Int) (w1 w2 : Wisard) : Prop :=
  ∀ l, (w2.discriminators.find l).map (·.mapping) = (w1.discriminators.find l).map (fun d => d.mapping.map (·.map σ))

theorem train_mapping {d d' : Discriminator} {img : Image} {r : Res Unit} (h : d.train img = (d', r)) : d'.mapping = d.mapping := by
  have h1 := (play_le [.train img] d).mapping
  have h2 : (play d [.train img]).1 = (d.train img).1 := rfl
  rw [h2, h] at h1
  exact h1

theorem untrain_mapping {d d' : Discriminator} {img : Image} {r : Res Unit} (h : d.untrain img = (d', r)) : d'.mapping = d.mapping := by
  have h1 := (play_le [.untrain img] d).mapping
  have h2 : (play d [.untrain img]).1 = (d.untrain img).1 := rfl
  rw [h2, h] at h1
  exact h1

theorem wired_step {σ : Int → Int} {w1 w2 w1' w2' : Wisard} {p q : WOp} (hw : WiredAlike σ w1 w2) (hA : w2.addressSize = w1.addressSize)
    (hm : w2.opts.mapping = w1.opts.mapping.map (fun e => (e.1, e.2.map (·.map σ)))) (hi : w2.opts.indexes = w1.opts.indexes.map σ)
    (hc : w2.opts.completeAddressing = w1.opts.completeAddressing) (hk : p.isTrain = q.isTrain) (hl : p.label = q.label)
    (hg : p.isTrain = true → WiringGiven w1.opts p.label ∨ (σ = id ∧ SameEnv p q ∧ p.img.size = q.img.size))
    (h1 : wstep w1 p = (w1', .ok ())) (h2 : wstep w2 q = (w2', .ok ())) : WiredAlike σ w1' w2' := by
  intro l
  by_cases hne : l = p.label
  · subst hne
    have hw0 := hw p.label
    cases p with
    | train e1 i1 l1 =>
      cases q with
      | leave i2 l2 => simp [WOp.isTrain] at hk
      | train e2 i2 l2 =>
        simp only [WOp.label] at *
        subst hl
        obtain ⟨_, _, _, a⟩ := train1_find w1 e1 i1 l1 h1
        obtain ⟨_, _, _, b⟩ := train1_find w2 e2 i2 l1 h2
        rcases a with ⟨d, d', a1, a2, a3⟩ | ⟨d, d', a1, a2, a3, a4⟩
        · rcases b with ⟨f, f', b1, b2, b3⟩ | ⟨f, f', b1, b2, b3, b4⟩
          · rw [a1, b1] at hw0
            rw [a3, b3]
            simp only [Option.map_some, Option.some.injEq] at hw0 ⊢
            rw [train_mapping a2, train_mapping b2, hw0]
          · rw [a1, b1] at hw0; simp at hw0
        · rcases b with ⟨f, f', b1, b2, b3⟩ | ⟨f, f', b1, b2, b3, b4⟩
          · rw [a1, b1] at hw0; simp at hw0
          · rw [a4, b4]
            simp only [Option.map_some, Option.some.injEq]
            rw [train_mapping a3, train_mapping b3]
            rw [hA] at b2
            refine new_recode hm hi hc ?_ a2 b2
            rcases hg rfl with h | ⟨h, h', h''⟩
            · exact .inl h
            · refine .inr ⟨h, ?_, h''⟩
              have : e1 = e2 := h'
              rw [this]
    | leave i1 l1 =>
      cases q with
      | train e2 i2 l2 => simp [WOp.isTrain] at hk
      | leave i2 l2 =>
        simp only [WOp.label] at *
        subst hl
        rcases leave_find w1 i1 l1 h1 with ⟨a1, a2⟩ | ⟨d, d', a1, a2, a3⟩
        · rcases leave_find w2 i2 l1 h2 with ⟨b1, b2⟩ | ⟨f, f', b1, b2, b3⟩
          · rw [a2, b2]; exact hw0
          · rw [a1, b1] at hw0; simp at hw0
        · rcases leave_find w2 i2 l1 h2 with ⟨b1, b2⟩ | ⟨f, f', b1, b2, b3⟩
          · rw [a1, b1] at hw0; simp at hw0
          · rw [a1, b1] at hw0
            rw [a3, b3]
            simp only [Option.map_some, Option.some.injEq] at hw0 ⊢
            rw [untrain_mapping a2, untrain_mapping b2, hw0]
  · have k1 := (wstep_other w1 p).2.2.1 l hne
    have k2 := (wstep_other w2 q).2.2.1 l (by rw [← hl]; exact hne)
    rw [h1] at k1
    rw [h2] at k2
    simp only at k1 k2
    rw [k1, k2]
    exact hw l

theorem wired_run {σ : Int → Int} {ops1 ops2 : List WOp} {o1 : WisardOpts}
    (hops : List.Forall₂ (fun p q : WOp => p.isTrain = q.isTrain ∧ p.label = q.label ∧
      (p.isTrain = true → WiringGiven o1 p.label ∨ (σ = id ∧ SameEnv p q ∧ p.img.size = q.img.size))) ops1 ops2) :
    ∀ {w1 w2 w1' w2' : Wisard}, w1.opts = o1 → WiredAlike σ w1 w2 → w2.addressSize = w1.addressSize →
    w2.opts.mapping = w1.opts.mapping.map (fun e => (e.1, e.2.map (·.map σ))) → w2.opts.indexes = w1.opts.indexes.map σ →
    w2.opts.completeAddressing = w1.opts.completeAddressing →
    wrun w1 ops1 = (w1', .ok ()) → wrun w2 ops2 = (w2', .ok ()) → WiredAlike σ w1' w2' := by
  induction hops with
  | nil => intro w1 w2 w1' w2' _ hw _ _ _ _ h1 h2; cases h1; cases h2; exact hw
  | @cons p q ps qs h _ ih =>
    intro w1 w2 w1' w2' ho hw hA hm hi hc h1 h2
    unfold wrun at h1 h2
    have k1 := wstep_other w1 p
    have k2 := wstep_other w2 q
    cases e1 : wstep w1 p with
    | mk v1 s1 =>
      cases e2 : wstep w2 q with
      | mk v2 s2 =>
        rw [e1] at h1 k1
        rw [e2] at h2 k2
        simp only at h1 h2 k1 k2
        cases s1 with
        | error e => cases h1
        | ok u1 =>
          cases s2 with
          | error e => cases h2
          | ok u2 =>
            exact ih (k1.2.1.trans ho) (wired_step hw hA hm hi hc h.1 h.2.1 (by rw [ho]; exact h.2.2) e1 e2)
              (by rw [k1.1, k2.1, hA]) (by rw [k1.2.1, k2.2.1, hm]) (by rw [k1.2.1, k2.2.1, hi]) (by rw [k1.2.1, k2.2.1, hc]) h1 h2

theorem Spec.GoodHistory.wired_alike {w01 w02 w1 w2 : Wisard} {ops1 ops2 : List WOp} {n1 n2 : Int} (g1 : GoodHistory w01 ops1 w1 n1)
    (g2 : GoodHistory w02 ops2 w2 n2) {σ : Int → Int} (hA : w02.addressSize = w01.addressSize)
    (hm : w02.opts.mapping = w01.opts.mapping.map (fun e => (e.1, e.2.map (·.map σ)))) (hi : w02.opts.indexes = w01.opts.indexes.map σ)
    (hc : w02.opts.completeAddressing = w01.opts.completeAddressing)
    (hops : List.Forall₂ (fun p q : WOp => p.isTrain = q.isTrain ∧ p.label = q.label ∧
      (p.isTrain = true → WiringGiven w01.opts p.label ∨ (σ = id ∧ SameEnv p q ∧ p.img.size = q.img.size))) ops1 ops2) :
    ∀ l d1 d2, w1.discriminators.find l = some d1 → w2.discriminators.find l = some d2 → d2.mapping = d1.mapping.map (·.map σ) := by
  intro l d1 d2 h1 h2
  have h := wired_run hops rfl (w1 := w01) (w2 := w02) (by intro l; rw [g1.start, g2.start]; rfl) hA hm hi hc g1.ran g2.ran l
  rw [h1, h2] at h
  simpa using h

theorem sameEnv_kind {p q : WOp} (h : SameEnv p q) : p.isTrain = q.isTrain := by
  cases p <;> cases q <;> first | rfl | exact h.elim

theorem map_id_mapping (m : SMap (List (List Int))) : m = m.map (fun e => (e.1, e.2.map (·.map id))) := by
  simp

/-- **C162**: pixel values are only names. Two Wisards of the same address size and options, `base` excepted, with default wiring
from the same random numbers. The second is trained with the images of the first in which the values of every pixel were renamed
(by `φ`, differently at every position if you like, faithfully). Both succeed and classify every list of images alike. -/
theorem C162_values {A n : Nat} {o : WisardOpts} (hm : o.mapping = []) (hi : o.indexes = []) (hA : 2 ≤ A) (hAn : A ≤ n)
    (hn : n + A ≤ 2147483647) (hb : 2 ≤ o.base) (hp : o.base ^ A < 2 ^ 63) {base' : Int} (hb' : 2 ≤ base') (hp' : base' ^ A < 2 ^ 63)
    {φ : Int → Int → Int} (hf : Faithful o.ignoreZero o.base φ) {ops ops' : List WOp} (hlen : ops.length ≤ 2147483645)
    (hv : ∀ op ∈ ops, ValidImage n o.base op.img) (hv' : ∀ op ∈ ops', ValidImage n base' op.img)
    (hops : List.Forall₂ (fun p q : WOp => SameEnv p q ∧ p.label = q.label ∧ ∀ a : Nat, a < n → Recoded id φ [(a : Int)] p.img q.img) ops ops') :
    ∃ w w', wrun (Wisard.create A o) ops = (w, .ok ()) ∧ wrun (Wisard.create A { o with base := base' }) ops' = (w', .ok ()) ∧
      ∀ xs ys : List Image, (∀ x ∈ xs, ValidImage n o.base x) → (∀ y ∈ ys, ValidImage n base' y) →
        List.Forall₂ (fun x y => ∀ a : Nat, a < n → Recoded id φ [(a : Int)] x y) xs ys →
        List.Forall₂ (fun x y => w.classify1 x = w'.classify1 y) xs ys ∧ w.classify xs = w'.classify ys := by
  obtain ⟨w, g⟩ := default_good hm hi hA hAn hn hb hp ops hv (by omega)
  obtain ⟨w', g'⟩ := default_good (o := { o with base := base' }) hm hi hA hAn hn hb' hp' ops' hv' (by rw [← hops.length_eq]; omega)
  refine ⟨w, w', g.ran, g'.ran, fun xs ys hx hy hxy => ?_⟩
  have hall : ∀ {x y : Image}, (∀ a : Nat, a < n → Recoded id φ [(a : Int)] x y) → Recoded id φ ((List.range n).map Int.ofNat) x y := by
    intro x y h a ha v hv
    obtain ⟨k, hk, rfl⟩ := List.mem_map.mp ha
    exact h k (List.mem_range.mp hk) _ (by simp) v hv
  have hw := g.wired_alike g' (σ := id) rfl (map_id_mapping _) (List.map_id _).symm rfl (by
    rw [List.forall₂_iff_get] at hops ⊢
    refine ⟨hops.1, fun i h1 h2 => ⟨sameEnv_kind (hops.2 i h1 h2).1, (hops.2 i h1 h2).2.1, fun _ => .inr ⟨rfl, (hops.2 i h1 h2).1, ?_⟩⟩⟩
    have e1 := (hv _ (List.get_mem ops ⟨i, h1⟩)).1
    have e2 := (hv' _ (List.get_mem ops' ⟨i, h2⟩)).1
    omega)
  refine C161_recoding g g' ⟨rfl, rfl, rfl, rfl⟩ hf (addrs := (List.range n).map Int.ofNat) ?_ ?_ hw hx hy (hxy.imp fun _ _ h => hall h)
  · rintro a ⟨l, d, m, h1, h2, h3⟩
    exact range_int_mem.mpr (g.wired l d h1 m h2 a h3)
  · exact hops.imp fun p q h => ⟨sameEnv_kind h.1, h.2.1, hall h.2.2⟩

/-- **C162**: a `base` larger than needed changes no answer. -/
theorem C162_base {A n : Nat} {o : WisardOpts} (hm : o.mapping = []) (hi : o.indexes = []) (hA : 2 ≤ A) (hAn : A ≤ n)
    (hn : n + A ≤ 2147483647) (hb : 2 ≤ o.base) {base' : Int} (hb' : o.base ≤ base') (hp' : base' ^ A < 2 ^ 63)
    (ops : List WOp) (hlen : ops.length ≤ 2147483645) (hv : ∀ op ∈ ops, ValidImage n o.base op.img) :
    ∃ w w', wrun (Wisard.create A o) ops = (w, .ok ()) ∧ wrun (Wisard.create A { o with base := base' }) ops = (w', .ok ()) ∧
      ∀ xs : List Image, (∀ x ∈ xs, ValidImage n o.base x) →
        (∀ x ∈ xs, w.classify1 x = w'.classify1 x) ∧ w.classify xs = w'.classify xs := by
  have hp : o.base ^ A < 2 ^ 63 := lt_of_le_of_lt (pow_le_pow_left₀ (by omega) hb' A) hp'
  have big : ∀ {x : Image}, ValidImage n o.base x → ValidImage n base' x := fun h =>
    ⟨h.1, fun i hi => let ⟨v, h1, h2, h3⟩ := h.2 i hi; ⟨v, h1, h2, by omega⟩⟩
  have same : ∀ (x : Image) (a : Nat), a < n → Recoded id (fun _ v => v) [(a : Int)] x x := by
    intro x a _ b _ v hv
    exact hv
  obtain ⟨w, w', h1, h2, h3⟩ := C162_values hm hi hA hAn hn hb hp (by omega) hp' (φ := fun _ v => v)
    ⟨fun _ _ _ _ _ _ _ h => h, fun _ _ _ _ _ => Iff.rfl⟩ hlen hv (ops' := ops) (fun op ho => big (hv op ho)) (by
      rw [List.forall₂_same]
      intro op _
      exact ⟨by cases op <;> simp [SameEnv], rfl, same _⟩)
  refine ⟨w, w', h1, h2, fun xs hx => ?_⟩
  obtain ⟨k1, k2⟩ := h3 xs xs hx (fun x h => big (hx x h)) (by rw [List.forall₂_same]; exact fun x _ => same x)
  exact ⟨List.forall₂_same.mp k1, k2⟩

/-- The calls of `semOps1` with the colours 0 and 1 written as 2 and 1. -/
def recodedOps : List WOp :=
  [.train ⟨Rnd.id, true⟩ (.vec [1, 2, 1, 1]) b!"a", .train ⟨Rnd.id, true⟩ (.vec [2, 2, 1, 2]) b!"b"]

/-- The hypotheses of C162 are met by `semOps1` and `recodedOps`, with base 2 and 3. -/
example : Faithful false 2 (fun _ v => 2 - v) ∧ (∀ op ∈ semOps1, ValidImage 4 2 op.img) ∧ (∀ op ∈ recodedOps, ValidImage 4 3 op.img) ∧
    List.Forall₂ (fun p q : WOp => SameEnv p q ∧ p.label = q.label ∧ ∀ a : Nat, a < 4 → Recoded id (fun _ v => 2 - v) [(a : Int)] p.img q.img)
      semOps1 recodedOps := by
  refine ⟨⟨fun _ v v' _ _ _ _ h => by omega, fun h => by cases h⟩, ?_, ?_, ?_⟩
  · intro op h
    simp only [semOps1, List.mem_cons, List.not_mem_nil, or_false] at h
    rcases h with rfl | rfl
    · exact example_valid.1
    · exact example_valid.2
  · intro op h
    simp only [recodedOps, List.mem_cons, List.not_mem_nil, or_false] at h
    rcases h with rfl | rfl
    all_goals
      refine ⟨rfl, fun i hi => ?_⟩
      change i < 4 at hi
      interval_cases i <;> exact ⟨_, rfl, by decide, by decide⟩
  · refine .cons ⟨rfl, rfl, ?_⟩ (.cons ⟨rfl, rfl, ?_⟩ .nil)
    all_goals
      intro a ha b hb v hv
      rw [List.mem_singleton] at hb
      subst hb
      interval_cases a <;> (cases hv; rfl)

/-- **C163**: pixels may be stored in any order and with others in between. The wiring is given by the options (`indexes` or
`mapping`) for every class that is trained; the second model has the same options with every position `a` replaced by `σ a`, and
is trained with images (of any length) that have at `σ a` what the others have at `a`. Both classify alike. -/
theorem C163_pixels {A : Int} {o : WisardOpts} {σ : Int → Int} {ops ops' : List WOp} {w w' : Wisard} {n n' : Int}
    (g : GoodHistory (Wisard.create A o) ops w n)
    (g' : GoodHistory (Wisard.create A { o with indexes := o.indexes.map σ, mapping := o.mapping.map (fun e => (e.1, e.2.map (·.map σ))) })
      ops' w' n')
    (hgiven : ∀ op ∈ ops, op.isTrain = true → WiringGiven o op.label) {addrs : List Int} (ha : ∀ a, ReadsPixel w a → a ∈ addrs)
    (hops : List.Forall₂ (RecodedOp σ (fun _ v => v) addrs) ops ops')
    {xs ys : List Image} (hx : ∀ x ∈ xs, ValidImage n o.base x) (hy : ∀ y ∈ ys, ValidImage n' o.base y)
    (hxy : List.Forall₂ (Recoded σ (fun _ v => v) addrs) xs ys) :
    List.Forall₂ (fun x y => w.classify1 x = w'.classify1 y) xs ys ∧ w.classify xs = w'.classify ys := by
  refine C161_recoding g g' ⟨rfl, rfl, rfl, rfl⟩ ⟨fun _ _ _ _ _ _ _ h => h, fun _ _ _ _ _ => Iff.rfl⟩ ha hops ?_ hx hy hxy
  refine g.wired_alike g' (σ := σ) rfl rfl rfl rfl ?_
  rw [List.forall₂_iff_get] at hops ⊢
  exact ⟨hops.1, fun i h1 h2 => ⟨(hops.2 i h1 h2).kind, (hops.2 i h1 h2).label, fun t => .inl (hgiven _ (List.get_mem ops ⟨i, h1⟩) t)⟩⟩

/-- A class with given wiring, and the same picture stored backwards with one more pixel in front. -/
def wiredOpts : WisardOpts := { mapping := [(b!"a", [[0, 1], [3, 2]])] }

/-- The hypotheses of C163 are met. -/
example : ∃ w w' : Wisard, GoodHistory (Wisard.create 2 wiredOpts) [.train ⟨Rnd.id, true⟩ (.vec [1, 0, 1, 1]) b!"a"] w 4 ∧
    GoodHistory (Wisard.create 2 { wiredOpts with
        indexes := wiredOpts.indexes.map (fun a => 4 - a)
        mapping := wiredOpts.mapping.map (fun e => (e.1, e.2.map (·.map (fun a => 4 - a)))) })
      [.train ⟨rotRnd, false⟩ (.vec [0, 1, 1, 0, 1]) b!"a"] w' 5 ∧ WiringGiven wiredOpts b!"a" ∧ (∀ a, ReadsPixel w a → a ∈ [0, 1, 2, 3]) ∧
    Recoded (fun a => 4 - a) (fun _ v => v) [0, 1, 2, 3] (.vec [1, 0, 1, 1]) (.vec [0, 1, 1, 0, 1]) := by
  have val : ∀ (l : List Int), (∀ v ∈ l, v = 0 ∨ v = 1) → ValidImage l.length 2 (.vec l) := by
    intro l h
    refine ⟨rfl, fun i hi => ?_⟩
    change i < l.length at hi
    refine ⟨l[i], by simp [Image.read, hi], ?_⟩
    rcases h l[i] (List.getElem_mem hi) with e | e <;> rw [e] <;> decide
  refine ⟨_, _, ⟨rfl, rfl, ?_, ?_, by decide⟩, ⟨rfl, rfl, ?_, ?_, by decide⟩, .inr (by decide), ?_, ?_⟩
  · intro o ho; rw [List.mem_singleton.mp ho]; exact val [1, 0, 1, 1] (by decide)
  · intro l d h
    have := SMap.mem_of_find h
    cases List.mem_singleton.mp this
    decide
  · intro o ho; rw [List.mem_singleton.mp ho]; exact val [0, 1, 1, 0, 1] (by decide)
  · intro l d h
    have := SMap.mem_of_find h
    cases List.mem_singleton.mp this
    decide
  · rintro a ⟨l, d, m, h, hm, ha⟩
    have := SMap.mem_of_find h
    have hd : d.mapping = [[0, 1], [3, 2]] := by cases List.mem_singleton.mp this; rfl
    rw [hd] at hm
    simp only [List.mem_cons, List.not_mem_nil, or_false] at hm
    rcases hm with rfl | rfl
    all_goals
      simp only [List.mem_cons, List.not_mem_nil, or_false] at ha
      rcases ha with rfl | rfl <;> decide
  · intro a ha v hv
    simp only [List.mem_cons, List.not_mem_nil, or_false] at ha
    rcases ha with rfl | rfl | rfl | rfl <;> (cases hv; rfl)

/-- **C164**: pixels that no RAM reads have no influence, neither in training nor in classification, whatever the options. -/
theorem C164_unread {w0 w w' : Wisard} {ops ops' : List WOp} {n : Int} (g : GoodHistory w0 ops w n) (g' : GoodHistory w0 ops' w' n)
    (hops : List.Forall₂ (fun p q : WOp => SameEnv p q ∧ p.label = q.label ∧ ∀ a, ReadsPixel w a → p.img.read a = q.img.read a) ops ops')
    {xs ys : List Image} (hx : ∀ x ∈ xs, ValidImage n w0.opts.base x) (hy : ∀ y ∈ ys, ValidImage n w0.opts.base y)
    (hxy : List.Forall₂ (fun x y => ∀ a, ReadsPixel w a → x.read a = y.read a) xs ys) :
    List.Forall₂ (fun x y => w.classify1 x = w'.classify1 y) xs ys ∧ w.classify xs = w'.classify ys := by
  have hrec : ∀ {x y : Image}, (∀ a, ReadsPixel w a → x.read a = y.read a) →
      Recoded id (fun _ v => v) (w.discriminators.map (fun e => e.2.mapping.flatten)).flatten x y := by
    intro x y h a ha v hv
    obtain ⟨s, hs, ha⟩ := List.mem_flatten.mp ha
    obtain ⟨e, he, rfl⟩ := List.mem_map.mp hs
    obtain ⟨m, hm, ha⟩ := List.mem_flatten.mp ha
    have hsort := (wrun_find g.start ops g.ran).2.2.1
    rw [id, ← h a ⟨e.1, e.2, m, SMap.find_of_mem hsort he, hm, ha⟩]
    exact hv
  have hw := g.wired_alike g' (σ := id) rfl (map_id_mapping _) (List.map_id _).symm rfl (by
    rw [List.forall₂_iff_get] at hops ⊢
    refine ⟨hops.1, fun i h1 h2 => ⟨sameEnv_kind (hops.2 i h1 h2).1, (hops.2 i h1 h2).2.1, fun _ => .inr ⟨rfl, (hops.2 i h1 h2).1, ?_⟩⟩⟩
    have e1 := (g.valid _ (List.get_mem ops ⟨i, h1⟩)).1
    have e2 := (g'.valid _ (List.get_mem ops' ⟨i, h2⟩)).1
    omega)
  refine C161_recoding g g' ⟨rfl, rfl, rfl, rfl⟩ ⟨fun _ _ _ _ _ _ _ h => h, fun _ _ _ _ _ => Iff.rfl⟩ ?_
    (hops.imp fun p q h => ⟨sameEnv_kind h.1, h.2.1, hrec h.2.2⟩) hw hx hy (hxy.imp fun _ _ h => hrec h)
  rintro a ⟨l, d, m, h1, h2, h3⟩
  exact List.mem_flatten.mpr ⟨_, List.mem_map.mpr ⟨(l, d), SMap.mem_of_find h1, rfl⟩, List.mem_flatten.mpr ⟨m, h2, h3⟩⟩

/-- The hypotheses of C164 are met: without complete addressing three pixels leave one unread. -/
example : ∃ w w', GoodHistory (Wisard.create 2 { completeAddressing := false }) [.train ⟨Rnd.id, true⟩ (.vec [1, 0, 1]) b!"a"] w 3 ∧
    GoodHistory (Wisard.create 2 { completeAddressing := false }) [.train ⟨Rnd.id, true⟩ (.vec [1, 0, 0]) b!"a"] w' 3 ∧
    ∀ a, ReadsPixel w a → Image.read (.vec [1, 0, 1]) a = Image.read (.vec [1, 0, 0]) a := by
  have val : ∀ (l : List Int), (∀ v ∈ l, v = 0 ∨ v = 1) → ValidImage l.length 2 (.vec l) := by
    intro l h
    refine ⟨rfl, fun i hi => ?_⟩
    change i < l.length at hi
    refine ⟨l[i], by simp [Image.read, hi], ?_⟩
    rcases h l[i] (List.getElem_mem hi) with e | e <;> rw [e] <;> decide
  refine ⟨_, _, ⟨rfl, rfl, ?_, ?_, by decide⟩, ⟨rfl, rfl, ?_, ?_, by decide⟩, ?_⟩
  · intro o ho; rw [List.mem_singleton.mp ho]; exact val [1, 0, 1] (by decide)
  · intro l d h
    have := SMap.mem_of_find h
    cases List.mem_singleton.mp this
    decide
  · intro o ho; rw [List.mem_singleton.mp ho]; exact val [1, 0, 0] (by decide)
  · intro l d h
    have := SMap.mem_of_find h
    cases List.mem_singleton.mp this
    decide
  · rintro a ⟨l, d, m, h, hm, ha⟩
    have := SMap.mem_of_find h
    have hd : d.mapping = [[0, 1]] := by cases List.mem_singleton.mp this; rfl
    rw [hd] at hm
    rw [List.mem_singleton.mp hm] at ha
    simp only [List.mem_cons, List.not_mem_nil, or_false] at ha
    rcases ha with rfl | rfl <;> rfl

end Wis
