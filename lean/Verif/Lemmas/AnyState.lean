import Verif.Spec.AnyState
import Verif.Lemmas.Wisard
import Verif.Props.LoadSafe
/-! # Any state of a discriminator: what calls change -/

namespace Wis
open Spec

theorem indexLoop_number (img : Image) (base : Int) : ∀ (as : List Int) (index p k : Addr),
    Ram.indexLoop img base as index p = .ok k ↔
      ∃ v, number base img as = some v ∧ k = index + p * BitVec.ofInt 64 v := by
  intro as
  induction as with
  | nil => intro index p k; simp [Ram.indexLoop, number, eq_comm]
  | cons a as ih =>
    intro index p k
    simp only [Ram.indexLoop, number]
    cases ha : img.read a with
    | error e => simp [Except.bind_error]
    | ok v =>
      simp only [Except.bind_ok]
      by_cases hv : v < base
      · rw [if_neg (by omega), ih]
        cases number base img as with
        | none => simp
        | some w =>
          simp only [Option.some.injEq, exists_eq_left', if_pos hv, BitVec.ofInt_add, BitVec.ofInt_mul, BitVec.mul_add]
          rw [BitVec.mul_comm (BitVec.ofInt 64 v) p, BitVec.mul_assoc, BitVec.add_assoc]
      · rw [if_pos (by omega)]
        cases number base img as <;> simp [hv]

theorem getIndex_number (r : Ram) (img : Image) (k : Addr) :
    r.getIndex img = .ok k ↔ ∃ v, number r.base img r.addresses = some v ∧ k = BitVec.ofInt 64 v := by
  unfold Ram.getIndex
  rw [indexLoop_number]
  simp

theorem ofInt_eq_iff (v w : Int) : BitVec.ofInt 64 v = BitVec.ofInt 64 w ↔ (18446744073709551616 : Int) ∣ v - w := by
  rw [← BitVec.toNat_inj, BitVec.toNat_ofInt, BitVec.toNat_ofInt]
  omega

theorem sameNumber_iff (r : Ram) {x : Image} {k : Addr} (hx : r.getIndex x = .ok k) (y : Image) :
    SameNumber r.base r.addresses x y ↔ r.getIndex y = .ok k := by
  obtain ⟨v, hv, rfl⟩ := (getIndex_number r x k).mp hx
  rw [getIndex_number]
  unfold SameNumber
  constructor
  · rintro ⟨v', h1, w, h2, h3⟩
    rw [hv] at h1
    simp only [Option.some.injEq] at h1
    subst h1
    exact ⟨w, h2, (ofInt_eq_iff _ _).mpr h3⟩
  · rintro ⟨w, h2, h3⟩
    exact ⟨v, hv, w, h2, (ofInt_eq_iff _ _).mp h3⟩

theorem zeroNumber_iff (r : Ram) {x : Image} {k : Addr} (hx : r.getIndex x = .ok k) :
    ZeroNumber r.base r.addresses x ↔ k = 0 := by
  obtain ⟨v, hv, rfl⟩ := (getIndex_number r x k).mp hx
  have h := ofInt_eq_iff v 0
  simp only [Int.sub_zero] at h
  unfold ZeroNumber
  rw [show (0 : Addr) = BitVec.ofInt 64 0 from rfl, h]
  constructor
  · rintro ⟨v', h1, h2⟩
    rw [hv] at h1
    simp only [Option.some.injEq] at h1
    subst h1
    exact h2
  · intro h2
    exact ⟨v, hv, h2⟩

/-- The same wires and settings. -/
structure SameWiring (r r' : Ram) : Prop where
  addresses : r'.addresses = r.addresses
  base : r'.base = r.base
  ignoreZero : r'.ignoreZero = r.ignoreZero

theorem SameWiring.refl (r : Ram) : SameWiring r r := ⟨rfl, rfl, rfl⟩

theorem SameWiring.trans {a b c : Ram} (h : SameWiring a b) (h' : SameWiring b c) : SameWiring a c :=
  ⟨h'.addresses.trans h.addresses, h'.base.trans h.base, h'.ignoreZero.trans h.ignoreZero⟩

theorem SameWiring.getIndex {r r' : Ram} (h : SameWiring r r') (x : Image) : r'.getIndex x = r.getIndex x := by
  unfold Ram.getIndex
  rw [h.addresses, h.base]

/-- A RAM after calls: every counter was changed by the calls with its address. -/
structure RamAfter (r r' : Ram) (ops : List Op) : Prop where
  wiring : SameWiring r r'
  cells : ∀ k, r'.positions.find k =
    (ops.filter (fun o => decide (r.getIndex o.img = .ok k))).foldl cellStep (r.positions.find k)

theorem RamAfter.refl (r : Ram) : RamAfter r r [] := ⟨.refl r, fun _ => rfl⟩

theorem RamAfter.trans {a b c : Ram} {p q : List Op} (h : RamAfter a b p) (h' : RamAfter b c q) : RamAfter a c (p ++ q) := by
  refine ⟨h.wiring.trans h'.wiring, fun k => ?_⟩
  rw [h'.cells, h.cells, List.filter_append, List.foldl_append]
  simp only [h.wiring.getIndex]

theorem ram_train_after {r r' : Ram} {img : Image} (h : r.train img = (r', .ok ())) : RamAfter r r' [.train img] := by
  unfold Ram.train at h
  cases hi : r.getIndex img with
  | error e => rw [hi] at h; cases h
  | ok k =>
    rw [hi] at h
    simp only at h
    have hc : ∀ k', decide (r.getIndex (Op.train img).img = .ok k') = decide (k = k') := by
      intro k'
      simp [Op.img, hi]
    cases hf : r.positions.find k with
    | none =>
      rw [hf] at h
      simp only [Prod.mk.injEq, and_true] at h
      subst h
      refine ⟨⟨rfl, rfl, rfl⟩, fun k' => ?_⟩
      simp only [RamT.find_set, List.filter_cons, List.filter_nil, hc]
      by_cases hk : k = k'
      · subst hk; simp [hf, cellStep]
      · simp [hk, Ne.symm hk]
    | some c =>
      rw [hf] at h
      simp only at h
      unfold i32 at h
      by_cases hr : InI32 (c + 1)
      · rw [if_pos hr] at h
        simp only [Prod.mk.injEq, and_true] at h
        subst h
        refine ⟨⟨rfl, rfl, rfl⟩, fun k' => ?_⟩
        simp only [RamT.find_set, List.filter_cons, List.filter_nil, hc]
        by_cases hk : k = k'
        · subst hk; simp [hf, cellStep]
        · simp [hk, Ne.symm hk]
      · rw [if_neg hr] at h; cases h

theorem ram_untrain_after {r r' : Ram} {img : Image} (h : r.untrain img = (r', .ok ())) : RamAfter r r' [.untrain img] := by
  unfold Ram.untrain at h
  cases hi : r.getIndex img with
  | error e => rw [hi] at h; cases h
  | ok k =>
    rw [hi] at h
    simp only at h
    have hc : ∀ k', decide (r.getIndex (Op.untrain img).img = .ok k') = decide (k = k') := by
      intro k'
      simp [Op.img, hi]
    cases hf : r.positions.find k with
    | none =>
      rw [hf] at h
      simp only [Prod.mk.injEq, and_true] at h
      subst h
      refine ⟨⟨rfl, rfl, rfl⟩, fun k' => ?_⟩
      simp only [List.filter_cons, List.filter_nil, hc]
      by_cases hk : k = k'
      · subst hk; simp [hf, cellStep]
      · simp [hk]
    | some c =>
      rw [hf] at h
      simp only at h
      unfold i32 at h
      by_cases hr : InI32 (c - 1)
      · rw [if_pos hr] at h
        simp only [Prod.mk.injEq, and_true] at h
        subst h
        refine ⟨⟨rfl, rfl, rfl⟩, fun k' => ?_⟩
        simp only [RamT.find_set, List.filter_cons, List.filter_nil, hc]
        by_cases hk : k = k'
        · subst hk; simp [hf, cellStep]
        · simp [hk, Ne.symm hk]
      · rw [if_neg hr] at h; cases h

theorem trainRams_after {img : Image} : ∀ {rs rs' : List Ram}, Discriminator.trainRams img rs = (rs', .ok ()) →
    List.Forall₂ (fun r r' => RamAfter r r' [.train img]) rs rs' := by
  intro rs
  induction rs with
  | nil => intro rs' h; simp only [Discriminator.trainRams, Prod.mk.injEq, and_true] at h; subst h; exact .nil
  | cons r rs ih =>
    intro rs' h
    simp only [Discriminator.trainRams] at h
    cases hr : r.train img with
    | mk r1 res =>
      rw [hr] at h
      cases res with
      | error e => cases h
      | ok u =>
        cases ht : Discriminator.trainRams img rs with
        | mk rs1 res1 =>
          simp only [ht, Prod.mk.injEq] at h
          obtain ⟨rfl, rfl⟩ := h
          exact .cons (ram_train_after hr) (ih ht)

theorem untrainRams_after {img : Image} : ∀ {rs rs' : List Ram}, Discriminator.untrainRams img rs = (rs', .ok ()) →
    List.Forall₂ (fun r r' => RamAfter r r' [.untrain img]) rs rs' := by
  intro rs
  induction rs with
  | nil => intro rs' h; simp only [Discriminator.untrainRams, Prod.mk.injEq, and_true] at h; subst h; exact .nil
  | cons r rs ih =>
    intro rs' h
    simp only [Discriminator.untrainRams] at h
    cases hr : r.untrain img with
    | mk r1 res =>
      rw [hr] at h
      cases res with
      | error e => cases h
      | ok u =>
        cases ht : Discriminator.untrainRams img rs with
        | mk rs1 res1 =>
          simp only [ht, Prod.mk.injEq] at h
          obtain ⟨rfl, rfl⟩ := h
          exact .cons (ram_untrain_after hr) (ih ht)

/-- A discriminator after calls. -/
structure DiscAfter (d d' : Discriminator) (ops : List Op) : Prop where
  entrySize : d'.entrySize = d.entrySize
  count : d'.count = d.count + net ops
  rams : List.Forall₂ (fun r r' => RamAfter r r' ops) d.rams d'.rams

theorem forall₂_trans {α : Type} {R S T : α → α → Prop} (h : ∀ a b c, R a b → S b c → T a c) :
    ∀ {l m n : List α}, List.Forall₂ R l m → List.Forall₂ S m n → List.Forall₂ T l n := by
  intro l m n h1
  induction h1 generalizing n with
  | nil => intro h2; cases h2; exact .nil
  | cons a _ ih => intro h2; cases h2 with | cons b h2 => exact .cons (h _ _ _ a b) (ih h2)

theorem DiscAfter.trans {a b c : Discriminator} {p q : List Op} (h : DiscAfter a b p) (h' : DiscAfter b c q) :
    DiscAfter a c (p ++ q) := by
  refine ⟨h'.entrySize.trans h.entrySize, by rw [h'.count, h.count, net_append]; omega, ?_⟩
  exact forall₂_trans (R := fun r r' => RamAfter r r' p) (S := fun r r' => RamAfter r r' q) (fun _ _ _ x y => RamAfter.trans x y) h.rams h'.rams

theorem DiscAfter.refl (d : Discriminator) : DiscAfter d d [] :=
  ⟨rfl, by simp [net], List.forall₂_same.mpr (fun r _ => RamAfter.refl r)⟩

theorem train_after {d d' : Discriminator} {img : Image} (h : d.train img = (d', .ok ())) : DiscAfter d d' [.train img] := by
  unfold Discriminator.train at h
  cases hc : d.checkEntrySize img.size with
  | error e => rw [hc] at h; cases h
  | ok u =>
    rw [hc] at h
    simp only at h
    cases hi : i32 (d.count + 1) with
    | error e => rw [hi] at h; cases h
    | ok c =>
      rw [hi] at h
      simp only at h
      have hc' : c = d.count + 1 := by
        unfold i32 at hi
        by_cases hr : InI32 (d.count + 1)
        · rw [if_pos hr] at hi; simpa using hi.symm
        · rw [if_neg hr] at hi; cases hi
      cases ht : Discriminator.trainRams img d.rams with
      | mk rs res =>
        rw [ht] at h
        simp only [Prod.mk.injEq] at h
        obtain ⟨rfl, rfl⟩ := h
        exact ⟨rfl, by simp [net, hc'], trainRams_after ht⟩

theorem untrain_after {d d' : Discriminator} {img : Image} (h : d.untrain img = (d', .ok ())) : DiscAfter d d' [.untrain img] := by
  unfold Discriminator.untrain at h
  cases hc : d.checkEntrySize img.size with
  | error e => rw [hc] at h; cases h
  | ok u =>
    rw [hc] at h
    simp only at h
    cases hi : i32 (d.count - 1) with
    | error e => rw [hi] at h; cases h
    | ok c =>
      rw [hi] at h
      simp only at h
      have hc' : c = d.count - 1 := by
        unfold i32 at hi
        by_cases hr : InI32 (d.count - 1)
        · rw [if_pos hr] at hi; simpa using hi.symm
        · rw [if_neg hr] at hi; cases hi
      cases ht : Discriminator.untrainRams img d.rams with
      | mk rs res =>
        rw [ht] at h
        simp only [Prod.mk.injEq] at h
        obtain ⟨rfl, rfl⟩ := h
        exact ⟨rfl, by simp [net, hc']; omega, untrainRams_after ht⟩

theorem run_after : ∀ {ops : List Op} {d d' : Discriminator}, run d ops = (d', .ok ()) → DiscAfter d d' ops := by
  intro ops
  induction ops with
  | nil => intro d d' h; simp only [run, Prod.mk.injEq, and_true] at h; subst h; exact .refl d
  | cons o ops ih =>
    intro d d' h
    cases o with
    | train img =>
      simp only [run] at h
      cases ht : d.train img with
      | mk d1 res =>
        rw [ht] at h
        cases res with
        | error e => cases h
        | ok u => exact (train_after ht).trans (ih h)
    | untrain img =>
      simp only [run] at h
      cases ht : d.untrain img with
      | mk d1 res =>
        rw [ht] at h
        cases res with
        | error e => cases h
        | ok u => exact (untrain_after ht).trans (ih h)

theorem DiscAfter.mapping {d d' : Discriminator} {ops : List Op} (h : DiscAfter d d' ops) : d'.mapping = d.mapping := by
  unfold Discriminator.mapping
  have : ∀ {l l' : List Ram}, List.Forall₂ (fun r r' => RamAfter r r' ops) l l' →
      l'.map (·.addresses) = l.map (·.addresses) := by
    intro l l' h
    induction h with
    | nil => rfl
    | cons a _ ih => rw [List.map_cons, List.map_cons, ih, a.wiring.addresses]
  exact this h.rams

/-- Whether a RAM holds something for an image. -/
def Ram.knows (r : Ram) (x : Image) : Bool :=
  match r.getIndex x with
  | .ok k => (r.positions.find k).isSome
  | .error _ => false

theorem getVote_after {r r' : Ram} {ops : List Op} (h : RamAfter r r' ops) (x : Image) :
    (∀ e, r.getVote x = .error e → r'.getVote x = .error e) ∧
    (∀ v, r.getVote x = .ok v → (r.knows x = false → v = 0) ∧
      r'.getVote x = .ok (later r.ignoreZero r.base r.addresses (r.knows x) v ops x)) := by
  unfold Ram.getVote Ram.knows
  rw [h.wiring.getIndex, h.wiring.ignoreZero]
  cases hi : r.getIndex x with
  | error e => simp [Except.bind_error]
  | ok k =>
    simp only [Except.bind_ok]
    have hz := zeroNumber_iff r hi
    have hs : ∀ o : Op, decide (SameNumber r.base r.addresses x o.img) = decide (r.getIndex o.img = .ok k) := by
      intro o; exact decide_eq_decide.mpr (sameNumber_iff r hi o.img)
    unfold later
    simp only [hs, hz]
    by_cases hc : r.ignoreZero = true ∧ k = 0
    · simp only [if_pos hc, if_pos (show (r.ignoreZero && decide (k = 0)) = true by simpa using hc)]
      refine ⟨by simp, fun v hv => ?_⟩
      simp only [Except.ok.injEq] at hv
      exact ⟨fun _ => hv.symm, trivial⟩
    · simp only [if_neg hc, if_neg (show ¬ (r.ignoreZero && decide (k = 0)) = true by simpa using hc), h.cells]
      cases hf : r.positions.find k with
      | none =>
        refine ⟨by simp, fun v hv => ?_⟩
        simp only [Except.ok.injEq] at hv
        refine ⟨fun _ => hv.symm, ?_⟩
        simp only [Option.isSome_none, Bool.false_eq_true, if_false]
        have := cell_getD (ops.filter (fun o => decide (r.getIndex o.img = .ok k)))
        unfold cell at this
        rw [← this]
        cases List.foldl cellStep none (ops.filter (fun o => decide (r.getIndex o.img = .ok k))) <;> rfl
      | some c =>
        refine ⟨by simp, fun v hv => ?_⟩
        simp only [Except.ok.injEq] at hv
        subst hv
        refine ⟨by simp, ?_⟩
        rw [foldl_cell_some]
        simp

theorem votes_after {ops : List Op} (x : Image) : ∀ {rs rs' : List Ram}, List.Forall₂ (fun r r' => RamAfter r r' ops) rs rs' →
    (∀ e, Discriminator.votes x rs = .error e → Discriminator.votes x rs' = .error e) ∧
    (∀ vs, Discriminator.votes x rs = .ok vs →
      List.Forall₂ (fun (r : Ram) v => r.knows x = false → v = 0) rs vs ∧
      Discriminator.votes x rs' = .ok (List.zipWith (fun (r : Ram) v =>
        later r.ignoreZero r.base r.addresses (r.knows x) v ops x) rs vs)) := by
  intro rs rs' h
  induction h with
  | nil =>
    refine ⟨fun e he => (by cases he), fun vs hv => ?_⟩
    simp only [Discriminator.votes, Except.ok.injEq] at hv
    subst hv
    exact ⟨.nil, rfl⟩
  | @cons r r' rs rs' ha hl ih =>
    obtain ⟨g1, g2⟩ := getVote_after ha x
    simp only [Discriminator.votes]
    constructor
    · intro e he
      cases hv : r.getVote x with
      | error e' =>
        rw [hv, Except.bind_error] at he
        rw [g1 e' hv, Except.bind_error]
        injection he with he
        rw [he]
      | ok v =>
        rw [hv, Except.bind_ok] at he
        rw [(g2 v hv).2, Except.bind_ok]
        cases hvs : Discriminator.votes x rs with
        | error e' =>
          rw [hvs, Except.bind_error] at he
          rw [ih.1 e' hvs, Except.bind_error]
          injection he with he
          rw [he]
        | ok vs => rw [hvs, Except.bind_ok] at he; cases he
    · intro vs0 he
      obtain ⟨v, hv, he⟩ := bind_eq_ok he
      obtain ⟨vs, hvs, he⟩ := bind_eq_ok he
      simp only [Except.ok.injEq] at he
      subst he
      obtain ⟨g3, g4⟩ := g2 v hv
      obtain ⟨i1, i2⟩ := ih.2 vs hvs
      exact ⟨.cons g3 i1, by rw [g4, Except.bind_ok, i2, Except.bind_ok]; rfl⟩

theorem classify_after {d d' : Discriminator} {ops : List Op} (h : DiscAfter d d' ops) (x : Image) :
    (∀ e, d.classify x = .error e → d'.classify x = .error e) ∧
    (∀ vs, d.classify x = .ok vs →
      List.Forall₂ (fun (r : Ram) v => r.knows x = false → v = 0) d.rams vs ∧
      d'.classify x = .ok (List.zipWith (fun (r : Ram) v =>
        later r.ignoreZero r.base r.addresses (r.knows x) v ops x) d.rams vs)) := by
  unfold Discriminator.classify Discriminator.checkEntrySize
  rw [h.entrySize]
  by_cases hs : d.entrySize ≠ (x.size : Int)
  · simp only [if_pos hs, Except.bind_error]
    exact ⟨fun e he => he, fun vs hv => (by cases hv)⟩
  · simp only [if_neg hs, Except.bind_ok]
    exact votes_after x h.rams

/-- Trainings only add. -/
theorem later_trains (iz : Bool) (base : Int) (wires : List Int) (known : Bool) (v : Int) (imgs : List Image) (x : Image)
    (hk : known = false → v = 0) (hz : iz = true ∧ ZeroNumber base wires x → v = 0) :
    later iz base wires known v (imgs.map Op.train) x = v + gained iz base wires imgs x := by
  unfold later gained
  by_cases hc : iz = true ∧ ZeroNumber base wires x
  · rw [if_pos hc, if_pos hc, hz hc]; rfl
  · rw [if_neg hc, if_neg hc]
    have hf : (imgs.map Op.train).filter (fun o => decide (SameNumber base wires x o.img)) =
        (imgs.filter (fun y => decide (SameNumber base wires x y))).map Op.train := by
      rw [List.filter_map]; rfl
    have hn : ∀ l : List Image, net (l.map Op.train) = l.length := by
      intro l
      induction l with
      | nil => rfl
      | cons a l ih => simp only [List.map_cons, net, ih, List.length_cons]; omega
    have hd : ∀ l : List Image, (l.map Op.train).dropWhile (fun o => !o.isTrain) = l.map Op.train := by
      intro l; cases l <;> rfl
    simp only [hf, hd, hn]
    cases known with
    | true => rfl
    | false => rw [hk rfl]; simp

theorem silent_zero {r : Ram} {x : Image} {v : Int} (h : r.getVote x = .ok v)
    (hz : r.ignoreZero = true ∧ ZeroNumber r.base r.addresses x) : v = 0 := by
  unfold Ram.getVote at h
  obtain ⟨k, hk, h⟩ := bind_eq_ok h
  rw [zeroNumber_iff r hk] at hz
  rw [if_pos (by simpa using hz)] at h
  simpa using h.symm

theorem votes_silent {x : Image} : ∀ {rs : List Ram} {vs : List Int}, Discriminator.votes x rs = .ok vs →
    List.Forall₂ (fun (r : Ram) v => r.ignoreZero = true ∧ ZeroNumber r.base r.addresses x → v = 0) rs vs := by
  intro rs
  induction rs with
  | nil =>
    intro vs h
    simp only [Discriminator.votes, Except.ok.injEq] at h
    subst h
    exact .nil
  | cons r rs ih =>
    intro vs h
    simp only [Discriminator.votes] at h
    obtain ⟨v, hv, h⟩ := bind_eq_ok h
    obtain ⟨vs, hvs, h⟩ := bind_eq_ok h
    simp only [Except.ok.injEq] at h
    subst h
    exact .cons (silent_zero hv) (ih hvs)

theorem classify_votes {d : Discriminator} {x : Image} {vs : List Int} (h : d.classify x = .ok vs) :
    Discriminator.votes x d.rams = .ok vs := by
  unfold Discriminator.classify at h
  obtain ⟨_, _, h⟩ := bind_eq_ok h
  exact h

theorem zipWith_congr₂ {α : Type} {f g : α → Int → Int} : ∀ {l : List α} {m : List Int},
    List.Forall₂ (fun a b => f a b = g a b) l m → List.zipWith f l m = List.zipWith g l m := by
  intro l m h
  induction h with
  | nil => rfl
  | cons a _ ih => rw [List.zipWith_cons_cons, List.zipWith_cons_cons, a, ih]

theorem forall₂_and {α β : Type} {R S : α → β → Prop} : ∀ {l : List α} {m : List β}, List.Forall₂ R l m → List.Forall₂ S l m →
    List.Forall₂ (fun a b => R a b ∧ S a b) l m := by
  intro l m h
  induction h with
  | nil => intro _; exact .nil
  | cons a _ ih => intro h'; cases h' with | cons b h' => exact .cons ⟨a, b⟩ (ih h')

theorem forall₂_mono {α β : Type} {R S : α → β → Prop} (h : ∀ a b, R a b → S a b) {l : List α} {m : List β}
    (h' : List.Forall₂ R l m) : List.Forall₂ S l m := h'.imp h

end Wis
