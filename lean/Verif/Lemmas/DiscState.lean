import Verif.Lemmas.Wiring
/-! Helper lemmas: facts about single calls in arbitrary states (no history). -/

namespace Wis
open Spec

theorem indexLoop_inside (img : Image) (base : Int) (as : List Int)
    (h : ∀ a ∈ as, 0 ≤ a ∧ a < (img.size : Int)) (hr : ∀ a, 0 ≤ a → a < (img.size : Int) → ∃ v, img.read a = .ok v) :
    ∀ index p, (∃ k, Ram.indexLoop img base as index p = .ok k) ∨
      Ram.indexLoop img base as index p = .error (.throw .valueTooBig) := by
  induction as with
  | nil => intro i p; exact .inl ⟨i, rfl⟩
  | cons a as ih =>
    intro i p
    obtain ⟨v, hv⟩ := hr a (h a (by simp)).1 (h a (by simp)).2
    simp only [Ram.indexLoop, hv, Except.bind_ok]
    split
    · exact .inr rfl
    · exact ih (fun a ha => h a (List.mem_cons_of_mem _ ha)) _ _

/-- Reading inside an image: always for lists; for BinInput when it is consistent. -/
def Readable (img : Image) : Prop := ∀ a : Int, 0 ≤ a → a < (img.size : Int) → ∃ v, img.read a = .ok v

theorem readable_vec (l : List Int) : Readable (.vec l) := by
  intro a h0 h1
  have : a.toNat < l.length := by simp only [Image.size] at h1; omega
  refine ⟨l[a.toNat], ?_⟩
  simp only [Image.read]
  rw [if_neg (by omega), List.getElem?_eq_getElem this]

theorem readable_valid {n base : Int} {x : Image} (h : ValidImage n base x) : Readable x := by
  intro a h0 h1
  obtain ⟨v, hv, _⟩ := h.2 a.toNat (by omega)
  exact ⟨v, by rwa [Int.toNat_of_nonneg h0] at hv⟩

theorem indexLoop_tooBig (img : Image) (base : Int) (as : List Int)
    (h : ∀ a ∈ as, 0 ≤ a ∧ a < (img.size : Int)) (hr : Readable img)
    (hb : ∃ a ∈ as, ∃ v, img.read a = .ok v ∧ base ≤ v) :
    ∀ index p, Ram.indexLoop img base as index p = .error (.throw .valueTooBig) := by
  induction as with
  | nil => simp at hb
  | cons a as ih =>
    intro i p
    obtain ⟨v, hv⟩ := hr a (h a (by simp)).1 (h a (by simp)).2
    simp only [Ram.indexLoop, hv, Except.bind_ok]
    split
    · rfl
    · rename_i hlt
      apply ih (fun a ha => h a (List.mem_cons_of_mem _ ha))
      obtain ⟨a', ha', w, hw, hbw⟩ := hb
      rcases List.mem_cons.mp ha' with e | e
      · subst e
        rw [hv] at hw
        have := Except.ok.inj hw
        omega
      · exact ⟨a', e, w, hw, hbw⟩

theorem indexLoop_outside (l : List Int) (base : Int) (as : List Int)
    (hv : ∀ v ∈ l, v < base) (hb : ∃ a ∈ as, ¬ (0 ≤ a ∧ a < (l.length : Int))) :
    ∀ index p, Ram.indexLoop (.vec l) base as index p = .error (.ub .outOfBounds) := by
  induction as with
  | nil => simp at hb
  | cons a as ih =>
    intro i p
    by_cases ha : 0 ≤ a ∧ a < (l.length : Int)
    · have hlt : a.toNat < l.length := by omega
      have hread : (Image.vec l).read a = .ok l[a.toNat] := by
        simp only [Image.read]
        rw [if_neg (by omega), List.getElem?_eq_getElem hlt]
      simp only [Ram.indexLoop, hread, Except.bind_ok]
      rw [if_neg (by have := hv _ (List.getElem_mem hlt); omega)]
      apply ih
      obtain ⟨a', ha', hn⟩ := hb
      rcases List.mem_cons.mp ha' with e | e
      · subst e; exact absurd ha hn
      · exact ⟨a', e, hn⟩
    · have hread : (Image.vec l).read a = .error (.ub .outOfBounds) := by
        simp only [Image.read]
        by_cases h0 : a < 0
        · rw [if_pos h0]
        · rw [if_neg h0, List.getElem?_eq_none (by omega)]
      simp only [Ram.indexLoop, hread, Except.bind_error]

theorem indexLoop_congr (x y : Image) (base : Int) (as : List Int)
    (h : ∀ a ∈ as, x.read a = y.read a) : ∀ index p,
    Ram.indexLoop x base as index p = Ram.indexLoop y base as index p := by
  induction as with
  | nil => intro i p; rfl
  | cons a as ih =>
    intro i p
    simp only [Ram.indexLoop, h a (by simp)]
    congr 1; funext v
    split
    · rfl
    · exact ih (fun a ha => h a (List.mem_cons_of_mem _ ha)) _ _

theorem getIndex_congr {x y : Image} {r : Ram} (h : ∀ a ∈ r.addresses, x.read a = y.read a) :
    r.getIndex x = r.getIndex y := indexLoop_congr x y r.base r.addresses h 0 1

theorem ramTrain_congr {x y : Image} {r : Ram} (h : r.getIndex x = r.getIndex y) : r.train x = r.train y := by
  unfold Ram.train; rw [h]

theorem trainRams_congr {x y : Image} (rs : List Ram) (h : ∀ r ∈ rs, r.getIndex x = r.getIndex y) :
    Discriminator.trainRams x rs = Discriminator.trainRams y rs := by
  induction rs with
  | nil => rfl
  | cons r rs ih =>
    simp only [Discriminator.trainRams, ramTrain_congr (h r (by simp)),
      ih (fun r hr => h r (List.mem_cons_of_mem _ hr))]

theorem untrainRams_congr {x y : Image} (rs : List Ram) (h : ∀ r ∈ rs, r.getIndex x = r.getIndex y) :
    Discriminator.untrainRams x rs = Discriminator.untrainRams y rs := by
  induction rs with
  | nil => rfl
  | cons r rs ih =>
    have : r.untrain x = r.untrain y := by unfold Ram.untrain; rw [h r (by simp)]
    simp only [Discriminator.untrainRams, this, ih (fun r hr => h r (List.mem_cons_of_mem _ hr))]

theorem votes_congr {x y : Image} (rs : List Ram) (h : ∀ r ∈ rs, r.getIndex x = r.getIndex y) :
    Discriminator.votes x rs = Discriminator.votes y rs := by
  induction rs with
  | nil => rfl
  | cons r rs ih =>
    have : r.getVote x = r.getVote y := by unfold Ram.getVote; rw [h r (by simp)]
    simp only [Discriminator.votes, this, ih (fun r hr => h r (List.mem_cons_of_mem _ hr))]

/-- What a call may do to a RAM: same wiring, options; no key removed. -/
structure RamLe (r r' : Ram) : Prop where
  addr : r'.addresses = r.addresses
  iz : r'.ignoreZero = r.ignoreZero
  base : r'.base = r.base
  keys : r.positions.keys ⊆ r'.positions.keys
  size : r.positions.length ≤ r'.positions.length

theorem RamLe.refl (r : Ram) : RamLe r r := ⟨rfl, rfl, rfl, fun _ h => h, Nat.le_refl _⟩

theorem RamLe.trans {a b c : Ram} (h : RamLe a b) (h' : RamLe b c) : RamLe a c :=
  ⟨h'.addr.trans h.addr, h'.iz.trans h.iz, h'.base.trans h.base, fun _ k => h'.keys (h.keys k),
    Nat.le_trans h.size h'.size⟩

theorem RamT.set_length (m : RamT) (k : Addr) (c : Int) :
    (m.set k c).length = if k ∈ m.keys then m.length else m.length + 1 := by
  have h1 : (m.set k c).length = (m.set k c).keys.length := by simp [RamT.keys]
  rw [h1, keys_set]
  split <;> simp [RamT.keys]

theorem ramLe_set (r : Ram) (k : Addr) (c : Int) : RamLe r { r with positions := r.positions.set k c } := by
  refine ⟨rfl, rfl, rfl, ?_, ?_⟩
  · intro a ha
    show a ∈ (r.positions.set k c).keys
    rw [RamT.keys_set]
    split
    · exact ha
    · exact List.mem_append_left _ ha
  · show r.positions.length ≤ (r.positions.set k c).length
    rw [RamT.set_length]
    split <;> omega

theorem ramTrain_le (r : Ram) (img : Image) :
    RamLe r (r.train img).1 ∧ (r.train img).1.positions.length ≤ r.positions.length + 1 ∧
    (∀ k, r.getIndex img = .ok k → k ∈ r.positions.keys → (r.train img).1.positions.length = r.positions.length) ∧
    ((r.train img).2 = .ok () → ∃ k, r.getIndex img = .ok k ∧ k ∈ (r.train img).1.positions.keys) := by
  unfold Ram.train
  cases hi : r.getIndex img with
  | error e => exact ⟨.refl r, Nat.le_succ _, fun k hk => by simp at hk, by simp⟩
  | ok k =>
    simp only [Except.ok.injEq]
    have hk : ∀ c, k ∈ (r.positions.set k c).keys := by
      intro c; rw [RamT.keys_set]; split
      · assumption
      · simp
    have hset : ∀ c, (r.positions.set k c).length ≤ r.positions.length + 1 ∧
        (k ∈ r.positions.keys → (r.positions.set k c).length = r.positions.length) := by
      intro c; rw [RamT.set_length]
      constructor
      · split <;> omega
      · intro h; rw [if_pos h]
    cases hf : r.positions.find k with
    | none =>
      exact ⟨ramLe_set r k 1, (hset 1).1, fun k' e h => by subst e; exact (hset 1).2 h, fun _ => ⟨k, rfl, hk 1⟩⟩
    | some c =>
      simp only
      cases hc : i32 (c + 1) with
      | error e => exact ⟨.refl r, Nat.le_succ _, fun _ _ _ => rfl, by simp⟩
      | ok c' =>
        exact ⟨ramLe_set r k c', (hset c').1, fun k' e h => by subst e; exact (hset c').2 h, fun _ => ⟨k, rfl, hk c'⟩⟩

theorem ramUntrain_le (r : Ram) (img : Image) :
    RamLe r (r.untrain img).1 ∧ (r.untrain img).1.positions.length = r.positions.length := by
  unfold Ram.untrain
  cases hi : r.getIndex img with
  | error e => exact ⟨.refl r, rfl⟩
  | ok k =>
    cases hf : r.positions.find k with
    | none => simp only [hf]; exact ⟨.refl r, trivial⟩
    | some c =>
      simp only [hf]
      cases hc : i32 (c - 1) with
      | error e => exact ⟨.refl r, rfl⟩
      | ok c' =>
        refine ⟨ramLe_set r k c', ?_⟩
        show (r.positions.set k c').length = _
        rw [RamT.set_length, if_pos]
        by_contra hn
        rw [← RamT.find_none_iff] at hn
        rw [hf] at hn; simp at hn

abbrev RamsLe := List.Forall₂ RamLe

theorem ramsLe_refl (rs : List Ram) : RamsLe rs rs := by
  induction rs with
  | nil => exact .nil
  | cons r rs ih => exact .cons (.refl r) ih

theorem ramsLe_trans {a b c : List Ram} (h : RamsLe a b) (h' : RamsLe b c) : RamsLe a c := by
  induction h generalizing c with
  | nil => cases h'; exact .nil
  | cons x _ ih => cases h' with | cons y ys => exact .cons (x.trans y) (ih ys)

theorem trainRams_le (img : Image) (rs : List Ram) : RamsLe rs (Discriminator.trainRams img rs).1 := by
  induction rs with
  | nil => exact .nil
  | cons r rs ih =>
    have h := (ramTrain_le r img).1
    simp only [Discriminator.trainRams]
    split
    · rename_i r' e; rw [e] at h; exact .cons h ih
    · rename_i r' e' e; rw [e] at h; exact .cons h (ramsLe_refl rs)

theorem untrainRams_le (img : Image) (rs : List Ram) : RamsLe rs (Discriminator.untrainRams img rs).1 := by
  induction rs with
  | nil => exact .nil
  | cons r rs ih =>
    have h := (ramUntrain_le r img).1
    simp only [Discriminator.untrainRams]
    split
    · rename_i r' e; rw [e] at h; exact .cons h ih
    · rename_i r' e' e; rw [e] at h; exact .cons h (ramsLe_refl rs)

/-- What a call may do to a discriminator. -/
structure DLe (d d' : Discriminator) : Prop where
  entry : d'.entrySize = d.entrySize
  rams : RamsLe d.rams d'.rams

theorem DLe.refl (d : Discriminator) : DLe d d := ⟨rfl, ramsLe_refl _⟩

theorem DLe.trans {a b c : Discriminator} (h : DLe a b) (h' : DLe b c) : DLe a c :=
  ⟨h'.entry.trans h.entry, ramsLe_trans h.rams h'.rams⟩

theorem train_le (d : Discriminator) (img : Image) : DLe d (d.train img).1 := by
  unfold Discriminator.train
  split
  · exact .refl d
  · split
    · exact .refl d
    · exact ⟨rfl, trainRams_le img d.rams⟩

theorem untrain_le (d : Discriminator) (img : Image) : DLe d (d.untrain img).1 := by
  unfold Discriminator.untrain
  split
  · exact .refl d
  · split
    · exact .refl d
    · exact ⟨rfl, untrainRams_le img d.rams⟩

theorem run_le (ops : List Op) : ∀ d : Discriminator, DLe d (run d ops).1 := by
  induction ops with
  | nil => intro d; exact .refl d
  | cons o ops ih =>
    intro d
    cases o with
    | train i =>
      have h := train_le d i
      simp only [run]
      split
      · rename_i d' e; rw [e] at h; exact h.trans (ih d')
      · rename_i d' e' e; rw [e] at h; exact h
    | untrain i =>
      have h := untrain_le d i
      simp only [run]
      split
      · rename_i d' e; rw [e] at h; exact h.trans (ih d')
      · rename_i d' e' e; rw [e] at h; exact h

theorem DLe.mapping {d d' : Discriminator} (h : DLe d d') : d'.mapping = d.mapping := by
  unfold Discriminator.mapping
  have := h.rams
  generalize d.rams = rs at this
  generalize d'.rams = rs' at this
  induction this with
  | nil => rfl
  | cons h _ ih => simp [h.addr, ih]

theorem run_count (ops : List Op) : ∀ {d d' : Discriminator}, run d ops = (d', .ok ()) →
    d'.count = d.count + net ops := by
  have ht : ∀ (d d' : Discriminator) i, d.train i = (d', .ok ()) → d'.count = d.count + 1 := by
    intro d d' i h
    unfold Discriminator.train at h
    split at h
    · simp at h
    · split at h
      · simp at h
      · rename_i c hc
        simp only [Prod.mk.injEq] at h
        rw [← h.1]
        unfold i32 at hc
        split at hc
        · exact (Except.ok.inj hc).symm
        · simp at hc
  have hu : ∀ (d d' : Discriminator) i, d.untrain i = (d', .ok ()) → d'.count = d.count - 1 := by
    intro d d' i h
    unfold Discriminator.untrain at h
    split at h
    · simp at h
    · split at h
      · simp at h
      · rename_i c hc
        simp only [Prod.mk.injEq] at h
        rw [← h.1]
        unfold i32 at hc
        split at hc
        · exact (Except.ok.inj hc).symm
        · simp at hc
  induction ops with
  | nil => intro d d' h; simp only [run, Prod.mk.injEq] at h; rw [← h.1]; simp [net]
  | cons o ops ih =>
    intro d d' h
    cases o with
    | train i =>
      simp only [run] at h
      split at h
      · rename_i d1 e
        have := ih h
        have := ht d d1 i e
        simp only [net]; omega
      · simp at h
    | untrain i =>
      simp only [run] at h
      split at h
      · rename_i d1 e
        have := ih h
        have := hu d d1 i e
        simp only [net]; omega
      · simp at h

theorem run_append (a : List Op) : ∀ (b : List Op) {d d' : Discriminator}, run d a = (d', .ok ()) →
    run d (a ++ b) = run d' b := by
  induction a with
  | nil => intro b d d' h; simp only [run, Prod.mk.injEq] at h; rw [← h.1]; rfl
  | cons o a ih =>
    intro b d d' h
    cases o with
    | train i =>
      simp only [run, List.cons_append] at h ⊢
      split at h
      · exact ih b h
      · simp at h
    | untrain i =>
      simp only [run, List.cons_append] at h ⊢
      split at h
      · exact ih b h
      · simp at h

theorem size_foldl (sr : Int) (rs : List Ram) (s : Int) :
    rs.foldl (fun s r => s + r.getsizeof sr) s = s + (rs.map (fun r => r.getsizeof sr)).sum := by
  induction rs generalizing s with
  | nil => simp
  | cons r rs ih => simp only [List.foldl_cons, List.map_cons, List.sum_cons]; rw [ih]; omega

theorem size_eq (sd sr : Int) (d : Discriminator) :
    d.getsizeof sd sr = sd + (d.rams.map (fun r => r.getsizeof sr)).sum := size_foldl sr d.rams sd

theorem size_mono {sd sr : Int} {d d' : Discriminator} (h : DLe d d') : d.getsizeof sd sr ≤ d'.getsizeof sd sr := by
  rw [size_eq, size_eq]
  have := h.rams
  generalize d.rams = rs at this
  generalize d'.rams = rs' at this
  induction this with
  | nil => simp
  | cons h _ ih =>
    have h1 := h.size
    simp only [List.map_cons, List.sum_cons, Ram.getsizeof, h.addr] at ih ⊢
    omega

theorem ramSize_le {r r' : Ram} (h : RamLe r r') (sr : Int) :
    r'.getsizeof sr = r.getsizeof sr + 12 * ((r'.positions.length : Int) - r.positions.length) := by
  unfold Ram.getsizeof
  rw [h.addr]; omega

theorem trainRams_size (img : Image) (sr : Int) (rs : List Ram) :
    ((Discriminator.trainRams img rs).1.map (fun r => r.getsizeof sr)).sum ≤
      (rs.map (fun r => r.getsizeof sr)).sum + 12 * rs.length := by
  induction rs with
  | nil => simp [Discriminator.trainRams]
  | cons r rs ih =>
    obtain ⟨h1, h2, _⟩ := ramTrain_le r img
    simp only [Discriminator.trainRams]
    split
    · rename_i r' e; rw [e] at h1 h2
      have h5 := ramSize_le h1 sr
      simp only [List.map_cons, List.sum_cons, List.length_cons] at ih h2 h5 ⊢
      push_cast; omega
    · rename_i r' e' e; rw [e] at h1 h2
      have h5 := ramSize_le h1 sr
      simp only [List.map_cons, List.sum_cons, List.length_cons] at ih h2 h5 ⊢
      push_cast; omega

theorem untrainRams_size (img : Image) (sr : Int) (rs : List Ram) :
    ((Discriminator.untrainRams img rs).1.map (fun r => r.getsizeof sr)).sum =
      (rs.map (fun r => r.getsizeof sr)).sum := by
  induction rs with
  | nil => simp [Discriminator.untrainRams]
  | cons r rs ih =>
    obtain ⟨h1, h2⟩ := ramUntrain_le r img
    simp only [Discriminator.untrainRams]
    split
    · rename_i r' e; rw [e] at h1 h2
      have h5 := ramSize_le h1 sr
      simp only [List.map_cons, List.sum_cons] at ih h2 h5 ⊢
      omega
    · rename_i r' e' e; rw [e] at h1 h2
      have h5 := ramSize_le h1 sr
      simp only [List.map_cons, List.sum_cons] at ih h2 h5 ⊢
      omega

/-- All RAMs know the pattern of the image. -/
def Knows (img : Image) (rs : List Ram) : Prop := ∀ r ∈ rs, ∃ k, r.getIndex img = .ok k ∧ k ∈ r.positions.keys

theorem trainRams_knows {img : Image} (rs : List Ram) (h : (Discriminator.trainRams img rs).2 = .ok ()) :
    Knows img (Discriminator.trainRams img rs).1 := by
  induction rs with
  | nil => intro r hr; simp [Discriminator.trainRams] at hr
  | cons r rs ih =>
    obtain ⟨h1, _, _, h4⟩ := ramTrain_le r img
    simp only [Discriminator.trainRams] at h ⊢
    split at h
    · rename_i r' e
      rw [e] at h1 h4
      simp only
      intro r2 hr2
      rcases List.mem_cons.mp hr2 with q | q
      · subst q
        obtain ⟨k, hk, hm⟩ := h4 rfl
        refine ⟨k, ?_, hm⟩
        unfold Ram.getIndex at hk ⊢
        rw [h1.addr, h1.base]; exact hk
      · exact ih h r2 q
    · simp at h

theorem knows_le {img : Image} {rs rs' : List Ram} (h : RamsLe rs rs') (hk : Knows img rs) : Knows img rs' := by
  intro r' hr'
  obtain ⟨r, hr, hle⟩ := forall₂_mem_right h hr'
  obtain ⟨k, h1, h2⟩ := hk r hr
  refine ⟨k, ?_, hle.keys h2⟩
  unfold Ram.getIndex at h1 ⊢
  rw [hle.addr, hle.base]; exact h1

theorem knows_trainRams_size {img : Image} (sr : Int) (rs : List Ram) (hk : Knows img rs) :
    ((Discriminator.trainRams img rs).1.map (fun r => r.getsizeof sr)).sum =
      (rs.map (fun r => r.getsizeof sr)).sum := by
  induction rs with
  | nil => simp [Discriminator.trainRams]
  | cons r rs ih =>
    obtain ⟨h1, _, h3, _⟩ := ramTrain_le r img
    obtain ⟨k, k1, k2⟩ := hk r (by simp)
    have h3 := h3 k k1 k2
    have ih := ih (fun r hr => hk r (List.mem_cons_of_mem _ hr))
    simp only [Discriminator.trainRams]
    split
    · rename_i r' e; rw [e] at h1 h3
      have h5 := ramSize_le h1 sr
      simp only [List.map_cons, List.sum_cons] at ih h3 h5 ⊢
      omega
    · rename_i r' e' e; rw [e] at h1 h3
      have h5 := ramSize_le h1 sr
      simp only [List.map_cons, List.sum_cons] at ih h3 h5 ⊢
      omega

end Wis
