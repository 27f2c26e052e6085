import Verif.Lemmas.Ram
/-! Helper lemmas: a discriminator represents its history. -/

namespace Wis
open Spec

/-! ## Creation -/

/-- What every constructor establishes. -/
structure Fresh (d : Discriminator) (n base : Int) (iz : Bool) : Prop where
  entry : d.entrySize = n
  count : d.count = 0
  base2 : 2 ≤ base
  rams : ∀ r ∈ d.rams, r.positions = [] ∧ r.base = base ∧ r.ignoreZero = iz ∧
    base ^ r.addresses.length ≤ 2 ^ 64

theorem ramCreate_ok {is : List Int} {iz : Bool} {base : Int} {r : Ram} (hb : 2 ≤ base)
    (h : Ram.create is iz base = .ok r) :
    r = { addresses := is, positions := [], ignoreZero := iz, base := base } ∧
      base ^ is.length ≤ 2 ^ 64 := by
  unfold Ram.create at h
  cases hc : Ram.checkLimitAddressSize is.length base with
  | error e => rw [hc] at h; simp [Except.bind_error] at h
  | ok u =>
    rw [hc] at h
    simp only [Except.bind_ok, Except.ok.injEq] at h
    exact ⟨h.symm, checkLimit_fits hb hc⟩

theorem bind_eq_ok {ε α β : Type} {x : Except ε α} {f : α → Except ε β} {b : β}
    (h : x >>= f = .ok b) : ∃ a, x = .ok a ∧ f a = .ok b := by
  cases x with
  | error e => simp [Except.bind_error] at h
  | ok a => exact ⟨a, rfl, by simpa [Except.bind_ok] using h⟩

theorem ramsFrom_ok {is : List Int} {A : Nat} {iz : Bool} {base : Int} (hb : 2 ≤ base) (k : Nat) :
    ∀ {i : Nat} {rs : List Ram}, Discriminator.ramsFrom is A iz base k i = .ok rs →
      (∀ r ∈ rs, r.positions = [] ∧ r.base = base ∧ r.ignoreZero = iz ∧
        base ^ r.addresses.length ≤ 2 ^ 64) ∧
      rs.length = k ∧ (0 < k → (i + k) * A ≤ is.length) ∧
      ∀ j (h : j < rs.length), rs[j].addresses = (is.take ((i + j + 1) * A)).drop ((i + j) * A) := by
  induction k with
  | zero =>
    intro i rs h
    simp only [Discriminator.ramsFrom, Except.ok.injEq] at h
    subst h
    exact ⟨by simp, rfl, by simp, by simp⟩
  | succ k ih =>
    intro i rs h
    simp only [Discriminator.ramsFrom] at h
    obtain ⟨sub, hs, h⟩ := bind_eq_ok h
    obtain ⟨r, hr, h⟩ := bind_eq_ok h
    obtain ⟨rs', hrs, h⟩ := bind_eq_ok h
    simp only [Except.ok.injEq] at h
    subst h
    obtain ⟨h1, h2, h3, h4⟩ := ih hrs
    obtain ⟨hr1, hr2⟩ := ramCreate_ok hb hr
    unfold subVector at hs
    split at hs
    · rename_i hle
      simp only [Except.ok.injEq] at hs
      refine ⟨?_, by simp [h2], ?_, ?_⟩
      · intro x hx
        rcases List.mem_cons.mp hx with hx | hx
        · subst hx; rw [hr1]; exact ⟨rfl, rfl, rfl, hr2⟩
        · exact h1 x hx
      · intro _
        rcases Nat.eq_zero_or_pos k with hk | hk
        · subst hk; simpa using hle
        · have := h3 hk
          rwa [show i + (k + 1) = i + 1 + k by omega]
      · intro j hj
        cases j with
        | zero =>
          simp only [List.getElem_cons_zero, Nat.add_zero]
          rw [hr1, ← hs]
        | succ j =>
          simp only [List.getElem_cons_succ]
          have := h4 j (by simpa using hj)
          rw [this, show i + 1 + j = i + (j + 1) by omega]
    · simp at hs

theorem ramsOfMapping_ok {iz : Bool} {base : Int} (hb : 2 ≤ base) (ms : List (List Int)) :
    ∀ {rs : List Ram}, Discriminator.ramsOfMapping iz base ms = .ok rs →
      (∀ r ∈ rs, r.positions = [] ∧ r.base = base ∧ r.ignoreZero = iz ∧
        base ^ r.addresses.length ≤ 2 ^ 64) ∧ rs.map (·.addresses) = ms := by
  induction ms with
  | nil =>
    intro rs h
    simp only [Discriminator.ramsOfMapping, Except.ok.injEq] at h
    subst h; exact ⟨by simp, rfl⟩
  | cons m ms ih =>
    intro rs h
    simp only [Discriminator.ramsOfMapping] at h
    obtain ⟨r, hr, h⟩ := bind_eq_ok h
    obtain ⟨rs', hrs, h⟩ := bind_eq_ok h
    simp only [Except.ok.injEq] at h
    subst h
    obtain ⟨h1, h2⟩ := ih hrs
    obtain ⟨hr1, hr2⟩ := ramCreate_ok hb hr
    refine ⟨?_, by simp [h2, hr1]⟩
    intro x hx
    rcases List.mem_cons.mp hx with hx | hx
    · subst hx; rw [hr1]; exact ⟨rfl, rfl, rfl, hr2⟩
    · exact h1 x hx

theorem checkBase_ok {base : Int} {u : Unit} (h : Discriminator.checkBase base = .ok u) : 2 ≤ base := by
  unfold Discriminator.checkBase at h
  split at h
  · simp at h
  · omega

theorem checkAddressSize_ok {n A : Int} {u : Unit} (h : Discriminator.checkAddressSize n A = .ok u) :
    2 ≤ A ∧ A ≤ n := by
  unfold Discriminator.checkAddressSize at h
  split at h
  · simp at h
  · split at h
    · simp at h
    · split at h
      · simp at h
      · omega

theorem create_fresh {rnd : Rnd} {A n : Int} {o : Options} {d : Discriminator}
    (h : Discriminator.create rnd A n o = .ok d) : Fresh d n o.base o.ignoreZero := by
  unfold Discriminator.create at h
  split at h
  · unfold Discriminator.setRAMByMapping at h
    obtain ⟨_, hb, h⟩ := bind_eq_ok h
    obtain ⟨rs, hrs, h⟩ := bind_eq_ok h
    simp only [Except.ok.injEq] at h
    subst h
    have hb := checkBase_ok hb
    exact ⟨rfl, rfl, hb, (ramsOfMapping_ok hb _ hrs).1⟩
  · split at h
    · unfold Discriminator.setRAMByIndex at h
      obtain ⟨_, _, h⟩ := bind_eq_ok h
      obtain ⟨_, hb, h⟩ := bind_eq_ok h
      obtain ⟨_, _, h⟩ := bind_eq_ok h
      obtain ⟨rs, hrs, h⟩ := bind_eq_ok h
      simp only [Except.ok.injEq] at h
      subst h
      have hb := checkBase_ok hb
      exact ⟨rfl, rfl, hb, (ramsFrom_ok hb _ hrs).1⟩
    · unfold Discriminator.setRAMShuffle at h
      obtain ⟨_, _, h⟩ := bind_eq_ok h
      obtain ⟨_, hb, h⟩ := bind_eq_ok h
      obtain ⟨_, _, h⟩ := bind_eq_ok h
      obtain ⟨_, _, h⟩ := bind_eq_ok h
      obtain ⟨rs, hrs, h⟩ := bind_eq_ok h
      simp only [Except.ok.injEq] at h
      subst h
      have hb := checkBase_ok hb
      exact ⟨rfl, rfl, hb, (ramsFrom_ok hb _ hrs).1⟩

/-! ## One counter -/

/-- Effect of a call on the counter of its address. -/
def cellStep (c : Option Int) (o : Op) : Option Int :=
  match c, o with
  | none, .train _ => some 1
  | none, .untrain _ => none
  | some c, .train _ => some (c + 1)
  | some c, .untrain _ => some (c - 1)

/-- The counter of an address after the calls with that address. -/
def cell (ops : List Op) : Option Int := ops.foldl cellStep none

theorem foldl_cell_some (ops : List Op) (c : Int) : ops.foldl cellStep (some c) = some (c + net ops) := by
  induction ops generalizing c with
  | nil => simp [net]
  | cons o ops ih =>
    cases o with
    | train i => simp only [List.foldl_cons, cellStep, net]; rw [ih]; congr 1; omega
    | untrain i => simp only [List.foldl_cons, cellStep, net]; rw [ih]; congr 1; omega

theorem cell_eq (ops : List Op) :
    cell ops = if ops.any Op.isTrain then some (net (ops.dropWhile (fun o => !o.isTrain))) else none := by
  induction ops with
  | nil => rfl
  | cons o ops ih =>
    cases o with
    | train i =>
      simp only [cell, List.foldl_cons, cellStep]
      rw [foldl_cell_some]
      simp [Op.isTrain, net]; omega
    | untrain i =>
      have : cell (.untrain i :: ops) = cell ops := rfl
      rw [this, ih]
      simp [Op.isTrain]

theorem dropWhile_all (ops : List Op) (h : ops.any Op.isTrain = false) :
    ops.dropWhile (fun o => !o.isTrain) = [] := by
  induction ops with
  | nil => rfl
  | cons o ops ih =>
    simp only [List.any_cons, Bool.or_eq_false_iff] at h
    simp [h.1, ih h.2]

theorem cell_getD (ops : List Op) : (cell ops).getD 0 = net (ops.dropWhile (fun o => !o.isTrain)) := by
  rw [cell_eq]
  cases h : ops.any Op.isTrain with
  | true => simp
  | false => simp [dropWhile_all ops h, net]

theorem cell_bound (ops : List Op) (c : Int) (h : cell ops = some c) : -(ops.length : Int) ≤ c ∧ c ≤ ops.length := by
  have hnet : ∀ l : List Op, -(l.length : Int) ≤ net l ∧ net l ≤ l.length := by
    intro l
    induction l with
    | nil => simp [net]
    | cons o l ih => cases o <;> simp only [net, List.length_cons] <;> omega
  rw [cell_eq] at h
  split at h
  · simp only [Option.some.injEq] at h
    subst h
    have h1 := hnet (ops.dropWhile (fun o => !o.isTrain))
    have h2 := List.Sublist.length_le (List.dropWhile_sublist (fun o : Op => !o.isTrain) (l := ops))
    omega
  · simp at h

theorem cell_append (ops : List Op) (o : Op) : cell (ops ++ [o]) = cellStep (cell ops) o := by
  simp [cell]

/-! ## One RAM -/

/-- RAM `r`, created as `r0`, has the contents of the history `ops`. -/
structure RamRep (n : Int) (r0 r : Ram) (ops : List Op) : Prop where
  addr : r.addresses = r0.addresses
  iz : r.ignoreZero = r0.ignoreZero
  base : r.base = r0.base
  nodup : r.positions.keys.Nodup
  find : ∀ k, r.positions.find k =
    cell (ops.filter (fun o => decide (key r0.base r0.addresses o.img = k)))

/-- Every wire inside. -/
def InsideRam (n : Int) (r : Ram) : Prop := ∀ a ∈ r.addresses, 0 ≤ a ∧ a < n

theorem i32_ok {x : Int} (h : -2147483648 ≤ x ∧ x ≤ 2147483647) : i32 x = .ok x := by
  have : InI32 x := h
  unfold i32; rw [if_pos this]

theorem ram_train_rep {n : Int} {r0 r : Ram} {ops : List Op} (h : RamRep n r0 r ops)
    (hin : InsideRam n r0) {img : Image} (hv : ValidImage n r0.base img) (hlen : ops.length < 2147483647) :
    ∃ r', r.train img = (r', .ok ()) ∧ RamRep n r0 r' (ops ++ [.train img]) := by
  have hidx : r.getIndex img = .ok (key r0.base r0.addresses img) := by
    rw [getIndex_valid (n := n) (by rw [h.base]; exact hv) (by rw [h.addr]; exact hin), h.base, h.addr]
  unfold Ram.train
  rw [hidx]
  simp only
  have hf := h.find (key r0.base r0.addresses img)
  have hfilt : ∀ k, (ops ++ [Op.train img]).filter (fun o => decide (key r0.base r0.addresses o.img = k)) =
      if key r0.base r0.addresses img = k then
        ops.filter (fun o => decide (key r0.base r0.addresses o.img = k)) ++ [.train img]
      else ops.filter (fun o => decide (key r0.base r0.addresses o.img = k)) := by
    intro k
    rw [List.filter_append]
    by_cases hk : key r0.base r0.addresses img = k
    · simp [hk, Op.img]
    · simp [hk, Op.img]
  cases hc : r.positions.find (key r0.base r0.addresses img) with
  | none =>
    refine ⟨_, rfl, h.addr, h.iz, h.base, RamT.nodup_set h.nodup _ _, ?_⟩
    intro k
    simp only [RamT.find_set, hfilt]
    by_cases hk : k = key r0.base r0.addresses img
    · subst hk
      simp only [if_true, cell_append]
      rw [← hf, hc]; rfl
    · rw [if_neg hk, if_neg (fun e => hk e.symm)]
      exact h.find k
  | some c =>
    have hb : -2147483648 ≤ c + 1 ∧ c + 1 ≤ 2147483647 := by
      have := cell_bound _ c (by rw [← hf]; exact hc)
      have h2 := List.length_filter_le (fun o => decide (key r0.base r0.addresses o.img = key r0.base r0.addresses img)) ops
      omega
    simp only [i32_ok hb]
    refine ⟨_, rfl, h.addr, h.iz, h.base, RamT.nodup_set h.nodup _ _, ?_⟩
    intro k
    simp only [RamT.find_set, hfilt]
    by_cases hk : k = key r0.base r0.addresses img
    · subst hk
      simp only [if_true, cell_append]
      rw [← hf, hc]; rfl
    · rw [if_neg hk, if_neg (fun e => hk e.symm)]
      exact h.find k

theorem ram_untrain_rep {n : Int} {r0 r : Ram} {ops : List Op} (h : RamRep n r0 r ops)
    (hin : InsideRam n r0) {img : Image} (hv : ValidImage n r0.base img) (hlen : ops.length < 2147483647) :
    ∃ r', r.untrain img = (r', .ok ()) ∧ RamRep n r0 r' (ops ++ [.untrain img]) := by
  have hidx : r.getIndex img = .ok (key r0.base r0.addresses img) := by
    rw [getIndex_valid (n := n) (by rw [h.base]; exact hv) (by rw [h.addr]; exact hin), h.base, h.addr]
  unfold Ram.untrain
  rw [hidx]
  simp only
  have hf := h.find (key r0.base r0.addresses img)
  have hfilt : ∀ k, (ops ++ [Op.untrain img]).filter (fun o => decide (key r0.base r0.addresses o.img = k)) =
      if key r0.base r0.addresses img = k then
        ops.filter (fun o => decide (key r0.base r0.addresses o.img = k)) ++ [.untrain img]
      else ops.filter (fun o => decide (key r0.base r0.addresses o.img = k)) := by
    intro k
    rw [List.filter_append]
    by_cases hk : key r0.base r0.addresses img = k
    · simp [hk, Op.img]
    · simp [hk, Op.img]
  cases hc : r.positions.find (key r0.base r0.addresses img) with
  | none =>
    refine ⟨_, rfl, h.addr, h.iz, h.base, h.nodup, ?_⟩
    intro k
    simp only [hfilt]
    by_cases hk : k = key r0.base r0.addresses img
    · subst hk
      simp only [if_true, cell_append]
      rw [← hf, hc]; rfl
    · rw [if_neg (fun e => hk e.symm)]
      exact h.find k
  | some c =>
    have hb : -2147483648 ≤ c - 1 ∧ c - 1 ≤ 2147483647 := by
      have := cell_bound _ c (by rw [← hf]; exact hc)
      have h2 := List.length_filter_le (fun o => decide (key r0.base r0.addresses o.img = key r0.base r0.addresses img)) ops
      omega
    simp only [i32_ok hb]
    refine ⟨_, rfl, h.addr, h.iz, h.base, RamT.nodup_set h.nodup _ _, ?_⟩
    intro k
    simp only [RamT.find_set, hfilt]
    by_cases hk : k = key r0.base r0.addresses img
    · subst hk
      simp only [if_true, cell_append]
      rw [← hf, hc]; rfl
    · rw [if_neg hk, if_neg (fun e => hk e.symm)]
      exact h.find k

theorem ram_vote_rep {n : Int} {r0 r : Ram} {ops : List Op} (h : RamRep n r0 r ops)
    (hin : InsideRam n r0) (hb : 2 ≤ r0.base) (hfit : r0.base ^ r0.addresses.length ≤ 2 ^ 64)
    (hops : ∀ o ∈ ops, ValidImage n r0.base o.img) {x : Image} (hx : ValidImage n r0.base x) :
    r.getVote x = .ok (if r0.ignoreZero = true ∧ ZeroOn r0.addresses x then 0
      else vote r0.addresses ops x) := by
  have hidx : r.getIndex x = .ok (key r0.base r0.addresses x) := by
    rw [getIndex_valid (n := n) (by rw [h.base]; exact hx) (by rw [h.addr]; exact hin), h.base, h.addr]
  unfold Ram.getVote
  rw [hidx, Except.bind_ok, h.iz]
  have hz := key_eq_zero_iff (by omega) hx hin hfit
  by_cases hc : r0.ignoreZero = true ∧ ZeroOn r0.addresses x
  · rw [if_pos hc, if_pos (by simp [hc.1, hz.mpr hc.2])]
  · rw [if_neg hc, if_neg (by
      intro hh
      simp only [Bool.and_eq_true, decide_eq_true_eq] at hh
      exact hc ⟨hh.1, hz.mp hh.2⟩)]
    have hm : ops.filter (fun o => decide (key r0.base r0.addresses o.img = key r0.base r0.addresses x)) =
        matching r0.addresses x ops := by
      unfold matching
      apply List.filter_congr
      intro o ho
      rw [decide_eq_decide]
      rw [show (key r0.base r0.addresses o.img = key r0.base r0.addresses x) ↔
        (key r0.base r0.addresses x = key r0.base r0.addresses o.img) from eq_comm]
      exact key_eq_iff (by omega) hx (hops o ho) hin hfit
    have hf := h.find (key r0.base r0.addresses x)
    rw [hm] at hf
    have hg := cell_getD (matching r0.addresses x ops)
    unfold vote
    rw [← hg, ← hf]
    cases r.positions.find (key r0.base r0.addresses x) <;> rfl

/-! ## All RAMs of a discriminator -/

/-- The discriminator `d`, created as `d0`, has seen the history `ops`. -/
structure DRep (n : Int) (d0 d : Discriminator) (ops : List Op) : Prop where
  entry : d.entrySize = n
  count : d.count = net ops
  rams : List.Forall₂ (fun r0 r => RamRep n r0 r ops) d0.rams d.rams

theorem trainRams_rep {n : Int} {rs0 rs : List Ram} {ops : List Op} {img : Image}
    (h : List.Forall₂ (fun r0 r => RamRep n r0 r ops) rs0 rs) (hin : ∀ r ∈ rs0, InsideRam n r)
    (hv : ∀ r ∈ rs0, ValidImage n r.base img) (hlen : ops.length < 2147483647) :
    ∃ rs', Discriminator.trainRams img rs = (rs', .ok ()) ∧
      List.Forall₂ (fun r0 r => RamRep n r0 r (ops ++ [.train img])) rs0 rs' := by
  induction h with
  | nil => exact ⟨[], rfl, .nil⟩
  | cons h1 _ ih =>
    obtain ⟨rs', e1, e2⟩ := ih (fun r hr => hin r (List.mem_cons_of_mem _ hr))
      (fun r hr => hv r (List.mem_cons_of_mem _ hr))
    obtain ⟨r', e3, e4⟩ := ram_train_rep h1 (hin _ (by simp)) (hv _ (by simp)) hlen
    refine ⟨r' :: rs', ?_, .cons e4 e2⟩
    simp only [Discriminator.trainRams, e3, e1]

theorem untrainRams_rep {n : Int} {rs0 rs : List Ram} {ops : List Op} {img : Image}
    (h : List.Forall₂ (fun r0 r => RamRep n r0 r ops) rs0 rs) (hin : ∀ r ∈ rs0, InsideRam n r)
    (hv : ∀ r ∈ rs0, ValidImage n r.base img) (hlen : ops.length < 2147483647) :
    ∃ rs', Discriminator.untrainRams img rs = (rs', .ok ()) ∧
      List.Forall₂ (fun r0 r => RamRep n r0 r (ops ++ [.untrain img])) rs0 rs' := by
  induction h with
  | nil => exact ⟨[], rfl, .nil⟩
  | cons h1 _ ih =>
    obtain ⟨rs', e1, e2⟩ := ih (fun r hr => hin r (List.mem_cons_of_mem _ hr))
      (fun r hr => hv r (List.mem_cons_of_mem _ hr))
    obtain ⟨r', e3, e4⟩ := ram_untrain_rep h1 (hin _ (by simp)) (hv _ (by simp)) hlen
    refine ⟨r' :: rs', ?_, .cons e4 e2⟩
    simp only [Discriminator.untrainRams, e3, e1]

theorem net_bound (l : List Op) : -(l.length : Int) ≤ net l ∧ net l ≤ l.length := by
  induction l with
  | nil => simp [net]
  | cons o l ih => cases o <;> simp only [net, List.length_cons] <;> omega

theorem net_append (a b : List Op) : net (a ++ b) = net a + net b := by
  induction a with
  | nil => simp [net]
  | cons o a ih => cases o <;> simp only [List.cons_append, net] <;> omega

theorem inside_of {n : Int} {d0 : Discriminator} (h : WiredInside n d0.mapping) :
    ∀ r ∈ d0.rams, InsideRam n r := by
  intro r hr
  exact h _ (List.mem_map.mpr ⟨r, hr, rfl⟩)

theorem train_rep {n base : Int} {iz : Bool} {d0 d : Discriminator} {ops : List Op} (hf : Fresh d0 n base iz)
    (hin : WiredInside n d0.mapping) (h : DRep n d0 d ops) {img : Image} (hv : ValidImage n base img)
    (hlen : ops.length < 2147483647) :
    ∃ d', d.train img = (d', .ok ()) ∧ DRep n d0 d' (ops ++ [.train img]) := by
  obtain ⟨rs', e1, e2⟩ := trainRams_rep h.rams (inside_of hin)
    (fun r hr => by rw [(hf.rams r hr).2.1]; exact hv) hlen
  unfold Discriminator.train Discriminator.checkEntrySize
  rw [if_neg (by rw [h.entry, hv.1]; simp)]
  have := net_bound ops
  simp only
  rw [i32_ok (by rw [h.count]; omega)]
  simp only [e1]
  refine ⟨_, rfl, h.entry, ?_, e2⟩
  rw [net_append, h.count]; rfl

theorem untrain_rep {n base : Int} {iz : Bool} {d0 d : Discriminator} {ops : List Op} (hf : Fresh d0 n base iz)
    (hin : WiredInside n d0.mapping) (h : DRep n d0 d ops) {img : Image} (hv : ValidImage n base img)
    (hlen : ops.length < 2147483647) :
    ∃ d', d.untrain img = (d', .ok ()) ∧ DRep n d0 d' (ops ++ [.untrain img]) := by
  obtain ⟨rs', e1, e2⟩ := untrainRams_rep h.rams (inside_of hin)
    (fun r hr => by rw [(hf.rams r hr).2.1]; exact hv) hlen
  unfold Discriminator.untrain Discriminator.checkEntrySize
  rw [if_neg (by rw [h.entry, hv.1]; simp)]
  have := net_bound ops
  simp only
  rw [i32_ok (by rw [h.count]; omega)]
  simp only [e1]
  refine ⟨_, rfl, h.entry, ?_, e2⟩
  rw [net_append, h.count]; rfl

theorem run_rep {n base : Int} {iz : Bool} {d0 : Discriminator} (hf : Fresh d0 n base iz)
    (hin : WiredInside n d0.mapping) (ops : List Op) : ∀ {d : Discriminator} {pre : List Op},
    DRep n d0 d pre → (∀ o ∈ ops, ValidImage n base o.img) → pre.length + ops.length ≤ 2147483647 →
    ∃ d', run d ops = (d', .ok ()) ∧ DRep n d0 d' (pre ++ ops) := by
  induction ops with
  | nil => intro d pre h _ _; exact ⟨d, rfl, by simpa using h⟩
  | cons o ops ih =>
    intro d pre h hv hlen
    simp only [List.length_cons] at hlen
    cases o with
    | train img =>
      obtain ⟨d1, e1, e2⟩ := train_rep hf hin h (hv (.train img) (by simp)) (by omega)
      obtain ⟨d2, e3, e4⟩ := ih e2 (fun x hx => hv x (List.mem_cons_of_mem _ hx)) (by simp; omega)
      refine ⟨d2, ?_, by simpa [Op.img] using e4⟩
      simp only [run, Op.img] at e1 ⊢
      simp only [e1, e3]
    | untrain img =>
      obtain ⟨d1, e1, e2⟩ := untrain_rep hf hin h (hv (.untrain img) (by simp)) (by omega)
      obtain ⟨d2, e3, e4⟩ := ih e2 (fun x hx => hv x (List.mem_cons_of_mem _ hx)) (by simp; omega)
      refine ⟨d2, ?_, by simpa [Op.img] using e4⟩
      simp only [run, Op.img] at e1 ⊢
      simp only [e1, e3]

theorem fresh_rep {n base : Int} {iz : Bool} {d0 : Discriminator} (hf : Fresh d0 n base iz) :
    DRep n d0 d0 [] := by
  refine ⟨hf.entry, hf.count, ?_⟩
  have : ∀ rs : List Ram, (∀ r ∈ rs, r.positions = []) →
      List.Forall₂ (fun r0 r => RamRep n r0 r []) rs rs := by
    intro rs
    induction rs with
    | nil => intro _; exact .nil
    | cons r rs ih =>
      intro h
      refine .cons ⟨rfl, rfl, rfl, ?_, ?_⟩ (ih (fun x hx => h x (List.mem_cons_of_mem _ hx)))
      · rw [h r (by simp)]; simp [RamT.keys]
      · intro k; rw [h r (by simp)]; rfl
  exact this _ (fun r hr => (hf.rams r hr).1)

theorem votes_rep {n base : Int} {iz : Bool} {rs0 rs : List Ram} {ops : List Op} {x : Image}
    (hb : 2 ≤ base)
    (h : List.Forall₂ (fun r0 r => RamRep n r0 r ops) rs0 rs) (hin : ∀ r ∈ rs0, InsideRam n r)
    (hr : ∀ r ∈ rs0, r.base = base ∧ r.ignoreZero = iz ∧ base ^ r.addresses.length ≤ 2 ^ 64)
    (hops : ∀ o ∈ ops, ValidImage n base o.img) (hx : ValidImage n base x) :
    Discriminator.votes x rs = .ok ((rs0.map (·.addresses)).map (fun m =>
      if iz = true ∧ ZeroOn m x then 0 else vote m ops x)) := by
  induction h with
  | nil => rfl
  | @cons r0 r _ _ h1 _ ih =>
    obtain ⟨b1, b2, b3⟩ := hr r0 (by simp)
    have ih := ih (fun r hr => hin r (List.mem_cons_of_mem _ hr)) (fun r h => hr r (List.mem_cons_of_mem _ h))
    have hv := ram_vote_rep h1 (hin _ (by simp)) (by omega) (by rw [b1]; exact b3)
      (by rw [b1]; exact hops) (by rw [b1]; exact hx)
    simp only [Discriminator.votes, hv, ih, Except.bind_ok, List.map_cons, b2]

theorem mapping_rep {n : Int} {d0 d : Discriminator} {ops : List Op} (h : DRep n d0 d ops) :
    d.mapping = d0.mapping := by
  unfold Discriminator.mapping
  have : ∀ rs0 rs : List Ram, List.Forall₂ (fun r0 r => RamRep n r0 r ops) rs0 rs →
      rs.map (·.addresses) = rs0.map (·.addresses) := by
    intro rs0 rs h
    induction h with
    | nil => rfl
    | cons h1 _ ih => simp [h1.addr, ih]
  exact this _ _ h.rams

theorem classify_rep {n base : Int} {iz : Bool} {d0 d : Discriminator} {ops : List Op} (hf : Fresh d0 n base iz)
    (hin : WiredInside n d0.mapping) (h : DRep n d0 d ops) (hops : ∀ o ∈ ops, ValidImage n base o.img)
    {x : Image} (hx : ValidImage n base x) :
    d.classify x = .ok (d0.mapping.map (fun m => if iz = true ∧ ZeroOn m x then 0 else vote m ops x)) := by
  unfold Discriminator.classify Discriminator.checkEntrySize
  rw [if_neg (by rw [h.entry, hx.1]; simp), Except.bind_ok]
  exact votes_rep hf.base2 h.rams (inside_of hin) (fun r hr => (hf.rams r hr).2) hops hx

end Wis
