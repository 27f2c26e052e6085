import Verif.Spec.Selective
import Verif.Props.Semantics
import Verif.Props.Reproducible
import Verif.Props.RecodeClus
import Verif.Lemmas.Mental
/-!
# C194: a RAM that reads more pixels is more selective
-/

namespace Wis
open Spec

theorem agree_fewer {m m' : List Int} (h : ∀ a ∈ m', a ∈ m) {x y : Image} (ha : Agree m x y) : Agree m' x y := fun a h' => ha a (h a h')

theorem net_filter_split {P P' : Image → Bool} (h : ∀ y, P y = true → P' y = true) (ops : List Op) :
    net (ops.filter (fun o => P' o.img)) = net (ops.filter (fun o => P o.img)) + net (ops.filter (fun o => P' o.img && !P o.img)) := by
  induction ops with
  | nil => rfl
  | cons o ops ih =>
    have := h o.img
    rw [List.filter_cons, List.filter_cons, List.filter_cons]
    cases h1 : P o.img <;> cases h2 : P' o.img <;> rw [h1, h2] at this <;> simp at this <;> cases o <;> simp [net] <;> omega

/-- In a legal history, more calls agree with `x` where fewer pixels are compared. -/
theorem vote_fewer {n base : Int} {ops : List Op} (hl : Legal ops) (hv : ∀ o ∈ ops, ValidImage n base o.img) {m m' : List Int}
    (hm : ∀ a ∈ m, 0 ≤ a ∧ a < n) (h : ∀ a ∈ m', a ∈ m) (x : Image) : vote m ops x ≤ vote m' ops x := by
  rw [(legal_vote hl hv hm x).1, (legal_vote hl hv (fun a ha => hm a (h a ha)) x).1]
  unfold matching
  rw [net_filter_split (P := fun y => decide (Agree m x y)) (P' := fun y => decide (Agree m' x y))
    (fun y hy => decide_eq_true (agree_fewer h (of_decide_eq_true hy)))]
  have := (legal_pred hl (fun o ho => (hv o ho).1) (fun y => decide (Agree m' x y) && !decide (Agree m x y)) (by
    intro a b hn hab
    rw [decide_eq_decide.mpr (hab.agree hm hn), decide_eq_decide.mpr (hab.agree (fun a ha => hm a (h a ha)) hn)])).2
  omega

/-- **C194**: two Discriminators, made in any way, wired inside the image, and the same history of trainings and of untrainings of
trained images. For every picture, a RAM of the second that reads only pixels which a RAM of the first reads votes at least as high as
that one, unless it sees only zeros and is told to ignore that. -/
theorem C194_votes {n A A' : Int} {rnd rnd' : Rnd} {o o' : Options} {d0 d0' : Discriminator} (h : Discriminator.create rnd A n o = .ok d0)
    (h' : Discriminator.create rnd' A' n o' = .ok d0') (hw : WiredInside n d0.mapping) (hw' : WiredInside n d0'.mapping)
    (ops : List Op) (hl : Legal ops) (hlen : ops.length ≤ 2147483647) (hv : ∀ op ∈ ops, ValidImage n o.base op.img)
    (hv' : ∀ op ∈ ops, ValidImage n o'.base op.img) (x : Image) (hx : ValidImage n o.base x) (hx' : ValidImage n o'.base x) :
    ∃ d d' vs vs', run d0 ops = (d, .ok ()) ∧ run d0' ops = (d', .ok ()) ∧ d.classify x = .ok vs ∧ d'.classify x = .ok vs' ∧
      vs.length = d0.mapping.length ∧ vs'.length = d0'.mapping.length ∧
      ∀ (i j : Nat) (m m' : List Int) (v v' : Int), d0.mapping[i]? = some m → d0'.mapping[j]? = some m' → (∀ a ∈ m', a ∈ m) →
        ¬ (o'.ignoreZero = true ∧ ZeroOn m' x) → vs[i]? = some v → vs'[j]? = some v' → v ≤ v' := by
  obtain ⟨d, h1, _⟩ := run_created h hw ops hv hlen
  obtain ⟨d', h1', _⟩ := run_created h' hw' ops hv' hlen
  refine ⟨d, d', _, _, h1, h1', classify_created h hw hv hlen h1 hx, classify_created h' hw' hv' hlen h1' hx', by simp, by simp, ?_⟩
  intro i j m m' v v' hi hj hmm hz hvi hvj
  have hm := hw m (List.mem_of_getElem? hi)
  have hsub : ∀ a ∈ m', 0 ≤ a ∧ a < n := fun a ha => hm a (hmm a ha)
  rw [List.getElem?_map, hi, Option.map_some, Option.some.injEq] at hvi
  rw [List.getElem?_map, hj, Option.map_some, Option.some.injEq, if_neg hz] at hvj
  subst hvj
  have hp := legal_vote hl hv' hsub x
  split at hvi
  · omega
  · rw [← hvi]; exact vote_fewer hl hv hm hmm x

/-- **C194**: a picture that all RAMs of the first Discriminator recognise is recognised by all RAMs of the second, if the wiring of
the second refines that of the first. -/
theorem C194_recognised {n A A' : Int} {rnd rnd' : Rnd} {o o' : Options} {d0 d0' : Discriminator} (h : Discriminator.create rnd A n o = .ok d0)
    (h' : Discriminator.create rnd' A' n o' = .ok d0') (hw : WiredInside n d0.mapping) (hw' : WiredInside n d0'.mapping)
    (href : Refines d0'.mapping d0.mapping) (hz : o'.ignoreZero = false)
    (ops : List Op) (hl : Legal ops) (hlen : ops.length ≤ 2147483647) (hv : ∀ op ∈ ops, ValidImage n o.base op.img)
    (hv' : ∀ op ∈ ops, ValidImage n o'.base op.img) (x : Image) (hx : ValidImage n o.base x) (hx' : ValidImage n o'.base x) (k : Int) :
    ∃ d d' vs vs', run d0 ops = (d, .ok ()) ∧ run d0' ops = (d', .ok ()) ∧ d.classify x = .ok vs ∧ d'.classify x = .ok vs' ∧
      ((∀ v ∈ vs, k ≤ v) → ∀ v' ∈ vs', k ≤ v') := by
  obtain ⟨d, d', vs, vs', a1, a2, a3, a4, a5, a6, a7⟩ := C194_votes h h' hw hw' ops hl hlen hv hv' x hx hx'
  refine ⟨d, d', vs, vs', a1, a2, a3, a4, fun hk v' hv' => ?_⟩
  obtain ⟨j, hj, rfl⟩ := List.mem_iff_getElem.mp hv'
  obtain ⟨m, hm, hsub⟩ := href (d0'.mapping[j]'(by omega)) (List.getElem_mem _)
  obtain ⟨i, hi, rfl⟩ := List.mem_iff_getElem.mp hm
  have := a7 i j _ _ (vs[i]'(by omega)) (vs'[j]) (List.getElem?_eq_getElem hi) (List.getElem?_eq_getElem (by omega)) hsub (by simp [hz])
    (List.getElem?_eq_getElem (by omega)) (List.getElem?_eq_getElem hj)
  exact le_trans (hk _ (List.getElem_mem _)) this

/-- The blocks of size `A` of a list refine its blocks of size `k * A`. -/
theorem blocks_refine (l : List Int) {A k n : Nat} (hA : 0 < A) (hk : 0 < k) (hn : k * A ∣ n) :
    Refines ((List.range (n / A)).map (fun r => (l.take ((r + 1) * A)).drop (r * A)))
      ((List.range (n / (k * A))).map (fun r => (l.take ((r + 1) * (k * A))).drop (r * (k * A)))) := by
  intro m' hm'
  obtain ⟨r, hr, rfl⟩ := List.mem_map.mp hm'
  have hr : r < n / A := List.mem_range.mp hr
  obtain ⟨q, rfl⟩ := hn
  have e1 : k * A * q / A = k * q := by rw [show k * A * q = k * q * A by ring, Nat.mul_div_cancel _ hA]
  have e2 : k * A * q / (k * A) = q := Nat.mul_div_cancel_left _ (Nat.mul_pos hk hA)
  rw [e1] at hr
  have hq : r / k < q := (Nat.div_lt_iff_lt_mul hk).mpr (by rw [Nat.mul_comm]; exact hr)
  refine ⟨_, List.mem_map.mpr ⟨r / k, by rw [e2]; exact List.mem_range.mpr hq, rfl⟩, ?_⟩
  intro a ha
  obtain ⟨j, hj, rfl⟩ := List.mem_iff_getElem.mp ha
  simp only [List.length_drop, List.length_take] at hj
  have h1 : k * (r / k) ≤ r := Nat.mul_div_le r k
  have h2 : r < k * (r / k) + k := by have := Nat.div_add_mod r k; have := Nat.mod_lt r hk; omega
  have h3 : k * (r / k) * A ≤ r * A := Nat.mul_le_mul_right A h1
  have h4 : (r + 1) * A ≤ (k * (r / k) + k) * A := Nat.mul_le_mul_right A h2
  have e3 : r / k * (k * A) = k * (r / k) * A := by ring
  have e4 : (r / k + 1) * (k * A) = (k * (r / k) + k) * A := by ring
  rw [List.getElem_drop, List.getElem_take, List.mem_iff_getElem, e3, e4]
  refine ⟨r * A + j - k * (r / k) * A, by simp only [List.length_drop, List.length_take]; omega, ?_⟩
  rw [List.getElem_drop, List.getElem_take]
  congr 1
  omega

/-- **C194**: larger addresses are more selective. Two Discriminators with the same list of indexes, the address size of the first a
multiple of that of the second, and fitting the image: a picture that all RAMs of the first recognise is recognised by all RAMs of
the second. -/
theorem C194_address_size {n A k : Nat} (hk : 0 < k) (hn : k * A ∣ n) {rnd rnd' : Rnd} {o o' : Options} (hm : o.mapping = []) (hm' : o'.mapping = [])
    (hi : o'.indexes = o.indexes) (hp : o.indexes.Perm ((List.range n).map Int.ofNat)) (hb : 2 ≤ o.base) (hb' : o'.base = o.base)
    (hA : 2 ≤ A) (hn0 : 0 < n) (hfit : o.base ^ (k * A) < 2 ^ 63) (hz : o'.ignoreZero = false)
    (ops : List Op) (hl : Legal ops) (hlen : ops.length ≤ 2147483647) (hv : ∀ op ∈ ops, ValidImage n o.base op.img)
    (x : Image) (hx : ValidImage n o.base x) (t : Int) :
    ∃ d0 d0' d d' vs vs', Discriminator.create rnd (k * A : Nat) n o = .ok d0 ∧ Discriminator.create rnd' A n o' = .ok d0' ∧
      run d0 ops = (d, .ok ()) ∧ run d0' ops = (d', .ok ()) ∧ d.classify x = .ok vs ∧ d'.classify x = .ok vs' ∧
      ((∀ v ∈ vs, t ≤ v) → ∀ v' ∈ vs', t ≤ v') := by
  have hle : k * A ≤ n := Nat.le_of_dvd hn0 hn
  have hAk : A ≤ k * A := Nat.le_mul_of_pos_left A hk
  have hne : o.indexes ≠ [] := by
    intro e
    have := hp.length_eq
    simp [e] at this
    omega
  obtain ⟨p1, p2⟩ := C19_indexes_partial rnd (k * A) n o hm hne
  obtain ⟨q1, q2⟩ := C19_indexes_partial rnd' A n o' hm' (by rw [hi]; exact hne)
  obtain ⟨d0, h0⟩ := p2 (by omega) hle hb hfit hp
  obtain ⟨d0', h0'⟩ := q2 hA (by omega) (by rw [hb']; exact hb)
    (by rw [hb']; exact lt_of_le_of_lt (pow_le_pow_right₀ (by omega) hAk) hfit) (by rw [hi]; exact hp)
  have m0 := (p1 d0 h0).2.2.2.2.2
  have m0' := (q1 d0' h0').2.2.2.2.2
  rw [hi] at m0'
  have inside : ∀ {B : Nat} {M : List (List Int)}, M = (List.range (n / B)).map (fun r => (o.indexes.take ((r + 1) * B)).drop (r * B)) →
      WiredInside n M := by
    rintro B M rfl m hm a ha
    obtain ⟨r, _, rfl⟩ := List.mem_map.mp hm
    have := hp.mem_iff.mp (List.mem_of_mem_take (List.mem_of_mem_drop ha))
    obtain ⟨b, hb, rfl⟩ := List.mem_map.mp this
    have := List.mem_range.mp hb
    exact ⟨by simp, by simpa using this⟩
  obtain ⟨d, d', vs, vs', a⟩ := C194_recognised h0 h0' (inside m0) (inside m0') (by rw [m0, m0']; exact blocks_refine _ (by omega) hk hn) hz
    ops hl hlen hv (by rw [hb']; exact hv) x hx (by rw [hb']; exact hx) t
  exact ⟨d0, d0', d, d', vs, vs', h0, h0', a⟩

/-- **C194** for Wisard, without bleaching: two Wisards trained with the same labelled images. If, in the class `l`, the wiring of the
second refines that of the first, a picture that gets full marks in that class from the first gets full marks from the second. -/
theorem C194_wisard {w0 w0' w w' : Wisard} {ops ops' : List WOp} {n : Int} (g : GoodHistory w0 ops w n) (g' : GoodHistory w0' ops' w' n)
    (t : ∀ o ∈ ops, o.isTrain = true) (t' : ∀ o ∈ ops', o.isTrain = true) (hsame : trained ops' = trained ops)
    (hb : w0.opts.bleachingActivated = false) (hb' : w0'.opts.bleachingActivated = false) (hz : w0'.opts.ignoreZero = false)
    {l : Str} {d d' : Discriminator} (hd : w.discriminators.find l = some d) (hd' : w'.discriminators.find l = some d')
    (href : Refines d'.mapping d.mapping) {x : Image} (hx : ValidImage n w0.opts.base x) (hx' : ValidImage n w0'.opts.base x) :
    ∃ s s', w.classify1 x = .ok s ∧ w'.classify1 x = .ok s' ∧
      (s.find l = some (d.mapping.length : Int) → s'.find l = some (d'.mapping.length : Int)) := by
  obtain ⟨s, a1, _, _, a2⟩ := C106_score_plain g t hb hx
  obtain ⟨s', b1, _, _, b2⟩ := C106_score_plain g' t' hb' hx'
  refine ⟨s, s', a1, b1, fun h => ?_⟩
  have a2 := a2 l
  have b2 := b2 l
  rw [hd, h, Option.map_some, Option.some.injEq] at a2
  rw [hd', Option.map_some] at b2
  rw [b2, Option.some.injEq]
  have hall : knownBy w0.opts.ignoreZero 1 (trainedWith l ops) x d.mapping = d.mapping.length := by exact_mod_cast a2.symm
  unfold knownBy at hall ⊢
  rw [List.countP_eq_length] at hall
  have : d'.mapping.countP (fun m => decide (SeenOften w0'.opts.ignoreZero 1 (trainedWith l ops') x m)) = d'.mapping.length := by
    rw [List.countP_eq_length]
    intro m' hm'
    obtain ⟨m, hm, hsub⟩ := href m' hm'
    have h1 := (of_decide_eq_true (hall m hm)).1
    refine decide_eq_true ⟨?_, by simp [hz]⟩
    rw [show trainedWith l ops' = trainedWith l ops by unfold trainedWith; rw [hsame]]
    obtain ⟨i, hi, hag⟩ := matchCount_pos.mp h1
    exact matchCount_pos.mpr ⟨i, hi, agree_fewer hsub hag⟩
  exact_mod_cast this

/-- The hypotheses of `C194_address_size` are met, and the second Discriminator really recognises more. -/
example : ∃ d0 d0' d d', Discriminator.create Rnd.id (2 * 2 : Nat) (4 : Nat) { indexes := [2, 0, 1, 3] } = .ok d0 ∧
    Discriminator.create Rnd.id (2 : Nat) (4 : Nat) { indexes := [2, 0, 1, 3] } = .ok d0' ∧ Legal [Op.train (.vec [1, 0, 1, 1]), Op.train (.vec [0, 0, 0, 0])] ∧
    run d0 [.train (.vec [1, 0, 1, 1]), .train (.vec [0, 0, 0, 0])] = (d, .ok ()) ∧
    run d0' [.train (.vec [1, 0, 1, 1]), .train (.vec [0, 0, 0, 0])] = (d', .ok ()) ∧
    d.classify (.vec [1, 0, 1, 1]) = .ok [1] ∧ d'.classify (.vec [1, 0, 1, 1]) = .ok [1, 1] ∧
    d.classify (.vec [0, 0, 0, 1]) = .ok [0] ∧ d'.classify (.vec [0, 0, 0, 1]) = .ok [1, 1] :=
  ⟨_, _, _, _, rfl, rfl, legal_trains [.vec [1, 0, 1, 1], .vec [0, 0, 0, 0]], rfl, rfl, rfl, rfl, rfl, rfl⟩

/-- The hypotheses of `C194_wisard` are met: one RAM of four pixels, and two RAMs of two. -/
example : ∃ w w' d d', GoodHistory (Wisard.create 4 { mapping := [(b!"a", [[2, 0, 1, 3]])], bleachingActivated := false })
      [.train ⟨Rnd.id, true⟩ (.vec [1, 0, 1, 1]) b!"a", .train ⟨Rnd.id, true⟩ (.vec [0, 0, 0, 0]) b!"a"] w 4 ∧
    GoodHistory (Wisard.create 2 { mapping := [(b!"a", [[2, 0], [1, 3]])], bleachingActivated := false })
      [.train ⟨rotRnd, true⟩ (.vec [1, 0, 1, 1]) b!"a", .train ⟨Rnd.id, false⟩ (.vec [0, 0, 0, 0]) b!"a"] w' 4 ∧
    w.discriminators.find b!"a" = some d ∧ w'.discriminators.find b!"a" = some d' ∧ Refines d'.mapping d.mapping := by
  refine ⟨(wrun (Wisard.create 4 { mapping := [(b!"a", [[2, 0, 1, 3]])], bleachingActivated := false })
      [.train ⟨Rnd.id, true⟩ (.vec [1, 0, 1, 1]) b!"a", .train ⟨Rnd.id, true⟩ (.vec [0, 0, 0, 0]) b!"a"]).1,
    (wrun (Wisard.create 2 { mapping := [(b!"a", [[2, 0], [1, 3]])], bleachingActivated := false })
      [.train ⟨rotRnd, true⟩ (.vec [1, 0, 1, 1]) b!"a", .train ⟨Rnd.id, false⟩ (.vec [0, 0, 0, 0]) b!"a"]).1, _, _,
    ⟨rfl, by decide +kernel, ?_, ?_, by decide⟩, ⟨rfl, by decide +kernel, ?_, ?_, by decide⟩, rfl, rfl, by unfold Refines; decide +kernel⟩
  · intro o ho
    rcases List.mem_cons.mp ho with rfl | ho
    · exact bits_valid [1, 0, 1, 1] (by decide)
    · cases List.mem_singleton.mp ho
      exact bits_valid [0, 0, 0, 0] (by decide)
  · have h : ∀ e ∈ (wrun (Wisard.create 4 { mapping := [(b!"a", [[2, 0, 1, 3]])], bleachingActivated := false })
      [.train ⟨Rnd.id, true⟩ (.vec [1, 0, 1, 1]) b!"a", .train ⟨Rnd.id, true⟩ (.vec [0, 0, 0, 0]) b!"a"]).1.discriminators,
      ∀ m ∈ e.2.mapping, ∀ a ∈ m, 0 ≤ a ∧ a < (4 : Int) := by decide +kernel
    exact fun l d hd m hm => h _ (SMap.mem_of_find hd) m hm
  · intro o ho
    rcases List.mem_cons.mp ho with rfl | ho
    · exact bits_valid [1, 0, 1, 1] (by decide)
    · cases List.mem_singleton.mp ho
      exact bits_valid [0, 0, 0, 0] (by decide)
  · have h : ∀ e ∈ (wrun (Wisard.create 2 { mapping := [(b!"a", [[2, 0], [1, 3]])], bleachingActivated := false })
      [.train ⟨rotRnd, true⟩ (.vec [1, 0, 1, 1]) b!"a", .train ⟨Rnd.id, false⟩ (.vec [0, 0, 0, 0]) b!"a"]).1.discriminators,
      ∀ m ∈ e.2.mapping, ∀ a ∈ m, 0 ≤ a ∧ a < (4 : Int) := by decide +kernel
    exact fun l d hd m hm => h _ (SMap.mem_of_find hd) m hm

end Wis
