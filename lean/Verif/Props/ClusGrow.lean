import Verif.Props.NoiseClus
import Verif.Props.Single
import Verif.Props.TeachClus
/-!
# Property C176: more training and ClusWisard

No call lowers a vote of a ClusWisard's discriminator (`C176_votes`), so without bleaching no call lowers a score (`C176_scores`), and a `train` call can
take an image over only to a class it trained (`C176_takeover`). With bleaching training may lower scores and move images between classes it did not
train (`C176_needs_plain`).
-/

namespace Wis
open Spec

/-- The votes for `x` are not lower. -/
def NotLower (x : Image) (d d' : Discriminator) : Prop :=
  ∀ u, d.classify x = .ok u → ∃ u', d'.classify x = .ok u' ∧ List.Forall₂ (· ≤ ·) u u'

theorem forall₂_le_refl (u : List Int) : List.Forall₂ (· ≤ ·) u u := by
  induction u with
  | nil => exact .nil
  | cons a u ih => exact .cons (le_refl a) ih

theorem forall₂_le_trans {a b c : List Int} (h : List.Forall₂ (· ≤ ·) a b) (h' : List.Forall₂ (· ≤ ·) b c) : List.Forall₂ (· ≤ ·) a c := by
  induction h generalizing c with
  | nil => cases h'; exact .nil
  | cons h1 _ ih => cases h' with
    | cons h2 h3 => exact .cons (le_trans h1 h2) (ih h3)

/-- Training, failing or not, of a RAM. -/
theorem ram_train_notLower (r : Ram) (img x : Image) {v : Int} (h : r.getVote x = .ok v) :
    ∃ v', (r.train img).1.getVote x = .ok v' ∧ v ≤ v' := by
  have key : ∀ (k : Addr) (c' : Int), (r.positions.find k).getD 0 ≤ c' →
      ∃ v', ({ r with positions := r.positions.set k c' } : Ram).getVote x = .ok v' ∧ v ≤ v' := by
    intro k c' hc
    unfold Ram.getVote at h ⊢
    obtain ⟨i, h1, h2⟩ := bind_eq_ok h
    have h1' : ({ r with positions := r.positions.set k c' } : Ram).getIndex x = .ok i := h1
    rw [h1', Except.bind_ok]
    simp only at h2 ⊢
    split at h2
    · rename_i hz
      rw [if_pos hz]
      exact ⟨v, h2, le_refl v⟩
    · rename_i hz
      rw [if_neg hz]
      simp only [RamT.find_set]
      by_cases hik : i = k
      · subst hik
        simp only [if_true]
        refine ⟨c', rfl, ?_⟩
        cases hf : r.positions.find i with
        | none => rw [hf] at h2 hc; cases h2; exact hc
        | some c => rw [hf] at h2 hc; cases h2; exact hc
      · rw [if_neg hik]
        exact ⟨v, h2, le_refl v⟩
  unfold Ram.train
  split
  · exact ⟨v, h, le_refl v⟩
  · rename_i k hk
    split
    · rename_i hf
      exact key k 1 (by rw [hf]; decide)
    · rename_i c hf
      split
      · exact ⟨v, h, le_refl v⟩
      · rename_i c' hc
        have hcc : c' = c + 1 := by
          unfold i32 at hc
          split at hc <;> simp_all
        exact key k c' (by rw [hf, hcc]; simp)

theorem rams_train_notLower (img x : Image) (rs : List Ram) : ∀ {u : List Int}, Discriminator.votes x rs = .ok u →
    ∃ u', Discriminator.votes x (Discriminator.trainRams img rs).1 = .ok u' ∧ List.Forall₂ (· ≤ ·) u u' := by
  induction rs with
  | nil => intro u h; exact ⟨u, h, forall₂_le_refl u⟩
  | cons r rs ih =>
    intro u h
    have h0 := h
    simp only [Discriminator.votes] at h
    obtain ⟨v, h1, h⟩ := bind_eq_ok h
    obtain ⟨vs, h2, h⟩ := bind_eq_ok h
    cases h
    obtain ⟨v', g1, g2⟩ := ram_train_notLower r img x h1
    obtain ⟨vs', g3, g4⟩ := ih h2
    simp only [Discriminator.trainRams]
    split
    · rename_i r' hr
      rw [hr] at g1
      refine ⟨v' :: vs', ?_, .cons g2 g4⟩
      simp only [Discriminator.votes, g1, g3, Except.bind_ok]
    · rename_i r' e hr
      rw [hr] at g1
      refine ⟨v' :: vs, ?_, .cons g2 (forall₂_le_refl vs)⟩
      simp only [Discriminator.votes, g1, h2, Except.bind_ok]

theorem train_notLower (x : Image) (d : Discriminator) (img : Image) : NotLower x d (d.train img).1 := by
  intro u h
  unfold Discriminator.classify at h
  obtain ⟨_, h1, h2⟩ := bind_eq_ok h
  unfold Discriminator.train
  split
  · exact ⟨u, by unfold Discriminator.classify; rw [h1, Except.bind_ok]; exact h2, forall₂_le_refl u⟩
  · split
    · exact ⟨u, by unfold Discriminator.classify; rw [h1, Except.bind_ok]; exact h2, forall₂_le_refl u⟩
    · rename_i c _
      obtain ⟨u', g1, g2⟩ := rams_train_notLower img x d.rams h2
      refine ⟨u', ?_, g2⟩
      simp only
      unfold Discriminator.classify
      have h1' : Discriminator.checkEntrySize { d with count := c, rams := (Discriminator.trainRams img d.rams).1 } x.size = .ok () := h1
      rw [h1', Except.bind_ok]
      exact g1

theorem cluster_train_get {f : Flt} {c : Cluster} (env : Env) (img : Image) {j : Nat} {d : Discriminator}
    (hd : c.discriminators[j]? = some (some d)) :
    ∃ d', (c.train f env img).1.discriminators[j]? = some (some d') ∧ (d' = d ∨ d' = (d.train img).1) := by
  have hkept : ∀ ds' : List (Option Discriminator), List.Forall₂ (Kept img) c.discriminators ds' →
      ∃ d', ds'[j]? = some (some d') ∧ (d' = d ∨ d' = (d.train img).1) := by
    intro ds' h
    obtain ⟨hlen, hall⟩ := List.forall₂_iff_get.mp h
    have hj := (List.getElem?_eq_some_iff.mp hd).1
    have hg := (List.getElem?_eq_some_iff.mp hd).2
    have hh := hall j hj (by omega)
    simp only [List.get_eq_getElem] at hh
    rw [hg] at hh
    rcases hh with ⟨h, _⟩ | ⟨d1, d2, e1, e2, e3⟩
    · cases h
    · cases e1
      exact ⟨d2, by rw [List.getElem?_eq_getElem (by omega), e2], e3⟩
  have happ : ∀ z : List (Option Discriminator), (c.discriminators ++ z)[j]? = some (some d) := by
    intro z
    rw [List.getElem?_append_left (List.getElem?_eq_some_iff.mp hd).1]
    exact hd
  have hne : c.discriminators.length ≠ 0 := by
    have := (List.getElem?_eq_some_iff.mp hd).1
    omega
  unfold Cluster.train
  rw [if_neg hne]
  split
  · exact ⟨d, hd, .inl rfl⟩
  · rename_i cc hcc
    split
    · rename_i ds e hs
      have := scan_kept (f := f) (c := cc) (img := img) c.discriminators 0 0 none false
      rw [hs] at this
      exact hkept ds this
    · rename_i ds b t hs
      have h1 := scan_kept (f := f) (c := cc) (img := img) c.discriminators 0 0 none false
      rw [hs] at h1
      simp only
      split
      · exact hkept ds h1
      · rename_i ht
        have ht : t = false := by simpa using ht
        rw [ht] at hs
        have hu := scan_untrained hs
        subst hu
        split
        · unfold Cluster.trainNew
          split
          · exact ⟨d, hd, .inl rfl⟩
          · split
            · exact ⟨d, happ _, .inl rfl⟩
            · split
              · exact ⟨d, happ _, .inl rfl⟩
              · exact ⟨d, hd, .inl rfl⟩
        · split
          · exact ⟨d, hd, .inl rfl⟩
          · exact hkept _ (trainAt_kept _ _ _)

/-- Discriminator `j` of class `l` gives `x` at least the votes `u`. -/
def AtLeast (l : Str) (j : Nat) (x : Image) (u : List Int) (w : ClusWisard) : Prop :=
  ∃ d u', (discs w l)[j]? = some (some d) ∧ d.classify x = .ok u' ∧ List.Forall₂ (· ≤ ·) u u'

theorem AtLeast.closed (f : Flt) (L : List Str) (l : Str) (j : Nat) (x : Image) (u : List Int) : Closed f L (AtLeast l j x u) := by
  have hset : ∀ (w : ClusWisard) (k : Str) (c' : Cluster), (∀ c, w.clusters.find l = some c → k = l →
      ∀ d, c.discriminators[j]? = some (some d) → ∃ d', c'.discriminators[j]? = some (some d') ∧ NotLower x d d') →
      AtLeast l j x u w → AtLeast l j x u { w with clusters := w.clusters.set k c' } := by
    rintro w k c' h ⟨d, u', hd, hc, hu⟩
    by_cases hkl : k = l
    · subst hkl
      unfold discs at hd
      cases hf : w.clusters.find k with
      | none => rw [hf] at hd; simp at hd
      | some c =>
        rw [hf] at hd
        obtain ⟨d', h1, h2⟩ := h c hf rfl d hd
        obtain ⟨u'', h3, h4⟩ := h2 u' hc
        refine ⟨d', u'', ?_, h3, forall₂_le_trans hu h4⟩
        unfold discs
        simp only [SMap.find_set_self]
        exact h1
    · refine ⟨d, u', ?_, hc, hu⟩
      unfold discs at hd ⊢
      simp only [SMap.find_set_ne _ _ (Ne.symm hkl)]
      exact hd
  have htr : ∀ (c : Cluster) (env : Env) (img : Image) (d : Discriminator), c.discriminators[j]? = some (some d) →
      ∃ d', (c.train f env img).1.discriminators[j]? = some (some d') ∧ NotLower x d d' := by
    intro c env img d hd
    obtain ⟨d', h1, h2⟩ := cluster_train_get (f := f) env img hd
    refine ⟨d', h1, ?_⟩
    rcases h2 with rfl | rfl
    · exact fun u h => ⟨u, h, forall₂_le_refl u⟩
    · exact train_notLower x d img
  refine ⟨?_, ?_, fun w n h => h, fun w env img h => h, ?_⟩
  · intro w env img k _ h
    rw [ClusWisard.train1_eq]
    refine hset w k _ ?_ h
    rintro c hf rfl d hd
    unfold ClusWisard.target
    rw [hf, Option.getD_some]
    exact htr c env _ d hd
  · intro w env img k h
    rw [ClusWisard.trainIn_fst]
    refine hset w k _ ?_ h
    rintro c hf rfl d hd
    rw [hf, Option.getD_some]
    exact htr c env _ d hd
  · intro w k hk h
    refine hset w k _ ?_ h
    rintro c hf rfl
    rw [hk] at hf
    cases hf

theorem sorted_closed (f : Flt) (L : List Str) : Closed f L (fun w => SMap.Sorted w.clusters) := by
  refine ⟨?_, ?_, fun w n h => h, fun w env img h => h, ?_⟩
  · intro w env img k _ h
    rw [ClusWisard.train1_eq]
    exact SMap.sorted_set h _ _
  · intro w env img k h
    rw [ClusWisard.trainIn_fst]
    exact SMap.sorted_set h _ _
  · intro w k _ h
    exact SMap.sorted_set h _ _

theorem opts_closed (f : Flt) (L : List Str) (o : ClusOpts) : Closed f L (fun w => w.opts = o) := by
  refine ⟨?_, ?_, fun w n h => h, fun w env img h => h, ?_⟩
  · intro w env img k _ h
    rw [ClusWisard.train1_eq]; exact h
  · intro w env img k h
    rw [ClusWisard.trainIn_fst]; exact h
  · intro w k _ h
    exact h

/-- C176: no sequence of calls (failing ones included), in any state, removes a discriminator of a class, changes its number, or lowers one of its votes. -/
theorem C176_votes (f : Flt) (w : ClusWisard) (ops : List COp) {l : Str} {j : Nat} {d : Discriminator} (hd : (discs w l)[j]? = some (some d))
    {x : Image} {u : List Int} (hu : d.classify x = .ok u) :
    ∃ d' u', (discs (cplay f w ops).1 l)[j]? = some (some d') ∧ d'.classify x = .ok u' ∧ List.Forall₂ (· ≤ ·) u u' :=
  Closed.play ops w (AtLeast.closed f _ l j x u) ⟨d, u, hd, hu, forall₂_le_refl u⟩

theorem active_le (b : Int) {u u' : List Int} (h : List.Forall₂ (· ≤ ·) u u') : active b u ≤ active b u' := by
  unfold active
  induction h with
  | nil => simp
  | cons h1 _ ih =>
    rename_i a a' _ _ _
    simp only [List.countP_cons, decide_eq_true_eq]
    split <;> split <;> omega

/-- C176: without bleaching, no sequence of calls lowers the score of a discriminator. -/
theorem C176_scores (f : Flt) {w : ClusWisard} (hsort : SMap.Sorted w.clusters) (hb : w.opts.bleachingActivated = false) (ops : List COp)
    {x : List Int} {sbc sbc' : Bool} {s s' : Scores} (hx : w.classify1 x sbc = .ok s) (hx' : (cplay f w ops).1.classify1 x sbc' = .ok s')
    {name : Str} {v : Int} (hv : s.find name = some v) : ∃ v', s'.find name = some v' ∧ v ≤ v' := by
  have hs' : SMap.Sorted (cplay f w ops).1.clusters := Closed.play ops w (sorted_closed f _) hsort
  have ho : (cplay f w ops).1.opts = w.opts := Closed.play ops w (opts_closed f _ w.opts) rfl
  obtain ⟨V, a1, rfl⟩ := clus_plain hb hx
  obtain ⟨V', b1, rfl⟩ := clus_plain (by rw [ho]; exact hb) hx'
  rw [find_activeAll] at hv
  cases hV : V.find name with
  | none => rw [hV] at hv; cases hv
  | some u =>
    rw [hV] at hv
    simp only [Option.map_some, Option.some.injEq] at hv
    obtain ⟨l, j, d, rfl, e2, e3⟩ := ((clus_votes hsort a1).2 _ _).mp hV
    obtain ⟨d', u', g1, g2, g3⟩ := C176_votes f w ops e2 e3
    refine ⟨active 1 u', ?_, ?_⟩
    · rw [find_activeAll, ((clus_votes hs' b1).2 _ _).mpr ⟨l, j, d', rfl, g1, g2⟩]
      rfl
    · rw [← hv]
      exact_mod_cast active_le 1 g3

/-- C176: without bleaching, a `train` call (whether it succeeds or fails) changes the answer for an image only to a label of the call. -/
theorem C176_takeover (f : Flt) {w : ClusWisard} (hsort : SMap.Sorted w.clusters) (hb : w.opts.bleachingActivated = false)
    (hsafe : ∀ k ∈ w.clusters.keys, SafeLabel k) (env : Nat → Env) (images : List (List Int)) (labels : List Str) (hsafe' : ∀ k ∈ labels, SafeLabel k)
    {x : List Int} {l l' : Str} (hx : w.classify [x] = .ok [l]) (hx' : (w.train f env images labels).1.classify [x] = .ok [l']) :
    l' = l ∨ l' ∈ labels := by
  have hplay : (cplay f w [.train env images labels]).1 = (w.train f env images labels).1 := rfl
  have hs' : SMap.Sorted (w.train f env images labels).1.clusters := by
    rw [← hplay]; exact Closed.play _ w (sorted_closed f _) hsort
  have ho : (w.train f env images labels).1.opts = w.opts := by
    rw [← hplay]; exact Closed.play _ w (opts_closed f _ w.opts) rfl
  have hiso : ∀ k, k ∉ labels → discs (w.train f env images labels).1 k = discs w k := fun k hk => (C65_isolation f w env images labels hk).1
  have hsc : ∀ (s s' : Scores), w.classify1 x w.opts.searchBestConfidence = .ok s →
      (cplay f w [.train env images labels]).1.classify1 x (w.train f env images labels).1.opts.searchBestConfidence = .ok s' →
      ∀ (name : Str) (v : Int), s.find name = some v → ∃ v', s'.find name = some v' ∧ v ≤ v' :=
    fun s s' h h' name v hv => C176_scores f hsort hb [.train env images labels] h h' hv
  rw [hplay] at hsc
  generalize (w.train f env images labels).1 = w' at *
  simp only [ClusWisard.classify] at hx hx'
  obtain ⟨s, h1, hx⟩ := bind_eq_ok hx
  obtain ⟨s', h1', hx'⟩ := bind_eq_ok hx'
  simp only [Except.bind_ok, Except.ok.injEq, List.cons.injEq, and_true] at hx hx'
  have hmono := hsc s s' h1 h1'
  obtain ⟨V, a1, rfl⟩ := clus_plain hb h1
  obtain ⟨V', b1, rfl⟩ := clus_plain (by rw [ho]; exact hb) h1'
  obtain ⟨sV, fV⟩ := clus_votes hsort a1
  obtain ⟨sV', fV'⟩ := clus_votes hs' b1
  have tS := Bleaching.activeAll_sorted sV 1
  have tS' := Bleaching.activeAll_sorted sV' 1
  -- the class of a name of the new table
  have old : ∀ {k : Str} {i : Nat} {v : Int}, k ∉ labels → SMap.find (activeAll 1 V') (dname k i) = some v →
      SMap.find (activeAll 1 V) (dname k i) = some v ∧ SafeLabel k := by
    intro k i v hk hv
    rw [find_activeAll] at hv ⊢
    cases hV : V'.find (dname k i) with
    | none => rw [hV] at hv; cases hv
    | some u =>
      rw [hV] at hv
      obtain ⟨k2, i2, d, e1, e2, e3⟩ := (fV' _ _).mp hV
      obtain ⟨rfl, rfl⟩ := dname_inj e1
      rw [hiso k hk] at e2
      refine ⟨by rw [(fV _ _).mpr ⟨k, i, d, rfl, e2, e3⟩]; exact hv, ?_⟩
      apply hsafe
      unfold discs at e2
      cases hf : w.clusters.find k with
      | none => rw [hf] at e2; simp at e2
      | some c => exact SMap.mem_keys_iff.mpr ⟨c, hf⟩
  by_cases hne' : activeAll 1 V' = []
  · -- no class at all
    have hne : activeAll 1 V = [] := by
      cases hA : activeAll 1 V with
      | nil => rfl
      | cons e A =>
        obtain ⟨v', q, _⟩ := hmono e.1 e.2 (SMap.find_of_mem tS (by rw [hA]; simp))
        rw [hne'] at q
        cases q
    left
    rw [← hx, ← hx', hne, hne']
  obtain ⟨p', p1', p2', p3', p4'⟩ := C39_winner _ tS' hne' (Bleaching.activeAll_nonneg 1 V')
  have hf' := SMap.find_of_mem tS' p1'
  have hname : ∃ k i, p'.1 = dname k i := by
    rw [find_activeAll] at hf'
    cases hV : V'.find p'.1 with
    | none => rw [hV] at hf'; cases hf'
    | some u =>
      obtain ⟨k, i, d, q1, _, _⟩ := (fV' _ _).mp hV
      exact ⟨k, i, q1⟩
  obtain ⟨k', i', hk'⟩ := hname
  rw [hk'] at hf'
  by_cases hkl : k' ∈ labels
  · right
    rw [← hx', p2', hk']
    rw [show beforeSep (dname k' i') = k' from beforeSep_safe (hsafe' k' hkl) _]
    exact hkl
  · left
    obtain ⟨o1, o2⟩ := old hkl hf'
    obtain ⟨p, p1, p2, p3, p4⟩ := C39_winner _ tS (by intro h; rw [h] at o1; cases o1) (Bleaching.activeAll_nonneg 1 V)
    have hf := SMap.find_of_mem tS p1
    obtain ⟨v', r1, r2⟩ := hmono _ _ hf
    have m1 := p3 _ (SMap.mem_of_find o1)
    have m2 := p3' _ (SMap.mem_of_find r1)
    simp only at m1 m2
    have t1 := p4 _ (SMap.mem_of_find o1) (by simp only; omega)
    have t2 := p4' _ (SMap.mem_of_find r1) (by simp only; omega)
    have : p.1 = p'.1 := by
      simp only at t1 t2
      rw [← hk'] at t1
      rcases t1 with t1 | t1
      · exact t1.symm
      · rcases t2 with t2 | t2
        · exact t2
        · exact absurd (Str.lt_trans t1 t2) (by rw [Str.lt_irrefl]; decide)
    rw [← hx, ← hx', p2, p2', this]

/-! ### The hypotheses can be met -/

/-- Without bleaching the image `[1, 1, 1, 1, 1, 0]` belongs to "a" with 2 : 0; after a call (which fails at its second image) training it as "b" the
score of "a" is still 2 and the image is taken over by "b". -/
example : SMap.Sorted noisyC.clusters ∧ noisyC.opts.bleachingActivated = false ∧ (∀ k ∈ noisyC.clusters.keys, SafeLabel k) ∧
    (∀ k ∈ [b!"b", b!"a"], SafeLabel k) ∧ noisyC.classify [[1, 1, 1, 1, 1, 0]] = .ok [b!"a"] ∧
    noisyC.classify1 [1, 1, 1, 1, 1, 0] false = .ok [(b!"a::0", 2), (b!"b::0", 0)] ∧
    (noisyC.train Flt.exact (fun _ => env0) [[1, 1, 1, 1, 1, 0], [0]] [b!"b", b!"a"]).2 ≠ .ok () ∧
    (noisyC.train Flt.exact (fun _ => env0) [[1, 1, 1, 1, 1, 0], [0]] [b!"b", b!"a"]).1.classify1 [1, 1, 1, 1, 1, 0] false =
      .ok [(b!"a::0", 2), (b!"b::0", 0), (b!"b::1", 3)] ∧
    (noisyC.train Flt.exact (fun _ => env0) [[1, 1, 1, 1, 1, 0], [0]] [b!"b", b!"a"]).1.classify [[1, 1, 1, 1, 1, 0]] = .ok [b!"b"] := by
  refine ⟨?_, by decide +kernel, ?_, ?_, by decide +kernel, by decide +kernel, by decide +kernel, by decide +kernel, by decide +kernel⟩
  · exact Closed.play _ _ (sorted_closed _ _) SMap.sorted_nil
  · have : noisyC.clusters.keys = [b!"a", b!"b"] := by decide +kernel
    rw [this]
    exact fun k hk => safe_of_noColon ((by decide : ∀ k ∈ [b!"a", b!"b"], c!":" ∉ k) k hk)
  · exact fun k hk => safe_of_noColon ((by decide : ∀ k ∈ [b!"b", b!"a"], c!":" ∉ k) k hk)

/-- Six pixels, three RAMs, bleaching on: `a` trained once with the full image, `b` twice with an image sharing four of its pixels. -/
def growC : ClusWisard := (cplay Flt.exact ⟨2, 1/2, 10, 3, {}, [], Cluster.default⟩
  [.train (fun _ => env0) [[1, 1, 1, 1, 1, 1], [1, 1, 1, 1, 0, 0], [1, 1, 1, 1, 0, 0]] [b!"a", b!"b", b!"b"]]).1

/-- C176 needs bleaching off: with bleaching, training a new class "c" lowers the score of "a" from 3 to 0 and moves an image from "a" to "b", neither
of which was trained. -/
theorem C176_needs_plain : growC.opts.bleachingActivated = true ∧ growC.classify [[1, 1, 1, 1, 1, 1]] = .ok [b!"a"] ∧
    growC.classify1 [1, 1, 1, 1, 1, 1] false = .ok [(b!"a::0", 3), (b!"b::0", 2)] ∧
    (growC.train Flt.exact (fun _ => env0) [[1, 1, 1, 1, 1, 1]] [b!"c"]).2 = .ok () ∧
    (growC.train Flt.exact (fun _ => env0) [[1, 1, 1, 1, 1, 1]] [b!"c"]).1.classify1 [1, 1, 1, 1, 1, 1] false =
      .ok [(b!"a::0", 0), (b!"b::0", 2), (b!"c::0", 0)] ∧
    (growC.train Flt.exact (fun _ => env0) [[1, 1, 1, 1, 1, 1]] [b!"c"]).1.classify [[1, 1, 1, 1, 1, 1]] = .ok [b!"b"] := by
  have h1 : growC.classify1 [1, 1, 1, 1, 1, 1] false = .ok [(b!"a::0", 3), (b!"b::0", 2)] := by
    have hv : ClusWisard.allvotes [1, 1, 1, 1, 1, 1] growC.clusters [] = .ok [(b!"a::0", [1, 1, 1]), (b!"b::0", [2, 2, 0])] := by decide +kernel
    have ho : growC.opts = {} := by decide +kernel
    have hm := make_once (V := [(b!"a::0", [1, 1, 1]), (b!"b::0", [2, 2, 0])]) (c := 1) (sbc := false) (by decide +kernel)
    simp only [ClusWisard.classify1, hv, Except.bind_ok, ho, hm]
    decide +kernel
  have ho1 : growC.opts = {} := by decide +kernel
  have ho2 : (growC.train Flt.exact (fun _ => env0) [[1, 1, 1, 1, 1, 1]] [b!"c"]).1.opts = {} := by decide +kernel
  have h2 : (growC.train Flt.exact (fun _ => env0) [[1, 1, 1, 1, 1, 1]] [b!"c"]).1.classify1 [1, 1, 1, 1, 1, 1] false =
      .ok [(b!"a::0", 0), (b!"b::0", 2), (b!"c::0", 0)] := by
    have hv : ClusWisard.allvotes [1, 1, 1, 1, 1, 1] (growC.train Flt.exact (fun _ => env0) [[1, 1, 1, 1, 1, 1]] [b!"c"]).1.clusters [] =
        .ok [(b!"a::0", [1, 1, 1]), (b!"b::0", [2, 2, 0]), (b!"c::0", [1, 1, 1])] := by decide +kernel
    have hm := make_twice (V := [(b!"a::0", [1, 1, 1]), (b!"b::0", [2, 2, 0]), (b!"c::0", [1, 1, 1])]) (c := 1) (sbc := false)
      (by decide +kernel) (by decide +kernel)
    simp only [ClusWisard.classify1, hv, Except.bind_ok, ho2, hm]
    decide +kernel
  refine ⟨by decide +kernel, ?_, h1, by decide +kernel, h2, ?_⟩
  · simp only [ClusWisard.classify, ho1, h1, Except.bind_ok]
    decide +kernel
  · simp only [ClusWisard.classify, ho2, h2, Except.bind_ok]
    decide +kernel

end Wis
