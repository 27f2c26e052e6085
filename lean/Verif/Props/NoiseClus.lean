import Verif.Props.Noise
import Verif.Props.ClusLabels
import Verif.Props.ClusWisard
/-!
# Property C175: noise and ClusWisard

Without bleaching, the score of every discriminator changes by at most the number of its RAMs that read a changed pixel. A noisy
version of a training image keeps all but as many RAMs of some discriminator of its class active, whatever calls followed. If one
discriminator of a class leads those of all other classes by more than the changed RAMs, the answer for the noisy image is this class.
-/

namespace Wis
open Spec

theorem clus_plain {w : ClusWisard} {x : List Int} {sbc : Bool} {s : Scores} (hb : w.opts.bleachingActivated = false)
    (h : w.classify1 x sbc = .ok s) : ∃ V, ClusWisard.allvotes x w.clusters [] = .ok V ∧ s = activeAll 1 V := by
  unfold ClusWisard.classify1 at h
  obtain ⟨V, h1, h⟩ := bind_eq_ok h
  rw [hb, C38_without_bleaching] at h
  cases h
  exact ⟨V, h1, rfl⟩

/-- The vote table of a ClusWisard. -/
theorem clus_votes {w : ClusWisard} (hs : SMap.Sorted w.clusters) {x : List Int} {V : Votes} (h : ClusWisard.allvotes x w.clusters [] = .ok V) :
    SMap.Sorted V ∧ ∀ k v, V.find k = some v ↔ ∃ (l : Str) (j : Nat) (d : Discriminator), k = dname l j ∧
      (discs w l)[j]? = some (some d) ∧ d.classify (.vec x) = .ok v := by
  obtain ⟨h1, h2, h3⟩ := allvotes_spec w.clusters SMap.sorted_nil (SMap.nodup_keys hs) h
  refine ⟨h1, ?_⟩
  intro k v
  rw [h3 k v]
  have hnil : SMap.find ([] : Votes) k = none := rfl
  rw [hnil, votesOf_discs hs]
  constructor
  · rintro (⟨l, j, vs, a1, a2, a3⟩ | ⟨_, h⟩)
    · obtain ⟨d, b1, b2⟩ := (classifyLoop_get _ a1 j v).mp a3
      exact ⟨l, j, d, a2, b1, b2⟩
    · cases h
  · rintro ⟨l, j, d, a1, a2, a3⟩
    left
    have hcl : ∃ vs, Cluster.classifyLoop (.vec x) (discs w l) = .ok vs := by
      unfold discs at a2 ⊢
      cases hf : w.clusters.find l with
      | none => rw [hf] at a2; simp at a2
      | some c => exact h2 (l, c) (SMap.mem_of_find hf)
    obtain ⟨vs, hvs⟩ := hcl
    exact ⟨l, j, vs, hvs, a1, (classifyLoop_get _ hvs j v).mpr ⟨d, a2, a3⟩⟩

theorem clus_close {w : ClusWisard} (hs : SMap.Sorted w.clusters) {x y : List Int} {V V' : Votes}
    (hx : ClusWisard.allvotes x w.clusters [] = .ok V) (hy : ClusWisard.allvotes y w.clusters [] = .ok V') (b : Int)
    {l : Str} {j : Nat} {d : Discriminator} (hd : (discs w l)[j]? = some (some d)) :
    ∃ v v', SMap.find (activeAll b V) (dname l j) = some v ∧ SMap.find (activeAll b V') (dname l j) = some v' ∧
      v ≤ v' + touched d.mapping (.vec x) (.vec y) ∧ v' ≤ v + touched d.mapping (.vec x) (.vec y) := by
  have get : ∀ {z : List Int} {W : Votes}, ClusWisard.allvotes z w.clusters [] = .ok W →
      ∃ u, W.find (dname l j) = some u ∧ d.classify (.vec z) = .ok u := by
    intro z W hz
    obtain ⟨_, h2, _⟩ := allvotes_spec w.clusters SMap.sorted_nil (SMap.nodup_keys hs) hz
    have hcl : ∃ vs, Cluster.classifyLoop (.vec z) (discs w l) = .ok vs := by
      unfold discs at hd ⊢
      cases hf : w.clusters.find l with
      | none => rw [hf] at hd; simp at hd
      | some c => exact h2 (l, c) (SMap.mem_of_find hf)
    obtain ⟨vs, hvs⟩ := hcl
    have hj : j < vs.length := by
      rw [classifyLoop_length _ hvs]
      exact (List.getElem?_eq_some_iff.mp hd).1
    obtain ⟨d', e1, e2⟩ := (classifyLoop_get _ hvs j _).mp (List.getElem?_eq_getElem hj)
    rw [hd] at e1
    cases e1
    exact ⟨_, ((clus_votes hs hz).2 _ _).mpr ⟨l, j, d, rfl, hd, e2⟩, e2⟩
  obtain ⟨u, a2, a1⟩ := get hx
  obtain ⟨u', b2, b1⟩ := get hy
  obtain ⟨c1, c2, _, c4⟩ := C170_votes d a1 b1
  refine ⟨active b u, active b u', by rw [find_activeAll, a2]; rfl, by rw [find_activeAll, b2]; rfl, ?_, ?_⟩
  · have := active_close b u u' (by omega); omega
  · have := active_close b u' u (by omega)
    rw [zip_swap_count] at this
    omega

/-- C175: a ClusWisard in any state (its classes sorted, as a `std::map` is), without bleaching: the scores of a discriminator for two images differ
by at most the number of its RAMs that read a changed pixel. (`dname l j`, the text l::j, is the name of discriminator `j` of class `l`.) -/
theorem C175_scores {w : ClusWisard} (hsort : SMap.Sorted w.clusters) (hb : w.opts.bleachingActivated = false) {x y : List Int} {sbc : Bool} {s s' : Scores}
    (hx : w.classify1 x sbc = .ok s) (hy : w.classify1 y sbc = .ok s') {l : Str} {j : Nat} {d : Discriminator} (hd : (discs w l)[j]? = some (some d)) :
    ∃ v v', s.find (dname l j) = some v ∧ s'.find (dname l j) = some v' ∧
      v ≤ v' + touched d.mapping (.vec x) (.vec y) ∧ v' ≤ v + touched d.mapping (.vec x) (.vec y) := by
  obtain ⟨V, a1, rfl⟩ := clus_plain hb hx
  obtain ⟨V', b1, rfl⟩ := clus_plain hb hy
  exact clus_close hsort a1 b1 1 hd

/-- C175: every training image of a successful call, whatever calls came before and after: for any other image some discriminator of its class activates
all its RAMs except at most those that read a changed pixel. -/
theorem C175_trained (f : Flt) {A : Int} {ms : Rat} {t dl : Int} {o : ClusOpts} {w0 : ClusWisard}
    (h0 : ClusWisard.create A ms t dl o = .ok w0) (hz : o.ignoreZero = false) (hb : o.bleachingActivated = false) (ops : List COp) {env : Nat → Env}
    {images : List (List Int)} {labels : List Str} {w1 : ClusWisard}
    (h : (cplay f w0 ops).1.train f env images labels = (w1, .ok ())) (later : List COp)
    {x : List Int} {l : Str} (hmem : (x, l) ∈ images.zip labels) {y : List Int} {sbc : Bool} {s : Scores}
    (hy : (cplay f w1 later).1.classify1 y sbc = .ok s) :
    ∃ (j : Nat) (d : Discriminator) (v : Int), (discs (cplay f w1 later).1 l)[j]? = some (some d) ∧ s.find (dname l j) = some v ∧
      (d.getNumberOfRAMS : Int) ≤ v + touched d.mapping (.vec x) (.vec y) := by
  obtain ⟨d, hd, u, f1, f2, f3⟩ := C56_remembered f h0 hz ops h later (x, l) hmem
  have hw1 : w1 = (cplay f w0 (ops ++ [COp.train env images labels])).1 := by
    rw [cplay_append]
    simp only [cplay, cstep]
    rw [h]
  have hend : WInv f w0 (labelsOf ((ops ++ [COp.train env images labels]) ++ later)) (cplay f w1 later).1 := by
    have := WInv.play (f := f) h0 ((ops ++ [COp.train env images labels]) ++ later)
    rw [cplay_append, ← hw1] at this
    exact this
  have hs := hend.sorted
  have hopt : (cplay f w1 later).1.opts.bleachingActivated = false := by
    rw [hend.const, (create_shape h0).1]; exact hb
  generalize (cplay f w1 later).1 = w at *
  obtain ⟨j, hj, hget⟩ := List.mem_iff_getElem.mp hd
  have hdj : (discs w l)[j]? = some (some d) := by rw [List.getElem?_eq_getElem hj, hget]
  obtain ⟨V, a1, rfl⟩ := clus_plain hopt hy
  have hcl : ∃ u', d.classify (.vec y) = .ok u' ∧ V.find (dname l j) = some u' := by
    obtain ⟨v, v', q1, _⟩ := clus_close hs a1 a1 1 hdj
    rw [find_activeAll] at q1
    cases hV : V.find (dname l j) with
    | none => rw [hV] at q1; cases q1
    | some u' =>
      obtain ⟨l', j', d', e1, e2, e3⟩ := ((clus_votes hs a1).2 _ _).mp hV
      obtain ⟨rfl, rfl⟩ := dname_inj e1
      rw [hdj] at e2
      cases e2
      exact ⟨u', e3, rfl⟩
  obtain ⟨u', g1, g2⟩ := hcl
  obtain ⟨c1, c2, _, c4⟩ := C170_votes d f1 g1
  refine ⟨j, d, active 1 u', hdj, by rw [find_activeAll, g2]; rfl, ?_⟩
  have h1 := active_close 1 u u' (by omega)
  have h2 : active 1 u = u.length := by
    unfold active
    rw [List.countP_eq_length]
    intro v hv
    simpa using f3 v hv
  simp only at c4
  omega

/-- C175: without bleaching, if discriminator `j` of class `l` leads, for `x`, every discriminator of every other class by more than the RAMs of both that read
a changed pixel, then the answer for `y` is `l`. In particular (`y = x`) it suffices for `x` itself that it leads. -/
theorem C175_stable {w : ClusWisard} (hsort : SMap.Sorted w.clusters) (hb : w.opts.bleachingActivated = false) {x y : List Int} {sbc : Bool} {s s' : Scores}
    (hx : w.classify1 x sbc = .ok s) (hy : w.classify1 y w.opts.searchBestConfidence = .ok s') {l : Str} (hl : SafeLabel l) {j : Nat} {d : Discriminator}
    (hd : (discs w l)[j]? = some (some d)) {v : Int} (hv : s.find (dname l j) = some v)
    (hlead : ∀ (k : Str) (i : Nat) (e : Discriminator) (u : Int), k ≠ l → (discs w k)[i]? = some (some e) → s.find (dname k i) = some u →
      u + touched d.mapping (.vec x) (.vec y) + touched e.mapping (.vec x) (.vec y) < v) :
    w.classify [y] = .ok [l] := by
  have hy0 := hy
  obtain ⟨V, a1, rfl⟩ := clus_plain hb hx
  obtain ⟨V', b1, rfl⟩ := clus_plain hb hy
  obtain ⟨sV', fV'⟩ := clus_votes hsort b1
  obtain ⟨v0, v', e1, e2, e3, _⟩ := clus_close hsort a1 b1 1 hd
  rw [hv] at e1
  cases e1
  have hs' := Bleaching.activeAll_sorted sV' 1
  obtain ⟨p, p1, p2, p3, _⟩ := C39_winner _ hs' (by intro h; rw [h] at e2; cases e2) (Bleaching.activeAll_nonneg 1 V')
  have hp : ∃ i, p.1 = dname l i := by
    have hf := SMap.find_of_mem hs' p1
    have hp3 := p3 _ (SMap.mem_of_find e2)
    rw [find_activeAll] at hf
    cases hV : V'.find p.1 with
    | none => rw [hV] at hf; cases hf
    | some u' =>
      obtain ⟨k, i, e, q1, q2, q3⟩ := (fV' _ _).mp hV
      by_cases hk : k = l
      · exact ⟨i, by rw [q1, hk]⟩
      · exfalso
        obtain ⟨u0, u1, r1, r2, _, r4⟩ := clus_close hsort a1 b1 1 q2
        have := hlead k i e u0 hk q2 r1
        have hfp := SMap.find_of_mem hs' p1
        rw [q1, r2] at hfp
        cases hfp
        simp only at hp3
        omega
  obtain ⟨i, hi⟩ := hp
  have : beforeSep (Bleaching.getBiggestCandidate (activeAll 1 V')) = l := by
    rw [p2, hi]
    exact beforeSep_safe hl _
  simp only [ClusWisard.classify, hy0, Except.bind_ok, this]

/-! ### The hypotheses can be met -/

/-- Two classes with one image of six pixels each, three RAMs, no bleaching. -/
def noisyC : ClusWisard := (cplay Flt.exact ⟨2, 1/2, 10, 3, { bleachingActivated := false }, [], Cluster.default⟩
  [.train (fun _ => env0) [[1, 1, 1, 1, 1, 1], [0, 0, 0, 0, 0, 0]] [b!"a", b!"b"]]).1

/-- The scores of the two images are 3 : 0 and 2 : 0, one RAM of each class reads the changed pixel, and 0 + 1 + 1 < 3. -/
example : noisyC.classify1 [1, 1, 1, 1, 1, 1] false = .ok [(b!"a::0", 3), (b!"b::0", 0)] ∧
    noisyC.classify1 [1, 1, 1, 1, 1, 0] false = .ok [(b!"a::0", 2), (b!"b::0", 0)] ∧
    (∀ l ∈ [b!"a", b!"b"], ∀ d, some d ∈ discs noisyC l → touched d.mapping (.vec [1, 1, 1, 1, 1, 1]) (.vec [1, 1, 1, 1, 1, 0]) = 1) ∧
    (discs noisyC b!"a").length = 1 ∧ SMap.keys noisyC.clusters = [b!"a", b!"b"] ∧ noisyC.classify [[1, 1, 1, 1, 1, 0]] = .ok [b!"a"] := by
  refine ⟨by decide +kernel, by decide +kernel, ?_, by decide +kernel, by decide +kernel, by decide +kernel⟩
  have key : ∀ l ∈ [b!"a", b!"b"], ∀ o ∈ discs noisyC l, ∀ d ∈ o, touched d.mapping (.vec [1, 1, 1, 1, 1, 1]) (.vec [1, 1, 1, 1, 1, 0]) = 1 := by
    decide +kernel
  exact fun l hl d hd => key l hl _ hd d rfl

/-- The calls succeed. -/
example : (cplay Flt.exact ⟨2, 1/2, 10, 3, { bleachingActivated := false }, [], Cluster.default⟩
    [.train (fun _ => env0) [[1, 1, 1, 1, 1, 1], [0, 0, 0, 0, 0, 0]] [b!"a", b!"b"]]).2 = [.ok ()] := by decide +kernel

end Wis
