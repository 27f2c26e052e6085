import Verif.Lemmas.Life
/-!
# C187: saving and loading a model now and then leaves no trace

C27, C33, C36, C91 and C93 speak about one reload of a model that was never reloaded before. Here a program reloads its model
as often as it likes, and trains the reloaded models further.
-/

namespace Wis
open Spec JsonText

/-- Two plain facts about the similarity of a model with itself. -/
theorem wf_self {iz : Bool} {base : Int} {d : Discriminator} (h : DWF iz base d) : DSim d d :=
  DSim.refl' (fun r hr => ⟨rfl, rfl, rfl, by rw [(h.rams r hr).baseEq]; exact h.base2, (h.rams r hr).nodup, (h.rams r hr).nodup,
    fun _ => rfl⟩)

theorem wisard_fresh (A : Int) (o : WisardOpts) : WSim (Wisard.create A o) (Wisard.create A o) :=
  ⟨rfl, ⟨rfl, rfl, rfl, rfl, rfl, rfl, rfl, rfl, rfl, rfl⟩, .nil⟩

theorem clus_fresh {A : Int} {ms : Rat} {t dl : Int} {o : ClusOpts} {w0 : ClusWisard}
    (h0 : ClusWisard.create A ms t dl o = .ok w0) : CWSim w0 w0 := by
  obtain ⟨rfl, _, _, _, _⟩ := create_shape h0
  exact ⟨rfl, rfl, rfl, rfl, ⟨rfl, rfl, rfl, rfl, rfl, rfl, rfl, rfl, rfl⟩, .nil, ClSim.default⟩

theorem play_cons (d : Discriminator) (o : Op) (os : List Op) :
    play d (o :: os) = ((play (dcall d o).1 os).1, (dcall d o).2 :: (play (dcall d o).1 os).2) := by
  cases o <;> rfl

theorem play_snoc (d : Discriminator) (a : List Op) (o : Op) : (play d (a ++ [o])).1 = (dcall (play d a).1 o).1 := by
  rw [play_append]
  cases o <;> rfl

theorem trains_append (a b : List Op) : trains (a ++ b) = trains a + trains b := by
  unfold trains
  rw [List.filter_append, List.length_append]

/-- C187: a program that creates a discriminator, trains and untrains it (calls may fail) and every now and then saves it and
goes on with a new object made from the text gets the same results from all its calls as a program that never saves, no save
and no load fails, and in the end the object cannot be told from the one of the other program. Something must have been learnt
before the first save, and the texts must be shorter than 2^31 bytes. A save through a file (`huge`) must find its name unused, and
nobody else may touch the file before it is read. -/
theorem C187_discriminator (ft : FloatText) {rnd : Rnd} {A n : Int} {o : Options} {d0 : Discriminator}
    (hc : Discriminator.create rnd A n o = .ok d0) (hr : IntRange n o.base d0.mapping) (steps : List (Step Op))
    (hl : BeforeReloads (fun ops r => LearntSomething d0 ops ∧ FilesOk r (DiscriminatorFile r)) steps)
    (hs : d0.getNumberOfRAMS * (16 * trains (callsOf steps) + 1) ≤ 2147483648) :
    ∃ d', liveD ft d0 steps = .ok (d', (play d0 (callsOf steps)).2) ∧ Indistinguishable (play d0 (callsOf steps)).1 d' := by
  have hwf : ∀ ops, DWF o.ignoreZero o.base (play d0 ops).1 := fun ops => (create_wf hc hr).play ops
  have key := live_ok (call := dcall) (save := fun r d => d.jsonText r.it ft r.fs r.huge r.path (r.random 0 0))
    (load := fun fs t => Discriminator.ofText ft fs t) (play := play) (fun _ => rfl) play_cons
    (fun a e d => e = (play d0 (callsOf a)).1 ∧ DSim e d) steps ?_ ?_ steps [] d0 d0 rfl ⟨rfl, wf_self (hwf [])⟩
  · obtain ⟨d', h1, _, h2⟩ := key
    exact ⟨d', h1, h2.indistinguishable⟩
  · rintro a c b e d hst ⟨rfl, h⟩
    refine ⟨⟨?_, ?_⟩, ?_⟩
    · rw [callsOf_append]
      exact (play_snoc d0 _ c).symm
    · cases c with
      | train img => exact (h.train img).1
      | untrain img => exact (h.untrain img).1
    · cases c with
      | train img => exact (h.train img).2
      | untrain img => exact (h.untrain img).2
  · rintro a r b e d hst ⟨rfl, h⟩
    have hle := play_le (callsOf a) d0
    have hent : ∀ r ∈ (play d0 (callsOf a)).1.rams, r.positions.length ≤ 0 + trains (callsOf a) := by
      apply play_entries (callsOf a) d0 0
      intro r hr'
      rw [((create_fresh hc).rams r hr').1]
      simp
    have hsum := sum_le_of hent
    have hlen : (play d0 (callsOf a)).1.rams.length = d0.getNumberOfRAMS := hle.2.length_eq.symm
    rw [hlen, Nat.zero_add] at hsum
    have hsav : DSav o.ignoreZero o.base (play d0 (callsOf a)).1 := by
      refine ⟨hwf _, hle.rams_ne (create_ne hc), play_nonempty (hl a r b hst).1, ?_⟩
      rw [hlen]
      have ht : trains (callsOf a) ≤ trains (callsOf steps) := by
        rw [hst, callsOf_append, trains_append]
        omega
      have h1 : d0.getNumberOfRAMS * trains (callsOf a) ≤ d0.getNumberOfRAMS * trains (callsOf steps) := Nat.mul_le_mul_left _ ht
      have h2 : d0.getNumberOfRAMS * (16 * trains (callsOf steps) + 1) =
          16 * (d0.getNumberOfRAMS * trains (callsOf steps)) + d0.getNumberOfRAMS := by
        rw [Nat.mul_add, Nat.mul_one, Nat.mul_left_comm]
      omega
    obtain ⟨t, d', h1, h2, h3⟩ := discriminator_reload ft (h.sav hsav) r (hl a r b hst).2
    refine ⟨t, d', h1, h2, ?_, h.trans h3⟩
    rw [callsOf_append]
    simp only [callsOf, List.append_nil]

/-! ### How `BeforeReloads` is checked -/

theorem before_nil {ο : Type} {P : List ο → Reload → Prop} : BeforeReloads P [] := by
  intro a r b h
  cases a <;> cases h

theorem before_call {ο : Type} {P : List ο → Reload → Prop} {o : ο} {ss : List (Step ο)}
    (h : BeforeReloads (fun ops => P (o :: ops)) ss) : BeforeReloads P (.call o :: ss) := by
  intro a r b hs
  cases a with
  | nil => cases hs
  | cons s a =>
    rw [List.cons_append, List.cons.injEq] at hs
    obtain ⟨rfl, hs⟩ := hs
    exact h a r b hs

theorem before_reload {ο : Type} {P : List ο → Reload → Prop} {r : Reload} {ss : List (Step ο)} (h0 : P [] r)
    (h : BeforeReloads P ss) : BeforeReloads P (.reload r :: ss) := by
  intro a r' b hs
  cases a with
  | nil =>
    rw [List.nil_append, List.cons.injEq] at hs
    obtain ⟨hs, -⟩ := hs
    injection hs with hs
    exact hs ▸ h0
  | cons s a =>
    rw [List.cons_append, List.cons.injEq] at hs
    obtain ⟨rfl, hs⟩ := hs
    exact h a r' b hs

/-- No files at all. -/
def noFs : Fs := fun _ => none

/-- Reload from the text alone, on an empty disk that is gone before the constructor is called. -/
def plainReload : Reload := ⟨IterOrder.id, noFs, none, fun _ => noFs⟩

/-- Reload through files `m0123456789.wdpkg` or `ma__0123456789.wdpkg`, on a disk with another file, to which one more is added
before the constructor is called. -/
def fileReload : Reload :=
  ⟨IterOrder.id, noFs.append b!"x" b!"y", some (b!"m", fun _ _ => b!"0123456789"), fun fs => fs.append b!"z" b!"0"⟩

theorem plain_files (own : Str → Prop) : FilesOk plainReload own := by
  intro h
  cases h

/-- Names that begin with `m` and are longer are neither of the two other files. -/
theorem file_files (own : Str → Prop) (h : ∀ n, own n → ∃ t, n = b!"m" ++ t) : FilesOk fileReload own := by
  intro _
  have hx : ∀ n, own n → n ≠ b!"x" := by
    rintro n hn rfl
    obtain ⟨t, ht⟩ := h _ hn
    cases ht
  have hz : ∀ n, own n → n ≠ b!"z" := by
    rintro n hn rfl
    obtain ⟨t, ht⟩ := h _ hn
    cases ht
  refine ⟨utf8_ascii (by decide), fun _ _ => utf8_ascii (s := b!"0123456789") (by decide), ⟨10, fun _ _ => rfl⟩, ?_, ?_⟩
  · intro n hn
    show (if n = b!"x" then _ else _) = _
    rw [if_neg (hx n hn)]
    rfl
  · intro fs n hn
    show (if n = b!"z" then _ else _) = _
    rw [if_neg (hz n hn)]

/-- A failing call, then saved and loaded three times, twice at once. -/
def dLife : List (Step Op) :=
  [.call (.train (.vec [1])), .call (.train (.vec [1, 0, 1, 1])), .reload plainReload,
    .call (.untrain (.vec [0, 0, 1, 1])), .reload fileReload, .reload plainReload,
    .call (.train (.vec [1])), .call (.train (.vec [0, 1, 1, 1]))]

/-- It meets the hypotheses of `C187_discriminator`. -/
example : ∃ d0, Discriminator.create Rnd.id 2 4 {} = .ok d0 ∧ IntRange 4 2 d0.mapping ∧
    BeforeReloads (fun ops r => LearntSomething d0 ops ∧ FilesOk r (DiscriminatorFile r)) dLife ∧
    d0.getNumberOfRAMS * (16 * trains (callsOf dLife) + 1) ≤ 2147483648 ∧
    (play d0 (callsOf dLife)).2 = [.error (.throw .entrySize), .ok (), .ok (), .error (.throw .entrySize), .ok ()] := by
  refine ⟨_, rfl, by unfold IntRange; decide, ?_, by decide, by decide⟩
  have h : ∀ b, LearntSomething ((Discriminator.create Rnd.id 2 4 {}).toOption.getD Discriminator.default)
      (.train (.vec [1]) :: .train (.vec [1, 0, 1, 1]) :: b) := fun b => ⟨[.train (.vec [1])], _, b, rfl, by decide⟩
  have hf : FilesOk fileReload (DiscriminatorFile fileReload) := by
    refine file_files _ ?_
    rintro n rfl
    exact ⟨b!"0123456789" ++ b!".wdpkg", rfl⟩
  exact before_call (before_call (before_reload ⟨h _, plain_files _⟩ (before_call (before_reload ⟨h _, hf⟩
    (before_reload ⟨h _, plain_files _⟩ (before_call (before_call before_nil)))))))

/-! ## Wisard -/

/-- C187: the same for a Wisard. Before each save every class has learnt something (and its numbers are `int`s and its text is
shorter than 2^31 bytes), the labels are UTF-8, and the files are used by nobody else. -/
theorem C187_wisard (ft : FloatText) {A : Int} {o : WisardOpts} (ho : OptRange A o) (steps : List (Step WOp))
    (hs : BeforeReloads (fun ops r => (∀ l d, (wplay (Wisard.create A o) ops).1.discriminators.find l = some d →
      Savable (Wisard.create A o) ops l d) ∧ (∀ l ∈ (wplay (Wisard.create A o) ops).1.discriminators.keys, Utf8 l) ∧
      FilesOk r (WisardFile r (wplay (Wisard.create A o) ops).1.discriminators.keys)) steps)
    (hm : MappingUnused (Wisard.create A o) steps) :
    let w := (wplay (Wisard.create A o) (callsOf steps)).1
    ∃ w', liveW ft (Wisard.create A o) steps = .ok (w', (wplay (Wisard.create A o) (callsOf steps)).2) ∧
      WIndistinguishable (fun l => l ∈ w.discriminators.keys ∨ o.mapping.find l = none) w w' := by
  intro w
  have hopt : ∀ ops, (wplay (Wisard.create A o) ops).1.opts = o := fun ops => (wplay_const (Wisard.create A o) rfl ops).2.1
  have key := live_ok (call := wstep) (save := fun r w => w.jsonText r.it ft r.fs r.huge r.path (fun i => r.random i 0))
    (load := fun fs t => Wisard.ofText ft fs t) (play := wplay) (fun _ => rfl) (fun _ _ _ => rfl)
    (fun a e d => e = (wplay (Wisard.create A o) (callsOf a)).1 ∧ WSim e d ∧
      (d.opts.mapping = o.mapping ∨ (d.opts.mapping = [] ∧ ∃ a1 r a2, a = a1 ++ .reload r :: a2)))
    steps ?_ ?_ steps [] (Wisard.create A o) (Wisard.create A o) rfl ⟨rfl, wisard_fresh A o, .inl rfl⟩
  · obtain ⟨d', h1, _, h2, h3⟩ := key
    refine ⟨d', h1, h2.indistinguishable ?_⟩
    intro l hl
    refine hl.imp _root_.id fun hn => ?_
    show d'.opts.mapping.find l = (wplay (Wisard.create A o) (callsOf steps)).1.opts.mapping.find l
    rw [hopt, hn]
    rcases h3 with h3 | ⟨h3, _⟩
    · rw [h3, hn]
    · rw [h3]; rfl
  · rintro a c b e d hst ⟨rfl, h, hmap⟩
    obtain ⟨h1, h2⟩ := h.step c (by
      rw [hopt]
      rcases hmap with hmap | ⟨hmap, a1, r, a2, rfl⟩
      · right; rw [hmap]
      · have hk := hm a1 r a2 c b (by rw [hst, List.append_assoc]; rfl)
        have hca : callsOf (a1 ++ a2) = callsOf (a1 ++ Step.reload r :: a2) := by
          rw [callsOf_append, callsOf_append]; rfl
        rw [hca] at hk
        refine hk.imp _root_.id fun hn => ?_
        have hn : o.mapping.find c.label = none := hn
        rw [hmap, hn]
        rfl)
    refine ⟨⟨?_, h1, ?_⟩, h2⟩
    · rw [callsOf_append]
      exact (wplay_snoc _ _ c).symm
    · rw [(wstep_other d c).2.1]
      refine hmap.imp _root_.id ?_
      rintro ⟨h3, a1, r, a2, rfl⟩
      exact ⟨h3, a1, r, a2 ++ [.call c], by rw [List.append_assoc]; rfl⟩
  · rintro a r b e d hst ⟨rfl, h, hmap⟩
    obtain ⟨hsv, hut, hfo⟩ := hs a r b hst
    obtain ⟨f1, f2, f3, f4⟩ := saved_facts (callsOf a) hsv
    obtain ⟨oA, ob, oc, oi⟩ := ho
    obtain ⟨t, w', k1, k2, k3, k4⟩ := wisard_reload ft (w := d) (by rw [h.addr, f1]; exact oA) (by rw [h.opts.base, f2]; exact ob)
      (by rw [h.opts.conf, f2]; exact oc) (by rw [h.opts.i, f2]; exact oi) (sorted_congr h.cls.keys f3)
      (h.sav (fun e he => ⟨(f4 e he).1, (f4 e he).2.1, (f4 e he).2.2.1, (f4 e he).2.2.2⟩))
      (by rw [h.cls.keys]; exact hut) r (by rw [h.cls.keys]; exact hfo)
    refine ⟨t, w', k1, k2, ?_, h.trans k3, .inr ⟨k4, a, r, [], rfl⟩⟩
    rw [callsOf_append]
    simp only [callsOf, List.append_nil]

theorem wplay_keys {l : Str} (ops : List WOp) : ∀ {w : Wisard}, l ∈ w.discriminators.keys → l ∈ (wplay w ops).1.discriminators.keys := by
  induction ops with
  | nil => intro w h; exact h
  | cons o ops ih => intro w h; exact ih (wstep_keys h)

/-- The calls of the example of C33, with reloads: the class `b` is wired by the `mapping` option before the first reload and
trained after it. -/
def wLife : List (Step WOp) :=
  [.call (.train ⟨Rnd.id, true⟩ (.vec [1, 0, 1, 1]) b!"a"), .call (.train ⟨Rnd.id, true⟩ (.vec [0, 0, 1, 1]) b!"b"),
    .reload fileReload, .call (.train ⟨Rnd.id, false⟩ (.vec [1]) b!"b"), .reload plainReload,
    .call (.leave [1, 0, 1, 1] b!"a"), .call (.train ⟨Rnd.id, true⟩ (.vec [0, 1, 1, 1]) b!"c")]

theorem wLife_savable (r : Reload) (b : List WOp) (hk : (wplay (Wisard.create 2 exOpts) (exOps.take 2 ++ b)).1.discriminators.keys = [b!"a", b!"b"])
    (hr : ∀ e ∈ (wplay (Wisard.create 2 exOpts) (exOps.take 2 ++ b)).1.discriminators, 0 < e.2.getNumberOfRAMS ∧
      IntRange e.2.entrySize 2 e.2.mapping ∧ e.2.getNumberOfRAMS * (16 * trainsOf e.1 (exOps.take 2 ++ b) + 1) ≤ 2147483648)
    (hf : FilesOk r (WisardFile r [b!"a", b!"b"])) :
    (∀ l d, (wplay (Wisard.create 2 exOpts) (exOps.take 2 ++ b)).1.discriminators.find l = some d →
      Savable (Wisard.create 2 exOpts) (exOps.take 2 ++ b) l d) ∧
    (∀ l ∈ (wplay (Wisard.create 2 exOpts) (exOps.take 2 ++ b)).1.discriminators.keys, Utf8 l) ∧
    FilesOk r (WisardFile r (wplay (Wisard.create 2 exOpts) (exOps.take 2 ++ b)).1.discriminators.keys) := by
  refine ⟨?_, ?_, by rw [hk]; exact hf⟩
  · intro l d h
    have hl : l ∈ (wplay (Wisard.create 2 exOpts) (exOps.take 2 ++ b)).1.discriminators.keys := SMap.mem_keys_iff.mpr ⟨d, h⟩
    obtain ⟨h1, h2, h3⟩ := hr _ (SMap.mem_of_find h)
    rw [hk] at hl
    refine ⟨h1, ?_, h2, h3⟩
    simp only [List.mem_cons, List.not_mem_nil, or_false] at hl
    rcases hl with rfl | rfl
    · exact ⟨[], ⟨Rnd.id, true⟩, .vec [1, 0, 1, 1], _, rfl, by decide⟩
    · exact ⟨[.train ⟨Rnd.id, true⟩ (.vec [1, 0, 1, 1]) b!"a"], ⟨Rnd.id, true⟩, .vec [0, 0, 1, 1], _, rfl, by decide⟩
  · rw [hk]
    simp only [List.mem_cons, List.not_mem_nil, or_false, forall_eq_or_imp, forall_eq]
    exact ⟨utf8_ascii (by decide), utf8_ascii (by decide)⟩

/-- It meets the hypotheses of `C187_wisard`. -/
example : OptRange 2 exOpts ∧
    BeforeReloads (fun ops r => (∀ l d, (wplay (Wisard.create 2 exOpts) ops).1.discriminators.find l = some d →
      Savable (Wisard.create 2 exOpts) ops l d) ∧ (∀ l ∈ (wplay (Wisard.create 2 exOpts) ops).1.discriminators.keys, Utf8 l) ∧
      FilesOk r (WisardFile r (wplay (Wisard.create 2 exOpts) ops).1.discriminators.keys)) wLife ∧
    MappingUnused (Wisard.create 2 exOpts) wLife ∧
    (wplay (Wisard.create 2 exOpts) (callsOf wLife)).2 = [.ok (), .ok (), .error (.throw .entrySize), .ok (), .ok ()] ∧
    (wplay (Wisard.create 2 exOpts) (callsOf wLife)).1.discriminators.keys = [b!"a", b!"b", b!"c"] := by
  refine ⟨by unfold OptRange; decide, ?_, ?_, by decide, by decide⟩
  · refine before_call (before_call (before_reload ?_ (before_call (before_reload ?_ (before_call (before_call before_nil))))))
    · refine wLife_savable fileReload [] (by decide) (by unfold IntRange; decide) (file_files _ ?_)
      rintro n ⟨l, _, i, rfl⟩
      exact ⟨l ++ (b!"__" ++ (b!"0123456789" ++ b!".wdpkg")), by
        rw [List.append_assoc, List.append_assoc, List.append_assoc]; rfl⟩
    · exact wLife_savable plainReload [.train ⟨Rnd.id, false⟩ (.vec [1]) b!"b"] (by decide) (by unfold IntRange; decide)
        (plain_files _)
  · intro a r b o c hs
    have hsub : o ∈ callsOf wLife := by rw [hs, callsOf_append]; simp [callsOf, callsOf_append]
    have hl : o.label = b!"a" ∨ o.label = b!"b" ∨ o.label = b!"c" := by
      revert hsub
      generalize o = o
      simp only [wLife, callsOf, List.mem_cons, List.not_mem_nil, or_false]
      rintro (rfl | rfl | rfl | rfl | rfl) <;> simp [WOp.label]
    match a, hs with
    | [], hs => cases hs
    | [x], hs => cases hs
    | x :: y :: a, hs =>
      simp only [wLife, List.cons_append, List.cons.injEq] at hs
      obtain ⟨rfl, rfl, _⟩ := hs
      rcases hl with hl | hl | hl
      · left; rw [hl]; exact wplay_keys (w := (wplay (Wisard.create 2 exOpts) (exOps.take 2)).1) (callsOf (a ++ b)) (by decide)
      · left; rw [hl]; exact wplay_keys (w := (wplay (Wisard.create 2 exOpts) (exOps.take 2)).1) (callsOf (a ++ b)) (by decide)
      · right; rw [hl]; decide

/-! ## ClusWisard -/

/-- C187: the same for a ClusWisard. What is asked before each save is what C36 asks; through files also that no class is named
`unsupervised_cluster` next to a used unsupervised cluster. -/
theorem C187_clusWisard (ft : FloatText) (f : Flt) {A : Int} {ms : Rat} {t dl : Int} {o : ClusOpts} {w0 : ClusWisard}
    (hm : FloatOk ft ms) (h0 : ClusWisard.create A ms t dl o = .ok w0) (hr : CRange A t dl o) (steps : List (Step COp))
    (htr : ∀ c ∈ callsOf steps, c.trains = true)
    (hs : BeforeReloads (fun ops r => (∀ l c, (cplay f w0 ops).1.clusters.find l = some c → SavableC c) ∧
      ((cplay f w0 ops).1.unsupervisedCluster = Cluster.default ∨
        (o.base = 2 ∧ 0 < (cplay f w0 ops).1.unsupervisedCluster.getSize ∧ SavableC (cplay f w0 ops).1.unsupervisedCluster)) ∧
      (∀ l ∈ (cplay f w0 ops).1.clusters.keys, Utf8 l) ∧ FilesOk r (OwnFile r.path r.random (cplay f w0 ops).1) ∧
      (r.huge = true → b!"unsupervised_cluster" ∉ (cplay f w0 ops).1.clusters.keys ∨
        (cplay f w0 ops).1.unsupervisedCluster.getSize = 0)) steps) :
    let w := (cplay f w0 (callsOf steps)).1
    ∃ w', liveC ft f w0 steps = .ok (w', (cplay f w0 (callsOf steps)).2) ∧ CIndistinguishable f w w' := by
  intro w
  have hsnoc : ∀ (a : List COp) (c : COp) (w0 : ClusWisard), (cplay f w0 (a ++ [c])).1 = (cstep f (cplay f w0 a).1 c).1 := by
    intro a
    induction a with
    | nil => intro c w0; rfl
    | cons x a ih => intro c w0; exact ih c _
  have key := live_ok (call := cstep f) (save := fun r w => w.jsonText r.it ft r.fs r.huge r.path r.random)
    (load := fun fs t => ClusWisard.ofText ft fs t) (play := cplay f) (fun _ => rfl) (fun _ _ _ => rfl)
    (fun a e d => e = (cplay f w0 (callsOf a)).1 ∧ CWSim e d) steps ?_ ?_ steps [] w0 w0 rfl ⟨rfl, clus_fresh h0⟩
  · obtain ⟨d', h1, _, h2⟩ := key
    exact ⟨d', h1, h2.indistinguishable f⟩
  · rintro a c b e d hst ⟨rfl, h⟩
    obtain ⟨h1, h2⟩ := h.step (f := f) c (htr c (by rw [hst, callsOf_append]; simp [callsOf]))
    refine ⟨⟨?_, h1⟩, h2⟩
    rw [callsOf_append]
    exact (hsnoc _ c w0).symm
  · rintro a r b e d hst ⟨rfl, h⟩
    obtain ⟨hc, hu, hut, hfo, hnm⟩ := hs a r b hst
    have hsv := winv_sav h0 (WInv.play (f := f) h0 (callsOf a)) hr hc hu
    obtain ⟨t, w', k1, k2, k3⟩ := clus_reload ft (h.sav hsv) (by rw [h.ms, minScore_play f h0]; exact hm)
      (by rw [h.cls.keys]; exact hut) r (FilesOk.mono hfo fun _ => h.ownFile)
      (by rw [h.cls.keys, show d.unsupervisedCluster.getSize = _ from h.un.discs.length_eq.symm]; exact hnm)
    refine ⟨t, w', k1, k2, ?_, h.trans k3⟩
    rw [callsOf_append]
    simp only [callsOf, List.append_nil]

/-- C187: in particular if all calls before a save succeeded (unsupervised ones only with base 2). -/
theorem C187_clusWisard_successful (ft : FloatText) (f : Flt) {A : Int} {ms : Rat} {t dl : Int} {o : ClusOpts} {w0 : ClusWisard}
    (hm : FloatOk ft ms) (h0 : ClusWisard.create A ms t dl o = .ok w0) (hr : CRange A t dl o) (steps : List (Step COp))
    (htr : ∀ c ∈ callsOf steps, c.trains = true)
    (hlen : ∀ c ∈ callsOf steps, ∀ img ∈ c.images, (img.length : Int) ≤ 2147483647)
    (hb : o.base = 2 ∨ ∀ c ∈ callsOf steps, c.isUnsup = false)
    (hs : BeforeReloads (fun ops r => AllSucceed f w0 ops ∧ (∀ l ∈ (cplay f w0 ops).1.clusters.keys, Utf8 l) ∧
      FilesOk r (OwnFile r.path r.random (cplay f w0 ops).1) ∧ (r.huge = true → b!"unsupervised_cluster" ∉ (cplay f w0 ops).1.clusters.keys ∨
        (cplay f w0 ops).1.unsupervisedCluster.getSize = 0) ∧
      ∀ d, ((∃ l, some d ∈ discs (cplay f w0 ops).1 l) ∨ some d ∈ (cplay f w0 ops).1.unsupervisedCluster.discriminators) →
        (d.getNumberOfRAMS : Int) * (16 * d.getNumberOfTrainings + 1) ≤ 2147483648) steps) :
    let w := (cplay f w0 (callsOf steps)).1
    ∃ w', liveC ft f w0 steps = .ok (w', (cplay f w0 (callsOf steps)).2) ∧ CIndistinguishable f w w' := by
  refine C187_clusWisard ft f hm h0 hr steps htr ?_
  intro a r b hst
  obtain ⟨h1, h2, h4, h5, h3⟩ := hs a r b hst
  have hsub : ∀ c ∈ callsOf a, c ∈ callsOf steps := by
    intro c hc
    rw [hst, callsOf_append]
    exact List.mem_append_left _ hc
  obtain ⟨k1, k2⟩ := successful_savable h0 (fun c hc => htr c (hsub c hc)) h1 (fun c hc => hlen c (hsub c hc))
    (hb.imp _root_.id fun hb c hc => hb c (hsub c hc)) h3
  exact ⟨k1, k2, h2, h4, h5⟩

/-- The calls of the example of C36 with a reload after each of them, and a failing call at the end. -/
def cLife : List (Step COp) :=
  [.call (.unsup (fun _ => env0) [[1, 1, 1, 1], [0, 0, 0, 0]]), .reload fileReload, .call op0,
    .reload plainReload, .call (.semi (fun _ _ => env0) [[1, 0, 1, 0], [1, 1, 1, 0]] [(0, b!"b")]),
    .reload fileReload, .call (.train (fun _ => env0) [[1]] [b!"a"])]

theorem clusFile_m (l : Option Str) (j : Nat) (r : Str) : ∃ t, fileName fileReload.path l j r = b!"m" ++ t :=
  ⟨l.getD b!"unsupervised_cluster" ++ (b!"__" ++ (natStr j ++ (b!"__" ++ (r ++ b!".wdpkg")))), by
    unfold fileName
    simp only [List.append_assoc]
    rfl⟩

theorem cLife_before (r : Reload) (hr : r = plainReload ∨ r = fileReload) (ops : List COp) (h1 : ∀ r ∈ (cplay Flt.exact cw0 ops).2, r = .ok ())
    (h2 : ∀ l ∈ (cplay Flt.exact cw0 ops).1.clusters.keys, l = b!"a" ∨ l = b!"b")
    (h3 : ∀ e ∈ (cplay Flt.exact cw0 ops).1.clusters, ∀ o ∈ e.2.discriminators,
      ∀ d ∈ o, (d.getNumberOfRAMS : Int) * (16 * d.getNumberOfTrainings + 1) ≤ 2147483648)
    (h4 : ∀ o ∈ (cplay Flt.exact cw0 ops).1.unsupervisedCluster.discriminators,
      ∀ d ∈ o, (d.getNumberOfRAMS : Int) * (16 * d.getNumberOfTrainings + 1) ≤ 2147483648) :
    AllSucceed Flt.exact cw0 ops ∧ (∀ l ∈ (cplay Flt.exact cw0 ops).1.clusters.keys, Utf8 l) ∧
      FilesOk r (OwnFile r.path r.random (cplay Flt.exact cw0 ops).1) ∧
      (r.huge = true → b!"unsupervised_cluster" ∉ (cplay Flt.exact cw0 ops).1.clusters.keys ∨
        (cplay Flt.exact cw0 ops).1.unsupervisedCluster.getSize = 0) ∧
      ∀ d, ((∃ l, some d ∈ discs (cplay Flt.exact cw0 ops).1 l) ∨
          some d ∈ (cplay Flt.exact cw0 ops).1.unsupervisedCluster.discriminators) →
        (d.getNumberOfRAMS : Int) * (16 * d.getNumberOfTrainings + 1) ≤ 2147483648 := by
  refine ⟨h1, ?_, ?_, ?_, ?_⟩
  · intro l hl
    rcases h2 l hl with rfl | rfl
    · exact utf8_ascii (by decide)
    · exact utf8_ascii (by decide)
  · rcases hr with rfl | rfl
    · exact plain_files _
    · refine file_files _ ?_
      rintro n (⟨i, l, c, j, _, _, rfl⟩ | ⟨j, _, rfl⟩)
      · exact clusFile_m _ _ _
      · exact clusFile_m _ _ _
  · intro _
    left
    intro hu
    rcases h2 _ hu with h | h <;> cases h
  · rintro d (⟨l, hd⟩ | hd)
    · unfold discs at hd
      cases hf : (cplay Flt.exact cw0 ops).1.clusters.find l with
      | none => rw [hf] at hd; simp at hd
      | some c =>
        rw [hf] at hd
        exact h3 _ (SMap.mem_of_find hf) _ hd d rfl
    · exact h4 _ hd d rfl

set_option maxRecDepth 20000 in
/-- It meets the hypotheses of `C187_clusWisard_successful` (with `ft2_half`). -/
example : ClusWisard.create 2 (1/2) 10 3 {} = .ok cw0 ∧ CRange 2 10 3 {} ∧ (∀ c ∈ callsOf cLife, c.trains = true) ∧
    (∀ c ∈ callsOf cLife, ∀ img ∈ c.images, (img.length : Int) ≤ 2147483647) ∧
    BeforeReloads (fun ops r => AllSucceed Flt.exact cw0 ops ∧ (∀ l ∈ (cplay Flt.exact cw0 ops).1.clusters.keys, Utf8 l) ∧
      FilesOk r (OwnFile r.path r.random (cplay Flt.exact cw0 ops).1) ∧
      (r.huge = true → b!"unsupervised_cluster" ∉ (cplay Flt.exact cw0 ops).1.clusters.keys ∨
        (cplay Flt.exact cw0 ops).1.unsupervisedCluster.getSize = 0) ∧
      ∀ d, ((∃ l, some d ∈ discs (cplay Flt.exact cw0 ops).1 l) ∨
          some d ∈ (cplay Flt.exact cw0 ops).1.unsupervisedCluster.discriminators) →
        (d.getNumberOfRAMS : Int) * (16 * d.getNumberOfTrainings + 1) ≤ 2147483648) cLife ∧
    (cplay Flt.exact cw0 (callsOf cLife)).2.getLast? ≠ some (.ok ()) := by
  refine ⟨by decide +kernel, by unfold CRange; decide, by decide, by decide, ?_, by decide +kernel⟩
  refine before_call (before_reload ?_ (before_call (before_reload ?_ (before_call (before_reload ?_ (before_call before_nil))))))
  · exact cLife_before fileReload (.inr rfl) _ (by decide +kernel) (by decide +kernel) (by decide +kernel) (by decide +kernel)
  · exact cLife_before plainReload (.inl rfl) _ (by decide +kernel) (by decide +kernel) (by decide +kernel) (by decide +kernel)
  · exact cLife_before fileReload (.inr rfl) _ (by decide +kernel) (by decide +kernel) (by decide +kernel) (by decide +kernel)

end Wis
