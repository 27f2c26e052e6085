import Verif.Props.Semantics
import Verif.Props.Reproducible
import Verif.Props.RecodeClus
import Verif.Props.MentalImages
/-!
# C195: merging classes
-/

namespace Wis
open Spec

theorem seen_iff {z : Bool} {imgs : List Image} {x : Image} {m : List Int} :
    SeenOften z 1 imgs x m ↔ (∃ i ∈ imgs, Agree m x i) ∧ ¬ (z = true ∧ ZeroOn m x) := by
  unfold SeenOften
  rw [matchCount_pos]

theorem countP_le_sum {α β : Type} (es : List α) (P : α → β → Bool) (P' : β → Bool) (M : List β)
    (h : ∀ m ∈ M, P' m = true → ∃ e ∈ es, P e m = true) : M.countP P' ≤ (es.map (fun e => M.countP (P e))).sum := by
  induction M with
  | nil => simp
  | cons m M ih =>
    have ih := ih fun m hm => h m (List.mem_cons_of_mem _ hm)
    have e1 : (es.map (fun e => (m :: M).countP (P e))).sum = (es.map (fun e => M.countP (P e))).sum + (es.map (fun e => if P e m then 1 else 0)).sum := by
      rw [← List.sum_map_add]
      congr 1
      apply List.map_congr_left
      intro e _
      exact List.countP_cons
    rw [e1, List.countP_cons]
    split
    · rename_i hp
      obtain ⟨e, he, hpe⟩ := h m (by simp) hp
      have : 1 ≤ (es.map (fun e => if P e m then 1 else 0)).sum :=
        List.single_le_sum (by simp) _ (List.mem_map.mpr ⟨e, he, by simp [hpe]⟩)
      omega
    · omega

/-- **C195**: merge classes. Two Wisards without bleaching; the second is trained with the same images, under the labels that `f` makes of
the labels. If the class `k` of the second is wired as the classes it is merged from, then its score for a picture is at least the
score of each of these classes, and at most their sum. -/
theorem C195_merge {w0 w0' w w' : Wisard} {ops ops' : List WOp} {n : Int} (g : GoodHistory w0 ops w n) (g' : GoodHistory w0' ops' w' n)
    (t : ∀ o ∈ ops, o.isTrain = true) (t' : ∀ o ∈ ops', o.isTrain = true) (f : Str → Str)
    (hf : trained ops' = (trained ops).map (fun e => (e.1, f e.2)))
    (hb : w0.opts.bleachingActivated = false) (hb' : w0'.opts.bleachingActivated = false) (hz : w0'.opts.ignoreZero = w0.opts.ignoreZero)
    {k : Str} {d' : Discriminator} (hd' : w'.discriminators.find k = some d')
    (hwire : ∀ l d, f l = k → w.discriminators.find l = some d → d.mapping = d'.mapping)
    {x : Image} (hx : ValidImage n w0.opts.base x) (hx' : ValidImage n w0'.opts.base x) :
    ∃ s s' v', w.classify1 x = .ok s ∧ w'.classify1 x = .ok s' ∧ s'.find k = some v' ∧
      (∀ l v, f l = k → s.find l = some v → v ≤ v') ∧ v' ≤ ((s.filter (fun e => decide (f e.1 = k))).map (·.2)).sum := by
  obtain ⟨s, a1, aS, _, a2⟩ := C106_score_plain g t hb hx
  obtain ⟨s', b1, _, _, b2⟩ := C106_score_plain g' t' hb' hx'
  have b2 := b2 k
  rw [hd', Option.map_some] at b2
  have val : ∀ l v, f l = k → s.find l = some v → v = (knownBy w0.opts.ignoreZero 1 (trainedWith l ops) x d'.mapping : Int) := by
    intro l v hl hv
    rw [a2 l] at hv
    obtain ⟨d, hd, rfl⟩ := Option.map_eq_some_iff.mp hv
    rw [hwire l d hl hd]
  have up : ∀ l i, f l = k → i ∈ trainedWith l ops → i ∈ trainedWith k ops' := by
    intro l i hl hi
    rw [mem_trainedWith, hf]
    exact List.mem_map.mpr ⟨(i, l), mem_trainedWith.mp hi, by rw [hl]⟩
  refine ⟨s, s', _, a1, b1, b2, fun l v hl hv => ?_, ?_⟩
  · rw [val l v hl hv, hz]
    exact_mod_cast score_mono (fun i hi => up l i hl hi) x d'.mapping
  · have hmap : (s.filter (fun e => decide (f e.1 = k))).map (·.2) =
        ((s.filter (fun e => decide (f e.1 = k))).map (fun e => d'.mapping.countP (fun m => decide (SeenOften w0.opts.ignoreZero 1 (trainedWith e.1 ops) x m)))).map Int.ofNat := by
      rw [List.map_map]
      apply List.map_congr_left
      intro e he
      obtain ⟨h1, h2⟩ := List.mem_filter.mp he
      exact val e.1 e.2 (of_decide_eq_true h2) (SMap.find_of_mem aS h1)
    rw [hmap, hz]
    have := countP_le_sum (s.filter (fun e => decide (f e.1 = k))) (fun e m => decide (SeenOften w0.opts.ignoreZero 1 (trainedWith e.1 ops) x m))
      (fun m => decide (SeenOften w0.opts.ignoreZero 1 (trainedWith k ops') x m)) d'.mapping (by
        intro m _ hm
        obtain ⟨⟨i, hi, hag⟩, hnz⟩ := seen_iff.mp (of_decide_eq_true hm)
        rw [mem_trainedWith, hf] at hi
        obtain ⟨⟨i', l⟩, hil, he⟩ := List.mem_map.mp hi
        simp only [Prod.mk.injEq] at he
        obtain ⟨rfl, hl⟩ := he
        have hmem := mem_trainedWith.mpr hil
        cases hfd : w.discriminators.find l with
        | none => rw [(g.class_iff t l).mp hfd] at hmem; cases hmem
        | some d =>
          have hfind : s.find l = some _ := (a2 l).trans (by rw [hfd]; rfl)
          exact ⟨(l, _), List.mem_filter.mpr ⟨SMap.mem_of_find hfind, decide_eq_true hl⟩, decide_eq_true (seen_iff.mpr ⟨⟨i', hmem, hag⟩, hnz⟩)⟩)
    unfold knownBy
    have h2 : ∀ l : List Nat, (l.map Int.ofNat).sum = (l.sum : Int) := by
      intro l
      induction l with
      | nil => rfl
      | cons a l ih => simp only [List.map_cons, List.sum_cons, ih]; push_cast; rfl
    rw [h2]
    exact_mod_cast this

/-- Sorting a list of labelled images by label, and taking only the labels that `f` takes to `k`. -/
theorem length_by_label (f : Str → Str) (k : Str) (P : Image → Bool) (K : List Str) (hK : K.Nodup) (T : List (Image × Str)) (h : ∀ e ∈ T, e.2 ∈ K) :
    (T.filter (fun e => decide (f e.2 = k) && P e.1)).length =
      ((K.filter (fun l => decide (f l = k))).map (fun l => (T.filter (fun e => decide (e.2 = l) && P e.1)).length)).sum := by
  induction T with
  | nil => simp
  | cons e T ih =>
    have ih := ih fun e he => h e (List.mem_cons_of_mem _ he)
    have e1 : ∀ L : List Str, (L.map (fun l => ((e :: T).filter (fun e => decide (e.2 = l) && P e.1)).length)).sum =
        (if P e.1 = true then L.count e.2 else 0) + (L.map (fun l => (T.filter (fun e => decide (e.2 = l) && P e.1)).length)).sum := by
      intro L
      induction L with
      | nil => simp
      | cons l L ihL =>
        rw [List.map_cons, List.sum_cons, ihL, List.map_cons, List.sum_cons, List.count_cons, List.filter_cons]
        by_cases hp : P e.1 = true <;> by_cases hl : e.2 = l
        · subst hl; simp [hp]; omega
        · have : ¬ l = e.2 := fun h => hl h.symm
          simp [hp, hl, this]; omega
        · simp [hp]
        · simp [hp]
    rw [e1, ← ih, List.filter_cons]
    have hc : (K.filter (fun l => decide (f l = k))).count e.2 = if f e.2 = k then 1 else 0 := by
      split
      · rename_i hk
        exact List.count_eq_one_of_mem (hK.filter _) (List.mem_filter.mpr ⟨h e (by simp), decide_eq_true hk⟩)
      · rename_i hk
        exact List.count_eq_zero.mpr fun hm => hk (of_decide_eq_true (List.mem_filter.mp hm).2)
    rw [hc]
    by_cases hp : P e.1 = true <;> by_cases hk : f e.2 = k <;> (simp [hp, hk]; try omega)

theorem net_class {l : Str} {ops : List WOp} (t : ∀ o ∈ ops, o.isTrain = true) (P : Image → Bool) :
    net ((opsOf l ops).filter (fun o => P o.img)) = ((trained ops).filter (fun e => decide (e.2 = l) && P e.1)).length := by
  rw [opsOf_trains t, net_filter_trains]
  congr 1
  rw [List.filter_map, List.length_map, List.filter_filter]
  congr 1
  apply List.filter_congr
  intro e _
  simp [Bool.and_comm]

/-- **C195**: the mental image of a merged class is the sum of the mental images of the classes it is merged from. All classes of both
Wisards are wired as `M`; the counters are not exhausted. -/
theorem C195_mental {w0 w0' w w' : Wisard} {ops ops' : List WOp} {n : Nat} (g : GoodHistory w0 ops w n) (g' : GoodHistory w0' ops' w' n)
    (t : ∀ o ∈ ops, o.isTrain = true) (t' : ∀ o ∈ ops', o.isTrain = true) (f : Str → Str)
    (hf : trained ops' = (trained ops).map (fun e => (e.1, f e.2))) {M : List (List Int)}
    (hM : ∀ l d, w.discriminators.find l = some d → d.mapping = M) (hM' : ∀ l d, w'.discriminators.find l = some d → d.mapping = M)
    (hfit : ∀ m ∈ M, w0.opts.base ^ m.length ≤ 2 ^ 31) (hfit' : ∀ m ∈ M, w0'.opts.base ^ m.length ≤ 2 ^ 31)
    (hsum : ∀ i : Int, (M.flatten.count i : Int) * ops.length ≤ 2147483647) (it it' : IterOrder) :
    ∃ ms ms', w.getMentalImages it = .ok ms ∧ w'.getMentalImages it' = .ok ms' ∧ ms.keys = w.discriminators.keys ∧
      ms'.keys = w'.discriminators.keys ∧ ∀ k m', (k, m') ∈ ms' → m'.length = n ∧ ∀ i, i < n →
        m'[i]? = some ((ms.filter (fun e => decide (f e.1 = k))).map (fun e => (e.2[i]?).getD 0)).sum := by
  have hlen : ops'.length = ops.length := by
    rw [← trained_length t', ← trained_length t, hf, List.length_map]
  have legal : ∀ {ops : List WOp}, (∀ o ∈ ops, o.isTrain = true) → ∀ l, Legal (opsOf l ops) := by
    intro ops t l
    rw [opsOf_trains t]
    exact legal_trains _
  obtain ⟨ms, a1, a2, a3⟩ := C87_mental_images g (by omega) (legal t) (fun l d hd => by rw [hM l d hd]; exact hfit)
    (fun l d hd => by rw [hM l d hd]; exact hsum) it
  obtain ⟨ms', b1, b2, b3⟩ := C87_mental_images g' (by omega) (legal t') (fun l d hd => by rw [hM' l d hd]; exact hfit')
    (fun l d hd => by rw [hM' l d hd, hlen]; exact hsum) it'
  refine ⟨ms, ms', a1, b1, a2, b2, fun k m' hk => ?_⟩
  obtain ⟨d', hd', hl', c'⟩ := b3 k m' hk
  refine ⟨by omega, fun i hi => ?_⟩
  rw [List.getElem?_eq_getElem (by omega), c' i (by omega), hM' k d' hd']
  have hS := sorted_of_keys (wrun_find g.start ops g.ran).2.2.1 a2
  have hnd : ms.keys.Nodup := SMap.nodup_keys hS
  have hin : ∀ e ∈ trained ops, e.2 ∈ ms.keys := by
    rintro ⟨x, l⟩ he
    rw [a2]
    cases hd : w.discriminators.find l with
    | none =>
      have := mem_trainedWith.mpr he
      rw [(g.class_iff t l).mp hd] at this
      cases this
    | some d => exact List.mem_map.mpr ⟨_, SMap.mem_of_find hd, rfl⟩
  have hmap : (ms.filter (fun e => decide (f e.1 = k))).map (fun e => (e.2[i]?).getD 0) =
      ((ms.keys.filter (fun l => decide (f l = k))).map (fun l =>
        ((trained ops).filter (fun e => decide (e.2 = l) && decide (NonZeroAt i e.1))).length)).map
          (fun c : Nat => (M.flatten.count (i : Int) : Int) * c) := by
    unfold SMap.keys
    rw [List.filter_map, List.map_map, List.map_map]
    apply List.map_congr_left
    intro e he
    obtain ⟨d, hd, hl, c⟩ := a3 e.1 e.2 (List.mem_filter.mp he).1
    rw [List.getElem?_eq_getElem (by omega), Option.getD_some, c i (by omega), hM e.1 d hd, net_class t (fun x => decide (NonZeroAt i x))]
    rfl
  rw [hmap, net_class t' (fun x => decide (NonZeroAt i x)), hf, List.filter_map, List.length_map]
  have := length_by_label f k (fun x => decide (NonZeroAt i x)) ms.keys hnd (trained ops) hin
  rw [show (trained ops).filter ((fun e : Image × Str => decide (e.2 = k) && decide (NonZeroAt i e.1)) ∘ fun e => (e.1, f e.2)) =
    (trained ops).filter (fun e => decide (f e.2 = k) && decide (NonZeroAt i e.1)) from rfl, this]
  have h2 : ∀ (c : Int) (l : List Nat), (l.map (fun x : Nat => c * x)).sum = c * (l.sum : Nat) := by
    intro c l
    induction l with
    | nil => simp
    | cons a l ih => simp only [List.map_cons, List.sum_cons, ih]; push_cast; ring
  rw [h2]

/-- The hypotheses of `C195_merge` and `C195_mental` are met: the classes "a" and "b" merged into "c"; a picture of which "a" knows one RAM and "b" the
other is known to both RAMs of "c". -/
example : ∃ w w' d', GoodHistory (Wisard.create 2 { indexes := [2, 0, 1, 3], bleachingActivated := false })
      [.train ⟨Rnd.id, true⟩ (.vec [1, 0, 1, 1]) b!"a", .train ⟨Rnd.id, true⟩ (.vec [0, 0, 0, 0]) b!"b"] w 4 ∧
    GoodHistory (Wisard.create 2 { indexes := [2, 0, 1, 3], bleachingActivated := false })
      [.train ⟨rotRnd, true⟩ (.vec [1, 0, 1, 1]) b!"c", .train ⟨Rnd.id, false⟩ (.vec [0, 0, 0, 0]) b!"c"] w' 4 ∧
    w'.discriminators.find b!"c" = some d' ∧ (∀ l d, w.discriminators.find l = some d → d.mapping = d'.mapping) ∧
    w.classify1 (.vec [0, 0, 0, 1]) = .ok [(b!"a", 1), (b!"b", 1)] ∧ w'.classify1 (.vec [0, 0, 0, 1]) = .ok [(b!"c", 2)] := by
  have sat : ∀ {w : Wisard} {M : List (List Int)}, (∀ e ∈ w.discriminators, e.2.mapping = M) → (∀ m ∈ M, ∀ a ∈ m, 0 ≤ a ∧ a < (4 : Int)) →
      ∀ l d, w.discriminators.find l = some d → WiredInside 4 d.mapping := by
    intro w M h1 h2 l d hd m hm
    rw [h1 _ (SMap.mem_of_find hd)] at hm
    exact h2 m hm
  have m1 : ∀ e ∈ (wrun (Wisard.create 2 { indexes := [2, 0, 1, 3], bleachingActivated := false })
      [.train ⟨Rnd.id, true⟩ (.vec [1, 0, 1, 1]) b!"a", .train ⟨Rnd.id, true⟩ (.vec [0, 0, 0, 0]) b!"b"]).1.discriminators,
      e.2.mapping = [[2, 0], [1, 3]] := by decide +kernel
  have m2 : ∀ e ∈ (wrun (Wisard.create 2 { indexes := [2, 0, 1, 3], bleachingActivated := false })
      [.train ⟨rotRnd, true⟩ (.vec [1, 0, 1, 1]) b!"c", .train ⟨Rnd.id, false⟩ (.vec [0, 0, 0, 0]) b!"c"]).1.discriminators,
      e.2.mapping = [[2, 0], [1, 3]] := by decide +kernel
  have v1 : ValidImage 4 2 (.vec [1, 0, 1, 1]) := bits_valid [1, 0, 1, 1] (by decide)
  have v2 : ValidImage 4 2 (.vec [0, 0, 0, 0]) := bits_valid [0, 0, 0, 0] (by decide)
  refine ⟨_, _, _, ⟨rfl, Prod.ext rfl (by decide +kernel), ?_, sat m1 (by decide), by decide⟩,
    ⟨rfl, Prod.ext rfl (by decide +kernel), ?_, sat m2 (by decide), by decide⟩, rfl, ?_, by decide +kernel, by decide +kernel⟩
  · intro o ho
    rcases List.mem_cons.mp ho with rfl | ho
    · exact v1
    · cases List.mem_singleton.mp ho
      exact v2
  · intro o ho
    rcases List.mem_cons.mp ho with rfl | ho
    · exact v1
    · cases List.mem_singleton.mp ho
      exact v2
  · intro l d hd
    rw [m1 _ (SMap.mem_of_find hd)]
    rfl

end Wis
