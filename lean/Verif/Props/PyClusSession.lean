import Verif.Spec.PyClusSession
import Verif.Props.ClusAll
import Verif.Props.PySession
import Verif.Props.ClusWisardJson
import Verif.Props.ClusNames
/-!
# C152, C154: Python programs using a ClusWisard
-/

namespace Wis
open Spec PyBind Ieee

/-! ## C152 -/

theorem clusMental_args {L : PyLib} {args : List PyVal} {v : List CVal} : dispatch L clusMentalSigs args = some v ↔
    ∃ x l, args = [x] ∧ PyText x l ∧ v = [.str l] := by
  rw [dispatch_strict (by decide)]
  simp only [clusMentalSigs, firstOf_cons, loadArgs1, load_str]
  constructor
  · rintro (⟨x, _, rfl, rfl, xs, h1, rfl⟩ | ⟨_, h⟩)
    · exact ⟨x, xs, rfl, h1, rfl⟩
    · cases h
  · rintro ⟨x, xs, rfl, h1, rfl⟩
    exact .inl ⟨x, _, rfl, rfl, xs, h1, rfl⟩

theorem pyMental_iff (L : PyLib) (w : ClusWisard) (it : IterOrder) (args : List PyVal) (r : ClusWisard × Res (List (List Int))) :
    w.pyMentalImage L it args = some r ↔ ∃ x l, args = [x] ∧ PyText x l ∧ r = w.getMentalImage it l := by
  constructor
  · intro h
    unfold ClusWisard.pyMentalImage at h
    cases hd : dispatch L clusMentalSigs args with
    | none => rw [hd] at h; cases h
    | some v =>
      rw [hd] at h
      obtain ⟨x, l, rfl, h0, rfl⟩ := clusMental_args.mp hd
      exact ⟨x, l, rfl, h0, by cases h; rfl⟩
  · rintro ⟨x, l, rfl, h0, rfl⟩
    unfold ClusWisard.pyMentalImage
    rw [clusMental_args.mpr ⟨x, l, rfl, h0, rfl⟩]

theorem pyUnsupervised_iff (L : PyLib) (w : ClusWisard) (args : List PyVal) (r : Res (List Str)) :
    w.pyUnsupervisedCall L args = some r ↔ ∃ x xs, args = [x] ∧ PyImages x xs ∧ r = w.classifyUnsupervised xs := by
  constructor
  · intro h
    unfold ClusWisard.pyUnsupervisedCall at h
    cases hd : dispatch L clusImagesSigs args with
    | none => rw [hd] at h; cases h
    | some v =>
      rw [hd] at h
      obtain ⟨x, xs, rfl, h0, rfl⟩ := clusImages_args.mp hd
      exact ⟨x, xs, rfl, h0, by cases h; rfl⟩
  · rintro ⟨x, xs, rfl, h0, rfl⟩
    unfold ClusWisard.pyUnsupervisedCall
    rw [clusImages_args.mpr ⟨x, xs, rfl, h0, rfl⟩]

/-- One call: what is asked for is performed and its result is the reply; if nothing is asked for, it is a `TypeError`. -/
theorem clusCall (L : PyLib) (f : Flt) (w : ClusWisard) (c : PyClusCall) :
    (∃ op, AsksFor c op ∧ w.pyCall L f c = ((cstep f w op).1, some (cstep f w op).2)) ∨
    ((∀ op, ¬ AsksFor c op) ∧ w.pyCall L f c = (w, none)) := by
  cases c with
  | train env args =>
    cases h : w.pyTrain L f env args with
    | none =>
      refine .inr ⟨?_, by simp only [ClusWisard.pyCall, h]⟩
      intro op ha
      cases ha with
      | lists hx hy => rw [(C145_clusWisard_train L f w env _ _).mpr (.inl ⟨_, _, _, _, rfl, hx, hy, rfl⟩)] at h; cases h
      | dict hx hy => rw [(C145_clusWisard_train L f w env _ _).mpr (.inr ⟨_, _, _, _, rfl, hx, hy, rfl⟩)] at h; cases h
    | some r =>
      rcases (C145_clusWisard_train L f w env args r).mp h with ⟨x, y, xs, ls, rfl, hx, hy, rfl⟩ | ⟨x, y, xs, m, rfl, hx, hy, rfl⟩
      · exact .inl ⟨_, .lists hx hy, by simp only [ClusWisard.pyCall, h]; rfl⟩
      · exact .inl ⟨_, .dict hx hy, by simp only [ClusWisard.pyCall, h]; rfl⟩
  | trainUnsupervised env args =>
    cases h : w.pyTrainUnsupervised L f env args with
    | none =>
      refine .inr ⟨?_, by simp only [ClusWisard.pyCall, h]⟩
      intro op ha
      cases ha with
      | unsupervised hx => rw [(C145_clusWisard_unsupervised L f w env _ _).mpr ⟨_, _, rfl, hx, rfl⟩] at h; cases h
    | some r =>
      obtain ⟨x, xs, rfl, hx, rfl⟩ := (C145_clusWisard_unsupervised L f w env args r).mp h
      exact .inl ⟨_, .unsupervised hx, by simp only [ClusWisard.pyCall, h]; rfl⟩
  | getMentalImage it args =>
    cases h : w.pyMentalImage L it args with
    | none =>
      refine .inr ⟨?_, by simp only [ClusWisard.pyCall, h]⟩
      intro op ha
      cases ha with
      | mental hx => rw [(pyMental_iff L w it _ _).mpr ⟨_, _, rfl, hx, rfl⟩] at h; cases h
    | some r =>
      obtain ⟨x, l, rfl, hx, rfl⟩ := (pyMental_iff L w it args r).mp h
      exact .inl ⟨_, .mental hx, by simp only [ClusWisard.pyCall, h]; rfl⟩

/-- A call asks for at most one thing. -/
theorem asks_unique {c : PyClusCall} {op op' : COp} (h : AsksFor c op) (h' : AsksFor c op') : op = op' := by
  have L : PyLib := ⟨id, fun i => some i, true⟩
  have im : ∀ {x xs xs'}, PyImages x xs → PyImages x xs' → xs = xs' := by
    intro x xs xs' h h'
    have := (images_ok (L := L)).mpr h
    rw [(images_ok (L := L)).mpr h'] at this
    injection this with this
    exact this.symm
  have tx : ∀ {x xs xs'}, PyTexts x xs → PyTexts x xs' → xs = xs' := by
    intro x xs xs' h h'
    have := (texts_ok (L := L)).mpr h
    rw [(texts_ok (L := L)).mpr h'] at this
    injection this with this
    exact this.symm
  cases h with
  | lists hx hy =>
    cases h' with
    | lists hx' hy' => rw [im hx hx', tx hy hy']
    | dict hx' hy' => obtain ⟨_, rfl, _⟩ := hy; obtain ⟨_, h, _⟩ := hy'; cases h
  | dict hx hy =>
    cases h' with
    | lists hx' hy' => obtain ⟨_, rfl, _⟩ := hy; obtain ⟨_, h, _⟩ := hy'; cases h
    | dict hx' hy' =>
      have := labels_ok.mpr hy
      rw [labels_ok.mpr hy'] at this
      injection this with this
      rw [im hx hx', this]
  | unsupervised hx =>
    cases h' with
    | unsupervised hx' => rw [im hx hx']
  | mental hx =>
    cases h' with
    | mental hx' =>
      have := loadStr_ok.mpr hx
      rw [loadStr_ok.mpr hx'] at this
      injection this with this
      rw [this]

/-- **C152**: whatever calls a Python program makes on a ClusWisard, with whatever arguments and going on after exceptions: each
call asks for one C++ call (`part`) or is a `TypeError` (and asks for nothing), and the final ClusWisard and the replies are
those of performing what was asked for in order. -/
theorem C152_session (L : PyLib) (f : Flt) (calls : List PyClusCall) : ∀ w : ClusWisard, ∃ parts : List (Option COp),
    List.Forall₂ (fun c part => ∀ op, part = some op ↔ AsksFor c op) calls parts ∧
    List.Forall₂ (fun part reply => part = none ↔ reply = none) parts (w.pySession L f calls).2 ∧
    (w.pySession L f calls).1 = (cplay f w (parts.filterMap id)).1 ∧
    (w.pySession L f calls).2.filterMap id = (cplay f w (parts.filterMap id)).2 := by
  induction calls with
  | nil => intro w; exact ⟨[], .nil, .nil, rfl, rfl⟩
  | cons c calls ih =>
    intro w
    rcases clusCall L f w c with ⟨op, h1, h2⟩ | ⟨h1, h2⟩
    · obtain ⟨parts, g1, g2, g3, g4⟩ := ih (cstep f w op).1
      refine ⟨some op :: parts, .cons (fun op' => ⟨fun h => by cases h; exact h1, fun h => by rw [asks_unique h h1]⟩) g1, ?_, ?_, ?_⟩
      · simp only [ClusWisard.pySession, h2]; exact .cons (by simp) g2
      · simp only [ClusWisard.pySession, h2, List.filterMap_cons, id, cplay_cons]; exact g3
      · simp only [ClusWisard.pySession, h2, List.filterMap_cons, id, cplay_cons]; exact congrArg _ g4
    · obtain ⟨parts, g1, g2, g3, g4⟩ := ih w
      refine ⟨none :: parts, .cons (fun op' => ⟨fun h => (by cases h), fun h => absurd h (h1 op')⟩) g1, ?_, ?_, ?_⟩
      · simp only [ClusWisard.pySession, h2]; exact .cons (by simp) g2
      · simp only [ClusWisard.pySession, h2, List.filterMap_cons, id]; exact g3
      · simp only [ClusWisard.pySession, h2, List.filterMap_cons, id]; exact g4

/-! ## C154 -/

theorem net_trains (imgs : List Image) : net (imgs.map Op.train) = imgs.length := by
  induction imgs with
  | nil => rfl
  | cons i imgs ih => simp only [List.map_cons, net, ih, List.length_cons]; omega

theorem GoodD.sizes {c : ClusterCfg} {A n : Nat} (hc : CfgOK c A n) {H : List Image} {d : Discriminator} (h : GoodD c n H d) :
    d.getNumberOfRAMS = ramsOf n A c.completeAddressing ∧ (d.getNumberOfTrainings : Int) ≤ H.length := by
  obtain ⟨rnd, d0, imgs, h1, h2, h3⟩ := h
  constructor
  · unfold IsNew at h1
    rw [hc.addr, hc.entry] at h1
    have e1 : d.getNumberOfRAMS = d0.getNumberOfRAMS := h3.rams.length_eq.symm
    rw [e1]
    exact ((C18_default_wiring rnd A n _ rfl rfl).2 d0 h1).1
  · have := h2.length_le
    show d.count ≤ _
    rw [h3.count, net_trains]
    omega

theorem ofKw_clus {V : Type} {c : PyCasts V} {A : Int} {ms : Rat} {t dl : Int} {kws : List (Str × V)} {w : ClusWisard}
    (h : ClusWisard.ofKwargs c A ms t dl kws = .ok w) :
    ∃ o, kwLoop (clusKw c) kws {} = .ok o ∧ ClusWisard.create A ms t dl o = .ok w ∧ w.opts = o := by
  obtain ⟨w1, h1, h⟩ := bind_eq_ok h
  obtain ⟨o, h2, h3⟩ := bind_eq_ok h
  cases h3
  refine ⟨o, h2, ?_, rfl⟩
  unfold ClusWisard.create at h1 ⊢
  obtain ⟨u, h4, h5⟩ := bind_eq_ok h1
  rw [h4, Except.bind_ok]
  cases h5
  rfl

theorem clusPyLoop_ok {w : ClusWisard} (k : Int) (xs : List (List Int)) (h : ∀ x ∈ xs, ∃ s, w.classify1 x w.opts.searchBestConfidence = .ok s) :
    ∃ rs, w.pyLoop k xs = .ok rs ∧ rs.length = xs.length := by
  induction xs with
  | nil => exact ⟨[], rfl, rfl⟩
  | cons x xs ih =>
    obtain ⟨s, hs⟩ := h x (by simp)
    obtain ⟨rs, h1, h2⟩ := ih fun y hy => h y (List.mem_cons_of_mem _ hy)
    exact ⟨_, by unfold ClusWisard.pyLoop; rw [hs, h1]; rfl, by simp [h2]⟩

/-- Names of unsupervised classes are UTF-8. -/
theorem unsupervised_utf8 {w : ClusWisard} (xs : List (List Int)) : ∀ ls, w.classifyUnsupervised xs = .ok ls → ∀ l ∈ ls, Utf8 l := by
  induction xs with
  | nil => intro ls h l hl; simp only [ClusWisard.classifyUnsupervised, Except.ok.injEq] at h; subst h; cases hl
  | cons x xs ih =>
    intro ls h l hl
    simp only [ClusWisard.classifyUnsupervised] at h
    obtain ⟨s, h1, h⟩ := bind_eq_ok h
    obtain ⟨ls', h2, h⟩ := bind_eq_ok h
    simp only [Except.ok.injEq] at h
    subst h
    rcases List.mem_cons.mp hl with rfl | hl
    · refine utf8_beforeSep ?_
      unfold ClusWisard.classifyUnsupervised1 at h1
      obtain ⟨votes, _, g2⟩ := bind_eq_ok h1
      obtain ⟨b, hl⟩ := Bleaching.make_ok g2
      obtain ⟨_, l2, _⟩ := Bleaching.loop_spec _ _ _ _ hl
      subst l2
      have hk : ∀ e ∈ activeAll b (ClusWisard.unsupVotes votes 0 []), Utf8 e.1 := by
        intro e he
        unfold activeAll at he
        obtain ⟨e', he', rfl⟩ := List.mem_map.mp he
        have hf := SMap.find_of_mem (unsupVotes_sorted votes 0 [] SMap.sorted_nil) (show (e'.1, e'.2) ∈ _ from he')
        rcases (unsupVotes_find votes 0 [] e'.1 e'.2).mp hf with ⟨i, h, _⟩ | ⟨_, h⟩
        · rw [h]; exact utf8_ascii (natStr_ascii _)
        · cases h
      unfold Bleaching.getBiggestCandidate
      rcases Bleaching.biggestLoop_spec (activeAll b (ClusWisard.unsupVotes votes 0 [])) [] 0 with ⟨_, h⟩ | ⟨pre, y, post, e1, _, _, _, h⟩
      · rw [h]; exact .nil
      · rw [h]; exact hk y (by rw [e1]; simp)
    · exact ih ls' h2 l hl

/-- Calls that ask for something perform it. -/
theorem clusSession_asked (L : PyLib) (f : Flt) {calls : List PyClusCall} {ops : List COp} (ha : List.Forall₂ AsksFor calls ops) :
    ∀ w0 : ClusWisard, (w0.pySession L f calls).1 = (cplay f w0 ops).1 ∧ (w0.pySession L f calls).2 = (cplay f w0 ops).2.map some := by
  induction ha with
  | nil => intro w0; exact ⟨rfl, rfl⟩
  | @cons c op cs ops hh _ ih =>
    intro w0
    have hcall : w0.pyCall L f c = ((cstep f w0 op).1, some (cstep f w0 op).2) := by
      rcases clusCall L f w0 c with ⟨op', h1, h2⟩ | ⟨h1, _⟩
      · rw [asks_unique hh h1]; exact h2
      · exact absurd hh (h1 op)
    obtain ⟨i1, i2⟩ := ih (cstep f w0 op).1
    simp only [ClusWisard.pySession, hcall, cplay_cons, List.map_cons, i2]
    exact ⟨i1, trivial⟩

/-- **C154**: a correct Python program on a ClusWisard never fails. `w = ClusWisard(A, minScore, threshold, limit, **kws)`, then
any training calls of the three kinds (`calls`, asking for `ops`) with images of `n ≥ A` values in `[0, base)` and labels that
are `str`s without `"::"` and not ending in `':'`; unsupervised training, if any, comes first, with `base` 2. Then every call
returns; `w.classify` of any non-empty list of such images returns a list of the same length whose labels are labels that were
given, as `str`s; `w.classifyUnsupervised` (after such training) returns a list of `str`s; `w.json()` returns a `str`, and
`ClusWisard(that str)` cannot be told from `w` by training and queries. Conditions: the options are usable and the text fits. -/
theorem C154_program (L : PyLib) (hL : ∀ q, IsFloat Ieee.single (L.toFloat q)) {read : Str → Option Rat} (hread : ReadsNearest read)
    (f : Flt) {fs0 : Fs} {A n : Nat} {m y z : PyVal} {kws : List (Str × PyVal)} (hd : Distinct kws) {w0 : ClusWisard}
    (h0 : ClusWisard.py L (libText read) fs0 [.int A, m, y, z] kws = some (.ok w0))
    (hA : 2 ≤ A) (hAn : A ≤ n) (hn : n + A ≤ 2147483647) (hb : 2 ≤ w0.opts.base) (hp : w0.opts.base ^ A < 2 ^ 63)
    (hconf : w0.opts.confidence ≤ ramsOf n A w0.opts.completeAddressing) (calls : List PyClusCall) (ops : List COp)
    (ha : List.Forall₂ AsksFor calls ops) (hv : ∀ op ∈ ops, ValidTraining n w0.opts.base op) (hfirst : UnsupFirst ops)
    (hbase : (∃ op ∈ ops, op.isUnsup = true) → w0.opts.base = 2) (hlab : ∀ l ∈ labelsOf ops, Utf8 l ∧ SafeLabel l)
    (hsize : ramsOf n A w0.opts.completeAddressing * (16 * (ops.map COp.weight).sum + 1) ≤ 2147483648) :
    let w := (w0.pySession L f calls).1
    (w0.pySession L f calls).2 = calls.map (fun _ => some (.ok ())) ∧
    (∀ x xs, PyImages x xs → xs ≠ [] → (∀ i ∈ xs, ValidImage n w0.opts.base (.vec i)) →
      ∃ rs ns, w.pyClassifyCall L [x] = some (.ok rs) ∧ rs.length = xs.length ∧ toPython rs = some ns ∧
        List.Forall₂ (fun r n => List.Forall₂ (fun l cs => Utf8Of cs l ∧ (l ∈ labelsOf ops ∨ w.clusters.keys = [] ∧ l = [])) r.names n) rs ns) ∧
    ((∃ op ∈ ops, op.isUnsup = true) → ∀ x xs, PyImages x xs → (∀ i ∈ xs, ValidImage n 2 (.vec i)) →
      ∃ ls cs, w.pyUnsupervisedCall L [x] = some (.ok ls) ∧ ls.length = xs.length ∧ List.Forall₂ Utf8Of cs ls) ∧
    ∀ (it : IterOrder) (fs fs' : Fs), ∃ cs w', w.pyJson L it (libText read) fs (fun _ _ => []) [] = some (.ok (fs, cs)) ∧
      ClusWisard.py L (libText read) fs' [.str cs] [] = some (.ok w') ∧ CIndistinguishable f w w' := by
  rcases (C145_clusWisard L _ fs0 [.int A, m, y, z] kws (.ok w0)).mp h0 with ⟨x, s, h, _⟩ | ⟨x, m', y', z', a, q, t, dl, h, h1, h2, h3, h4, h5⟩
  · cases h
  cases h
  obtain ⟨h1, h1a, h1b⟩ := h1
  cases h1
  obtain ⟨o, ho, hcr, hopt⟩ := ofKw_clus h5.symm
  rw [hopt] at hb hp hconf hv hbase hsize
  have hare := clusKw_are (c := casts L) hd ho
  have intOk : ∀ {name : Str} {dflt x : Int}, OptionIs kws name (casts L).int dflt x → InI32 dflt → InI32 x := by
    intro name dflt x h h'
    rcases h with ⟨v, _, h⟩ | ⟨_, rfl⟩
    · exact ((C145_options L v).2.1 x).mp h |>.2
    · exact h'
  have hrange : CRange A t dl o := ⟨⟨h1a, h1b⟩, h3.2, h4.2, intOk hare.base (by decide), intOk hare.confidence (by decide)⟩
  have hms : IsFloat Ieee.single q := by
    cases h2 with
    | float q => exact hL q
    | int _ _ => exact hL _
  have hk := rams_number (o := { base := o.base, completeAddressing := o.completeAddressing }) rfl rfl hA hAn hn hb hp
  simp only at hk
  have hRpos : 1 ≤ ramsOf n A o.completeAddressing := by
    unfold ramsOf
    split
    · exact Nat.div_pos (by omega) (by omega)
    · exact Nat.div_pos (by omega) (by omega)
  have hN : (ops.map COp.weight).sum ≤ 2147483645 := by
    have := Nat.mul_le_mul_right (16 * (ops.map COp.weight).sum + 1) hRpos
    omega
  obtain ⟨hc, hc2, g1, g2, g3⟩ := good_play f hcr hA hAn hn hb hp hk hconf ops hv hfirst (fun l hl => (hlab l hl).2) hN
  have hsess := clusSession_asked L f ha w0
  have hrep : ∀ ops : List COp, ∀ w0 : ClusWisard, (cplay f w0 ops).2.length = ops.length := by
    intro ops
    induction ops with
    | nil => intro w0; rfl
    | cons op ops ih => intro w0; simp [cplay_cons, ih]
  have hkeys : ∀ l ∈ (cplay f w0 ops).1.clusters.keys, l ∈ labelsOf ops := by
    intro l hl
    obtain ⟨c, hc⟩ := SMap.mem_keys_iff.mp hl
    exact (g2.cl l c hc).1
  rw [hsess.1, hsess.2]
  intro w
  have hadr : w.addressSize = A ∧ w.opts = o := by
    have := g2.const
    obtain ⟨rfl, _⟩ := create_shape hcr
    constructor
    · show (cplay f _ ops).1.addressSize = _
      rw [this]
    · show (cplay f _ ops).1.opts = _
      rw [this]
  refine ⟨?_, ?_, ?_, ?_⟩
  · apply List.ext_getElem
    · simp [hrep, ha.length_eq]
    · intro i q1 q2
      rw [List.getElem_map, List.getElem_map]
      rw [g1 _ (List.getElem_mem _)]
  · intro x xs hx hne hvx
    rw [hopt] at hvx
    obtain ⟨rs, hrs, hlen⟩ := clusPyLoop_ok (w := w) (ramsOf n A o.completeAddressing : Int) xs (by
      intro i hi
      exact g2.classify1 hc hN (by rw [hopt]; exact hvx i hi) _)
    have hpy : w.pyClassify xs = .ok rs := by
      cases xs with
      | nil => exact absurd rfl hne
      | cons i xs =>
        have hi' : (i.length : Int) = n := (hvx i (by simp)).1
        simp only [ClusWisard.pyClassify, hi', hadr.1, hadr.2, hk, Except.bind_ok]
        exact hrs
    obtain ⟨ns, n1, n2⟩ := C147_clusWisard w g2.sorted xs rs hpy (fun l hl => (hlab l (hkeys l hl)).1) (fun l hl => (hlab l (hkeys l hl)).2)
    refine ⟨rs, ns, (C145_clusWisard_classify L w [x] _).mpr ⟨x, xs, rfl, hx, by rw [hpy]⟩, hlen, n1, ?_⟩
    refine n2.imp fun r n h => h.imp fun l cs h => ⟨h.1, ?_⟩
    rcases h.2 with h | ⟨h, h'⟩
    · exact .inl (hkeys l h)
    · right
      refine ⟨?_, h'⟩
      by_contra hne'
      obtain ⟨l', hl'⟩ := List.exists_mem_of_ne_nil _ hne'
      obtain ⟨c, hc'⟩ := SMap.mem_keys_iff.mp hl'
      obtain ⟨_, ds, H, e1, e2, _⟩ := g2.cl l' c hc'
      have := h l' c hc'
      rw [e1] at this
      simp [Cluster.getSize] at this
      exact e2 this
  · intro hex x xs hx hvx
    obtain ⟨_, _, hu⟩ := C153_all_trainings f hcr hA hAn hn hb hp hk hconf ops hv hfirst (fun l hl => (hlab l hl).2) hN
    obtain ⟨ls, h6, h7⟩ := hu hex xs hvx
    have hu8 := unsupervised_utf8 xs ls h6
    have : ∃ cs, List.Forall₂ Utf8Of cs ls := by
      clear h6 h7
      induction ls with
      | nil => exact ⟨[], .nil⟩
      | cons l ls ih =>
        obtain ⟨cs, h⟩ := ih fun l hl => hu8 l (by simp [hl])
        obtain ⟨c, hc⟩ := (hu8 l (by simp)).of
        exact ⟨c :: cs, .cons hc h⟩
    obtain ⟨cs, hcs⟩ := this
    exact ⟨ls, cs, (pyUnsupervised_iff L w [x] _).mpr ⟨x, xs, rfl, hx, by rw [show w.classifyUnsupervised xs = _ from h6]⟩, h7, hcs⟩
  · intro it fs fs'
    have htr : ∀ op ∈ ops, op.trains = true := by
      intro op hop
      have := hv op hop
      cases op with
      | mental _ _ => exact this.elim
      | _ => rfl
    have himg : ∀ op ∈ ops, ∀ img ∈ op.images, (img.length : Int) ≤ 2147483647 := by
      intro op hop img himg
      have hvo := hv op hop
      have : (img.length : Int) = n := by
        cases op with
        | mental _ _ => exact hvo.elim
        | train _ _ _ => exact (hvo.2.2 img himg).1
        | semi _ _ _ => exact (hvo.2.2.2 img himg).1
        | unsup _ _ => exact (hvo.2 img himg).1
      omega
    have hcomp : (w0.clusterCfg n).completeAddressing = o.completeAddressing := by rw [← hopt]; rfl
    have hsz : ∀ {c : ClusterCfg} {H : List Image} {d : Discriminator}, CfgOK c A n → c.completeAddressing = o.completeAddressing →
        H.length ≤ (ops.map COp.weight).sum → GoodD c n H d → (d.getNumberOfRAMS : Int) * (16 * d.getNumberOfTrainings + 1) ≤ 2147483648 := by
      intro c H d hc' hcc hH hg
      obtain ⟨e1, e2⟩ := hg.sizes hc'
      rw [e1, hcc]
      have e3 : (16 * d.getNumberOfTrainings + 1 : Int) ≤ 16 * ((ops.map COp.weight).sum : Nat) + 1 := by omega
      have e4 := mul_le_mul_of_nonneg_left e3 (show (0 : Int) ≤ (ramsOf n A o.completeAddressing : Nat) by omega)
      have e5 : ((ramsOf n A o.completeAddressing : Nat) : Int) * (16 * ((ops.map COp.weight).sum : Nat) + 1) ≤ 2147483648 := by exact_mod_cast hsize
      exact le_trans e4 e5
    obtain ⟨s1, s2⟩ := successful_savable hcr htr g1 himg (by
      by_cases hex : ∃ op ∈ ops, op.isUnsup = true
      · exact .inl (hbase hex)
      · right
        intro op hop
        by_contra hc
        exact hex ⟨op, hop, by simpa using hc⟩) (by
      rintro d (⟨l, hl⟩ | hl)
      · unfold discs at hl
        cases hf : (cplay f w0 ops).1.clusters.find l with
        | none => rw [hf] at hl; cases hl
        | some c =>
          rw [hf] at hl
          obtain ⟨_, ds, H, e1, _, e3, _, e5⟩ := g2.cl l c hf
          rw [e1] at hl
          simp only [List.mem_map, Option.some.injEq, exists_eq_right] at hl
          exact hsz hc hcomp e5 (e3.disc d hl)
      · by_cases hex : ∃ op ∈ ops, op.isUnsup = true
        · obtain ⟨ds, H, e1, e2, _, e4⟩ := g3 hex
          rw [e1] at hl
          simp only [List.mem_map, Option.some.injEq, exists_eq_right] at hl
          exact hsz hc2 hcomp e4 (e2.disc d hl)
        · rw [play_unsup_default ops w0 (fun op hop => by
            by_contra hc
            exact hex ⟨op, hop, by simpa using hc⟩)] at hl
          obtain ⟨rfl, _⟩ := create_shape hcr
          cases hl)
    obtain ⟨txt, j, ht, hj, hload⟩ := C100_clusWisard_partial (libText read) f (minScore_ok hread hms hcr) hcr hrange ops s1 s2
      (fun l hl => (hlab l (hkeys l hl)).1) it fs fs'
    obtain ⟨cs, hcs⟩ := (utf8_value hj).of
    obtain ⟨w', h6, h7⟩ := hload txt ⟨[], txt, [], by simp, by simp [Ws], hj, by simp [Ws]⟩
    refine ⟨cs, w', ?_, ?_, h7⟩
    · unfold ClusWisard.pyJson
      rw [(C145_json L [] (false, [])).mpr (.inl ⟨rfl, rfl⟩)]
      dsimp only
      rw [ht]
      dsimp only
      rw [decode_of hcs]
    · exact (C145_clusWisard L _ fs' [.str cs] [] _).mpr (.inl ⟨_, txt, rfl, rfl, .str hcs, by rw [h6]⟩)

/-! A program that meets the conditions: `w = ClusWisard(2, 0.5, 10, 3)`, `w.trainUnsupervised([[1, 1, 1, 0]])`,
`w.train([[1, 1, 1, 0], [0, 0, 0, 1]], {1: "b"})`, `w.trainUnsupervised([[0, 0, 0, 1]])`. -/

/-- An installed library with the `float`s of IEEE 754. -/
def exPy32 : PyLib := ⟨Ieee.rnd Ieee.single, fun i => some (Ieee.rnd Ieee.double i), true⟩

/-- The calls. -/
def exClusCalls : List PyClusCall :=
  [.trainUnsupervised (fun _ => env0) [.list [.list [.int 1, .int 1, .int 1, .int 0]]],
   .train (fun _ _ => env0) [.list [.list [.int 1, .int 1, .int 1, .int 0], .list [.int 0, .int 0, .int 0, .int 1]], .dict [(.int 1, .str [98])]],
   .trainUnsupervised (fun _ => env0) [.list [.list [.int 0, .int 0, .int 0, .int 1]]]]

example (fs : Fs) : ∃ w0, ClusWisard.py exPy32 (libText Grisu.strtod) fs [.int (2 : Nat), .float (1/2), .int 10, .int 3] [] = some (.ok w0) ∧
    (∀ q, IsFloat Ieee.single (exPy32.toFloat q)) ∧ ReadsNearest Grisu.strtod ∧
    2 ≤ w0.opts.base ∧ w0.opts.base ^ 2 < 2 ^ 63 ∧ w0.opts.confidence ≤ ramsOf 4 2 w0.opts.completeAddressing ∧
    ∃ ops : List COp, List.Forall₂ AsksFor exClusCalls ops ∧ (∀ op ∈ ops, ValidTraining 4 w0.opts.base op) ∧ UnsupFirst ops ∧
      (∃ op ∈ ops, op.isUnsup = true) ∧ w0.opts.base = 2 ∧ labelsOf ops = [b!"b"] ∧ Utf8 b!"b" ∧ SafeLabel b!"b" ∧
      ramsOf 4 2 w0.opts.completeAddressing * (16 * (ops.map COp.weight).sum + 1) ≤ 2147483648 := by
  refine ⟨⟨2, Ieee.rnd Ieee.single (1/2), 10, 3, {}, [], Cluster.default⟩, ?_, fun q => rnd_isFloat _ _, std_reads, by decide, by decide, by decide,
    [.unsup (fun _ => env0) [[1, 1, 1, 0]], .semi (fun _ _ => env0) [[1, 1, 1, 0], [0, 0, 0, 1]] [(1, b!"b")],
      .unsup (fun _ => env0) [[0, 0, 0, 1]]], ?_, ex_unsup_first.1, ex_unsup_first.2, ⟨_, List.mem_cons_self, rfl⟩, rfl, rfl, ?_, ?_, by decide⟩
  · refine (C145_clusWisard exPy32 _ fs _ [] _).mpr (.inr ⟨_, _, _, _, 2, _, 10, 3, rfl, ⟨.int _, by decide, by decide⟩, .float _, ⟨.int _, by decide, by decide⟩,
      ⟨.int _, by decide, by decide⟩, ?_⟩)
    have e : Ieee.rnd Ieee.single (1/2 : Rat) = 1/2 :=
      rnd_of_isFloat ⟨1, -1, by show |(1 : Int)| < 2 ^ 24; norm_num, by show (-149 : Int) ≤ -1; norm_num, by norm_num⟩
    show Except.ok _ = ClusWisard.ofKwargs _ 2 (Ieee.rnd Ieee.single (1/2)) 10 3 []
    rw [e]
    have h : ClusWisard.create 2 (1/2) 10 3 {} = .ok ⟨2, 1/2, 10, 3, {}, [], Cluster.default⟩ := by decide +kernel
    unfold ClusWisard.ofKwargs
    rw [h]
    rfl
  · refine .cons (.unsupervised ((images_ok (L := exPy32)).mp rfl)) (.cons (.dict ((images_ok (L := exPy32)).mp rfl) (labels_ok.mp ?_))
      (.cons (.unsupervised ((images_ok (L := exPy32)).mp rfl)) .nil))
    rfl
  · exact utf8_ascii (by decide)
  · constructor
    · rintro ⟨a, b, h⟩
      have := congrArg List.length h
      simp at this
      omega
    · rintro ⟨a, h⟩
      have := congrArg List.getLast? h
      simp at this

end Wis
