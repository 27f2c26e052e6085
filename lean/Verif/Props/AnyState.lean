import Verif.Lemmas.AnyState
/-!
# C139, C140: calls on models in any state, for instance loaded from a document written by hand
-/

namespace Wis
open Spec

/-! ## Discriminators -/

/-- C139, any history: after successful calls on a discriminator in any state, wiring and entry size are the same, the number
of trainings changed by trainings minus untrainings, exactly the same images are refused for the same reason, and the vote of
every RAM is the earlier vote plus the matching trainings minus the matching untrainings (`later`). A RAM whose vote was not
zero knew the number; one that did not know it counts from the first training on. -/
theorem C139_history {d d' : Discriminator} {ops : List Op} (h : run d ops = (d', .ok ())) :
    d'.entrySize = d.entrySize ∧ d'.mapping = d.mapping ∧
    d'.getNumberOfTrainings = d.getNumberOfTrainings + net ops ∧
    ∀ x, (∀ e, d'.classify x = .error e ↔ d.classify x = .error e) ∧
      ∀ vs, d.classify x = .ok vs → ∃ known : List Bool, known.length = d.rams.length ∧ vs.length = d.rams.length ∧
        ∀ vs', d'.classify x = .ok vs' → vs'.length = d.rams.length ∧
          ∀ (i : Nat) (r : Ram) (v : Int) (k : Bool), d.rams[i]? = some r → vs[i]? = some v → known[i]? = some k →
            (v ≠ 0 → k = true) ∧ vs'[i]? = some (later r.ignoreZero r.base r.addresses k v ops x) := by
  have ha := run_after h
  refine ⟨ha.entrySize, ha.mapping, ha.count, fun x => ?_⟩
  obtain ⟨h1, h2⟩ := classify_after ha x
  refine ⟨fun e => ⟨fun he => ?_, h1 e⟩, fun vs hv => ?_⟩
  · cases hc : d.classify x with
    | error e' =>
      have := h1 e' hc
      rw [he] at this
      injection this with this
      rw [this]
    | ok vs =>
      have := (h2 vs hc).2
      rw [he] at this
      cases this
  · obtain ⟨g1, g2⟩ := h2 vs hv
    have hl := g1.length_eq
    refine ⟨d.rams.map (fun r => r.knows x), by simp, hl.symm, fun vs' hv' => ?_⟩
    rw [g2] at hv'
    injection hv' with hv'
    subst hv'
    refine ⟨by simp [hl], fun i r v k hr hvi hk => ?_⟩
    rw [List.getElem?_map, hr] at hk
    simp only [Option.map_some, Option.some.injEq] at hk
    subst hk
    constructor
    · intro hne
      by_contra hkn
      have hkn : r.knows x = false := by simpa using hkn
      obtain ⟨hi, rfl⟩ := List.getElem?_eq_some_iff.mp hr
      obtain ⟨hi', rfl⟩ := List.getElem?_eq_some_iff.mp hvi
      exact hne (List.forall₂_iff_get.mp g1 |>.2 i hi hi' hkn)
    · rw [List.getElem?_zipWith, hr, hvi]

/-- C139, trainings: votes grow by the number of trained images with the same number, whatever the state. -/
theorem C139_train {d d' : Discriminator} {imgs : List Image} (h : d.trainAll imgs = (d', .ok ())) :
    d'.entrySize = d.entrySize ∧ d'.mapping = d.mapping ∧
    d'.getNumberOfTrainings = d.getNumberOfTrainings + imgs.length ∧
    ∀ x, (∀ e, d'.classify x = .error e ↔ d.classify x = .error e) ∧
      ∀ vs, d.classify x = .ok vs → d'.classify x =
        .ok (List.zipWith (fun (r : Ram) v => v + gained r.ignoreZero r.base r.addresses imgs x) d.rams vs) := by
  rw [trainAll_eq_run] at h
  obtain ⟨a1, a2, a3, a4⟩ := C139_history h
  have hn : net (imgs.map Op.train) = imgs.length := by
    have : ∀ l : List Image, net (l.map Op.train) = l.length := by
      intro l
      induction l with
      | nil => rfl
      | cons a l ih => simp only [List.map_cons, net, ih, List.length_cons]; omega
    exact this imgs
  rw [hn] at a3
  refine ⟨a1, a2, a3, fun x => ⟨(a4 x).1, fun vs hv => ?_⟩⟩
  obtain ⟨g1, g2⟩ := (classify_after (run_after h) x).2 vs hv
  rw [g2]
  congr 1
  apply zipWith_congr₂
  refine (forall₂_and g1 (votes_silent (classify_votes hv))).imp ?_
  rintro r v ⟨c1, c2⟩
  exact later_trains _ _ _ _ _ _ _ c1 c2

/-- C139: for images with values in `[0, base)`, wires inside them and addresses of at most 64 bits, having the same number means
agreeing on the wires, and number zero means zero on the wires. -/
theorem C139_numbers {n base : Int} (hb : 1 ≤ base) {x y : Image} (hx : ValidImage n base x) (hy : ValidImage n base y)
    {wires : List Int} (ha : ∀ a ∈ wires, 0 ≤ a ∧ a < n) (hfit : base ^ wires.length ≤ 2 ^ 64) :
    (SameNumber base wires x y ↔ Agree wires x y) ∧ (ZeroNumber base wires x ↔ ZeroOn wires x) := by
  have hkx := getIndex_valid (r := { addresses := wires, ignoreZero := false, base := base }) hx ha
  have hky := getIndex_valid (r := { addresses := wires, ignoreZero := false, base := base }) hy ha
  constructor
  · rw [← key_eq_iff hb hx hy ha hfit]
    have := sameNumber_iff _ hkx y
    simp only at this
    rw [this, hky]
    simp only [Except.ok.injEq]
    exact eq_comm
  · rw [← key_eq_zero_iff hb hx ha hfit]
    exact zeroNumber_iff _ hkx

theorem ram_train_ok {r : Ram} {img : Image} {k : Nat} (hn : ∃ v, number r.base img r.addresses = some v)
    (hc : ∀ e ∈ r.positions, -2147483648 ≤ e.2 ∧ e.2 + (k + 1 : Nat) ≤ 2147483647) :
    ∃ r', r.train img = (r', .ok ()) ∧ (∀ e ∈ r'.positions, -2147483648 ≤ e.2 ∧ (e.2 + k ≤ 2147483647 ∨ e.2 ≤ 1)) := by
  obtain ⟨v, hv⟩ := hn
  have hi := (getIndex_number r img _).mpr ⟨v, hv, rfl⟩
  have hset : ∀ (m : RamT) (a : Addr) (c : Int) (P : Int → Prop), P c → (∀ e ∈ m, P e.2) → ∀ e ∈ m.set a c, P e.2 := by
    intro m a c P hP
    induction m with
    | nil => intro _ e he; simp only [RamT.set, List.mem_singleton] at he; subst he; exact hP
    | cons p m ih =>
      intro hm e he
      obtain ⟨a', c'⟩ := p
      simp only [RamT.set] at he
      split at he
      · rcases List.mem_cons.mp he with rfl | he
        · exact hP
        · exact hm e (List.mem_cons_of_mem _ he)
      · rcases List.mem_cons.mp he with rfl | he
        · exact hm _ (by simp)
        · exact ih (fun e he => hm e (List.mem_cons_of_mem _ he)) e he
  unfold Ram.train
  rw [hi]
  simp only
  cases hf : r.positions.find (BitVec.ofInt 64 v) with
  | none =>
    refine ⟨_, rfl, hset _ _ _ (fun c => -2147483648 ≤ c ∧ (c + k ≤ 2147483647 ∨ c ≤ 1)) (by omega) ?_⟩
    intro e he
    have := hc e he
    push_cast at this
    omega
  | some c =>
    have hc' := hc _ (RamT.mem_keys_of_find hf)
    push_cast at hc'
    simp only at hc' ⊢
    rw [i32_ok (by omega)]
    refine ⟨_, rfl, hset _ _ _ (fun c => -2147483648 ≤ c ∧ (c + k ≤ 2147483647 ∨ c ≤ 1)) (by omega) ?_⟩
    intro e he
    have := hc e he
    push_cast at this
    omega

/-- C139: trainings succeed in any state if the images have the right length, every RAM gets a number, and neither the number of
trainings nor a content gets near the end of the range of `int`. -/
theorem C139_succeeds {imgs : List Image} : ∀ {d : Discriminator},
    (∀ y ∈ imgs, (y.size : Int) = d.entrySize) →
    (∀ y ∈ imgs, ∀ r ∈ d.rams, ∃ v, number r.base y r.addresses = some v) →
    -2147483648 ≤ d.getNumberOfTrainings → d.getNumberOfTrainings + imgs.length ≤ 2147483647 → imgs.length < 2147483647 →
    (∀ r ∈ d.rams, ∀ e ∈ r.positions, -2147483648 ≤ e.2 ∧ e.2 + imgs.length ≤ 2147483647) →
    ∃ d', d.trainAll imgs = (d', .ok ()) := by
  induction imgs with
  | nil => intro d _ _ _ _ _ _; exact ⟨d, rfl⟩
  | cons y imgs ih =>
    intro d hs hn hc0 hc1 hl hcon
    have hrams : ∀ {rs : List Ram}, (∀ r ∈ rs, ∃ v, number r.base y r.addresses = some v) →
        (∀ r ∈ rs, ∀ e ∈ r.positions, -2147483648 ≤ e.2 ∧ e.2 + (imgs.length + 1 : Nat) ≤ 2147483647) →
        ∃ rs', Discriminator.trainRams y rs = (rs', .ok ()) ∧
          ∀ r ∈ rs', ∀ e ∈ r.positions, -2147483648 ≤ e.2 ∧ (e.2 + imgs.length ≤ 2147483647 ∨ e.2 ≤ 1) := by
      intro rs
      induction rs with
      | nil => intro _ _; exact ⟨[], rfl, by simp⟩
      | cons r rs ihr =>
        intro h1 h2
        obtain ⟨r', e1, e2⟩ := ram_train_ok (h1 r (by simp)) (h2 r (by simp))
        obtain ⟨rs', e3, e4⟩ := ihr (fun r hr => h1 r (List.mem_cons_of_mem _ hr)) (fun r hr => h2 r (List.mem_cons_of_mem _ hr))
        refine ⟨r' :: rs', by simp only [Discriminator.trainRams, e1, e3], ?_⟩
        intro q hq
        rcases List.mem_cons.mp hq with rfl | hq
        · exact e2
        · exact e4 q hq
    obtain ⟨rs', e1, e2⟩ := hrams (hn y (by simp)) (by simpa using hcon)
    unfold Discriminator.getNumberOfTrainings at hc0 hc1
    simp only [List.length_cons] at hc1 hl
    push_cast at hc1
    have ht : d.train y = ({ d with count := d.count + 1, rams := rs' }, .ok ()) := by
      unfold Discriminator.train Discriminator.checkEntrySize
      rw [if_neg (by simpa using (hs y (by simp)).symm)]
      simp only
      rw [i32_ok (by omega)]
      simp only [e1]
    have haf := train_after ht
    simp only [Discriminator.trainAll, ht]
    apply ih
    · intro z hz; exact hs z (List.mem_cons_of_mem _ hz)
    · intro z hz r' hr'
      obtain ⟨r, hr, hrr⟩ : ∃ r ∈ d.rams, RamAfter r r' [.train y] := by
        have hall := haf.rams
        simp only at hall
        generalize d.rams = l at hall
        clear * - hall hr'
        induction hall with
        | nil => cases hr'
        | @cons a b l m hab _ ih =>
          rcases List.mem_cons.mp hr' with rfl | hr'
          · exact ⟨a, by simp, hab⟩
          · obtain ⟨r, hr, h⟩ := ih hr'
            exact ⟨r, List.mem_cons_of_mem _ hr, h⟩
      rw [hrr.wiring.base, hrr.wiring.addresses]
      exact hn z (List.mem_cons_of_mem _ hz) r hr
    · unfold Discriminator.getNumberOfTrainings; simp only; omega
    · unfold Discriminator.getNumberOfTrainings; simp only; omega
    · omega
    · intro r hr e he
      have := e2 r hr e he
      omega

/-! ## Documents -/

theorem getVote_value {r : Ram} {x : Image} {v : Int} (h : r.getVote x = .ok v) :
    ∃ n, number r.base x r.addresses = some n ∧
      v = if r.ignoreZero = true ∧ ZeroNumber r.base r.addresses x then 0
        else (r.positions.find (BitVec.ofInt 64 n)).getD 0 := by
  unfold Ram.getVote at h
  obtain ⟨k, hk, h⟩ := bind_eq_ok h
  obtain ⟨n, hn, rfl⟩ := (getIndex_number r x k).mp hk
  refine ⟨n, hn, ?_⟩
  have hz := zeroNumber_iff r hk
  by_cases hc : r.ignoreZero = true ∧ ZeroNumber r.base r.addresses x
  · rw [if_pos hc]
    rw [hz] at hc
    rw [if_pos (by simpa using hc)] at h
    simpa using h.symm
  · rw [if_neg hc]
    rw [hz] at hc
    rw [if_neg (by simpa using hc)] at h
    cases hf : r.positions.find (BitVec.ofInt 64 n) with
    | none => rw [hf] at h; simpa using h.symm
    | some c => rw [hf] at h; simpa using h.symm

theorem votes_get {x : Image} : ∀ {rs : List Ram} {vs : List Int}, Discriminator.votes x rs = .ok vs →
    List.Forall₂ (fun (r : Ram) v => r.getVote x = .ok v) rs vs := by
  intro rs
  induction rs with
  | nil =>
    intro vs h
    simp only [Discriminator.votes, Except.ok.injEq] at h
    subst h
    exact .nil
  | cons r rs ih =>
    intro vs h
    simp only [Discriminator.votes] at h
    obtain ⟨v, hv, h⟩ := bind_eq_ok h
    obtain ⟨vs, hvs, h⟩ := bind_eq_ok h
    simp only [Except.ok.injEq] at h
    subst h
    exact .cons hv (ih hvs)

theorem get_value (h : RamData) (a : Addr) : ((h.get 0).2.find a) = value h 0 a := by
  unfold RamData.get RamData.touch value
  cases RamData.find h.ramdata 0 <;> rfl

/-- Every RAM of a loaded discriminator has the settings and its part of the document. -/
theorem doc_ram {fs : Fs} {m : List (Str × Json)} {d : Discriminator} (h : DiscReads fs m d) {i : Nat} {r : Ram}
    (hr : d.rams[i]? = some r) : ∃ a part, (elementsOf (valueOf m b!"mapping"))[i]? = some a ∧ PartOf fs m i part ∧
      RamReads fs a (valueOf m b!"ignoreZero") (valueOf m b!"base") part r := by
  obtain ⟨_, _, data, hd, _, h⟩ := h
  obtain ⟨hi, rfl⟩ := List.getElem?_eq_some_iff.mp hr
  rcases h with ⟨hs, ⟨_, hnil⟩ | ⟨text, parts, hf, hp, hall⟩⟩ | ⟨hs, _, parts, hp, hall⟩
  · rw [hnil] at hi; simp at hi
  · have hl := hall.length_eq
    have hi' : i < ((elementsOf (valueOf m b!"mapping")).zip parts).length := by omega
    have hg := (List.forall₂_iff_get.mp hall).2 i hi' hi
    simp only [List.get_eq_getElem, List.getElem_zip] at hg
    simp only [List.length_zip] at hi'
    exact ⟨_, _, List.getElem?_eq_getElem (by omega), ⟨data, hd, .inl ⟨hs, text, parts, hf, hp, List.getElem?_eq_getElem (by omega)⟩⟩, hg⟩
  · have hl := hall.length_eq
    have hi' : i < ((elementsOf (valueOf m b!"mapping")).zipIdx).length := by omega
    have hg := (List.forall₂_iff_get.mp hall).2 i hi' hi
    simp only [List.get_eq_getElem, List.getElem_zipIdx] at hg
    simp only [List.length_zipIdx] at hi'
    exact ⟨_, _, List.getElem?_eq_getElem (by omega), ⟨data, hd, .inr ⟨hs, parts, hp, rfl⟩⟩, by simpa only [Nat.zero_add] using hg⟩

theorem loaded_votes {fs : Fs} {m : List (Str × Json)} {d : Discriminator} (hd : DiscReads fs m d)
    {x : Image} {vs : List Int} (hv : d.classify x = .ok vs) : vs.length = d.rams.length ∧
    ∀ (i : Nat) (r : Ram) (v : Int), d.rams[i]? = some r → vs[i]? = some v →
      (∃ a, (elementsOf (valueOf m b!"mapping"))[i]? = some a ∧ IsInts a r.addresses) ∧
      IsBool (valueOf m b!"ignoreZero") r.ignoreZero ∧ IsInt (valueOf m b!"base") r.base ∧
      ((r.ignoreZero = true ∧ ZeroNumber r.base r.addresses x ∧ v = 0) ∨
       (¬ (r.ignoreZero = true ∧ ZeroNumber r.base r.addresses x) ∧ DocVote fs m i r.base r.addresses x v)) := by
  have hg := votes_get (classify_votes hv)
  refine ⟨hg.length_eq.symm, fun i r v hr hvi => ?_⟩
  obtain ⟨a, part, h1, h2, h3⟩ := doc_ram hd hr
  refine ⟨⟨a, h1, h3.addresses⟩, h3.ignoreZero, h3.base, ?_⟩
  obtain ⟨hi, rfl⟩ := List.getElem?_eq_some_iff.mp hr
  obtain ⟨hi', rfl⟩ := List.getElem?_eq_some_iff.mp hvi
  obtain ⟨n, hn, hval⟩ := getVote_value ((List.forall₂_iff_get.mp hg).2 i hi hi')
  simp only [List.get_eq_getElem] at hn hval
  by_cases hc : d.rams[i].ignoreZero = true ∧ ZeroNumber d.rams[i].base d.rams[i].addresses x
  · rw [if_pos hc] at hval
    exact .inl ⟨hc.1, hc.2, hval⟩
  · rw [if_neg hc] at hval
    obtain ⟨hh, e1, e2⟩ := h3.content
    refine .inr ⟨hc, part, hh, n, h2, e1, hn, ?_⟩
    rw [hval, e2, get_value]

/-- C139, loaded: the discriminator loaded from a document votes what the document contains: RAM number `i` reads the wires of
entry `i` of `mapping` and votes the value that its part of `data` holds at the number of the image (0 if `ignoreZero` silences
it or there is none). -/
theorem C139_loaded {fs : Fs} {m : List (Str × Json)} {d : Discriminator} (h : Discriminator.ofJson fs (.obj m) = .ok d)
    {x : Image} {vs : List Int} (hv : d.classify x = .ok vs) : vs.length = d.rams.length ∧
    ∀ (i : Nat) (r : Ram) (v : Int), d.rams[i]? = some r → vs[i]? = some v →
      (∃ a, (elementsOf (valueOf m b!"mapping"))[i]? = some a ∧ IsInts a r.addresses) ∧
      IsBool (valueOf m b!"ignoreZero") r.ignoreZero ∧ IsInt (valueOf m b!"base") r.base ∧
      ((r.ignoreZero = true ∧ ZeroNumber r.base r.addresses x ∧ v = 0) ∨
       (¬ (r.ignoreZero = true ∧ ZeroNumber r.base r.addresses x) ∧ DocVote fs m i r.base r.addresses x v)) :=
  loaded_votes ((C114_discriminator fs m d).mp h) hv

/-! ## Wisard -/

theorem wrun_any {w0 : Wisard} (ops : List WOp) : ∀ {w : Wisard}, wrun w0 ops = (w, .ok ()) →
    w.addressSize = w0.addressSize ∧ w.opts = w0.opts ∧
    (∀ l d0, w0.discriminators.find l = some d0 →
      ∃ d, w.discriminators.find l = some d ∧ run d0 (ops.filterMap (WOp.on l)) = (d, .ok ())) ∧
    (∀ l, w0.discriminators.find l = none → (w.discriminators.find l = none ∧ opsOf l ops = []) ∨
      ∃ d d0 rnd img rest, w.discriminators.find l = some d ∧ opsOf l ops = .train img :: rest ∧
        Wisard.newDiscriminator rnd w0.addressSize w0.opts l img.size = .ok d0 ∧
        run d0 (opsOf l ops) = (d, .ok ())) := by
  induction ops using List.reverseRecOn with
  | nil =>
    intro w h
    simp only [wrun, Prod.mk.injEq, and_true] at h
    subst h
    exact ⟨rfl, rfl, fun l d hd => ⟨d, hd, rfl⟩, fun l hl => .inl ⟨hl, rfl⟩⟩
  | append_singleton ops o ih =>
    intro w2 h
    obtain ⟨w1, h1, h2⟩ := wrun_snoc_ok h
    obtain ⟨a1, a2, a3, a4⟩ := ih h1
    have hoth := wstep_other w1 o
    rw [h2] at hoth
    obtain ⟨b1, b2, b3, b4⟩ := hoth
    simp only at b1 b2 b3 b4
    have hon : ∀ l, l ≠ o.label → List.filterMap (WOp.on l) [o] = [] := by
      intro l hl
      cases o <;> simp_all [WOp.on, WOp.label]
      all_goals
        intro h'; exact hl h'.symm
    refine ⟨by rw [b1, a1], by rw [b2, a2], fun l d0 hd0 => ?_, fun l hl0 => ?_⟩
    · obtain ⟨d, c1, c2⟩ := a3 l d0 hd0
      rw [List.filterMap_append]
      by_cases hl : l = o.label
      · subst hl
        cases o with
        | train env img l =>
          simp only [WOp.label] at *
          rcases (train1_find w1 env img l h2).2.2.2 with ⟨d1, d', e1, e2, e3⟩ | ⟨_, _, e1, _⟩
          · rw [c1] at e1
            obtain rfl : d = d1 := by simpa using e1
            refine ⟨d', e3, ?_⟩
            simp only [WOp.on, List.filterMap_cons, if_true, List.filterMap_nil]
            exact run_snoc c2 _ (by simp only [run, e2])
          · rw [c1] at e1; cases e1
        | leave img l =>
          simp only [WOp.label] at *
          rcases leave_find w1 img l h2 with ⟨e1, _⟩ | ⟨d1, d', e1, e2, e3⟩
          · rw [c1] at e1; cases e1
          · rw [c1] at e1
            obtain rfl : d = d1 := by simpa using e1
            refine ⟨d', e3, ?_⟩
            simp only [WOp.on, List.filterMap_cons, if_true, List.filterMap_nil]
            exact run_snoc c2 _ (by simp only [run, e2])
      · rw [hon l hl, List.append_nil, b3 l hl]
        exact ⟨d, c1, c2⟩
    · by_cases hl : l = o.label
      · subst hl
        cases o with
        | train env img l =>
          simp only [WOp.label] at *
          rw [opsOf_snoc_train]
          have hf := train1_find w1 env img l h2
          right
          rcases a4 l hl0 with ⟨c1, c2⟩ | ⟨d, d0, rnd, img0, rest, c1, c2, c3, c4⟩
          · rcases hf.2.2.2 with ⟨d, d', e1, _⟩ | ⟨d0, d', e1, e2, e3, e4⟩
            · rw [c1] at e1; cases e1
            · refine ⟨d', d0, env.rnd, img, [], e4, by rw [c2]; rfl, by rw [← a1, ← a2]; exact e2, ?_⟩
              rw [c2]
              simp only [List.nil_append, run, e3]
          · rcases hf.2.2.2 with ⟨d1, d', e1, e2, e3⟩ | ⟨d0, d', e1, _⟩
            · rw [c1] at e1
              obtain rfl : d = d1 := by simpa using e1
              refine ⟨d', d0, rnd, img0, rest ++ [.train img], e3, by rw [c2]; rfl, c3, ?_⟩
              exact run_snoc c4 _ (by simp only [run, e2])
            · rw [c1] at e1; cases e1
        | leave img l =>
          simp only [WOp.label] at *
          rw [opsOf_snoc_leave]
          have hf := leave_find w1 img l h2
          rcases a4 l hl0 with ⟨c1, c2⟩ | ⟨d, d0, rnd, img0, rest, c1, c2, c3, c4⟩
          · rcases hf with ⟨_, rfl⟩ | ⟨d, d', e1, _⟩
            · left; rw [if_pos c2]; exact ⟨c1, rfl⟩
            · rw [c1] at e1; cases e1
          · rcases hf with ⟨e1, _⟩ | ⟨d1, d', e1, e2, e3⟩
            · rw [c1] at e1; cases e1
            · rw [c1] at e1
              obtain rfl : d = d1 := by simpa using e1
              right
              rw [if_neg (by rw [c2]; simp)]
              refine ⟨d', d0, rnd, img0, rest ++ [.untrain (.vec img)], e3, by rw [c2]; rfl, c3, ?_⟩
              exact run_snoc c4 _ (by simp only [run, e2])
      · rw [opsOf_snoc_other l ops o hl, b3 l hl]
        exact a4 l hl0

/-- C140, known classes: successful trainings and leaveOneOut calls on a Wisard in any state change a class that was there
exactly by the calls with its label, in their order; options and address size stay. -/
theorem C140_known_class {w w' : Wisard} {ops : List WOp} (h : wrun w ops = (w', .ok ())) :
    w'.addressSize = w.addressSize ∧ w'.opts = w.opts ∧
    ∀ l d, w.discriminators.find l = some d → ∃ d', w'.discriminators.find l = some d' ∧
      d'.entrySize = d.entrySize ∧ d'.mapping = d.mapping ∧
      d'.getNumberOfTrainings = d.getNumberOfTrainings + net (ops.filterMap (WOp.on l)) ∧
      ∀ x, (∀ e, d'.classify x = .error e ↔ d.classify x = .error e) ∧
        ∀ vs, d.classify x = .ok vs → ∃ known : List Bool, known.length = d.rams.length ∧ vs.length = d.rams.length ∧
          ∀ vs', d'.classify x = .ok vs' → vs'.length = d.rams.length ∧
            ∀ (i : Nat) (r : Ram) (v : Int) (k : Bool), d.rams[i]? = some r → vs[i]? = some v → known[i]? = some k →
              (v ≠ 0 → k = true) ∧
              vs'[i]? = some (later r.ignoreZero r.base r.addresses k v (ops.filterMap (WOp.on l)) x) := by
  obtain ⟨h1, h2, h3, _⟩ := wrun_any ops h
  refine ⟨h1, h2, fun l d hd => ?_⟩
  obtain ⟨d', e1, e2⟩ := h3 l d hd
  exact ⟨d', e1, C139_history e2⟩

/-- C140, trainings of known classes: the votes of a class grow by the number of images trained with its label that have the same
number; without such a training the class is the same. -/
theorem C140_train {w w' : Wisard} {env : Nat → Env} {es : List (Image × Str)} {i : Nat}
    (h : w.trainLoop env es i = (w', .ok ())) (l : Str) (d : Discriminator) (hd : w.discriminators.find l = some d) :
    ∃ d', w'.discriminators.find l = some d' ∧
      ((∀ e ∈ es, e.2 ≠ l) → d' = d) ∧
      ∀ x, (∀ e, d'.classify x = .error e ↔ d.classify x = .error e) ∧
        ∀ vs, d.classify x = .ok vs → d'.classify x = .ok (List.zipWith (fun (r : Ram) v => v +
          gained r.ignoreZero r.base r.addresses ((es.filter (fun e => decide (e.2 = l))).map (·.1)) x) d.rams vs) := by
  have key : ∀ (es : List (Image × Str)) (w : Wisard) (i : Nat) (d : Discriminator), w.trainLoop env es i = (w', .ok ()) →
      w.discriminators.find l = some d → ∃ d', w'.discriminators.find l = some d' ∧
        d.trainAll ((es.filter (fun e => decide (e.2 = l))).map (·.1)) = (d', .ok ()) := by
    intro es
    induction es with
    | nil =>
      intro w i d h hd
      simp only [Wisard.trainLoop, Prod.mk.injEq, and_true] at h
      subst h
      exact ⟨d, hd, rfl⟩
    | cons e es ih =>
      intro w i d h hd
      obtain ⟨img, l'⟩ := e
      simp only [Wisard.trainLoop] at h
      cases ht : w.train1 (env i) img l' with
      | mk w1 r =>
        rw [ht] at h
        cases r with
        | error e => cases h
        | ok u =>
          obtain ⟨_, _, t3, t4⟩ := train1_find w (env i) img l' ht
          by_cases hl : l' = l
          · subst hl
            rcases t4 with ⟨d1, d2, e1, e2, e3⟩ | ⟨_, _, e1, _⟩
            · rw [hd] at e1
              obtain rfl : d = d1 := by simpa using e1
              obtain ⟨d', f1, f2⟩ := ih w1 (i + 1) d2 h e3
              refine ⟨d', f1, ?_⟩
              simp only [List.filter_cons, decide_true, if_true, List.map_cons, Discriminator.trainAll, e2]
              exact f2
            · rw [hd] at e1; cases e1
          · obtain ⟨d', f1, f2⟩ := ih w1 (i + 1) d h (by rw [t3 l (Ne.symm hl)]; exact hd)
            refine ⟨d', f1, ?_⟩
            simp only [List.filter_cons, decide_eq_false hl, Bool.false_eq_true, if_false]
            exact f2
  obtain ⟨d', f1, f2⟩ := key es w i d h hd
  refine ⟨d', f1, fun hno => ?_, (C139_train f2).2.2.2⟩
  have : es.filter (fun e => decide (e.2 = l)) = [] := by
    rw [List.filter_eq_nil_iff]
    intro e he
    simpa using hno e he
  rw [this] at f2
  simp only [List.map_nil, Discriminator.trainAll, Prod.mk.injEq, and_true] at f2
  exact f2.symm

/-- C140, new classes: a label that had no class has one exactly if it was trained; it was made with the settings of the model for
the size of its first image and votes for its own calls only. -/
theorem C140_new_class {w w' : Wisard} {ops : List WOp} (h : wrun w ops = (w', .ok ())) (l : Str)
    (hn : w.discriminators.find l = none) :
    (w'.discriminators.find l = none ∧ ∀ o ∈ ops, o.label = l → o.isTrain = false) ∨
    ∃ d' d0 rnd img rest, w'.discriminators.find l = some d' ∧ opsOf l ops = .train img :: rest ∧
      Wisard.newDiscriminator rnd w.addressSize w.opts l img.size = .ok d0 ∧
      d'.entrySize = d0.entrySize ∧ d'.mapping = d0.mapping ∧
      d'.getNumberOfTrainings = net (opsOf l ops) ∧
      ∀ x vs, d'.classify x = .ok vs →
        vs = d0.rams.map (fun r => later w.opts.ignoreZero w.opts.base r.addresses false 0 (opsOf l ops) x) := by
  obtain ⟨_, _, _, h4⟩ := wrun_any ops h
  rcases h4 l hn with ⟨a, b⟩ | ⟨d, d0, rnd, img, rest, c1, c2, c3, c4⟩
  · refine .inl ⟨a, fun o ho hol => ?_⟩
    by_contra hc
    have hc : o.isTrain = true := by simpa using hc
    unfold opsOf at b
    have b : ∀ q ∈ ops.filterMap (WOp.on l), (!q.isTrain) = true := by
      generalize ops.filterMap (WOp.on l) = qs at b
      clear * - b
      induction qs with
      | nil => simp
      | cons q qs ih =>
        rw [List.dropWhile_cons] at b
        split at b
        · rename_i hq
          intro z hz
          rcases List.mem_cons.mp hz with rfl | hz
          · exact hq
          · exact ih b z hz
        · cases b
    cases o with
    | leave img l' => cases hc
    | train env img l' =>
      have := b (.train img) (List.mem_filterMap.mpr ⟨_, ho, by simp only [WOp.label] at hol; simp [WOp.on, hol]⟩)
      simp [Op.isTrain] at this
  · refine .inr ⟨d, d0, rnd, img, rest, c1, c2, c3, ?_⟩
    have hf := newDiscriminator_fresh c3
    have ha := run_after c4
    refine ⟨ha.entrySize, ha.mapping, ?_, fun x vs hv => ?_⟩
    · have := ha.count
      unfold Discriminator.getNumberOfTrainings
      rw [this, hf.count]
      omega
    · obtain ⟨g1, g2⟩ := classify_after ha x
      cases hc : d0.classify x with
      | error e => rw [g1 e hc] at hv; cases hv
      | ok vs0 =>
        obtain ⟨k1, k2⟩ := g2 vs0 hc
        rw [hv] at k2
        injection k2 with k2
        rw [k2]
        have hall : ∀ r ∈ d0.rams, r.knows x = false ∧ r.ignoreZero = w.opts.ignoreZero ∧ r.base = w.opts.base := by
          intro r hr
          obtain ⟨p1, p2, p3, _⟩ := hf.rams r hr
          refine ⟨?_, p3, p2⟩
          unfold Ram.knows
          rw [p1]
          cases r.getIndex x <;> rfl
        generalize d0.rams = rs at k1 hall
        clear * - k1 hall
        induction k1 with
        | nil => rfl
        | @cons r v rs vs hrv _ ih =>
          obtain ⟨q1, q2, q3⟩ := hall r (by simp)
          rw [List.zipWith_cons_cons, List.map_cons, ih (fun r hr => hall r (List.mem_cons_of_mem _ hr)), hrv q1, q1, q2, q3]

/-- C140, loaded: every class of a Wisard loaded from a document votes what its member of `classes` contains, with the `ignoreZero`
and `base` of the model. -/
theorem C140_loaded {fs : Fs} {m : List (Str × Json)} {w : Wisard}
    (hs : ∀ items, valueOf m b!"classes" = .obj items → SMap.Sorted items)
    (h : Wisard.ofJson fs (.obj m) = .ok w) {l : Str} {d : Discriminator} (hd : w.discriminators.find l = some d)
    {x : Image} {vs : List Int} (hv : d.classify x = .ok vs) :
    ∃ items j, valueOf m b!"classes" = .obj items ∧ (l, j) ∈ items ∧ vs.length = d.rams.length ∧
    ∀ (i : Nat) (r : Ram) (v : Int), d.rams[i]? = some r → vs[i]? = some v →
      (∃ a, (elementsOf (valueOf (membersOf j) b!"mapping"))[i]? = some a ∧ IsInts a r.addresses) ∧
      r.ignoreZero = w.opts.ignoreZero ∧
      ((w.opts.ignoreZero = true ∧ ZeroNumber r.base r.addresses x ∧ v = 0) ∨
       (¬ (w.opts.ignoreZero = true ∧ ZeroNumber r.base r.addresses x) ∧
        DocVote fs (membersOf j) i r.base r.addresses x v)) := by
  obtain ⟨_, _, items, hp, hall⟩ := (C114_wisard fs m w hs).mp h
  obtain ⟨j, hj, hdr⟩ : ∃ j, (l, j) ∈ items ∧ DiscReads fs (override (override (membersOf j) b!"ignoreZero"
      (.bool w.opts.ignoreZero)) b!"base" (.int w.opts.base)) d := by
    have hm := SMap.mem_of_find hd
    generalize w.discriminators = ds at hall hm
    clear hp hd
    induction hall with
    | nil => cases hm
    | @cons e c l1 l2 hec _ ih =>
      rcases List.mem_cons.mp hm with rfl | hm
      · exact ⟨e.2, by rw [show l = e.1 from hec.1]; simp, hec.2⟩
      · obtain ⟨j, hj, h⟩ := ih hm
        exact ⟨j, List.mem_cons_of_mem _ hj, h⟩
  have hobj : valueOf m b!"classes" = .obj items := by
    generalize valueOf m b!"classes" = q at hp
    cases hp with
    | null => cases hj
    | empty => cases hj
    | obj _ => rfl
  obtain ⟨hl, hg⟩ := loaded_votes hdr hv
  refine ⟨items, j, hobj, hj, hl, fun i r v hr hvi => ?_⟩
  obtain ⟨g1, g2, g3, g4⟩ := hg i r v hr hvi
  have k1 : ∀ k : Str, k ≠ b!"ignoreZero" → k ≠ b!"base" → valueOf (override (override (membersOf j) b!"ignoreZero"
      (.bool w.opts.ignoreZero)) b!"base" (.int w.opts.base)) k = valueOf (membersOf j) k := by
    intro k h1 h2
    unfold override
    rw [valueOf_cons, if_neg h2, valueOf_cons, if_neg h1]
  have k2 : valueOf (override (override (membersOf j) b!"ignoreZero"
      (.bool w.opts.ignoreZero)) b!"base" (.int w.opts.base)) b!"ignoreZero" = .bool w.opts.ignoreZero := by
    unfold override
    rw [valueOf_cons, if_neg (by decide), valueOf_cons, if_pos rfl]
  rw [k1 _ (by decide) (by decide)] at g1
  rw [k2] at g2
  have hib : ∀ b c : Bool, IsBool (.bool b) c → c = b := by
    intro b c h
    cases h
    rfl
  have g2' : r.ignoreZero = w.opts.ignoreZero := hib _ _ g2
  refine ⟨g1, g2', ?_⟩
  rw [g2'] at g4
  rcases g4 with g4 | ⟨g4, part, h', n, ⟨data, p1, p2⟩, q2, q3, q4⟩
  · exact .inl g4
  · rw [k1 _ (by decide) (by decide)] at p1
    exact .inr ⟨g4, part, h', n, ⟨data, p1, p2⟩, q2, q3, q4⟩

/-! ## Concrete cases: the documents of C114 -/

section Examples

/-- C139: a discriminator loaded from a document (contents 7 at number 3) and trained twice: 7 + 2 = 9. -/
example : Discriminator.ofJson (fun _ => none) (.obj exDoc) = .ok exRead ∧
    exRead.classify (.vec [1, 0, 0, 1]) = .ok [7, 0] ∧
    (∃ d', exRead.trainAll [.vec [1, 0, 0, 1], .vec [1, 1, 0, 1]] = (d', .ok ()) ∧
      d'.classify (.vec [1, 0, 0, 1]) = .ok [9, 1]) ∧
    gained false 2 [3, 0] [.vec [1, 0, 0, 1], .vec [1, 1, 0, 1]] (.vec [1, 0, 0, 1]) = 2 ∧
    gained false 2 [1, 2] [.vec [1, 0, 0, 1], .vec [1, 1, 0, 1]] (.vec [1, 0, 0, 1]) = 1 :=
  ⟨exDoc_read, by decide +kernel, ⟨_, rfl, by decide +kernel⟩, by decide +kernel, by decide +kernel⟩

/-- C139: the number is known to one RAM (7 - 1 = 6) and unknown to the other (the first untraining does not count). -/
example : ∃ d', run exRead [.untrain (.vec [1, 0, 0, 1]), .train (.vec [0, 0, 0, 0])] = (d', .ok ()) ∧
    exRead.classify (.vec [1, 0, 0, 1]) = .ok [7, 0] ∧ d'.classify (.vec [1, 0, 0, 1]) = .ok [6, 1] ∧
    later false 2 [3, 0] true 7 [.untrain (.vec [1, 0, 0, 1]), .train (.vec [0, 0, 0, 0])] (.vec [1, 0, 0, 1]) = 6 ∧
    later false 2 [1, 2] false 0 [.untrain (.vec [1, 0, 0, 1]), .train (.vec [0, 0, 0, 0])] (.vec [1, 0, 0, 1]) = 1 :=
  ⟨_, rfl, by decide +kernel, by decide +kernel, by decide +kernel, by decide +kernel⟩

/-- C139: what the document says about RAM 0 and this image. -/
example : DocVote (fun _ => none) exDoc 0 2 [3, 0] (.vec [1, 0, 0, 1]) 7 := by
  have hr := doc_ram (i := 0) ((C114_discriminator _ _ _).mp exDoc_read) rfl
  obtain ⟨_, part, _, hp, _, _, _, _, h, h1, h2⟩ := hr
  refine ⟨part, h, 3, hp, h1, by decide +kernel, ?_⟩
  rw [← get_value, ← h2]
  decide +kernel

/-- C139_succeeds: its hypotheses. -/
example : ∃ d', exRead.trainAll (List.replicate 5 (.vec [1, 0, 0, 1])) = (d', .ok ()) :=
  C139_succeeds (by decide +kernel)
    (by
      intro y hy r hr
      obtain rfl := List.eq_of_mem_replicate hy
      simp only [exRead, List.mem_cons, List.not_mem_nil, or_false] at hr
      rcases hr with rfl | rfl
      · exact ⟨3, by decide +kernel⟩
      · exact ⟨0, by decide +kernel⟩)
    (by decide +kernel) (by decide +kernel) (by decide) (by decide +kernel)

/-- C140: a loaded Wisard (its `ignoreZero` silences the second RAM), a known and a new class. -/
example : ∃ w', wrun exWRead [.train ⟨Rnd.id, true⟩ (.vec [1, 0, 0, 1]) b!"a", .train ⟨Rnd.id, true⟩ (.vec [1, 1, 0, 1]) b!"b",
      .leave [1, 1, 0, 1] b!"b"] = (w', .ok ()) ∧
    Wisard.allvotes (.vec [1, 0, 0, 1]) exWRead.discriminators = .ok [(b!"a", [7, 0])] ∧
    Wisard.allvotes (.vec [1, 0, 0, 1]) w'.discriminators = .ok [(b!"a", [8, 0]), (b!"b", [0, 0])] :=
  ⟨_, rfl, by decide +kernel, by decide +kernel⟩

end Examples

end Wis
