import Verif.Props.PyObjects
import Verif.Props.PySession
/-!
# C158: a Python program on a Discriminator
-/

namespace Wis
open Spec PyBind

theorem trainAll_single (d : Discriminator) (img : Image) : d.trainAll [img] = d.train img := by
  simp only [Discriminator.trainAll]
  rcases d.train img with ⟨d', r⟩
  cases r <;> rfl

/-- A call asks for one thing only. -/
theorem trainAsks_unique {L : PyLib} {args : List PyVal} {a b : List Image} (ha : TrainAsks L args a) (hb : TrainAsks L args b) : a = b := by
  have mixed : ∀ {x i xs}, PyImage x i → PyImages x xs → xs ≠ [] → False := by
    intro x i xs ⟨zs, hz, hi, _⟩ ⟨ys, hy, hx⟩ hne
    subst hz
    cases hy
    cases hx with
    | nil => exact hne rfl
    | cons q _ =>
      cases hi with
      | cons w _ => obtain ⟨_, rfl, _⟩ := q; cases w
  cases ha with
  | @image x i h =>
    cases hb with
    | @image _ j g =>
      have e1 := (image_ok (L := L)).mpr h
      rw [(image_ok (L := L)).mpr g] at e1
      cases e1; rfl
    | bin g => obtain ⟨_, h, _⟩ := h; cases h
    | images g g' => exact (mixed h g g').elim
  | @bin b h =>
    cases hb with
    | image g => obtain ⟨_, g, _⟩ := g; cases g
    | bin g => rfl
    | images g g' => obtain ⟨ys, h, _⟩ := g; cases h
  | @images x xs h h' =>
    cases hb with
    | image g => exact (mixed g h h').elim
    | bin g => obtain ⟨ys, h, _⟩ := h; cases h
    | @images _ ys g g' =>
      have := (images_ok (L := L)).mpr h
      rw [(images_ok (L := L)).mpr g] at this
      injection this with this
      rw [this]

/-- What a call of `train` reaches. -/
theorem train_asks (L : PyLib) (d : Discriminator) (args : List PyVal) (r : Discriminator × Res Unit) :
    d.pyTrain L args = some r ↔ ∃ imgs, TrainAsks L args imgs ∧ r = d.trainAll imgs := by
  rw [C145_discriminator_train]
  constructor
  · rintro (⟨x, i, rfl, h, rfl⟩ | ⟨b, rfl, h, rfl⟩ | ⟨x, xs, rfl, h, h', rfl⟩)
    · exact ⟨_, .image h, (trainAll_single _ _).symm⟩
    · exact ⟨_, .bin h, (trainAll_single _ _).symm⟩
    · exact ⟨_, .images h h', rfl⟩
  · rintro ⟨imgs, h, rfl⟩
    cases h with
    | @image x i h => exact .inl ⟨x, i, rfl, h, trainAll_single _ _⟩
    | @bin b h => exact .inr (.inl ⟨b, rfl, h, trainAll_single _ _⟩)
    | @images x xs h h' => exact .inr (.inr ⟨x, xs, rfl, h, h', rfl⟩)

/-- Training several images: the same state as after those up to the failing one. -/
theorem trainAll_prefix (imgs : List Image) : ∀ d : Discriminator, ∃ p, p <+: imgs ∧
    (d.trainAll imgs).1 = (play d (p.map Op.train)).1 ∧ ((d.trainAll imgs).2 = .ok () → p = imgs) := by
  induction imgs with
  | nil => intro d; exact ⟨[], List.prefix_refl _, rfl, fun _ => rfl⟩
  | cons i is ih =>
    intro d
    simp only [Discriminator.trainAll]
    rcases h : d.train i with ⟨d', r⟩
    cases r with
    | ok u =>
      obtain ⟨p, h1, h2, h3⟩ := ih d'
      refine ⟨i :: p, List.cons_prefix_cons.mpr ⟨rfl, h1⟩, ?_, fun h => by rw [h3 h]⟩
      simp only [List.map_cons, play, h]
      exact h2
    | error e => exact ⟨[i], ⟨is, rfl⟩, by simp only [List.map_cons, List.map_nil, play, h], fun h => by cases h⟩

theorem of_ok {r : Res Unit} : PyRes.of (some r) = .ok () ↔ r = .ok () := by
  rcases r with (_ | _) | _ <;> simp [PyRes.of]

theorem of_not_type {α : Type} {r : Res α} : PyRes.of (some r) ≠ .raised .typeError := by
  rcases r with (e | _) | _
  · cases e <;> simp [PyRes.of, Exn.toPython]
  · simp [PyRes.of]
  · simp [PyRes.of]

/-- What one call contributes. -/
theorem train_call (L : PyLib) (d : Discriminator) (args : List PyVal) :
    ∃ imgs, TrainContributes L args (d.pyTrainCall L args).2 imgs ∧ (d.pyTrainCall L args).1 = (play d (imgs.map Op.train)).1 := by
  unfold Discriminator.pyTrainCall
  cases h : d.pyTrain L args with
  | none =>
    have hn : ∀ imgs, ¬ TrainAsks L args imgs := by
      intro imgs hi
      rw [(train_asks L d args _).mpr ⟨imgs, hi, rfl⟩] at h
      cases h
    refine ⟨[], ⟨?_, ⟨fun _ => hn, fun _ => rfl⟩, fun _ => rfl, ?_⟩, rfl⟩
    · intro h; cases h
    · rintro (⟨e, he, h⟩ | ⟨u, h⟩)
      · cases he; exact absurd rfl h
      · cases h
  | some r =>
    obtain ⟨asked, ha, rfl⟩ := (train_asks L d args r).mp h
    obtain ⟨p, h1, h2, h3⟩ := trainAll_prefix asked d
    refine ⟨p, ⟨?_, ⟨fun h => absurd h of_not_type, fun h => absurd ha (h _)⟩, fun h => absurd h of_not_type, fun _ => ⟨asked, ha, h1⟩⟩, h2⟩
    intro h
    rw [h3 (of_ok.mp h)]
    exact ha

/-- **C158** (history): whatever calls of `train` a Python program makes on a Discriminator, with whatever arguments and going
on after exceptions, the Discriminator is afterwards as after a history of trainings of single images; each call contributes all
the images it asks for (if it returns), nothing (`TypeError`: exactly if it asks for nothing) or the first few of them. -/
theorem C158_session (L : PyLib) : ∀ (calls : List (List PyVal)) (d : Discriminator), ∃ parts : List (List Image),
    List.Forall₂ (fun (c : List PyVal × PyRes Unit) imgs => TrainContributes L c.1 c.2 imgs) (calls.zip (d.pyTrains L calls).2) parts ∧
    (d.pyTrains L calls).2.length = calls.length ∧ (d.pyTrains L calls).1 = (play d (parts.flatten.map Op.train)).1 := by
  intro calls
  induction calls with
  | nil => intro d; exact ⟨[], .nil, rfl, rfl⟩
  | cons args calls ih =>
    intro d
    obtain ⟨imgs, h1, h2⟩ := train_call L d args
    obtain ⟨parts, g1, g2, g3⟩ := ih (d.pyTrainCall L args).1
    refine ⟨imgs :: parts, ?_, ?_, ?_⟩
    · simp only [Discriminator.pyTrains, List.zip_cons_cons]; exact .cons h1 g1
    · simp only [Discriminator.pyTrains, List.length_cons, g2]
    · simp only [Discriminator.pyTrains, List.flatten_cons, List.map_append, play_append]; rw [g3, h2]

/-! ## A correct program -/

theorem Spec.OptionIs.type {V α : Type} {kws : List (Str × V)} (hd : Distinct kws) {name : Str} {cast : V → Option α} {dflt x : α}
    (h : OptionIs kws name cast dflt x) : TypeOk kws name cast := by
  intro v hv
  rcases h with ⟨v', hv', h⟩ | ⟨h, _⟩
  · have : (name, v) = (name, v') := List.inj_on_of_nodup_map hd hv hv' rfl
    cases this
    exact ⟨x, h⟩
  · exact absurd hv (h v)

/-- The constructor with the options given. -/
theorem pyDisc_new (L : PyLib) (ft : FloatText) (fs : Fs) (rnd : Rnd) {A n : Nat} (hA : (A : Int) ≤ 2147483647) (hn : (n : Int) ≤ 2147483647)
    {kws : List (Str × PyVal)} (hd : Distinct kws) {o : Options} (ho : DiscOptionsAre (casts L) kws o) :
    Discriminator.py L ft fs rnd [.int A, .int n] kws = some (Discriminator.create rnd A n o) := by
  rw [C145_discriminator]
  refine .inr ⟨_, _, A, n, rfl, ⟨.int A, by omega, hA⟩, ⟨.int n, by omega, hn⟩, ?_⟩
  obtain ⟨o', h1, h2⟩ := (C94_discriminator (casts L) rnd A n kws hd).1
    ⟨ho.ignoreZero.type hd, ho.completeAddressing.type hd, ho.base.type hd, ho.indexes.type hd, ho.mapping.type hd⟩
  rw [h2]
  congr 1
  obtain ⟨x1, x2, x3, x4, x5⟩ := o
  obtain ⟨y1, y2, y3, y4, y5⟩ := o'
  obtain ⟨a1, a2, a3, a4, a5⟩ := ho
  obtain ⟨b1, b2, b3, b4, b5⟩ := h1
  cases a1.unique hd (List.Perm.refl _) b1
  cases a2.unique hd (List.Perm.refl _) b2
  cases a3.unique hd (List.Perm.refl _) b3
  cases a4.unique hd (List.Perm.refl _) b4
  cases a5.unique hd (List.Perm.refl _) b5
  rfl

/-- Calls whose trainings all succeed. -/
theorem trains_ok (L : PyLib) : ∀ (calls : List (List PyVal)) (parts : List (List Image)),
    List.Forall₂ (TrainAsks L) calls parts → ∀ d d' : Discriminator, d.trainAll parts.flatten = (d', .ok ()) →
    d.pyTrains L calls = (d', calls.map fun _ => .ok ()) := by
  intro calls parts h
  induction h with
  | nil => intro d d' h; cases h; rfl
  | @cons args imgs calls parts ha _ ih =>
    intro d d' h
    rw [List.flatten_cons, trainAll_eq_run, List.map_append] at h
    have hsplit : ∃ d1, d.trainAll imgs = (d1, .ok ()) ∧ d1.trainAll parts.flatten = (d', .ok ()) := by
      clear ih ha
      revert d
      induction imgs with
      | nil => intro d h; exact ⟨d, rfl, by rw [trainAll_eq_run]; exact h⟩
      | cons i is ih =>
        intro d h
        simp only [List.map_cons, List.cons_append, run] at h
        simp only [Discriminator.trainAll]
        rcases hi : d.train i with ⟨d1, r⟩
        rw [hi] at h
        cases r with
        | ok u => exact ih d1 h
        | error e => cases h
    obtain ⟨d1, h1, h2⟩ := hsplit
    have hc : d.pyTrainCall L args = (d1, .ok ()) := by
      unfold Discriminator.pyTrainCall
      rw [(train_asks L d args _).mpr ⟨imgs, ha, h1.symm⟩]
      rfl
    simp only [Discriminator.pyTrains, hc, ih d1 d' h2, List.map_cons]

theorem run_ok_play (ops : List Op) : ∀ {d d' : Discriminator}, run d ops = (d', .ok ()) → (play d ops).1 = d' := by
  induction ops with
  | nil => intro d d' h; cases h; rfl
  | cons o ops ih =>
    intro d d' h
    cases o with
    | train img =>
      simp only [run] at h
      simp only [play]
      rcases hi : d.train img with ⟨d1, r⟩
      rw [hi] at h
      cases r with
      | ok u => exact ih h
      | error e => cases h
    | untrain img =>
      simp only [run] at h
      simp only [play]
      rcases hi : d.untrain img with ⟨d1, r⟩
      rw [hi] at h
      cases r with
      | ok u => exact ih h
      | error e => cases h

/-- **C158**: a correct Python program never fails. `d = Discriminator(A, n, **kws)` without `mapping` and `indexes`, then any
calls of `train` with images of `n` values in `[0, base)`: every call returns; `d.classify(x)` of such an image returns for each
RAM the number of trained images that agree with `x` on the positions the RAM looks at (0 for an image that is zero there, with
`ignoreZero`); `d.json()` returns a `str` (if anything was trained), and `Discriminator(that str)` cannot be told from `d`.
Conditions: usable options (`2 ≤ A ≤ n`, `base ≥ 2`, `base^A < 2^63`) and the text fits (`rams * (16 * images + 1) ≤ 2^31`). -/
theorem C158_program (L : PyLib) (ft : FloatText) (fs0 : Fs) (rnd : Rnd) {A n : Nat} {kws : List (Str × PyVal)} (hd : Distinct kws)
    {o : Options} (ho : DiscOptionsAre (casts L) kws o) (hm : o.mapping = []) (hi : o.indexes = [])
    (hA : 2 ≤ A) (hAn : A ≤ n) (hn : n + A ≤ 2147483647) (hb : 2 ≤ o.base) (hp : o.base ^ A < 2 ^ 63)
    (calls : List (List PyVal)) (parts : List (List Image)) (hg : List.Forall₂ (TrainAsks L) calls parts)
    (hv : ∀ i ∈ parts.flatten, ValidImage n o.base i)
    (hsize : ramsOf n A o.completeAddressing * (16 * parts.flatten.length + 1) ≤ 2147483648) :
    ∃ d0 d, Discriminator.py L ft fs0 rnd [.int A, .int n] kws = some (.ok d0) ∧
      d0.mapping.length = ramsOf n A o.completeAddressing ∧
      d0.pyTrains L calls = (d, calls.map fun _ => .ok ()) ∧
      (∀ x i, PyImage x i → ValidImage n o.base (.vec i) →
        d.pyClassify L [x] = some (.ok (d0.mapping.map fun m =>
          if o.ignoreZero = true ∧ ZeroOn m (.vec i) then 0 else (matchCount m parts.flatten (.vec i) : Int)))) ∧
      (calls ≠ [] → ∀ (it : IterOrder) (fs fs' : Fs), ∃ cs d', d.pyJson L it ft fs [] [] = .ok (fs, cs) ∧
        Discriminator.py L ft fs' rnd [.str cs] [] = some (.ok d') ∧ Indistinguishable d d') := by
  obtain ⟨c1, c2⟩ := C18_default_wiring rnd A n o hm hi
  obtain ⟨d0, h0⟩ := c1 hA hAn hn hb hp
  obtain ⟨r1, r2, r3, _⟩ := c2 d0 h0
  have hR : d0.getNumberOfRAMS = ramsOf n A o.completeAddressing := r1
  have hRpos : 1 ≤ ramsOf n A o.completeAddressing := by
    unfold ramsOf
    split
    · exact Nat.div_pos (by omega) (by omega)
    · exact Nat.div_pos (by omega) (by omega)
  have hlen : parts.flatten.length ≤ 2147483647 := by
    have := Nat.mul_le_mul_right (16 * parts.flatten.length + 1) hRpos
    omega
  have hv' := mem_trains hv
  obtain ⟨d, h1, _⟩ := run_created h0 r3 (parts.flatten.map Op.train) hv' (by rw [List.length_map]; exact hlen)
  have h2 : d0.trainAll parts.flatten = (d, .ok ()) := by rw [trainAll_eq_run]; exact h1
  refine ⟨d0, d, ?_, ?_, trains_ok L calls parts hg d0 d h2, ?_, ?_⟩
  · rw [pyDisc_new L ft fs0 rnd (by omega) (by omega) hd ho, h0]
  · rw [← hR]; simp [Discriminator.mapping, Discriminator.getNumberOfRAMS]
  · intro x i hx hxi
    refine (C145_discriminator_classify L d [x] _).mpr (.inl ⟨x, i, rfl, hx, ?_⟩)
    obtain ⟨d', g1, g2⟩ := C11_vote_counts_matching_images h0 r3 parts.flatten hv hlen (.vec i) hxi
    rw [h2] at g1
    cases g1
    exact g2.symm
  · intro hne it fs fs'
    have hplay : (play d0 (parts.flatten.map Op.train)).1 = d := run_ok_play _ h1
    have hr : IntRange n o.base d0.mapping := by
      refine ⟨⟨by omega, by omega⟩, ?_, ?_⟩
      · rcases ho.base with ⟨v, _, h⟩ | ⟨_, h⟩
        · exact ((C145_options L v).2.1 _).mp h |>.2
        · rw [h]; decide
      · intro m hm' a ha
        obtain ⟨q1, q2⟩ := r3 m hm' a ha
        exact ⟨by omega, by omega⟩
    have hl : LearntSomething d0 (parts.flatten.map Op.train) := by
      cases hg with
      | nil => exact absurd rfl hne
      | @cons args imgs calls parts ha _ =>
        have : ∃ i is, imgs = i :: is := by
          cases ha with
          | image _ => exact ⟨_, _, rfl⟩
          | bin _ => exact ⟨_, _, rfl⟩
          | @images x xs _ h =>
            cases xs with
            | nil => exact absurd rfl h
            | cons y ys => exact ⟨_, _, rfl⟩
        obtain ⟨i, is, rfl⟩ := this
        refine ⟨[], i, (is ++ parts.flatten).map Op.train, by simp, ?_⟩
        simp only [List.flatten_cons, List.cons_append, Discriminator.trainAll] at h2
        simp only [play]
        rcases hi : d0.train i with ⟨d1, r⟩
        rw [hi] at h2
        cases r with
        | ok u => rfl
        | error e => cases h2
    have ht : trains (parts.flatten.map Op.train) = parts.flatten.length := by
      unfold trains
      rw [List.filter_eq_self.mpr (by intro op hop; obtain ⟨i, _, rfl⟩ := List.mem_map.mp hop; rfl)]
      rw [List.length_map]
    obtain ⟨t, j, q1, q2, q3⟩ := C99_discriminator ft h0 hr (parts.flatten.map Op.train) hl (by rw [hR, ht]; exact hsize) it fs fs'
    rw [hplay] at q1 q3
    obtain ⟨cs, hcs⟩ := (utf8_value q2).of
    obtain ⟨d', h5, h6⟩ := q3 t ⟨[], t, [], by simp, by simp [Ws], q2, by simp [Ws]⟩
    refine ⟨cs, d', ?_, ?_, h6⟩
    · unfold Discriminator.pyJson
      rw [(C145_json L [] (false, [])).mpr (.inl ⟨rfl, rfl⟩)]
      dsimp only
      rw [q1]
      simp only [PyRes.of, PyRes.convert, decode_of hcs, Option.map_some]
    · exact (C145_discriminator L ft fs' rnd [.str cs] [] _).mpr (.inl ⟨_, t, rfl, rfl, .str hcs, by rw [h5]⟩)

/-! `d = Discriminator(2, 4)`, `d.train([1, 0, 1, 1])`, `d.train([[0, 0, 1, 0], [1, 0, 1, 1]])`. -/

example : DiscOptionsAre (casts exPy) [] {} ∧ Distinct ([] : List (Str × PyVal)) ∧
    List.Forall₂ (TrainAsks exPy)
      [[.list [.int 1, .int 0, .int 1, .int 1]], [.list [.list [.int 0, .int 0, .int 1, .int 0], .list [.int 1, .int 0, .bool true, .int 1]]]]
      [[.vec [1, 0, 1, 1]], [.vec [0, 0, 1, 0], .vec [1, 0, 1, 1]]] ∧
    (∀ i ∈ [[Image.vec [1, 0, 1, 1]], [.vec [0, 0, 1, 0], .vec [1, 0, 1, 1]]].flatten, ValidImage 4 2 i) ∧
    ramsOf 4 2 true * (16 * 3 + 1) ≤ 2147483648 := by
  refine ⟨⟨.inr ⟨by simp, rfl⟩, .inr ⟨by simp, rfl⟩, .inr ⟨by simp, rfl⟩, .inr ⟨by simp, rfl⟩, .inr ⟨by simp, rfl⟩⟩, List.nodup_nil,
    .cons (.image ((image_ok (L := exPy)).mp rfl)) (.cons (.images (xs := [[0, 0, 1, 0], [1, 0, 1, 1]]) ((images_ok (L := exPy)).mp rfl) (by decide)) .nil), ?_, by decide⟩
  intro i hi
  simp only [List.flatten_cons, List.flatten_nil, List.append_nil, List.cons_append, List.nil_append, List.mem_cons, List.not_mem_nil, or_false] at hi
  rcases hi with rfl | rfl | rfl
  · exact example_valid.1
  · exact example_valid.2
  · exact example_valid.1

end Wis
