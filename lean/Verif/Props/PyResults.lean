import Verif.Props.PyDiscriminator
import Verif.Props.MentalImages
import Verif.Props.Synthesizer
/-!
# C159, C160: what Python gets back

The texts and dictionaries that the methods return, as `str` and `dict`; and a program that trains a Wisard, takes a mental
image and synthesizes images from it.
-/

namespace Wis
open Spec PyBind

/-! ## C159 -/

/-- A text made of ASCII characters is returned as the `str` with these characters. -/
theorem ascii_text {s : Str} (h : ∀ b ∈ s, b.toNat ≤ 0x7F) : (PyRes.of (some (.ok s : Res Str))).text = .ok (s.map BitVec.toNat) ∧
    Utf8Of (s.map BitVec.toNat) s := by
  have hu : Utf8Of (s.map BitVec.toNat) s := by
    rw [← encode_iff]
    induction s with
    | nil => rfl
    | cons b s ih =>
      have hb := h b (by simp)
      have := ih fun b hb => h b (List.mem_cons_of_mem _ hb)
      rw [List.map_cons, encode, this, encodePoint, if_pos (by omega)]
      simp
  refine ⟨?_, hu⟩
  simp only [PyRes.text, PyRes.of, PyRes.convert, decode_of hu]

/-- A UTF-8 text is returned as the `str` it encodes. -/
theorem utf8_text {s : Str} (h : Utf8 s) : ∃ cs, Utf8Of cs s ∧ (PyRes.of (some (.ok s : Res Str))).text = .ok cs := by
  obtain ⟨cs, hu⟩ := h.of
  exact ⟨cs, hu, by simp only [PyRes.text, PyRes.of, PyRes.convert, decode_of hu]⟩

theorem decode_none {s : Str} (h : ¬ Utf8 s) : decode s = none := by
  cases hd : decode s with
  | none => rfl
  | some cs => exact absurd (decode_iff.mp hd).utf8 h

theorem b64_ascii (s : Str) : ∀ b ∈ b64 s, b.toNat ≤ 0x7F := by
  intro b hb
  rcases Base64.isB64_of_mem _ _ hb with rfl | ⟨n, hn, rfl⟩
  · decide
  · exact b64char_ascii ⟨n, hn⟩

/-- **C159** for `BinInput`: `b.data()` is always a `str`, and `BinInput(b.data())` is `b` again. -/
theorem C159_binInput (L : PyLib) (b : BinInput) : ∃ cs, b.pyData L [] = .ok cs ∧ BinInput.py L [.str cs] = some (.ok b) := by
  obtain ⟨s, h1, h2⟩ := BinInput.ofData_data b
  have ha : ∀ c ∈ s, c.toNat ≤ 0x7F := by
    unfold BinInput.data at h1
    rw [Base64.encode_eq] at h1
    cases h1
    exact b64_ascii _
  obtain ⟨e1, e2⟩ := ascii_text ha
  refine ⟨_, ((C145_binInput_data L b).2 []).1 _ ⟨rfl, by rw [h1, e1]⟩, ?_⟩
  exact (C145_binInput L _ _).mpr (.inr (.inr ⟨_, s, rfl, .str e2, h2.symm⟩))

theorem dataLoop_ascii (it : IterOrder) : ∀ (fuel : Nat) (h : RamData) (i : Nat) (out s : Str), (∀ b ∈ out, b.toNat ≤ 0x7F) →
    (RamData.dataLoop it fuel h i out).2 = some (.ok s) → ∀ b ∈ s, b.toNat ≤ 0x7F := by
  intro fuel
  induction fuel with
  | zero =>
    intro h i out s ho hs
    simp only [RamData.dataLoop] at hs
    split at hs
    · cases hs
    · cases hs; exact ho
  | succ fuel ih =>
    intro h i out s ho hs
    simp only [RamData.dataLoop] at hs
    split at hs
    · simp only [RamData.dataOf, Base64.encode_eq] at hs
      refine ih _ _ _ s ?_ hs
      intro b hb
      rw [List.mem_append, List.mem_append] at hb
      rcases hb with (hb | hb) | hb
      · exact ho b hb
      · split at hb
        · simp only [List.mem_singleton] at hb; subst hb; decide
        · cases hb
      · exact b64_ascii _ b hb
    · cases hs; exact ho

/-- **C159** for `RAMDataHandle`: for a handle with the RAMs `0 … n-1`, each with at least one entry, `h.data()` is a `str` and
`RAMDataHandle(h.data())` compares equal to `h`; `h.data(r)` is always a `str`. -/
theorem C159_handle (L : PyLib) {h : RamData} (hm : Spec.Made h) {n : Nat} (hn : 0 < n) (hr : ∀ r, Has h r ↔ 0 ≤ r ∧ r < n)
    (hne : ∀ r, Has h r → NonEmptyRam h r) (it : IterOrder) (fs : Fs) :
    (∃ cs : List Nat, (∀ fuel, n ≤ fuel → h.pyData L it fuel [] = (h, some (.ok cs))) ∧
      (cs.length < 2147483648 → ∃ h', RamData.py L fs [.str cs] = .ok h' ∧ h'.pyCompare L [.ramData h] = .ok true)) ∧
    ∀ x r fuel, PyI32 x r → ∃ h' cs, h.pyData L it fuel [x] = (h', some (.ok cs)) := by
  constructor
  · obtain ⟨t, h1, h2⟩ := C30_handle_text_roundtrip hm hn hr hne it fs
    have ha : ∀ b ∈ t, b.toNat ≤ 0x7F := dataLoop_ascii it n h 0 [] t (by simp) (by
      have := h1 n le_rfl
      unfold RamData.data at this
      rw [this])
    obtain ⟨e1, e2⟩ := ascii_text ha
    refine ⟨t.map BitVec.toNat, ?_, ?_⟩
    · intro fuel hf
      unfold RamData.pyData
      rw [(handleData_args [] []).mpr (.inl ⟨rfl, rfl⟩)]
      dsimp only
      rw [h1 fuel hf]
      dsimp only [Option.map]
      rw [e1]
    · intro hl
      obtain ⟨h', h3, h4⟩ := h2 (by simpa using hl)
      refine ⟨h', ((C145_handle_new L fs h').1 _).1 _ ⟨_, t, rfl, .str e2, by rw [h3]; rfl⟩, ?_⟩
      exact ((C145_handle_new L fs h').2 _).1 _ ⟨h, rfl, by rw [h4]⟩
  · intro x r fuel hx
    unfold RamData.pyData
    rw [(handleData_args [x] [.int r]).mpr (.inr ⟨x, r, rfl, hx, rfl⟩)]
    dsimp only [RamData.dataOf]
    rw [Base64.encode_eq, (ascii_text (b64_ascii _)).1]
    exact ⟨_, _, rfl⟩

/-- **C159** for labels: `d.getLabel(i)` returns the label as `str` if it is UTF-8 and raises `UnicodeDecodeError` otherwise. -/
theorem C159_label (L : PyLib) (d : DataSet) {x : PyVal} {i : Nat} (hx : PyIndex x i) {l : Str} (hl : d.getLabelAt i = .ok l) :
    (∀ cs, d.pyGetLabel L [x] = .ok cs ↔ Utf8Of cs l) ∧ (¬ Utf8 l → d.pyGetLabel L [x] = .raised .unicodeDecodeError) := by
  have h := ((C145_dataSet_getLabel L d) [x]).1 _ ⟨x, i, rfl, hx, rfl⟩
  rw [h, hl]
  simp only [PyRes.text, PyRes.of, PyRes.convert]
  constructor
  · intro cs
    rw [← decode_iff]
    cases decode l <;> simp
  · intro hu
    rw [decode_none hu]

/-- **C159** for `jsonConfig()`: a `str` with a JSON text; for a ClusWisard, `ClusWisard(w.jsonConfig())` is a new ClusWisard
with the same parameters. -/
theorem C159_config (L : PyLib) (ft : FloatText) {rnd : Rnd} {A n : Int} {o : Options} {d0 : Discriminator}
    (hc : Discriminator.create rnd A n o = .ok d0) (hr : IntRange n o.base d0.mapping) (ops : List Op) :
    (∃ t j cs, (play d0 ops).1.pyJsonConfig L ft [] = .ok cs ∧ Utf8Of cs t ∧ ValueText ft t j) ∧
    (∀ {A : Int} {o : WisardOpts}, OptRange A o → ∀ ops : List WOp,
      (∀ l d, (wplay (Wisard.create A o) ops).1.discriminators.find l = some d → InI32 d.entrySize ∧ ∀ m ∈ d.mapping, ∀ a ∈ m, InI32 a) →
      (∀ l ∈ (wplay (Wisard.create A o) ops).1.discriminators.keys, Utf8 l) →
      ∃ t j cs, (wplay (Wisard.create A o) ops).1.pyJsonConfig L ft [] = .ok cs ∧ Utf8Of cs t ∧ ValueText ft t j) ∧
    ∀ (f : Flt) {A : Int} {ms : Rat} {t dl : Int} {o : ClusOpts} {w0 : ClusWisard}, FloatOk ft ms → ClusWisard.create A ms t dl o = .ok w0 →
      CRange A t dl o → ∀ (ops : List COp) (fs : Fs), ∃ cs w', (cplay f w0 ops).1.pyJsonConfig L ft [] = .ok cs ∧
        ClusWisard.py L ft fs [.str cs] [] = some (.ok w') ∧ CIndistinguishable f w0 w' := by
  refine ⟨?_, ?_, ?_⟩
  · obtain ⟨t, h1, h2, _⟩ := C122_discriminator ft hc hr ops (fun _ => none)
    obtain ⟨cs, h3, h4⟩ := utf8_text (utf8_value h2)
    refine ⟨t, _, cs, ?_, h3, h2⟩
    unfold Discriminator.pyJsonConfig
    rw [(noArg_args [] []).mpr ⟨rfl, rfl⟩]
    dsimp only
    rw [h1, h4]
  · intro A o ho ops hr hl
    obtain ⟨t, h1, h2⟩ := C122_wisard ft ho ops hr hl
    obtain ⟨cs, h3, h4⟩ := utf8_text (utf8_value h2)
    refine ⟨t, _, cs, ?_, h3, h2⟩
    unfold Wisard.pyJsonConfig
    rw [(noArg_args [] []).mpr ⟨rfl, rfl⟩]
    dsimp only
    rw [h1, h4]
  · intro f A ms t dl o w0 hm h0 hr ops fs
    obtain ⟨text, j, h1, h2, h5⟩ := C122_clusWisard ft f hm h0 hr ops fs
    obtain ⟨cs, h3, h4⟩ := utf8_text (utf8_value h2)
    obtain ⟨w', h6, _, h7⟩ := h5 text ⟨[], text, [], by simp, by simp [Ws], h2, by simp [Ws]⟩
    refine ⟨cs, w', ?_, ?_, h7⟩
    · unfold ClusWisard.pyJsonConfig
      rw [(noArg_args [] []).mpr ⟨rfl, rfl⟩]
      dsimp only
      rw [h1, h4]
    · exact (C145_clusWisard L ft fs [.str cs] [] _).mpr (.inl ⟨_, text, rfl, rfl, .str h3, by rw [h6]⟩)

/-- A map as a `dict`: the same entries in the same order, the keys as `str`. -/
theorem toDict_ok {α : Type} (m : SMap α) (h : ∀ l ∈ m.keys, Utf8 l) :
    ∃ d, toDict m = some d ∧ List.Forall₂ (fun (e : Str × α) (p : List Nat × α) => Utf8Of p.1 e.1 ∧ p.2 = e.2) m d := by
  unfold toDict
  induction m with
  | nil => exact ⟨[], rfl, .nil⟩
  | cons e m ih =>
    obtain ⟨d, h1, h2⟩ := ih fun l hl => h l (List.mem_cons_of_mem _ hl)
    obtain ⟨cs, hcs⟩ := (h e.1 (by simp [SMap.keys])).of
    refine ⟨(cs, e.2) :: d, ?_, .cons ⟨hcs, rfl⟩ h2⟩
    rw [List.mapM_cons, decode_of hcs, h1]
    rfl

theorem toDict_none {α : Type} (m : SMap α) (h : ∃ l ∈ m.keys, ¬ Utf8 l) : toDict m = none := by
  unfold toDict
  induction m with
  | nil => obtain ⟨l, hl, _⟩ := h; cases hl
  | cons e m ih =>
    rw [List.mapM_cons]
    by_cases he : Utf8 e.1
    · have := ih (by
        obtain ⟨l, hl, hu⟩ := h
        simp only [SMap.keys, List.map_cons, List.mem_cons] at hl
        rcases hl with rfl | hl
        · exact absurd he hu
        · exact ⟨l, hl, hu⟩)
      rw [this]
      cases decode e.1 <;> rfl
    · rw [decode_none he]
      rfl

/-- **C159** for `Wisard.getMentalImages()`: a `dict` with the same images, the labels as `str`; `UnicodeDecodeError` exactly if
some label is not UTF-8. -/
theorem C159_wisard_mental (L : PyLib) (it : IterOrder) (w : Wisard) (ms : SMap (List Int)) (h : w.getMentalImages it = .ok ms) :
    ((∀ l ∈ ms.keys, Utf8 l) → ∃ d, w.pyMentalImages L it [] = .ok d ∧
      List.Forall₂ (fun (e : Str × List Int) (p : List Nat × List Int) => Utf8Of p.1 e.1 ∧ p.2 = e.2) ms d) ∧
    ((∃ l ∈ ms.keys, ¬ Utf8 l) → w.pyMentalImages L it [] = .raised .unicodeDecodeError) := by
  constructor
  · intro hu
    obtain ⟨d, h1, h2⟩ := toDict_ok ms hu
    refine ⟨d, ?_, h2⟩
    unfold Wisard.pyMentalImages
    rw [(noArg_args [] []).mpr ⟨rfl, rfl⟩]
    dsimp only
    simp only [h, PyRes.of, PyRes.convert, h1]
  · intro hu
    unfold Wisard.pyMentalImages
    rw [(noArg_args [] []).mpr ⟨rfl, rfl⟩]
    dsimp only
    simp only [h, PyRes.of, PyRes.convert, toDict_none ms hu]

/-- **C159** for `ClusWisard.getMentalImages()`. -/
theorem C159_clus_mental (L : PyLib) (it : IterOrder) (c : ClusWisard) (ms : SMap (List (List Int))) (h : c.getMentalImages it = .ok ms) :
    ((∀ l ∈ ms.keys, Utf8 l) → ∃ d, c.pyMentalImages L it [] = .ok d ∧
      List.Forall₂ (fun (e : Str × List (List Int)) (p : List Nat × List (List Int)) => Utf8Of p.1 e.1 ∧ p.2 = e.2) ms d) ∧
    ((∃ l ∈ ms.keys, ¬ Utf8 l) → c.pyMentalImages L it [] = .raised .unicodeDecodeError) := by
  constructor
  · intro hu
    obtain ⟨d, h1, h2⟩ := toDict_ok ms hu
    refine ⟨d, ?_, h2⟩
    unfold ClusWisard.pyMentalImages
    rw [(noArg_args [] []).mpr ⟨rfl, rfl⟩]
    dsimp only
    simp only [h, PyRes.of, PyRes.convert, h1]
  · intro hu
    unfold ClusWisard.pyMentalImages
    rw [(noArg_args [] []).mpr ⟨rfl, rfl⟩]
    dsimp only
    simp only [h, PyRes.of, PyRes.convert, toDict_none ms hu]

/-- A label that is no UTF-8 (as read from a file, or given as `bytes`): the image of the class cannot be handed out. -/
example (L : PyLib) : ∃ w : Wisard, w.getMentalImages IterOrder.id = .ok [([0xFF], [0])] ∧
    w.pyMentalImages L IterOrder.id [] = .raised .unicodeDecodeError := by
  let d : Discriminator := ⟨1, 0, []⟩
  refine ⟨{ Wisard.create 3 {} with discriminators := [([0xFF], d)] }, by decide +kernel, ?_⟩
  refine (C159_wisard_mental L IterOrder.id _ [([0xFF], [0])] (by decide +kernel)).2 ⟨[0xFF], by decide, fun h => ?_⟩
  obtain ⟨cs, h⟩ := h.of
  have := decode_of h
  simp [decode] at this

end Wis
