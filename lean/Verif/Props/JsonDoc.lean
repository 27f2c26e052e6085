import Verif.Props.JsonGrammar
import Verif.Props.SavedText
/-!
# C98-C100: JSON texts and saved models
-/

namespace Wis
open Spec JsonText

/-! ## C98: consequences -/

/-- C98: a JSON text is accepted, with its value. -/
theorem C98_json_accepted (ft : FloatText) {text : Str} {v : Json} (h : DocText ft text v) : parse ft text = .ok v :=
  (C98_accepts_iff ft text v).mpr ⟨[], text, [], by simp, Or.inl rfl, h, Or.inl rfl⟩

/-- C98: a text stands for one value only. -/
theorem C98_unambiguous (ft : FloatText) {text : Str} {v v' : Json} (h : DocText ft text v) (h' : DocText ft text v') : v = v' := by
  have h1 := C98_json_accepted ft h
  rw [C98_json_accepted ft h'] at h1
  cases h1
  rfl

/-- C98: a text without NUL bytes and byte order mark that is not a JSON text (or has a number beyond the range of
`double`) is refused with an exception. -/
theorem C98_other_refused (ft : FloatText) (hf : ∀ t q, ft.read t = some q → FloatOk ft q) {text : Str}
    (h0 : (0 : Byte) ∉ text) (hb : ¬ ([0xEF, 0xBB, 0xBF] : Str) <+: text) (hn : ∀ v, ¬ DocText ft text v) :
    parse ft text = .error (.throw .jsonParse) ∨ parse ft text = .error (.throw .jsonRange) := by
  rcases C90_parse_outcome ft hf text with ⟨j, hj⟩ | h
  · exfalso
    obtain ⟨mark, doc, junk, rfl, hm, hd, hj'⟩ := (C98_accepts_iff ft text j).mp hj
    rcases hj' with rfl | ⟨r, rfl⟩
    · rcases hm with rfl | rfl
      · exact hn j (by simpa using hd)
      · exact hb ⟨doc, by simp⟩
    · exact h0 (by simp)
  · exact h

/-- C98, the exception: everything after a NUL byte is ignored. -/
theorem C98_nul_ends (ft : FloatText) {text : Str} {v : Json} (h : DocText ft text v) (garbage : Str) :
    parse ft (text ++ 0 :: garbage) = .ok v :=
  (C98_accepts_iff ft _ v).mpr ⟨[], text, 0 :: garbage, by simp, Or.inl rfl, h, Or.inr ⟨garbage, rfl⟩⟩

/-! ## C99: what is written is JSON -/

theorem low_esc : ∀ n : Fin 128, (∃ k : Fin 8, [dumpChar n.val (BitVec.ofNat 8 n.val)] = [b!"\\" ++ (shortEscapes.getD k ([], [])).1] ∧
      (shortEscapes.getD k ([], [])).2 = [BitVec.ofNat 8 n.val]) ∨
    (dumpChar n.val (BitVec.ofNat 8 n.val) = b!"\\u00" ++ [b!"0123456789abcdef".getD (n.val / 16) 0, b!"0123456789abcdef".getD (n.val % 16) 0]) ∨
    (dumpChar n.val (BitVec.ofNat 8 n.val) = [BitVec.ofNat 8 n.val] ∧ 0x20 ≤ n.val ∧ (BitVec.ofNat 8 n.val : Byte) ≠ c!"\"" ∧
      (BitVec.ofNat 8 n.val : Byte) ≠ c!"\\") := by
  decide +kernel

theorem esc_text {c : Str} (hc : Utf8Char c) : CharText (escChar c) c := by
  have hc' := hc
  obtain ⟨row, hrow, hc⟩ := hc
  cases hc with
  | nil => simp [utf8Rows] at hrow
  | @cons b r c rs hb hcs =>
    cases hcs with
    | @cons b2 r2 c rs hb2 hcs =>
      refine .plain hc' ?_
      refine cont_plain (.cons hb (.cons hb2 hcs)) ?_
      have : ∀ row ∈ utf8Rows, 2 ≤ row.length → ∀ r ∈ row, 0x7F < r.1 := by decide
      exact this _ hrow (by simp)
    | nil =>
      have hr : ∀ row ∈ utf8Rows, ∀ r, row = [r] → r = (0x00, 0x7F) := by
        intro row hrow r h
        subst h
        simpa [utf8Rows] using hrow
      have := hr _ hrow r rfl
      subst this
      have hlt : b.toNat < 128 := by have := hb.2; simp only at this; omega
      show CharText (dumpChar b.toNat b) [b]
      have h := low_esc ⟨b.toNat, hlt⟩
      simp only [BitVec.ofNat_toNat, BitVec.setWidth_eq] at h
      rcases h with ⟨k, h1, h2⟩ | h1 | ⟨h1, h2, h3, h4⟩
      · rw [List.cons.injEq] at h1
        rw [h1.1, ← h2]
        have hm : ∀ k : Fin 8, shortEscapes.getD k ([], []) ∈ shortEscapes := by decide
        exact .short (hm k)
      · have hu : [b] = utf8Of b.toNat := by
          unfold utf8Of
          rw [if_pos hlt]
          simp
        rw [h1, hu]
        refine CharText.unit (h := b!"00" ++ [_, _]) (n := b.toNat) ⟨_, _, _, _, 0, 0, b.toNat / 16, b.toNat % 16, rfl, ?_, ?_, ?_, ?_, ?_⟩ ?_
        · exact ⟨by decide, Or.inl rfl⟩
        · exact ⟨by decide, Or.inl rfl⟩
        · exact ⟨by omega, Or.inl rfl⟩
        · exact ⟨by omega, Or.inl rfl⟩
        · omega
        · omega
      · rw [h1]
        refine .plain hc' ?_
        intro x hx
        rw [List.mem_singleton] at hx
        subst hx
        exact ⟨h2, h3, h4⟩

theorem string_text {s : Str} (h : Utf8 s) : ∃ t, dumpString s = .ok t ∧ StringText t s := by
  have : ∃ e, dumpEscaped s = .ok e ∧ CharsText e s := by
    induction h with
    | nil => exact ⟨[], rfl, .nil⟩
    | @cons c s hc hs ih =>
      obtain ⟨e, he, hrec⟩ := ih
      exact ⟨escChar c ++ e, by rw [char_write hc, he]; rfl, .cons (esc_text hc) hrec⟩
  obtain ⟨e, he, hc⟩ := this
  exact ⟨b!"\"" ++ e ++ b!"\"", by simp only [dumpString, he, Except.bind_ok], e, rfl, hc⟩

theorem integer_text (ft : FloatText) {x : Int} (h1 : -2 ^ 63 ≤ x) (h2 : x < 2 ^ 64) :
    ∃ t, dumpInteger x = .ok t ∧ NumberText ft t (.int x) := by
  by_cases h0 : x = 0
  · subst h0
    exact ⟨b!"0", rfl, .nat (s := b!"0") (Or.inl rfl) (by decide)⟩
  · obtain ⟨r, hr1, hr2, hr3, hr4⟩ := dumpDigits_spec 63 20 x (by omega) (by omega)
    obtain ⟨d, ds, hr5, hr6⟩ := hr4 h0
    have hdig : Digits (d :: ds) := by rw [← hr5]; exact digits_reverse hr2
    rw [hr5] at hr3
    have hv : natOf (d :: ds) = x.natAbs := hr3
    have hi : IntPart (d :: ds) := Or.inr ⟨d, ds, rfl, hr6, (hdig d (by simp)).2, fun b hb => hdig b (by simp [hb])⟩
    unfold dumpInteger
    rw [if_neg h0, hr1, Except.bind_ok]
    by_cases hneg : x < 0
    · refine ⟨b!"-" ++ d :: ds, ?_, ?_⟩
      · simp only [if_pos hneg, List.reverse_append, hr5]
        rfl
      · have := NumberText.neg (ft := ft) hi (by rw [hv]; omega)
        rw [hv] at this
        have e : -((x.natAbs : Nat) : Int) = x := by omega
        rwa [e] at this
    · refine ⟨d :: ds, by simp only [if_neg hneg, hr5], ?_⟩
      have := NumberText.nat (ft := ft) hi (by rw [hv]; omega)
      rw [hv] at this
      have e : ((x.natAbs : Nat) : Int) = x := by omega
      rwa [e] at this

theorem elems_text (ft : FloatText) : ∀ (l : List Json), l ≠ [] → (∀ j ∈ l, ∃ t, dump ft j = .ok t ∧ ValueText ft t j) →
    ∃ t, dumpElems ft l = .ok t ∧ ElemsText ft t l := by
  intro l
  induction l with
  | nil => intro h; exact absurd rfl h
  | cons j l ih =>
    intro _ h
    obtain ⟨t, ht, hv⟩ := h j (by simp)
    cases l with
    | nil =>
      refine ⟨t, by simp only [dumpElems, ht], ?_⟩
      have := ElemsText.one ws_nil hv ws_nil
      simpa using this
    | cons j' js =>
      obtain ⟨r, hr, he⟩ := ih (by simp) (fun x hx => h x (by simp [hx]))
      refine ⟨t ++ b!"," ++ r, by simp only [dumpElems, ht, hr, Except.bind_ok], ?_⟩
      have := ElemsText.more ws_nil hv ws_nil he
      simpa using this

theorem members_text (ft : FloatText) : ∀ (l : List (Str × Json)), l ≠ [] → (∀ e ∈ l, Utf8 e.1) →
    (∀ e ∈ l, ∃ t, dump ft e.2 = .ok t ∧ ValueText ft t e.2) → ∃ t, dumpMembers ft l = .ok t ∧ MembersText ft t l := by
  intro l
  induction l with
  | nil => intro h; exact absurd rfl h
  | cons e l ih =>
    intro _ hu h
    obtain ⟨k, j⟩ := e
    obtain ⟨t, ht, hv⟩ := h (k, j) (by simp)
    obtain ⟨kt, hk, hkt⟩ := string_text (hu (k, j) (by simp))
    simp only at ht hv hk hkt
    cases l with
    | nil =>
      refine ⟨kt ++ b!":" ++ t, by simp only [dumpMembers, ht, hk, Except.bind_ok], ?_⟩
      have := MembersText.one ws_nil hkt ws_nil ws_nil hv ws_nil
      simpa using this
    | cons e' m =>
      obtain ⟨r, hr, he⟩ := ih (by simp) (fun x hx => hu x (by simp [hx])) (fun x hx => h x (by simp [hx]))
      refine ⟨kt ++ b!":" ++ t ++ b!"," ++ r, by simp only [dumpMembers, ht, hk, hr, Except.bind_ok], ?_⟩
      have := MembersText.more ws_nil hkt ws_nil ws_nil hv ws_nil he
      simpa using this

theorem objectOf_self {m : List (Str × Json)} (h : SMap.Sorted m) : ObjectOf m m := by
  refine ⟨h, ?_⟩
  intro k
  clear h
  induction m with
  | nil => rfl
  | cons e m ih =>
    obtain ⟨k', v⟩ := e
    rw [SMap.find, List.find?_cons]
    by_cases hk : k' = k
    · subst hk; simp
    · simp only [decide_eq_false hk]
      rw [if_neg (by first | exact hk | exact fun h => hk h.symm)]
      exact ih

/-- C99: what `dump` writes is a JSON text for this value. -/
theorem C99_dump_is_json (ft : FloatText) {j : Json} (hh : Held ft j) (hu : AllUtf8 j) :
    ∃ t, dump ft j = .ok t ∧ ValueText ft t j := by
  induction hh with
  | null => exact ⟨_, rfl, .null⟩
  | bool b =>
    cases b
    · exact ⟨_, rfl, .fls⟩
    · exact ⟨_, rfl, .tru⟩
  | int h1 h2 =>
    obtain ⟨t, ht, hn⟩ := integer_text ft h1 h2
    exact ⟨t, by simp only [dump, ht], .num hn⟩
  | @real q hq => exact ⟨ft.write q, by simp only [dump], .num (.float hq.1 hq.2)⟩
  | str s =>
    cases hu with
    | str hu =>
      obtain ⟨t, ht, hs⟩ := string_text hu
      exact ⟨t, by simp only [dump, ht], .str hs⟩
  | @arr l _ ih =>
    cases hu with
    | arr hu =>
      cases l with
      | nil => exact ⟨b!"[]", by simp only [dump], .arr0 ws_nil⟩
      | cons j js =>
        obtain ⟨t, ht, hb⟩ := elems_text ft (j :: js) (by simp) (fun x hx => ih x hx (hu x hx))
        exact ⟨b!"[" ++ t ++ b!"]", by simp only [dump, ht, Except.bind_ok], .arr hb⟩
  | @obj m hs _ ih =>
    cases hu with
    | obj hu1 hu2 =>
      cases m with
      | nil => exact ⟨b!"{}", by simp only [dump], .obj0 ws_nil⟩
      | cons e es =>
        obtain ⟨t, ht, hb⟩ := members_text ft (e :: es) (by simp) hu1 (fun x hx => ih x hx (hu2 x hx))
        exact ⟨b!"{" ++ t ++ b!"}", by simp only [dump, ht, Except.bind_ok], .obj hb (objectOf_self hs)⟩

/-- C99: a discriminator is saved as a JSON text, and any JSON text for the same value (other white space, other order of
members, other escapes) is loaded to an indistinguishable discriminator. -/
theorem C99_discriminator (ft : FloatText)
    {rnd : Rnd} {A n : Int} {o : Options} {d0 : Discriminator}
    (hc : Discriminator.create rnd A n o = .ok d0) (hr : IntRange n o.base d0.mapping) (ops : List Op)
    (ht : LearntSomething d0 ops) (hs : d0.getNumberOfRAMS * (16 * trains ops + 1) ≤ 2147483648)
    (it : IterOrder) (fs fs' : Fs) :
    let d := (play d0 ops).1
    ∃ t j, d.jsonText it ft fs false [] [] = .ok (fs, t) ∧ ValueText ft t j ∧
      ∀ t', DocText ft t' j → ∃ d', Discriminator.ofText ft fs' t' = .ok d' ∧ Indistinguishable d d' := by
  intro d
  obtain ⟨j, d', hj, hd', hi⟩ := C27_json_roundtrip hc hr ops ht hs it fs fs'
  have hwf : DWF o.ignoreZero o.base d := (create_wf hc hr).play ops
  have hn : d.rams ≠ [] := (play_le ops d0).rams_ne (create_ne hc)
  have hh : Held ft j := (held_closed ft).discriminator hwf hn (fun _ => trivial) hj
  have hu : AllUtf8 j := utf8_closed.discriminator hwf hn (by simp) hj
  obtain ⟨t, h1, h2⟩ := C99_dump_is_json ft hh hu
  refine ⟨t, j, dumped_ok hj h1, h2, ?_⟩
  intro t' h'
  refine ⟨d', ?_, hi⟩
  unfold Discriminator.ofText
  simp only [C98_json_accepted ft h']
  exact hd'

/-- C99: the same for a Wisard whose labels are UTF-8. -/
theorem C99_wisard (ft : FloatText)
    {A : Int} {o : WisardOpts} (ho : OptRange A o) (ops : List WOp)
    (hs : ∀ l d, (wplay (Wisard.create A o) ops).1.discriminators.find l = some d → Savable (Wisard.create A o) ops l d)
    (hl : ∀ l ∈ (wplay (Wisard.create A o) ops).1.discriminators.keys, Utf8 l)
    (it : IterOrder) (fs fs' : Fs) :
    let w := (wplay (Wisard.create A o) ops).1
    ∃ t j, w.jsonText it ft fs false [] (fun _ => []) = .ok (fs, t) ∧ ValueText ft t j ∧
      ∀ t', DocText ft t' j → ∃ w', Wisard.ofText ft fs' t' = .ok w' ∧
        WIndistinguishable (fun l => l ∈ w.discriminators.keys ∨ o.mapping.find l = none) w w' := by
  intro w
  obtain ⟨j, w', hj, hw', hi⟩ := C33_json_roundtrip ho ops hs it fs fs'
  obtain ⟨hh, hobj, _, hu⟩ := wisard_value ho ops hs hj ft
  obtain ⟨t, h1, h2⟩ := C99_dump_is_json ft hh (hu hl (by simp))
  refine ⟨t, j, dumped_ok hj h1, h2, ?_⟩
  intro t' h'
  refine ⟨w', ?_, hi⟩
  unfold Wisard.ofText
  simp only [C98_json_accepted ft h']
  exact hw'

/-- C100: a ClusWisard that can be saved (see C36) and whose labels are UTF-8 is saved as a JSON text, and any JSON text for
the same value is loaded to an indistinguishable ClusWisard. -/
theorem C100_clusWisard_partial (ft : FloatText)
    (f : Flt) {A : Int} {ms : Rat} {t dl : Int} {o : ClusOpts} {w0 : ClusWisard} (hm : FloatOk ft ms)
    (h0 : ClusWisard.create A ms t dl o = .ok w0) (hr : CRange A t dl o) (ops : List COp)
    (hc : ∀ l c, (cplay f w0 ops).1.clusters.find l = some c → SavableC c)
    (hu : (cplay f w0 ops).1.unsupervisedCluster = Cluster.default ∨
      (o.base = 2 ∧ 0 < (cplay f w0 ops).1.unsupervisedCluster.getSize ∧ SavableC (cplay f w0 ops).1.unsupervisedCluster))
    (hl : ∀ l ∈ (cplay f w0 ops).1.clusters.keys, Utf8 l) (it : IterOrder) (fs fs' : Fs) :
    let w := (cplay f w0 ops).1
    ∃ t j, w.jsonText it ft fs false [] (fun _ _ => []) = .ok (fs, t) ∧ ValueText ft t j ∧
      ∀ t', DocText ft t' j → ∃ w', ClusWisard.ofText ft fs' t' = .ok w' ∧ CIndistinguishable f w w' := by
  intro w
  obtain ⟨j, w', hj, hw', hi⟩ := C36_json_roundtrip_partial f h0 hr ops hc hu it fs fs'
  have hs : WSav w := winv_sav h0 (WInv.play h0 ops) hr hc hu
  have hms := minScore_play f h0 ops
  obtain ⟨hh, _, _, huu⟩ := clus_value hs hj ft (by rw [hms]; exact hm)
  obtain ⟨t, h1, h2⟩ := C99_dump_is_json ft hh (huu hl (by simp))
  refine ⟨t, j, dumped_ok hj h1, h2, ?_⟩
  intro t' h'
  refine ⟨w', ?_, hi⟩
  unfold ClusWisard.ofText
  simp only [C98_json_accepted ft h']
  exact hw'

/-! ## Examples -/

/-- White space, an escape, and a repeated key, of which the first counts. -/
example : parse ft2 b!" { \"b\" : [ 1 , 0.25, \"\\u0041\\n\" ], \"b\":2 ,\"a\": null}\n" =
    .ok (.obj [(b!"a", .null), (b!"b", .arr [.int 1, .real (1/4), .str b!"A\n"])]) := rfl

/-- `[ 1 , "\u00e9" ]` is a JSON text. -/
example : DocText ft2 b!"[ 1 , \"\\u00e9\" ]" (.arr [.int 1, .str [0xC3, 0xA9]]) := by
  have hsp : Ws b!" " := fun b hb => by rw [List.mem_singleton] at hb; subst hb; exact Or.inl rfl
  have hx : Hex4 b!"00e9" 0xE9 := ⟨_, _, _, _, 0, 0, 14, 9, rfl, ⟨by decide, Or.inl rfl⟩, ⟨by decide, Or.inl rfl⟩,
    ⟨by decide, Or.inl rfl⟩, ⟨by decide, Or.inl rfl⟩, rfl⟩
  have hs : StringText b!"\"\\u00e9\"" [0xC3, 0xA9] := ⟨b!"\\u00e9", rfl, CharsText.cons (.unit hx (by decide)) .nil⟩
  exact ⟨[], _, [], rfl, ws_nil, .arr (ElemsText.more hsp (.num (.nat (s := b!"1") (Or.inr ⟨_, [], rfl, by decide, by decide,
    digits_nil⟩) (by decide))) hsp (.one hsp (.str hs) hsp)), ws_nil⟩

/-- Text after a NUL byte is not noticed. -/
example : parse ft2 (b!"[1]" ++ 0 :: b!"}garbage") = .ok (.arr [.int 1]) := rfl

end Wis
