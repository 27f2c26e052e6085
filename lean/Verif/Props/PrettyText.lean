import Verif.Model.PrettyText
import Verif.Props.JsonDoc
import Verif.Props.ClusWisardJson
import Verif.Props.WisardJson
/-!
# C122: what `jsonConfig()` returns
-/

namespace Wis
open Spec JsonText

theorem ws_blanks (n : Nat) : Ws (blanks n) := by
  intro b hb
  exact Or.inl (List.eq_of_mem_replicate hb)

theorem ws_line (n : Nat) : Ws (b!"\n" ++ blanks n) := by
  intro b hb
  rcases List.mem_append.mp hb with hb | hb
  · rw [List.mem_singleton.mp hb]; exact Or.inr (Or.inr (Or.inl rfl))
  · exact ws_blanks n b hb

theorem ws_blank : Ws b!" " := by
  intro b hb
  rw [List.mem_singleton.mp hb]; exact Or.inl rfl

theorem pretty_elems_text (ft : FloatText) (n k : Nat) : ∀ (l : List Json), l ≠ [] →
    (∀ j ∈ l, ∃ t, dumpPretty ft n j = .ok t ∧ ValueText ft t j) →
    ∃ t, prettyElems ft n l = .ok t ∧ ElemsText ft (b!"\n" ++ t ++ b!"\n" ++ blanks k) l := by
  intro l
  induction l with
  | nil => intro h; exact absurd rfl h
  | cons j l ih =>
    intro _ h
    obtain ⟨t, ht, hv⟩ := h j (by simp)
    cases l with
    | nil =>
      refine ⟨blanks n ++ t, by simp only [prettyElems, ht, Except.bind_ok], ?_⟩
      have := ElemsText.one (ws_line n) hv (ws_line k)
      simpa using this
    | cons j' js =>
      obtain ⟨r, hr, he⟩ := ih (by simp) (fun x hx => h x (by simp [hx]))
      refine ⟨blanks n ++ t ++ b!",\n" ++ r, by simp only [prettyElems, ht, hr, Except.bind_ok], ?_⟩
      have := ElemsText.more (ws_line n) hv ws_nil he
      simpa using this

theorem pretty_members_text (ft : FloatText) (n k : Nat) : ∀ (l : List (Str × Json)), l ≠ [] → (∀ e ∈ l, Utf8 e.1) →
    (∀ e ∈ l, ∃ t, dumpPretty ft n e.2 = .ok t ∧ ValueText ft t e.2) →
    ∃ t, prettyMembers ft n l = .ok t ∧ MembersText ft (b!"\n" ++ t ++ b!"\n" ++ blanks k) l := by
  intro l
  induction l with
  | nil => intro h; exact absurd rfl h
  | cons e l ih =>
    intro _ hu h
    obtain ⟨key, j⟩ := e
    obtain ⟨t, ht, hv⟩ := h (key, j) (by simp)
    obtain ⟨kt, hk, hkt⟩ := string_text (hu (key, j) (by simp))
    simp only at ht hv hk hkt
    cases l with
    | nil =>
      refine ⟨blanks n ++ kt ++ b!": " ++ t, by simp only [prettyMembers, ht, hk, Except.bind_ok], ?_⟩
      have := MembersText.one (ws_line n) hkt ws_nil ws_blank hv (ws_line k)
      simpa using this
    | cons e' m =>
      obtain ⟨r, hr, he⟩ := ih (by simp) (fun x hx => hu x (by simp [hx])) (fun x hx => h x (by simp [hx]))
      refine ⟨blanks n ++ kt ++ b!": " ++ t ++ b!",\n" ++ r, by simp only [prettyMembers, ht, hk, hr, Except.bind_ok], ?_⟩
      have := MembersText.more (ws_line n) hkt ws_nil ws_blank hv ws_nil he
      simpa using this

/-- C122: what `dump(2)` writes, at any indentation, is a JSON text for this value. -/
theorem C122_pretty_is_json (ft : FloatText) {j : Json} (hh : Held ft j) (hu : AllUtf8 j) :
    ∀ n, ∃ t, dumpPretty ft n j = .ok t ∧ ValueText ft t j := by
  induction hh with
  | null => exact fun n => ⟨_, rfl, .null⟩
  | bool b =>
    intro n
    cases b
    · exact ⟨_, rfl, .fls⟩
    · exact ⟨_, rfl, .tru⟩
  | int h1 h2 =>
    intro n
    obtain ⟨t, ht, hn⟩ := integer_text ft h1 h2
    exact ⟨t, by simp only [dumpPretty, ht], .num hn⟩
  | @real q hq => exact fun n => ⟨ft.write q, by simp only [dumpPretty], .num (.float hq.1 hq.2)⟩
  | str s =>
    intro n
    cases hu with
    | str hu =>
      obtain ⟨t, ht, hs⟩ := string_text hu
      exact ⟨t, by simp only [dumpPretty, ht], .str hs⟩
  | @arr l _ ih =>
    intro n
    cases hu with
    | arr hu =>
      cases l with
      | nil => exact ⟨b!"[]", by simp only [dumpPretty], .arr0 ws_nil⟩
      | cons j js =>
        obtain ⟨t, ht, hb⟩ := pretty_elems_text ft (n + 2) n (j :: js) (by simp) (fun x hx => ih x hx (hu x hx) _)
        refine ⟨b!"[\n" ++ t ++ b!"\n" ++ blanks n ++ b!"]", by simp only [dumpPretty, ht, Except.bind_ok], ?_⟩
        have := ValueText.arr hb
        simpa using this
  | @obj m hs _ ih =>
    intro n
    cases hu with
    | obj hu1 hu2 =>
      cases m with
      | nil => exact ⟨b!"{}", by simp only [dumpPretty], .obj0 ws_nil⟩
      | cons e es =>
        obtain ⟨t, ht, hb⟩ := pretty_members_text ft (n + 2) n (e :: es) (by simp) hu1 (fun x hx => ih x hx (hu2 x hx) _)
        refine ⟨b!"{\n" ++ t ++ b!"\n" ++ blanks n ++ b!"}", by simp only [dumpPretty, ht, Except.bind_ok], ?_⟩
        have := ValueText.obj hb (objectOf_self hs)
        simpa using this

/-- Both fail alike. -/
def FailAlike (a b : Res Str) : Prop := (∃ t t', a = .ok t ∧ b = .ok t') ∨ ∃ e, a = .error e ∧ b = .error e

theorem FailAlike.refl (a : Res Str) : FailAlike a a := by
  cases a with
  | ok t => exact Or.inl ⟨t, t, rfl, rfl⟩
  | error e => exact Or.inr ⟨e, rfl, rfl⟩

theorem FailAlike.bind {a b : Res Str} (h : FailAlike a b) {f g : Str → Res Str} (hfg : ∀ t t', FailAlike (f t) (g t')) :
    FailAlike (a >>= f) (b >>= g) := by
  rcases h with ⟨t, t', rfl, rfl⟩ | ⟨e, rfl, rfl⟩
  · exact hfg t t'
  · exact Or.inr ⟨e, rfl, rfl⟩

theorem FailAlike.ok (s t : Str) : FailAlike (.ok s) (.ok t) := Or.inl ⟨s, t, rfl, rfl⟩

mutual
theorem alike_value (ft : FloatText) : ∀ (j : Json) (n : Nat), FailAlike (dumpPretty ft n j) (dump ft j)
  | .null, n => by rw [dumpPretty, dump]; exact .ok _ _
  | .bool b, n => by rw [dumpPretty, dump]; exact .ok _ _
  | .int i, n => by rw [dumpPretty, dump]; exact .refl _
  | .real q, n => by rw [dumpPretty, dump]; exact .ok _ _
  | .str s, n => by rw [dumpPretty, dump]; exact .refl _
  | .arr [], n => by rw [dumpPretty, dump]; exact .ok _ _
  | .arr (j :: js), n => by
    rw [dumpPretty, dump]
    exact (alike_elems ft (j :: js) (n + 2)).bind (fun _ _ => .ok _ _)
  | .obj [], n => by rw [dumpPretty, dump]; exact .ok _ _
  | .obj (e :: m), n => by
    rw [dumpPretty, dump]
    exact (alike_members ft (e :: m) (n + 2)).bind (fun _ _ => .ok _ _)
theorem alike_elems (ft : FloatText) : ∀ (l : List Json) (n : Nat), FailAlike (prettyElems ft n l) (dumpElems ft l)
  | [], n => by rw [prettyElems, dumpElems]; exact .ok _ _
  | [j], n => by
    rw [prettyElems, dumpElems]
    rcases alike_value ft j n with ⟨t, t', h1, h2⟩ | ⟨e, h1, h2⟩ <;> rw [h1, h2]
    · exact .ok _ _
    · exact Or.inr ⟨e, rfl, rfl⟩
  | j :: j' :: js, n => by
    rw [prettyElems, dumpElems]
    exact (alike_value ft j n).bind (fun _ _ => (alike_elems ft (j' :: js) n).bind (fun _ _ => .ok _ _))
theorem alike_members (ft : FloatText) : ∀ (l : List (Str × Json)) (n : Nat), FailAlike (prettyMembers ft n l) (dumpMembers ft l)
  | [], n => by rw [prettyMembers, dumpMembers]; exact .ok _ _
  | [(k, j)], n => by
    rw [prettyMembers, dumpMembers]
    exact (FailAlike.refl (dumpString k)).bind (fun _ _ => (alike_value ft j n).bind (fun _ _ => .ok _ _))
  | (k, j) :: e :: m, n => by
    rw [prettyMembers, dumpMembers]
    exact (FailAlike.refl (dumpString k)).bind (fun _ _ => (alike_value ft j n).bind (fun _ _ =>
      (alike_members ft (e :: m) n).bind (fun _ _ => .ok _ _)))
end

/-- C122: `dump(2)` throws where `dump()` throws: exactly if some string or key of the value is not UTF-8. -/
theorem C122_pretty_throws (ft : FloatText) {j : Json} (hh : Held ft j) (hu : ¬ AllUtf8 j) (n : Nat) :
    dumpPretty ft n j = .error (.throw .jsonUtf8) := by
  have h := C89_dump_throws hh hu
  rcases alike_value ft j n with ⟨t, t', h1, h2⟩ | ⟨e, h1, h2⟩
  · rw [h] at h2; cases h2
  · rw [h] at h2; cases h2; exact h1

/-- C122: what `dump(2)` writes is read back as the value. -/
theorem C122_pretty_roundtrip (ft : FloatText) {j : Json} (hh : Held ft j) (hu : AllUtf8 j) :
    ∃ t, dumpPretty ft 0 j = .ok t ∧ parse ft t = .ok j := by
  obtain ⟨t, h1, h2⟩ := C122_pretty_is_json ft hh hu 0
  exact ⟨t, h1, C98_json_accepted ft ⟨[], t, [], by simp, ws_nil, h2, ws_nil⟩⟩

/-! ## The models -/

/-- C122: `jsonConfig()` of a Discriminator is a JSON text for an object with its base, size of the entry, `ignoreZero`,
mapping and the version; no constructor takes it (C35), in whatever layout. -/
theorem C122_discriminator (ft : FloatText) {rnd : Rnd} {A n : Int} {o : Options} {d0 : Discriminator}
    (hc : Discriminator.create rnd A n o = .ok d0) (hr : IntRange n o.base d0.mapping) (ops : List Op) (fs : Fs) :
    let j : Json := .obj [(b!"base", .int o.base), (b!"entrySize", .int n), (b!"ignoreZero", .bool o.ignoreZero),
      (b!"mapping", Json.ofIntss d0.mapping), (b!"version", .str version)]
    ∃ t, (play d0 ops).1.jsonConfigText ft = .ok t ∧ ValueText ft t j ∧
      ∀ t', DocText ft t' j → Discriminator.ofText ft fs t' = .error (.throw .jsonType) := by
  intro j
  have hle := play_le ops d0
  have hn := hle.rams_ne (create_ne hc)
  have hwf := (create_wf hc hr).play ops
  have hj : (play d0 ops).1.jsonConfig = .ok j := by
    revert hn hwf hle
    generalize (play d0 ops).1 = d
    intro hle hn hwf
    cases hd : d.rams with
    | nil => exact absurd hd hn
    | cons r rs =>
      have h1 := hwf.rams r (by rw [hd]; simp)
      have hfr := create_fresh hc
      have he : d.entrySize = n := hle.entry.trans hfr.entry
      unfold Discriminator.jsonConfig Discriminator.withRamConfig
      rw [hd]
      show Except.ok (Json.obj [(b!"base", Json.int r.base), (b!"entrySize", Json.int d.entrySize),
        (b!"ignoreZero", Json.bool r.ignoreZero), (b!"mapping", Json.ofIntss d.mapping), (b!"version", Json.str version)]) = _
      rw [h1.izEq, h1.baseEq, he, hle.mapping]
  have hh : ∀ {K : Str → Prop} {Q : Json → Prop}, Closed2 K Q → Q j := by
    intro K Q h
    have : j = .obj (SMap.set (SMap.set (SMap.set (SMap.set (SMap.set [] b!"base" (.int o.base)) b!"entrySize" (.int n))
        b!"ignoreZero" (.bool o.ignoreZero)) b!"mapping" (Json.ofIntss d0.mapping)) b!"version" (.str version)) := rfl
    rw [this]
    exact h.set _ _ _ (h.set _ _ _ (h.set _ _ _ (h.set _ _ _ (h.set _ _ _ h.empty (h.lit rfl) (h.int _ hwf.baseI))
      (h.lit rfl) (h.int _ hr.1)) (h.lit rfl) (h.bool _)) (h.lit rfl) (h.ofIntss hr.2.2)) (h.lit rfl) (h.str _ (h.lit rfl))
  obtain ⟨t, h1, h2⟩ := C122_pretty_is_json ft (hh (held_closed ft)) (hh utf8_closed) 0
  refine ⟨t, ?_, h2, ?_⟩
  · unfold Discriminator.jsonConfigText
    rw [hj]
    exact h1
  · intro t' h'
    unfold Discriminator.ofText
    rw [C98_json_accepted ft h']
    obtain ⟨j', h3, h4⟩ := C35_discriminator_reload_throws hc hr ops fs
    rw [hj] at h3
    cases h3
    exact h4

/-- C122: `jsonConfig()` of a Wisard whose labels are UTF-8 is a JSON text for an object with its parameters and, for each
class, the size of the entry and the mapping. -/
theorem C122_wisard (ft : FloatText) {A : Int} {o : WisardOpts} (ho : OptRange A o) (ops : List WOp)
    (hr : ∀ l d, (wplay (Wisard.create A o) ops).1.discriminators.find l = some d → InI32 d.entrySize ∧
      ∀ m ∈ d.mapping, ∀ a ∈ m, InI32 a)
    (hl : ∀ l ∈ (wplay (Wisard.create A o) ops).1.discriminators.keys, Utf8 l) :
    let w := (wplay (Wisard.create A o) ops).1
    let classes : Json := if w.discriminators = [] then .null else .obj (w.discriminators.map (fun e => (e.1,
      .obj [(b!"entrySize", .int e.2.entrySize), (b!"mapping", Json.ofIntss e.2.mapping)])))
    ∃ t, w.jsonConfigText ft = .ok t ∧ ValueText ft t (.obj [(b!"addressSize", .int A), (b!"base", .int o.base),
      (b!"bleachingActivated", .bool o.bleachingActivated), (b!"classes", classes),
      (b!"completeAddressing", .bool o.completeAddressing), (b!"confidence", .int o.confidence),
      (b!"ignoreZero", .bool o.ignoreZero), (b!"indexes", Json.ofInts o.indexes),
      (b!"returnActivationDegree", .bool o.returnActivationDegree), (b!"returnClassesDegrees", .bool o.returnClassesDegrees),
      (b!"returnConfidence", .bool o.returnConfidence), (b!"verbose", .bool o.verbose), (b!"version", .str version)]) := by
  obtain ⟨h1, h2, h3⟩ := wplay_const (Wisard.create A o) rfl ops
  obtain ⟨oA, ob, oc, oi⟩ := ho
  have hcl : ∃ w : Wisard, w = (wplay (Wisard.create A o) ops).1 := ⟨_, rfl⟩
  obtain ⟨w, hw⟩ := hcl
  rw [← hw] at hr hl h1 h2 h3 ⊢
  intro w' classes
  have hc : Wisard.configClassesJson w.discriminators .null = .ok classes := by
    cases hd : w.discriminators with
    | nil =>
      show _ = Except.ok (if w.discriminators = [] then _ else _)
      rw [if_pos hd]
      rfl
    | cons e ds =>
      show _ = Except.ok (if w.discriminators = [] then _ else _)
      rw [if_neg (by rw [hd]; simp), ← hd]
      obtain ⟨l, d⟩ := e
      rw [hd] at h3
      obtain ⟨s1, s2⟩ := SMap.sorted_cons.mp h3
      rw [hd]
      simp only [Wisard.configClassesJson, Json.setKey, Except.bind_ok]
      rw [show SMap.set [] l d.getConfigJSON = [(l, d.getConfigJSON)] from rfl, configClassesJson_acc ds _ s2]
      · rfl
      · intro a ha e he
        simp only [List.mem_singleton] at ha
        subst ha
        exact s1 e he
  have hj : w.jsonConfig = .ok (.obj (cfgOf A o classes)) := by
    unfold Wisard.jsonConfig
    rw [hc, Except.bind_ok, ← getConfig_eq A o w.discriminators]
    have e : w = ⟨A, o, w.discriminators⟩ := by
      have h1' : w.addressSize = A := h1
      have h2' : w.opts = o := h2
      cases w
      simp only at h1' h2'
      subst h1' h2'
      rfl
    rw [← e]
  have hq : ∀ {K : Str → Prop} {Q : Json → Prop}, Closed2 K Q → (∀ l ∈ w.discriminators.keys, K l) →
      Q (.obj (cfgOf A o classes)) := by
    intro K Q h hk
    have key : ∀ (ds : SMap Discriminator) (c j : Json), (∀ e ∈ ds, K e.1 ∧ InI32 e.2.entrySize ∧
        ∀ m ∈ e.2.mapping, ∀ a ∈ m, InI32 a) → Q c → Wisard.configClassesJson ds c = .ok j → Q j := by
      intro ds
      induction ds with
      | nil => intro c j _ hc hj; cases hj; exact hc
      | cons e ds ih =>
        intro c j hd hc hj
        obtain ⟨l, d⟩ := e
        rw [Wisard.configClassesJson] at hj
        obtain ⟨c1, h4, hj⟩ := bind_eq_ok hj
        obtain ⟨k1, k2, k3⟩ := hd (l, d) (by simp)
        refine ih _ _ (fun e he => hd e (by simp [he])) (h.setKey hc k1 ?_ h4) hj
        have : d.getConfigJSON = .obj (SMap.set (SMap.set [] b!"entrySize" (.int d.entrySize)) b!"mapping"
          (Json.ofIntss d.mapping)) := rfl
        rw [this]
        exact h.set _ _ _ (h.set _ _ _ h.empty (h.lit rfl) (h.int _ k2)) (h.lit rfl) (h.ofIntss k3)
    have hcq : Q classes := by
      refine key w.discriminators .null classes ?_ h.null hc
      intro e he
      have := hr e.1 e.2 (SMap.find_of_mem h3 he)
      exact ⟨hk _ (List.mem_map_of_mem (f := (·.1)) he), this⟩
    refine h.setKey (c := Wisard.getConfig ⟨A, o, w.discriminators⟩) ?_ (h.lit rfl) hcq (getConfig_eq A o w.discriminators classes)
    unfold Wisard.getConfig
    apply h.ofList
    simp only [List.mem_cons, List.not_mem_nil, or_false, forall_eq_or_imp, forall_eq]
    exact ⟨⟨h.lit rfl, h.str _ (h.lit rfl)⟩, ⟨h.lit rfl, h.int _ oA⟩, ⟨h.lit rfl, h.bool _⟩, ⟨h.lit rfl, h.bool _⟩,
      ⟨h.lit rfl, h.ofInts oi⟩, ⟨h.lit rfl, h.bool _⟩, ⟨h.lit rfl, h.bool _⟩, ⟨h.lit rfl, h.int _ ob⟩, ⟨h.lit rfl, h.int _ oc⟩,
      ⟨h.lit rfl, h.bool _⟩, ⟨h.lit rfl, h.bool _⟩, ⟨h.lit rfl, h.bool _⟩⟩
  obtain ⟨t, k1, k2⟩ := C122_pretty_is_json ft (hq (held_closed ft) (fun _ _ => trivial)) (hq utf8_closed hl) 0
  refine ⟨t, ?_, k2⟩
  unfold Wisard.jsonConfigText
  rw [show w' = w from rfl, hj]
  exact k1

/-- C122: `jsonConfig()` of a ClusWisard is a JSON text; every JSON text for the same value (any layout, any order of
members) makes a new, untrained ClusWisard with the same parameters. -/
theorem C122_clusWisard (ft : FloatText) (f : Flt) {A : Int} {ms : Rat} {t dl : Int} {o : ClusOpts} {w0 : ClusWisard}
    (hm : FloatOk ft ms) (h0 : ClusWisard.create A ms t dl o = .ok w0) (hr : CRange A t dl o) (ops : List COp) (fs : Fs) :
    ∃ text j, (cplay f w0 ops).1.jsonConfigText ft = .ok text ∧ ValueText ft text j ∧
      ∀ text', DocText ft text' j → ∃ w', ClusWisard.ofText ft fs text' = .ok w' ∧
        ClusWisard.create A ms t dl { o with searchBestConfidence := false } = .ok w' ∧ CIndistinguishable f w0 w' := by
  obtain ⟨w', h1, h2, h3⟩ := C79_config_roundtrip f h0 hr ops fs
  have hw : WInv f w0 _ (cplay f w0 ops).1 := WInv.play h0 ops
  have hc : (cplay f w0 ops).1.jsonConfig = w0.jsonConfig := by rw [hw.const]; rfl
  have hq : ∀ {K : Str → Prop} {Q : Json → Prop}, Closed2 K Q → Q (.real ms) → Q w0.jsonConfig := by
    intro K Q h hms
    obtain ⟨hA, ht, hdl, hb, hcf⟩ := hr
    obtain ⟨rfl, _⟩ := create_shape h0
    unfold ClusWisard.jsonConfig ClusWisard.getConfig
    apply h.ofList
    simp only [List.mem_cons, List.not_mem_nil, or_false, forall_eq_or_imp, forall_eq]
    exact ⟨⟨h.lit rfl, h.str _ (h.lit rfl)⟩, ⟨h.lit rfl, h.int _ hA⟩, ⟨h.lit rfl, hms⟩, ⟨h.lit rfl, h.int _ ht⟩,
      ⟨h.lit rfl, h.int _ hdl⟩, ⟨h.lit rfl, h.bool _⟩, ⟨h.lit rfl, h.bool _⟩, ⟨h.lit rfl, h.bool _⟩, ⟨h.lit rfl, h.bool _⟩,
      ⟨h.lit rfl, h.int _ hb⟩, ⟨h.lit rfl, h.int _ hcf⟩, ⟨h.lit rfl, h.bool _⟩, ⟨h.lit rfl, h.bool _⟩, ⟨h.lit rfl, h.bool _⟩⟩
  rw [hc] at h1
  obtain ⟨text, k1, k2⟩ := C122_pretty_is_json ft (hq (held_closed ft) (.real hm)) (hq utf8_closed (.real _)) 0
  refine ⟨text, w0.jsonConfig, ?_, k2, ?_⟩
  · unfold ClusWisard.jsonConfigText
    rw [hc]
    exact k1
  · intro text' h'
    refine ⟨w', ?_, h2, h3⟩
    unfold ClusWisard.ofText
    simp only [C98_json_accepted ft h', Except.bind_ok]
    exact h1

/-! ## Examples -/

/-- A value, pretty printed. -/
example : dumpPretty ft2 0 (.obj [(b!"a", .arr []), (b!"b", .arr [.int 1, .obj [(b!"c", .null)]])]) =
    .ok b!"{\n  \"a\": [],\n  \"b\": [\n    1,\n    {\n      \"c\": null\n    }\n  ]\n}" := rfl

/-- A trained discriminator for C122. -/
example : ∃ d0, Discriminator.create Rnd.id 2 4 {} = .ok d0 ∧ IntRange 4 2 d0.mapping ∧
    (play d0 [.train (.vec [1, 0, 1, 1])]).1.jsonConfigText ft2 =
      .ok b!"{\n  \"base\": 2,\n  \"entrySize\": 4,\n  \"ignoreZero\": false,\n  \"mapping\": [\n    [\n      0,\n      1\n    ],\n    [\n      2,\n      3\n    ]\n  ],\n  \"version\": \"1.6.3\"\n}" :=
  ⟨_, rfl, by unfold IntRange; decide, rfl⟩

/-- A Wisard with two classes for C122. -/
example : OptRange 2 exOpts ∧ (wplay (Wisard.create 2 exOpts) exOps).1.discriminators.keys = [b!"a", b!"b"] ∧
    ∀ l d, (wplay (Wisard.create 2 exOpts) exOps).1.discriminators.find l = some d → InI32 d.entrySize ∧
      ∀ m ∈ d.mapping, ∀ a ∈ m, InI32 a := by
  refine ⟨by unfold OptRange; decide, by decide, ?_⟩
  intro l d h
  have : ∀ e ∈ (wplay (Wisard.create 2 exOpts) exOps).1.discriminators, InI32 e.2.entrySize ∧
      ∀ m ∈ e.2.mapping, ∀ a ∈ m, InI32 a := by decide
  exact this (l, d) (SMap.mem_of_find h)

end Wis
