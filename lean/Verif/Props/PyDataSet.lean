import Verif.Props.PyObjects
/-!
# C157: a data set filled, saved and loaded from Python
-/

namespace Wis
open Spec PyBind

theorem fill_total : ∀ (vs : List Int) (b : BinInput) (i : Nat), BinInput.WF b → i + vs.length ≤ b.size → ∃ b', BinInput.fill b i vs = .ok b' := by
  intro vs
  induction vs with
  | nil => intro b i _ _; exact ⟨b, rfl⟩
  | cons v vs ih =>
    intro b i hw h
    simp only [List.length_cons] at h
    have h1 := BinInput.set_ok hw (i := i) (by omega) v
    obtain ⟨b', hb'⟩ := ih (b.set i v).1 (i + 1) (BinInput.set_fst_wf hw i v) (by rw [BinInput.set_fst_size]; omega)
    refine ⟨b', ?_⟩
    simp only [BinInput.fill]
    rw [show b.set i v = ((b.set i v).1, .ok ()) from Prod.ext rfl h1]
    exact hb'

/-- A list of any integers gives a BinInput. -/
theorem ofList_total (v : List Int) (hlen : v.length < 2 ^ 62) : ∃ b, BinInput.ofList v = .ok b :=
  fill_total v _ 0 (BinInput.ofSize_wf hlen) (by rw [BinInput.ofSize_size hlen]; omega)

/-- One call of `add`: it adds the entry it asks for, or raises `TypeError` and changes nothing. -/
theorem add_call (L : PyLib) (d : DataSet) (args : List PyVal) (hlen : ∀ x v, x ∈ args → PyShorts x v → v.length < 2 ^ 62) :
    (∃ b l, AddAsks args b l ∧ d.pyAddCall L args = (d.add b l, .ok ())) ∨
    ((∀ b l, ¬ AddAsks args b l) ∧ d.pyAddCall L args = (d, .raised .typeError)) := by
  cases h : d.pyAdd L args with
  | none =>
    right
    refine ⟨?_, by simp only [DataSet.pyAddCall, h]; rfl⟩
    intro b l ha
    have hr : ∃ r, d.pyAdd L args = some r := by
      cases ha with
      | bin b => exact ⟨_, (C145_dataSet L d _ _).mpr (.inl ⟨b, rfl, rfl⟩)⟩
      | binLabel hy => exact ⟨_, (C145_dataSet L d _ _).mpr (.inr (.inl ⟨_, _, _, rfl, hy, rfl⟩))⟩
      | list hx _ => exact ⟨_, (C145_dataSet L d _ _).mpr (.inr (.inr (.inl ⟨_, _, rfl, hx, rfl⟩)))⟩
      | listLabel hx hy _ => exact ⟨_, (C145_dataSet L d _ _).mpr (.inr (.inr (.inr ⟨_, _, _, _, rfl, hx, hy, rfl⟩)))⟩
    obtain ⟨r, hr⟩ := hr
    rw [h] at hr; cases hr
  | some r =>
    left
    rcases (C145_dataSet L d args r).mp h with ⟨b, rfl, rfl⟩ | ⟨b, y, l, rfl, hy, rfl⟩ | ⟨x, v, rfl, hx, rfl⟩ | ⟨x, y, v, l, rfl, hx, hy, rfl⟩
    · exact ⟨b, [], .bin b, by simp only [DataSet.pyAddCall, h]⟩
    · exact ⟨b, l, .binLabel hy, by simp only [DataSet.pyAddCall, h]⟩
    · obtain ⟨b, hb⟩ := ofList_total v (hlen x v (by simp) hx)
      refine ⟨b, [], .list hx hb, ?_⟩
      simp only [DataSet.pyAddCall, h, hb, Except.map]
    · obtain ⟨b, hb⟩ := ofList_total v (hlen x v (by simp) hx)
      refine ⟨b, l, .listLabel hx hy hb, ?_⟩
      simp only [DataSet.pyAddCall, h, hb, Except.map]

/-- What a call of `add` contributes, given its reply. -/
def Spec.Added (args : List PyVal) (reply : PyRes Unit) (p : Option (BinInput × Str)) : Prop :=
  (∃ b l, p = some (b, l) ∧ AddAsks args b l ∧ reply = .ok ()) ∨
  (p = none ∧ (∀ b l, ¬ AddAsks args b l) ∧ reply = .raised .typeError)

/-- **C157**: after any calls of `add` from Python the data set holds the entries asked for by the calls that returned, in
order; the others raised `TypeError` and left no trace. -/
theorem C157_session (L : PyLib) : ∀ (calls : List (List PyVal)) (d : DataSet),
    (∀ args ∈ calls, ∀ x v, x ∈ args → PyShorts x v → v.length < 2 ^ 62) →
    ∃ parts : List (Option (BinInput × Str)), parts.length = calls.length ∧ (d.pyAdds L calls).2.length = calls.length ∧
      (∀ (i : Nat) args reply p, calls[i]? = some args → (d.pyAdds L calls).2[i]? = some reply → parts[i]? = some p → Added args reply p) ∧
      (d.pyAdds L calls).1 = (parts.filterMap id).foldl (fun d e => d.add e.1 e.2) d := by
  intro calls
  induction calls with
  | nil =>
    intro d _
    refine ⟨[], rfl, rfl, ?_, rfl⟩
    intro i args reply p h
    simp at h
  | cons args calls ih =>
    intro d hlen
    rcases add_call L d args (hlen args (by simp)) with ⟨b, l, ha, hc⟩ | ⟨ha, hc⟩
    · obtain ⟨parts, h1, h2, h3, h4⟩ := ih (d.add b l) fun a ha' => hlen a (by simp [ha'])
      refine ⟨some (b, l) :: parts, by simp [h1], by simp [DataSet.pyAdds, hc, h2], ?_, ?_⟩
      · intro i args' reply p k1 k2 k3
        simp only [DataSet.pyAdds, hc] at k2
        cases i with
        | zero =>
          simp only [List.getElem?_cons_zero, Option.some.injEq] at k1 k2 k3
          subst k1 k2 k3
          exact .inl ⟨b, l, rfl, ha, rfl⟩
        | succ i => exact h3 i args' reply p (by simpa using k1) (by simpa using k2) (by simpa using k3)
      · simp only [DataSet.pyAdds, hc, h4]
        simp
    · obtain ⟨parts, h1, h2, h3, h4⟩ := ih d fun a ha' => hlen a (by simp [ha'])
      refine ⟨none :: parts, by simp [h1], by simp [DataSet.pyAdds, hc, h2], ?_, ?_⟩
      · intro i args' reply p k1 k2 k3
        simp only [DataSet.pyAdds, hc] at k2
        cases i with
        | zero =>
          simp only [List.getElem?_cons_zero, Option.some.injEq] at k1 k2 k3
          subst k1 k2 k3
          exact .inr ⟨rfl, ha, rfl⟩
        | succ i => exact h3 i args' reply p (by simpa using k1) (by simpa using k2) (by simpa using k3)
      · simp only [DataSet.pyAdds, hc, h4]
        simp

/-- Good calls one by one. -/
theorem good_adds (L : PyLib) : ∀ (calls : List (List PyVal)) (es : List (List Int × List Nat)) (d : DataSet),
    List.Forall₂ (fun args e => GoodAdd args e.1 e.2) calls es →
    ∃ hist : List (BinInput × Str), d.pyAdds L calls = (hist.foldl (fun d e => d.add e.1 e.2) d, calls.map fun _ => .ok ()) ∧
      List.Forall₂ (fun (e : List Int × List Nat) (h : BinInput × Str) =>
        BinInput.ofList e.1 = .ok h.1 ∧ Utf8Of e.2 h.2 ∧ h.2 ≠ [] ∧ e.1.length < 2 ^ 62 ∧ ∀ v ∈ e.1, v = 0 ∨ v = 1) es hist := by
  intro calls
  induction calls with
  | nil => intro es d h; cases h; exact ⟨[], rfl, .nil⟩
  | cons args calls ih =>
    intro es d h
    cases h with
    | @cons _ e _ es hg h =>
      obtain ⟨x, l, rfl, hx, h01, hlen, hu, hne⟩ := hg
      obtain ⟨b, hb, _⟩ := BinInput.ofList_spec e.1 hlen h01
      have hc : d.pyAddCall L [x, .str e.2] = (d.add b l, .ok ()) := by
        have := (C145_dataSet L d [x, .str e.2] _).mpr (.inr (.inr (.inr ⟨x, _, e.1, l, rfl, hx, .str hu, rfl⟩)))
        simp only [DataSet.pyAddCall, this, hb, Except.map]
      obtain ⟨hist, h1, h2⟩ := ih es (d.add b l) h
      refine ⟨(b, l) :: hist, ?_, .cons ⟨hb, hu, ?_, hlen, h01⟩ h2⟩
      · simp only [DataSet.pyAdds, hc, h1, List.foldl_cons, List.map_cons]
      · rintro rfl
        have h0 := decode_of hu
        simp only [decode, Option.some.injEq] at h0
        exact hne h0.symm

/-- **C157**: a data set filled from Python with images of zeros and ones and labels (`str`), saved under a new name and loaded again,
holds the same images with the same labels. -/
theorem C157_program (L : PyLib) (calls : List (List PyVal)) (es : List (List Int × List Nat))
    (hg : List.Forall₂ (fun args e => GoodAdd args e.1 e.2) calls es) (hne : calls ≠ []) (hmax : calls.length ≤ 2147483647) (fs : Fs)
    (x y : PyVal) (p : Str) (hx : PyText x p) (hy : PyText y (p ++ b!".wpkds")) (hfresh : fs (p ++ b!".wpkds") = none) :
    let d := (({} : DataSet).pyAdds L calls).1
    (({} : DataSet).pyAdds L calls).2 = calls.map (fun _ => .ok ()) ∧
    ∃ fs' d', d.pySave L fs [x] = .ok (d, fs') ∧ (∀ n, n ≠ p ++ b!".wpkds" → fs' n = fs n) ∧ DataSet.py L fs' [y] = .ok d' ∧
      ∀ d'' : DataSet, d'' = d ∨ d'' = d' → d''.pySize L [] = .ok calls.length ∧
        ∀ (i : Nat) (e : List Int × List Nat), es[i]? = some e → d''.pyGetLabel L [.int i] = .ok e.2 ∧
          ∃ b, d''.pyGet L [.int i] = .ok b ∧ b.pySize L [] = .ok e.1.length ∧
            ∀ (j : Nat) (v : Int), e.1[j]? = some v → b.pyGet L [.int j] = .ok v := by
  obtain ⟨hist, h1, h2⟩ := good_adds L calls es {} hg
  intro d
  have hd : d = hist.foldl (fun d e => d.add e.1 e.2) {} := (congrArg Prod.fst h1)
  have hlen : hist.length = calls.length := by rw [← h2.length_eq, ← hg.length_eq]
  have hlab : ∀ e ∈ hist, e.2 ≠ [] := by
    intro e he
    obtain ⟨i, hi, rfl⟩ := List.getElem_of_mem he
    exact (List.forall₂_iff_get.mp h2).2 i (by rw [h2.length_eq]; exact hi) hi |>.2.2.1
  have hnil : hist ≠ [] := by
    rintro rfl
    exact hne (List.length_eq_zero_iff.mp hlen.symm)
  obtain ⟨d1, fs', d2, k1, k2, k3, k4, k5, k6⟩ := C07_dataset_save_load hist hnil hlab fs p hfresh
  obtain ⟨q1, q2, _⟩ := C08_dataset_append_only hist
  refine ⟨by rw [h1], fs', d2, ?_, k3, ?_, ?_⟩
  · rw [((C145_dataSet_save L d fs).1 [x]).1 _ ⟨x, p, rfl, hx, rfl⟩, hd, k1, k2]; rfl
  · rw [(C145_dataSet_new L fs' [y]).1 _ (.inr ⟨y, _, rfl, hy, rfl⟩), k4]; rfl
  · intro d'' hd''
    have hs : d''.size = hist.length := by
      rcases hd'' with rfl | rfl
      · rw [hd]; exact q1
      · exact k5
    have hget : ∀ i (h : i < hist.length), d''.get i = .ok hist[i].1 ∧ d''.getLabel i = .ok hist[i].2 := by
      intro i h
      rcases hd'' with rfl | rfl
      · rw [hd]
        refine ⟨(q2 i h).1, ?_⟩
        rw [(q2 i h).2, labelResult, if_neg (hlab _ (List.getElem_mem h))]
      · exact k6 i h
    refine ⟨?_, ?_⟩
    · rw [((C145_dataSet_save L d'' fs).2 []).1 _ ⟨rfl, rfl⟩, hs, hlen]
    · intro i e he
      have hi : i < hist.length := by
        have := (List.getElem?_eq_some_iff.mp he).1
        rw [h2.length_eq] at this; exact this
      obtain ⟨g1, g2⟩ := hget i hi
      have hie : i < es.length := by rw [h2.length_eq]; exact hi
      obtain ⟨r1, r2, _, r4, r5⟩ := (List.forall₂_iff_get.mp h2).2 i hie hi
      have hee : es.get ⟨i, hie⟩ = e := (List.getElem?_eq_some_iff.mp he).2
      rw [hee] at r1 r2 r4 r5
      simp only [List.get_eq_getElem] at r1 r2
      obtain ⟨b, s1, _, s3, s4⟩ := BinInput.ofList_spec e.1 r4 r5
      rw [r1] at s1
      cases s1
      refine ⟨?_, hist[i].1, ?_, ?_, ?_⟩
      · rw [(C145_dataSet_getLabel L d'' _).1 _ ⟨_, i, rfl, ⟨.int _, by omega⟩, rfl⟩, DataSet.getLabelAt,
          Nat.mod_eq_of_lt (by omega), if_pos (by omega), g2]
        simp only [PyRes.of, PyRes.text, PyRes.convert, decode_of r2]
      · rw [(C145_dataSet_get L d'' _).1 _ ⟨_, i, rfl, ⟨.int _, by omega, by omega⟩, rfl⟩, g1]; rfl
      · rw [((C145_binInput_data L _).1 []).1 _ ⟨rfl, rfl⟩, s3]
      · intro j v hj
        obtain ⟨hj', rfl⟩ := List.getElem?_eq_some_iff.mp hj
        rw [pyGet_index L _ (by omega), s4 j hj']; rfl

/-- `d.add([1, 0, 1], "é")`, `d.save("x")`, `DataSet("x.wpkds")`. -/
example : List.Forall₂ (fun args (e : List Int × List Nat) => GoodAdd args e.1 e.2)
    [[.list [.int 1, .bool false, .int 1], .str [233]]] [([1, 0, 1], [233])] ∧ PyText (.str [120]) b!"x" ∧
    PyText (.str [120, 46, 119, 112, 107, 100, 115]) (b!"x" ++ b!".wpkds") ∧ (fun _ => none : Fs) (b!"x" ++ b!".wpkds") = none :=
  ⟨.cons ⟨_, [0xC3, 0xA9], rfl, (ints_ok (L := ⟨id, fun i => some i, true⟩) (by decide) (by decide)).mp rfl, by decide, by decide,
    encode_iff.mp (by decide +kernel), by decide⟩ .nil, .str (encode_iff.mp (by decide +kernel)), .str (encode_iff.mp (by decide +kernel)), rfl⟩

end Wis
