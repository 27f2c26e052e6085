import Verif.Model.DataSet
import Verif.Lemmas.BinInput
/-! Helper lemmas for DataSet and its file format. -/

namespace Wis
open Spec

theorem getline_append_dot (a b : Str) (h : c!"." ∉ a) :
    getline (a ++ c!"." :: b) = (a, some b) := by
  induction a with
  | nil => simp [getline]
  | cons c a ih =>
    simp only [List.mem_cons, not_or] at h
    simp only [List.cons_append, getline]
    rw [if_neg (fun e => h.1 e.symm), ih h.2]

theorem getline_no_dot (a : Str) (h : c!"." ∉ a) : getline a = (a, none) := by
  induction a with
  | nil => simp [getline]
  | cons c a ih =>
    simp only [List.mem_cons, not_or] at h
    simp only [getline]
    rw [if_neg (fun e => h.1 e.symm), ih h.2]

theorem findFrom_append (a b : Str) (c : Byte) (h : c ∉ a) :
    Str.findFrom (a ++ c :: b) c 0 = some a.length := by
  unfold Str.findFrom
  have : (a ++ c :: b).findIdx? (· == c) = some a.length := by
    induction a with
    | nil => simp [List.findIdx?_cons]
    | cons x a ih =>
      simp only [List.mem_cons, not_or] at h
      simp only [List.cons_append, List.findIdx?_cons, beq_iff_eq]
      rw [if_neg (fun e => h.1 e.symm), ih h.2]
      simp
  simp [this]

namespace DataSet

/-- The data set built by the calls `add(b, l)` for `(b, l)` in order. -/
def build (hist : List (BinInput × Str)) : DataSet := hist.foldl (fun d e => d.add e.1 e.2) {}

/-- Text of one record. -/
def record (e : BinInput × Str) : Str :=
  b64 e.2 ++ b!"#" ++ b64 (e.1.remain :: e.1.input)

theorem record_no_dot (e : BinInput × Str) : c!"." ∉ record e := by
  unfold record
  simp only [List.mem_append, not_or]
  exact ⟨⟨Base64.b64_no_dot _, by decide⟩, Base64.b64_no_dot _⟩

theorem parseRecord_record (e : BinInput × Str) (h : e.2 ≠ []) :
    parseRecord (record e) = .ok e := by
  unfold parseRecord
  have hf : Str.findFrom (record e) c!"#" 0 = some (b64 e.2).length := by
    unfold record
    rw [List.append_assoc]
    exact findFrom_append _ _ _ (Base64.b64_no_sharp _)
  obtain ⟨s, hs1, hs2⟩ := BinInput.ofData_data e.1
  have hs : s = b64 (e.1.remain :: e.1.input) := by
    unfold BinInput.data at hs1
    rw [Base64.encode_eq] at hs1
    exact (Except.ok.inj hs1).symm
  subst hs
  have h1 : Str.substr (record e) 0 (b64 e.2).length = .ok (b64 e.2) := by
    simp [Str.substr, record]
  have h2 : Str.substr (record e) ((b64 e.2).length + 1) ((record e).length - ((b64 e.2).length + 1))
      = .ok (b64 (e.1.remain :: e.1.input)) := by
    have hr : record e = (b64 e.2 ++ b!"#") ++ b64 (e.1.remain :: e.1.input) := rfl
    have hl : (b64 e.2 ++ b!"#").length = (b64 e.2).length + 1 := by simp
    rw [← hl]
    unfold Str.substr
    rw [if_pos (by rw [hr]; simp only [List.length_append]; omega)]
    rw [hr, List.drop_left, List.take_of_length_le (by simp only [List.length_append]; omega)]
  rw [hf]
  simp only [h1, h2, Except.bind_ok, pure, Except.pure]
  rw [Base64.decode_b64 _ h, Except.bind_ok, hs2]
  rfl

theorem parseRecord_unlabelled (e : BinInput × Str) (h : e.2 = []) :
    parseRecord (record e) = .error (.ub .outOfBounds) := by
  unfold parseRecord
  have hf : Str.findFrom (record e) c!"#" 0 = some 0 := by
    unfold record
    rw [h]
    exact findFrom_append [] _ _ (by simp)
  rw [hf]
  have h1 : Str.substr (record e) 0 0 = .ok [] := by simp [Str.substr]
  have h2 : ∃ s, Str.substr (record e) (0 + 1) ((record e).length - (0 + 1)) = .ok s := by
    simp [Str.substr, record, h, b64]
  obtain ⟨s, h2⟩ := h2
  simp only [h1, h2, Except.bind_ok, pure, Except.pure, Base64.decode_nil]
  rfl

/-! ### Labels -/

theorem label?_add (d : DataSet) (b : BinInput) (l : Str) (i : Nat)
    (hfresh : ∀ e ∈ d.labels, e.1 < d.data.length) :
    (d.add b l).label? i = if i = d.data.length ∧ l ≠ [] then some l else d.label? i := by
  unfold add label?
  have hno : d.labels.any (·.1 == d.data.length) = false := by
    rw [List.any_eq_false]
    intro e he
    have := hfresh e he
    simp; omega
  by_cases hl : l = []
  · simp [hl]
  · have : l.length > 0 := List.length_pos_iff.mpr hl
    simp only [this, if_true, setLabel, hno, Bool.false_eq_true, if_false, List.find?_append]
    by_cases hi : i = d.data.length
    · subst hi
      have : d.labels.find? (·.1 == d.data.length) = none := by
        rw [List.find?_eq_none]
        intro e he
        have := hfresh e he
        simp; omega
      simp [this, hl]
    · simp [hi, Ne.symm hi]

/-- Invariant of histories. -/
theorem build_append (hist : List (BinInput × Str)) (e : BinInput × Str) :
    build (hist ++ [e]) = (build hist).add e.1 e.2 := by
  simp [build]

theorem reverse_ind {α : Type} {P : List α → Prop} (h0 : P []) (h1 : ∀ l a, P l → P (l ++ [a])) :
    ∀ l, P l := by
  intro l
  rw [← List.reverse_reverse l]
  induction l.reverse with
  | nil => exact h0
  | cons a l ih => rw [List.reverse_cons]; exact h1 _ _ ih

theorem build_inv (hist : List (BinInput × Str)) :
    (build hist).data = hist.map (·.1) ∧
    (∀ e ∈ (build hist).labels, e.1 < (build hist).data.length) ∧
    (∀ i, (build hist).label? i =
      (hist[i]?).bind (fun e => if e.2 = [] then none else some e.2)) := by
  induction hist using reverse_ind with
  | h0 => simp [build, label?]
  | h1 hist e ih =>
    obtain ⟨h1, h2, h3⟩ := ih
    rw [build_append]
    refine ⟨by simp [add, h1], ?_, ?_⟩
    · intro x hx
      unfold add at hx
      simp only [add, List.length_append, List.length_cons, List.length_nil]
      simp only at hx
      split at hx
      · unfold setLabel at hx
        split at hx
        · simp only [List.mem_map] at hx
          obtain ⟨y, hy, hxy⟩ := hx
          have := h2 y hy
          split at hxy
          · subst hxy; simp
          · subst hxy; omega
        · simp only [List.mem_append, List.mem_singleton] at hx
          rcases hx with hx | hx
          · have := h2 x hx; omega
          · subst hx; simp
      · have := h2 x hx; omega
    · intro i
      rw [label?_add _ _ _ _ h2, h3]
      have hl : (build hist).data.length = hist.length := by simp [h1]
      rw [hl]
      by_cases hi : i = hist.length
      · subst hi
        by_cases he : e.2 = []
        · simp [he]
        · simp [he]
      · rw [if_neg (by omega)]
        by_cases hlt : i < hist.length
        · simp [List.getElem?_append_left hlt]
        · have h1 : hist[i]? = none := List.getElem?_eq_none (by omega)
          have h2 : (hist ++ [e])[i]? = none := List.getElem?_eq_none (by simp; omega)
          rw [h1, h2]

theorem find?_of_label? {ls : List (Nat × Str)} {i : Nat} :
    (ls.find? (·.1 == i)).map (·.2) = ({ labels := ls } : DataSet).label? i := rfl

/-! ### Saving -/

/-- Text written for entries from index `i` on. -/
def recordsText : List (BinInput × Str) → Nat → Str
  | [], _ => []
  | e :: es, i => (if i ≠ 0 then b!"." else []) ++ record e ++ recordsText es (i + 1)

/-- the label of entry `i`, empty if none, in a raw label map -/
def lab (ls : List (Nat × Str)) (i : Nat) : Str := ((ls.find? (·.1 == i)).map (·.2)).getD []

/-- Effect of saving on the label map: absent labels become empty ones. -/
theorem saveLoop_spec (es : List (BinInput × Str)) : ∀ (i : Nat) (ls : List (Nat × Str)),
    (∀ k (h : k < es.length), lab ls (i + k) = es[k].2) →
    ∃ ls', saveLoop (es.map (·.1)) i ls = .ok (ls', recordsText es i) ∧
      (∀ j, (ls'.find? (·.1 == j)).map (·.2) =
        match (ls.find? (·.1 == j)).map (·.2) with
        | some l => some l
        | none => if i ≤ j ∧ j < i + es.length then some [] else none) ∧
      ((∀ k, k < es.length → ∃ l, (ls.find? (·.1 == (i + k))) = some l) → ls' = ls) := by
  induction es with
  | nil =>
    intro i ls _
    refine ⟨ls, rfl, ?_, fun _ => rfl⟩
    intro j
    cases h : (ls.find? (·.1 == j)).map (·.2) with
    | some l => rfl
    | none =>
      have : ¬ (i ≤ j ∧ j < i + ([] : List (BinInput × Str)).length) := by simp
      simp only [if_neg this]
  | cons e es ih =>
    intro i ls hl
    have h0 : lab ls i = e.2 := hl 0 (by simp)
    simp only [List.map_cons, saveLoop]
    cases hf : ls.find? (·.1 == i) with
    | some x =>
      have hx : x.2 = e.2 := by simpa [lab, hf] using h0
      simp only
      obtain ⟨ls', h1, h2, h3⟩ := ih (i + 1) ls (by
        intro k hk
        have := hl (k + 1) (by simp; omega)
        simp only [List.getElem_cons_succ] at this
        rw [← this]; congr 1; omega)
      refine ⟨ls', ?_, ?_, ?_⟩
      · rw [Base64.encode_eq]
        simp only [BinInput.data, Base64.encode_eq, Except.bind_ok, h1]
        simp [recordsText, record, hx]
      · intro j
        rw [h2 j]
        cases hj : (ls.find? (·.1 == j)).map (·.2) with
        | some l => rfl
        | none =>
          have : j ≠ i := by
            intro hji; subst hji; simp [hf] at hj
          simp only [List.length_cons]
          congr 1
          simp only [eq_iff_iff]
          omega
      · intro hall
        exact h3 (fun k hk => by
          have := hall (k + 1) (by simp; omega)
          rw [show i + 1 + k = i + (k + 1) by omega]; exact this)
    | none =>
      have hx : e.2 = [] := by simpa [lab, hf] using h0.symm
      simp only
      have happ : ∀ j, ((ls ++ [(i, ([] : Str))]).find? (·.1 == j)).map (·.2) =
          match (ls.find? (·.1 == j)).map (·.2) with
          | some l => some l
          | none => if i = j then some [] else none := by
        intro j
        rw [List.find?_append]
        cases hj : ls.find? (·.1 == j) with
        | some l => simp
        | none =>
          by_cases hij : i = j
          · simp [hij]
          · simp [hij]
      obtain ⟨ls', h1, h2, h3⟩ := ih (i + 1) (ls ++ [(i, [])]) (by
        intro k hk
        have := hl (k + 1) (by simp; omega)
        simp only [List.getElem_cons_succ] at this
        rw [← this]
        unfold lab
        rw [happ, show i + 1 + k = i + (k + 1) by omega]
        cases (ls.find? (·.1 == (i + (k + 1)))).map (·.2) with
        | some l => rfl
        | none => simp)
      refine ⟨ls', ?_, ?_, ?_⟩
      · rw [Base64.encode_eq]
        simp only [BinInput.data, Base64.encode_eq, Except.bind_ok, h1]
        simp [recordsText, record, hx]
      · intro j
        rw [h2 j, happ j]
        cases hj : (ls.find? (·.1 == j)).map (·.2) with
        | some l => rfl
        | none =>
          simp only [List.length_cons]
          by_cases hij : i = j
          · subst hij; simp
          · simp only [hij, if_false]
            congr 1
            simp only [eq_iff_iff]
            omega
      · intro hall
        obtain ⟨l, h⟩ := hall 0 (by simp)
        rw [Nat.add_zero, hf] at h
        exact absurd h (by simp)

/-! ### Loading -/

/-- Tail of the text: records each preceded by a dot. -/
def dotted (es : List (BinInput × Str)) : Str := es.flatMap (fun e => c!"." :: record e)

theorem recordsText_succ (es : List (BinInput × Str)) (i : Nat) :
    recordsText es (i + 1) = dotted es := by
  induction es generalizing i with
  | nil => rfl
  | cons e es ih =>
    simp only [recordsText, dotted, List.flatMap_cons]
    rw [ih (i + 1)]
    simp [dotted]

theorem recordsText_zero (e : BinInput × Str) (es : List (BinInput × Str)) :
    recordsText (e :: es) 0 = record e ++ dotted es := by
  simp [recordsText, recordsText_succ]

theorem getline_record (e : BinInput × Str) (es : List (BinInput × Str)) :
    getline (record e ++ dotted es) =
      (record e, match es with | [] => none | e' :: es' => some (record e' ++ dotted es')) := by
  cases es with
  | nil => simp [dotted, getline_no_dot _ (record_no_dot e)]
  | cons e' es' =>
    simp only [dotted, List.flatMap_cons, List.cons_append]
    rw [getline_append_dot _ _ (record_no_dot e)]

theorem loadLoop_unfold (d : DataSet) (rest : Str) :
    loadLoop d rest = match parseRecord (getline rest).1 with
      | .error e => .error e
      | .ok (b, label) =>
        match (getline rest).2 with
        | none => .ok (d.add b label)
        | some r => loadLoop (d.add b label) r := by
  rw [loadLoop]
  split
  · rename_i h; simp only [h]
  · rename_i h0
    split
    · rename_i h; simp only [h0, h]
    · rename_i h; simp only [h0, h]

theorem loadLoop_spec (es : List (BinInput × Str)) : ∀ (e : BinInput × Str) (d : DataSet),
    (∀ x ∈ e :: es, x.2 ≠ []) →
    loadLoop d (record e ++ dotted es) = .ok ((e :: es).foldl (fun d x => d.add x.1 x.2) d) := by
  induction es with
  | nil =>
    intro e d h
    rw [loadLoop_unfold, getline_record]
    simp only [parseRecord_record e (h e (by simp))]
    rfl
  | cons e' es ih =>
    intro e d h
    rw [loadLoop_unfold, getline_record]
    simp only [parseRecord_record e (h e (by simp))]
    rw [ih e' _ (fun x hx => h x (List.mem_cons_of_mem _ hx))]
    rfl

theorem loadLoop_ub (es : List (BinInput × Str)) : ∀ (e : BinInput × Str) (d : DataSet),
    (∃ x ∈ e :: es, x.2 = []) →
    loadLoop d (record e ++ dotted es) = .error (.ub .outOfBounds) := by
  induction es with
  | nil =>
    intro e d h
    have : e.2 = [] := by simpa using h
    rw [loadLoop_unfold, getline_record]
    simp only [parseRecord_unlabelled e this]
  | cons e' es ih =>
    intro e d h
    rw [loadLoop_unfold, getline_record]
    by_cases he : e.2 = []
    · simp only [parseRecord_unlabelled e he]
    · simp only [parseRecord_record e he]
      apply ih
      obtain ⟨x, hx, hx2⟩ := h
      rcases List.mem_cons.mp hx with h | h
      · subst h; exact absurd hx2 he
      · exact ⟨x, h, hx2⟩

theorem getline_none_count (s : Str) (h : (getline s).2 = none) : s.count c!"." = 0 := by
  rw [List.count_eq_zero]
  intro hm
  obtain ⟨a, c, hac⟩ := List.append_of_mem hm
  have : ∀ a c : Str, (getline (a ++ c!"." :: c)).2 ≠ none := by
    intro a c
    induction a with
    | nil => simp [getline]
    | cons x a ih =>
      simp only [List.cons_append, getline]
      split
      · simp
      · exact ih
  exact this a c (by rw [← hac, h])

theorem getline_some_count (s r : Str) (h : (getline s).2 = some r) :
    s.count c!"." = r.count c!"." + 1 := by
  induction s with
  | nil => simp [getline] at h
  | cons x s ihs =>
    simp only [getline] at h
    split at h
    · rename_i hx
      simp only [Option.some.injEq] at h
      subst hx
      simp [h]
    · rename_i hx
      rw [List.count_cons, ihs h]
      simp [hx]

theorem loadLoop_count (d d' : DataSet) (s : Str) (h : loadLoop d s = .ok d') :
    d'.data.length = d.data.length + s.count c!"." + 1 := by
  generalize hn : s.length = n
  induction n using Nat.strongRecOn generalizing d s with
  | _ n ih =>
    rw [loadLoop_unfold] at h
    cases hp : parseRecord (getline s).1 with
    | error e => simp [hp] at h
    | ok bl =>
      simp only [hp] at h
      cases hg : (getline s).2 with
      | none =>
        simp only [hg, Except.ok.injEq] at h
        subst h
        rw [getline_none_count _ hg]
        simp [add]
      | some r =>
        simp only [hg] at h
        have := ih r.length (by rw [← hn]; exact getline_rest_length _ _ _ (Prod.ext rfl hg)) _ _ h rfl
        rw [this, getline_some_count _ _ hg]
        simp [add]; omega

theorem count_dotted (es : List (BinInput × Str)) : (dotted es).count c!"." = es.length := by
  induction es with
  | nil => rfl
  | cons e es ih =>
    simp only [dotted, List.flatMap_cons, List.cons_append, List.count_cons, List.count_append]
    have : (record e).count c!"." = 0 := List.count_eq_zero.mpr (record_no_dot e)
    simp only [dotted] at ih
    rw [this, ih]
    simp

theorem endsWith_append (p suf : Str) : endsWith (p ++ suf) suf = .ok true := by
  unfold endsWith
  rw [if_neg (by simp)]
  simp

theorem save_spec (hist : List (BinInput × Str)) (fs : Fs) (pre : Str) :
    ∃ ls', save (build hist) fs pre =
        .ok ({ (build hist) with labels := ls' }, fs.append (pre ++ datasetSufix) (recordsText hist 0)) ∧
      (∀ j, ({ (build hist) with labels := ls' } : DataSet).label? j =
        (hist[j]?).map (·.2)) ∧
      ((∀ e ∈ hist, e.2 ≠ []) → ls' = (build hist).labels) := by
  obtain ⟨hd, _, hlab⟩ := build_inv hist
  have hl : ∀ j, ((build hist).labels.find? (·.1 == j)).map (·.2) =
      (hist[j]?).bind (fun e => if e.2 = [] then none else some e.2) := hlab
  obtain ⟨ls', h1, h2, h3⟩ := saveLoop_spec hist 0 (build hist).labels (by
    intro k hk
    unfold lab
    rw [hl, Nat.zero_add, List.getElem?_eq_getElem hk]
    simp only [Option.bind_some]
    split
    · rename_i h; simp [h]
    · simp)
  refine ⟨ls', ?_, ?_, ?_⟩
  · unfold save
    simp only [hd, h1, Except.bind_ok]
  · intro j
    unfold label?
    rw [h2 j, hl j]
    cases hj : hist[j]? with
    | none =>
      have := List.getElem?_eq_none_iff.mp hj
      simp; omega
    | some e =>
      have := (List.getElem?_eq_some_iff.mp hj).1
      simp only [Option.bind_some, Option.map_some]
      by_cases he : e.2 = []
      · simp [he, this]
      · simp [he]
  · intro hall
    apply h3
    intro k hk
    have := hl k
    rw [List.getElem?_eq_getElem hk] at this
    simp only [Option.bind_some, hall _ (List.getElem_mem hk), if_false] at this
    obtain ⟨a, ha, _⟩ := Option.map_eq_some_iff.mp this
    exact ⟨a, by rw [Nat.zero_add]; exact ha⟩

end DataSet
end Wis
