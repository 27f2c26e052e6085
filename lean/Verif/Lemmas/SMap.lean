import Verif.Model.Bytes
/-! Order on strings and `std::map`. -/

namespace Wis

theorem Str.lt_irrefl (s : Str) : Str.lt s s = false := by
  induction s with
  | nil => rfl
  | cons a s ih => simp [Str.lt, ih]

theorem Str.lt_trans : ∀ {a b c : Str}, Str.lt a b = true → Str.lt b c = true → Str.lt a c = true := by
  intro a
  induction a with
  | nil =>
    intro b c h1 h2
    cases c with
    | nil => simp [Str.lt] at h2
    | cons _ _ => rfl
  | cons x a ih =>
    intro b c h1 h2
    cases b with
    | nil => simp [Str.lt] at h1
    | cons y b =>
      cases c with
      | nil => simp [Str.lt] at h2
      | cons z c =>
        simp only [Str.lt, Bool.or_eq_true, decide_eq_true_eq, Bool.and_eq_true, beq_iff_eq] at h1 h2 ⊢
        rcases h1 with h1 | ⟨rfl, h1⟩
        · rcases h2 with h2 | ⟨rfl, h2⟩
          · left; omega
          · left; exact h1
        · rcases h2 with h2 | ⟨rfl, h2⟩
          · left; exact h2
          · right; exact ⟨rfl, ih h1 h2⟩

theorem Str.lt_asymm {a b : Str} (h : Str.lt a b = true) : Str.lt b a = false := by
  cases h' : Str.lt b a with
  | false => rfl
  | true => have := Str.lt_trans h h'; rw [Str.lt_irrefl] at this; cases this

theorem Str.lt_total : ∀ {a b : Str}, a ≠ b → Str.lt a b = false → Str.lt b a = true := by
  intro a
  induction a with
  | nil =>
    intro b h1 h2
    cases b with
    | nil => exact absurd rfl h1
    | cons _ _ => simp [Str.lt] at h2
  | cons x a ih =>
    intro b h1 h2
    cases b with
    | nil => rfl
    | cons y b =>
      simp only [Str.lt, Bool.or_eq_true, decide_eq_true_eq, Bool.and_eq_true, beq_iff_eq,
        Bool.or_eq_false_iff, decide_eq_false_iff_not, Bool.and_eq_false_iff, beq_eq_false_iff_ne] at h2 ⊢
      obtain ⟨h2, h3⟩ := h2
      by_cases hxy : x = y
      · subst hxy
        right
        refine ⟨rfl, ih (by simpa using h1) ?_⟩
        rcases h3 with h3 | h3
        · exact absurd rfl h3
        · exact h3
      · left
        have : x.toNat ≠ y.toNat := fun e => hxy (BitVec.eq_of_toNat_eq e)
        omega

theorem Str.lt_ne {a b : Str} (h : Str.lt a b = true) : a ≠ b := by
  rintro rfl; rw [Str.lt_irrefl] at h; cases h

namespace SMap
variable {V W : Type}

theorem sorted_nil : Sorted ([] : SMap V) := List.Pairwise.nil

theorem sorted_cons {e : Str × V} {m : SMap V} :
    Sorted (e :: m) ↔ (∀ e' ∈ m, Str.lt e.1 e'.1 = true) ∧ Sorted m := by
  unfold Sorted; exact List.pairwise_cons

theorem find_set_self (m : SMap V) (k : Str) (v : V) : (m.set k v).find k = some v := by
  induction m with
  | nil => simp [set, find]
  | cons e m ih =>
    obtain ⟨k', v'⟩ := e
    simp only [set]
    split
    · simp [find]
    · split
      · simp [find]
      · rename_i h _; simp only [find, if_neg h, ih]

theorem find_set_ne (m : SMap V) {k l : Str} (v : V) (h : l ≠ k) : (m.set k v).find l = m.find l := by
  induction m with
  | nil => simp [set, find, Ne.symm h]
  | cons e m ih =>
    obtain ⟨k', v'⟩ := e
    simp only [set]
    split
    · rename_i hk; subst hk; simp [find, Ne.symm h]
    · split
      · simp [find, Ne.symm h]
      · simp only [find, ih]

theorem mem_set {m : SMap V} {k : Str} {v : V} {e : Str × V} (h : e ∈ m.set k v) : e = (k, v) ∨ e ∈ m := by
  induction m with
  | nil => simp [set] at h; exact .inl h
  | cons e' m ih =>
    obtain ⟨k', v'⟩ := e'
    simp only [set] at h
    split at h
    · rcases List.mem_cons.mp h with h | h
      · exact .inl h
      · exact .inr (List.mem_cons_of_mem _ h)
    · split at h
      · rcases List.mem_cons.mp h with h | h
        · exact .inl h
        · exact .inr h
      · rcases List.mem_cons.mp h with h | h
        · exact .inr (by rw [h]; simp)
        · rcases ih h with h | h
          · exact .inl h
          · exact .inr (List.mem_cons_of_mem _ h)

theorem sorted_set {m : SMap V} (h : Sorted m) (k : Str) (v : V) : Sorted (m.set k v) := by
  induction m with
  | nil => simp [set, Sorted]
  | cons e m ih =>
    obtain ⟨k', v'⟩ := e
    obtain ⟨h1, h2⟩ := sorted_cons.mp h
    simp only [set]
    split
    · rename_i hk; subst hk
      exact sorted_cons.mpr ⟨h1, h2⟩
    · split
      · rename_i hlt
        refine sorted_cons.mpr ⟨?_, h⟩
        intro e he
        rcases List.mem_cons.mp he with he | he
        · rw [he]; exact hlt
        · exact Str.lt_trans hlt (h1 e he)
      · rename_i hne hlt
        refine sorted_cons.mpr ⟨?_, ih h2⟩
        intro e he
        rcases mem_set he with he | he
        · rw [he]; exact Str.lt_total (Ne.symm hne) (by simpa using hlt)
        · exact h1 e he

theorem mem_of_find {m : SMap V} {k : Str} {v : V} (h : m.find k = some v) : (k, v) ∈ m := by
  induction m with
  | nil => simp [find] at h
  | cons e m ih =>
    obtain ⟨k', v'⟩ := e
    simp only [find] at h
    split at h
    · rename_i hk; subst hk; injection h with h; subst h; simp
    · exact List.mem_cons_of_mem _ (ih h)

theorem find_of_mem {m : SMap V} (hs : Sorted m) {k : Str} {v : V} (h : (k, v) ∈ m) : m.find k = some v := by
  induction m with
  | nil => simp at h
  | cons e m ih =>
    obtain ⟨k', v'⟩ := e
    obtain ⟨h1, h2⟩ := sorted_cons.mp hs
    simp only [find]
    rcases List.mem_cons.mp h with h | h
    · injection h with h3 h4; subst h3; subst h4; simp
    · have := Str.lt_ne (h1 _ h)
      rw [if_neg this]
      exact ih h2 h

theorem find_none_iff {m : SMap V} {k : Str} : m.find k = none ↔ k ∉ m.keys := by
  induction m with
  | nil => simp [find, keys]
  | cons e m ih =>
    obtain ⟨k', v'⟩ := e
    simp only [find, keys, List.map_cons, List.mem_cons, not_or]
    split
    · rename_i hk; simp [hk]
    · rename_i hk
      rw [ih]
      simp [keys, Ne.symm hk]

theorem mem_keys_iff {m : SMap V} {k : Str} : k ∈ m.keys ↔ ∃ v, m.find k = some v := by
  cases h : m.find k with
  | none => simp [find_none_iff.mp h]
  | some v => exact ⟨fun _ => ⟨v, rfl⟩, fun _ => by
      have := mem_of_find h
      exact List.mem_map.mpr ⟨_, this, rfl⟩⟩

/-- Two maps with the same contents are equal. -/
theorem ext {m m' : SMap V} (h : Sorted m) (h' : Sorted m') (hf : ∀ k, m.find k = m'.find k) : m = m' := by
  induction m generalizing m' with
  | nil =>
    cases m' with
    | nil => rfl
    | cons e m' =>
      have := hf e.1
      simp [find] at this
  | cons e m ih =>
    cases m' with
    | nil => have := hf e.1; simp [find] at this
    | cons e' m' =>
      obtain ⟨k, v⟩ := e
      obtain ⟨k', v'⟩ := e'
      obtain ⟨h1, h2⟩ := sorted_cons.mp h
      obtain ⟨h3, h4⟩ := sorted_cons.mp h'
      have hk : k = k' := by
        apply Classical.byContradiction
        intro hne
        have a := hf k
        have b := hf k'
        simp only [find, if_true, if_neg hne, if_neg (Ne.symm hne)] at a b
        have c1 := h3 _ (mem_of_find a.symm)
        have c2 := h1 _ (mem_of_find b)
        have := Str.lt_asymm c1
        simp only at this c2
        rw [this] at c2; cases c2
      subst hk
      have hv := hf k
      simp only [find, if_true, Option.some.injEq] at hv
      subst hv
      congr 1
      apply ih h2 h4
      intro l
      have := hf l
      simp only [find] at this
      by_cases hl : k = l
      · subst hl
        have n1 : SMap.find m k = none := find_none_iff.mpr (by
          intro hm
          obtain ⟨e, he, hek⟩ := List.mem_map.mp hm
          exact Str.lt_ne (h1 e he) hek.symm)
        have n2 : SMap.find m' k = none := find_none_iff.mpr (by
          intro hm
          obtain ⟨e, he, hek⟩ := List.mem_map.mp hm
          exact Str.lt_ne (h3 e he) hek.symm)
        rw [n1, n2]
      · simpa [if_neg hl] using this

theorem set_set (m : SMap V) (k : Str) (v w : V) : (m.set k v).set k w = m.set k w := by
  induction m with
  | nil => simp [set]
  | cons e m ih =>
    obtain ⟨k', v'⟩ := e
    simp only [set]
    split
    · simp [set]
    · split
      · simp [set]
      · rename_i h1 h2
        simp only [set, if_neg h1, if_neg h2, ih]

theorem sorted_map {m : SMap V} (h : Sorted m) (f : Str × V → W) : Sorted (m.map (fun e => (e.1, f e))) := by
  unfold Sorted at h ⊢
  rw [List.pairwise_map]
  exact h

theorem find_map (m : SMap V) (f : V → W) (k : Str) : SMap.find (m.map (fun e => (e.1, f e.2))) k = (m.find k).map f := by
  induction m with
  | nil => rfl
  | cons e m ih =>
    obtain ⟨k', v'⟩ := e
    simp only [List.map_cons, find]
    split
    · rfl
    · exact ih

theorem keys_set {m : SMap V} {k l : Str} {v : V} : l ∈ (m.set k v).keys ↔ l = k ∨ l ∈ m.keys := by
  rw [mem_keys_iff, mem_keys_iff]
  by_cases h : l = k
  · subst h; simp [find_set_self]
  · rw [find_set_ne _ _ h]; simp [h]

theorem nodup_keys {m : SMap V} (h : Sorted m) : m.keys.Nodup := by
  unfold keys
  rw [List.nodup_iff_pairwise_ne, List.pairwise_map]
  exact h.imp (fun h => Str.lt_ne h)

end SMap
end Wis
