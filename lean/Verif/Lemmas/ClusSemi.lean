import Verif.Props.ClusWisard
/-! Helper lemmas: semi-supervised training. -/

namespace Wis
open Spec

/-- Number of images without label. -/
def nUn (labels : LabelMap) (imgs : List (List Int)) (i : Nat) : Nat := (unlabelled labels imgs i).length

theorem trainEach_cons (f : Flt) (w : ClusWisard) (env : Nat → Env) (i : Nat) (img : List Int) (l : Str)
    (es : List (Nat × (List Int × Str))) :
    trainEach f w env ((i, (img, l)) :: es) =
      match w.train1 f (env i) img l with
      | (w', .ok ()) => trainEach f w' env es
      | (w', .error e) => (w', .error e) := rfl

/-- The first loop: the labelled images are trained; if the vector of unlabelled indexes is not empty it grows to the
number of unlabelled images. -/
theorem semiLoop_eq (f : Flt) (env : Nat → Env) (labels : LabelMap) (imgs : List (List Int)) :
    ∀ (i : Nat) (w : ClusWisard) (ll : List Int) (j : Nat), j ≤ ll.length → (ll ≠ [] ∨ nUn labels imgs i = 0) →
      ∃ ll' : List Int, ll'.length = max ll.length (j + nUn labels imgs i) ∧
        ClusWisard.semiLoop f env labels imgs i w ll j =
          match trainEach f w env (supervised labels imgs i) with
          | (w', .ok ()) => (w', .ok ll')
          | (w', .error e) => (w', .error e) := by
  induction imgs with
  | nil =>
    intro i w ll j hj _
    refine ⟨ll, ?_, rfl⟩
    simp only [nUn, unlabelled, List.length_nil]
    omega
  | cons img imgs ih =>
    intro i w ll j hj hl
    simp only [ClusWisard.semiLoop, supervised, nUn, unlabelled] at hl ⊢
    cases hf : labels.find i with
    | none =>
      simp only [hf, List.length_cons] at hl ⊢
      rw [or_iff_left (by omega)] at hl
      have hpos : 0 < ll.length := List.length_pos_iff.mpr hl
      unfold ClusWisard.noteLabelless
      by_cases hlt : ll.length - 1 < j
      · rw [if_pos ⟨by omega, hlt⟩]
        obtain ⟨ll', h1, h2⟩ := ih (i + 1) w (ll ++ [(j : Int)]) (j + 1) (by simp; omega) (.inl (by simp))
        refine ⟨ll', ?_, h2⟩
        rw [h1]
        simp only [List.length_append, List.length_singleton, nUn]
        omega
      · rw [if_neg (by intro h; exact hlt h.2), if_pos (by omega)]
        obtain ⟨ll', h1, h2⟩ := ih (i + 1) w (ll.set j i) (j + 1) (by simp; omega) (.inl (by
          intro h; have := congrArg List.length h; simp at this; exact hl this))
        refine ⟨ll', ?_, h2⟩
        rw [h1]
        simp only [List.length_set, nUn]
        omega
    | some l =>
      simp only [hf] at hl ⊢
      rw [trainEach_cons]
      cases ht : w.train1 f (env i) img l with
      | mk w1 r =>
        cases r with
        | error e =>
          refine ⟨List.replicate (max ll.length (j + (unlabelled labels imgs (i + 1)).length)) 0, by simp, rfl⟩
        | ok u =>
          obtain ⟨ll', h1, h2⟩ := ih (i + 1) w1 ll j hj hl
          exact ⟨ll', h1, h2⟩

/-- With an empty vector the first unlabelled image writes outside it. -/
theorem semiLoop_ub (f : Flt) (env : Nat → Env) (labels : LabelMap) (imgs : List (List Int)) :
    ∀ (i : Nat) (w : ClusWisard), nUn labels imgs i ≠ 0 → (trainEach f w env (supervised labels imgs i)).2 = .ok () →
      (ClusWisard.semiLoop f env labels imgs i w [] 0).2 = .error (.ub .outOfBounds) := by
  induction imgs with
  | nil => intro i w h; simp [nUn, unlabelled] at h
  | cons img imgs ih =>
    intro i w h ht
    simp only [ClusWisard.semiLoop, supervised, nUn, unlabelled] at h ht ⊢
    cases hf : labels.find i with
    | none => rfl
    | some l =>
      simp only [hf] at h ht ⊢
      rw [trainEach_cons] at ht
      cases h1 : w.train1 f (env i) img l with
      | mk w1 r =>
        rw [h1] at ht
        cases r with
        | error e => simp at ht
        | ok u => exact ih (i + 1) w1 h ht

/-- Semi-supervised training as the code performs it. -/
theorem trainSemi_eq (f : Flt) (w : ClusWisard) (env : Bool → Nat → Env) (images : List (List Int)) (labels : LabelMap)
    (hc : w.confidenceCheck images = .ok ())
    (hl : labels.length < images.length ∨ (labels.length = images.length ∧ nUn labels images 0 = 0))
    (hn : images.length - labels.length ≤ nUn labels images 0) :
    w.trainSemi f env images labels =
      match trainEach f w (env false) (supervised labels images 0) with
      | (w', .error e) => (w', .error e)
      | (w', .ok ()) =>
        if nUn labels images 0 = images.length then (w', .error (.throw .noValidIndex))
        else w'.ownLoop f (env true) (images.take (nUn labels images 0)) 0 := by
  obtain ⟨ll', h1, h2⟩ := semiLoop_eq f (env false) labels images 0 w (List.replicate (images.length - labels.length) 0) 0
    (by simp) (by
      rcases hl with h | ⟨_, h⟩
      · left; intro he; have := congrArg List.length he; simp at this; omega
      · exact .inr h)
  have hlen : ll'.length = nUn labels images 0 := by
    rw [h1, List.length_replicate, Nat.zero_add]; omega
  unfold ClusWisard.trainSemi
  have hle : ¬ labels.length > images.length := by rcases hl with h | h <;> omega
  simp only [hc, Except.bind_ok, if_neg hle, h2]
  cases ht : trainEach f w (env false) (supervised labels images 0) with
  | mk w1 r =>
    cases r with
    | error e => rfl
    | ok u => simp only [hlen]

/-! ## Counting labels -/

theorem find_some_iff {labels : LabelMap} {i : Int} : (∃ l, labels.find i = some l) ↔ i ∈ labels.map (·.1) := by
  induction labels with
  | nil => simp [LabelMap.find]
  | cons e m ih =>
    obtain ⟨k, v⟩ := e
    simp only [LabelMap.find, List.map_cons, List.mem_cons]
    split
    · rename_i h
      simp [h]
    · rename_i h
      rw [ih]
      constructor
      · exact .inr
      · rintro (h' | h')
        · exact absurd h'.symm h
        · exact h'

/-- Indexes with a label. -/
def labelled (labels : LabelMap) (n : Nat) : Nat → List Nat := fun i =>
  (List.range' i n).filter (fun (k : Nat) => decide ((k : Int) ∈ labels.map (·.1)))

theorem nUn_labelled (labels : LabelMap) (imgs : List (List Int)) : ∀ i : Nat,
    nUn labels imgs i + (labelled labels imgs.length i).length = imgs.length := by
  induction imgs with
  | nil => intro i; simp [nUn, unlabelled, labelled]
  | cons img imgs ih =>
    intro i
    have := ih (i + 1)
    simp only [nUn, unlabelled, labelled, List.length_cons, List.range'_succ, List.filter_cons] at this ⊢
    cases hf : labels.find i with
    | none =>
      have hn : ¬ ((i : Int) ∈ labels.map (·.1)) := by
        rw [← find_some_iff, hf]; simp
      rw [if_neg (by simpa using hn)]
      simp only [List.length_cons]
      omega
    | some l =>
      have hn : ((i : Int) ∈ labels.map (·.1)) := find_some_iff.mp ⟨l, hf⟩
      rw [if_pos (by simpa using hn)]
      simp only [List.length_cons]
      omega

theorem labelled_le {labels : LabelMap} (n : Nat) : (labelled labels n 0).length ≤ labels.length := by
  have hnd : ((labelled labels n 0).map (fun (k : Nat) => (k : Int))).Nodup := by
    refine List.Nodup.map (fun a b h => by simpa using h) ?_
    exact List.Nodup.filter _ List.nodup_range'
  have hsub : (labelled labels n 0).map (fun (k : Nat) => (k : Int)) ⊆ labels.map (·.1) := by
    intro x hx
    obtain ⟨k, hk, rfl⟩ := List.mem_map.mp hx
    have := (List.mem_filter.mp hk).2
    simpa using this
  have := (List.subperm_of_subset hnd hsub).length_le
  simpa using this

theorem labelled_valid {labels : LabelMap} (hu : (labels.map (·.1)).Nodup) {n : Nat}
    (hv : ∀ e ∈ labels, 0 ≤ e.1 ∧ e.1 < n) : labels.length ≤ (labelled labels n 0).length := by
  have hsub : labels.map (·.1) ⊆ (labelled labels n 0).map (fun (k : Nat) => (k : Int)) := by
    intro x hx
    obtain ⟨e, he, rfl⟩ := List.mem_map.mp hx
    have := hv e he
    refine List.mem_map.mpr ⟨e.1.toNat, ?_, by omega⟩
    unfold labelled
    rw [List.mem_filter]
    refine ⟨by simp [List.mem_range']; omega, ?_⟩
    rw [decide_eq_true_eq, Int.toNat_of_nonneg this.1]
    exact List.mem_map.mpr ⟨e, he, rfl⟩
  have := (List.subperm_of_subset hu hsub).length_le
  simpa using this

theorem labelled_invalid {labels : LabelMap} (hu : (labels.map (·.1)).Nodup) {n : Nat}
    {e : Int × Str} (he : e ∈ labels) (hv : ¬ (0 ≤ e.1 ∧ e.1 < n)) : (labelled labels n 0).length < labels.length := by
  have hnd : (e.1 :: (labelled labels n 0).map (fun (k : Nat) => (k : Int))).Nodup := by
    rw [List.nodup_cons]
    refine ⟨?_, ?_⟩
    · intro hm
      obtain ⟨k, hk, h⟩ := List.mem_map.mp hm
      have hk := (List.mem_filter.mp hk).1
      simp only [List.mem_range'_1] at hk
      exact hv ⟨by omega, by omega⟩
    · refine List.Nodup.map (fun a b h => by simpa using h) ?_
      exact List.Nodup.filter _ List.nodup_range'
  have hsub : e.1 :: (labelled labels n 0).map (fun (k : Nat) => (k : Int)) ⊆ labels.map (·.1) := by
    intro x hx
    rcases List.mem_cons.mp hx with rfl | hx
    · exact List.mem_map.mpr ⟨e, he, rfl⟩
    · obtain ⟨k, hk, rfl⟩ := List.mem_map.mp hx
      have := (List.mem_filter.mp hk).2
      simpa using this
  have := (List.subperm_of_subset hnd hsub).length_le
  have h : (labelled labels n 0).length + 1 ≤ labels.length := by simpa using this
  exact h

theorem unlabelled_length_le (labels : LabelMap) (imgs : List (List Int)) (i : Nat) : nUn labels imgs i ≤ imgs.length := by
  have := nUn_labelled labels imgs i
  omega

end Wis
