import Verif.Model.Synthesizer
import Mathlib.Algebra.Order.Field.Rat
/-!
# C66, C67, C80: synthetic images

`rand` is the value of `std::rand()`, arbitrary; so are the shuffles.
-/

namespace Wis

/-- The greatest value of a mental image (0 if it is empty). -/
def Spec.brightest (m : List Int) : Int := m.foldl max 0

open Spec

theorem maxLoop_eq (m : List Int) : ∀ a, Synthesizer.maxLoop m a = m.foldl max a := by
  induction m with
  | nil => intro a; rfl
  | cons x m ih =>
    intro a
    simp only [Synthesizer.maxLoop, ih, List.foldl_cons]
    congr 1
    split
    · rename_i h; exact (max_eq_right (le_of_lt h)).symm
    · rename_i h; exact (max_eq_left (not_lt.mp h)).symm

theorem foldl_max_ge (m : List Int) : ∀ a, a ≤ m.foldl max a ∧ ∀ x ∈ m, x ≤ m.foldl max a := by
  induction m with
  | nil => intro a; simp
  | cons x m ih =>
    intro a
    obtain ⟨h1, h2⟩ := ih (max a x)
    simp only [List.foldl_cons, List.mem_cons]
    refine ⟨le_trans (le_max_left _ _) h1, ?_⟩
    rintro y (rfl | hy)
    · exact le_trans (le_max_right _ _) h1
    · exact h2 y hy

theorem foldl_max_mem (m : List Int) : ∀ a, m.foldl max a = a ∨ m.foldl max a ∈ m := by
  induction m with
  | nil => intro a; simp
  | cons x m ih =>
    intro a
    simp only [List.foldl_cons, List.mem_cons]
    rcases ih (max a x) with h | h
    · rw [h]
      rcases max_choice a x with h' | h'
      · exact .inl h'
      · exact .inr (.inl h')
    · exact .inr (.inr h)

theorem IMap.find_set (m : IMap) (k v k' : Int) : (m.set k v).find k' = if k = k' then some v else m.find k' := by
  induction m with
  | nil => rfl
  | cons e m ih =>
    obtain ⟨a, b⟩ := e
    simp only [IMap.set]
    split
    · rename_i h
      subst h
      simp only [IMap.find]
      split <;> rfl
    · rename_i h
      simp only [IMap.find, ih]
      split
      · rename_i h2
        subst h2
        rw [if_neg (fun e => h e.symm)]
      · rfl

/-- What the inner loop leaves: the keys from `j` on, as many as the intensity says (all for a negative one). -/
theorem fillLoop_spec (is : List Int) : ∀ (j : Nat) (x : Int) (c c' : IMap), Synthesizer.fillLoop is j x c = .ok c' →
    ∀ k : Int, c'.find k = if (j : Int) ≤ k ∧ k < j + is.length ∧ (x < 0 ∨ k < j + x) then some 1 else c.find k := by
  induction is with
  | nil =>
    intro j x c c' h k
    cases h
    rw [if_neg]
    simp only [List.length_nil]
    omega
  | cons i is ih =>
    intro j x c c' h k
    simp only [Synthesizer.fillLoop] at h
    split at h
    · rename_i h0
      cases h
      rw [if_neg (by omega)]
    · rename_i h0
      cases hx : i32 (x - 1) with
      | error e => rw [hx] at h; cases h
      | ok y =>
        rw [hx] at h
        have hy : y = x - 1 := by
          unfold i32 at hx
          split at hx
          · cases hx; rfl
          · cases hx
        have := ih (j + 1) y _ c' h k
        rw [this, IMap.find_set]
        simp only [List.length_cons, Nat.cast_add, Nat.cast_one]
        by_cases hk : (j : Int) = k
        · rw [if_pos hk, ite_self, if_pos (by omega)]
        · rw [if_neg hk]
          congr 1
          apply propext
          omega

theorem fillLoop_ok' (is : List Int) : ∀ (j : Nat) (x : Int) (c : IMap), InI32 x → 0 ≤ x →
    ∃ c', Synthesizer.fillLoop is j x c = .ok c' := by
  induction is with
  | nil => intro j x c _ _; exact ⟨c, rfl⟩
  | cons i is ih =>
    intro j x c hx hl
    simp only [Synthesizer.fillLoop]
    split
    · exact ⟨c, rfl⟩
    · unfold InI32 at hx
      have h1 : InI32 (x - 1) := by unfold InI32; omega
      have : i32 (x - 1) = .ok (x - 1) := by unfold i32; rw [if_pos h1]
      rw [this]
      exact ih (j + 1) (x - 1) _ h1 (by omega)

theorem shuffled_length (r : Rnd) (n : Nat) : (r.shuffle ((List.range n).map Int.ofNat)).length = n := by
  rw [(r.perm _).length_eq]
  simp

theorem cubeLoop_spec (rnd : Nat → Rnd) {M : Int} (hM : 0 ≤ M) (m : List Int) : ∀ (i : Nat) (cs : List IMap),
    Synthesizer.cubeLoop rnd M m i = .ok cs → ∀ k : Int, 0 ≤ k → k < M →
      cs.map (fun c => (c.find k).getD 0) = m.map (fun x => if x < 0 ∨ k < x then (1 : Int) else 0) := by
  induction m with
  | nil => intro i cs h k _ _; cases h; rfl
  | cons x m ih =>
    intro i cs h k hk0 hk
    simp only [Synthesizer.cubeLoop] at h
    cases hf : Synthesizer.fillLoop ((rnd i).shuffle ((List.range M.toNat).map Int.ofNat)) 0 x [] with
    | error e => rw [hf] at h; cases h
    | ok c =>
      rw [hf] at h
      cases hr : Synthesizer.cubeLoop rnd M m (i + 1) with
      | error e => rw [hr] at h; cases h
      | ok cs' =>
        rw [hr] at h
        cases h
        have h1 := fillLoop_spec _ 0 x [] c hf k
        rw [shuffled_length] at h1
        simp only [List.map_cons, ih (i + 1) cs' hr k hk0 hk, h1]
        congr 1
        have : ((0 : Nat) : Int) ≤ k ∧ k < ((0 : Nat) : Int) + (M.toNat : Int) ∧ (x < 0 ∨ k < ((0 : Nat) : Int) + x) ↔ (x < 0 ∨ k < x) := by omega
        by_cases hc : x < 0 ∨ k < x
        · rw [if_pos (this.mpr hc), if_pos hc]; rfl
        · rw [if_neg (fun h => hc (this.mp h)), if_neg hc]; rfl

theorem cubeLoop_ok (rnd : Nat → Rnd) (M : Int) (m : List Int) (hm : ∀ x ∈ m, InI32 x ∧ 0 ≤ x) : ∀ (i : Nat),
    ∃ cs, Synthesizer.cubeLoop rnd M m i = .ok cs := by
  induction m with
  | nil => intro i; exact ⟨[], rfl⟩
  | cons x m ih =>
    intro i
    obtain ⟨c, h1⟩ := fillLoop_ok' ((rnd i).shuffle ((List.range M.toNat).map Int.ofNat)) 0 x [] (hm x (by simp)).1 (hm x (by simp)).2
    obtain ⟨cs, h2⟩ := ih (fun x hx => hm x (by simp [hx])) (i + 1)
    refine ⟨c :: cs, ?_⟩
    simp only [Synthesizer.cubeLoop, h1, h2]
    rfl

/-- The image for draw `k`: pixel `i` is set iff `k < m[i]`. -/
def Spec.thresholded (m : List Int) (k : Nat) : List Int := m.map (fun x => if (k : Int) < x then 1 else 0)

/-- C66: for a mental image with non-negative entries, not all zero, the synthesizer can be made and `make()` returns,
for the random number `r`, the image thresholded at `r % max(m)`; whatever was shuffled. -/
theorem C66_make (rnd : Nat → Rnd) (m : List Int) (hm : ∀ x ∈ m, InI32 x ∧ 0 ≤ x) (hpos : 0 < brightest m) :
    ∃ s, Synthesizer.create rnd m = .ok s ∧ ∀ r : Nat, s.make r = .ok (thresholded m (r % (brightest m).toNat)) := by
  obtain ⟨cs, h1⟩ := cubeLoop_ok rnd (brightest m) m hm 0
  refine ⟨⟨cs, brightest m⟩, ?_, ?_⟩
  · unfold Synthesizer.create
    have : Synthesizer.maxLoop m 0 = brightest m := maxLoop_eq m 0
    simp only [this, h1]
    rfl
  · intro r
    unfold Synthesizer.make randint
    have e : brightest m - 1 - 0 + 1 = brightest m := by omega
    have hmod : (r : Int).tmod (brightest m) = ((r % (brightest m).toNat : Nat) : Int) := by
      obtain ⟨b, hb⟩ : ∃ b : Nat, brightest m = b := ⟨(brightest m).toNat, by omega⟩
      rw [hb]
      rfl
    simp only [e]
    rw [if_neg (by omega)]
    simp only [bind, Except.bind, zero_add, hmod]
    have hlt : r % (brightest m).toNat < (brightest m).toNat := Nat.mod_lt _ (by omega)
    rw [cubeLoop_spec rnd (by omega) m 0 cs h1 _ (by omega) (by omega)]
    unfold thresholded
    congr 1
    apply List.map_congr_left
    intro x hx
    have := (hm x hx).2
    congr 1
    apply propext
    omega

/-- C66: the image has the length of the mental image and only zeros and ones, pixel `i` is set for exactly `m[i]` of
the `max(m)` possible draws, and a draw that sets a pixel sets every brighter one. -/
theorem C66_intensity (m : List Int) (hm : ∀ x ∈ m, 0 ≤ x) :
    (∀ k, (thresholded m k).length = m.length ∧ ∀ v ∈ thresholded m k, v = 0 ∨ v = 1) ∧
    (∀ (i : Nat) (x : Int), m[i]? = some x →
      ((List.range (brightest m).toNat).filter (fun k => (thresholded m k)[i]? = some 1)).length = x.toNat) ∧
    ∀ (k i j : Nat) (x y : Int), m[i]? = some x → m[j]? = some y → x ≤ y → (thresholded m k)[i]? = some 1 → (thresholded m k)[j]? = some 1 := by
  have hget : ∀ (k i : Nat) (x : Int), m[i]? = some x → ((thresholded m k)[i]? = some 1 ↔ (k : Int) < x) := by
    intro k i x hx
    unfold thresholded
    rw [List.getElem?_map, hx]
    simp only [Option.map_some, Option.some.injEq]
    split <;> simp_all
  refine ⟨?_, ?_, ?_⟩
  · intro k
    refine ⟨by simp [thresholded], ?_⟩
    intro v hv
    obtain ⟨x, _, rfl⟩ := List.mem_map.mp hv
    split <;> simp
  · intro i x hx
    have hle := (foldl_max_ge m 0).2 x (List.mem_of_getElem? hx)
    have h0 := hm x (List.mem_of_getElem? hx)
    have hc : (List.range (brightest m).toNat).filter (fun k => (thresholded m k)[i]? = some 1) =
        (List.range (brightest m).toNat).filter (fun k => decide (k < x.toNat)) := by
      apply List.filter_congr
      intro k _
      rw [decide_eq_decide, hget k i x hx]
      omega
    rw [hc]
    have hle' : x.toNat ≤ (brightest m).toNat := by unfold brightest; omega
    generalize (brightest m).toNat = M at hle'
    generalize x.toNat = n at hle'
    clear hc
    induction M with
    | zero => simp; omega
    | succ M ih =>
      rw [List.range_succ, List.filter_append, List.length_append]
      rcases Nat.lt_or_ge M n with h | h
      · have : n = M + 1 := by omega
        subst this
        have : ((List.range M).filter (fun k => decide (k < M + 1))) = List.range M := by
          rw [List.filter_eq_self]
          intro k hk
          have := List.mem_range.mp hk
          simp; omega
        rw [this]
        simp
      · rw [ih h]
        simp; omega
  · intro k i j x y hx hy hxy h
    rw [hget k i x hx] at h
    rw [hget k j y hy]
    omega

/-- A mental image for C66. -/
example : (∀ x ∈ [2, 0, 3], InI32 x ∧ 0 ≤ x) ∧ 0 < brightest [2, 0, 3] ∧ thresholded [2, 0, 3] 1 = [1, 0, 1] ∧
    thresholded [2, 0, 3] 2 = [0, 0, 1] := by decide

/-- C67 fails: for an all-zero (or empty) mental image the synthesizer is made, but every `make()` divides by zero. -/
theorem C67_refuted (rnd : Nat → Rnd) (m : List Int) (hm : ∀ x ∈ m, x = 0) :
    ∃ s, Synthesizer.create rnd m = .ok s ∧ ∀ r, s.make r = .error (.ub .divByZero) := by
  have hb : brightest m = 0 := by
    rcases foldl_max_mem m 0 with h | h
    · exact h
    · exact hm _ h
  obtain ⟨cs, h1⟩ := cubeLoop_ok rnd (brightest m) m (fun x hx => by rw [hm x hx]; decide) 0
  rw [hb] at h1
  refine ⟨⟨cs, 0⟩, ?_, fun r => rfl⟩
  unfold Synthesizer.create
  have : Synthesizer.maxLoop m 0 = 0 := by rw [maxLoop_eq]; exact hb
  simp only [this, h1]
  rfl

/-- C67, what holds: building the synthesizer of a blank image is safe. -/
theorem C67_create_partial (rnd : Nat → Rnd) (m : List Int) (hm : ∀ x ∈ m, x = 0) :
    ∃ s, Synthesizer.create rnd m = .ok s := by
  obtain ⟨s, h, _⟩ := C67_refuted rnd m hm
  exact ⟨s, h⟩

/-- C80: the shuffles of `makeCube` have no effect. Two synthesizers of the same mental image, with any random
choices, return the same image for the same draw. -/
theorem C80_shuffle_no_effect (rnd rnd' : Nat → Rnd) (m : List Int) (s s' : Synthesizer)
    (h : Synthesizer.create rnd m = .ok s) (h' : Synthesizer.create rnd' m = .ok s') (r : Nat) : s.make r = s'.make r := by
  have key : ∀ {rnd : Nat → Rnd} {s : Synthesizer}, Synthesizer.create rnd m = .ok s →
      s.maxData = brightest m ∧ Synthesizer.cubeLoop rnd (brightest m) m 0 = .ok s.cube := by
    intro rnd s h
    unfold Synthesizer.create at h
    have e : Synthesizer.maxLoop m 0 = brightest m := maxLoop_eq m 0
    simp only [e] at h
    cases hc : Synthesizer.cubeLoop rnd (brightest m) m 0 with
    | error x => rw [hc] at h; cases h
    | ok cs => rw [hc] at h; cases h; exact ⟨rfl, rfl⟩
  obtain ⟨a1, a2⟩ := key h
  obtain ⟨b1, b2⟩ := key h'
  have h0 : 0 ≤ brightest m := (foldl_max_ge m 0).1
  unfold Synthesizer.make randint
  rw [a1, b1]
  by_cases hz : brightest m - 1 - 0 + 1 = 0
  · rw [if_pos hz]; rfl
  · rw [if_neg hz]
    have e : brightest m - 1 - 0 + 1 = brightest m := by omega
    simp only [bind, Except.bind, zero_add, e]
    obtain ⟨b, hb⟩ : ∃ b : Nat, brightest m = b := ⟨(brightest m).toNat, by omega⟩
    have h1 : 0 ≤ (r : Int).tmod (brightest m) := by rw [hb]; exact Int.natCast_nonneg _
    have h2 : (r : Int).tmod (brightest m) < brightest m := Int.tmod_lt_of_pos _ (by omega)
    rw [cubeLoop_spec rnd h0 m 0 _ a2 _ h1 h2, cubeLoop_spec rnd' h0 m 0 _ b2 _ h1 h2]

/-- Negative entries (mental images with untrained counters can have them) are drawn as the brightest ones: such a
pixel is set for every draw. -/
theorem C66_negative (rnd : Nat → Rnd) (m : List Int) (s : Synthesizer) (h : Synthesizer.create rnd m = .ok s) (hpos : 0 < brightest m)
    (r : Nat) : ∃ out, s.make r = .ok out ∧ out.length = m.length ∧
      ∀ (i : Nat) (x : Int), m[i]? = some x → x < 0 → out[i]? = some 1 := by
  unfold Synthesizer.create at h
  have e : Synthesizer.maxLoop m 0 = brightest m := maxLoop_eq m 0
  simp only [e] at h
  cases hc : Synthesizer.cubeLoop rnd (brightest m) m 0 with
  | error x => rw [hc] at h; cases h
  | ok cs =>
    rw [hc] at h
    cases h
    unfold Synthesizer.make randint
    have e : brightest m - 1 - 0 + 1 = brightest m := by omega
    simp only [e]
    rw [if_neg (by omega)]
    simp only [bind, Except.bind, zero_add]
    obtain ⟨b, hb⟩ : ∃ b : Nat, brightest m = b := ⟨(brightest m).toNat, by omega⟩
    have h1 : 0 ≤ (r : Int).tmod (brightest m) := by rw [hb]; exact Int.natCast_nonneg _
    have h2 : (r : Int).tmod (brightest m) < brightest m := Int.tmod_lt_of_pos _ (by omega)
    rw [cubeLoop_spec rnd (by omega) m 0 cs hc _ h1 h2]
    refine ⟨_, rfl, by simp, ?_⟩
    intro i x hx hneg
    rw [List.getElem?_map, hx]
    simp [hneg]

/-- Such an image. -/
example : (Synthesizer.create (fun _ => Rnd.id) [-1, 2]).map (fun s => s.make 1) = .ok (.ok [1, 1]) := by decide

end Wis
