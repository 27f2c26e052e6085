import Verif.Props.AnyState
import Verif.Lemmas.Sim
/-!
# C142: the mental image of a discriminator in any state
-/

namespace Wis
open Spec

theorem tdiv_tdiv' (a b c : Int) : (a.tdiv b).tdiv c = a.tdiv (b * c) := by
  have nat : ∀ n m k : Nat, ((n : Int).tdiv m).tdiv k = (n : Int).tdiv ((m : Int) * k) := by
    intro n m k
    rw [← Int.natCast_mul, ← Int.ofNat_tdiv, ← Int.ofNat_tdiv, ← Int.ofNat_tdiv, Nat.div_div_eq_div_mul]
  obtain ⟨n, rfl | rfl⟩ := a.eq_nat_or_neg <;> obtain ⟨m, rfl | rfl⟩ := b.eq_nat_or_neg <;>
    obtain ⟨k, rfl | rfl⟩ := c.eq_nat_or_neg <;>
    simp only [Int.neg_tdiv, Int.tdiv_neg, Int.neg_neg, Int.neg_mul, Int.mul_neg, nat]

theorem dig_digit (base : Int) (j : Nat) : ∀ z : Int, dig base j z = (z.tdiv (base ^ j)).tmod base := by
  induction j with
  | zero => intro z; simp [dig]
  | succ j ih =>
    intro z
    rw [dig, ih, pow_succ', tdiv_tdiv']

theorem digitOn_eq (base : Int) (j : Nat) (a : Addr) : digitOn base j a = decide (0 < digit base j a) := by
  unfold digitOn digit
  rw [dig_digit]

theorem wsum_filter (P : Addr → Bool) (m : RamT) : RamT.wsum P m = ((m.filter (fun e => P e.1)).map (·.2)).sum := by
  unfold RamT.wsum
  induction m with
  | nil => rfl
  | cons e m ih =>
    rw [List.map_cons, List.sum_cons, ih, List.filter_cons]
    cases P e.1 <;> simp

theorem psum_pieces (r : Ram) (p : Nat) : psum p (pieces r) = ramPixel r p := by
  have key : ∀ (as : List Int) (k : Nat) (g : Nat → Int),
      psum p (as.zip ((List.range' k as.length).map g)) =
        (((as.zipIdx k).filter (fun w => decide (w.1 = (p : Int)))).map (fun w => g w.2)).sum := by
    intro as
    induction as with
    | nil => intro k g; rfl
    | cons a as ih =>
      intro k g
      rw [List.length_cons, List.range'_succ, List.map_cons, List.zip_cons_cons, List.zipIdx_cons, List.filter_cons]
      have hcons : ∀ l : List (Int × Int), psum p ((a, g k) :: l) = (if a = (p : Int) then g k else 0) + psum p l := by
        intro l; simp [psum]
      rw [hcons, ih]
      by_cases ha : a = (p : Int)
      · simp [ha]
      · simp [ha]
  unfold pieces ramPixel mentalVals
  rw [List.range_eq_range', key]
  simp only [wsum_filter, digitOn_eq]

theorem psum_flat (rs : List Ram) (p : Nat) : psum p (rs.flatMap pieces) = (rs.map (fun r => ramPixel r p)).sum := by
  induction rs with
  | nil => rfl
  | cons r rs ih => rw [List.flatMap_cons, psum_append, ih, psum_pieces, List.map_cons, List.sum_cons]

theorem ramMental_inv {r : Ram} {it : IterOrder} {ps : List (Int × Int)} (h : r.getMentalImage it = .ok ps) : ps = pieces r := by
  unfold Ram.getMentalImage at h
  obtain ⟨vs, h1, h⟩ := bind_eq_ok h
  simp only [Except.ok.injEq] at h
  have hrep : ∀ n, List.replicate n (0 : Int) = (List.range n).map (fun _ => 0) := by simp
  rw [hrep] at h1
  have g1 := mentalLoop_inv r _ _ _ h1
  rw [← h, g1]
  unfold pieces mentalVals
  congr 1
  apply List.map_congr_left
  intro j _
  rw [RamT.wsum_perm _ (it.perm _), Int.zero_add]

theorem addPieces_inv (ps : List (Int × Int)) : ∀ {m m' : List Int}, Discriminator.addPieces ps m = .ok m' →
    m'.length = m.length ∧ ∀ (i : Nat) (v : Int), m[i]? = some v → m'[i]? = some (v + psum i ps) := by
  induction ps with
  | nil =>
    intro m m' h
    simp only [Discriminator.addPieces, Except.ok.injEq] at h
    subst h
    exact ⟨rfl, fun i v h => by simp [psum, h]⟩
  | cons p ps ih =>
    intro m m' h
    obtain ⟨a, v⟩ := p
    simp only [Discriminator.addPieces] at h
    split at h
    · cases h
    · rename_i ha
      split at h
      · cases h
      · rename_i old hold
        obtain ⟨new, h1, h⟩ := bind_eq_ok h
        have hnew : new = old + v := by
          unfold i32 at h1
          split at h1
          · cases h1; rfl
          · cases h1
        obtain ⟨g1, g2⟩ := ih h
        refine ⟨by rw [g1]; simp, fun i w hw => ?_⟩
        have hcons : psum i ((a, v) :: ps) = (if a = (i : Int) then v else 0) + psum i ps := by simp [psum]
        rw [hcons]
        by_cases he : a = (i : Int)
        · have hi : a.toNat = i := by omega
          rw [hi] at hold g2
          rw [hold] at hw
          cases hw
          obtain ⟨hlt, _⟩ := List.getElem?_eq_some_iff.mp hold
          rw [g2 i new (by rw [List.getElem?_set_self hlt]), if_pos he, hnew]
          congr 1
          omega
        · have hi : a.toNat ≠ i := by omega
          rw [g2 i w (by rw [List.getElem?_set_ne hi]; exact hw), if_neg he]
          congr 1
          omega

theorem mental_inv {it : IterOrder} (rs : List Ram) : ∀ {m m' : List Int}, Discriminator.mentalLoop it rs m = .ok m' →
    m'.length = m.length ∧ ∀ (i : Nat) (v : Int), m[i]? = some v → m'[i]? = some (v + psum i (rs.flatMap pieces)) := by
  induction rs with
  | nil =>
    intro m m' h
    simp only [Discriminator.mentalLoop, Except.ok.injEq] at h
    subst h
    exact ⟨rfl, fun i v h => by simp [psum, h]⟩
  | cons r rs ih =>
    intro m m' h
    simp only [Discriminator.mentalLoop] at h
    obtain ⟨ps, h1, h⟩ := bind_eq_ok h
    obtain ⟨m1, h2, h⟩ := bind_eq_ok h
    rw [ramMental_inv h1] at h2
    obtain ⟨g1, g2⟩ := addPieces_inv _ h2
    obtain ⟨g3, g4⟩ := ih h
    refine ⟨by rw [g3, g1], fun i v hv => ?_⟩
    rw [g4 i _ (g2 i v hv), List.flatMap_cons, psum_append]
    congr 1
    omega

/-- C142: the mental image of a discriminator in any state, if the call returns: one number per pixel of an image, for pixel `p` the
sum, over the wires at `p` of all RAMs, of the contents at the numbers whose digit of this wire is positive. -/
theorem C142_mental {d : Discriminator} {it : IterOrder} {m : List Int} (h : d.getMentalImage it = .ok m) :
    (m.length : Int) = d.entrySize ∧ ∀ (p : Nat) (v : Int), m[p]? = some v → v = pixel d p := by
  unfold Discriminator.getMentalImage at h
  split at h
  · cases h
  · obtain ⟨g1, g2⟩ := mental_inv _ h
    rw [List.length_replicate] at g1
    refine ⟨by omega, fun p v hv => ?_⟩
    obtain ⟨hp, _⟩ := List.getElem?_eq_some_iff.mp hv
    have := g2 p 0 (by rw [List.getElem?_replicate, if_pos (by omega)])
    rw [hv] at this
    cases this
    rw [Int.zero_add, psum_flat]
    rfl

/-- C142: the call returns if the bases are at least 1, the wires inside the image, the contents not negative, and no pixel
exceeds the range of `int`. -/
theorem C142_returns {d : Discriminator} (it : IterOrder) (hn : 0 ≤ d.entrySize)
    (hr : ∀ r ∈ d.rams, 1 ≤ r.base ∧ (∀ e ∈ r.positions, 0 ≤ e.2) ∧ ∀ a ∈ r.addresses, 0 ≤ a ∧ a < d.entrySize)
    (hp : ∀ p : Nat, (p : Int) < d.entrySize → pixel d p ≤ 2147483647) : ∃ m, d.getMentalImage it = .ok m := by
  unfold Discriminator.getMentalImage
  rw [if_neg (by omega)]
  have hnn : ∀ r ∈ d.rams, ∀ v ∈ mentalVals r, 0 ≤ v := by
    intro r hr' v hv
    obtain ⟨j, _, rfl⟩ := List.mem_map.mp hv
    unfold RamT.wsum
    apply List.sum_nonneg
    intro x hx
    obtain ⟨e, h1, rfl⟩ := List.mem_map.mp hx
    have := (hr r hr').2.1 e h1
    split <;> omega
  obtain ⟨m, h1, _⟩ := dmental_ok it d.entrySize.toNat d.rams (List.replicate d.entrySize.toNat 0) (by simp) (by
    intro r hr'
    obtain ⟨h1, h2, h3⟩ := hr r hr'
    refine ⟨h1, h2, fun v hv => ⟨hnn r hr' v hv, ?_⟩, fun a ha => ⟨(h3 a ha).1, by have := (h3 a ha).2; omega⟩⟩
    -- the value belongs to some pixel
    obtain ⟨j, hj, hjv⟩ := List.getElem_of_mem hv
    have hlen : (mentalVals r).length = r.addresses.length := by simp [mentalVals]
    have hj' : j < r.addresses.length := by omega
    obtain ⟨ha0, ha1⟩ := h3 r.addresses[j] (List.getElem_mem hj')
    have hmem : (r.addresses[j], v) ∈ pieces r := by
      unfold pieces
      refine List.mem_iff_getElem.mpr ⟨j, by simp [hlen, hj'], ?_⟩
      rw [List.getElem_zip, hjv]
    have hle : v ≤ psum r.addresses[j].toNat (d.rams.flatMap pieces) := by
      unfold psum
      refine List.single_le_sum ?_ _ ?_
      · intro x hx
        obtain ⟨q, hq, rfl⟩ := List.mem_map.mp hx
        obtain ⟨r', hr1, hr2⟩ := List.mem_flatMap.mp hq
        have := hnn r' hr1 q.2 (List.of_mem_zip hr2).2
        split <;> omega
      · refine List.mem_map.mpr ⟨_, List.mem_flatMap.mpr ⟨r, hr', hmem⟩, ?_⟩
        rw [if_pos (by simp only; omega)]
    have := hp r.addresses[j].toNat (by omega)
    unfold pixel at this
    rw [← psum_flat] at this
    omega) (by simp) (by
    intro i hi
    simp only [List.length_replicate] at hi
    rw [List.getElem_replicate, Int.zero_add, psum_flat]
    exact hp i (by omega))
  exact ⟨m, h1⟩

/-- C142, loaded: in the mental image of a discriminator loaded from a document the contents of RAM `i` are those of a RAMDataHandle made
of its part of the data, and its wires are entry `i` of `mapping`. -/
theorem C142_loaded {fs : Fs} {m : List (Str × Json)} {d : Discriminator} (h : Discriminator.ofJson fs (.obj m) = .ok d)
    {i : Nat} {r : Ram} (hr : d.rams[i]? = some r) :
    (∃ a, (elementsOf (valueOf m b!"mapping"))[i]? = some a ∧ IsInts a r.addresses) ∧ IsInt (valueOf m b!"base") r.base ∧
    ∃ part h, PartOf fs m i part ∧ RamData.ofText fs part = .ok h ∧ r.positions = (h.get 0).2 := by
  obtain ⟨a, part, h1, h2, h3⟩ := doc_ram ((C114_discriminator fs m d).mp h) hr
  obtain ⟨hh, e1, e2⟩ := h3.content
  exact ⟨⟨a, h1, h3.addresses⟩, h3.base, part, hh, h2, e1, e2⟩

/-- The document of C114: contents 7 at number 3 (both wires 3 and 0), 2 at number 1 (wire 1). -/
example : exRead.getMentalImage IterOrder.id = .ok [7, 2, 0, 7] ∧ (List.range 4).map (pixel exRead) = [7, 2, 0, 7] := by decide +kernel

example : 0 ≤ exRead.entrySize ∧ (∀ r ∈ exRead.rams, 1 ≤ r.base ∧ (∀ e ∈ r.positions, 0 ≤ e.2) ∧ ∀ a ∈ r.addresses, 0 ≤ a ∧ a < exRead.entrySize) ∧
    pixel exRead 3 ≤ 2147483647 := by decide +kernel

/-- A RAM with a negative content. -/
def exNegRam : Ram := { addresses := [0, 1], ignoreZero := false, base := 2, positions := [(1#64, -5), (3#64, 1)] }

/-- Negative contents count negatively. -/
example : Discriminator.getMentalImage { entrySize := 2, count := 0, rams := [exNegRam] } IterOrder.id = .ok [-4, 1] := by
  decide +kernel

end Wis
