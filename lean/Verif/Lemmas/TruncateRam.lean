import Verif.Lemmas.Truncate
import Verif.Lemmas.Json
/-! Helper lemmas for truncated `.wdpkg` files. -/

namespace Wis
open Spec
namespace RamData

theorem blocks_append (a b : RamT) : blocks (a ++ b) = blocks a ++ blocks b := by
  induction a with
  | nil => rfl
  | cons e a ih => obtain ⟨k, c⟩ := e; simp [blocks, ih]

theorem blocks_take (m : RamT) (j : Nat) : (blocks m).take (12 * j) = blocks (m.take j) := by
  by_cases h : j ≤ m.length
  · have h1 : (blocks (m.take j)).length = 12 * j := by rw [blocks_length, List.length_take]; omega
    conv => lhs; rw [← List.take_append_drop j m, blocks_append]
    rw [← h1, List.take_left]
  · rw [List.take_of_length_le (by rw [blocks_length]; omega), List.take_of_length_le (by omega)]

/-- Decoding the first `m` characters of the text of a RAM. -/
theorem dataToRam_cut (r : RamT) (hn : r.keys.Nodup) (hi : ∀ e ∈ r, InI32 e.2) (m : Nat) (h0 : 0 < m)
    (hm : m ≤ (seg r).length) :
    dataToRam ((seg r).take m) =
      if m % 4 ≠ 0 then .error (.ub .outOfBounds)
      else if m % 16 = 0 then .ok (r.take (m / 16)) else .ok [] := by
  have hl := seg_length r
  have hbl := blocks_length r
  have hd := Base64.decode_take (blocks r) m hm
  unfold dataToRam
  change (Base64.decode ((b64 (blocks r)).take m) >>= _) = _
  by_cases h4 : m % 4 = 0
  · rw [if_pos ⟨h4, h0⟩] at hd
    rw [hd, Except.bind_ok, if_neg (show ¬ (m % 4 ≠ 0) by omega)]
    have hlen : ((blocks r).take (3 * (m / 4))).length = 3 * (m / 4) := by rw [List.length_take]; omega
    by_cases h16 : m % 16 = 0
    · rw [if_pos h16]
      obtain ⟨j, rfl⟩ : ∃ j, m = 16 * j := ⟨m / 16, by omega⟩
      rw [hlen, if_neg (by omega), show 3 * (16 * j / 4) = 12 * j by omega, show 12 * j / 12 = j by omega,
        show 16 * j / 16 = j by omega, blocks_take]
      have hj : (r.take j).length = j := by rw [List.length_take]; omega
      have := blockLoop_blocks (r.take j) [] (by
        rw [List.nil_append]
        exact (List.take_sublist j r).map _ |>.nodup hn) (fun e he => hi e (List.mem_of_mem_take he))
      rw [hj] at this
      simpa using this
    · rw [if_neg h16, hlen, if_pos (show 3 * (m / 4) % 12 ≠ 0 by omega)]
  · rw [if_neg (by omega), if_neg (by omega)] at hd
    rw [hd, if_pos h4]
    rfl

theorem ofText_cut (fs : Fs) (r : RamT) (hn : r.keys.Nodup) (hi : ∀ e ∈ r, InI32 e.2) (m : Nat)
    (hm : m ≤ (seg r).length) (hlen : (seg r).length < 2147483648) :
    ofText fs ((seg r).take m) =
      if m < 6 then .error (.throw .stdOutOfRange)
      else if m % 4 ≠ 0 then .error (.ub .outOfBounds)
      else if m % 16 = 0 then .ok (ofRam (r.take (m / 16))) else .ok (ofRam []) := by
  have hl : ((seg r).take m).length = m := by rw [List.length_take]; omega
  by_cases h6 : m < 6
  · rw [if_pos h6, ofText_short _ _ (by omega)]
  · rw [if_neg h6]
    have hdot : c!"." ∉ (seg r).take m := fun h => seg_no_dot r (List.mem_of_mem_take h)
    have he := endsWith_no_dot [] ((seg r).take m) hdot (by omega)
    rw [List.nil_append] at he
    unfold ofText
    rw [he]
    simp only
    rw [if_neg (by omega), textLoop_none _ _ hdot, dataToRam_cut r hn hi m (by omega) hm]
    by_cases h4 : m % 4 = 0
    · rw [if_neg (show ¬ (m % 4 ≠ 0) by omega), if_neg (show ¬ (m % 4 ≠ 0) by omega)]
      by_cases h16 : m % 16 = 0
      · rw [if_pos h16, if_pos h16]; rfl
      · rw [if_neg h16, if_neg h16]; rfl
    · rw [if_pos h4, if_pos h4]

/-- Number of characters before the text of RAM `k`. -/
def off (ms : List RamT) (k : Nat) : Nat := ((ms.take k).map (fun m => 16 * m.length + 1)).sum

theorem joined_cut (k : Nat) : ∀ (ms : List RamT) (m : Nat) (hk : k < ms.length), m ≤ (seg ms[k]).length →
    (joined ms).take (off ms k + m) = (ms.take k).flatMap (fun r => seg r ++ b!".") ++ (seg ms[k]).take m := by
  induction k with
  | zero =>
    intro ms m hk hm
    cases ms with
    | nil => simp at hk
    | cons r ms =>
      rw [joined_flat]
      simp only [List.getElem_cons_zero] at hm ⊢
      simp only [off, List.take_zero, List.map_nil, List.sum_nil, Nat.zero_add, List.flatMap_nil, List.nil_append]
      rw [List.take_append_of_le_length hm]
  | succ k ih =>
    intro ms m hk hm
    match ms, hk, hm with
    | [_], hk, _ => simp at hk
    | r :: r' :: ms, hk, hm =>
      simp only [List.getElem_cons_succ] at hm
      have := ih (r' :: ms) m (by simpa using hk) hm
      have hj : joined (r :: r' :: ms) = (seg r ++ b!".") ++ joined (r' :: ms) := by
        show seg r ++ c!"." :: joined (r' :: ms) = _
        simp
      have ho : off (r :: r' :: ms) (k + 1) + m = (seg r ++ b!".").length + (off (r' :: ms) k + m) := by
        simp only [off, List.take_succ_cons, List.map_cons, List.sum_cons, List.length_append, seg_length,
          List.length_cons, List.length_nil]
        omega
      rw [hj, ho, List.take_length_add_append, this]
      simp only [List.take_succ_cons, List.flatMap_cons, List.getElem_cons_succ]
      simp

end RamData

open RamData

theorem ramOfData_eq (fs : Fs) {iz : Bool} {base : Int} {r : Ram} (h : RamWF iz base r)
    (hb : InI32 base) (data : Str) :
    Discriminator.ramOfData fs (rbase iz base) (Json.ofInts r.addresses) data =
      (RamData.ofText fs data >>= fun handle => .ok { r with positions := (handle.get 0).2 }) := by
  have h1 : (Json.ofList [(b!"addresses", Json.ofInts r.addresses),
      (b!"data", Json.str data)]).mergePatch (rbase iz base) =
      .obj [(b!"addresses", Json.ofInts r.addresses), (b!"base", .int base),
        (b!"data", .str data), (b!"ignoreZero", .bool iz)] := rfl
  unfold Discriminator.ramOfData Ram.ofJson
  rw [h1]
  have k1 : (Json.obj [(b!"addresses", Json.ofInts r.addresses), (b!"base", .int base),
        (b!"data", .str data), (b!"ignoreZero", .bool iz)]).key b!"ignoreZero" = .ok (.bool iz) := rfl
  have k2 : (Json.obj [(b!"addresses", Json.ofInts r.addresses), (b!"base", .int base),
        (b!"data", .str data), (b!"ignoreZero", .bool iz)]).key b!"base" = .ok (.int base) := rfl
  have k3 : (Json.obj [(b!"addresses", Json.ofInts r.addresses), (b!"base", .int base),
        (b!"data", .str data), (b!"ignoreZero", .bool iz)]).key b!"addresses" = .ok (Json.ofInts r.addresses) := rfl
  have k4 : (Json.obj [(b!"addresses", Json.ofInts r.addresses), (b!"base", .int base),
        (b!"data", .str data), (b!"ignoreZero", .bool iz)]).key b!"data" = .ok (.str data) := rfl
  rw [k1, k2, k3, k4]
  simp only [Except.bind_ok, Json.asBool, Json.asInt_int hb, Json.asInts_ofInts _ h.addr, Json.asStr, h.limit]
  cases RamData.ofText fs data with
  | error e => rfl
  | ok handle =>
    simp only [Except.bind_ok]
    rw [← h.izEq, ← h.baseEq]

/-- Reading a file whose last, possibly incomplete text is `s`. -/
theorem fileRams_cut (fs : Fs) (it : IterOrder) {iz : Bool} {base : Int} (hb : InI32 base) (s : Str)
    (hs : c!"." ∉ s) (k : Nat) :
    ∀ (rs : List Ram) (hk : k < rs.length), (∀ r ∈ rs, RamWF iz base r) → (∀ r ∈ rs, r.positions ≠ []) →
    (∀ r ∈ rs, 16 * r.positions.length < 2147483648) →
    Discriminator.fileRams fs (rbase iz base) (rs.map (fun r => Json.ofInts r.addresses))
      (some (((rs.map (fun r => it.ord r.positions)).take k).flatMap (fun r => seg r ++ b!".") ++ s)) =
    (RamData.ofText fs s >>= fun handle =>
      .ok ((rs.take k).map (reload it) ++ [{ rs[k] with positions := (handle.get 0).2 }])) := by
  induction k with
  | zero =>
    intro rs hk h hne hlen
    cases rs with
    | nil => simp at hk
    | cons r rs =>
      simp only [List.map_cons, Discriminator.fileRams, List.take_zero, List.flatMap_nil, List.nil_append,
        List.getElem_cons_zero, List.map_nil]
      rw [getline_no_dot _ hs, ramOfData_eq fs (h r (by simp)) hb]
      cases RamData.ofText fs s with
      | error e => rfl
      | ok handle =>
        simp only [Except.bind_ok]
        cases rs <;> rfl
  | succ k ih =>
    intro rs hk h hne hlen
    cases rs with
    | nil => simp at hk
    | cons r rs =>
      have hr := ramOfData_seg fs it (h r (by simp)) hb (hne r (by simp)) (hlen r (by simp))
      have := ih rs (by simpa using hk) (fun r hr => h r (List.mem_cons_of_mem _ hr))
        (fun r hr => hne r (List.mem_cons_of_mem _ hr)) (fun r hr => hlen r (List.mem_cons_of_mem _ hr))
      have hj : (((r :: rs).map (fun r => it.ord r.positions)).take (k + 1)).flatMap (fun r => seg r ++ b!".") ++ s =
          seg (it.ord r.positions) ++ c!"." ::
            (((rs.map (fun r => it.ord r.positions)).take k).flatMap (fun r => seg r ++ b!".") ++ s) := by
        simp [List.take_succ_cons]
      rw [hj, List.map_cons (f := fun r : Ram => Json.ofInts r.addresses), Discriminator.fileRams,
        getline_append_dot _ _ (seg_no_dot _)]
      simp only
      rw [hr, Except.bind_ok, this]
      cases RamData.ofText fs s with
      | error e => rfl
      | ok handle => rfl

end Wis
