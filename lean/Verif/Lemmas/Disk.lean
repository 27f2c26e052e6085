import Verif.Spec.Disk
import Verif.Lemmas.Base64
/-!
# Lemmas about saves on a disk that may fail
-/

namespace Wis
open Spec

theorem written_append (ws ws' : List (Str × Str)) (fs : Fs) : written (ws ++ ws') fs = written ws' (written ws fs) := by
  unfold written; rw [List.foldl_append]

theorem Spec.Stored.trans {ws ws' : List (Str × Str)} {fs fs' fs'' : Fs} (h : Stored ws fs fs') (h' : Stored ws' fs' fs'') :
    Stored (ws ++ ws') fs fs'' := by
  induction h with
  | done => exact h'
  | lost name text _ ih => exact .lost name text (ih h')
  | part name text n _ ih => exact .part name text n (ih h')

/-- Every file but those written is as before. -/
theorem Spec.Stored.other {ws : List (Str × Str)} {fs fs' : Fs} (h : Stored ws fs fs') (name : Str)
    (hn : ∀ e ∈ ws, e.1 ≠ name) : fs' name = fs name := by
  induction h with
  | done => rfl
  | lost n t _ ih => exact ih fun e he => hn e (List.mem_cons_of_mem _ he)
  | part n t m _ ih =>
    rw [ih fun e he => hn e (List.mem_cons_of_mem _ he)]
    show (if name = n then _ else _) = _
    rw [if_neg (Ne.symm (hn (n, t) (List.mem_cons_self)))]

/-- What was in a file before is still there, at its beginning. -/
theorem Spec.Stored.keeps {ws : List (Str × Str)} {fs fs' : Fs} (h : Stored ws fs fs') (name old : Str)
    (ho : fs name = some old) : ∃ new, fs' name = some (old ++ new) := by
  induction h generalizing old with
  | done => exact ⟨[], by simpa using ho⟩
  | lost n t _ ih => exact ih old ho
  | part n t m _ ih =>
    rename_i ws fs fs' _
    by_cases hnm : name = n
    · obtain ⟨new, h1⟩ := ih (old ++ t.take m) (by show (if name = n then _ else _) = _; rw [if_pos hnm, ho]; rfl)
      exact ⟨t.take m ++ new, by rw [h1, List.append_assoc]⟩
    · exact ih old (by show (if name = n then _ else _) = _; rw [if_neg hnm]; exact ho)

theorem Spec.Saves.pure {α : Type} (a : Res α) : Saves (fun fs => a.map fun x => (fs, x)) (fun _ fs => a.map fun x => (fs, x)) [] a :=
  ⟨fun _ => rfl, fun _ _ _ => rfl, fun _ fs => ⟨fs, rfl, .done fs⟩⟩

theorem Spec.Saves.bind {α β : Type} {plain : Fs → Res (Fs × α)} {on : Disk → Fs → Res (Fs × α)} {ws : List (Str × Str)} {r : Res α}
    (h : Saves plain on ws r) {f : Fs × α → Res (Fs × β)} {g : Disk → Fs × α → Res (Fs × β)} {ws' : List (Str × Str)}
    {r' : α → Res β} (h' : ∀ a, r = .ok a → Saves (fun fs => f (fs, a)) (fun k fs => g k (fs, a)) ws' (r' a)) :
    Saves (fun fs => plain fs >>= f) (fun k fs => on k fs >>= g k) (ws ++ ws') (r >>= r') := by
  cases r with
  | error e =>
    refine ⟨fun fs => ?_, fun k fs hk => ?_, fun k fs => ⟨fs, ?_, ?_⟩⟩
    · rw [h.perfect]; rfl
    · obtain ⟨fs', h1, _⟩ := h.stored k fs
      show on k fs >>= g k = plain fs >>= f
      rw [h1, h.perfect]; rfl
    · obtain ⟨fs', h1, _⟩ := h.stored k fs
      show on k fs >>= g k = _
      rw [h1]; rfl
    · generalize ws ++ ws' = l
      induction l with
      | nil => exact .done fs
      | cons e l ih => exact .lost e.1 e.2 ih
  | ok a =>
    have h2 := h' a rfl
    refine ⟨fun fs => ?_, fun k fs hk => ?_, fun k fs => ?_⟩
    · show plain fs >>= f = _
      rw [h.perfect, written_append]
      exact h2.perfect (written ws fs)
    · show on k fs >>= g k = plain fs >>= f
      rw [h.enough k fs fun e he => hk e (List.mem_append_left _ he), h.perfect]
      exact h2.enough k _ fun e he => hk e (List.mem_append_right _ he)
    · obtain ⟨fs', h3, h4⟩ := h.stored k fs
      obtain ⟨fs'', h5, h6⟩ := h2.stored k fs'
      refine ⟨fs'', ?_, h4.trans h6⟩
      show on k fs >>= g k = _
      rw [h3]
      exact h5

theorem Spec.Saves.congr {α : Type} {plain plain' : Fs → Res (Fs × α)} {on on' : Disk → Fs → Res (Fs × α)} {ws ws' : List (Str × Str)}
    {r r' : Res α} (h : Saves plain on ws r) (h1 : ∀ fs, plain' fs = plain fs) (h2 : ∀ k fs, on' k fs = on k fs) (h3 : ws' = ws)
    (h4 : r' = r) : Saves plain' on' ws' r' := by
  rw [h3, h4, show plain' = plain from funext h1, show on' = on from funext fun k => funext (h2 k)]
  exact h

/-- One write. -/
theorem Spec.Saves.write {α : Type} (name text : Str) (a : α) :
    Saves (fun fs => .ok (fs.append name text, a)) (fun k fs => .ok (k.append fs name text, a)) [(name, text)] (.ok a) := by
  refine ⟨fun fs => rfl, fun k fs hk => ?_, fun k fs => ?_⟩
  · obtain ⟨n, h1, h2⟩ := hk (name, text) (List.mem_cons_self) fs
    show Except.ok (k.append fs name text, a) = _
    unfold Disk.append
    simp only at h1 h2
    rw [h1]
    simp only
    rw [List.take_of_length_le h2]
  · refine ⟨k.append fs name text, rfl, ?_⟩
    unfold Disk.append
    cases k.room fs name with
    | none => exact .lost name text (.done fs)
    | some n => exact .part name text n (.done _)

/-- A save that fails in any case. -/
theorem Spec.Saves.error {α : Type} (e : Err) (ws : List (Str × Str)) :
    Saves (α := α) (fun _ => .error e) (fun _ _ => .error e) ws (.error e) := by
  refine ⟨fun _ => rfl, fun _ _ _ => rfl, fun k fs => ⟨fs, rfl, ?_⟩⟩
  induction ws with
  | nil => exact .done fs
  | cons x ws ih => exact .lost x.1 x.2 ih

/-- A step that does not touch files. -/
theorem Spec.Saves.step {α β : Type} {plain : Fs → Res (Fs × α)} {on : Disk → Fs → Res (Fs × α)} {ws : List (Str × Str)} {r : Res α}
    (h : Saves plain on ws r) (f : α → Res β) :
    Saves (fun fs => plain fs >>= fun p => (f p.2).map fun b => (p.1, b)) (fun k fs => on k fs >>= fun p => (f p.2).map fun b => (p.1, b))
      ws (r >>= f) := by
  have := h.bind (f := fun p => (f p.2).map fun b => (p.1, b)) (g := fun _ p => (f p.2).map fun b => (p.1, b))
    (ws' := []) (r' := f) (fun a _ => Saves.pure (f a))
  rwa [List.append_nil] at this

end Wis
