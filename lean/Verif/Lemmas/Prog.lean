import Verif.Spec.Threads
/-!
# Interleavings of programs: general facts
-/

namespace Wis
open Spec

set_option linter.unusedSectionVars false
variable {L : Type} [DecidableEq L] {V : L → Type} {α β : Type}

theorem Store.upd_self (m : Store V) (l : L) (f : V l → V l) : m.upd l f l = f (m l) := by
  unfold Store.upd
  rw [dif_pos rfl]

theorem Store.upd_ne (m : Store V) {l l' : L} (f : V l → V l) (h : l' ≠ l) : m.upd l f l' = m l' := by
  unfold Store.upd
  rw [dif_neg h]

theorem Store.upd_id (m : Store V) (l : L) : m.upd l (fun v => v) = m := by
  funext l'
  by_cases h : l' = l
  · subst h; rw [Store.upd_self]
  · rw [Store.upd_ne m _ h]

theorem Prog.run_bind (p : Prog V α) (f : α → Prog V β) : ∀ m : Store V, (p.bind f).run m = (f (p.run m).2).run (p.run m).1 := by
  induction p with
  | done a => intro m; rfl
  | read l next ih => intro m; exact ih (m l) m
  | write l u next ih => intro m; exact ih (m.upd l u)

namespace Prog

/-- The program accesses only locations in `F`, writes only those in `W`, and keeps `ok`, if what it reads is `ok`. -/
def Uses (F W : L → Prop) (ok : ∀ l, V l → Prop) : Prog V α → Prop
  | .done _ => True
  | .read l next => F l ∧ ∀ v, ok l v → (next v).Uses F W ok
  | .write l u next => F l ∧ W l ∧ (∀ v, ok l v → ok l (u v)) ∧ next.Uses F W ok

theorem Uses.bind {F W : L → Prop} {ok : ∀ l, V l → Prop} {p : Prog V α} {f : α → Prog V β} (h : p.Uses F W ok)
    (hf : ∀ a, (f a).Uses F W ok) : (p.bind f).Uses F W ok := by
  induction p with
  | done a => exact hf a
  | read l next ih => exact ⟨h.1, fun v hv => ih v (h.2 v hv)⟩
  | write l u next ih => exact ⟨h.1, h.2.1, h.2.2.1, ih h.2.2.2⟩

theorem Uses.mono {F F' W W' : L → Prop} {ok : ∀ l, V l → Prop} {p : Prog V α} (h : p.Uses F W ok)
    (hF : ∀ l, F l → F' l) (hW : ∀ l, W l → W' l) : p.Uses F' W' ok := by
  induction p with
  | done a => trivial
  | read l next ih => exact ⟨hF l h.1, fun v hv => ih v (h.2 v hv)⟩
  | write l u next ih => exact ⟨hF l h.1, hW l h.2.1, h.2.2.1, ih h.2.2.2⟩

/-- The result depends only on the locations used. -/
theorem Uses.agree {F W : L → Prop} {ok : ∀ l, V l → Prop} {p : Prog V α} (h : p.Uses F W ok) :
    ∀ {m m' : Store V}, (∀ l, F l → ok l (m l)) → (∀ l, F l → m l = m' l) →
      (p.run m).2 = (p.run m').2 ∧ ∀ l, F l → (p.run m).1 l = (p.run m').1 l := by
  induction p with
  | done a => intro m m' _ hm; exact ⟨rfl, hm⟩
  | read l next ih =>
    intro m m' ho hm
    show ((next (m l)).run m).2 = ((next (m' l)).run m').2 ∧ ∀ l', F l' → ((next (m l)).run m).1 l' = ((next (m' l)).run m').1 l'
    rw [← hm l h.1]
    exact ih (m l) (h.2 _ (ho l h.1)) ho hm
  | write l u next ih =>
    intro m m' ho hm
    refine ih h.2.2.2 (fun l' h' => ?_) (fun l' h' => ?_)
    · by_cases e : l' = l
      · subst e; rw [Store.upd_self]; exact h.2.2.1 _ (ho _ h')
      · rw [Store.upd_ne m _ e]; exact ho _ h'
    · by_cases e : l' = l
      · subst e; rw [Store.upd_self, Store.upd_self, hm _ h']
      · rw [Store.upd_ne m _ e, Store.upd_ne m' _ e]; exact hm _ h'

theorem Uses.run_ok {F W : L → Prop} {ok : ∀ l, V l → Prop} {p : Prog V α} (h : p.Uses F W ok) :
    ∀ {m : Store V}, (∀ l, ok l (m l)) → (∀ l, ok l ((p.run m).1 l)) ∧ ∀ l, ¬ W l → (p.run m).1 l = m l := by
  induction p with
  | done a => intro m ho; exact ⟨ho, fun _ _ => rfl⟩
  | read l next ih => intro m ho; exact ih (m l) (h.2 _ (ho l)) ho
  | write l u next ih =>
    intro m ho
    have h1 : ∀ l', ok l' (m.upd l u l') := fun l' => by
      by_cases e : l' = l
      · subst e; rw [Store.upd_self]; exact h.2.2.1 _ (ho _)
      · rw [Store.upd_ne m _ e]; exact ho _
    obtain ⟨a, b⟩ := ih h.2.2.2 h1
    refine ⟨a, fun l' hl => ?_⟩
    show (next.run (m.upd l u)).1 l' = m l'
    rw [b l' hl, Store.upd_ne]
    intro e; subst e; exact hl h.2.1

end Prog

namespace Spec.Config

theorem step_length (c : Config V α) (t : Nat) : (c.step t).threads.length = c.threads.length := by
  unfold step
  split <;> simp

theorem exec_append (ts ts' : List Nat) : ∀ c : Config V α, c.exec (ts ++ ts') = (c.exec ts).exec ts' := by
  induction ts with
  | nil => intro c; rfl
  | cons t ts ih => intro c; exact ih (c.step t)

/-- Threads with separate memory: thread `t` uses locations in `F t`, writes those in `W t`, which no other thread uses. -/
structure Separate (F W : Nat → L → Prop) (ok : ∀ l, V l → Prop) (c : Config V α) : Prop where
  uses : ∀ (t : Nat) p, c.threads[t]? = some p → p.Uses (F t) (W t) ok
  apart : ∀ t t' l, t ≠ t' → W t l → ¬ F t' l
  okay : ∀ l, ok l (c.mem l)

theorem Separate.step {F W : Nat → L → Prop} {ok : ∀ l, V l → Prop} {c : Config V α} (h : Separate F W ok c) (t : Nat) :
    Separate F W ok (c.step t) ∧
    (∀ (t' : Nat) p, c.threads[t']? = some p → ∃ p', (c.step t).threads[t']? = some p' ∧
      (p'.run (c.step t).mem).2 = (p.run c.mem).2 ∧ ∀ l, F t' l → (p'.run (c.step t).mem).1 l = (p.run c.mem).1 l) ∧
    (∀ l, (∀ t', t' < c.threads.length → ¬ W t' l) → (c.step t).mem l = c.mem l) := by
  unfold Config.step
  split
  · rename_i l next hp
    have hu := h.uses t _ hp
    have hlt : t < c.threads.length := (List.getElem?_eq_some_iff.mp hp).1
    refine ⟨⟨?_, h.apart, h.okay⟩, ?_, fun _ _ => rfl⟩
    · intro t' p hp'
      by_cases e : t = t'
      · subst e
        rw [List.getElem?_set_self hlt] at hp'
        injection hp' with hp'
        subst hp'
        exact hu.2 _ (h.okay l)
      · rw [List.getElem?_set_ne e] at hp'
        exact h.uses t' p hp'
    · intro t' p hp'
      by_cases e : t = t'
      · subst e
        rw [hp] at hp'
        injection hp' with hp'
        subst hp'
        exact ⟨_, List.getElem?_set_self hlt, rfl, fun _ _ => rfl⟩
      · exact ⟨p, by rw [List.getElem?_set_ne e]; exact hp', rfl, fun _ _ => rfl⟩
  · rename_i l u next hp
    have hu := h.uses t _ hp
    have hlt : t < c.threads.length := (List.getElem?_eq_some_iff.mp hp).1
    refine ⟨⟨?_, h.apart, ?_⟩, ?_, ?_⟩
    · intro t' p hp'
      by_cases e : t = t'
      · subst e
        rw [List.getElem?_set_self hlt] at hp'
        injection hp' with hp'
        subst hp'
        exact hu.2.2.2
      · rw [List.getElem?_set_ne e] at hp'
        exact h.uses t' p hp'
    · intro l'
      show ok l' (c.mem.upd l u l')
      by_cases e : l' = l
      · subst e; rw [Store.upd_self]; exact hu.2.2.1 _ (h.okay _)
      · rw [Store.upd_ne _ _ e]; exact h.okay _
    · intro t' p hp'
      by_cases e : t = t'
      · subst e
        rw [hp] at hp'
        injection hp' with hp'
        subst hp'
        exact ⟨_, List.getElem?_set_self hlt, rfl, fun _ _ => rfl⟩
      · refine ⟨p, by rw [List.getElem?_set_ne e]; exact hp', ?_⟩
        have := (h.uses t' p hp').agree (m := c.mem) (m' := c.mem.upd l u) (fun l' _ => h.okay l') (fun l' h' => by
          rw [Store.upd_ne]
          intro e'; subst e'
          exact h.apart t t' _ e hu.2.1 h')
        exact ⟨this.1.symm, fun l' h' => (this.2 l' h').symm⟩
    · intro l' h'
      exact Store.upd_ne _ _ (by rintro rfl; exact h' t hlt hu.2.1)
  · exact ⟨h, fun t' p hp' => ⟨p, hp', rfl, fun _ _ => rfl⟩, fun _ _ => rfl⟩

theorem Separate.exec {F W : Nat → L → Prop} {ok : ∀ l, V l → Prop} (ts : List Nat) : ∀ {c : Config V α}, Separate F W ok c →
    Separate F W ok (c.exec ts) ∧
    (∀ (t : Nat) p, c.threads[t]? = some p → ∃ p', (c.exec ts).threads[t]? = some p' ∧
      (p'.run (c.exec ts).mem).2 = (p.run c.mem).2 ∧ ∀ l, F t l → (p'.run (c.exec ts).mem).1 l = (p.run c.mem).1 l) ∧
    (∀ l, (∀ t, t < c.threads.length → ¬ W t l) → (c.exec ts).mem l = c.mem l) := by
  induction ts with
  | nil => intro c h; exact ⟨h, fun t p hp => ⟨p, hp, rfl, fun _ _ => rfl⟩, fun _ _ => rfl⟩
  | cons t ts ih =>
    intro c h
    obtain ⟨h1, h2, h3⟩ := h.step t
    obtain ⟨k1, k2, k3⟩ := ih h1
    refine ⟨k1, ?_, ?_⟩
    · intro t' p hp
      obtain ⟨p', hp', e1, e2⟩ := h2 t' p hp
      obtain ⟨p'', hp'', f1, f2⟩ := k2 t' p' hp'
      exact ⟨p'', hp'', f1.trans e1, fun l hl => (f2 l hl).trans (e2 l hl)⟩
    · intro l hl
      exact (k3 l (fun t' h' => hl t' (by rw [step_length] at h'; exact h'))).trans (h3 l hl)

theorem about_uses {F W : L → Prop} {ok : ∀ l, V l → Prop} {p : Prog V α} (h : p.Uses F W ok) {l : L} {w : Bool} (ha : About p l w) :
    F l ∧ (w = true → W l) := by
  cases p with
  | done a => cases ha
  | read l' next => obtain ⟨rfl, rfl⟩ := ha; exact ⟨h.1, fun e => by cases e⟩
  | write l' u next => obtain ⟨rfl, rfl⟩ := ha; exact ⟨h.1, fun _ => h.2.1⟩

/-- No data race. -/
theorem Separate.no_race {F W : Nat → L → Prop} {ok : ∀ l, V l → Prop} {c : Config V α} (h : Separate F W ok c) : ¬ c.Race := by
  rintro ⟨t, t', p, p', l, w, w', hne, hp, hp', ha, ha', hw⟩
  obtain ⟨f1, w1⟩ := about_uses (h.uses t p hp) ha
  obtain ⟨f2, w2⟩ := about_uses (h.uses t' p' hp') ha'
  rcases hw with hw | hw
  · exact h.apart t t' l hne (w1 hw) f2
  · exact h.apart t' t l (fun e => hne e.symm) (w2 hw) f1

/-- Finished threads got the result they get alone. -/
theorem Separate.finished {F W : Nat → L → Prop} {ok : ∀ l, V l → Prop} {c : Config V α} (h : Separate F W ok c) (ts : List Nat)
    {t : Nat} {p : Prog V α} {a : α} (hp : c.threads[t]? = some p) (hf : (c.exec ts).Finished t a) :
    a = (p.run c.mem).2 ∧ ∀ l, F t l → (c.exec ts).mem l = (p.run c.mem).1 l := by
  obtain ⟨p', hp', e1, e2⟩ := (h.exec ts).2.1 t p hp
  rw [show (c.exec ts).threads[t]? = some (.done a) from hf] at hp'
  injection hp' with hp'
  subst hp'
  exact ⟨e1, e2⟩

/-- One thread alone can finish. -/
theorem run_alone (p : Prog V α) : ∀ (c : Config V α) (t : Nat), c.threads[t]? = some p → ∃ n : Nat,
    (c.exec (List.replicate n t)) = ⟨(p.run c.mem).1, c.threads.set t (.done (p.run c.mem).2)⟩ := by
  induction p with
  | done a =>
    intro c t h
    refine ⟨0, ?_⟩
    have : c.threads.set t (.done a) = c.threads := by
      obtain ⟨hlt, h⟩ := List.getElem?_eq_some_iff.mp h
      rw [← h, List.set_getElem_self]
    show c = ⟨c.mem, c.threads.set t (.done a)⟩
    rw [this]
  | read l next ih =>
    intro c t h
    have hlt : t < c.threads.length := (List.getElem?_eq_some_iff.mp h).1
    obtain ⟨n, hn⟩ := ih (c.mem l) ⟨c.mem, c.threads.set t (next (c.mem l))⟩ t (List.getElem?_set_self hlt)
    refine ⟨n + 1, ?_⟩
    show (c.step t).exec (List.replicate n t) = _
    have : c.step t = ⟨c.mem, c.threads.set t (next (c.mem l))⟩ := by unfold step; rw [h]
    rw [this, hn]
    show Config.mk _ ((c.threads.set t (next (c.mem l))).set t _) = _
    rw [List.set_set]
    rfl
  | write l u next ih =>
    intro c t h
    have hlt : t < c.threads.length := (List.getElem?_eq_some_iff.mp h).1
    obtain ⟨n, hn⟩ := ih ⟨c.mem.upd l u, c.threads.set t next⟩ t (List.getElem?_set_self hlt)
    refine ⟨n + 1, ?_⟩
    show (c.step t).exec (List.replicate n t) = _
    have : c.step t = ⟨c.mem.upd l u, c.threads.set t next⟩ := by unfold step; rw [h]
    rw [this, hn]
    show Config.mk _ ((c.threads.set t next).set t _) = _
    rw [List.set_set]
    rfl

/-- From every configuration all threads can finish: nothing blocks. -/
theorem can_finish (c : Config V α) : ∃ ts : List Nat, (c.exec ts).AllFinished := by
  have key : ∀ (n : Nat) (c : Config V α), n ≤ c.threads.length → ∃ ts : List Nat,
      (c.exec ts).threads.length = c.threads.length ∧ ∀ t, t < n → ∃ a, (c.exec ts).threads[t]? = some (.done a) := by
    intro n
    induction n with
    | zero => intro c _; exact ⟨[], rfl, fun t h => absurd h (by omega)⟩
    | succ n ih =>
      intro c hn
      obtain ⟨ts, hl, hd⟩ := ih c (by omega)
      obtain ⟨p, hp⟩ : ∃ p, (c.exec ts).threads[n]? = some p := ⟨_, List.getElem?_eq_getElem (by omega)⟩
      obtain ⟨k, hk⟩ := run_alone p (c.exec ts) n hp
      refine ⟨ts ++ List.replicate k n, ?_, ?_⟩
      · rw [exec_append, hk]; simpa using hl
      · intro t ht
        rw [exec_append, hk]
        by_cases e : n = t
        · subst e; exact ⟨_, List.getElem?_set_self (by omega)⟩
        · obtain ⟨a, ha⟩ := hd t (by omega)
          exact ⟨a, by show (List.set _ _ _)[t]? = _; rw [List.getElem?_set_ne e]; exact ha⟩
  obtain ⟨ts, hl, hd⟩ := key c.threads.length c (Nat.le_refl _)
  refine ⟨ts, fun p hp => ?_⟩
  obtain ⟨t, ht, e⟩ := List.mem_iff_getElem.mp hp
  obtain ⟨a, ha⟩ := hd t (by omega)
  rw [List.getElem?_eq_getElem ht, e] at ha
  injection ha with ha
  exact ⟨a, ha⟩

end Spec.Config

/-- Every write, done twice, is the write done once. -/
def Prog.Idem : Prog V α → Prop
  | .done _ => True
  | .read _ next => ∀ v, (next v).Idem
  | .write _ u next => (∀ v, u (u v) = u v) ∧ next.Idem

/-- Two threads that make the same call in lockstep leave the memory as one of them would. -/
theorem lockstep {p : Prog V α} (h : p.Idem) : ∀ m : Store V, ∃ ts : List Nat,
    (Config.mk m [p, p]).exec ts = ⟨(p.run m).1, [.done (p.run m).2, .done (p.run m).2]⟩ := by
  induction p with
  | done a => intro m; exact ⟨[], rfl⟩
  | read l next ih =>
    intro m
    obtain ⟨ts, hts⟩ := ih (m l) (h (m l)) m
    exact ⟨0 :: 1 :: ts, hts⟩
  | write l u next ih =>
    intro m
    obtain ⟨ts, hts⟩ := ih h.2 (m.upd l u)
    refine ⟨0 :: 1 :: ts, ?_⟩
    have : (m.upd l u).upd l u = m.upd l u := by
      funext l'
      by_cases e : l' = l
      · subst e; rw [Store.upd_self, Store.upd_self]; exact h.1 _
      · rw [Store.upd_ne _ _ e]
    show (Config.mk ((m.upd l u).upd l u) [next, next]).exec ts = _
    rw [this]
    exact hts

end Wis

namespace Wis
open Spec

variable {L : Type} [DecidableEq L] {V : L → Type} {α β : Type}

theorem Store.upd_comm (m : Store V) {l l' : L} (u : V l → V l) (u' : V l' → V l') (h : l ≠ l') :
    (m.upd l u).upd l' u' = (m.upd l' u').upd l u := by
  funext x
  by_cases e : x = l'
  · subst e
    rw [Store.upd_self, Store.upd_ne _ _ (fun e => h e.symm), Store.upd_ne _ _ (fun e => h e.symm), Store.upd_self]
  · rw [Store.upd_ne _ _ e]
    by_cases e' : x = l
    · subst e'; rw [Store.upd_self, Store.upd_self, Store.upd_ne _ _ e]
    · rw [Store.upd_ne _ _ e', Store.upd_ne _ _ e', Store.upd_ne _ _ e]

namespace Spec.Config

/-- A call that changes anything races with a second call of the same kind. -/
theorem self_race (p : Prog V α) : ∀ m : Store V, (p.run m).1 ≠ m → ∃ ts : List Nat, ((Config.mk m [p, p]).exec ts).Race := by
  induction p with
  | done a => intro m h; exact absurd rfl h
  | read l next ih =>
    intro m h
    obtain ⟨ts, hts⟩ := ih (m l) m h
    exact ⟨0 :: 1 :: ts, hts⟩
  | write l u next ih =>
    intro m _
    exact ⟨[], 0, 1, _, _, l, true, true, by omega, rfl, rfl, ⟨rfl, rfl⟩, ⟨rfl, rfl⟩, .inl rfl⟩

/-- A thread whose result depends on a location gets to the point where it accesses it. -/
theorem reach {p : Prog V α} (l : L) (u : V l → V l) (q : Prog V α) : ∀ m : Store V, (q.run (m.upd l u)).2 ≠ (q.run m).2 →
    ∃ (ts : List Nat) (q' : Prog V α) (w : Bool), ((Config.mk m [p, q]).exec ts).threads = [p, q'] ∧ About q' l w := by
  induction q with
  | done a => intro m h; exact absurd rfl h
  | read l' next ih =>
    intro m h
    by_cases e : l' = l
    · subst e; exact ⟨[], _, false, rfl, rfl, rfl⟩
    · have hv : m.upd l u l' = m l' := Store.upd_ne _ _ e
      have h' : ((next (m l')).run (m.upd l u)).2 ≠ ((next (m l')).run m).2 := by
        have : ((next (m.upd l u l')).run (m.upd l u)).2 ≠ ((next (m l')).run m).2 := h
        rw [hv] at this
        exact this
      obtain ⟨ts, q', w, h1, h2⟩ := ih (m l') m h'
      exact ⟨1 :: ts, q', w, h1, h2⟩
  | write l' u' next ih =>
    intro m h
    by_cases e : l' = l
    · subst e; exact ⟨[], _, true, rfl, rfl, rfl⟩
    · have h' : (next.run ((m.upd l' u').upd l u)).2 ≠ (next.run (m.upd l' u')).2 := by
        rw [Store.upd_comm m u' u e]
        exact h
      obtain ⟨ts, q', w, h1, h2⟩ := ih (m.upd l' u') h'
      exact ⟨1 :: ts, q', w, h1, h2⟩

/-- If the result of a thread differs after what another does, the two have a data race. -/
theorem race_of_influence (q : Prog V α) (p : Prog V α) : ∀ m : Store V, (q.run (p.run m).1).2 ≠ (q.run m).2 →
    ∃ ts : List Nat, ((Config.mk m [p, q]).exec ts).Race := by
  induction p with
  | done a => intro m h; exact absurd rfl h
  | read l next ih =>
    intro m h
    obtain ⟨ts, hts⟩ := ih (m l) m h
    exact ⟨0 :: ts, hts⟩
  | write l u next ih =>
    intro m h
    by_cases e : (q.run (m.upd l u)).2 = (q.run m).2
    · obtain ⟨ts, hts⟩ := ih (m.upd l u) (by rw [e]; exact h)
      exact ⟨0 :: ts, hts⟩
    · obtain ⟨ts, q', w, h1, h2⟩ := reach (p := .write l u next) l u q m e
      exact ⟨ts, 0, 1, .write l u next, q', l, true, w, by omega, by rw [h1]; rfl, by rw [h1]; rfl, ⟨rfl, rfl⟩, h2, .inl rfl⟩

/-- The memory at the end does not depend on the schedule. -/
theorem Separate.final {F W : Nat → L → Prop} {ok : ∀ l, V l → Prop} {c : Config V α} (h : Separate F W ok c)
    (hWF : ∀ t l, W t l → F t l) {ts ts' : List Nat} (hf : (c.exec ts).AllFinished) (hf' : (c.exec ts').AllFinished) :
    (c.exec ts).mem = (c.exec ts').mem := by
  have key : ∀ ts, (c.exec ts).AllFinished → ∀ t p, c.threads[t]? = some p → ∀ l, F t l → (c.exec ts).mem l = (p.run c.mem).1 l := by
    intro ts hf t p hp l hl
    obtain ⟨p', hp', _, e2⟩ := (h.exec ts).2.1 t p hp
    obtain ⟨a, rfl⟩ := hf p' (List.mem_of_getElem? hp')
    exact e2 l hl
  funext l
  by_cases hw : ∃ t, t < c.threads.length ∧ W t l
  · obtain ⟨t, ht, hw⟩ := hw
    have hp := List.getElem?_eq_getElem ht
    rw [key ts hf t _ hp l (hWF t l hw), key ts' hf' t _ hp l (hWF t l hw)]
  · have hn : ∀ t, t < c.threads.length → ¬ W t l := fun t ht hw' => hw ⟨t, ht, hw'⟩
    rw [(h.exec ts).2.2 l hn, (h.exec ts').2.2 l hn]

/-- Threads `ps` one after the other. -/
def inOrder : List (Prog V α) → Store V → Store V
  | [], m => m
  | p :: ps, m => inOrder ps (p.run m).1

/-- The threads can be run one after the other. -/
theorem run_in_order (ps : List (Prog V α)) : ∀ (m : Store V) (pre : List (Prog V α)), (∀ p ∈ pre, ∃ a, p = .done a) → ∃ ts : List Nat,
    ((Config.mk m (pre ++ ps)).exec ts).AllFinished ∧ ((Config.mk m (pre ++ ps)).exec ts).mem = inOrder ps m := by
  induction ps with
  | nil =>
    intro m pre h
    refine ⟨[], ?_, rfl⟩
    intro p hp
    rw [List.append_nil] at hp
    exact h p hp
  | cons p ps ih =>
    intro m pre h
    obtain ⟨n, hn⟩ := run_alone p (Config.mk m (pre ++ p :: ps)) pre.length (by simp)
    obtain ⟨ts, h1, h2⟩ := ih (p.run m).1 (pre ++ [.done (p.run m).2]) (by
      intro q hq
      rcases List.mem_append.mp hq with hq | hq
      · exact h q hq
      · exact ⟨_, List.mem_singleton.mp hq⟩)
    refine ⟨List.replicate n pre.length ++ ts, ?_⟩
    have e : (pre ++ p :: ps).set pre.length (.done (p.run m).2) = (pre ++ [.done (p.run m).2]) ++ ps := by simp
    rw [exec_append, hn]
    show ((Config.mk (p.run m).1 ((pre ++ p :: ps).set pre.length (.done (p.run m).2))).exec ts).AllFinished ∧
      ((Config.mk (p.run m).1 ((pre ++ p :: ps).set pre.length (.done (p.run m).2))).exec ts).mem = inOrder ps (p.run m).1
    rw [e]
    exact ⟨h1, h2⟩

/-- A thread alone gets to the point where it writes a location that it changes. -/
theorem reach_write {F W : L → Prop} {ok : ∀ l, V l → Prop} (p : Prog V α) : ∀ (c : Config V α) (t : Nat) (l : L), c.threads[t]? = some p →
    p.Uses F W ok → (∀ l, ok l (c.mem l)) → (p.run c.mem).1 l ≠ c.mem l → ∃ (n : Nat) (p' : Prog V α),
    (c.exec (List.replicate n t)).threads = c.threads.set t p' ∧ About p' l true ∧
    ∀ l', ¬ W l' ∨ l' = l → (c.exec (List.replicate n t)).mem l' = c.mem l' := by
  induction p with
  | done a => intro c t l _ _ _ h; exact absurd rfl h
  | read l0 next ih =>
    intro c t l h hu ho hne
    have hlt : t < c.threads.length := (List.getElem?_eq_some_iff.mp h).1
    obtain ⟨n, p', h1, h2, h3⟩ := ih (c.mem l0) ⟨c.mem, c.threads.set t (next (c.mem l0))⟩ t l (List.getElem?_set_self hlt) (hu.2 _ (ho l0)) ho hne
    refine ⟨n + 1, p', ?_⟩
    have : c.step t = ⟨c.mem, c.threads.set t (next (c.mem l0))⟩ := by unfold step; rw [h]
    show ((c.step t).exec (List.replicate n t)).threads = _ ∧ _ ∧ ∀ l', _ → ((c.step t).exec (List.replicate n t)).mem l' = _
    rw [this]
    exact ⟨by rw [h1, List.set_set], h2, h3⟩
  | write l0 u next ih =>
    intro c t l h hu ho hne
    have hlt : t < c.threads.length := (List.getElem?_eq_some_iff.mp h).1
    by_cases e : l = l0
    · subst e
      refine ⟨0, .write l u next, ?_, ⟨rfl, rfl⟩, fun _ _ => rfl⟩
      obtain ⟨hlt, h⟩ := List.getElem?_eq_some_iff.mp h
      show c.threads = _
      rw [← h, List.set_getElem_self]
    · have ho' : ∀ l', ok l' (c.mem.upd l0 u l') := fun l' => by
        by_cases e : l' = l0
        · subst e; rw [Store.upd_self]; exact hu.2.2.1 _ (ho _)
        · rw [Store.upd_ne _ _ e]; exact ho _
      have hne' : (next.run (c.mem.upd l0 u)).1 l ≠ (c.mem.upd l0 u) l := by
        rw [Store.upd_ne _ _ e]; exact hne
      obtain ⟨n, p', h1, h2, h3⟩ := ih ⟨c.mem.upd l0 u, c.threads.set t next⟩ t l (List.getElem?_set_self hlt) hu.2.2.2 ho' hne'
      refine ⟨n + 1, p', ?_⟩
      have : c.step t = ⟨c.mem.upd l0 u, c.threads.set t next⟩ := by unfold step; rw [h]
      show ((c.step t).exec (List.replicate n t)).threads = _ ∧ _ ∧ ∀ l', _ → ((c.step t).exec (List.replicate n t)).mem l' = _
      rw [this]
      refine ⟨by rw [h1, List.set_set], h2, fun l' hl => ?_⟩
      rw [h3 l' hl]
      exact Store.upd_ne _ _ (by
        rintro rfl
        rcases hl with hl | hl
        · exact hl hu.2.1
        · exact e hl.symm)

end Spec.Config
end Wis

namespace Wis
open Spec

variable {L : Type} [DecidableEq L] {V : L → Type} {α β : Type}

/-- Alone, the first write of the program is to this location. -/
def Prog.WritesFirst (loc : L) : Prog V α → Store V → Prop
  | .done _, _ => False
  | .read l next, m => (next (m l)).WritesFirst loc m
  | .write l _ _, _ => l = loc

omit [DecidableEq L] in
theorem Prog.WritesFirst.bind {loc : L} {p : Prog V α} {m : Store V} (h : p.WritesFirst loc m) (f : α → Prog V β) :
    (p.bind f).WritesFirst loc m := by
  induction p with
  | done a => cases h
  | read l next ih => exact ih (m l) h
  | write l u next ih => exact h

/-- Two threads whose first write is to the same location race. -/
theorem Spec.Config.first_race {loc : L} (q p : Prog V α) (m : Store V) (hp : p.WritesFirst loc m) (hq : q.WritesFirst loc m) :
    ∃ ts : List Nat, ((Config.mk m [p, q]).exec ts).Race := by
  induction p with
  | done a => cases hp
  | read l next ih =>
    obtain ⟨ts, hts⟩ := ih (m l) hp
    exact ⟨0 :: ts, hts⟩
  | write l u next ih0 =>
    clear ih0
    have hp : l = loc := hp
    subst hp
    induction q with
    | done a => cases hq
    | read l' next' ih =>
      obtain ⟨ts, hts⟩ := ih (m l') hq
      exact ⟨1 :: ts, hts⟩
    | write l' u' next' _ =>
      have hq : l' = l := hq
      subst hq
      exact ⟨[], 0, 1, _, _, l', true, true, by omega, rfl, rfl, ⟨rfl, rfl⟩, ⟨rfl, rfl⟩, .inl rfl⟩

omit [DecidableEq L] in
theorem Prog.Idem.bind {p : Prog V α} {f : α → Prog V β} (h : p.Idem) (hf : ∀ a, (f a).Idem) : (p.bind f).Idem := by
  induction p with
  | done a => exact hf a
  | read l next ih => exact fun v => ih v (h v)
  | write l u next ih => exact ⟨h.1, ih h.2⟩

end Wis
