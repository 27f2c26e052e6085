import Verif.Spec.Rand
import Verif.Lemmas.Rand
import Verif.Props.Json
import Verif.Props.Discriminator
import Verif.Props.Synthesizer
import Mathlib.Data.List.Permutation
import Mathlib.Data.Nat.Factorial.Basic
/-!
# C117 – C121: where the random numbers come from

`g : CRand` is any C library generator with any `random_shuffle`; `now` is the clock, in seconds.
-/

namespace Wis
open Spec

/-! ## C117: names of data files -/

theorem alphanum_at (k : Nat) (h : k < 61) : ∃ c, Str.at alphanum k = .ok c ∧ Alphanumeric c ∧ c ≠ 57 := by
  have key : ∀ k : Fin 61, match Str.at alphanum k.1 with
      | .ok c => (((65 ≤ c.toNat ∧ c.toNat ≤ 90) ∨ (97 ≤ c.toNat ∧ c.toNat ≤ 122) ∨ (48 ≤ c.toNat ∧ c.toNat ≤ 57)) ∧ c ≠ 57)
      | .error _ => False := by
    intro k
    match k with
    | ⟨k, hk⟩ =>
      simp only
      rw [Str.at_lt (show k < alphanum.length from Nat.lt_trans hk (by decide))]
      have : ∀ k : Fin 61, (fun c : Byte => ((65 ≤ c.toNat ∧ c.toNat ≤ 90) ∨ (97 ≤ c.toNat ∧ c.toNat ≤ 122) ∨
          (48 ≤ c.toNat ∧ c.toNat ≤ 57)) ∧ c ≠ 57) (alphanum[k.1]'(Nat.lt_trans k.2 (by decide))) := by decide +kernel
      exact this ⟨k, hk⟩
  have := key ⟨k, h⟩
  simp only at this
  cases hc : Str.at alphanum k with
  | error e => rw [hc] at this; exact this.elim
  | ok c => rw [hc] at this; exact ⟨c, rfl, this.1, this.2⟩

/-- C117: whatever the generator, the random part of a file name has the length asked for and consists of letters and digits
(the digit 9 is never used). -/
theorem C117_random_string (g : CRand) (n : Nat) : ∀ s : g.S, ∃ r, (getRandomString g n s).1 = .ok r ∧ r.length = n ∧
    ∀ c ∈ r, Alphanumeric c ∧ c ≠ 57 := by
  induction n with
  | zero => intro s; exact ⟨[], rfl, rfl, by simp⟩
  | succ n ih =>
    intro s
    obtain ⟨c, h1, h2, h3⟩ := alphanum_at ((g.rand s).1 % (alphanum.length - 1)) (Nat.mod_lt _ (by decide))
    obtain ⟨r, h4, h5, h6⟩ := ih (g.rand s).2
    refine ⟨c :: r, ?_, by simp [h5], ?_⟩
    · unfold getRandomString
      rw [h1]
      simp only
      revert h4
      cases getRandomString g n (g.rand s).2 with
      | mk a b => intro h4; simp only at h4; subst h4; rfl
    · intro c' hc'
      rcases List.mem_cons.mp hc' with rfl | hc'
      · exact ⟨h2, h3⟩
      · exact h6 c' hc'

theorem jsonG_random (g : CRand) (s : g.S) : ∃ r : Str, r.length = 10 ∧ (∀ c ∈ r, Alphanumeric c ∧ c ≠ 57) ∧
    ∀ (it : IterOrder) (fs : Fs) (d : Discriminator) (path : Str),
      (d.jsonG g it fs s true path).1 = d.json it fs true path r := by
  obtain ⟨r, h1, h2, h3⟩ := C117_random_string g 10 s
  refine ⟨r, h2, h3, fun it fs d path => ?_⟩
  unfold Discriminator.jsonG
  rw [if_pos rfl]
  revert h1
  cases getRandomString g 10 s with
  | mk a b => intro h1; simp only at h1; subst h1; rfl

theorem json_writes {it : IterOrder} {fs fs' : Fs} {d : Discriminator} {path r : Str} {j : Json}
    (h : d.json it fs true path r = .ok (fs', j)) (name : Str) (hne : name ≠ path ++ r ++ b!".wdpkg") : fs' name = fs name := by
  unfold Discriminator.json at h
  obtain ⟨p, hp, h⟩ := bind_eq_ok h
  unfold Discriminator.getRAMsData at hp
  rw [if_pos rfl] at hp
  obtain ⟨t, ht, hp⟩ := bind_eq_ok hp
  cases hp
  obtain ⟨c, hc, h⟩ := bind_eq_ok h
  obtain ⟨c', hc', h⟩ := bind_eq_ok h
  cases h
  unfold Fs.append
  exact if_neg hne

/-- C117: `json(true, path)` of a discriminator writes to one file, `path` followed by ten letters or digits and `.wdpkg`;
every other file is left alone. -/
theorem C117_file_name (g : CRand) (it : IterOrder) (fs : Fs) (s : g.S) (d : Discriminator) (path : Str) :
    ∃ r, r.length = 10 ∧ (∀ c ∈ r, Alphanumeric c ∧ c ≠ 57) ∧ (d.jsonG g it fs s true path).1 = d.json it fs true path r ∧
      ∀ fs' j, (d.jsonG g it fs s true path).1 = .ok (fs', j) →
        ∀ name, name ≠ path ++ r ++ b!".wdpkg" → fs' name = fs name := by
  obtain ⟨r, h2, h3, h⟩ := jsonG_random g s
  refine ⟨r, h2, h3, h it fs d path, ?_⟩
  intro fs' j hj
  rw [h] at hj
  exact json_writes hj

/-! ## C118: independent wirings -/

/-- C118 (partial): whatever the generator and the clock, the wiring drawn is a valid one: what is proved in C18 for all random
choices holds for the process. Missing: two models draw the same wiring when created in the same second (below). -/
theorem C118_valid_wiring_partial (g : CRand) (now : Nat) (s : g.S) (A n : Nat) (o : Options) (hm : o.mapping = [])
    (hi : o.indexes = []) :
    (2 ≤ A → A ≤ n → n + A ≤ 2147483647 → 2 ≤ o.base → o.base ^ A < 2 ^ 63 →
      ∃ d, (Discriminator.createG g now s A n o).1 = .ok d) ∧
    ∀ d, (Discriminator.createG g now s A n o).1 = .ok d →
      (d.getNumberOfRAMS = if o.completeAddressing then (n + A - 1) / A else n / A) ∧
      (∀ m ∈ d.mapping, m.length = A) ∧ WiredInside n d.mapping ∧
      (o.completeAddressing = true → ∀ i : Nat, i < n → (i : Int) ∈ d.mapping.flatten) ∧
      (o.completeAddressing = false → d.mapping.flatten.Nodup) := by
  obtain ⟨rnd, h⟩ := createG_eq g now s A n o
  rw [h]
  exact C18_default_wiring rnd A n o hm hi

theorem reseed_same (g : CRand) (now : Nat) (s s' : g.S) (bound : Nat) : reseed g now s bound = reseed g now s' bound := by
  rw [reseed_eq, reseed_eq]

/-- C118 fails: two discriminators created with the same arguments in the same second are equal, wiring included, whatever the
process did before, and leave the generator in the same state. -/
theorem C118_same_second (g : CRand) (now : Nat) (s s' : g.S) (A n : Int) (o : Options) :
    Discriminator.createG g now s A n o = Discriminator.createG g now s' A n o := by
  unfold Discriminator.createG
  rw [show reseed g now s 100000 = reseed g now s' 100000 from reseed_same g now s s' 100000]

/-- C118 fails for Wisards too: two Wisards created with the same arguments in the same second and then used alike are equal,
wirings included (`other` steps are what the rest of the process does to the generator in between). -/
theorem C118_same_second_wisard (g : CRand) (lhsFirst : Bool) (now : Nat) (s s' : g.S) (A : Int) (o : WisardOpts) (ops : List (GOp g.S)) :
    gplay g lhsFirst (Wisard.createG g now s A o).1 (Wisard.createG g now s A o).2 ops =
      gplay g lhsFirst (Wisard.createG g now s' A o).1 (Wisard.createG g now s' A o).2 ops := by
  unfold Wisard.createG
  rw [show reseed g now s 1000000 = reseed g now s' 1000000 from reseed_same g now s s' 1000000]

/-- The calls of a list of `WOp`s. -/
def wcall : WOp → Image × Str × Bool
  | .train _ img l => (img, l, true)
  | .leave img l => (.vec img, l, false)

/-- What is proved of Wisards for all random choices holds for processes: the Wisard of a process is the result of the same
calls with some random choices. -/
theorem C118_process (g : CRand) (lhsFirst : Bool) (ops : List (GOp g.S)) : ∀ (w : Wisard) (s : g.S),
    ∃ wops : List WOp, wops.map wcall = calls ops ∧ gplay g lhsFirst w s ops = wplay w wops := by
  induction ops with
  | nil => intro w s; exact ⟨[], rfl, rfl⟩
  | cons o ops ih =>
    intro w s
    cases o with
    | other s' => exact ih w s'
    | leave img l =>
      obtain ⟨wops, h1, h2⟩ := ih (w.leaveOneOut img l).1 s
      refine ⟨.leave img l :: wops, by rw [List.map_cons, h1]; rfl, ?_⟩
      simp only [gplay, h2, wplay, wstep]
    | train img l =>
      obtain ⟨rnd, hr⟩ := train1G_eq g lhsFirst s w img l
      obtain ⟨wops, h1, h2⟩ := ih (Wisard.train1G g lhsFirst s w img l).1.1 (Wisard.train1G g lhsFirst s w img l).2
      refine ⟨.train ⟨rnd, lhsFirst⟩ img l :: wops, by rw [List.map_cons, h1]; rfl, ?_⟩
      simp only [gplay, h2, wplay, wstep]
      rw [hr]

/-- C118 fails over the whole life of the library: for given arguments there are at most 100001 wirings, at all times and in all
processes. -/
theorem C118_few_wirings (g : CRand) (A n : Int) (o : Options) :
    ∃ L : List (List (List Int)), L.length ≤ 100001 ∧
      ∀ now s d, (Discriminator.createG g now s A n o).1 = .ok d → d.mapping ∈ L := by
  let f : Nat → Res Discriminator := fun k =>
    if o.mapping.length ≠ 0 then Discriminator.setRAMByMapping o.mapping n o.ignoreZero o.base
    else if o.indexes.length ≠ 0 then Discriminator.setRAMByIndex o.indexes n A o.ignoreZero o.base
    else (Discriminator.setRAMShuffleG g (g.srand k) n A o.ignoreZero o.completeAddressing o.base).1
  refine ⟨(List.range 100001).filterMap (fun k => match f k with | .ok d => some d.mapping | .error _ => none), ?_, ?_⟩
  · exact Nat.le_trans (List.length_filterMap_le _ _) (by rw [List.length_range])
  · intro now s d h
    refine List.mem_filterMap.mpr ⟨(g.rand (g.srand now)).1 % 100001, List.mem_range.mpr (Nat.mod_lt _ (by omega)), ?_⟩
    have hs : reseed g now s 100000 = g.srand ((g.rand (g.srand now)).1 % 100001) := reseed_eq g now s 100000
    have : f ((g.rand (g.srand now)).1 % 100001) = .ok d := by
      rw [← h]
      show (if _ then _ else _) = _
      unfold Discriminator.createG
      rw [hs]
      simp only
      split
      · rfl
      · split <;> rfl
    simp only [this]

theorem exists_not_mem {α : Type} (P L : List α) (hn : P.Nodup) (h : L.length < P.length) : ∃ x ∈ P, x ∉ L := by
  classical
  by_contra hc
  have hsub : P ⊆ L := fun x hx => by
    by_contra hx'
    exact hc ⟨x, hx, hx'⟩
  exact absurd (hn.subperm hsub).length_le (by omega)

/-- In particular, from nine input positions on, some wirings are never drawn. -/
theorem C118_wiring_never_drawn (g : CRand) (A : Int) (n : Nat) (hn : 9 ≤ n) (o : Options) :
    ∃ w : List Int, w.Perm ((List.range n).map Int.ofNat) ∧
      ∀ now s d, (Discriminator.createG g now s A n o).1 = .ok d → d.mapping.flatten ≠ w := by
  obtain ⟨L, h1, h2⟩ := C118_few_wirings g A n o
  obtain ⟨w, hw, hnot⟩ := exists_not_mem ((List.range n).map Int.ofNat).permutations (L.map List.flatten)
    (List.nodup_permutations _ ((List.nodup_range).map (fun a b h => Int.ofNat.inj h))) (by
      rw [List.length_permutations, List.length_map, List.length_map, List.length_range]
      have : Nat.factorial 9 ≤ Nat.factorial n := Nat.factorial_le hn
      have h9 : Nat.factorial 9 = 362880 := by decide
      omega)
  refine ⟨w, List.mem_permutations.mp hw, fun now s d hd he => hnot ?_⟩
  exact List.mem_map.mpr ⟨d.mapping, h2 now s d hd, he⟩

/-- Kernel canvases: two canvases created with the same arguments in the same second are equal. -/
theorem C118_same_second_canvas (f : Flt) (o : FOps) (g : CRand) (now : Nat) (s s' : g.S) (min max : o.F) (dim k b : Int) (deg : Rat)
    (ud : Bool) (c c' : KernelCanvas o) (h : (KernelCanvas.createG f o g now s min max dim k b deg ud).1 = .ok c)
    (h' : (KernelCanvas.createG f o g now s' min max dim k b deg ud).1 = .ok c') : c = c' := by
  have : (KernelCanvas.createG f o g now s min max dim k b deg ud).1 = (KernelCanvas.createG f o g now s' min max dim k b deg ud).1 := by
    unfold KernelCanvas.createG
    cases KernelCanvas.checkInputs k dim b deg <;> rfl
  rw [this, h'] at h
  exact (Except.ok.inj h).symm

/-! ## C119: two saved discriminators -/

/-- C119 fails: two discriminators created with the same arguments in the same second, trained as you like and each saved with
`json(true, path)`, get the same file name, and what is loaded from the second document votes with its first RAM like the
first discriminator, whenever loading succeeds. The process may do anything in between, except using the generator between the
creation of a discriminator and its saving. -/
theorem C119_same_second_collision (g : CRand) (now : Nat) (s s' : g.S) {A n : Int} {o : Options} {e : Discriminator}
    (hc : (Discriminator.createG g now s A n o).1 = .ok e) (hr : IntRange n o.base e.mapping) (h2 : 2 ≤ e.getNumberOfRAMS)
    (ops1 ops2 : List Op) (ht1 : LearntSomething e ops1) (hs : 16 * trains ops1 < 2147483648)
    (it : IterOrder) (fs : Fs) (path : Str) (hf : ∀ r : Str, fs (path ++ r ++ b!".wdpkg") = none) :
    (Discriminator.createG g now s' A n o).1 = .ok e ∧
    ∃ fs1 fs2 j1 j2,
      ((play e ops1).1.jsonG g it fs (Discriminator.createG g now s A n o).2 true path).1 = .ok (fs1, j1) ∧
      ((play e ops2).1.jsonG g it fs1 (Discriminator.createG g now s' A n o).2 true path).1 = .ok (fs2, j2) ∧
      (∃ r, r.length = 10 ∧ ∀ name, name ≠ path ++ r ++ b!".wdpkg" → fs2 name = fs name) ∧
      ∀ d', Discriminator.ofJson fs2 j2 = .ok d' → ∀ x v v1, d'.classify x = .ok v → (play e ops1).1.classify x = .ok v1 →
        v.head? = v1.head? := by
  have hss := C118_same_second g now s' s A n o
  refine ⟨by rw [hss]; exact hc, ?_⟩
  rw [hss]
  generalize (Discriminator.createG g now s A n o).2 = t
  obtain ⟨rnd, hrnd⟩ := createG_eq g now s A n o
  rw [hc] at hrnd
  obtain ⟨r, hr1, -, he⟩ := jsonG_random g t
  obtain ⟨fs1, fs2, j1, j2, k1, k2, k3⟩ := C29_collision_returns_old_data hrnd.symm hrnd.symm hr rfl h2 ops1 ops2 ht1 hs it fs path r (hf r)
  refine ⟨fs1, fs2, j1, j2, by rw [he]; exact k1, by rw [he]; exact k2, ⟨r, hr1, fun name hne => ?_⟩, k3⟩
  rw [json_writes k2 name hne, json_writes k1 name hne]

/-- A generator for the examples: a small linear congruential one. -/
def lcg : CRand := stdRand Nat (fun n => n) (fun s => ((s * 1103515245 + 12345) % 2147483648 / 65536, (s * 1103515245 + 12345) % 2147483648))

/-- C119 (partial): under different names (two saves in the same process state never have one by chance) both can be loaded:
saving the second leaves the file of the first alone, so what is loaded from the first document, after both were saved, is the
first discriminator. Missing: nothing makes the names different. -/
theorem C119_distinct_names_partial {rnd : Rnd} {A n : Int} {o : Options} {d0 : Discriminator}
    (hc : Discriminator.create rnd A n o = .ok d0) (hr : IntRange n o.base d0.mapping) (ops : List Op)
    (ht : LearntSomething d0 ops) (hs : 16 * trains ops < 2147483648)
    (g : CRand) (s s' : g.S) (it : IterOrder) (fs : Fs) (path : Str) (d2 : Discriminator)
    (hf : ∀ r : Str, fs (path ++ r ++ b!".wdpkg") = none) (hne : (getRandomString g 10 s).1 ≠ (getRandomString g 10 s').1) :
    ∃ fs1 j1, ((play d0 ops).1.jsonG g it fs s true path).1 = .ok (fs1, j1) ∧
      ∀ fs2 j2, (d2.jsonG g it fs1 s' true path).1 = .ok (fs2, j2) →
        ∃ d', Discriminator.ofJson fs2 j1 = .ok d' ∧ Indistinguishable (play d0 ops).1 d' := by
  obtain ⟨r, hr1, hr2, hr3⟩ := C117_random_string g 10 s
  obtain ⟨r', hr1', hr2', hr3'⟩ := C117_random_string g 10 s'
  have he : ∀ (u : g.S) (r : Str), (getRandomString g 10 u).1 = .ok r → ∀ (d : Discriminator) (fs : Fs),
      (d.jsonG g it fs u true path).1 = d.json it fs true path r := by
    intro u r hr d fs
    unfold Discriminator.jsonG
    rw [if_pos rfl]
    revert hr
    cases getRandomString g 10 u with
    | mk a b => intro hr; simp only at hr; subst hr; rfl
  obtain ⟨fs1, j1, k1, k2, k3⟩ := C29_fresh_file_roundtrip_partial hc hr ops ht hs it fs path r (hf r)
  refine ⟨fs1, j1, by rw [he s r hr1]; exact k1, fun fs2 j2 h2 => k3 fs2 ?_⟩
  rw [he s' r' hr1'] at h2
  apply json_writes h2
  intro heq
  have hrr : r ≠ r' := by
    intro h
    rw [hr1, hr1', h] at hne
    exact hne rfl
  exact hrr (List.append_cancel_left (List.append_cancel_right heq))

/-! ## C120: synthetic images -/

/-- C120 fails: all images made by a synthesizer (or by two synthesizers of the same mental image) in the same second are equal,
whatever the process does in between. -/
theorem C120_same_second (g : CRand) (now t1 t2 : Nat) (s s1 s2 s3 : g.S) (m : List Int) (a b : Synthesizer)
    (ha : (Synthesizer.createG g t1 s m).1 = .ok a) (hb : (Synthesizer.createG g t2 s1 m).1 = .ok b) :
    (a.makeG g now s2).1 = (b.makeG g now s3).1 := by
  obtain ⟨rnd, h⟩ := synthG_eq g t1 s m
  obtain ⟨rnd', h'⟩ := synthG_eq g t2 s1 m
  rw [makeG_eq, makeG_eq]
  rw [h] at ha
  rw [h'] at hb
  exact C80_shuffle_no_effect rnd rnd' m a b ha hb _

/-- C120 (partial): every image made is one of the threshold images of the mental image. Missing: the choice among them is a
function of the second. -/
theorem C120_make_partial (g : CRand) (t now : Nat) (s s' : g.S) (m : List Int) (hm : ∀ x ∈ m, InI32 x ∧ 0 ≤ x)
    (hpos : 0 < brightest m) : ∃ a, (Synthesizer.createG g t s m).1 = .ok a ∧
      ∃ k, k < (brightest m).toNat ∧ (a.makeG g now s').1 = .ok (thresholded m k) := by
  obtain ⟨rnd, h⟩ := synthG_eq g t s m
  obtain ⟨a, h1, h2⟩ := C66_make rnd m hm hpos
  refine ⟨a, by rw [h]; exact h1, (g.rand (g.srand now)).1 % (brightest m).toNat, Nat.mod_lt _ (by omega), ?_⟩
  rw [makeG_eq]
  exact h2 _

/-! ## C121: RAMs with random addresses -/

theorem randomAddresses_eq (g : CRand) (now : Nat) (e : Int) (he : 1 ≤ e) (n : Nat) : ∀ s : g.S,
    (Ram.randomAddresses g now e n s).1 =
      .ok (List.replicate n (((g.rand (g.srand now)).1 % e.toNat : Nat) : Int)) := by
  induction n with
  | zero => intro s; rfl
  | succ n ih =>
    intro s
    have hr : randint (g.rand (g.srand now)).1 0 (e - 1) = .ok (((g.rand (g.srand now)).1 % e.toNat : Nat) : Int) := by
      obtain ⟨k, hk⟩ : ∃ k : Nat, e = (k : Int) + 1 := ⟨(e - 1).toNat, by omega⟩
      subst hk
      rw [show (k : Int) + 1 - 1 = (k : Int) by omega, randint_reseed]
      rfl
    unfold Ram.randomAddresses randintG
    simp only [if_true, hr]
    have := ih (g.rand (g.srand now)).2
    revert this
    cases Ram.randomAddresses g now e n (g.rand (g.srand now)).2 with
    | mk a b => intro h; simp only at h; subst h; rfl

/-- C121 fails: a RAM made with random addresses (C++ only) reads one position of the image, over and over, for all its
addresses; only the clock decides which. -/
theorem C121_one_position (g : CRand) (now : Nat) (s : g.S) (A : Nat) (e : Int) (he : 1 ≤ e) (iz : Bool) (b : Int) (r : Ram)
    (h : (Ram.createRandom g now s A e iz b).1 = .ok r) :
    ∃ a : Int, 0 ≤ a ∧ a < e ∧ r = { addresses := List.replicate A a, ignoreZero := iz, base := b } := by
  refine ⟨(((g.rand (g.srand now)).1 % e.toNat : Nat) : Int), by omega, ?_, ?_⟩
  · have := Nat.mod_lt (g.rand (g.srand now)).1 (show 0 < e.toNat by omega)
    omega
  · unfold Ram.createRandom at h
    cases hl : Ram.checkLimitAddressSize A b with
    | error x => rw [hl] at h; cases h
    | ok u =>
      rw [hl] at h
      simp only at h
      have := randomAddresses_eq g now e he A s
      revert this h
      cases Ram.randomAddresses g now e A s with
      | mk x y =>
        intro h hx
        simp only at hx
        subst hx
        exact (Except.ok.inj h).symm

/-- So whatever such a RAM was trained with, it cannot tell apart two images that agree at one position. -/
theorem C121_blind (g : CRand) (now : Nat) (s : g.S) (A : Nat) (e : Int) (he : 1 ≤ e) (iz : Bool) (b : Int) (r : Ram)
    (h : (Ram.createRandom g now s A e iz b).1 = .ok r) :
    ∃ a : Int, 0 ≤ a ∧ a < e ∧ ∀ (imgs : List Image) (x y : Image), x.read a = y.read a →
      (imgs.foldl (fun r i => (r.train i).1) r).getVote x = (imgs.foldl (fun r i => (r.train i).1) r).getVote y := by
  obtain ⟨a, h0, h1, h2⟩ := C121_one_position g now s A e he iz b r h
  refine ⟨a, h0, h1, fun imgs x y hxy => ?_⟩
  have hadr : ∀ (imgs : List Image) (r : Ram), (imgs.foldl (fun r i => (r.train i).1) r).addresses = r.addresses := by
    intro imgs
    induction imgs with
    | nil => intro r; rfl
    | cons i is ih =>
      intro r
      rw [List.foldl_cons, ih]
      unfold Ram.train
      split
      · rfl
      · split
        · rfl
        · split <;> rfl
  unfold Ram.getVote
  rw [getIndex_congr (x := x) (y := y)]
  intro a' ha'
  rw [hadr, h2] at ha'
  rw [(List.mem_replicate.mp ha').2]
  exact hxy

/-- C121 (partial): creation succeeds for sizes within the limit and the addresses are inside the image. Missing: they are all
the same. -/
theorem C121_inside_partial (g : CRand) (now : Nat) (s : g.S) (A : Nat) (e : Int) (he : 1 ≤ e) (iz : Bool) (b : Int)
    (hl : Ram.checkLimitAddressSize A b = .ok ()) :
    ∃ r, (Ram.createRandom g now s A e iz b).1 = .ok r ∧ r.addresses.length = A ∧ ∀ a ∈ r.addresses, 0 ≤ a ∧ a < e := by
  have hex : ∃ r, (Ram.createRandom g now s A e iz b).1 = .ok r := by
    unfold Ram.createRandom
    rw [hl]
    have := randomAddresses_eq g now e he A s
    revert this
    cases Ram.randomAddresses g now e A s with
    | mk x y => intro hx; simp only at hx; subst hx; exact ⟨_, rfl⟩
  obtain ⟨r, hr⟩ := hex
  obtain ⟨a, h0, h1, h2⟩ := C121_one_position g now s A e he iz b r hr
  refine ⟨r, hr, by rw [h2]; simp, ?_⟩
  intro a' ha'
  rw [h2] at ha'
  rw [(List.mem_replicate.mp ha').2]
  exact ⟨h0, h1⟩

/-! ## Concrete cases -/

/-- libstdc++'s shuffle with a concrete generator: different seconds give different wirings. -/
example : (Discriminator.createG lcg 1700000000 (lcg.srand 0) 3 9 {}).1.map Discriminator.mapping =
      .ok [[3, 6, 1], [2, 7, 8], [4, 5, 0]] ∧
    (Discriminator.createG lcg 1700000001 (lcg.srand 0) 3 9 {}).1.map Discriminator.mapping =
      .ok [[1, 6, 2], [5, 7, 3], [8, 0, 4]] := by decide +kernel

/-- A process for C119: two discriminators of 3-bit RAMs on 9 pixels are created (in the second `now`), the first is trained
with `x`, the second with `y`, both are saved under the path `p`; the result of loading the second classifies `z`, and so does
the second itself. -/
def twoSaved (now : Nat) (x y z : List Int) : Res (List Int × List Int) := do
  let p1 := Discriminator.createG lcg now (lcg.srand 7) 3 9 {}
  let e1 ← p1.1
  let q1 := (e1.train (.vec x)).1.jsonG lcg IterOrder.id (fun _ => none) p1.2 true b!"p"
  let (fs1, _) ← q1.1
  let p2 := Discriminator.createG lcg now q1.2 3 9 {}
  let e2 ← p2.1
  let d2 := (e2.train (.vec y)).1
  let q2 := d2.jsonG lcg IterOrder.id fs1 p2.2 true b!"p"
  let (fs2, j2) ← q2.1
  let d' ← Discriminator.ofJson fs2 j2
  let v ← d'.classify (.vec z)
  let w ← d2.classify (.vec z)
  .ok (v, w)

/-- Loading succeeds, and the loaded discriminator does not know the image the second one was trained with. -/
example : twoSaved 1700000000 [1, 1, 1, 1, 1, 1, 1, 1, 1] [1, 0, 1, 0, 1, 0, 1, 0, 1] [1, 0, 1, 0, 1, 0, 1, 0, 1] = .ok ([0, 0, 0], [1, 1, 1]) := by
  decide +kernel

/-- The hypotheses of C119 are met by that process. -/
example : ∃ e, (Discriminator.createG lcg 1700000000 (lcg.srand 7) 3 9 {}).1 = .ok e ∧ IntRange 9 2 e.mapping ∧ 2 ≤ e.getNumberOfRAMS ∧
    LearntSomething e [.train (.vec [1, 1, 1, 1, 1, 1, 1, 1, 1])] :=
  ⟨⟨9, 0, [⟨[3, 6, 1], [], false, 2⟩, ⟨[2, 7, 8], [], false, 2⟩, ⟨[4, 5, 0], [], false, 2⟩]⟩, by decide +kernel, ⟨by decide, by decide, by decide⟩,
    by decide, ⟨[], _, [], rfl, rfl⟩⟩

/-- A synthesizer makes the same image all second long, and another one later. -/
example : ∀ a, (Synthesizer.createG lcg 5 (lcg.srand 1) [3, 1, 0, 2]).1 = .ok a →
    (a.makeG lcg 10 (lcg.srand 2)).1 = .ok [1, 0, 0, 1] ∧ (a.makeG lcg 10 (lcg.srand 3)).1 = .ok [1, 0, 0, 1] ∧
    (a.makeG lcg 11 (lcg.srand 3)).1 = .ok [1, 1, 0, 1] := by
  intro a h
  have : (Synthesizer.createG lcg 5 (lcg.srand 1) [3, 1, 0, 2]).1 = .ok ⟨[[(0, 1), (1, 1), (2, 1)], [(0, 1)], [], [(0, 1), (1, 1)]], 3⟩ := by
    decide +kernel
  rw [this] at h
  cases h
  decide +kernel

/-- A RAM with three random addresses. -/
example : (Ram.createRandom lcg 1700000000 (lcg.srand 0) 3 9 false 2).1 = .ok ⟨[1, 1, 1], [], false, 2⟩ ∧
    Ram.checkLimitAddressSize 3 2 = .ok () := by decide +kernel

/-- Two random strings of one process usually differ (the hypothesis of the partial theorem of C119). -/
example : (getRandomString lcg 10 (lcg.srand 1)).1 ≠ (getRandomString lcg 10 (lcg.srand 2)).1 := by decide +kernel

end Wis
