import Verif.Model.Rand
import Verif.Lemmas.Base64
/-!
# The functions of `Model/Rand.lean` are those of the other modules, applied to the numbers drawn
-/

namespace Wis

/-- The `n`-th number drawn from state `s` on. -/
def CRand.draw (g : CRand) (s : g.S) : Nat → Nat
  | 0 => (g.rand s).1
  | n + 1 => CRand.draw g (g.rand s).2 n

/-- The choices made when a wiring is drawn from state `s` with `k` fillers. -/
def CRand.rnd (g : CRand) (s t : g.S) : Rnd := ⟨g.draw s, fun l => (g.shuffle t l).1, g.perm t⟩

theorem fillersG_eq (g : CRand) (rnd : Rnd) (e : Int) (n : Nat) : ∀ (s : g.S) (i : Nat), (∀ j, rnd.rand (i + j) = g.draw s j) →
    (Discriminator.fillersG g e n s).1 = Discriminator.fillers rnd e n i := by
  induction n with
  | zero => intro s i _; rfl
  | succ n ih =>
    intro s i h
    have h0 : rnd.rand i = (g.rand s).1 := h 0
    have hs := ih (g.rand s).2 (i + 1) (fun j => by rw [Nat.add_assoc, Nat.add_comm 1 j]; exact h (j + 1))
    unfold Discriminator.fillersG Discriminator.fillers randintG
    simp only [Bool.false_eq_true, if_false, h0]
    cases randint (g.rand s).1 0 (e - 1) with
    | error x => rfl
    | ok v =>
      rw [← hs]
      simp only [Except.bind_ok]
      cases hf : Discriminator.fillersG g e n (g.rand s).2 with
      | mk r s' => cases r <;> rfl

theorem setRAMShuffleG_eq (g : CRand) (s : g.S) (n A : Int) (iz ca : Bool) (b : Int) :
    ∃ rnd : Rnd, (Discriminator.setRAMShuffleG g s n A iz ca b).1 = Discriminator.setRAMShuffle rnd n A iz ca b := by
  have key : ∀ (k : Nat), ∃ rnd : Rnd, (∀ m, m = k → (Discriminator.fillersG g n m s).1 = Discriminator.fillers rnd n m 0) ∧
      ∀ m, m = k → ∀ l, rnd.shuffle l = (g.shuffle (Discriminator.fillersG g n m s).2 l).1 := by
    intro k
    refine ⟨g.rnd s (Discriminator.fillersG g n k s).2, ?_, ?_⟩
    · intro m _
      exact fillersG_eq g _ n m s 0 (fun j => by rw [Nat.zero_add]; rfl)
    · intro m hm l; subst hm; rfl
  unfold Discriminator.setRAMShuffleG Discriminator.setRAMShuffle
  cases Discriminator.checkAddressSize n A with
  | error e => exact ⟨Rnd.id, rfl⟩
  | ok _ =>
    cases Discriminator.checkBase b with
    | error e => exact ⟨Rnd.id, rfl⟩
    | ok _ =>
      simp only [Except.bind_ok]
      generalize (if (ca && decide (n.tmod A > 0)) = true then i32 (n + (A - n.tmod A)) else .ok n) = size
      cases size with
      | error e => exact ⟨Rnd.id, rfl⟩
      | ok sz =>
        obtain ⟨rnd, h1, h2⟩ := key (sz - n).toNat
        refine ⟨rnd, ?_⟩
        simp only [Except.bind_ok]
        rw [← h1 _ rfl]
        have h2 := h2 _ rfl
        revert h2
        cases hf : Discriminator.fillersG g n (sz - n).toNat s with
        | mk r s' =>
          intro h2
          cases r with
          | error e => rfl
          | ok extra =>
            simp only [Except.bind_ok, h2]
            split <;> rename_i he <;> rw [he] <;> rfl

theorem createG_eq (g : CRand) (now : Nat) (s : g.S) (A n : Int) (o : Options) :
    ∃ rnd : Rnd, (Discriminator.createG g now s A n o).1 = Discriminator.create rnd A n o := by
  unfold Discriminator.createG Discriminator.create
  simp only
  by_cases hm : o.mapping.length ≠ 0
  · exact ⟨Rnd.id, by rw [if_pos hm, if_pos hm]⟩
  · rw [if_neg hm]
    by_cases hi : o.indexes.length ≠ 0
    · exact ⟨Rnd.id, by rw [if_neg hm, if_pos hi, if_pos hi]⟩
    · obtain ⟨rnd, h⟩ := setRAMShuffleG_eq g (reseed g now s 100000) n A o.ignoreZero o.completeAddressing o.base
      exact ⟨rnd, by rw [if_neg hm, if_neg hi, if_neg hi]; exact h⟩

theorem newDiscriminatorG_eq (g : CRand) (s : g.S) (A : Int) (o : WisardOpts) (l : Str) (n : Int) :
    ∃ rnd : Rnd, (Wisard.newDiscriminatorG g s A o l n).1 = Wisard.newDiscriminator rnd A o l n := by
  unfold Wisard.newDiscriminatorG Wisard.newDiscriminator
  cases o.mapping.find l with
  | some m => exact ⟨Rnd.id, rfl⟩
  | none =>
    simp only
    by_cases hi : o.indexes.length ≠ 0
    · exact ⟨Rnd.id, by rw [if_pos hi, if_pos hi]⟩
    · obtain ⟨rnd, h⟩ := setRAMShuffleG_eq g s n A o.ignoreZero o.completeAddressing o.base
      exact ⟨rnd, by rw [if_neg hi, if_neg hi]; exact h⟩

theorem train1G_eq (g : CRand) (lf : Bool) (s : g.S) (w : Wisard) (img : Image) (l : Str) :
    ∃ rnd : Rnd, (Wisard.train1G g lf s w img l).1 = w.train1 ⟨rnd, lf⟩ img l := by
  unfold Wisard.train1G Wisard.train1
  cases w.discriminators.find l with
  | some d => exact ⟨Rnd.id, rfl⟩
  | none =>
    obtain ⟨rnd, h⟩ := newDiscriminatorG_eq g s w.addressSize w.opts l img.size
    refine ⟨rnd, ?_⟩
    simp only [Wisard.makeDiscriminator, ← h]
    cases Wisard.newDiscriminatorG g s w.addressSize w.opts l img.size with
    | mk r s' =>
      cases r with
      | ok d => rfl
      | error e => cases lf <;> rfl

theorem cubeLoopG_eq (g : CRand) (m : Int) (xs : List Int) : ∀ (s : g.S) (i : Nat),
    ∃ rnd : Nat → Rnd, (Synthesizer.cubeLoopG g m xs s).1 = Synthesizer.cubeLoop rnd m xs i := by
  induction xs with
  | nil => intro s i; exact ⟨fun _ => Rnd.id, rfl⟩
  | cons x xs ih =>
    intro s i
    obtain ⟨rnd, h⟩ := ih (g.shuffle s ((List.range m.toNat).map Int.ofNat)).2 (i + 1)
    have hcongr : ∀ (r r' : Nat → Rnd) (xs : List Int) (i : Nat), (∀ j, i ≤ j → r j = r' j) →
        Synthesizer.cubeLoop r m xs i = Synthesizer.cubeLoop r' m xs i := by
      intro r r' xs
      induction xs with
      | nil => intro i _; rfl
      | cons y ys ihy =>
        intro i hj
        unfold Synthesizer.cubeLoop
        rw [hj i (Nat.le_refl i), ihy (i + 1) (fun j h => hj j (by omega))]
    refine ⟨fun j => if j = i then g.rnd s s else rnd j, ?_⟩
    unfold Synthesizer.cubeLoopG Synthesizer.cubeLoop
    rw [hcongr _ rnd xs (i + 1) (fun j hj => if_neg (by omega)), ← h, if_pos rfl]
    show _ = (Synthesizer.fillLoop (g.shuffle s ((List.range m.toNat).map Int.ofNat)).1 0 x [] >>= _)
    cases g.shuffle s ((List.range m.toNat).map Int.ofNat) with
    | mk idx s' =>
      simp only
      cases Synthesizer.fillLoop idx 0 x [] with
      | error e => rfl
      | ok c =>
        simp only [Except.bind_ok]
        cases Synthesizer.cubeLoopG g m xs s' with
        | mk r s'' => cases r <;> rfl

theorem synthG_eq (g : CRand) (now : Nat) (s : g.S) (m : List Int) :
    ∃ rnd : Nat → Rnd, (Synthesizer.createG g now s m).1 = Synthesizer.create rnd m := by
  obtain ⟨rnd, h⟩ := cubeLoopG_eq g (Synthesizer.maxLoop m 0) m (reseed g now s 1000000) 0
  refine ⟨rnd, ?_⟩
  unfold Synthesizer.createG Synthesizer.create
  simp only [← h]
  cases Synthesizer.cubeLoopG g (Synthesizer.maxLoop m 0) m (reseed g now s 1000000) with
  | mk r s' => cases r <;> rfl

theorem makeG_eq (g : CRand) (now : Nat) (s : g.S) (t : Synthesizer) :
    (Synthesizer.makeG g now s t).1 = t.make (g.rand (g.srand now)).1 := by
  unfold Synthesizer.makeG Synthesizer.make randintG
  simp only [if_true]
  cases randint (g.rand (g.srand now)).1 0 (t.maxData - 1) <;> rfl

theorem randint_reseed (r : Nat) (bound : Nat) : randint r 0 bound = .ok ((r % (bound + 1) : Nat) : Int) := by
  unfold randint
  rw [if_neg (by omega)]
  congr 1
  rw [Int.tmod_eq_emod_of_nonneg (by omega)]
  simp

theorem reseed_eq (g : CRand) (now : Nat) (s : g.S) (bound : Nat) :
    reseed g now s bound = g.srand ((g.rand (g.srand now)).1 % (bound + 1)) := by
  unfold reseed randintG
  simp only [if_true, randint_reseed]
  rfl

/-! ## Kernel canvas -/

theorem kernelG_eq (g : CRand) (o : FOps) (min max : o.F) (n : Nat) : ∀ s : g.S, ∃ rand : Nat → o.F,
    (KernelCanvas.kernelG g o min max n s).1 = (List.range n).map rand := by
  induction n with
  | zero => intro s; exact ⟨fun _ => min, rfl⟩
  | succ n ih =>
    intro s
    obtain ⟨rand, h⟩ := ih (g.rand s).2
    refine ⟨fun i => match i with | 0 => KernelCanvas.randdouble o (g.rand s).1 min max | i + 1 => rand i, ?_⟩
    rw [List.range_succ_eq_map, List.map_cons, List.map_map]
    simp only [KernelCanvas.kernelG, h]
    rfl

theorem kernelsG_eq (g : CRand) (o : FOps) (min max : o.F) (dim n : Nat) : ∀ s : g.S, ∃ rand : Nat → Nat → o.F,
    (KernelCanvas.kernelsG g o min max dim n s).1 = (List.range n).map (fun i => (List.range dim).map (rand i)) := by
  induction n with
  | zero => intro s; exact ⟨fun _ _ => min, rfl⟩
  | succ n ih =>
    intro s
    obtain ⟨r0, h0⟩ := kernelG_eq g o min max dim s
    obtain ⟨rand, h⟩ := ih (KernelCanvas.kernelG g o min max dim s).2
    refine ⟨fun i => match i with | 0 => r0 | i + 1 => rand i, ?_⟩
    rw [List.range_succ_eq_map, List.map_cons, List.map_map]
    simp only [KernelCanvas.kernelsG, h, h0]
    rfl

theorem canvasG_eq (f : Flt) (o : FOps) (g : CRand) (now : Nat) (s : g.S) (min max : o.F) (dim k b : Int) (deg : Rat) (ud : Bool) :
    ∃ rand : Nat → Nat → o.F, (KernelCanvas.createG f o g now s min max dim k b deg ud).1 = KernelCanvas.create f o rand dim k b deg ud := by
  unfold KernelCanvas.createG KernelCanvas.create
  cases KernelCanvas.checkInputs k dim b deg with
  | error e => exact ⟨fun _ _ => min, rfl⟩
  | ok _ =>
    simp only [Except.bind_ok]
    cases i32 (roundHalfUp (f.rnd (deg * f.rnd k))) with
    | error e => exact ⟨fun _ _ => min, rfl⟩
    | ok toActivate =>
    simp only [Except.bind_ok]
    generalize (if ud = true then (do
        let a ← i32 (2 * (dim - 1))
        i32 (dim + a)) else (Except.ok 0 : Res Int)) = amp
    cases amp with
    | error e => exact ⟨fun _ _ => min, rfl⟩
    | ok a =>
      simp only [Except.bind_ok]
      generalize (if ud = true then i32 (a * 3) else (Except.ok dim : Res Int)) = cur
      cases cur with
      | error e => exact ⟨fun _ _ => min, rfl⟩
      | ok c =>
        obtain ⟨rand, h⟩ := kernelsG_eq g o min max c.toNat k.toNat (g.srand now)
        exact ⟨rand, by simp only [Except.bind_ok, h]⟩

/-! ## libstdc++'s `random_shuffle` permutes -/

theorem shuffleLoop_perm {S : Type} (rand : S → Nat × S) (n : Nat) : ∀ (i : Nat) (v : Array Int) (s : S),
    (shuffleLoop rand n i v s).1.Perm v := by
  induction n with
  | zero => intro i v s; exact Array.Perm.refl v
  | succ n ih =>
    intro i v s
    refine (ih _ _ _).trans ?_
    unfold Array.swapIfInBounds
    split
    · split
      · exact Array.swap_perm ..
      · exact Array.Perm.refl v
    · exact Array.Perm.refl v

/-- `rand`, `srand` of any C library with libstdc++'s `random_shuffle`. -/
def stdRand (S : Type) (srand : Nat → S) (rand : S → Nat × S) : CRand where
  S := S
  srand := srand
  rand := rand
  shuffle s l := ((shuffleLoop rand (l.length - 1) 1 l.toArray s).1.toList, (shuffleLoop rand (l.length - 1) 1 l.toArray s).2)
  perm s l := by
    have := (shuffleLoop_perm rand (l.length - 1) 1 l.toArray s).toList
    simpa using this

end Wis
