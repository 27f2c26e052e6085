import Verif.Model.KernelCanvas
/-!
# Specification of KernelCanvas

The points are standardised column by column, squashed by `tanh`, and compared with the kernels by Euclidean distance.
-/

namespace Wis.Spec

/-- What is used of the `double` operations. `Pt`: values of `tanh`; `Kn`: kernel coordinates; `Num`: not NaN;
`Sq`: not NaN and not negative; `NaN`: not a number. All laws hold for IEEE doubles when `Pt` and `Kn` are numbers
between -1 and 1. -/
structure FLaws (o : FOps) where
  Pt : o.F → Prop
  Kn : o.F → Prop
  Num : o.F → Prop
  Sq : o.F → Prop
  NaN : o.F → Prop
  tanh : ∀ x, Pt (o.tanh x) ∨ NaN (o.tanh x)
  sub : ∀ {p k}, Pt p → Kn k → Num (o.sub p k)
  sub_nan : ∀ {p k}, NaN p → NaN (o.sub p k)
  sq : ∀ {d}, Num d → Sq (o.mul d d)
  sq_nan : ∀ {d}, NaN d → NaN (o.mul d d)
  zero : Sq o.zero
  add : ∀ {a b}, Sq a → Sq b → Sq (o.add a b)
  nan_add : ∀ {a b}, NaN a → NaN (o.add a b)
  add_nan : ∀ {a b}, NaN b → NaN (o.add a b)
  sqrt : ∀ {a}, Sq a → Sq (o.sqrt a)
  sqrt_nan : ∀ {a}, NaN a → NaN (o.sqrt a)
  irrefl : ∀ {a}, Sq a → o.lt a a = false
  trans : ∀ {a b c}, Sq a → Sq b → Sq c → o.lt a b = true → o.lt b c = true → o.lt a c = true
  incomp : ∀ {a b c}, Sq a → Sq b → Sq c → o.lt a b = false → o.lt b c = false → o.lt a c = false
  nan_lt : ∀ {a b}, NaN a → o.lt a b = false
  lt_nan : ∀ {a b}, NaN b → o.lt a b = false

/-- Coordinate `j` of a point. -/
def coordOf (o : FOps) (row : List o.F) (j : Nat) : o.F := row.getD j o.zero

/-- Mean of column `j`. -/
def colMean (o : FOps) (seq : List (List o.F)) (j : Nat) : o.F :=
  o.div (seq.foldl (fun s r => o.add s (coordOf o r j)) o.zero) (o.ofNat seq.length)

/-- Standard deviation of column `j`. -/
def colStd (o : FOps) (seq : List (List o.F)) (j : Nat) : o.F :=
  o.sqrt (o.div (seq.foldl (fun s r => o.add s (o.mul (o.sub (colMean o seq j) (coordOf o r j)) (o.sub (colMean o seq j) (coordOf o r j)))) o.zero)
    (o.ofNat seq.length))

/-- Coordinate `j` of the normalised point. -/
def normCoord (o : FOps) (seq : List (List o.F)) (row : List o.F) (j : Nat) : o.F :=
  o.tanh (o.div (o.sub (colMean o seq j) (coordOf o row j)) (colStd o seq j))

/-- The normalised point: one coordinate per dimension; with `useDirection`, for dimension 1, three times the only
coordinate. -/
def normPoint (o : FOps) (c : KernelCanvas o) (seq : List (List o.F)) (row : List o.F) : List o.F :=
  if c.useDirection then List.replicate 3 (normCoord o seq row 0)
  else (List.range c.dim.toNat).map (normCoord o seq row)

/-- Euclidean distance. -/
def euclid (o : FOps) (p k : List o.F) : o.F :=
  o.sqrt ((p.zip k).foldl (fun s e => o.add s (o.mul (o.sub e.1 e.2) (o.sub e.1 e.2))) o.zero)

/-- `S` are `a` different kernels, and no other kernel is strictly nearer to `p` than one of them. -/
structure Nearest (o : FOps) (kernels : List (List o.F)) (p : List o.F) (a : Nat) (S : List Nat) : Prop where
  nodup : S.Nodup
  number : S.length = a
  exist : ∀ k ∈ S, k < kernels.length
  nearest : ∀ k ∈ S, ∀ k', k' ∉ S → ∀ K K', kernels[k]? = some K → kernels[k']? = some K' → o.lt (euclid o p K') (euclid o p K) = false

/-- Bit `p` of the output when exactly the kernels with `act` are active. -/
def Pattern (bits : Nat) (act : Nat → Bool) (N : Nat) (out : List Int) : Prop :=
  out.length = N * bits ∧ ∀ k b : Nat, k < N → b < bits → out[k * bits + b]? = some (if act k then 1 else 0)

/-- All coordinates of all kernels are kernel values. -/
def KernelsOK (o : FOps) (L : FLaws o) (c : KernelCanvas o) : Prop := ∀ K ∈ c.kernels, ∀ x ∈ K, L.Kn x

/-- Every point of the sequence has the dimension of the canvas. -/
def AllDim {o : FOps} (c : KernelCanvas o) (seq : List (List o.F)) : Prop := ∀ r ∈ seq, (r.length : Int) = c.dim

end Wis.Spec
