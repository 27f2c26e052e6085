import Verif.Model.Discriminator
/-!
# Model of `/repo/src/synthetic_data/synthesizers.cc`
-/

namespace Wis

/-- `std::map<int,int>`, synthesizers.cc:30; only looked up, so the order of the entries does not matter. -/
abbrev IMap := List (Int × Int)

namespace IMap

/-- `m.find(k)`. synthesizers.cc:15, 19. -/
def find : IMap → Int → Option Int
  | [], _ => none
  | (k', v) :: m, k => if k' = k then some v else find m k

/-- `m[k] = v`. synthesizers.cc:51. -/
def set : IMap → Int → Int → IMap
  | [], k, v => [(k, v)]
  | (k', v') :: m, k, v => if k' = k then (k, v) :: m else (k', v') :: set m k v

end IMap

/-- `Synthesizer`, synthesizers.cc:29-31. -/
structure Synthesizer where
  cube : List IMap
  maxData : Int
  deriving DecidableEq

namespace Synthesizer

/-- First loop of `makeCube`, synthesizers.cc:36-40. -/
def maxLoop : List Int → Int → Int
  | [], m => m
  | x :: xs, m => maxLoop xs (if x > m then x else m)

/-- Inner loop, synthesizers.cc:49-53, from `j` on, over the remaining (unused) shuffled indexes. `intensity--` of
`INT_MIN` is UB. -/
def fillLoop : List Int → Nat → Int → IMap → Res IMap
  | [], _, _, c => .ok c
  | _ :: is, j, intensity, c =>
    if intensity = 0 then .ok c
    else do
      let intensity ← i32 (intensity - 1)
      fillLoop is (j + 1) intensity (c.set j 1)

/-- Second loop of `makeCube`, synthesizers.cc:42-54, from pixel `i` on; the shuffle for pixel `i` is `rnd i`. -/
def cubeLoop (rnd : Nat → Rnd) (maxData : Int) : List Int → Nat → Res (List IMap)
  | [], _ => .ok []
  | x :: xs, i => do
    let indexes := (rnd i).shuffle ((List.range maxData.toNat).map Int.ofNat)
    let c ← fillLoop indexes 0 x []
    let cs ← cubeLoop rnd maxData xs (i + 1)
    .ok (c :: cs)

/-- `Synthesizer(mentalImage)`, synthesizers.cc:5-8, 33-55. -/
def create (rnd : Nat → Rnd) (mentalImage : List Int) : Res Synthesizer := do
  let maxData := maxLoop mentalImage 0
  let cube ← cubeLoop rnd maxData mentalImage 0
  .ok ⟨cube, maxData⟩

/-- `make()`, synthesizers.cc:10-23, with the value of `std::rand()`. -/
def make (s : Synthesizer) (rand : Nat) : Res (List Int) := do
  let index ← randint rand 0 (s.maxData - 1)
  .ok (s.cube.map (fun c => (c.find index).getD 0))

end Synthesizer
end Wis
