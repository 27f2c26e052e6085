import Verif.Model.RamData
/-! # Specification of RAM data handles by their contents -/

namespace Wis.Spec

/-- The handle can come from the API: constructors, then any calls. -/
inductive Made : RamData → Prop where
  | text {fs : Fs} {s : Str} {h : RamData} : RamData.ofText fs s = .ok h → Made h
  | ram {m : RamT} : (m.map (·.1)).Nodup → (∀ x ∈ m, InI32 x.2) → Made (RamData.ofRam m)
  | get {h : RamData} (r : Int) : Made h → Made (h.get r).1
  | getAddr {h : RamData} (r addr : Int) : Made h → Made (h.getAddr r addr).1
  | set {h : RamData} (r addr value : Int) : InI32 value → Made h → Made (h.set r addr value)
  | dataOf {h : RamData} (it : IterOrder) (r : Int) : Made h → Made (h.dataOf it r).1

/-- The handle has a RAM with index `r`. -/
def Has (h : RamData) (r : Int) : Prop := ∃ m, RamData.find h.ramdata r = some m

/-- The value stored at address `a` of RAM `r`, if any. -/
def value (h : RamData) (r : Int) (a : Addr) : Option Int := (RamData.find h.ramdata r).bind (fun m => m.find a)

/-- Same RAM indexes and, for each, the same address/value pairs. -/
def SameContents (h h' : RamData) : Prop := ∀ r, (Has h r ↔ Has h' r) ∧ ∀ a, value h r a = value h' r a

/-- RAM `r` has at least one entry. -/
def NonEmptyRam (h : RamData) (r : Int) : Prop := ∃ a v, value h r a = some v

end Wis.Spec
