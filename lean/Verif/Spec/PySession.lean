import Verif.Model.PySession
import Verif.Spec.Bind
import Verif.Spec.Wisard
/-!
# What a Python call on a Wisard asks for

`Entry c i op`: the `i`-th elementary operation that the call `c` asks for is `op`. `Count c k`: the call is complete and asks
for `k` operations. Stated with the relations of `Spec/Bind.lean` between Python values and C++ values.
-/

namespace Wis.Spec

/-- The `i`-th thing asked for by a call. -/
inductive Entry : PyCall → Nat → WOp → Prop
  /-- `train(images, labels)`: the `i`-th image with the `i`-th label. -/
  | lists {env x y xs ls i img l} : PyImages x xs → PyTexts y ls → xs[i]? = some img → ls[i]? = some l →
      Entry (.train env [x, y]) i (.train (env i) (.vec img) l)
  /-- `train(dataset)`: the `i`-th entry with its label. -/
  | dataSet {env ds i b l} : ds.data[i]? = some b → ds.label? i = some l → Entry (.train env [.dataSet ds]) i (.train (env i) (.bin b) l)
  /-- `leaveOneOut(image, label)`. -/
  | leave {x y img l} : PyImage x img → PyText y l → Entry (.leaveOneOut [x, y]) 0 (.leave img l)
  /-- `leaveMoreOut(images, labels)`. -/
  | leaves {x y xs ls i img l} : PyImages x xs → PyTexts y ls → xs[i]? = some img → ls[i]? = some l →
      Entry (.leaveMoreOut [x, y]) i (.leave img l)

/-- The number of things asked for by a complete call: as many labels as images, all entries of a data set labelled. -/
inductive Count : PyCall → Nat → Prop
  | lists {env x y xs ls k} : PyImages x xs → PyTexts y ls → xs.length = k → ls.length = k → Count (.train env [x, y]) k
  | dataSet {env ds k} : ds.data.length = k → (∀ i < k, (ds.label? i).isSome) → Count (.train env [.dataSet ds]) k
  | leave {x y img l} : PyImage x img → PyText y l → Count (.leaveOneOut [x, y]) 1
  | leaves {x y xs ls k} : PyImages x xs → PyTexts y ls → xs.length = k → ls.length = k → Count (.leaveMoreOut [x, y]) k

/-- What a call contributes to the history of the Wisard, given its reply: nothing after a `TypeError`; everything it asks
for, in order, if it returns; the first few things it asks for if it raises another exception. -/
structure Contributes (c : PyCall) (reply : PyReply) (ops : List WOp) : Prop where
  entries : ∀ (i : Nat) op, ops[i]? = some op → Entry c i op
  typeError : reply = none → ops = []
  returned : reply = some (.ok ()) → Count c ops.length

/-- A call as it should be: `k` things are asked for (at least one if it is a training), every image has `n` values in
`[0, base)` and every label is UTF-8 text (as every `str` is). -/
def GoodCall (n base : Int) (c : PyCall) (k : Nat) : Prop :=
  Count c k ∧ (∀ env args, c = .train env args → k ≠ 0) ∧
  ∀ i < k, ∃ op, Entry c i op ∧ ValidImage n base op.img ∧ Utf8 op.label

end Wis.Spec
