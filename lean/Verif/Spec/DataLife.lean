import Verif.Spec.Life
import Verif.Model.DataSet
/-!
# The life of a data set that is saved and loaded now and then
-/

namespace Wis.Spec

/-- The file to which a data set is saved. -/
def DataFile (r : Reload) : Str := r.path ++ b!".wpkds"

/-- The life of a data set: `add(input, label)` (an empty label: the one-argument form), and now and then `save(prefix)`
followed, at any later time, by the constructor from that file. -/
def liveDS : DataSet → List (Step (BinInput × Str)) → Res (DataSet × List (Res Unit)) :=
  live (fun d e => (d.add e.1 e.2, .ok ())) (fun r d => (d.save r.fs r.path).map (fun p => (p.2, DataFile r)))
    (fun fs name => DataSet.load fs name)

/-- What is asked of a save: the name is unused, and nobody else touches the file before it is read. -/
def DataFileOk (r : Reload) : Prop := r.fs (DataFile r) = none ∧ ∀ fs, r.later fs (DataFile r) = fs (DataFile r)

end Wis.Spec
