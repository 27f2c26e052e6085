import Verif.Model.Disk
/-!
# Specification: what a save does to the files of a disk that may fail

Independent of how the saving functions work: a save is a list of writes (name of the file, text to append) and a reply.
-/

namespace Wis.Spec

/-- The files after all the writes have been done completely. -/
def written (ws : List (Str × Str)) (fs : Fs) : Fs := ws.foldl (fun fs e => fs.append e.1 e.2) fs

/-- `Stored ws fs fs'`: from the files `fs`, each write was lost or stored a beginning of its text, giving `fs'`. -/
inductive Stored : List (Str × Str) → Fs → Fs → Prop
  | done (fs : Fs) : Stored [] fs fs
  | lost {ws fs fs'} (name text : Str) (h : Stored ws fs fs') : Stored ((name, text) :: ws) fs fs'
  | part {ws fs fs'} (name text : Str) (n : Nat) (h : Stored ws (fs.append name (text.take n)) fs') :
      Stored ((name, text) :: ws) fs fs'

/-- The disk has room for each of the writes. -/
def HasRoom (k : Disk) (ws : List (Str × Str)) : Prop :=
  ∀ e ∈ ws, ∀ fs, ∃ n, k.room fs e.1 = some n ∧ e.2.length ≤ n

/-- `plain` is a save on a file system without failures, `on` the same save on a disk: it makes the writes `ws` and
answers `r`, in both cases the same. -/
structure Saves {α : Type} (plain : Fs → Res (Fs × α)) (on : Disk → Fs → Res (Fs × α)) (ws : List (Str × Str)) (r : Res α) : Prop where
  perfect : ∀ fs, plain fs = r.map fun a => (written ws fs, a)
  enough : ∀ k fs, HasRoom k ws → on k fs = plain fs
  stored : ∀ k fs, ∃ fs', on k fs = (r.map fun a => (fs', a)) ∧ Stored ws fs fs'

/-- The files if the process stops after the first `i` writes, having stored `n` bytes of the next one. -/
def crashed (ws : List (Str × Str)) (i n : Nat) (fs : Fs) : Fs :=
  match ws[i]? with
  | none => written ws fs
  | some e => (written (ws.take i) fs).append e.1 (e.2.take n)

/-- Nothing that was there is lost, and nothing outside `names` is touched. -/
structure OnlyAppends (names : List Str) (fs fs' : Fs) : Prop where
  others : ∀ name, name ∉ names → fs' name = fs name
  keeps : ∀ name old, fs name = some old → ∃ new, fs' name = some (old ++ new)

/-- The data files of a Wisard with these classes: one per class, path, class, two underscores, random string, suffix. -/
def classFiles (path : Str) (random : Nat → Str) (labels : List Str) (i : Nat) : List Str :=
  (labels.zipIdx i).map fun e => path ++ e.1 ++ b!"__" ++ random e.2 ++ b!".wdpkg"

/-- The data files of a cluster: one for each of its `n` discriminators. -/
def clusterDataFiles (path : Str) (random : Nat → Str) (i n : Nat) : List Str :=
  (List.range' i n).map fun j => path ++ natStr j ++ b!"__" ++ random j ++ b!".wdpkg"

/-- The data files of the clusters of a ClusWisard. -/
def clusWisardFiles (path : Str) (random : Nat → Nat → Str) (clusters : SMap Cluster) (i : Nat) : List Str :=
  ((clusters.zipIdx i).map fun e => clusterDataFiles (path ++ e.1.1 ++ b!"__") (random e.2) 0 e.1.2.getSize).flatten

end Wis.Spec
