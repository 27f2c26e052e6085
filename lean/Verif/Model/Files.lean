import Verif.Model.Bytes
/-!
# Files: names to contents, as far as the code uses them

`std::ofstream::open(name, std::ios::app)` + `<<` appends (creating the file if necessary);
`std::ifstream::open(name)` succeeds iff the file exists. I/O errors are modelled in `Model/Disk.lean`.
-/

namespace Wis

/-- File system: contents by file name. For ramdatahandle.cc:56-86, dataset.cc:4-24, 59-69. -/
abbrev Fs := Str → Option Str

/-- Append to a file opened with `std::ios::app`. ramdatahandle.cc:59-65, dataset.cc:62-68. -/
def Fs.append (fs : Fs) (name content : Str) : Fs :=
  fun n => if n = name then some ((fs n).getD [] ++ content) else fs n

/-- `std::getline(stream, line, '.')` on the unread rest of a stream: the line and the new rest;
`none` when the end of the file was hit, i.e. `eof()` holds afterwards. ramdatahandle.cc:77-83, dataset.cc:12-21. -/
def getline (s : Str) : Str × Option Str :=
  match s with
  | [] => ([], none)
  | c :: s =>
    if c = c!"." then ([], some s)
    else
      let (line, rest) := getline s
      (c :: line, rest)

/-- `s.substr(s.size()-suf.size(), suf.size()).compare(suf) == 0`
(dataset.cc:5-6, ramdatahandle.cc:72-73, discriminator.cc:225-226): for a string shorter than the
suffix the subtraction wraps and `substr` throws `std::out_of_range`. -/
def endsWith (s suf : Str) : Res Bool :=
  if s.length < suf.length then .error (.throw .stdOutOfRange)
  else .ok (s.drop (s.length - suf.length) == suf)

theorem getline_rest_length (s : Str) (line rest : Str) (h : getline s = (line, some rest)) :
    rest.length < s.length := by
  induction s generalizing line rest with
  | nil => simp [getline] at h
  | cons c s ih =>
    simp only [getline] at h
    split at h
    · simp only [Prod.mk.injEq, Option.some.injEq] at h
      simp [h.2]
    · simp only [Prod.mk.injEq] at h
      have := ih _ rest (Prod.ext rfl h.2)
      simp; omega

/-- `ramdata_sufix`, definetypes.cc:7. -/
def ramdataSufix : Str := b!".wdpkg"
/-- `dataset_sufix`, definetypes.cc:8. -/
def datasetSufix : Str := b!".wpkds"

end Wis
