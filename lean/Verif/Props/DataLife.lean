import Verif.Spec.DataLife
import Verif.Props.Data
import Verif.Props.Life
/-!
# C190: a data set as its own archive

C07 speaks about one save of a data set that was never loaded. Here a program goes on with the loaded data set, as often as it
likes.
-/

namespace Wis
open Spec

/-- One save and load. -/
theorem dataset_reload {hist : List (BinInput × Str)} (hne : hist ≠ []) (hlab : ∀ e ∈ hist, e.2 ≠ []) {r : Reload}
    (hf : DataFileOk r) :
    ∃ fs, (DataSet.build hist).save r.fs r.path = .ok (DataSet.build hist, fs) ∧
      DataSet.load (r.later fs) (DataFile r) = .ok (DataSet.build hist) := by
  obtain ⟨ls', h1, _, h3⟩ := DataSet.save_spec hist r.fs r.path
  have h3 := h3 hlab
  subst h3
  refine ⟨_, h1, ?_⟩
  unfold DataSet.load
  have : endsWith (DataFile r) datasetSufix = .ok true := DataSet.endsWith_append _ _
  rw [this]
  simp only [Except.bind_ok, if_true]
  rw [hf.2]
  have hc : (r.fs.append (r.path ++ datasetSufix) (DataSet.recordsText hist 0)) (DataFile r) =
      some (DataSet.recordsText hist 0) := by
    change Fs.append r.fs (DataFile r) _ (DataFile r) = _
    simp [Fs.append, hf.1]
  rw [hc]
  cases hist with
  | nil => exact absurd rfl hne
  | cons e es =>
    simp only [DataSet.recordsText_zero]
    rw [DataSet.loadLoop_spec es e {} hlab]
    rfl

/-- C190: a program adds samples to a data set and every now and then saves it and goes on with the one loaded from the file.
No save and no load fails, and in the end the data set is the one of a program that only adds. Before each save there must be
samples, all of them labelled, and the file name must be unused. -/
theorem C190_dataset (steps : List (Step (BinInput × Str)))
    (hs : BeforeReloads (fun es r => es ≠ [] ∧ (∀ e ∈ es, e.2 ≠ []) ∧ DataFileOk r) steps) :
    liveDS {} steps = .ok ((callsOf steps).foldl (fun d e => DataSet.add d e.1 e.2) {}, (callsOf steps).map (fun _ => .ok ())) := by
  let pl : DataSet → List (BinInput × Str) → DataSet × List (Res Unit) :=
    fun d es => (es.foldl (fun d e => DataSet.add d e.1 e.2) d, es.map (fun _ => .ok ()))
  have key := live_ok (call := fun (d : DataSet) (e : BinInput × Str) => (d.add e.1 e.2, .ok ()))
    (save := fun r d => (d.save r.fs r.path).map (fun p => (p.2, DataFile r))) (load := fun fs name => DataSet.load fs name)
    (play := pl) (fun _ => rfl) (fun _ _ _ => rfl) (fun a e d => e = DataSet.build (callsOf a) ∧ d = e) steps ?_ ?_ steps [] {} {}
    rfl ⟨rfl, rfl⟩
  · obtain ⟨d', h1, _, h2⟩ := key
    rw [h2] at h1
    exact h1
  · rintro a c b e d hst ⟨rfl, rfl⟩
    refine ⟨⟨?_, rfl⟩, rfl⟩
    rw [callsOf_append]
    simp only [callsOf, DataSet.build, List.foldl_append, List.foldl_cons, List.foldl_nil]
  · rintro a r b e d hst ⟨rfl, rfl⟩
    obtain ⟨h1, h2, h3⟩ := hs a r b hst
    obtain ⟨fs, k1, k2⟩ := dataset_reload h1 h2 h3
    refine ⟨(fs, DataFile r), _, ?_, k2, ?_, rfl⟩
    · show (DataSet.save _ _ _).map _ = _
      rw [k1]
      rfl
    · rw [callsOf_append]
      simp only [callsOf, List.append_nil]

/-- Save under the prefix `p` on a disk with contents `fs`; nothing else happens to it. -/
def dataReload (fs : Fs) (p : Str) : Reload := ⟨IterOrder.id, fs, some (p, fun _ _ => []), fun fs => fs⟩

/-- Two samples, saved, loaded, a third one, saved under another name, loaded, an unlabelled one. -/
def dataLife : List (Step (BinInput × Str)) :=
  [.call (BinInput.ofSize 3, b!"cold"), .call (BinInput.ofSize 9, b!"hot"), .reload (dataReload noFs b!"x"),
    .call (BinInput.ofSize 0, b!"cold"), .reload (dataReload (noFs.append b!"x.wpkds" b!"y") b!"z"), .call (BinInput.ofSize 1, [])]

/-- It meets the hypothesis. -/
example : BeforeReloads (fun es r => es ≠ [] ∧ (∀ e ∈ es, e.2 ≠ []) ∧ DataFileOk r) dataLife :=
  before_call (before_call (before_reload ⟨by simp, by decide, rfl, fun _ => rfl⟩
    (before_call (before_reload ⟨by simp, by decide, rfl, fun _ => rfl⟩ (before_call before_nil)))))

/-- C190: the names must be different. If a data set is saved to a new file and loaded, and the loaded one, possibly extended by
`more`, is saved under the same name, the file is either not loadable or has the wrong number of samples, unless the first save
was of a single sample: the second save appends to the file. -/
theorem C190_one_file (hist more : List (BinInput × Str)) (hne : hist ≠ []) (hlab : ∀ e ∈ hist, e.2 ≠ []) (fs : Fs) (pre : Str)
    (hfresh : fs (pre ++ b!".wpkds") = none) :
    let d := hist.foldl (fun d e => DataSet.add d e.1 e.2) {}
    let d' := more.foldl (fun d e => DataSet.add d e.1 e.2) d
    ∃ fs1 d2 fs2, d.save fs pre = .ok (d, fs1) ∧ DataSet.load fs1 (pre ++ b!".wpkds") = .ok d ∧ d'.save fs1 pre = .ok (d2, fs2) ∧
      ∀ x, DataSet.load fs2 (pre ++ b!".wpkds") = .ok x → x.size = d'.size + (hist.length - 1) := by
  intro d d'
  have hd' : d' = (hist ++ more).foldl (fun d e => DataSet.add d e.1 e.2) {} := by
    show more.foldl _ (hist.foldl _ _) = _
    rw [List.foldl_append]
  have hsz : d'.size = hist.length + more.length := by
    rw [hd', ← List.length_append]
    exact (C08_dataset_append_only (hist ++ more)).1
  obtain ⟨_, d2, fs1, fs2, h1, h2, h3⟩ := C10_second_save_loses_an_entry hist (hist ++ more) hne (by simp [hne]) fs pre hfresh
  obtain ⟨fs1', k1, k2⟩ := dataset_reload (r := dataReload fs pre) hne hlab ⟨hfresh, fun _ => rfl⟩
  have h1 : d.save fs pre = _ := h1
  have k1 : d.save fs pre = _ := k1
  rw [k1, Except.ok.injEq, Prod.mk.injEq] at h1
  obtain ⟨-, rfl⟩ := h1
  refine ⟨fs1', d2, fs2, k1, k2, by rw [hd']; exact h2, ?_⟩
  intro x hx
  rw [h3 x hx, hsz, List.length_append]
  have : 0 < hist.length := List.length_pos_iff.mpr hne
  omega

/-- Its hypotheses are met by two labelled samples and an empty disk. -/
example : let hist : List (BinInput × Str) := [(BinInput.ofSize 3, b!"cold"), (BinInput.ofSize 9, b!"hot")]
    hist ≠ [] ∧ (∀ e ∈ hist, e.2 ≠ []) ∧ noFs (b!"x" ++ b!".wpkds") = none := by
  refine ⟨by simp, by decide, rfl⟩

/-- C190: and with a single sample the number is right, but the sample is not: an image of 3 pixels comes back with 75 of them,
without any error. -/
theorem C190_one_sample :
    let d1 := DataSet.add {} (BinInput.ofSize 3) b!"cold"
    let d2 := d1.add (BinInput.ofSize 9) b!"hot"
    ∃ fs1 fs2 x b, d1.save noFs b!"x" = .ok (d1, fs1) ∧ DataSet.load fs1 b!"x.wpkds" = .ok d1 ∧ d2.save fs1 b!"x" = .ok (d2, fs2) ∧
      DataSet.load fs2 b!"x.wpkds" = .ok x ∧ x.size = 2 ∧ x.get 0 = .ok b ∧ b.size = 75 ∧ x.getLabel 0 = .ok b!"cold" ∧
      (BinInput.ofSize 3).size = 3 := by
  intro d1 d2
  obtain ⟨l1, h1, _, e1⟩ := DataSet.save_spec [(BinInput.ofSize 3, b!"cold")] noFs b!"x"
  obtain ⟨l2, h2, _, e2⟩ := DataSet.save_spec [(BinInput.ofSize 3, b!"cold"), (BinInput.ofSize 9, b!"hot")]
    (noFs.append (b!"x" ++ datasetSufix) (DataSet.recordsText [(BinInput.ofSize 3, b!"cold")] 0)) b!"x"
  have e1 := e1 (by decide)
  have e2 := e2 (by decide)
  subst e1 e2
  exact ⟨_, _, (DataSet.load ((noFs.append (b!"x" ++ datasetSufix) (DataSet.recordsText [(BinInput.ofSize 3, b!"cold")] 0)).append
      (b!"x" ++ datasetSufix) (DataSet.recordsText [(BinInput.ofSize 3, b!"cold"), (BinInput.ofSize 9, b!"hot")] 0))
      b!"x.wpkds").toOption.getD {}, ⟨5, List.replicate 10 0⟩, h1, by decide +kernel, h2, by decide +kernel, by decide +kernel,
    by decide +kernel, by decide +kernel, by decide +kernel, by decide +kernel⟩

end Wis
