import Verif.Props.Data
import Verif.Props.Wisard
import Verif.Model.PyOutput
/-!
# Property C179: a data set only counts by its inputs and labels

Two data sets with the same inputs and labels (whatever their histories, for instance one saved and the other loaded from the file) are
interchangeable for Wisard.
-/

namespace Wis
open Spec

/-- Both have the same number of inputs, and for each index the same input and the same outcome of `getLabel`. -/
def Spec.SameData (d d' : DataSet) : Prop :=
  d.size = d'.size ∧ ∀ i : Nat, i < d.size → d.get i = d'.get i ∧ d.getLabel i = d'.getLabel i

theorem sameData_data {d d' : DataSet} (h : SameData d d') : d.data = d'.data := by
  apply List.ext_getElem?
  intro i
  by_cases hi : i < d.size
  · have hi' : i < d'.size := by rw [← h.1]; exact hi
    have := (h.2 i hi).1
    unfold DataSet.get at this
    unfold DataSet.size at hi hi'
    rw [if_neg (by omega), if_neg (by omega), Int.toNat_natCast, List.getElem?_eq_getElem hi, List.getElem?_eq_getElem hi'] at this
    simp only [Except.ok.injEq] at this
    rw [List.getElem?_eq_getElem hi, List.getElem?_eq_getElem hi', this]
  · have hi' : ¬ i < d'.size := by rw [← h.1]; exact hi
    unfold DataSet.size at hi hi'
    rw [List.getElem?_eq_none (by omega), List.getElem?_eq_none (by omega)]

theorem trainDataLoop_same {d d' : DataSet} (env : Nat → Env) : ∀ (bs : List BinInput) (w : Wisard) (i : Nat),
    (∀ j, i ≤ j → j < i + bs.length → d.getLabel j = d'.getLabel j) → w.trainDataLoop env d bs i = w.trainDataLoop env d' bs i := by
  intro bs
  induction bs with
  | nil => intro w i _; rfl
  | cons b bs ih =>
    intro w i h
    simp only [Wisard.trainDataLoop]
    rw [h i (le_refl i) (by simp)]
    cases d'.getLabel i with
    | error e => rfl
    | ok l =>
      simp only
      rcases w.train1 (env i) (.bin b) l with ⟨w', r⟩
      cases r with
      | ok u => exact ih w' (i + 1) (fun j h1 h2 => h j (by omega) (by simp only [List.length_cons]; omega))
      | error e => rfl

/-- C179: data sets with the same inputs and labels train every Wisard alike (same model and same outcome, failures included) and get the same answers
from every Wisard. -/
theorem C179_same {d d' : DataSet} (h : SameData d d') (w : Wisard) (env : Nat → Env) :
    w.trainDataSet env d = w.trainDataSet env d' ∧ w.classify (d.data.map .bin) = w.classify (d'.data.map .bin) ∧
      PyOut.pyClassify w (d.data.map .bin) = PyOut.pyClassify w (d'.data.map .bin) := by
  have hd := sameData_data h
  refine ⟨?_, by rw [hd], by rw [hd]⟩
  unfold Wisard.trainDataSet
  have hget : d.get 0 = d'.get 0 := by unfold DataSet.get; rw [hd]
  rw [hget, trainDataLoop_same env d.data w 0 (fun j _ h2 => (h.2 j (by simpa [DataSet.size] using h2)).2), hd]

/-- C179: a fully labelled data set saved under a fresh name and loaded again trains every Wisard to the same model as the original, with the same outcome,
and gets the same answers. -/
theorem C179_reload (hist : List (BinInput × Str)) (hne : hist ≠ []) (hlab : ∀ e ∈ hist, e.2 ≠ []) (fs : Fs) (pre : Str)
    (hfresh : fs (pre ++ b!".wpkds") = none) :
    let d := hist.foldl (fun d e => DataSet.add d e.1 e.2) {}
    ∃ d1 fs' d2, d.save fs pre = .ok (d1, fs') ∧ DataSet.load fs' (pre ++ b!".wpkds") = .ok d2 ∧
      ∀ d' : DataSet, d' = d1 ∨ d' = d2 → ∀ (w : Wisard) (env : Nat → Env), w.trainDataSet env d' = w.trainDataSet env d ∧
        w.classify (d'.data.map .bin) = w.classify (d.data.map .bin) ∧ PyOut.pyClassify w (d'.data.map .bin) = PyOut.pyClassify w (d.data.map .bin) := by
  intro d
  obtain ⟨d1, fs', d2, h1, h2, _, h4, h5, h6⟩ := C07_dataset_save_load hist hne hlab fs pre hfresh
  refine ⟨d1, fs', d2, h1, h4, ?_⟩
  rintro d' (rfl | rfl) w env
  · rw [h2]
    exact ⟨rfl, rfl, rfl⟩
  · refine C179_same ⟨?_, ?_⟩ w env
    · rw [h5]
      change _ = (DataSet.build hist).data.length
      rw [(DataSet.build_inv hist).1]
      simp
    · intro i hi
      rw [h5] at hi
      obtain ⟨a, b⟩ := h6 i hi
      rw [a, b]
      refine ⟨(DataSet.build_get hist i hi).symm, ?_⟩
      change _ = (DataSet.build hist).getLabel i
      rw [DataSet.build_getLabel hist i hi]
      unfold labelResult
      rw [if_neg (hlab _ (List.getElem_mem hi))]

/-! ### The hypotheses can be met -/

/-- The same labels stored in another order. -/
example : SameData ⟨[BinInput.ofSize 3, BinInput.ofSize 3], [(0, b!"a"), (1, b!"b")]⟩ ⟨[BinInput.ofSize 3, BinInput.ofSize 3], [(1, b!"b"), (0, b!"a")]⟩ := by
  refine ⟨rfl, fun i hi => ?_⟩
  have hi : i < 2 := hi
  interval_cases i <;> exact ⟨rfl, by decide⟩

end Wis
