import Verif.Props.Grisu
import Verif.Props.JsonDoc
import Verif.Props.SavedText
import Verif.Props.PrettyText
/-!
# C149: the text of saved models, with the conversions of the library

The theorems on JSON text (C90 to C100, C122) are stated for any conversion that is right for the numbers that occur. Here the
conversion is the library's: Grisu2 to write, and any `strtod` that gives the nearest `double` to read. Nothing is left to
assume of the numbers.
-/

namespace Wis
open Spec Grisu Ieee JsonText

/-- A score that the constructor accepts, as a `float`, is right. -/
theorem minScore_ok {read : Str → Option Rat} (hr : ReadsNearest read) {A : Int} {ms : Rat} {t dl : Int} {o : ClusOpts} {w0 : ClusWisard}
    (hm : IsFloat Ieee.single ms) (h0 : ClusWisard.create A ms t dl o = .ok w0) : FloatOk (libText read) ms := by
  refine C149_read_back hr (isDouble_single hm ?_)
  have h01 : 0 ≤ ms ∧ ms ≤ 1 := by
    unfold ClusWisard.create at h0
    obtain ⟨_, hc, _⟩ := bind_eq_ok h0
    unfold ClusWisard.checkConfigInputs at hc
    split at hc
    · cases hc
    · rename_i h
      rw [not_or, not_lt] at h
      exact ⟨h.1, not_lt.1 h.2⟩
  rw [abs_of_nonneg h01.1]
  exact lt_of_le_of_lt h01.2 (by norm_num)

/-- C149: every text is read as a value or refused with one of two exceptions. -/
theorem C149_parse_outcome {read : Str → Option Rat} (hr : ReadsNearest read) (text : Str) :
    (∃ j, parse (libText read) text = .ok j) ∨ parse (libText read) text = .error (.throw .jsonParse) ∨
      parse (libText read) text = .error (.throw .jsonRange) :=
  C90_parse_outcome _ (C149_reread hr) text

/-- C149: what was accepted can be written again, and the new text means the same. -/
theorem C149_normal_form {read : Str → Option Rat} (hr : ReadsNearest read) {text : Str} {j : Json}
    (h : parse (libText read) text = .ok j) : ∃ t, dump (libText read) j = .ok t ∧ parse (libText read) t = .ok j :=
  C90_normal_form _ (C149_reread hr) h

/-- C149: the text of a trained discriminator is loaded to an indistinguishable one, and no proper beginning of it is loaded. -/
theorem C149_discriminator {read : Str → Option Rat} (hr : ReadsNearest read) {rnd : Rnd} {A n : Int} {o : Options} {d0 : Discriminator}
    (hc : Discriminator.create rnd A n o = .ok d0) (hg : IntRange n o.base d0.mapping) (ops : List Op)
    (ht : LearntSomething d0 ops) (hs : d0.getNumberOfRAMS * (16 * trains ops + 1) ≤ 2147483648)
    (it : IterOrder) (fs fs' : Fs) :
    let d := (play d0 ops).1
    ∃ t d', d.jsonText it (libText read) fs false [] [] = .ok (fs, t) ∧ Discriminator.ofText (libText read) fs' t = .ok d' ∧
      Indistinguishable d d' ∧ CutRefused (Discriminator.ofText (libText read) fs') t :=
  C91_discriminator _ (C149_reread hr) hc hg ops ht hs it fs fs'

/-- C149: the text of a trained Wisard whose labels are UTF-8. -/
theorem C149_wisard {read : Str → Option Rat} (hr : ReadsNearest read) {A : Int} {o : WisardOpts} (ho : OptRange A o) (ops : List WOp)
    (hs : ∀ l d, (wplay (Wisard.create A o) ops).1.discriminators.find l = some d → Savable (Wisard.create A o) ops l d)
    (hl : ∀ l ∈ (wplay (Wisard.create A o) ops).1.discriminators.keys, Utf8 l) (it : IterOrder) (fs fs' : Fs) :
    let w := (wplay (Wisard.create A o) ops).1
    ∃ t w', w.jsonText it (libText read) fs false [] (fun _ => []) = .ok (fs, t) ∧ Wisard.ofText (libText read) fs' t = .ok w' ∧
      WIndistinguishable (fun l => l ∈ w.discriminators.keys ∨ o.mapping.find l = none) w w' ∧
      CutRefused (Wisard.ofText (libText read) fs') t :=
  C91_wisard _ (C149_reread hr) ho ops hs hl it fs fs'

/-- C149 (within the limits of C36): the text of a trained ClusWisard whose labels are UTF-8 and whose score is any `float`
that the constructor accepts. -/
theorem C149_clusWisard {read : Str → Option Rat} (hr : ReadsNearest read) (f : Flt) {A : Int} {ms : Rat} {t dl : Int} {o : ClusOpts}
    {w0 : ClusWisard} (hm : IsFloat Ieee.single ms) (h0 : ClusWisard.create A ms t dl o = .ok w0) (hg : CRange A t dl o) (ops : List COp)
    (hc : ∀ l c, (cplay f w0 ops).1.clusters.find l = some c → SavableC c)
    (hu : (cplay f w0 ops).1.unsupervisedCluster = Cluster.default ∨
      (o.base = 2 ∧ 0 < (cplay f w0 ops).1.unsupervisedCluster.getSize ∧ SavableC (cplay f w0 ops).1.unsupervisedCluster))
    (hl : ∀ l ∈ (cplay f w0 ops).1.clusters.keys, Utf8 l) (it : IterOrder) (fs fs' : Fs) :
    let w := (cplay f w0 ops).1
    ∃ t w', w.jsonText it (libText read) fs false [] (fun _ _ => []) = .ok (fs, t) ∧ ClusWisard.ofText (libText read) fs' t = .ok w' ∧
      CIndistinguishable f w w' ∧ CutRefused (ClusWisard.ofText (libText read) fs') t :=
  C93_clusWisard_partial _ (C149_reread hr) f (minScore_ok hr hm h0) h0 hg ops hc hu hl it fs fs'

/-- C149: the configuration text of a ClusWisard makes an equal untrained one. -/
theorem C149_config {read : Str → Option Rat} (hr : ReadsNearest read) (f : Flt) {A : Int} {ms : Rat} {t dl : Int} {o : ClusOpts}
    {w0 : ClusWisard} (hm : IsFloat Ieee.single ms) (h0 : ClusWisard.create A ms t dl o = .ok w0) (hg : CRange A t dl o) (ops : List COp)
    (fs : Fs) :
    ∃ text j, (cplay f w0 ops).1.jsonConfigText (libText read) = .ok text ∧ ValueText (libText read) text j ∧
      ∀ text', DocText (libText read) text' j → ∃ w', ClusWisard.ofText (libText read) fs text' = .ok w' ∧
        ClusWisard.create A ms t dl { o with searchBestConfidence := false } = .ok w' ∧ CIndistinguishable f w0 w' :=
  C122_clusWisard _ f (minScore_ok hr hm h0) h0 hg ops fs

/-! ## Cases -/

/-- A score of 0.1f, which is not a short decimal as a `double`. -/
example : ∃ w0, ClusWisard.create 3 (13421773 / 2 ^ 27) 10 1 {} = .ok w0 ∧ IsFloat Ieee.single (13421773 / 2 ^ 27 : Rat) ∧
    toChars (13421773 / 2 ^ 27) = some b!"0.10000000149011612" ∧
    FloatOk (libText strtod) (13421773 / 2 ^ 27) := by
  have hf : IsFloat Ieee.single (13421773 / 2 ^ 27 : Rat) :=
    ⟨13421773, -27, by show |(13421773 : Int)| < 2 ^ 24; norm_num, by show (-149 : Int) ≤ -27; norm_num, by norm_num⟩
  have h0 : ClusWisard.create 3 (13421773 / 2 ^ 27) 10 1 {} = .ok ⟨3, 13421773 / 2 ^ 27, 10, 1, {}, [], Cluster.default⟩ := by decide +kernel
  exact ⟨_, h0, hf, by decide +kernel, minScore_ok std_reads hf h0⟩

end Wis
