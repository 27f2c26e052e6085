import Verif.Model.ClusWisard
/-!
# What the option `verbose` makes the calls print

The functions of `/repo/src/models/wisard/wisard.cc`, `/repo/src/models/cluswisard/cluswisard.cc` and of the two wrappers in
`/repo/src/wrappers/` that write to `std::cout`: here every call returns the text it writes, then the object and the result.
Reading and flushing of `std::cout` are not modelled. `verbose` is set by the constructors only.
-/

namespace Wis

/-- `if(verbose) std::cout << …`. wisard.cc:80-166, cluswisard.cc:85-162. -/
def say (verbose : Bool) (t : Str) : Str := if verbose then t else []

/-- `"\r" << what << i+1 << " of " << n`, e.g. wisard.cc:90. -/
def progress (what : Str) (n i : Nat) : Str := 13 :: (what ++ natStr (i + 1) ++ b!" of " ++ natStr n)

/-- `"\r" << std::endl`, e.g. wisard.cc:93. -/
def lineEnd : Str := [13, 10]

/-- The loops `for(i = 0; i < n; i++){ if(verbose) std::cout << "\r…" << i+1 << " of " << n; … }`, from round `i` on: the
text printed, the state and the outcome; an exception of the body ends the loop.
wisard.cc:79-92, 113-116, 161-165, cluswisard.cc:84-87, 99-120, 138-161. -/
def forPrint {α σ : Type} (verbose : Bool) (what : Str) (n : Nat) (body : Nat → α → σ → σ × Res Unit) :
    List α → Nat → σ → Str × σ × Res Unit
  | [], _, s => ([], s, .ok ())
  | x :: xs, i, s =>
    match body i x s with
    | (s', .error e) => (say verbose (progress what n i), s', .error e)
    | (s', .ok ()) =>
      let r := forPrint verbose what n body xs (i + 1) s'
      (say verbose (progress what n i) ++ r.1, r.2)

/-- `if(verbose) std::cout << "\r" << std::endl;` after a loop that ended normally.
wisard.cc:93, 117, 166, cluswisard.cc:88, 113, 121, 147, 162. -/
def endLine {σ : Type} (verbose : Bool) (r : Str × σ × Res Unit) : Str × σ × Res Unit :=
  match r.2.2 with
  | .ok () => (r.1 ++ say verbose lineEnd, r.2)
  | .error _ => r

/-- A classifying loop keeps the labels found so far and returns them at the end.
wisard.cc:157-168, cluswisard.cc:134-164. -/
def labelsOut {β : Type} (r : Str × List β × Res Unit) : Str × Res (List β) :=
  match r.2.2 with
  | .ok () => (r.1, .ok r.2.1)
  | .error e => (r.1, .error e)

namespace Wisard

/-- `train(images, labels)`, wisard.cc:85-94. -/
def trainV (w : Wisard) (env : Nat → Env) (images : List (List Int)) (labels : List Str) : Str × Wisard × Res Unit :=
  match w.trainChecks images labels with
  | .error e => ([], w, .error e)
  | .ok () => endLine w.opts.verbose (forPrint w.opts.verbose b!"training " images.length
      (fun i e w => w.train1 (env i) e.1 e.2) ((images.map Image.vec).zip labels) 0 w)

/-- `train(dataset)`, wisard.cc:76-83: the line is not ended. -/
def trainDataSetV (w : Wisard) (env : Nat → Env) (ds : DataSet) : Str × Wisard × Res Unit :=
  let checks : Res Unit := do
    let b ← ds.get 0
    let n ← calculateNumberOfRams b.size w.addressSize w.opts.completeAddressing
    w.checkConfidence n
  match checks with
  | .error e => ([], w, .error e)
  | .ok () => forPrint w.opts.verbose b!"training " ds.data.length
      (fun i b w => match ds.getLabel i with
        | .error e => (w, .error e)
        | .ok l => w.train1 (env i) (.bin b) l) ds.data 0 w

/-- `leaveMoreOut(images, labels)`, wisard.cc:111-118. -/
def leaveMoreOutV (w : Wisard) (images : List (List Int)) (labels : List Str) : Str × Wisard × Res Unit :=
  match checkInputSizes images.length labels.length with
  | .error e => ([], w, .error e)
  | .ok () => endLine w.opts.verbose (forPrint w.opts.verbose b!"untraining " images.length
      (fun _ e w => w.leaveOneOut e.1 e.2) (images.zip labels) 0 w)

/-- `_classify`, wisard.cc:156-168. -/
def classifyV (w : Wisard) (images : List Image) : Str × Res (List Str) :=
  labelsOut (endLine w.opts.verbose (forPrint w.opts.verbose b!"classifying " images.length
    (fun _ img labels => match w.classify1 img with
      | .error e => (labels, .error e)
      | .ok candidates => (labels ++ [Bleaching.getBiggestCandidate candidates], .ok ())) images 0 []))

/-- `_pyClassify`, wisardwrapper.cc:92-105. -/
def pyClassifyV (w : Wisard) (images : List Image) : Str × Res (List PyLabel) :=
  match images with
  | [] => ([], .error (.ub .outOfBounds))
  | i0 :: _ =>
    match calculateNumberOfRams i0.size w.addressSize w.opts.completeAddressing with
    | .error e => ([], .error e)
    | .ok numberOfRAMS => labelsOut (endLine w.opts.verbose (forPrint w.opts.verbose b!"classifying " images.length
        (fun _ img labels => match w.classify1 img with
          | .error e => (labels, .error e)
          | .ok candidates => (labels ++ [PyOut.setClassifyOutput w.opts (Bleaching.getBiggestCandidate candidates) numberOfRAMS candidates], .ok ()))
        images 0 []))

end Wisard

namespace ClusWisard

/-- `train(images, labels)`, cluswisard.cc:79-89. -/
def trainV (f : Flt) (w : ClusWisard) (env : Nat → Env) (images : List (List Int)) (labels : List Str) : Str × ClusWisard × Res Unit :=
  let checks : Res Unit := do
    w.confidenceCheck images
    Wisard.checkInputSizes images.length labels.length
  match checks with
  | .error e => ([], w, .error e)
  | .ok () => endLine w.opts.verbose (forPrint w.opts.verbose b!"training " images.length
      (fun i e w => w.train1 f (env i) e.1 e.2) (images.zip labels) 0 w)

/-- One round of the first loop of semi-supervised training, cluswisard.cc:101-111; the state is the object, `labelless`
and `j`. -/
def semiRound (f : Flt) (env : Nat → Env) (labels : LabelMap) (i : Nat) (img : List Int) (s : ClusWisard × List Int × Nat) :
    (ClusWisard × List Int × Nat) × Res Unit :=
  match labels.find i with
  | none =>
    match noteLabelless s.2.1 s.2.2 i with
    | .error e => (s, .error e)
    | .ok labelless' => ((s.1, labelless', s.2.2 + 1), .ok ())
  | some l => (((s.1.train1 f (env i) img l).1, s.2), (s.1.train1 f (env i) img l).2)

/-- `train(images, labels)` with a map of labels, cluswisard.cc:91-123. -/
def trainSemiV (f : Flt) (w : ClusWisard) (env : Bool → Nat → Env) (images : List (List Int)) (labels : LabelMap) :
    Str × ClusWisard × Res Unit :=
  let checks : Res Unit := do
    w.confidenceCheck images
    if labels.length > images.length then .error (.throw .labelsTooMany) else .ok ()
  match checks with
  | .error e => ([], w, .error e)
  | .ok () =>
    let r := endLine w.opts.verbose (forPrint w.opts.verbose b!"training supervised " images.length (semiRound f (env false) labels) images 0
      (w, List.replicate (images.length - labels.length) 0, 0))
    match r.2.2 with
    | .error e => (r.1, r.2.1.1, .error e)
    | .ok () =>
      if r.2.1.2.1.length = images.length then (r.1, r.2.1.1, .error (.throw .noValidIndex))
      else
        let r' := endLine w.opts.verbose (forPrint w.opts.verbose b!"training unsupervised " r.2.1.2.1.length
          (fun i img w => w.trainOwn f (env true i) img) (images.take r.2.1.2.1.length) 0 r.2.1.1)
        (r.1 ++ r'.1, r'.2)

/-- `trainUnsupervised(images)`, cluswisard.cc:125-132, prints nothing. -/
def trainUnsupervisedV (f : Flt) (w : ClusWisard) (env : Nat → Env) (images : List (List Int)) : Str × ClusWisard × Res Unit :=
  ([], w.trainUnsupervised f env images)

/-- `classify(images)`, cluswisard.cc:134-149. -/
def classifyV (w : ClusWisard) (images : List (List Int)) : Str × Res (List Str) :=
  labelsOut (endLine w.opts.verbose (forPrint w.opts.verbose b!"classifying " images.length
    (fun _ img labels => match w.classify1 img w.opts.searchBestConfidence with
      | .error e => (labels, .error e)
      | .ok candidates => (labels ++ [beforeSep (Bleaching.getBiggestCandidate candidates)], .ok ())) images 0 []))

/-- `classifyUnsupervised(images)`, cluswisard.cc:151-164. -/
def classifyUnsupervisedV (w : ClusWisard) (images : List (List Int)) : Str × Res (List Str) :=
  labelsOut (endLine w.opts.verbose (forPrint w.opts.verbose b!"classifying unsupervised " images.length
    (fun _ img labels => match w.classifyUnsupervised1 img with
      | .error e => (labels, .error e)
      | .ok candidates => (labels ++ [beforeSep (Bleaching.getBiggestCandidate candidates)], .ok ())) images 0 []))

/-- `pyClassify(images)`, cluswisardwrapper.cc:41-78. -/
def pyClassifyV (w : ClusWisard) (images : List (List Int)) : Str × Res (List PyLabel) :=
  match images with
  | [] => ([], .error (.ub .outOfBounds))
  | i0 :: _ =>
    match calculateNumberOfRams i0.length w.addressSize w.opts.completeAddressing with
    | .error e => ([], .error e)
    | .ok numberOfRAMS => labelsOut (endLine w.opts.verbose (forPrint w.opts.verbose b!"classifying " images.length
        (fun _ img labels => match w.classify1 img w.opts.searchBestConfidence with
          | .error e => (labels, .error e)
          | .ok candidates => (labels ++ [pyOutput w.opts numberOfRAMS candidates], .ok ())) images 0 []))

end ClusWisard
end Wis
