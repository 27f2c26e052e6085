import Verif.Model.PyClusSession
import Verif.Spec.Bind
import Verif.Spec.ClusWisard
import Verif.Spec.ClusWisardJson
/-!
# What a Python call on a ClusWisard asks for
-/

namespace Wis.Spec

/-- The call asks for `op`. -/
inductive AsksFor : PyClusCall → COp → Prop
  /-- `train(images, labels)` with a list of labels. -/
  | lists {env x y xs ls} : PyImages x xs → PyTexts y ls → AsksFor (.train env [x, y]) (.train (env true) xs ls)
  /-- `train(images, labels)` with a dict from positions to labels. -/
  | dict {env x y xs m} : PyImages x xs → PyLabels y m → AsksFor (.train env [x, y]) (.semi env xs m)
  /-- `trainUnsupervised(images)`. -/
  | unsupervised {env x xs} : PyImages x xs → AsksFor (.trainUnsupervised env [x]) (.unsup env xs)
  /-- `getMentalImage(label)`. -/
  | mental {it x l} : PyText x l → AsksFor (.getMentalImage it [x]) (.mental it l)

end Wis.Spec
