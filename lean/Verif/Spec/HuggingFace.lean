/-
Vocabulary for the properties of the Hugging Face integration.
-/
import Verif.Model.HuggingFace
import Verif.Spec.InfluenceAll

namespace Logix
variable {K : Type}
namespace Spec

/-- The dictionaries of the modules have every key once. (Every Python dictionary does.) -/
def DictTypes (d : GLog K) : Prop := ∀ x ∈ d, (Dict.keys x.2).Nodup

/-- The log of a micro-batch. -/
def microLog (b : Micro K) : List PyStr × GLog K := (b.ids, b.log)

/-- The numbers of the epochs in which batches are processed. -/
def passes : List HEvent → List Nat
  | [] => []
  | .batches n :: es => n :: passes es
  | _ :: es => passes es

end Spec
end Logix
