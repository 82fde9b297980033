/-
Specification: logging programs whose batches fit together and are written to a log directory.
-/
import Verif.Spec.SessionReturns
import Verif.Spec.SessionScores

namespace Logix.Spec
variable {K : Type} [Field K]

/-- What is asked of a program that saves batches, besides tensors that fit together: it only configures LogIX before the first batch, gradients arrive only
within batches; the numbers of the gradients that are saved can be stored exactly in the data type `d`, in which they are written; the ids of the saved
samples are all different, and there are some. The directory has no logs yet, and there is at most one worker that writes. -/
structure SavedProgram (E : SEnv K) (dec : DType → List UInt8 → K) (d : DType) (pre : List (SOp K)) (workers : Nat) (fs : FS) (ctx body : List (SOp K))
    (keys : List PyStr) (mods : PyStr → Nat) : Prop where
  configures : ∀ o ∈ pre, Configures o
  dtype : E.dtype = some d ∨ (E.dtype = none ∧ ∀ o ∈ allocs (pre ++ body), o.dtype = d)
  tidy : Tidy false (ctx ++ body)
  exact : ∀ u ∈ savedBy pre ctx none body, ∀ nm ∈ keys, ∀ T, BatchGrad (allocs body) (E.kind (mods nm)) (u.2 (mods nm)) T → ∀ c ∈ T.data, dec d (E.encode d c).1 = c
  ids : ((savedBy pre ctx none body).flatMap (·.1)).Nodup
  some : (savedBy pre ctx none body).flatMap (·.1) ≠ []
  files : (Dict.keys fs).Nodup
  clean : NoLogs fs
  one : workers ≤ 1

end Logix.Spec
