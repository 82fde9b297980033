/-
Specification: the batches that a program saves, read off the program that the user wrote.
-/
import Verif.Spec.SessionStats
import Verif.Spec.SessionStored

namespace Logix.Spec
variable {K : Type}

/-- What a reader of a program keeps in mind about saving: the ids of the current batch, whether its `run(...)` was called with `save=True`, and
whether saving is switched on for all batches. -/
structure Saving where
  ids : List PyStr
  batch : Bool
  always : Bool

/-- One operation of the program. -/
def Saving.step (f : Saving) : SOp K → Saving
  | .call ids _ save => { f with ids := ids, batch := save }
  | .start ids _ => { f with ids := ids }
  | .log ids _ => { f with ids := ids }
  | .save b => { f with always := b }
  | .eval => { f with always := false }
  | _ => f

/-- After some operations. -/
def Saving.after (ops : List (SOp K)) : Saving := ops.foldl Saving.step ⟨[], false, false⟩

/-- Does the operation end a batch that is to be saved? -/
def Saving.ends (f : Saving) : SOp K → Bool
  | .exit => f.batch || f.always
  | .end save => save || f.always
  | _ => false

/-- The batches that a program saves: the ids, and for every module the uses whose output gradients have arrived in the batch (as in `Book`). -/
def savedBatches : Saving → (Nat → Book K) → List (SOp K) → List (List PyStr × (Nat → List (Nat × Nat)))
  | _, _, [] => []
  | f, b, o :: rest => (if f.ends o then [(f.ids, fun m => (b m).arrived)] else []) ++ savedBatches (f.step o) (fun m => (b m).step m o) rest

/-- The gradient that is in a log for a module is that of the batch: none if no gradient has arrived. -/
def HoldsGrad [Semiring K] (tensors : List (TObj K)) (kind : ModKind) (arrived : List (Nat × Nat)) (g : Option (Tensor K)) : Prop :=
  (arrived = [] ∧ g = none) ∨ ∃ T, g = some T ∧ BatchGrad tensors kind arrived T

/-- The gradient of a batch of `n` samples can be stored: some gradient has arrived, there is one row of this shape per sample, and the numbers have an
exact representation. -/
structure Storable [Semiring K] (C : Codec K) (d : DType) (tensors : List (TObj K)) (kind : ModKind) (arrived : List (Nat × Nat)) (n : Nat)
    (shape : List Nat) : Prop where
  some : arrived ≠ []
  rows : ∀ T, BatchGrad tensors kind arrived T → T.shape = n :: shape
  exact : ∀ T, BatchGrad tensors kind arrived T → ∀ c ∈ T.data, C.dec d (C.enc d c).1 = c

end Logix.Spec
