/-
Specification: the matrices of the influence function, read off the program that the user wrote.
-/
import Verif.Spec.SessionStats
import Verif.Spec.Formula

namespace Logix.Spec
variable {K : Type} [Field K]

/-- Nothing but logs, means and covariances is configured. -/
def PlainStats (o : LogOption) : Prop := ∀ p ∈ o.forward ++ o.backward ++ o.grad, p = .log ∨ p = .mean ∨ p = .covariance

/-- `A` is the second moment of the inputs of all calls of the module in the program. -/
def InputMoment (E : SEnv K) (body : List (SOp K)) (m : Nat) (A : Tensor K) : Prop :=
  ∃ xs, Values (allocs body) (inputs m body) xs ∧ IsSecondMoment xs (some (E.kind m)) .forward A

/-- `B` is the second moment of the gradients of the outputs of the module, over all calls that the backward pass came through. -/
def OutGradMoment (E : SEnv K) (body : List (SOp K)) (m : Nat) (B : Tensor K) : Prop :=
  ∃ gs, Values (allocs body) ((notes outGrad m ⟨none, [], [], []⟩ body).map Prod.fst) gs ∧ IsSecondMoment gs (some (E.kind m)) .backward B

/-- `C` is the second moment of the per-sample gradients of the module in all batches. -/
def BatchGradMoment (E : SEnv K) (body : List (SOp K)) (m : Nat) (C : Tensor K) : Prop :=
  ∃ gs, List.Forall₂ (BatchGrad (allocs body) (E.kind m)) ((notes batchGrads m ⟨none, [], [], []⟩ body).map Prod.fst) gs ∧ IsSecondMoment gs none .grad C

/-- The entries of a square matrix. -/
def entries (A : Tensor K) (i j : Nat) : K := A.el [i, j]

end Logix.Spec
