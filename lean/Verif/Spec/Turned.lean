/-
Specification: the same data in other coordinates of the layers.
-/
import Verif.Spec.ModuleOrder

namespace Logix.Spec
variable {K : Type} [Field K]

/-- The rows of the `W × W` matrix are orthonormal. -/
def OrthoRows (W : Nat) (P : Nat → Nat → K) : Prop :=
  ∀ i j, i < W → j < W → ∑ k ∈ Finset.range W, P i k * P j k = if i = j then 1 else 0

/-- Entry `p`, `q` of `Q X Pᵀ` for an `h × w` matrix `X`. -/
def turned (h w : Nat) (Q P X : Nat → Nat → K) (p q : Nat) : K := ∑ p' ∈ Finset.range h, ∑ q' ∈ Finset.range w, Q p p' * X p' q' * P q q'

/-- Both histories log as many rows of width `W` and samples of a quantity for the covariance, without masks, and the rows are in a relation. -/
structure RowsRelated (W : Nat) (R : (Nat → K) → (Nat → K) → Prop) (calls calls' : List (Plugin × StatCall K)) (m : PyStr) (lt : LogType) : Prop where
  logged : Logged calls m lt ∧ Logged calls' m lt
  width : ∀ c ∈ callsOf .covariance m lt calls ++ callsOf .covariance m lt calls', callWidth c = W
  samples : samples (callsOf .covariance m lt calls) = samples (callsOf .covariance m lt calls')
  rows : List.Forall₂ R (allRows (callsOf .covariance m lt calls)) (allRows (callsOf .covariance m lt calls'))

/-- The second vector is the first one multiplied by the `W × W` matrix `P`. -/
def Times (W : Nat) (P : Nat → Nat → K) (r r' : Nat → K) : Prop := ∀ i, i < W → r' i = ∑ j ∈ Finset.range W, P i j * r j

/-- Two flattened `h × w` matrices, the second one is the first one multiplied by `Q` and the transpose of `P`. -/
def TimesBoth (h w : Nat) (Q P : Nat → Nat → K) (r r' : Nat → K) : Prop :=
  ∀ p q, p < h → q < w → r' (p * w + q) = turned h w Q P (fun p' q' => r (p' * w + q')) p q

/-- The second history is the first one with the inputs of every module `m` multiplied by `P m` and the gradients of its outputs by `Q m`; the
gradients of its weight, `ht m × wd m` matrices, are multiplied by both. Only what the Hessian asks for is compared. -/
def TurnedData (wd ht : PyStr → Nat) (P Q : PyStr → Nat → Nat → K) (calls calls' : List (Plugin × StatCall K)) (keys : List PyStr) (hessian : Hess) : Prop :=
  ((hessian = .kfac ∨ hessian = .auto ∧ ∀ m ∈ keys, callsOf .covariance m .grad calls = [] ∧ callsOf .covariance m .grad calls' = []) ∧
    ∀ m ∈ keys, RowsRelated (wd m) (Times (wd m) (P m)) calls calls' m .forward ∧ RowsRelated (ht m) (Times (ht m) (Q m)) calls calls' m .backward) ∨
  ((hessian = .raw ∨ hessian = .auto) ∧ ∀ m ∈ keys, RowsRelated (ht m * wd m) (TimesBoth (ht m) (wd m) (Q m) (P m)) calls calls' m .grad)

/-- The second log has the gradients of the first one, multiplied by `Q m` and the transpose of `P m`. -/
def TurnedLog (wd ht : PyStr → Nat) (P Q : PyStr → Nat → Nat → K) (d d' : GLog K) : Prop :=
  Dict.keys d = Dict.keys d' ∧ ∀ m ∈ Dict.keys d, ∃ g g' n, grad d m = some g ∧ grad d' m = some g' ∧ g.shape = [n, ht m, wd m] ∧ g'.shape = [n, ht m, wd m] ∧
    ∀ i p q, i < n → p < ht m → q < wd m → g'.el [i, p, q] = turned (ht m) (wd m) (Q m) (P m) (fun p' q' => g.el [i, p', q']) p q

end Logix.Spec
