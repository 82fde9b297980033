/-
Specification: the damping when none is given.
-/
import Verif.Spec.SessionInfluence

namespace Logix.Spec
variable {K : Type} [Field K]

/-- The mean of the diagonal of a `W × W` matrix, which is the mean of its eigenvalues. -/
def meanDiagonal (W : Nat) (A : Nat → Nat → K) : K := (∑ i ∈ Finset.range W, A i i) / (W : K)

/-- A tenth of the mean of the eigenvalues of the Hessian of KFAC, the products of the eigenvalues of the `h × h` matrix `B` and those of the `w × w` matrix `A`. -/
def kfacDamping (h w : Nat) (B A : Nat → Nat → K) : K := 1 / 10 * (meanDiagonal h B * meanDiagonal w A)

/-- A tenth of the mean of the eigenvalues of a `W × W` matrix. -/
def rawDamping (W : Nat) (C : Nat → Nat → K) : K := 1 / 10 * meanDiagonal W C

/-- The number of entries of one row of a logged quantity. -/
def features (calls : List (Plugin × StatCall K)) (m : PyStr) (lt : LogType) : Nat :=
  match callsOf .covariance m lt calls with
  | [] => 0
  | c :: _ => callWidth c

/-- With the empirical Fisher matrix every module has its own damping; with KFAC all modules have that of the first one in the log. -/
def defaultDamping (calls : List (Plugin × StatCall K)) (hessian : Hess) (keys : List PyStr) (m : PyStr) : K :=
  if hessian = .raw ∨ hessian = .auto ∧ callsOf .covariance m .grad calls ≠ [] then rawDamping (features calls m .grad) (secondMoment calls m .grad)
  else match keys with
    | [] => 0
    | first :: _ => kfacDamping (features calls first .backward) (features calls first .forward) (secondMoment calls first .backward)
        (secondMoment calls first .forward)

end Logix.Spec
