/-
Vocabulary for: the scores are determined by the logged data.
-/
import Verif.Spec.Influence

namespace Logix.Spec
variable {K : Type} [Field K]

/-- Both states hold a covariance of this quantity, with the same shape and the same entries. -/
def SameCov (s s' : LState K) (m : PyStr) (lt : LogType) : Prop :=
  ∃ t t', tensorAt s.attrs nCov [m, lt.name] = some t ∧ tensorAt s'.attrs nCov [m, lt.name] = some t' ∧ t.shape = t'.shape ∧
    ∀ idx, inRange t.shape idx = true → t.el idx = t'.el idx

/-- Both states hold the covariances that the Hessian asks for, and the same ones. -/
def SameHessian (s s' : LState K) (keys : List PyStr) (hessian : Hess) : Prop :=
  (UsesKfac s keys hessian ∧ UsesKfac s' keys hessian ∧ ∀ m ∈ keys, SameCov s s' m .forward ∧ SameCov s s' m .backward) ∨
  (UsesRaw s keys hessian ∧ UsesRaw s' keys hessian ∧ ∀ m ∈ keys, SameCov s s' m .grad)

/-- Both histories logged some rows of this quantity for the covariance, and the same rows for the same number of samples, in whatever order and
batches. Activations and output gradients were logged without masks. -/
structure SameLogged (calls calls' : List (Plugin × StatCall K)) (m : PyStr) (lt : LogType) : Prop where
  some : callsOf .covariance m lt calls ≠ [] ∧ callsOf .covariance m lt calls' ≠ []
  nomask : ∀ c ∈ callsOf .covariance m lt calls ++ callsOf .covariance m lt calls', c.mask = none ∨ lt = .grad
  rows : (allRows (callsOf .covariance m lt calls)).Perm (allRows (callsOf .covariance m lt calls'))
  width : ∀ c ∈ callsOf .covariance m lt calls, ∀ c' ∈ callsOf .covariance m lt calls', callWidth c = callWidth c'
  samples : samples (callsOf .covariance m lt calls) = samples (callsOf .covariance m lt calls')

/-- Both histories logged the same data for the covariances that the Hessian asks for: of activations and output gradients, or of gradients. With
`auto` the choice is made by what was logged. -/
def SameStatData (calls calls' : List (Plugin × StatCall K)) (keys : List PyStr) (hessian : Hess) : Prop :=
  ((hessian = .kfac ∨ hessian = .auto ∧ ∀ m ∈ keys, callsOf .covariance m .grad calls = [] ∧ callsOf .covariance m .grad calls' = []) ∧
    ∀ m ∈ keys, SameLogged calls calls' m .forward ∧ SameLogged calls calls' m .backward) ∨
  ((hessian = .raw ∨ hessian = .auto) ∧ ∀ m ∈ keys, SameLogged calls calls' m .grad)

/-- A new instance has logged the calls with means and covariances only, without masks with negative entries, and was finalized in the state `s`. -/
def Finalized (L : Lib K) [LE K] (calls : List (Plugin × StatCall K)) (s : LState K) : Prop :=
  (∀ pc ∈ calls, pc.1 = .log ∨ pc.1 = .mean ∨ pc.1 = .covariance) ∧ (∀ pc ∈ calls, ∀ m, pc.2.mask = Option.some m → ∀ x ∈ m.data, 0 ≤ x) ∧
  ∃ s₀ dir dir', updates L .init calls = .ok s₀ ∧ s₀.finalize dir = .ok (s, dir')

end Logix.Spec
