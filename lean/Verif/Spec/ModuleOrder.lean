/-
Specification: the same data in another order.
-/
import Verif.Spec.DefaultDamping

namespace Logix.Spec
variable {K : Type}

/-- The two histories logged, for every quantity of every module, the same batches for the covariances, possibly in another order. How the calls for
different modules are interleaved is not said. -/
def SameBatches (calls calls' : List (Plugin × StatCall K)) : Prop :=
  ∀ m lt, (callsOf .covariance m lt calls).Perm (callsOf .covariance m lt calls')

/-- The damping of a module: the one given, or the default. -/
def usedDamping [Field K] (calls : List (Plugin × StatCall K)) (hessian : Hess) (keys : List PyStr) (damping : Option K) (m : PyStr) : K :=
  damping.getD (defaultDamping calls hessian keys m)

end Logix.Spec
