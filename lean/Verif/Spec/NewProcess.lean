/-
Vocabulary for C142: a run logs and is finalized; another process reads its directory.
-/
import Verif.Spec.InfluenceAll
import Verif.Spec.SessionDirectory

namespace Logix
variable {K : Type}
namespace Spec

/-- The arguments of a call of `compute_influence_all`. -/
structure AllCall (K : Type) where
  ids : List PyStr
  src : LogArg K
  loader : List (List PyStr × LogArg K)
  mode : Mode
  pre : Bool
  save : Bool
  hessian : Hess
  groups : Option (List PyStr)
  damping : Option K

/-- What the user sees in a sequence of calls of `compute_influence_all`, up to the first one that raises: each result as it is when it is returned,
and the saved scores at that time. -/
def allAnswers [Field K] (L : Lib K) (sqrt : K → K) : IFObj K → List (AllCall K) → List (Py (Option (IFResult K) × Option (IFResult K)))
  | _, [] => []
  | o, c :: cs =>
    match computeInfluenceAll L sqrt o c.ids c.src c.loader c.mode c.pre c.save c.hessian c.groups c.damping with
    | .error e => [.error e]
    | .ok (o, r) => .ok (r.map o.heap.deref, o.saved.map o.heap.deref) :: allAnswers L sqrt o cs

/-- The program `l` and then `finalize dir`, from `s`, return in `t`, and finalize leaves `files` in the directory of the statistics. -/
def Leaves [Field K] (E : SEnv K) (l : List (SOp K)) (dir : StateDir K) (s t : Sess K) (files : StateDir K) : Prop :=
  SAct.each (SOp.run E) (l ++ [.finalize dir]) s = (t, none) ∧ ∃ v, SAct.each (SOp.run E) l s = (v, none) ∧ v.st.finalize dir = .ok (t.st, files)

end Spec
end Logix
