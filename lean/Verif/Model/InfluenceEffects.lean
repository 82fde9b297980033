/-
What `compute_influence` does to the logs of the caller: logix/analysis/influence_function.py and logix/utils.py.
-/
import Verif.Model.Influence

namespace Logix
variable {K : Type}

/-- The caller's target log (a dictionary) after logix/analysis/influence_function.py:80-178 `compute_influence`, whether it returns or raises:
`synchronize_device` (logix/utils.py:202-220, called in line 130) replaces its tensors. Nothing else writes to it. The source log is not
written to by any line: `precondition` (lines 45-78, influence_function_utils.py:25-86) builds a new dictionary. Simplification: reading a
missing key of a `defaultdict`, which adds an empty entry, is not modelled; it raises in the next operation. -/
def targetAfter [Field K] (L : Lib K) (s : LState K) (src : LogArg K) (tgt : GLog K) (mode : Mode) (pre : Bool) (hessian : Hess)
    (damping : Option K) : GLog K :=
  if mode = .other then tgt
  else
    match (if pre then precondition L s src hessian damping else .ok (s, src)) with
    | .ok (_, .dict d) =>
      match syncDevice d tgt with
      | .ok t => t
      | .error _ => tgt
    | _ => tgt

end Logix
