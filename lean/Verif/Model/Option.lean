/-
Plugin options: logix/logging/option.py.
-/
import Verif.Model.Nested

namespace Logix

/-- The plugin classes of logix/statistic/__init__.py:15-19. -/
inductive Plugin
  | log | mean | variance | covariance | correctedEigval
  deriving DecidableEq, Repr

/-- An element of a user's plugin list: a string, one of the plugin classes, or some other object. -/
inductive PluginReq
  | name (s : PyStr)
  | cls (p : Plugin)
  | other
  deriving DecidableEq

/-- logix/logging/option.py:20-26 `_PLUGIN_MAPPING` -/
def pluginMapping : List (PyStr × Plugin) :=
  [(['l', 'o', 'g'], .log), (['m', 'e', 'a', 'n'], .mean), (['v', 'a', 'r', 'i', 'a', 'n', 'c', 'e'], .variance),
   (['c', 'o', 'v', 'a', 'r', 'i', 'a', 'n', 'c', 'e'], .covariance),
   (['c', 'o', 'r', 'r', 'e', 'c', 't', 'e', 'd', '_', 'e', 'i', 'g', 'v', 'a', 'l'], .correctedEigval)]

/-- logix/logging/option.py:39 `order` (also `_PLUGIN_LIST`, line 27) -/
def pluginOrder : List Plugin := [.log, .mean, .variance, .covariance, .correctedEigval]

/-- logix/logging/option.py:30-44 `_reorder_plugins` -/
def reorderPlugins (plugins : List Plugin) : List Plugin := pluginOrder.filter fun p => p ∈ plugins

/-- logix/logging/option.py:52-56: one iteration; the converted element (written back into the caller's list). -/
def convertPlugin : PluginReq → Py Plugin
  | .name s =>
    match Dict.get? pluginMapping s with
    | none => .error .assertionError
    | some p => .ok p
  | .cls p => if p ∈ pluginOrder then .ok p else .error .assertionError
  | .other => .error .assertionError

/-- logix/logging/option.py:52-56: the loop over the caller's list. Returns the caller's list as mutated so far, and the classes. -/
def convertPlugins : List PluginReq → List PluginReq × Py (List Plugin)
  | [] => ([], .ok [])
  | r :: rs =>
    match convertPlugin r with
    | .error e => (r :: rs, .error e)
    | .ok p =>
      match convertPlugins rs with
      | (rs', .error e) => (.cls p :: rs', .error e)
      | (rs', .ok ps) => (.cls p :: rs', .ok (p :: ps))

/-- logix/logging/option.py:47-70 `_to_plugins`. First component: the caller's list after the call. -/
def toPlugins (plugins : List PluginReq) (isGrad : Bool) : List PluginReq × Py (List Plugin) :=
  match convertPlugins plugins with
  | (m, .error e) => (m, .error e)
  | (m, .ok ps) =>
    let ps := reorderPlugins ps
    if isGrad then
      if 0 < ps.length ∧ .log ∉ ps then (m, .ok (.log :: ps)) else (m, .ok ps)
    else (m, .ok ps)

/-- logix/logging/option.py:73-79 `LogOption` -/
structure LogOption where
  forward : List Plugin
  backward : List Plugin
  grad : List Plugin
  deriving DecidableEq

/-- logix/logging/option.py:100-106 `clear` (and 74-79 `__init__`) -/
def LogOption.clear (_ : LogOption) : LogOption := ⟨[], [], []⟩

/-- `LogOption()` -/
def LogOption.init : LogOption := ⟨[], [], []⟩

/-- The dictionary given to `setup`: absent keys are `none`. Other keys are ignored by the code. -/
structure OptionKwargs where
  forward : Option (List PluginReq) := none
  backward : Option (List PluginReq) := none
  grad : Option (List PluginReq) := none

/-- logix/logging/option.py:81-98 `setup` (called by logix/logix.py:537-544). The options reached when an error is raised are kept.
The mutation of the caller's lists is in `toPlugins`. Lists shared between two keys are not modelled (conversion is idempotent). -/
def LogOption.setup (o : LogOption) (kw : OptionKwargs) : LogOption × Py Unit :=
  let o := o.clear
  match (toPlugins (kw.forward.getD []) false).2 with
  | .error e => (o, .error e)
  | .ok f =>
    let o := { o with forward := f }
    match (toPlugins (kw.backward.getD []) false).2 with
    | .error e => (o, .error e)
    | .ok b =>
      let o := { o with backward := b }
      match (toPlugins (kw.grad.getD []) false).2 with
      | .error e => (o, .error e)
      | .ok g => ({ o with grad := g }, .ok ())

/-- logix/logging/logger.py:200-219 `_grad_backward_hook_fn`: the decision part, before any gradient is computed. The result says
whether a gradient is logged. -/
def gradHookCheck (o : LogOption) : Py Bool :=
  match o.grad with
  | [] => .ok false
  | p :: _ => if p = .log then .ok true else .error .assertionError

end Logix
