/-
Specification of plugin requests.
-/
import Verif.Model.Option

namespace Logix.Spec

/-- The name under which a plugin can be requested. -/
def pluginName : Plugin → String
  | .log => "log"
  | .mean => "mean"
  | .variance => "variance"
  | .covariance => "covariance"
  | .correctedEigval => "corrected_eigval"

/-- The request element asks for the plugin: by its name or by its class. -/
def Asks (r : PluginReq) (p : Plugin) : Prop := r = .name (pluginName p).toList ∨ r = .cls p

/-- Position in the documented order: log, mean, variance, covariance, corrected_eigval. -/
def rank : Plugin → Nat
  | .log => 0
  | .mean => 1
  | .variance => 2
  | .covariance => 3
  | .correctedEigval => 4

/-- The list of plugins that run is the normal form of the request: exactly the requested ones, each once, in order. -/
structure Normal (req : List PluginReq) (out : List Plugin) : Prop where
  mem : ∀ p, p ∈ out ↔ ∃ r ∈ req, Asks r p
  sorted : out.Pairwise fun p q => rank p < rank q

/-- Every element of the request names a plugin. -/
def Known (req : List PluginReq) : Prop := ∀ r ∈ req, ∃ p, Asks r p

end Logix.Spec
