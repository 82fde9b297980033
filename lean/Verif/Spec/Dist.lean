/-
Specification for several processes.
-/
import Verif.Spec.Stats
import Verif.Model.Dist

namespace Logix.Spec
variable {K : Type}

/-- The same call with the batch on another device; `dev` tells the device per quantity. -/
def movedTo (dev : PyStr → LogType → Dev) (pc : Plugin × StatCall K) : Plugin × StatCall K :=
  (pc.1, { pc.2 with data := pc.2.data.onDev (dev pc.2.name pc.2.logType) })

/-- Processes that log batches of the same quantities with the same widths, each on its own devices (`dev` tells them per process and quantity),
with the same setting of `cpu_offload`. They meet the quantities in the same order: modules in the order in which they are first met, and for each module its log types. -/
structure Cluster (width : PyStr → LogType → Nat) (dev : Nat → PyStr → LogType → Dev) (offload : Bool)
    (css : List (List (Plugin × StatCall K))) : Prop where
  regular : ∀ (i : Nat) (cs : List (Plugin × StatCall K)), css[i]? = some cs → Regular width (dev i) offload cs
  order : ∀ cs ∈ css, ∀ cs' ∈ css, ∀ q ∈ [Plugin.mean, Plugin.covariance], order q cs = order q cs'

/-- New processes have logged the calls, without masks with negative entries, and were finalized together in the states `ss`. -/
def FinalizedAll [Field K] [LE K] (L : Lib K) (css : List (List (Plugin × StatCall K))) (ss : List (LState K)) : Prop :=
  (∀ cs ∈ css, ∀ pc ∈ cs, ∀ m, pc.2.mask = some m → ∀ x ∈ m.data, 0 ≤ x) ∧
  ∃ ss₀ dir dir', List.Forall₂ (fun cs s => updates L .init cs = .ok s) css ss₀ ∧ finalizeDist ss₀ dir = .ok (ss, dir')

end Logix.Spec
