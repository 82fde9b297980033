/-
Vocabulary for: the self-influence of all samples of the data together.
-/
import Verif.Spec.Leverage

namespace Logix.Spec
variable {K : Type} [Field K]

/-- The gradients in the log are those of all samples of the program, each once, in some order. -/
def AllOfProgram (E : SEnv K) (body : List (SOp K)) (keys : List PyStr) (mods : PyStr → Nat) (d : GLog K) : Prop :=
  ∀ nm ∈ keys, ∃ gs g, GradsOf E body none (mods nm) gs ∧ grad d nm = some g ∧ (∀ T ∈ gs, T.shape.tail = g.shape.tail) ∧
    ((List.range (g.size 0)).map (row g)).Perm (gs.flatMap fun T => (List.range (T.size 0)).map (row T))

/-- The number of numbers that the log has for each sample: the number of weights of its modules. -/
def weights (d : GLog K) (keys : List PyStr) : Nat :=
  (keys.map fun m => match grad d m with
    | some g => numel g.shape.tail
    | none => 0).sum

end Logix.Spec
