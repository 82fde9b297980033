/-
Specification: programs whose logs can be stored, and the scores against what they have stored.
-/
import Verif.Spec.SessionSaves
import Verif.Spec.SessionInfluence
import Verif.Spec.Session

namespace Logix.Spec
variable {K : Type} [Field K]

/-- The batches that a program saves, when it was configured by `pre` and its first batch was opened by `ctx`. -/
def savedBy (pre ctx : List (SOp K)) (mask : Option (Tensor K)) (body : List (SOp K)) : List (List PyStr × (Nat → List (Nat × Nat))) :=
  savedBatches (Saving.after (pre ++ ctx)) (fun _ => ⟨mask, [], [], []⟩) body

/-- A configured run and a program whose logs can be stored: gradients are logged and raw inputs and output gradients are not; the modules `mods nm`
are watched under the names `keys`, each once, and no others; gradients arrive only within batches. In every batch that is saved some gradient of every module
has arrived, with one row per id, and its numbers can be stored exactly in the data type `d`, in which they are written; the ids are all different.
The directory has no logs yet, and there is at most one worker that writes. -/
structure StoredProgram (E : SEnv K) (dec : DType → List UInt8 → K) (d : DType) (pre : List (SOp K)) (workers : Nat) (threshold : Int) (fs : FS)
    (ctx : List (SOp K)) (mask : Option (Tensor K)) (body : List (SOp K)) (keys : List PyStr) (mods : PyStr → Nat) (shape : PyStr → List Nat) : Prop where
  configures : ∀ o ∈ pre, Configures o
  logs : ∀ o ∈ body, ∀ nm ∈ keys, Logs nm o
  dtype : E.dtype = some d ∨ (E.dtype = none ∧ ∀ o ∈ allocs (pre ++ body), o.dtype = d)
  stats : OnlyStatistics (runHistory E pre (Sess.init workers threshold fs)).opt
  gradients : (runHistory E pre (Sess.init workers threshold fs)).opt.grad.head? = some .log
  watches : ∀ nm ∈ keys, Watches (runHistory E pre (Sess.init workers threshold fs)) (mods nm) nm
  names : keys.Nodup
  paths : (runHistory E pre (Sess.init workers threshold fs)).paths = gradOrder keys
  dims : ∀ nm ∈ keys, shape nm ≠ []
  size : ∃ nm ∈ keys, numel (shape nm) ≠ 0
  tidy : Tidy false (ctx ++ body)
  storable : ∀ u ∈ savedBy pre ctx mask body, ∀ nm ∈ keys,
    Storable ⟨E.encode, dec⟩ d (allocs body) (E.kind (mods nm)) (u.2 (mods nm)) u.1.length (shape nm)
  ids : ((savedBy pre ctx mask body).flatMap (·.1)).Nodup
  files : (Dict.keys fs).Nodup
  clean : NoLogs fs
  one : workers ≤ 1

/-- A batch of ids with a log of exactly the gradients of the modules: one row of the given shape per id, on the CPU. -/
structure GradBatch (keys : List PyStr) (shape : PyStr → List Nat) (x : List PyStr × GLog K) : Prop where
  ids : x.1 ≠ []
  nodup : (Dict.keys x.2).Nodup
  same : ∀ m, m ∈ keys ↔ m ∈ Dict.keys x.2
  only : ∀ p ∈ x.2, ∀ q ∈ p.2, q.1 = LogType.name .grad
  grads : ∀ m ∈ keys, ∃ g, grad x.2 m = some g ∧ g.shape = x.1.length :: shape m ∧ g.dev = .cpu

/-- Row `i` of the scores is made of the inner products of the arrays `x`, one per module, with the per-sample gradients of the saved batches: for
sample `j` of a saved batch, the sum over the modules of the inner product with row `j` of the gradient of the batch. -/
def ScoredBy (E : SEnv K) (body : List (SOp K)) (mods : PyStr → Nat) (keys : List PyStr) (shape : PyStr → List Nat)
    (saved : List (List PyStr × (Nat → List (Nat × Nat)))) (T : Tensor K) (i : Nat) (x : PyStr → List Nat → K) : Prop :=
  ∀ l u r, saved = l ++ u :: r → ∃ G : PyStr → Tensor K, (∀ nm ∈ keys, BatchGrad (allocs body) (E.kind (mods nm)) (u.2 (mods nm)) (G nm)) ∧
    ∀ j, j < u.1.length → T.el [i, (l.flatMap (·.1)).length + j] = (keys.map fun nm => dot (shape nm) (x nm) (row (G nm) j)).sum

end Logix.Spec
