/-
Vocabulary for: the scores are the influence function of the logged data.
-/
import Verif.Spec.Determined

namespace Logix.Spec
variable {K : Type} [Field K]

/-- The history logged some rows of this quantity for the covariance; activations and output gradients without masks. -/
def Logged (calls : List (Plugin × StatCall K)) (m : PyStr) (lt : LogType) : Prop :=
  callsOf .covariance m lt calls ≠ [] ∧ ∀ c ∈ callsOf .covariance m lt calls, c.mask = none ∨ lt = .grad

/-- The second moment of a logged quantity: the products of entries `i` and `j` of all its rows, over the number of samples. -/
def secondMoment (calls : List (Plugin × StatCall K)) (m : PyStr) (lt : LogType) (i j : Nat) : K :=
  ((allRows (callsOf .covariance m lt calls)).map fun r => r i * r j).sum / (samples (callsOf .covariance m lt calls) : K)

/-- `x` solves the damped system of KFAC for the gradient of sample `i` in the module: `B x A + c x = g`. -/
def KfacSystem (A B : Nat → Nat → K) (c : K) (d : GLog K) (i : Nat) (m : PyStr) (x : List Nat → K) : Prop :=
  ∃ g n h w, grad d m = some g ∧ g.shape = [n, h, w] ∧ ∀ p q, p < h → q < w →
    (∑ p' ∈ Finset.range h, ∑ q' ∈ Finset.range w, B p p' * x [p', q'] * A q' q) + c * x [p, q] = g.el [i, p, q]

/-- `x` solves the damped system of a matrix for the gradient of sample `i` in the module, flattened: `S x + c x = g`. -/
def RawSystem (S : Nat → Nat → K) (c : K) (d : GLog K) (i : Nat) (m : PyStr) (x : List Nat → K) : Prop :=
  ∃ g, grad d m = some g ∧ ∀ idx ∈ indices g.shape.tail,
    ((indices g.shape.tail).map fun idx' => S (ravel g.shape.tail idx) (ravel g.shape.tail idx') * x idx').sum + c * x idx = g.el (i :: idx)

/-- The damped system of KFAC, where `A` and `B` are the second moments of the inputs and of the output gradients. -/
def SolvesKfac (calls : List (Plugin × StatCall K)) (c : K) (d : GLog K) (i : Nat) (m : PyStr) (x : List Nat → K) : Prop :=
  KfacSystem (secondMoment calls m .forward) (secondMoment calls m .backward) c d i m x

/-- The damped system of the empirical Fisher matrix: `S` is the second moment of the flattened gradients. -/
def SolvesRaw (calls : List (Plugin × StatCall K)) (c : K) (d : GLog K) (i : Nat) (m : PyStr) (x : List Nat → K) : Prop :=
  RawSystem (secondMoment calls m .grad) c d i m x

/-- `x` solves the system that the arguments ask for. -/
def Solves (calls : List (Plugin × StatCall K)) (hessian : Hess) (c : K) (d : GLog K) (i : Nat) (m : PyStr) (x : List Nat → K) : Prop :=
  if hessian = .raw ∨ hessian = .auto ∧ callsOf .covariance m .grad calls ≠ [] then SolvesRaw calls c d i m x else SolvesKfac calls c d i m x

/-- The history logged what the Hessian asks for: with `raw` the gradients, with `kfac` the activations and the output gradients, of all modules.
With `auto` it logged either the gradients of all modules, or those of none, and the activations and output gradients of all. -/
def LoggedAll (calls : List (Plugin × StatCall K)) (keys : List PyStr) (hessian : Hess) : Prop :=
  ((hessian = .kfac ∨ hessian = .auto ∧ ∀ m ∈ keys, callsOf .covariance m .grad calls = []) ∧
    ∀ m ∈ keys, Logged calls m .forward ∧ Logged calls m .backward) ∨
  ((hessian = .raw ∨ hessian = .auto) ∧ ∀ m ∈ keys, Logged calls m .grad)

/-- The inner product, over all modules, of arrays with the gradient of sample `j`. -/
def against (x : PyStr → List Nat → K) (e : GLog K) (j : Nat) (keys : List PyStr) : K :=
  (keys.map fun m => match grad e m with
    | some h => dot h.shape.tail (x m) (row h j)
    | none => 0).sum

end Logix.Spec
