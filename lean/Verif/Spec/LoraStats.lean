/-
Specification: the statistics of a layer, and those of the bottleneck of its LoRA wrapper.
-/
import Verif.Spec.LoraLog
import Verif.Spec.Pca
import Verif.Spec.SessionInfluence

namespace Logix.Spec
variable {K : Type} [Field K]

/-- The weight of the encoder as a matrix: from inputs (or input patches) to the bottleneck. -/
def encoderMatrix (l : Layer) (A : Tensor K) (t j : Nat) : K :=
  match l with
  | .conv2d _ _ geo _ => A.el [t, j / (geo.kernel.1 * geo.kernel.2), j / geo.kernel.2 % geo.kernel.1, j % geo.kernel.2]
  | _ => A.el [t, j]

/-- The transposed weight of the decoder as a matrix: from output gradients to gradients of the bottleneck. -/
def decoderMatrix (l : Layer) (D : Tensor K) (s o : Nat) : K :=
  match l with
  | .conv2d .. => D.el [o, s, 0, 0]
  | _ => D.el [o, s]

/-- Entry `s`, `t` of `P M Pᵀ`, where `P` has `W` columns. -/
def congruent (W : Nat) (P M : Nat → Nat → K) (s t : Nat) : K := ∑ j ∈ Finset.range W, ∑ k ∈ Finset.range W, P s j * M j k * P t k

/-- The encoder `A`, of rank `r`, of a layer `l` without dilation computes the input `y` of the bottleneck from the input `x` of the layer. -/
def Encodes (r : Nat) (l : Layer) (A x y : Tensor K) : Prop :=
  A.dev = x.dev ∧
  match l with
  | .linear J _ => A.shape = [r, J] ∧ (∃ n mid, x.shape = n :: (mid ++ [J])) ∧ linearForward A none x = .ok y
  | .conv2d C _ geo _ => geo.dilation = (1, 1) ∧ A.shape = [r, C, geo.kernel.1, geo.kernel.2] ∧ (∃ n h v, Fits geo h v ∧ x.shape = [n, C, h, v]) ∧
      conv2dForward geo 1 A none x = .ok y
  | _ => False

/-- Autograd computes the gradient `k` of the output of the bottleneck from the gradient `g` of the output of the layer, through the decoder `D` of rank `r`. -/
def Decodes (r : Nat) (l : Layer) (D g k : Tensor K) : Prop :=
  match l with
  | .linear _ O => D.shape = [O, r] ∧ ∃ n mid, g.shape = n :: (mid ++ [O]) ∧ IsBackward (linearForward D none) (n :: (mid ++ [r])) D.dev g k
  | .conv2d _ O _ _ => D.shape = [O, r, 1, 1] ∧ ∃ n h v, 0 < h ∧ 0 < v ∧ g.shape = [n, O, h, v] ∧
      IsBackward (conv2dForward ⟨(1, 1), (1, 1), (0, 0), (1, 1)⟩ 1 D none) [n, r, h, v] D.dev g k
  | _ => False

/-- Two tensors of two programs are in this relation. -/
def Related (R : Tensor K → Tensor K → Prop) (tensors tensors' : List (TObj K)) (u u' : Nat) : Prop :=
  ∃ x y, tensors[u]? = some x ∧ tensors'[u']? = some y ∧ R x.val y.val

/-- The second moment `M` of the flattened gradients of a layer, projected in rows and columns to the flattened gradients of a bottleneck of rank `r`. -/
def projectedMoment (r : Nat) (l : Layer) (A D M : Tensor K) (a b : Nat) : K :=
  projected l A D (fun o j => projected l A D (fun o' j' => M.el [o * fanIn l + j, o' * fanIn l + j']) (b / r) (b % r)) (a / r) (a % r)

/-- The gradients of a log are matrices of these sizes. -/
def SquareGrads (d : GLog K) (keys : List PyStr) (rank : PyStr → Nat) : Prop := ∀ m ∈ keys, ∀ g, grad d m = some g → g.shape.tail = [rank m, rank m]

end Logix.Spec
