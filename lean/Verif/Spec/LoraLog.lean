/-
Specification: a run that logs the weights of layers, and a run that logs the bottlenecks of their LoRA wrappers.
-/
import Verif.Spec.SampleAlone
import Verif.Spec.Modules

namespace Logix.Spec
variable {K : Type} [Field K]

/-- How the logger knows a layer, and how it knows the bottleneck of the wrapper of the layer, of rank `r`. -/
def layerKind : Layer → ModKind
  | .conv2d _ o geo _ => .conv2d geo o
  | .linear _ _ => .linear
  | _ => .other

def bottleneckKind (r : Nat) : Layer → ModKind
  | .conv2d .. => .conv2d ⟨(1, 1), (1, 1), (0, 0), (1, 1)⟩ r
  | .linear _ _ => .linear
  | _ => .other

/-- A layer without dilation has `N` inputs `x` and the gradients `g` of its outputs. In its wrapper, with encoder `A` and decoder `D` of rank `r`, the bottleneck gets the
input `y`, which the encoder computes from `x`, and the output gradient `k`, which autograd computes from `g` through the decoder. -/
def ThroughWrapper (r : Nat) (l : Layer) (A D x g y k : Tensor K) (N : Nat) : Prop :=
  A.dev = x.dev ∧ D.dev = x.dev ∧ g.dev = x.dev ∧
  match l with
  | .linear J O => A.shape = [r, J] ∧ D.shape = [O, r] ∧ (∃ mid, x.shape = N :: (mid ++ [J]) ∧ g.shape = N :: (mid ++ [O])) ∧
      linearForward A none x = .ok y ∧ IsBackward (linearForward D none) y.shape y.dev g k
  | .conv2d C O geo _ => geo.dilation = (1, 1) ∧ 0 < N ∧ 0 < O ∧ 0 < r ∧ A.shape = [r, C, geo.kernel.1, geo.kernel.2] ∧ D.shape = [O, r, 1, 1] ∧
      (∃ h v, Fits geo h v ∧ x.shape = [N, C, h, v] ∧
        g.shape = [N, O, outSize geo.kernel.1 geo.stride.1 geo.padding.1 1 h, outSize geo.kernel.2 geo.stride.2 geo.padding.2 1 v]) ∧
      conv2dForward geo 1 A none x = .ok y ∧ IsBackward (conv2dForward ⟨(1, 1), (1, 1), (0, 0), (1, 1)⟩ 1 D none) y.shape y.dev g k
  | _ => False

/-- Entry `s`, `t` of `Dᵀ G Aᵀ`, where `G` has the entries `G o j`: the weight of a convolution is a matrix with one row per output channel. -/
def projected (l : Layer) (A D : Tensor K) (G : Nat → Nat → K) (s t : Nat) : K :=
  match l with
  | .linear J O => ∑ o ∈ Finset.range O, ∑ j ∈ Finset.range J, D.el [o, s] * G o j * A.el [t, j]
  | .conv2d C O geo _ => ∑ o ∈ Finset.range O, ∑ i ∈ Finset.range C, ∑ p ∈ Finset.range geo.kernel.1, ∑ q ∈ Finset.range geo.kernel.2,
      D.el [o, s, 0, 0] * G o ((i * geo.kernel.1 + p) * geo.kernel.2 + q) * A.el [t, i, p, q]
  | _ => 0

/-- A use of the layer in one run and a use of the bottleneck in the other. -/
def WrappedUse (r : Nat) (l : Layer) (A D : Tensor K) (N : Nat) (tensors tensors' : List (TObj K)) (u u' : Nat × Nat) : Prop :=
  ∃ x g y k, tensors[u.1]? = some x ∧ tensors[u.2]? = some g ∧ tensors'[u'.1]? = some y ∧ tensors'[u'.2]? = some k ∧
    ThroughWrapper r l A D x.val g.val y.val k.val N

end Logix.Spec
