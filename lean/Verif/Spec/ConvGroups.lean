/-
Specification of grouped convolutions and their weight gradients, by the textbook formula.
-/
import Verif.Spec.Grad

namespace Logix.Spec
variable {K : Type} [Semiring K]

/-- Output of a 2-d convolution with groups at output pixel `(y, z)` of channel `o`: every group has `Cg` input and `per` output channels, and the
weight `H o c i j` of an output channel is over the input channels of its group. -/
def groupedOut (H : Nat → Nat → Nat → Nat → K) (g : ConvGeom) (Cg per : Nat) (x : Tensor K) (n o y z : Nat) : K :=
  ∑ c ∈ Finset.range Cg, ∑ i ∈ Finset.range g.kernel.1, ∑ j ∈ Finset.range g.kernel.2,
    H o c i j * pixel x n (o / per * Cg + c) (y * g.stride.1 + i * g.dilation.1 - g.padding.1) (z * g.stride.2 + j * g.dilation.2 - g.padding.2)

/-- The inner product of two weights of such a convolution with `O` output channels. -/
def weightDot (g : ConvGeom) (Cg O : Nat) (W H : Nat → Nat → Nat → Nat → K) : K :=
  ∑ o ∈ Finset.range O, ∑ c ∈ Finset.range Cg, ∑ i ∈ Finset.range g.kernel.1, ∑ j ∈ Finset.range g.kernel.2, W o c i j * H o c i j

/-- `W` is the gradient of sample `n` with respect to the weight: paired with any perturbation `H` of the weight it gives the output gradient paired
with the convolution of the input by `H`. -/
def IsWeightGrad (g : ConvGeom) (Cg per O : Nat) (fwd bwd : Tensor K) (n : Nat) (W : Nat → Nat → Nat → Nat → K) : Prop :=
  ∀ H : Nat → Nat → Nat → Nat → K, weightDot g Cg O W H = ∑ o ∈ Finset.range O, ∑ y ∈ Finset.range (bwd.size 2), ∑ z ∈ Finset.range (bwd.size 3),
    bwd.el [n, o, y, z] * groupedOut H g Cg per fwd n o y z

/-- Input and output gradient of a convolution with `G` groups of `Cg` input and `per` output channels, for `N` images of size `h × w`. -/
structure GroupedData (g : ConvGeom) (G Cg per N h w : Nat) (fwd bwd : Tensor K) : Prop where
  fits : Fits g h w
  samples : 0 < N
  groups : 0 < G
  outs : 0 < per
  input : fwd.shape = [N, G * Cg, h, w]
  output : bwd.shape = [N, G * per, outSize g.kernel.1 g.stride.1 g.padding.1 g.dilation.1 h, outSize g.kernel.2 g.stride.2 g.padding.2 g.dilation.2 w]
  dev : bwd.dev = fwd.dev

/-- **C107.** The logged per-sample gradient is the gradient with respect to the weight: its rows have one entry for each of `(c, i, j)`, in C order. -/
def C107 (K : Type) [Semiring K] : Prop :=
  ∀ (g : ConvGeom) (G Cg per N h w : Nat) (fwd bwd : Tensor K), GroupedData g G Cg per N h w fwd bwd →
    ∃ T, computePerSampleGradient fwd bwd (.conv2d g (G * per)) = .ok T ∧ T.shape = [N, G * per, Cg * g.kernel.1 * g.kernel.2] ∧
      ∀ n < N, IsWeightGrad g Cg per (G * per) fwd bwd n fun o c i j => T.el [n, o, (c * g.kernel.1 + i) * g.kernel.2 + j]

/-- **C107, scores.** The inner product of the logged gradients of two samples is that of their gradients with respect to the weight. -/
def C107_scores (K : Type) [Semiring K] : Prop :=
  ∀ (g : ConvGeom) (G Cg per N h w : Nat) (fwd bwd : Tensor K), GroupedData g G Cg per N h w fwd bwd →
    ∃ T, computePerSampleGradient fwd bwd (.conv2d g (G * per)) = .ok T ∧
      ∀ n < N, ∀ n' < N, ∀ W W', IsWeightGrad g Cg per (G * per) fwd bwd n W → IsWeightGrad g Cg per (G * per) fwd bwd n' W' →
        ((indices T.shape.tail).map fun idx => T.el (n :: idx) * T.el (n' :: idx)).sum = weightDot g Cg (G * per) W W'

end Logix.Spec
