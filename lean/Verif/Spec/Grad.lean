/-
Specification of layers and their weight gradients, by their textbook formulas.
-/
import Verif.Model.Grad

namespace Logix.Spec
variable {K : Type} [Semiring K]

/-- Output of a linear layer with weight `H` at output feature `i`, for the input `x` at sample and position `pos` (all dimensions but the
last), with `J` input features: `∑ j, H i j * x[pos, j]`. -/
def linearOut (H : Nat → Nat → K) (J : Nat) (x : Tensor K) (pos : List Nat) (i : Nat) : K :=
  ∑ j ∈ Finset.range J, H i j * x.el (pos ++ [j])

/-- The image `x` of sample `n`, channel `c`, at integer coordinates; zero outside the image. -/
def pixel (x : Tensor K) (n c : Nat) (y z : Int) : K :=
  if 0 ≤ y ∧ 0 ≤ z then x.el [n, c, y.toNat, z.toNat] else 0

/-- Output of a 2-d convolution (cross-correlation) with weight `H o c i j`, zero padding, stride and dilation, at output pixel
`(y, z)` of channel `o`, for an input with `C` channels. -/
def convOut (H : Nat → Nat → Nat → Nat → K) (g : ConvGeom) (C : Nat) (x : Tensor K) (n o y z : Nat) : K :=
  ∑ c ∈ Finset.range C, ∑ i ∈ Finset.range g.kernel.1, ∑ j ∈ Finset.range g.kernel.2,
    H o c i j * pixel x n c (y * g.stride.1 + i * g.dilation.1 - g.padding.1) (z * g.stride.2 + j * g.dilation.2 - g.padding.2)

/-- Output size of a convolution along one dimension: the number of window starts `y*stride` such that the window of
`dilation*(kernel-1)+1` pixels fits into the padded image. -/
def outSize (kernel stride padding dilation h : Nat) : Nat := (h + 2 * padding - (dilation * (kernel - 1) + 1)) / stride + 1

/-- The convolution can be applied to an `h × w` image. -/
structure Fits (g : ConvGeom) (h w : Nat) : Prop where
  kernel1 : 0 < g.kernel.1
  kernel2 : 0 < g.kernel.2
  stride1 : 0 < g.stride.1
  stride2 : 0 < g.stride.2
  height : g.dilation.1 * (g.kernel.1 - 1) + 1 ≤ h + 2 * g.padding.1
  width : g.dilation.2 * (g.kernel.2 - 1) + 1 ≤ w + 2 * g.padding.2

/-- The coordinates property (C29) for one batch of `N` images: the rows `P` that enter the forward covariance and the rows `B` that enter
the backward covariance are equally many, `L` per sample, and the logged per-sample gradient is the sum over a sample's rows of the outer
products of `B`'s row with `P`'s row, coordinate by coordinate. -/
def SharedCoordinates (fwd bwd : Tensor K) (g : ConvGeom) (N O R : Nat) : Prop :=
  ∃ P B G, makeForward2d fwd (.conv2d g O) = .ok P ∧ makeBackward2d bwd (.conv2d g O) = .ok B ∧
    computePerSampleGradient fwd bwd (.conv2d g O) = .ok G ∧
    ∃ L, P.shape = [N * L, R] ∧ B.shape = [N * L, O] ∧ G.shape = [N, O, R] ∧
      ∀ n o r, n < N → o < O → r < R →
        G.el [n, o, r] = ∑ l ∈ Finset.range L, B.el [n * L + l, o] * P.el [n * L + l, r]

end Logix.Spec

namespace Logix.Spec
variable {K : Type} [Semiring K]

/-- The sum of the products of corresponding entries. -/
def pairing (t u : Tensor K) : K := ((indices t.shape).map fun idx => t.el idx * u.el idx).sum

/-- What autograd computes for a linear map `F` on tensors of shape `s`: `gin` is the gradient of the input that belongs to the gradient `g` of the output, the
number `⟨F v, g⟩` is `⟨v, gin⟩` for every input `v`. -/
def IsBackward (F : Tensor K → Py (Tensor K)) (s : List Nat) (dev : Dev) (g gin : Tensor K) : Prop :=
  gin.shape = s ∧ gin.dev = dev ∧ ∀ v : Tensor K, v.shape = s → v.dev = dev → ∃ y, F v = .ok y ∧ y.shape = g.shape ∧ pairing y g = pairing v gin

end Logix.Spec
