/-
Shapes and per-sample gradients: logix/statistic/utils.py and logix/logging/utils.py.
-/
import Verif.Model.Tensor

namespace Logix

/-- Geometry of a `nn.Conv2d`. `padding` given as a string and padding modes other than zeros are not modelled. -/
structure ConvGeom where
  kernel : Nat × Nat
  stride : Nat × Nat
  padding : Nat × Nat
  dilation : Nat × Nat
  deriving DecidableEq

/-- What the code asks about a module: `isinstance(module, nn.Linear)`, `nn.Conv2d`, `nn.Conv1d`; for convolutions the geometry and
`module.weight.shape[0]`. -/
inductive ModKind where
  | linear
  | conv2d (g : ConvGeom) (outChannels : Nat)
  | conv1d
  | other
  deriving DecidableEq

variable {K : Type}

/-- `F.pad(inputs, (p1, p1, p0, p0))` of a four-dimensional tensor: zeros around the image. -/
def Tensor.pad2d [Zero K] (t : Tensor K) (p : Nat × Nat) : Tensor K :=
  Tensor.ofFn4 t.dev (t.size 0) (t.size 1) (t.size 2 + 2 * p.1) (t.size 3 + 2 * p.2) fun n c y x =>
    if p.1 ≤ y ∧ p.2 ≤ x then t.el [n, c, y - p.1, x - p.2] else 0

/-- logix/statistic/utils.py:30-61 `extract_patches`. `inputs.unfold(2, k0, s0)` and `inputs.unfold(3, k1, s1)` give
`[n, c, oh, ow, k0, k1]` with entry `(n, c, y, x, i, j)` equal to the padded input at `(n, c, y*s0 + i, x*s1 + j)`; the two transpositions
move the channel behind the positions. A kernel larger than the padded image raises. -/
def extractPatches [Zero K] (inputs : Tensor K) (g : ConvGeom) : Py (Tensor K) :=
  match inputs.shape with
  | [n, c, _, _] =>
    let t := if g.padding.1 + g.padding.2 > 0 then inputs.pad2d g.padding else inputs
    if g.kernel.1 ≤ t.size 2 ∧ g.kernel.2 ≤ t.size 3 ∧ 0 < g.stride.1 ∧ 0 < g.stride.2 then
      let oh := (t.size 2 - g.kernel.1) / g.stride.1 + 1
      let ow := (t.size 3 - g.kernel.2) / g.stride.2 + 1
      (Tensor.ofFn6 t.dev n oh ow c g.kernel.1 g.kernel.2 fun n y x c i j =>
        t.el [n, c, y * g.stride.1 + i, x * g.stride.2 + j]).reshape [n, oh, ow, c * g.kernel.1 * g.kernel.2]
    else .error .runtimeError
  | _ => .error .indexError

/-- logix/statistic/utils.py:64-85 `make_forward_2d` -/
def makeForward2d [Zero K] (data : Tensor K) : ModKind → Py (Tensor K)
  | .linear =>
    match data.shape.getLast? with
    | none => .error .indexError
    | some d => data.reshapeInfer [] [d]
  | .conv2d g _ =>
    match extractPatches data g with
    | .error e => .error e
    | .ok p => p.reshapeInfer [] [p.size 3]
  | _ => .error .invalidModuleError

/-- `data.permute(0, 2, 3, 1)` of a four-dimensional tensor. -/
def Tensor.permute0231 [Zero K] (t : Tensor K) : Tensor K :=
  Tensor.ofFn4 t.dev (t.size 0) (t.size 2) (t.size 3) (t.size 1) fun n y x c => t.el [n, c, y, x]

/-- logix/statistic/utils.py:88-109 `make_backward_2d` -/
def makeBackward2d [Zero K] (data : Tensor K) : ModKind → Py (Tensor K)
  | .linear =>
    match data.shape.getLast? with
    | none => .error .indexError
    | some d => data.reshapeInfer [] [d]
  | .conv2d _ _ =>
    match data.shape with
    | [_, c, _, _] => data.permute0231.reshapeInfer [] [c]
    | _ => .error .runtimeError
  | _ => .error .invalidModuleError

/-- The log types. -/
inductive LogType where
  | forward | backward | grad
  deriving DecidableEq

/-- logix/statistic/utils.py:112-130 `make_2d` -/
def make2d [Zero K] (data : Tensor K) (module : Option ModKind) (logType : LogType) : Py (Tensor K) :=
  match module with
  | none =>
    match data.shape with
    | [] => .error .indexError
    | n :: _ => data.reshapeInfer [n] []
  | some m =>
    match logType with
    | .forward => makeForward2d data m
    | .backward => makeBackward2d data m
    | .grad => .error .valueError

/-- `torch.nn.functional.unfold(fwd, kernel_size, dilation, padding, stride)` of a batch of images: the columns are the input patches.
An empty output raises. -/
def unfoldImages [Zero K] (fwd : Tensor K) (g : ConvGeom) : Py (Tensor K) :=
  match fwd.shape with
  | [n, c, h, w] =>
    let spanH := g.dilation.1 * (g.kernel.1 - 1) + 1
    let spanW := g.dilation.2 * (g.kernel.2 - 1) + 1
    if spanH ≤ h + 2 * g.padding.1 ∧ spanW ≤ w + 2 * g.padding.2 ∧ 0 < g.kernel.1 ∧ 0 < g.kernel.2 ∧ 0 < g.stride.1 ∧ 0 < g.stride.2 then
      let oh := (h + 2 * g.padding.1 - spanH) / g.stride.1 + 1
      let ow := (w + 2 * g.padding.2 - spanW) / g.stride.2 + 1
      let t := fwd.pad2d g.padding
      .ok (Tensor.ofFn3 fwd.dev n (c * g.kernel.1 * g.kernel.2) (oh * ow) fun n r l =>
        t.el [n, r / (g.kernel.1 * g.kernel.2),
          (l / ow) * g.stride.1 + (r / g.kernel.2 % g.kernel.1) * g.dilation.1,
          (l % ow) * g.stride.2 + (r % g.kernel.2) * g.dilation.2])
    else .error .runtimeError
  | _ => .error .runtimeError

/-- The einsum and reduce of logix/logging/utils.py:35-36: output gradients `[n, ..., i]` and inputs `[n, ..., j]` with the same middle
dimensions give `[n, i, j]`, the sum over all positions of the products. Broadcasting of dimensions of size 1 is not modelled. -/
def outerSum [Semiring K] (bwd fwd : Tensor K) : Py (Tensor K) :=
  match bwd.shape, fwd.shape with
  | n :: i :: s, n' :: j :: s' =>
    let mid := (i :: s).dropLast
    if n = n' ∧ mid = (j :: s').dropLast ∧ bwd.dev = fwd.dev then
      let I := (i :: s).getLast (by simp)
      let J := (j :: s').getLast (by simp)
      match bwd.reshape [n, numel mid, I], fwd.reshape [n, numel mid, J] with
      | .ok b, .ok f =>
        .ok (Tensor.ofFn3 bwd.dev n I J fun n a c => ∑ t ∈ Finset.range (numel mid), b.el [n, t, a] * f.el [n, t, c])
      | _, _ => .error .runtimeError
    else .error .runtimeError
  | _, _ => .error .runtimeError

/-- logix/logging/utils.py:20-59 `compute_per_sample_gradient` -/
def computePerSampleGradient [Semiring K] (fwd bwd : Tensor K) : ModKind → Py (Tensor K)
  | .linear => outerSum bwd fwd
  | .conv2d g outChannels =>
    match unfoldImages fwd g with
    | .error e => .error e
    | .ok u =>
      match bwd.reshapeInfer [fwd.size 0] [u.size 2] with
      | .error e => .error e
      | .ok b =>
        if b.dev = u.dev then
          (Tensor.ofFn3 bwd.dev (fwd.size 0) (b.size 1) (u.size 1) fun n j l =>
            ∑ k ∈ Finset.range (u.size 2), b.el [n, j, k] * u.el [n, l, k]).reshapeInfer [fwd.size 0, outChannels] []
        else .error .runtimeError
  | .conv1d => .error .notImplementedError
  | .other => .error .valueError

end Logix
