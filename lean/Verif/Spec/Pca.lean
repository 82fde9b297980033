/-
Specification of PCA initialisation: singular value decompositions and principal directions.
-/
import Verif.Model.Modules
import Verif.Spec.Stats
import Mathlib.Algebra.Order.Field.Basic

namespace Logix
namespace Spec
variable {K : Type}

/-- `x = u diag(s) v` for orthogonal matrices `u`, `v`, and the numbers `s` are not negative and in descending order. -/
structure SvdDec [Semiring K] [LE K] (x u s v : Tensor K) (n : Nat) : Prop where
  ushape : u.shape = [n, n]
  sshape : s.shape = [n]
  vshape : v.shape = [n, n]
  dec : ∀ i j, i < n → j < n → x.el [i, j] = ∑ a ∈ Finset.range n, u.el [i, a] * s.el [a] * v.el [a, j]
  urows : ∀ i j, i < n → j < n → ∑ a ∈ Finset.range n, u.el [i, a] * u.el [j, a] = if i = j then 1 else 0
  ucols : ∀ a b, a < n → b < n → ∑ i ∈ Finset.range n, u.el [i, a] * u.el [i, b] = if a = b then 1 else 0
  vrows : ∀ i j, i < n → j < n → ∑ a ∈ Finset.range n, v.el [i, a] * v.el [j, a] = if i = j then 1 else 0
  vcols : ∀ a b, a < n → b < n → ∑ i ∈ Finset.range n, v.el [i, a] * v.el [i, b] = if a = b then 1 else 0
  nonneg : ∀ a, a < n → 0 ≤ s.el [a]
  desc : ∀ a b, a ≤ b → b < n → s.el [b] ≤ s.el [a]

/-- What `torch.linalg.svd` promises for square matrices. -/
def SvdOk [Semiring K] [LE K] (svd : Tensor K → Py (Tensor K × Tensor K × Tensor K)) : Prop :=
  ∀ (x : Tensor K) (n : Nat), x.shape = [n, n] → ∀ u s v, svd x = .ok (u, s, v) → SvdDec x u s v n

/-- `q 0, ..., q (r - 1)` are orthonormal vectors with `n` entries. -/
def Orthonormal [Semiring K] (n r : Nat) (q : Nat → Nat → K) : Prop :=
  ∀ i j, i < r → j < r → ∑ k ∈ Finset.range n, q i k * q j k = if i = j then 1 else 0

/-- The variance along the vectors `q 0, ..., q (r - 1)` of data whose covariance is `x`: the sum of `qᵢᵀ x qᵢ`. -/
def variance [Semiring K] (x : Tensor K) (n r : Nat) (q : Nat → Nat → K) : K :=
  ∑ i ∈ Finset.range r, ∑ k ∈ Finset.range n, ∑ l ∈ Finset.range n, q i k * x.el [k, l] * q i l

/-- The vectors `q 0, ..., q (r - 1)` are principal directions of the `n × n` matrix `x`: orthonormal eigenvectors, in descending order of their eigenvalues, and no
`r` orthonormal vectors have a larger variance. -/
structure Principal [Semiring K] [LE K] (x : Tensor K) (n r : Nat) (q : Nat → Nat → K) : Prop where
  orth : Orthonormal n r q
  eig : ∃ c : Nat → K, (∀ i, i < r → ∀ k, k < n → ∑ l ∈ Finset.range n, x.el [k, l] * q i l = c i * q i k) ∧
    (∀ i, i < r → 0 ≤ c i) ∧ ∀ i j, i ≤ j → j < r → c j ≤ c i
  best : ∀ p : Nat → Nat → K, Orthonormal n r p → variance x n r p ≤ variance x n r q

/-- The vector `x` with `n` entries is a combination of `q 0, ..., q (r - 1)`. -/
def InSpan [Semiring K] (n r : Nat) (q : Nat → Nat → K) (x : Nat → K) : Prop := ∃ c : Nat → K, ∀ k, k < n → x k = ∑ i ∈ Finset.range r, c i * q i k

/-- The vectors of the list all lie in one subspace of at most `r` dimensions. -/
def RankAtMost [Semiring K] (n r : Nat) (l : List (Nat → K)) : Prop := ∃ q : Nat → Nat → K, Orthonormal n r q ∧ ∀ x ∈ l, InSpan n r q x

/-- The covariance of a module's inputs (`forward`) or output gradients (`backward`), if there is one. -/
def covOf (cov : StateDict K) (name : PyStr) (lt : LogType) : Option (Tensor K) :=
  match (Nested.node cov).lookup [name, lt.name] with
  | some (.tensor t) => some t
  | _ => none

/-- The number of inputs and outputs of a layer: for a convolution the entries of a window, and the output channels. -/
def fanIn : Layer → Nat
  | .linear i _ => i
  | .conv2d i _ g _ => i * (g.kernel.1 * g.kernel.2)
  | _ => 0
def fanOut : Layer → Nat
  | .linear _ o => o
  | .conv2d _ o _ _ => o
  | _ => 0

/-- The rank of the wrapper of a layer: the configured one, but at most the numbers of features or channels. -/
def loraRank (rank : Nat) : Layer → Nat
  | .linear i o => min rank (min i o)
  | .conv2d i o _ _ => min rank (min i o)
  | _ => 0

/-- The shapes of the weights of encoder and decoder. -/
def encShape (rank : Nat) : Layer → List Nat
  | .linear i o => [min rank (min i o), i]
  | .conv2d i o g _ => [min rank (min i o), i, g.kernel.1, g.kernel.2]
  | _ => []

def decShape (rank : Nat) : Layer → List Nat
  | .linear i o => [o, min rank (min i o)]
  | .conv2d i o _ _ => [o, min rank (min i o), 1, 1]
  | _ => []

/-- The kernel of a convolution is not empty. -/
def HasKernel (l : Layer) : Prop := ∀ i o g gr, l = .conv2d i o g gr → 0 < g.kernel.1 ∧ 0 < g.kernel.2

/-- Entry `(i, k)` of a tensor read as a matrix with `n` columns. -/
def asMatrix [Zero K] (t : Tensor K) (n i k : Nat) : K := t.data.getD (i * n + k) 0

/-- The module's covariances have the sizes of the layer and `svd` succeeds on them. -/
def PcaReady (P : Pca K) (name : PyStr) (l : Layer) : Prop :=
  ∃ f b uf sf vf ub sb vb, covOf P.cov name .forward = some f ∧ covOf P.cov name .backward = some b ∧ P.svd f = .ok (uf, sf, vf) ∧ P.svd b = .ok (ub, sb, vb) ∧
    uf.shape = [fanIn l, fanIn l] ∧ ub.shape = [fanOut l, fanOut l]

end Spec
end Logix
