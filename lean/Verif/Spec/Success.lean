/-
Vocabulary for "influence can be computed after logging".
-/
import Verif.Spec.Influence

namespace Logix.Spec
variable {K : Type}

/-- The library functions return whenever there is something to return: `torch.linalg.eigh` for the covariances in the state, and `torch.inverse`
for every matrix with an inverse. -/
structure LibReturns [Semiring K] (L : Lib K) (s : LState K) : Prop where
  eigh : ∀ path x, tensorAt s.attrs nCov path = some x → ∃ r, L.eigh x = .ok r
  inverse : ∀ (x y : Tensor K) n, x.shape = [n, n] → (∀ i j, i < n → j < n → ∑ k ∈ Finset.range n, x.el [i, k] * y.el [k, j] = if i = j then 1 else 0) →
    ∃ z, L.inverse x = .ok z

/-- The library functions return for every symmetric matrix, and for every matrix with an inverse. -/
structure LibTotal [Semiring K] (L : Lib K) : Prop where
  eigh : ∀ (x : Tensor K) n, Symm x n → ∃ r, L.eigh x = .ok r
  inverse : ∀ (x y : Tensor K) n, x.shape = [n, n] → (∀ i j, i < n → j < n → ∑ k ∈ Finset.range n, x.el [i, k] * y.el [k, j] = if i = j then 1 else 0) →
    ∃ z, L.inverse x = .ok z

/-- The covariances of a module are on one device, and so are their eigenvalues if there are any in the state. -/
structure OneDevice [Semiring K] (s : LState K) : Prop where
  cov : ∀ m (t t' : LogType) x y, tensorAt s.attrs nCov [m, t.name] = some x → tensorAt s.attrs nCov [m, t'.name] = some y → x.dev = y.dev
  eig : ∀ m (t t' : LogType) x y w w', tensorAt s.attrs nCov [m, t.name] = some x → tensorAt s.attrs nCov [m, t'.name] = some y →
    tensorAt s.attrs nEigval [m, t.name] = some w → tensorAt s.attrs nEigval [m, t'.name] = some w' → w.dev = w'.dev

/-- The covariances fit gradients of `rows m` by `cols m` numbers: those of the inputs and of the output gradients, or those of the gradients. -/
def FitsCov [Semiring K] (s : LState K) (keys : List PyStr) (hessian : Hess) (rows cols : PyStr → Nat) : Prop :=
  (UsesKfac s keys hessian ∧ ∀ m ∈ keys, (∃ A, tensorAt s.attrs nCov [m, LogType.name .forward] = some A ∧ A.shape = [cols m, cols m]) ∧
    ∃ B, tensorAt s.attrs nCov [m, LogType.name .backward] = some B ∧ B.shape = [rows m, rows m]) ∨
  (UsesRaw s keys hessian ∧ ∀ m ∈ keys, ∃ C, tensorAt s.attrs nCov [m, LogType.name .grad] = some C ∧ C.shape = [rows m * cols m, rows m * cols m])

/-- The state is ready for influence computations with gradients of these modules and shapes: the covariances are there and fit, no eigenvalues were
fitted (EKFAC), whatever is cached belongs to the covariances, the damping is positive, and the library functions return. -/
structure InfReady [Field K] [LinearOrder K] (L : Lib K) (s : LState K) (keys : List PyStr) (hessian : Hess) (c : K) (rows cols : PyStr → Nat) : Prop where
  hess : PosHessian L s keys hessian c
  plain : s.hasAttr nEkfac = false
  lib : LibReturns L s
  dev : OneDevice s
  fits : FitsCov s keys hessian rows cols

/-- A log of per-sample gradients and nothing else: for every module one matrix of `rows m` by `cols m` numbers per id, all on one device. -/
structure GradLog (ids : List PyStr) (d : GLog K) (dev : Dev) (rows cols : PyStr → Nat) : Prop where
  nodup : (Dict.keys d).Nodup
  grads : ∀ m ∈ Dict.keys d, ∃ g, grad d m = some g ∧ g.shape = [ids.length, rows m, cols m] ∧ g.dev = dev
  only : ∀ p ∈ d, ∀ q ∈ p.2, q.1 = LogType.name .grad
  ids : ids ≠ []
  some : Dict.keys d ≠ []

/-- Every group has a module: one whose name contains the name of the group. -/
def GroupsHit (groups : Option (List PyStr)) (keys : List PyStr) : Prop := ∀ g ∈ groups.getD [], ∃ m ∈ keys, g <:+: m

end Logix.Spec
