/-
Vocabulary for the properties of influence scores.
-/
import Verif.Model.Influence
import Verif.Spec.Stats

namespace Logix
variable {K : Type}

/-- The value of a result under a key: without groups there is only the total. -/
def Influence.get? (i : Influence K) (k : PyStr) : Option (Tensor K) :=
  match i with
  | .one t => if k = ['t', 'o', 't', 'a', 'l'] then some t else none
  | .groups d => Dict.get? d k

namespace Spec

/-- The gradients of a module in a log: one per sample, along the first dimension. -/
def grad (d : GLog K) (m : PyStr) : Option (Tensor K) := (Dict.get? d m).bind fun sub => Dict.get? sub (LogType.name .grad)

/-- The gradient of sample `i`. -/
def row [Zero K] (t : Tensor K) (i : Nat) : List Nat → K := fun idx => t.el (i :: idx)

/-- Inner product of two arrays of shape `r`. -/
def dot [Semiring K] (r : List Nat) (f g : List Nat → K) : K := ((indices r).map fun idx => f idx * g idx).sum

/-- One gradient per id in every module of the log. -/
structure Labelled (ids : List PyStr) (d : GLog K) : Prop where
  nodup : (Dict.keys d).Nodup
  rows : ∀ m ∈ Dict.keys d, ∃ g, grad d m = some g ∧ g.size 0 = ids.length

/-- The modules of a group: those whose name contains the name of the group. All modules belong to the total. -/
def members (keys : List PyStr) (k : PyStr) : List PyStr := if k = ['t', 'o', 't', 'a', 'l'] then keys else keys.filter fun m => decide (k <:+: m)

/-- The inner product of the gradients of sample `i` of one log and sample `j` of another in one module. -/
def moduleDot [Semiring K] (d : GLog K) (i : Nat) (e : GLog K) (j : Nat) (m : PyStr) : K :=
  match grad d m, grad e m with
  | some g, some h => dot g.shape.tail (row g i) (row h j)
  | _, _ => 0

/-- The gradient of sample `i`, flattened and concatenated over the given modules. -/
def flatGrad [Zero K] (keys : List PyStr) (d : GLog K) (i : Nat) : List K :=
  keys.flatMap fun m => match grad d m with
    | some g => (indices g.shape.tail).map (row g i)
    | none => []

/-- The inner product of two lists. -/
def inner [Semiring K] (x y : List K) : K := (List.zipWith (· * ·) x y).sum

/-- `w` and the columns of `v` are eigenvalues and orthonormal eigenvectors of the `n × n` matrix `x`. -/
structure EigenDec [Semiring K] (x w v : Tensor K) (n : Nat) : Prop where
  wshape : w.shape = [n]
  vshape : v.shape = [n, n]
  eig : ∀ i a, i < n → a < n → ∑ j ∈ Finset.range n, x.el [i, j] * v.el [j, a] = w.el [a] * v.el [i, a]
  rows : ∀ i j, i < n → j < n → ∑ a ∈ Finset.range n, v.el [i, a] * v.el [j, a] = if i = j then 1 else 0
  cols : ∀ a b, a < n → b < n → ∑ i ∈ Finset.range n, v.el [i, a] * v.el [i, b] = if a = b then 1 else 0

/-- A symmetric matrix. -/
def Symm [Zero K] (x : Tensor K) (n : Nat) : Prop := x.shape = [n, n] ∧ ∀ i j, i < n → j < n → x.el [i, j] = x.el [j, i]

/-- What `torch.linalg.eigh` promises: on a symmetric matrix it returns eigenvalues and orthonormal eigenvectors, on the same device. -/
def EighOk [Semiring K] (L : Lib K) : Prop :=
  ∀ (x : Tensor K) (n : Nat), Symm x n → ∀ w v, L.eigh x = .ok (w, v) → EigenDec x w v n ∧ w.dev = x.dev ∧ v.dev = x.dev

/-- What `torch.inverse` promises. -/
def InverseOk [Semiring K] (L : Lib K) : Prop :=
  ∀ (x : Tensor K) (n : Nat), x.shape = [n, n] → ∀ y, L.inverse x = .ok y → y.shape = [n, n] ∧
    (∀ i j, i < n → j < n → ∑ k ∈ Finset.range n, x.el [i, k] * y.el [k, j] = if i = j then 1 else 0) ∧
    ∀ i j, i < n → j < n → ∑ k ∈ Finset.range n, y.el [i, k] * x.el [k, j] = if i = j then 1 else 0

/-- A number `c` with `x v = c v` for some `v` that is not zero. -/
def IsEigenvalue [Semiring K] (x : Tensor K) (n : Nat) (c : K) : Prop :=
  ∃ v : Nat → K, (∃ i, i < n ∧ v i ≠ 0) ∧ ∀ i, i < n → ∑ j ∈ Finset.range n, x.el [i, j] * v j = c * v i

/-- The eigendecompositions in the state, if there are any, are those of its covariances. -/
structure SvdFresh [Semiring K] (s : LState K) : Prop where
  both : s.hasAttr nEigval = s.hasAttr nEigvec
  dec : s.hasAttr nEigvec = true → ∀ m t x n, tensorAt s.attrs nCov [m, t] = some x → Symm x n →
    ∃ w v, tensorAt s.attrs nEigval [m, t] = some w ∧ tensorAt s.attrs nEigvec [m, t] = some v ∧ EigenDec x w v n

/-- `i` is the inverse of the `n × n` matrix `x + c * 1`. -/
structure DampedInverse [Semiring K] (x i : Tensor K) (n : Nat) (c : K) : Prop where
  shape : i.shape = [n, n]
  right : ∀ a b, a < n → b < n → ∑ k ∈ Finset.range n, (x.el [a, k] + if a = k then c else 0) * i.el [k, b] = if a = b then 1 else 0
  left : ∀ a b, a < n → b < n → ∑ k ∈ Finset.range n, i.el [a, k] * (x.el [k, b] + if k = b then c else 0) = if a = b then 1 else 0

/-- The inverses in the state, if there are any, are those of its covariances with damping `c`. -/
def InvFresh [Semiring K] (s : LState K) (c : K) : Prop :=
  s.hasAttr nInverse = true → ∀ m t x n, tensorAt s.attrs nCov [m, t] = some x → x.shape = [n, n] →
    ∃ i, tensorAt s.attrs nInverse [m, t] = some i ∧ DampedInverse x i n c

/-- The arguments make `precondition` use the eigendecomposition: `hessian="kfac"`, or `"auto"` and no covariance of gradients. -/
def UsesKfac (s : LState K) (keys : List PyStr) (hessian : Hess) : Prop :=
  hessian = .kfac ∨ hessian = .auto ∧ ∀ cov, s.getAttr nCov = .ok cov → ∀ m ∈ keys, ∀ sub, Dict.get? cov m = some (.node sub) →
    LogType.name .grad ∉ Dict.keys sub

/-- The arguments make `precondition` use the inverse of the covariance of the gradients: `hessian="raw"`, or `"auto"` and such
covariances for all modules. -/
def UsesRaw (s : LState K) (keys : List PyStr) (hessian : Hess) : Prop :=
  hessian = .raw ∨ hessian = .auto ∧ ∀ cov, s.getAttr nCov = .ok cov → ∀ m ∈ keys, ∀ sub, Dict.get? cov m = some (.node sub) →
    LogType.name .grad ∈ Dict.keys sub

/-- In every module, gradient `k` of log `f` is `a` times gradient `i` of log `d` plus `b` times gradient `j` of log `e`. -/
structure SampleComb [Semiring K] (a : K) (d : GLog K) (i : Nat) (b : K) (e : GLog K) (j : Nat) (f : GLog K) (k : Nat) : Prop where
  left : Dict.keys d = Dict.keys f
  right : Dict.keys e = Dict.keys f
  rows : ∀ m ∈ Dict.keys f, ∃ g h x, grad d m = some g ∧ grad e m = some h ∧ grad f m = some x ∧ g.shape.tail = x.shape.tail ∧
    h.shape.tail = x.shape.tail ∧ ∀ idx ∈ indices x.shape.tail, row x k idx = a * row g i idx + b * row h j idx

/-- Sample `i` of log `d` and sample `j` of log `e` have the same gradients. -/
structure SameSample [Zero K] (d : GLog K) (i : Nat) (e : GLog K) (j : Nat) : Prop where
  keys : Dict.keys d = Dict.keys e
  rows : ∀ m ∈ Dict.keys e, ∃ g h, grad d m = some g ∧ grad e m = some h ∧ g.shape.tail = h.shape.tail ∧
    ∀ idx ∈ indices h.shape.tail, row h j idx = row g i idx

/-- Sample `i` of log `d` and sample `j` of log `e` have the same gradients in the modules of `e`; the modules may come in another order, and `d`
may have more of them. -/
def SameRows [Zero K] (d : GLog K) (i : Nat) (e : GLog K) (j : Nat) : Prop :=
  ∀ m ∈ Dict.keys e, ∃ g h, grad d m = some g ∧ grad e m = some h ∧ g.shape.tail = h.shape.tail ∧ ∀ idx ∈ indices h.shape.tail, row h j idx = row g i idx

/-- `sqrt` gives the square root of this number. -/
def SqrtAt [Field K] [LinearOrder K] (sqrt : K → K) (x : K) : Prop := 0 ≤ sqrt x ∧ sqrt x * sqrt x = x

/-- The modules have the covariances that the Hessian asks for. -/
def HasHessian (s : LState K) (keys : List PyStr) (hessian : Hess) : Prop :=
  (UsesKfac s keys hessian ∧ ∀ m ∈ keys, (tensorAt s.attrs nCov [m, LogType.name .forward]).isSome = true ∧
    (tensorAt s.attrs nCov [m, LogType.name .backward]).isSome = true) ∨
  (UsesRaw s keys hessian ∧ ∀ m ∈ keys, (tensorAt s.attrs nCov [m, LogType.name .grad]).isSome = true)

/-- An influence computation asked for by the user. -/
inductive Call (K : Type) where
  | influence (srcIds : List PyStr) (src : LogArg K) (tgtIds : List PyStr) (tgt : LogArg K) (mode : Mode) (pre : Bool) (hessian : Hess)
      (groups : Option (List PyStr)) (damping : Option K)
  | selfInfluence (ids : List PyStr) (src : LogArg K) (pre : Bool) (hessian : Hess) (groups : Option (List PyStr)) (damping : Option K)

def Call.hessian : Call K → Hess
  | .influence _ _ _ _ _ _ h _ _ => h
  | .selfInfluence _ _ _ h _ _ => h

def Call.damping : Call K → Option K
  | .influence _ _ _ _ _ _ _ _ c => c
  | .selfInfluence _ _ _ _ _ c => c

/-- The state after a call, and what the user gets. -/
def serve [Field K] (L : Lib K) (sqrt : K → K) (s : LState K) : Call K → Py (LState K × (IFResult K ⊕ SelfResult K))
  | .influence srcIds src tgtIds tgt mode pre hessian groups damping =>
    (computeInfluence L sqrt s srcIds src tgtIds tgt mode pre hessian groups damping).map fun r => (r.1, .inl r.2)
  | .selfInfluence ids src pre hessian groups damping => (computeSelf L s ids src pre hessian groups damping).map fun r => (r.1, .inr r.2)

/-- The state after a sequence of calls that all return. -/
def serveAll [Field K] (L : Lib K) (sqrt : K → K) : LState K → List (Call K) → Py (LState K)
  | s, [] => .ok s
  | s, c :: cs =>
    match serve L sqrt s c with
    | .error e => .error e
    | .ok (s, _) => serveAll L sqrt s cs

/-- What the user gets from a sequence of calls, up to the first one that raises. -/
def answers [Field K] (L : Lib K) (sqrt : K → K) : LState K → List (Call K) → List (Py (IFResult K ⊕ SelfResult K))
  | _, [] => []
  | s, c :: cs =>
    match serve L sqrt s c with
    | .error e => [.error e]
    | .ok (s, o) => .ok o :: answers L sqrt s cs

/-- A positive damping and a state reached by a run with masks that are not negative, in which whatever is cached belongs to the
covariances (and the damping). -/
structure PosHessian [Field K] [LinearOrder K] (L : Lib K) (s : LState K) (keys : List PyStr) (hessian : Hess) (c : K) : Prop where
  run : ∃ ops, runOps L .init ops = .ok s ∧ ∀ o ∈ ops, MaskNonneg o
  eigh : EighOk L
  inverse : InverseOk L
  svd : SvdFresh s
  inv : InvFresh s c
  cov : HasHessian s keys hessian
  pos : 0 < c

end Spec
end Logix
