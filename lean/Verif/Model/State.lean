/-
`LogIXState`: logix/state.py.
-/
import Verif.Model.Grad

namespace Logix

/-- A value stored in a state dictionary: a tensor, a number (a counter; PyTorch's zero-dimensional tensors, which counters become in
`synchronize`, are identified with numbers), or the lists kept in `model_module`. -/
inductive SVal (K : Type) where
  | tensor (t : Tensor K)
  | num (x : K)
  | paths (l : List (PyStr × PyStr))
  | dims (l : List Nat)
  deriving DecidableEq

/-- A state: a nested dictionary (`nested_dict()`, a defaultdict of itself). -/
abbrev StateDict (K : Type) := List (PyStr × Nested (SVal K))

/-- Attributes of a `LogIXState` object: the states by name, and the registries. The sets `_states` and `_states_to_not_clear` are lists;
their order does not matter. -/
structure LState (K : Type) where
  attrs : Dict PyStr (StateDict K)
  states : List PyStr
  toSync : List PyStr
  toSave : List PyStr
  toNormalize : List (PyStr × PyStr)
  notClear : List PyStr

def nMean : PyStr := ['m', 'e', 'a', 'n', '_', 's', 't', 'a', 't', 'e']
def nMeanCounter : PyStr := ['m', 'e', 'a', 'n', '_', 'c', 'o', 'u', 'n', 't', 'e', 'r']
def nCov : PyStr := ['c', 'o', 'v', 'a', 'r', 'i', 'a', 'n', 'c', 'e', '_', 's', 't', 'a', 't', 'e']
def nCovCounter : PyStr := ['c', 'o', 'v', 'a', 'r', 'i', 'a', 'n', 'c', 'e', '_', 'c', 'o', 'u', 'n', 't', 'e', 'r']
def nModelModule : PyStr := ['m', 'o', 'd', 'e', 'l', '_', 'm', 'o', 'd', 'u', 'l', 'e']
def nEigval : PyStr := ['c', 'o', 'v', 'a', 'r', 'i', 'a', 'n', 'c', 'e', '_', 'e', 'i', 'g', 'v', 'a', 'l', '_', 's', 't', 'a', 't', 'e']
def nEigvec : PyStr := ['c', 'o', 'v', 'a', 'r', 'i', 'a', 'n', 'c', 'e', '_', 'e', 'i', 'g', 'v', 'e', 'c', '_', 's', 't', 'a', 't', 'e']
def nInverse : PyStr := ['c', 'o', 'v', 'a', 'r', 'i', 'a', 'n', 'c', 'e', '_', 'i', 'n', 'v', 'e', 'r', 's', 'e', '_', 's', 't', 'a', 't', 'e']
def nEkfac : PyStr := ['e', 'k', 'f', 'a', 'c', '_', 'e', 'i', 'g', 'v', 'a', 'l', '_', 's', 't', 'a', 't', 'e']
def nEkfacCounter : PyStr := ['e', 'k', 'f', 'a', 'c', '_', 'c', 'o', 'u', 'n', 't', 'e', 'r']
def nVariance : PyStr := ['v', 'a', 'r', 'i', 'a', 'n', 'c', 'e', '_', 's', 't', 'a', 't', 'e']
def nVarianceCounter : PyStr := ['v', 'a', 'r', 'i', 'a', 'n', 'c', 'e', '_', 'c', 'o', 'u', 'n', 't', 'e', 'r']

/-- The strings used as log types. -/
def LogType.name : LogType → PyStr
  | .forward => ['f', 'o', 'r', 'w', 'a', 'r', 'd']
  | .backward => ['b', 'a', 'c', 'k', 'w', 'a', 'r', 'd']
  | .grad => ['g', 'r', 'a', 'd']

namespace LState
variable {K : Type}

/-- logix/state.py:50-77 `register_state` -/
def registerState (s : LState K) (name : PyStr) (synchronize save notClear : Bool) : LState K :=
  if name ∈ s.states then s
  else { s with
    attrs := Dict.set s.attrs name []
    states := s.states ++ [name]
    toSync := if synchronize then s.toSync ++ [name] else s.toSync
    toSave := if save then s.toSave ++ [name] else s.toSave
    notClear := if notClear then s.notClear ++ [name] else s.notClear }

/-- logix/state.py:79-90 `register_normalize_pair` -/
def registerNormalizePair (s : LState K) (state counter : PyStr) : LState K :=
  if (state, counter) ∈ s.toNormalize then s else { s with toNormalize := s.toNormalize ++ [(state, counter)] }

/-- logix/state.py:32-48 `__init__` -/
def init : LState K :=
  let s : LState K := ⟨[], [], [], [], [], []⟩
  let s := s.registerState nMean true true false
  let s := s.registerState nMeanCounter true false false
  let s := s.registerState nCov true true false
  let s := s.registerState nCovCounter true false false
  let s := s.registerState nModelModule false true true
  let s := s.registerNormalizePair nMean nMeanCounter
  s.registerNormalizePair nCov nCovCounter

/-- `getattr(self, name)` -/
def getAttr (s : LState K) (name : PyStr) : Py (StateDict K) :=
  match Dict.get? s.attrs name with
  | none => .error .attributeError
  | some d => .ok d

/-- `hasattr(self, name)` -/
def hasAttr (s : LState K) (name : PyStr) : Bool := (Dict.get? s.attrs name).isSome

/-- `setattr(self, name, d)` -/
def setAttr (s : LState K) (name : PyStr) (d : StateDict K) : LState K := { s with attrs := Dict.set s.attrs name d }

end LState

/-- `d[m][t]` as an optional value; reading a missing key of a defaultdict gives an empty dictionary, here `none`. The empty
dictionaries that such reads leave behind are not modelled. -/
def item2 (d : StateDict K) (m t : PyStr) : Py (Option (SVal K)) :=
  match Dict.get? d m with
  | none => .ok none
  | some (.leaf _) => .error .typeError
  | some (.node sub) =>
    match Dict.get? sub t with
    | none => .ok none
    | some (.leaf v) => .ok (some v)
    | some (.node _) => .error .typeError

/-- Whether `d[m]` can be indexed: it is missing or a dictionary. -/
def indexable (d : StateDict K) (m : PyStr) : Bool :=
  match Dict.get? d m with
  | some (.leaf _) => false
  | _ => true

/-- `d[m][t] = v` for an indexable `d[m]` -/
def set2 (d : StateDict K) (m t : PyStr) (v : SVal K) : StateDict K :=
  match Dict.get? d m with
  | some (.node sub) => Dict.set d m (.node (Dict.set sub t (.leaf v)))
  | _ => Dict.set d m (.node [(t, .leaf v)])

/-- Functions of `torch.linalg` that are not modelled in detail: `eigh` (eigenvalues, matrix of eigenvectors) and `torch.inverse`. -/
structure Lib (K : Type) where
  eigh : Tensor K → Py (Tensor K × Tensor K)
  inverse : Tensor K → Py (Tensor K)

section
variable {K : Type}

/-- One inner iteration of logix/state.py:101-109, over the modes of a module. -/
def svdModes (L : Lib K) (m : PyStr) : List (PyStr × Nested (SVal K)) → StateDict K → StateDict K → Py (StateDict K × StateDict K)
  | [], vals, vecs => .ok (vals, vecs)
  | (mode, .leaf (.tensor cov)) :: rest, vals, vecs =>
    match L.eigh cov with
    | .error e => .error e
    | .ok (w, v) => svdModes L m rest (set2 vals m mode (.tensor w)) (set2 vecs m mode (.tensor v))
  | _ :: _, _, _ => .error .attributeError

/-- logix/state.py:100-109: the loop over the modules. -/
def svdModules (L : Lib K) : StateDict K → StateDict K → StateDict K → Py (StateDict K × StateDict K)
  | [], vals, vecs => .ok (vals, vecs)
  | (m, .node modes) :: rest, vals, vecs =>
    match svdModes L m modes vals vecs with
    | .error e => .error e
    | .ok (vals, vecs) => svdModules L rest vals vecs
  | (_, .leaf _) :: _, _, _ => .error .attributeError

/-- logix/state.py:92-109 `covariance_svd` -/
def LState.covarianceSvd (L : Lib K) (s : LState K) : Py (LState K) :=
  let s := s.registerState nEigval false true false
  let s := s.registerState nEigvec false true false
  match s.getAttr nCov, s.getAttr nEigval, s.getAttr nEigvec with
  | .ok cov, .ok vals, .ok vecs =>
    match svdModules L cov vals vecs with
    | .error e => .error e
    | .ok (vals, vecs) => .ok ((s.setAttr nEigval vals).setAttr nEigvec vecs)
  | _, _, _ => .error .attributeError

/-- `cov + damping * torch.eye(cov.size(0))` with the default damping of logix/state.py:123-127. -/
def dampedCov [Field K] (cov : Tensor K) (damping : Option K) : Tensor K :=
  let n := cov.size 0
  let d := damping.getD (1 / 10 * (∑ i ∈ Finset.range n, cov.el [i, i]) / n)
  Tensor.ofFn2 cov.dev n n fun i j => cov.el [i, j] + if i = j then d else 0

/-- logix/state.py:122-128 -/
def inverseModes [Field K] (L : Lib K) (damping : Option K) (m : PyStr) : List (PyStr × Nested (SVal K)) → StateDict K → Py (StateDict K)
  | [], inv => .ok inv
  | (mode, .leaf (.tensor cov)) :: rest, inv =>
    match L.inverse (dampedCov cov damping) with
    | .error e => .error e
    | .ok i => inverseModes L damping m rest (set2 inv m mode (.tensor i))
  | _ :: _, _ => .error .typeError

/-- logix/state.py:121-128 -/
def inverseModules [Field K] (L : Lib K) (damping : Option K) : StateDict K → StateDict K → Py (StateDict K)
  | [], inv => .ok inv
  | (m, .node modes) :: rest, inv =>
    match inverseModes L damping m modes inv with
    | .error e => .error e
    | .ok inv => inverseModules L damping rest inv
  | (_, .leaf _) :: _, _ => .error .attributeError

/-- logix/state.py:111-128 `covariance_inverse` -/
def LState.covarianceInverse [Field K] (L : Lib K) (s : LState K) (damping : Option K) : Py (LState K) :=
  let s := s.registerState nInverse false true false
  match s.getAttr nCov, s.getAttr nInverse with
  | .ok cov, .ok inv =>
    match inverseModules L damping cov inv with
    | .error e => .error e
    | .ok inv => .ok (s.setAttr nInverse inv)
  | _, _ => .error .attributeError

/-- logix/state.py:136-145 `get_covariance_inverse_state` -/
def LState.getCovarianceInverse [Field K] (L : Lib K) (s : LState K) (damping : Option K) : Py (LState K × StateDict K) :=
  match (if s.hasAttr nInverse then .ok s else s.covarianceInverse L damping) with
  | .error e => .error e
  | .ok s =>
    match s.getAttr nInverse with
    | .error e => .error e
    | .ok d => .ok (s, d)

/-- logix/state.py:147-160 `get_covariance_svd_state`: the name of the attribute holding the eigenvalues, and the state. The caller
receives references to the dictionaries. -/
def LState.getCovarianceSvd (L : Lib K) (s : LState K) : Py (LState K × PyStr) :=
  match (if s.hasAttr nEigval && s.hasAttr nEigvec then .ok s else s.covarianceSvd L) with
  | .error e => .error e
  | .ok s => .ok (s, if s.hasAttr nEkfac then nEkfac else nEigval)

mutual
/-- logix/state.py:194-199, one entry of the state dictionary; `c` is the counter found under the same key (`none`: missing, i.e. an
empty dictionary). Dividing a tensor by a dictionary and descending into a number raise TypeError. A counter that is itself a
non-zero-dimensional tensor does not occur. Division by zero gives 0 here and inf or nan in PyTorch. -/
def normalizeValue [Field K] (c : Option (Nested (SVal K))) : Nested (SVal K) → Py (Nested (SVal K))
  | .leaf (.tensor t) =>
    match c with
    | some (.leaf (.num x)) => .ok (.leaf (.tensor (t.divNum x)))
    | _ => .error .typeError
  | .leaf _ => .error .typeError
  | .node d =>
    match c with
    | none => match normalizeDict [] d with | .error e => .error e | .ok d => .ok (.node d)
    | some (.node e) => match normalizeDict e d with | .error e => .error e | .ok d => .ok (.node d)
    | some (.leaf _) => if d.isEmpty then .ok (.node d) else .error .typeError
/-- logix/state.py:194-199 `_normalize` -/
def normalizeDict [Field K] (counter : StateDict K) : List (PyStr × Nested (SVal K)) → Py (List (PyStr × Nested (SVal K)))
  | [] => .ok []
  | (k, v) :: rest =>
    match normalizeValue (Dict.get? counter k) v with
    | .error e => .error e
    | .ok v =>
      match normalizeDict counter rest with
      | .error e => .error e
      | .ok rest => .ok ((k, v) :: rest)
end

/-- logix/state.py:201-204: the loop over the pairs. -/
def normalizePairs [Field K] (s : LState K) : List (PyStr × PyStr) → Py (LState K)
  | [] => .ok s
  | (st, cn) :: rest =>
    match s.getAttr st, s.getAttr cn with
    | .ok d, .ok e =>
      match normalizeDict e d with
      | .error e => .error e
      | .ok d => normalizePairs (s.setAttr st d) rest
    | _, _ => .error .attributeError

/-- logix/state.py:188-204 `normalize` -/
def LState.normalize [Field K] (s : LState K) : Py (LState K) := normalizePairs s s.toNormalize

/-- The directory `<log_dir>/state`: the `.pt` files of the states by name, and `others.pt`. -/
structure StateDir (K : Type) where
  files : Dict PyStr (StateDict K)
  others : Option (List PyStr × List PyStr × List (PyStr × PyStr))

/-- logix/state.py:232-234 -/
def saveStates (s : LState K) : List PyStr → Dict PyStr (StateDict K) → Py (Dict PyStr (StateDict K))
  | [], fs => .ok fs
  | n :: rest, fs =>
    match s.getAttr n with
    | .error e => .error e
    | .ok d => saveStates s rest (Dict.set fs n d)

/-- logix/state.py:224-241 `save_state` into a directory that may hold files of earlier saves. -/
def LState.saveState (s : LState K) (dir : StateDir K) : Py (StateDir K) :=
  match saveStates s s.toSave dir.files with
  | .error e => .error e
  | .ok fs => .ok ⟨fs, some (s.toSync, s.toSave, s.toNormalize)⟩

/-- logix/state.py:253-255 -/
def loadStates (dir : StateDir K) : List PyStr → LState K → Py (LState K)
  | [], s => .ok s
  | n :: rest, s =>
    match Dict.get? dir.files n with
    | none => .error .fileNotFoundError
    | some d => loadStates dir rest (s.setAttr n d)

/-- logix/state.py:243-255 `load_state` -/
def LState.loadState (s : LState K) (dir : StateDir K) : Py (LState K) :=
  match dir.others with
  | none => .error .fileNotFoundError
  | some (sync, save, norm) => loadStates dir save { s with toSync := sync, toSave := save, toNormalize := norm }

/-- logix/state.py:206-222 `finalize` of a single process. -/
def LState.finalize [Field K] (s : LState K) (dir : StateDir K) : Py (LState K × StateDir K) :=
  match s.normalize with
  | .error e => .error e
  | .ok s =>
    match s.saveState dir with
    | .error e => .error e
    | .ok dir => .ok (s, dir)

/-- logix/state.py:274-278: the loop of `clear`. -/
def clearNames (s : LState K) : List PyStr → Py (LState K)
  | [] => .ok s
  | n :: rest =>
    if n ∈ s.notClear then clearNames s rest
    else
      match s.getAttr n with
      | .error e => .error e
      | .ok _ => clearNames (s.setAttr n []) rest

/-- logix/state.py:270-278 `clear` -/
def LState.clear (s : LState K) : Py (LState K) := clearNames s s.states

/-- logix/state.py:257-265 `set_state` for one keyword. -/
def LState.setState (s : LState K) (name key : PyStr) (v : SVal K) : Py (LState K) :=
  if name ∈ s.states then
    match s.getAttr name with
    | .error e => .error e
    | .ok d => .ok (s.setAttr name (Dict.set d key (.leaf v)))
  else .error .valueError

end
end Logix
