/-
Influence against a loader, and the saved scores: logix/analysis/influence_function.py:32-43, 242-283 and
influence_function_utils.py:102-127. Results are dictionaries of lists and dictionaries, which are shared and changed in place, so they are
kept in a heap.
-/
import Verif.Model.Influence

namespace Logix
variable {K : Type}

/-- A result dictionary: the addresses of its two lists of ids, and under `influence` a tensor or the address of a dictionary of tensors. -/
structure RRec (K : Type) where
  src : Nat
  tgt : Nat
  inf : Tensor K ⊕ Nat

/-- The lists of ids and the dictionaries of scores that exist. -/
structure RHeap (K : Type) where
  lists : List (List PyStr)
  dicts : List (Dict PyStr (Tensor K))

namespace RHeap

/-- The list at an address. (All addresses in use are in range.) -/
def list (h : RHeap K) (a : Nat) : List PyStr := h.lists.getD a []

/-- The value under `influence`. -/
def inf (h : RHeap K) (r : RRec K) : Influence K :=
  match r.inf with
  | .inl t => .one t
  | .inr a => .groups (h.dicts.getD a [])

/-- What the user sees when looking at a result. -/
def deref (h : RHeap K) (r : RRec K) : IFResult K := ⟨h.list r.src, h.list r.tgt, h.inf r⟩

/-- A new result: logix/analysis/influence_function.py:169-178, where the lists are copied and the dictionary is a new one. -/
def alloc (h : RHeap K) (r : IFResult K) : RHeap K × RRec K :=
  match r.influence with
  | .one t => (⟨h.lists ++ [r.srcIds, r.tgtIds], h.dicts⟩, ⟨h.lists.length, h.lists.length + 1, .inl t⟩)
  | .groups d => (⟨h.lists ++ [r.srcIds, r.tgtIds], h.dicts ++ [d]⟩, ⟨h.lists.length, h.lists.length + 1, .inr h.dicts.length⟩)

end RHeap

/-- The argument `axis`. -/
inductive Axis where
  | src | tgt
  deriving DecidableEq

/-- `result[f"{axis}_ids"]` -/
def RRec.ids (r : RRec K) : Axis → Nat
  | .src => r.src
  | .tgt => r.tgt

/-- `torch.cat([a, b], dim=int(axis == "tgt"))` of two matrices of scores. -/
def catScores [Zero K] (axis : Axis) (a b : Tensor K) : Py (Tensor K) :=
  match a.shape, b.shape, axis with
  | [n, m], [n', m'], .src =>
    if m = m' ∧ a.dev = b.dev then .ok (Tensor.ofFn2 a.dev (n + n') m fun i j => if i < n then a.el [i, j] else b.el [i - n, j])
    else .error .runtimeError
  | [n, m], [n', m'], .tgt =>
    if n = n' ∧ a.dev = b.dev then .ok (Tensor.ofFn2 a.dev n (m + m') fun i j => if j < m then a.el [i, j] else b.el [i, j - m])
    else .error .runtimeError
  | _, _, _ => .error .runtimeError

/-- logix/analysis/influence_function_utils.py:119-122: the loop over the keys of the merged result. -/
def catGroups [Zero K] (axis : Axis) (e : Dict PyStr (Tensor K)) : Dict PyStr (Tensor K) → Py (Dict PyStr (Tensor K))
  | [] => .ok []
  | (k, t) :: rest =>
    match Dict.get? e k with
    | none => .error .keyError
    | some u =>
      match catScores axis t u with
      | .error e => .error e
      | .ok x =>
        match catGroups axis e rest with
        | .error e => .error e
        | .ok d => .ok ((k, x) :: d)

/-- logix/analysis/influence_function_utils.py:118-127: the new value under `influence`. -/
def catInfluence [Zero K] (axis : Axis) : Influence K → Influence K → Py (Influence K)
  | .groups d, .groups e =>
    match catGroups axis e d with
    | .error e => .error e
    | .ok d => .ok (.groups d)
  | .one _, .groups _ => .error .attributeError
  | .one t, .one u =>
    match catScores axis t u with
    | .error e => .error e
    | .ok x => .ok (.one x)
  | .groups _, .one _ => .error .typeError

/-- logix/analysis/influence_function_utils.py:102-127 `merge_influence_results(result_all, result, axis)`; `none` is an empty dictionary.
An empty `result_all` takes over the lists and the dictionary of `result`; otherwise the list of ids is extended in place and the entries of
the dictionary of scores are replaced in place. (When it raises, the list has been extended already; states after exceptions are not
modelled.) -/
def mergeResults [Zero K] (h : RHeap K) (all r : Option (RRec K)) (axis : Axis) : Py (RHeap K × Option (RRec K)) :=
  match all, r with
  | none, r => .ok (h, r)
  | some _, none => .error .keyError
  | some a, some r =>
    let h : RHeap K := { h with lists := h.lists.set (a.ids axis) (h.list (a.ids axis) ++ h.list (r.ids axis)) }
    match catInfluence axis (h.inf a) (h.inf r), a.inf with
    | .error e, _ => .error e
    | .ok (.one t), _ => .ok (h, some { a with inf := .inl t })
    | .ok (.groups d), .inr i => .ok ({ h with dicts := h.dicts.set i d }, some a)
    | .ok (.groups _), .inl _ => .error .typeError

/-- logix/analysis/influence_function.py:267-278: the loop over the batches of the loader. -/
def batchLoop [Field K] (L : Lib K) (sqrt : K → K) (ids : List PyStr) (src : LogArg K) (mode : Mode) (hessian : Hess)
    (groups : Option (List PyStr)) (damping : Option K) :
    List (List PyStr × LogArg K) → LState K → RHeap K → Option (RRec K) → Py (LState K × RHeap K × Option (RRec K))
  | [], s, h, all => .ok (s, h, all)
  | (tgtIds, tgt) :: rest, s, h, all =>
    match computeInfluence L sqrt s ids src tgtIds tgt mode false hessian groups damping with
    | .error e => .error e
    | .ok (s, r) =>
      match mergeResults (h.alloc r).1 all (some (h.alloc r).2) .tgt with
      | .error e => .error e
      | .ok (h, all) => batchLoop L sqrt ids src mode hessian groups damping rest s h all

/-- logix/analysis/influence_function.py:32-37: an `InfluenceFunction` with the state it refers to and the results that exist. `saved` is
`influence_scores`; `none` is the empty dictionary. -/
structure IFObj (K : Type) where
  st : LState K
  heap : RHeap K
  saved : Option (RRec K)

/-- A new `InfluenceFunction`. -/
def IFObj.new (s : LState K) : IFObj K := ⟨s, ⟨[], []⟩, none⟩

/-- logix/analysis/influence_function.py:242-283 `compute_influence_all`. The loader is the list of its batches. -/
def computeInfluenceAll [Field K] (L : Lib K) (sqrt : K → K) (o : IFObj K) (ids : List PyStr) (src : LogArg K)
    (loader : List (List PyStr × LogArg K)) (mode : Mode) (pre save : Bool) (hessian : Hess) (groups : Option (List PyStr))
    (damping : Option K) : Py (IFObj K × Option (RRec K)) :=
  match (if pre then precondition L o.st src hessian damping else .ok (o.st, src)) with
  | .error e => .error e
  | .ok (s, src) =>
    match batchLoop L sqrt ids src mode hessian groups damping loader s o.heap none with
    | .error e => .error e
    | .ok (s, h, all) =>
      if save then
        match mergeResults h o.saved all .src with
        | .error e => .error e
        | .ok (h, saved) => .ok (⟨s, h, saved⟩, all)
      else .ok (⟨s, h, o.saved⟩, all)

end Logix
