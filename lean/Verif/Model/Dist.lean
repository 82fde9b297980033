/-
Several processes: logix/state.py `synchronize` and `finalize`.
-/
import Verif.Model.Stats

namespace Logix
variable {K : Type}

/-- `dist.all_reduce(op=SUM)` of the values of two processes. Tensors of different shapes (whose reduction fails, hangs or returns garbage,
depending on the backend) raise here; so do values that are not numeric. Sums are exact. -/
def addVal [Semiring K] : SVal K → SVal K → Py (SVal K)
  | .tensor t, .tensor u =>
    if t.shape = u.shape then .ok (.tensor (Tensor.ofFn t.dev t.shape fun idx => t.el idx + u.el idx)) else .error .runtimeError
  | .num x, .num y => .ok (.num (x + y))
  | _, _ => .error .runtimeError

/-- The collectives of two processes, matched by the order in which they are issued. A process that issues more of them than the other waits
for ever, which is modelled as an exception. -/
def reduceSeq [Semiring K] : List (SVal K) → List (SVal K) → Py (List (SVal K))
  | [], [] => .ok []
  | a :: as, b :: bs =>
    match addVal a b with
    | .error e => .error e
    | .ok c =>
      match reduceSeq as bs with
      | .error e => .error e
      | .ok cs => .ok (c :: cs)
  | _, _ => .error .runtimeError

/-- The same for all processes, the first of which issues `first`. -/
def reduceAll [Semiring K] (first : List (SVal K)) : List (List (SVal K)) → Py (List (SVal K))
  | [] => .ok first
  | next :: rest =>
    match reduceSeq first next with
    | .error e => .error e
    | .ok sum => reduceAll sum rest

/-- logix/state.py:184-185: the states to synchronize, in the order of `_states_to_synchronize`, as one dictionary. (A name occurs in that
list once: logix/state.py:69-71 appends it when it is registered.) -/
def syncTree (s : LState K) : List PyStr → Py (StateDict K)
  | [] => .ok []
  | n :: rest =>
    match s.getAttr n, syncTree s rest with
    | .ok d, .ok t => .ok ((n, .node d) :: t)
    | _, _ => .error .attributeError

/-- logix/state.py:181 `state_dict[key].copy_(...)`: the tensor keeps its device. (In the code a counter, a Python number, becomes a
zero-dimensional tensor with the same value; it stays a number here.) -/
def copyVal : SVal K → SVal K → SVal K
  | .tensor t, .tensor u => .tensor (u.onDev t.dev)
  | _, v => v

mutual
/-- logix/state.py:168-181: the reduced values are put back in the order in which they were issued; returns those left over. -/
def putLeaves : Nested (SVal K) → List (SVal K) → Nested (SVal K) × List (SVal K)
  | .leaf v, [] => (.leaf v, [])
  | .leaf v, x :: xs => (.leaf (copyVal v x), xs)
  | .node d, xs => (.node (putLeavesList d xs).1, (putLeavesList d xs).2)
/-- logix/state.py:169: the loop over the keys. -/
def putLeavesList : List (PyStr × Nested (SVal K)) → List (SVal K) → List (PyStr × Nested (SVal K)) × List (SVal K)
  | [], xs => ([], xs)
  | (k, v) :: rest, xs =>
    ((k, (putLeaves v xs).1) :: (putLeavesList rest (putLeaves v xs).2).1, (putLeavesList rest (putLeaves v xs).2).2)
end

/-- The attributes are updated in place. -/
def writeTree (s : LState K) : StateDict K → LState K
  | [] => s
  | (n, .node d) :: rest => writeTree (s.setAttr n d) rest
  | (_, .leaf _) :: rest => writeTree s rest

/-- The trees of all processes. -/
def syncTrees : List (LState K) → Py (List (StateDict K))
  | [] => .ok []
  | s :: rest =>
    match syncTree s s.toSync, syncTrees rest with
    | .ok t, .ok ts => .ok (t :: ts)
    | _, _ => .error .attributeError

/-- The values of a tree in the order of its collectives. -/
def treeVals (t : StateDict K) : List (SVal K) := (Nested.leavesList t).map Prod.snd

/-- logix/state.py:162-186 `synchronize`, run by all processes together. -/
def synchronize [Semiring K] (ss : List (LState K)) : Py (List (LState K)) :=
  match syncTrees ss with
  | .error e => .error e
  | .ok [] => .ok []
  | .ok (t :: ts) =>
    match reduceAll (treeVals t) (ts.map treeVals) with
    | .error e => .error e
    | .ok sums => .ok (List.zipWith (fun s t => writeTree s (putLeavesList t sums).1) ss (t :: ts))

/-- logix/state.py:217 `normalize` on every process. -/
def normalizeAll [Field K] : List (LState K) → Py (List (LState K))
  | [] => .ok []
  | s :: rest =>
    match s.normalize, normalizeAll rest with
    | .ok s, .ok rest => .ok (s :: rest)
    | .error e, _ => .error e
    | _, .error e => .error e

/-- logix/state.py:206-222 `finalize`, run by all processes together; the process of rank 0 (the first) saves. -/
def finalizeDist [Field K] (ss : List (LState K)) (dir : StateDir K) : Py (List (LState K) × StateDir K) :=
  match (if 1 < ss.length then synchronize ss else .ok ss) with
  | .error e => .error e
  | .ok ss =>
    match normalizeAll ss with
    | .error e => .error e
    | .ok [] => .ok ([], dir)
    | .ok (s :: rest) =>
      match s.saveState dir with
      | .error e => .error e
      | .ok dir => .ok (s :: rest, dir)

end Logix
