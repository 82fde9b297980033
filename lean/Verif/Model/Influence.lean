/-
Influence scores: logix/analysis/influence_function.py and influence_function_utils.py.
-/
import Verif.Model.Stats

namespace Logix
variable {K : Type}

/-- The dictionary of a log: `log[module_name][log_type]`. -/
abbrev GLog (K : Type) := Dict PyStr (Dict PyStr (Tensor K))

/-- The second component of a log: a dictionary, or a tensor with one row per sample (a log read with `flatten=True`). -/
inductive LogArg (K : Type) where
  | dict (d : GLog K)
  | flat (t : Tensor K)

/-- The argument `hessian`. -/
inductive Hess where
  | auto | kfac | raw | other
  deriving DecidableEq

/-- The argument `mode`. -/
inductive Mode where
  | dot | l2 | cosine | other
  deriving DecidableEq

/-- `log[m][t]`. A missing key raises (KeyError; for the defaultdicts that the logger makes it is an AttributeError when the empty
dictionary is used as a tensor). -/
def logItem (d : GLog K) (m t : PyStr) : Py (Tensor K) :=
  match Dict.get? d m with
  | none => .error .keyError
  | some sub =>
    match Dict.get? sub t with
    | none => .error .keyError
    | some x => .ok x

/-- `g in m` for strings. -/
def isSub (g m : PyStr) : Bool := m.tails.any fun r => g.isPrefixOf r

/-- logix/analysis/influence_function_utils.py:42-47: the matrix of eigenvalues of a module on the device of the gradient, and whether it is
the very tensor of the state (`t.to(device)` returns `t` itself on the same device). -/
def fullEigval [Semiring K] (vals : StateDict K) (m : PyStr) (dev : Dev) : Py (Tensor K × Bool) :=
  match Dict.get? vals m with
  | none => .error .assertionError
  | some (.leaf (.tensor t)) => .ok (t.onDev dev, decide (t.dev = dev))
  | some (.leaf _) => .error .typeError
  | some (.node sub) =>
    match Dict.get? sub (LogType.name .forward), Dict.get? sub (LogType.name .backward) with
    | some (.leaf (.tensor wf)), some (.leaf (.tensor wb)) =>
      if wf.shape.length = 1 ∧ wb.shape.length = 1 ∧ wf.dev = wb.dev then
        .ok (Tensor.ofFn2 dev (wb.size 0) (wf.size 0) fun a b => wb.el [a] * wf.el [b], false)
      else .error .runtimeError
    | some _, some _ => .error .typeError
    | _, _ => .error .assertionError

/-- `torch.mean(t)` -/
def Tensor.mean [Field K] (t : Tensor K) : K := ((indices t.shape).map t.el).sum / (numel t.shape : K)

/-- logix/analysis/influence_function_utils.py:53-66: `eb @ ((eb.t() @ g @ ef) / full) @ ef.t()` for every sample. Shapes that do not fit
raise (broadcasting in the division is not modelled). -/
def kfacSolve [Field K] (g ef eb full : Tensor K) : Py (Tensor K) :=
  match g.shape with
  | [n, o, i] =>
    if ef.shape = [i, full.size 1] ∧ eb.shape = [o, full.size 0] ∧ full.shape.length = 2 then
      .ok (Tensor.ofFn3 g.dev n o i fun k p q => ∑ a ∈ Finset.range (full.size 0), ∑ b ∈ Finset.range (full.size 1),
        eb.el [p, a] * ((∑ p' ∈ Finset.range o, ∑ q' ∈ Finset.range i, eb.el [p', a] * g.el [k, p', q'] * ef.el [q', b]) / full.el [a, b]) *
          ef.el [q, b])
    else .error .runtimeError
  | _ => .error .runtimeError

/-- logix/analysis/influence_function_utils.py:32-68: the loop over the modules of the source log. `damping` is the local variable, which
keeps the value computed for the first module; `vals` is the dictionary of eigenvalues in the state, whose tensors are changed in place by
`full_eigval += damping`. (`damping` is a number here; in the code it can be a zero-dimensional tensor on the device of the first module.) -/
def kfacLoop [Field K] (vecs : StateDict K) : Option K → StateDict K → GLog K → GLog K → Py (StateDict K × GLog K)
  | _, vals, out, [] => .ok (vals, out)
  | damping, vals, out, (m, sub) :: rest =>
    match Dict.get? sub (LogType.name .grad) with
    | none => .error .keyError
    | some g =>
      match item2 vecs m (LogType.name .forward), item2 vecs m (LogType.name .backward) with
      | .ok (some (.tensor ef)), .ok (some (.tensor eb)) =>
        match fullEigval vals m g.dev with
        | .error e => .error e
        | .ok (full, shared) =>
          let d := damping.getD (1 / 10 * full.mean)
          let full' := Tensor.ofFn full.dev full.shape fun idx => full.el idx + d
          match kfacSolve g ef eb full' with
          | .error e => .error e
          | .ok p =>
            kfacLoop vecs (some d) (if shared then Dict.set vals m (.leaf (.tensor full')) else vals)
              (Dict.set out m [(LogType.name .grad, p)]) rest
      | _, _ => .error .attributeError

/-- logix/analysis/influence_function_utils.py:25-68 `precondition_kfac`. -/
def preconditionKfac [Field K] (L : Lib K) (s : LState K) (src : GLog K) (damping : Option K) : Py (LState K × GLog K) :=
  match s.getCovarianceSvd L with
  | .error e => .error e
  | .ok (s, n) =>
    match s.getAttr n, s.getAttr nEigvec with
    | .ok vals, .ok vecs =>
      match kfacLoop vecs damping vals [] src with
      | .error e => .error e
      | .ok (vals, out) => .ok (s.setAttr n vals, out)
    | _, _ => .error .attributeError

/-- `x @ y` of matrices on the same device. -/
def Tensor.matmul [Semiring K] (x y : Tensor K) : Py (Tensor K) :=
  if x.shape.length = 2 ∧ y.shape.length = 2 ∧ x.size 1 = y.size 0 ∧ x.dev = y.dev then
    .ok (Tensor.ofFn2 x.dev (x.size 0) (y.size 1) fun i j => ∑ k ∈ Finset.range (x.size 1), x.el [i, k] * y.el [k, j])
  else .error .runtimeError

/-- logix/analysis/influence_function_utils.py:80-84 -/
def rawSolve [Semiring K] (g inv : Tensor K) : Py (Tensor K) :=
  match make2d g none .grad with
  | .error e => .error e
  | .ok x =>
    match x.matmul (inv.onDev g.dev) with
    | .error e => .error e
    | .ok y => y.reshape g.shape

/-- logix/analysis/influence_function_utils.py:79-86: the loop over the modules. -/
def rawLoop [Semiring K] (inv : StateDict K) : GLog K → GLog K → Py (GLog K)
  | out, [] => .ok out
  | out, (m, sub) :: rest =>
    match Dict.get? sub (LogType.name .grad) with
    | none => .error .keyError
    | some g =>
      match item2 inv m (LogType.name .grad) with
      | .ok (some (.tensor i)) =>
        match rawSolve g i with
        | .error e => .error e
        | .ok p => rawLoop inv (Dict.set out m [(LogType.name .grad, p)]) rest
      | _ => .error .attributeError

/-- logix/analysis/influence_function_utils.py:71-86 `precondition_raw`. -/
def preconditionRaw [Field K] (L : Lib K) (s : LState K) (src : GLog K) (damping : Option K) : Py (LState K × GLog K) :=
  match s.getCovarianceInverse L damping with
  | .error e => .error e
  | .ok (s, inv) =>
    match rawLoop inv [] src with
    | .error e => .error e
    | .ok out => .ok (s, out)

/-- logix/analysis/influence_function.py:66-70: is the Hessian the full covariance of the gradients? Only the first module is looked at. -/
def usesRaw (cov : StateDict K) (src : GLog K) : Hess → Py Bool
  | .raw => .ok true
  | .auto =>
    match src with
    | [] => .error .indexError
    | (m, _) :: _ =>
      match Dict.get? cov m with
      | some (.node sub) => .ok (Dict.contains sub (LogType.name .grad))
      | _ => .error .typeError
  | _ => .ok false

/-- logix/analysis/influence_function.py:45-78 `precondition`, on the dictionary of the log; a flat log has no `keys()`. -/
def precondition [Field K] (L : Lib K) (s : LState K) (src : LogArg K) (hessian : Hess) (damping : Option K) : Py (LState K × LogArg K) :=
  if hessian = .other then .error .assertionError
  else
    match src with
    | .flat _ => .error .attributeError
    | .dict d =>
      match s.getAttr nCov with
      | .error e => .error e
      | .ok cov =>
        if d.any fun p => !Dict.contains cov p.1 then .ok (s, .dict d)
        else
          match usesRaw cov d hessian with
          | .error e => .error e
          | .ok raw =>
            match (if raw then preconditionRaw L s d damping else preconditionKfac L s d damping) with
            | .error e => .error e
            | .ok (s, out) => .ok (s, .dict out)

/-- logix/analysis/influence_function_utils.py:89-99 `cross_dot_product` -/
def crossDot [Semiring K] (src tgt : Tensor K) : Py (Tensor K) :=
  match src.shape, tgt.shape with
  | n :: r, m :: r' =>
    if r = r' then
      if src.dev = tgt.dev then
        .ok (Tensor.ofFn2 src.dev n m fun i j => ((indices r).map fun idx => src.el (i :: idx) * tgt.el (j :: idx)).sum)
      else .error .runtimeError
    else .error .assertionError
  | _, _ => .error .runtimeError

/-- Whether a tensor of shape `u` can be broadcast to shape `t`, for equal numbers of dimensions. -/
def bcast : List Nat → List Nat → Bool
  | [], [] => true
  | a :: u, b :: t => (decide (a = b) || decide (a = 1)) && bcast u t
  | _, _ => false

/-- The entry of a tensor of shape `u` that broadcasting puts at `idx`. -/
def bidx : List Nat → List Nat → List Nat
  | a :: u, i :: idx => (if a = 1 then 0 else i) :: bidx u idx
  | _, _ => []

/-- `t op= u` with broadcasting of `u`, for tensors with equally many dimensions. -/
def Tensor.iop [Zero K] (f : K → K → K) (t u : Tensor K) : Py (Tensor K) :=
  if t.dev = u.dev ∧ bcast u.shape t.shape then .ok (Tensor.ofFn t.dev t.shape fun idx => f (t.el idx) (u.el (bidx u.shape idx)))
  else .error .runtimeError

/-- `total op= u`, where `total` is the number 0 (`none`) or a tensor. -/
def scoreOp [Zero K] (f : K → K → K) (v : Option (Tensor K)) (u : Tensor K) : Py (Tensor K) :=
  match v with
  | none => .ok (Tensor.ofFn u.dev u.shape fun idx => f 0 (u.el idx))
  | some t => t.iop f u

/-- The scores under construction: the number 0 or a tensor for every key. -/
abbrev Scores (K : Type) := Dict PyStr (Option (Tensor K))

def nTotal : PyStr := ['t', 'o', 't', 'a', 'l']

/-- logix/analysis/influence_function.py:111-113, 212-214 -/
def initScores (groups : List PyStr) : Scores K := groups.foldl (fun d g => Dict.set d g none) [(nTotal, none)]

/-- logix/analysis/influence_function.py:134-138, 224-228: adds the scores of one module under the given keys, in order. -/
def addScores [Semiring K] (u : Tensor K) : List PyStr → Scores K → Py (Scores K)
  | [], d => .ok d
  | k :: rest, d =>
    match Dict.get? d k with
    | none => .error .keyError
    | some v =>
      match scoreOp (· + ·) v u with
      | .error e => .error e
      | .ok t => addScores u rest (Dict.set d k (some t))

/-- The keys under which the score of module `m` is added: the total and the groups whose name occurs in the name of the module. -/
def scoreKeys (groups : Option (List PyStr)) (m : PyStr) : List PyStr := nTotal :: (groups.getD []).filter fun g => isSub g m

/-- logix/utils.py:202-220 `synchronize_device(src, tgt)`: all targets go to the device of the first source. (The tensors are replaced in
the caller's dictionary; for this effect on the caller's log see Model/InfluenceEffects.) -/
def syncDevice (src tgt : GLog K) : Py (GLog K) :=
  match tgt.flatMap fun p => p.2.map fun q => (p.1, q.1) with
  | [] => .ok tgt
  | (m, t) :: _ =>
    match logItem src m t with
    | .error e => .error e
    | .ok x => .ok (tgt.map fun p => (p.1, p.2.map fun q => (q.1, q.2.onDev x.dev)))

/-- logix/analysis/influence_function.py:129-138: the loop over the modules of the source log. -/
def moduleLoop [Semiring K] (groups : Option (List PyStr)) (tgt : GLog K) : GLog K → Scores K → Py (Scores K)
  | [], d => .ok d
  | (m, sub) :: rest, d =>
    match Dict.get? sub (LogType.name .grad), logItem tgt m (LogType.name .grad) with
    | some a, .ok b =>
      match crossDot a b with
      | .error e => .error e
      | .ok u =>
        match addScores u (scoreKeys groups m) d with
        | .error e => .error e
        | .ok d => moduleLoop groups tgt rest d
    | _, _ => .error .keyError

/-- logix/analysis/influence_function.py:221-223: the inner product of corresponding samples, for gradients with three dimensions. The two
tensors have the same shape (broadcasting is not modelled). -/
def rowDots [Semiring K] (a b : Tensor K) : Py (Tensor K) :=
  match a.shape with
  | [n, x, y] =>
    if b.shape = a.shape ∧ a.dev = b.dev then
      .ok (Tensor.ofFn1 a.dev n fun i => ((indices [x, y]).map fun idx => a.el (i :: idx) * b.el (i :: idx)).sum)
    else .error .runtimeError
  | _ => .error .runtimeError

/-- logix/analysis/influence_function.py:217-228: the loop over the modules. -/
def selfLoop [Semiring K] (groups : Option (List PyStr)) (tgt : GLog K) : GLog K → Scores K → Py (Scores K)
  | [], d => .ok d
  | (m, sub) :: rest, d =>
    match Dict.get? sub (LogType.name .grad), logItem tgt m (LogType.name .grad) with
    | some a, .ok b =>
      match rowDots a b with
      | .error e => .error e
      | .ok u =>
        match addScores u (scoreKeys groups m) d with
        | .error e => .error e
        | .ok d => selfLoop groups tgt rest d
    | _, _ => .error .keyError

/-- The value under `influence` of a result: one tensor, or a dictionary of tensors if groups were given. -/
inductive Influence (K : Type) where
  | one (t : Tensor K)
  | groups (d : Dict PyStr (Tensor K))

/-- A result of `compute_influence`. -/
structure IFResult (K : Type) where
  srcIds : List PyStr
  tgtIds : List PyStr
  influence : Influence K

/-- A result of `compute_self_influence`. -/
structure SelfResult (K : Type) where
  srcIds : List PyStr
  influence : Influence K

/-- logix/analysis/influence_function.py:164-167, 231-233: the checks of the lengths; the scores go to the CPU. `dims` are the expected
sizes. A group that no module belongs to is still the number 0, which has no `shape` or `len`. -/
def checkScores (dims : List Nat) : Scores K → Py (Dict PyStr (Tensor K))
  | [] => .ok []
  | (_, none) :: _ => .error .attributeError
  | (k, some t) :: rest =>
    if t.shape = dims then
      match checkScores dims rest with
      | .error e => .error e
      | .ok d => .ok ((k, t.onDev .cpu) :: d)
    else .error .assertionError

/-- logix/analysis/influence_function.py:171-175, 236-240 -/
def finishScores (groups : Option (List PyStr)) (d : Dict PyStr (Tensor K)) : Py (Influence K) :=
  match groups with
  | some _ => .ok (.groups d)
  | none =>
    match Dict.get? d nTotal with
    | some t => .ok (.one t)
    | none => .error .keyError

/-- logix/analysis/influence_function.py:180-240 `compute_self_influence` -/
def computeSelf [Field K] (L : Lib K) (s : LState K) (ids : List PyStr) (src : LogArg K) (pre : Bool) (hessian : Hess)
    (groups : Option (List PyStr)) (damping : Option K) : Py (LState K × SelfResult K) :=
  match src with
  | .flat _ => .error .notImplementedError
  | .dict d =>
    match (if pre then precondition L s src hessian damping else .ok (s, src)) with
    | .error e => .error e
    | .ok (_, .flat _) => .error .typeError
    | .ok (s, .dict p) =>
      match selfLoop groups p d (initScores (groups.getD [])) with
      | .error e => .error e
      | .ok sc =>
        match checkScores [ids.length] sc with
        | .error e => .error e
        | .ok sc =>
          match finishScores groups sc with
          | .error e => .error e
          | .ok inf => .ok (s, ⟨ids, inf⟩)

/-- logix/utils.py:187-195 `flatten_log` -/
def flattenLog [Zero K] (log : GLog K) (path : List (PyStr × PyStr)) : Py (Tensor K) :=
  match path.mapM fun p => (logItem log p.1 p.2).bind fun t => make2d t none .grad with
  | .error e => .error e
  | .ok [] => .error .runtimeError
  | .ok (t :: ts) =>
    if ts.all fun u => decide (u.size 0 = t.size 0 ∧ u.dev = t.dev) then
      .ok (Tensor.ofFn2 t.dev (t.size 0) ((t :: ts).map fun u => u.size 1).sum fun i j =>
        (((t :: ts).flatMap fun u => (List.range (u.size 1)).map fun c => u.el [i, c])).getD j 0)
    else .error .runtimeError

/-- `t.unsqueeze(0)` -/
def Tensor.unsqueeze0 [Zero K] (t : Tensor K) : Tensor K := Tensor.ofFn t.dev (1 :: t.shape) fun idx => t.el idx.tail

/-- `tgt_norm if influence_groups is None else tgt_norm[key]` -/
def Influence.at (i : Influence K) (k : PyStr) : Py (Tensor K) :=
  match i with
  | .one t => .ok t
  | .groups d => match Dict.get? d k with | some t => .ok t | none => .error .keyError

/-- logix/analysis/influence_function.py:148-150, 159-161: the loop over the keys. The norms are on the CPU (logix/analysis/
influence_function.py:233), the scores on the device of the gradients; on different devices this raises. -/
def applyNorm [Zero K] (f : K → K → K) (norm : Influence K) : Scores K → Py (Scores K)
  | [] => .ok []
  | (k, v) :: rest =>
    match norm.at k with
    | .error e => .error e
    | .ok t =>
      match scoreOp f v t.unsqueeze0 with
      | .error e => .error e
      | .ok x =>
        match applyNorm f norm rest with
        | .error e => .error e
        | .ok d => .ok ((k, some x) :: d)

/-- logix/analysis/influence_function.py:120-138: the inner products, and the target log after `synchronize_device`. -/
def rawScores [Semiring K] (s : LState K) (src tgt : LogArg K) (groups : Option (List PyStr)) : Py (Scores K × LogArg K) :=
  match src, tgt with
  | .dict d, .flat t =>
    match s.getAttr nModelModule with
    | .error e => .error e
    | .ok mm =>
      match Dict.get? mm ['p', 'a', 't', 'h'] with
      | some (.leaf (.paths path)) =>
        match flattenLog d path with
        | .error e => .error e
        | .ok a =>
          match crossDot a (t.onDev a.dev) with
          | .error e => .error e
          | .ok u =>
            match addScores u [nTotal] (initScores (groups.getD [])) with
            | .error e => .error e
            | .ok sc => .ok (sc, .flat t)
      | _ => .error .typeError
  | .dict d, .dict t =>
    match syncDevice d t with
    | .error e => .error e
    | .ok t =>
      match moduleLoop groups t d (initScores (groups.getD [])) with
      | .error e => .error e
      | .ok sc => .ok (sc, .dict t)
  | .flat _, _ => .error .attributeError

/-- logix/analysis/influence_function.py:140-161: normalisation by the self-influence of the targets, which is always preconditioned. -/
def modeScores [Field K] (L : Lib K) (sqrt : K → K) (s : LState K) (tgtIds : List PyStr) (tgt : LogArg K) (mode : Mode) (hessian : Hess)
    (groups : Option (List PyStr)) (damping : Option K) (sc : Scores K) : Py (LState K × Scores K) :=
  if mode = .dot then .ok (s, sc)
  else
    match computeSelf L s tgtIds tgt true hessian groups damping with
    | .error e => .error e
    | .ok (s, norm) =>
      match applyNorm (if mode = .cosine then fun x y => x / sqrt y else fun x y => x - 1 / 2 * y) norm.influence sc with
      | .error e => .error e
      | .ok sc => .ok (s, sc)

/-- logix/analysis/influence_function.py:80-178 `compute_influence`; `sqrt` is `torch.sqrt`. -/
def computeInfluence [Field K] (L : Lib K) (sqrt : K → K) (s : LState K) (srcIds : List PyStr) (src : LogArg K) (tgtIds : List PyStr)
    (tgt : LogArg K) (mode : Mode) (pre : Bool) (hessian : Hess) (groups : Option (List PyStr)) (damping : Option K) :
    Py (LState K × IFResult K) :=
  if mode = .other then .error .assertionError
  else
    match (if pre then precondition L s src hessian damping else .ok (s, src)) with
    | .error e => .error e
    | .ok (s, src) =>
      match rawScores s src tgt groups with
      | .error e => .error e
      | .ok (sc, tgt) =>
        match modeScores L sqrt s tgtIds tgt mode hessian groups damping sc with
        | .error e => .error e
        | .ok (s, sc) =>
          match checkScores [srcIds.length, tgtIds.length] sc with
          | .error e => .error e
          | .ok sc =>
            match finishScores groups sc with
            | .error e => .error e
            | .ok inf => .ok (s, ⟨srcIds, tgtIds, inf⟩)

end Logix
