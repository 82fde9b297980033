/-
The statistics: logix/statistic/{mean,covariance,variance,corrected_eigval}.py, and the masking of the forward hook.
-/
import Verif.Model.State
import Verif.Model.Option

namespace Logix
variable {K : Type}

/-- The arguments of a statistic's `update`: the tensor passed as `data` or, if that was None, the one found in
`binfo.log[module_name][log_type]`; the mask is `binfo.mask`. -/
structure StatCall (K : Type) where
  module : Option ModKind
  name : PyStr
  logType : LogType
  data : Tensor K
  mask : Option (Tensor K)
  offload : Bool

/-- What `update` adds to the counter, logix/statistic/mean.py:73-76: the batch size, or the sum of the mask. -/
def batchCount [Semiring K] (c : StatCall K) : K :=
  match c.mask with
  | none => (c.data.size 0 : K)
  | some m => if c.logType = .grad then (c.data.size 0 : K) else m.data.sum

/-- The common text of logix/statistic/mean.py:39-76, covariance.py:39-78 and variance.py:39-78, which differ in the names of the state
(`st`, `cn`), the shape of the zero tensor and the accumulation. With `cpu_offload` the state is brought to the device of the data and
the result back to the CPU. Adding to a missing counter (an empty dictionary) raises TypeError. What is left behind after an exception
is not modelled. -/
def statUpdate [Semiring K] (st cn : PyStr) (zeroShape : Nat → List Nat) (acc : Tensor K → Tensor K → Py (Tensor K)) (s : LState K)
    (c : StatCall K) : Py (LState K) :=
  match s.getAttr st, s.getAttr cn with
  | .ok d, .ok e =>
    match make2d c.data c.module c.logType with
    | .error err => .error err
    | .ok x =>
      match item2 d c.name c.logType.name with
      | .error err => .error err
      | .ok v =>
        if v.isNone && !indexable e c.name then .error .typeError else
        let e := if v.isNone then set2 e c.name c.logType.name (.num 0) else e
        match v.getD (.tensor (Tensor.zeros (if c.offload then .cpu else x.dev) (zeroShape (x.size 1)))) with
        | .tensor t =>
          match (if c.offload then (acc (t.onDev x.dev) x).map (Tensor.onDev · .cpu) else acc t x) with
          | .error err => .error err
          | .ok t' =>
            match item2 e c.name c.logType.name with
            | .ok (some (.num n)) =>
              .ok ((s.setAttr st (set2 d c.name c.logType.name (.tensor t'))).setAttr cn
                (set2 e c.name c.logType.name (.num (n + batchCount c))))
            | _ => .error .typeError
        | _ => .error .attributeError
  | _, _ => .error .attributeError

/-- logix/statistic/mean.py:25-76 -/
def meanUpdate [Semiring K] (s : LState K) (c : StatCall K) : Py (LState K) :=
  statUpdate nMean nMeanCounter (fun w => [w]) (fun t x => t.add_ x.sum0) s c

/-- logix/statistic/covariance.py:25-78 -/
def covarianceUpdate [Semiring K] (s : LState K) (c : StatCall K) : Py (LState K) :=
  statUpdate nCov nCovCounter (fun w => [w, w]) (fun t x => t.addmmT_ x) s c

/-- logix/statistic/variance.py:25-78 (it accumulates the plain sum) -/
def varianceUpdate [Semiring K] (s : LState K) (c : StatCall K) : Py (LState K) :=
  statUpdate nVariance nVarianceCounter (fun w => [w]) (fun t x => t.add_ x.sum0) s c

/-- logix/statistic/corrected_eigval.py:62-91: adds, for every sample, the squares of the entries of `eb.t() @ g @ ef`. Shapes and devices
that do not fit raise (here also for an empty batch). -/
def ekfacAdd [Semiring K] (t data ef eb : Tensor K) : Py (Tensor K) :=
  match data.shape with
  | [n, o, i] =>
    if ef.shape = [i, t.size 1] ∧ eb.shape = [o, t.size 0] ∧ t.shape.length = 2 ∧ t.dev = data.dev ∧ ef.dev = data.dev ∧
        eb.dev = data.dev then
      .ok (Tensor.ofFn2 t.dev (t.size 0) (t.size 1) fun a b => t.el [a, b] + ∑ k ∈ Finset.range n,
        (∑ p ∈ Finset.range o, eb.el [p, a] * ∑ q ∈ Finset.range i, data.el [k, p, q] * ef.el [q, b]) ^ 2)
    else .error .runtimeError
  | _ => .error .runtimeError

/-- logix/statistic/corrected_eigval.py:39-43 -/
def ekfacPrepare (L : Lib K) (s : LState K) : Py (LState K) :=
  if s.hasAttr nEigvec then .ok s
  else
    match s.covarianceSvd L with
    | .error e => .error e
    | .ok s => .ok (((s.registerState nEkfac true true false).registerState nEkfacCounter true false false).registerNormalizePair nEkfac
        nEkfacCounter)

/-- logix/statistic/corrected_eigval.py:52-58: the module's entry, and the counters; a first batch starts with zeros. -/
def ekfacEntry [Zero K] (ek cn : StateDict K) (c : StatCall K) : Py (Nested (SVal K) × StateDict K) :=
  match Dict.get? ek c.name with
  | some v => .ok (v, cn)
  | none =>
    let n := c.data.shape.length
    if n < 2 then .error .indexError
    else .ok (.leaf (.tensor (Tensor.zeros (if c.offload then .cpu else c.data.dev) [c.data.size (n - 2), c.data.size (n - 1)])),
      Dict.set cn c.name (.leaf (.num 0)))

/-- logix/statistic/corrected_eigval.py:25-93. `data` is the gradient in the log (`assert data is None` holds for the only caller). -/
def correctedEigvalUpdate [Semiring K] (L : Lib K) (s : LState K) (c : StatCall K) : Py (LState K) :=
  match ekfacPrepare L s with
  | .error e => .error e
  | .ok s =>
    match s.getAttr nEigvec, s.getAttr nEigval, s.getAttr nEkfac, s.getAttr nEkfacCounter with
    | .ok vecs, .ok _, .ok ek, .ok cn =>
      match ekfacEntry ek cn c with
      | .error err => .error err
      | .ok (.leaf (.tensor t), cn) =>
        match item2 vecs c.name (LogType.name .forward), item2 vecs c.name (LogType.name .backward) with
        | .ok (some (.tensor ef)), .ok (some (.tensor eb)) =>
          match (if c.offload then
              (ekfacAdd (t.onDev c.data.dev) c.data (ef.onDev c.data.dev) (eb.onDev c.data.dev)).map (Tensor.onDev · .cpu)
            else ekfacAdd t c.data ef eb) with
          | .error err => .error err
          | .ok t' =>
            match Dict.get? cn c.name with
            | some (.leaf (.num x)) =>
              .ok ((s.setAttr nEkfac (Dict.set ek c.name (.leaf (.tensor t')))).setAttr nEkfacCounter
                (Dict.set cn c.name (.leaf (.num (x + (c.data.size 0 : K))))))
            | _ => .error .typeError
        | _, _ => .error .typeError
      | .ok _ => .error .attributeError
    | _, _, _, _ => .error .attributeError

/-- `plugin.update(...)` on the state. `Log` does not touch the state (it writes to the batch log, modelled elsewhere). -/
def pluginUpdate [Semiring K] (L : Lib K) : Plugin → LState K → StatCall K → Py (LState K)
  | .log, s, _ => .ok s
  | .mean, s, c => meanUpdate s c
  | .variance, s, c => varianceUpdate s c
  | .covariance, s, c => covarianceUpdate s c
  | .correctedEigval, s, c => correctedEigvalUpdate L s c

/-- A sequence of updates. -/
def updates [Semiring K] (L : Lib K) : LState K → List (Plugin × StatCall K) → Py (LState K)
  | s, [] => .ok s
  | s, (p, c) :: rest =>
    match pluginUpdate L p s c with
    | .error e => .error e
    | .ok s => updates L s rest

/-- logix/logging/logger.py:118-129: the mask is applied to the activations if the last dimension of the mask matches. Simplification:
after that check PyTorch broadcasts the remaining dimensions, here they must be equal (else RuntimeError). -/
def maskActivations [Semiring K] (mask : Option (Tensor K)) (a : Tensor K) : Py (Tensor K) :=
  match mask with
  | none => .ok a
  | some m =>
    if m.shape.length ≠ a.shape.length then
      if m.shape.length + 1 = a.shape.length then
        if m.shape.getLast? = a.shape.dropLast.getLast? then
          if m.shape = a.shape.dropLast ∧ m.dev = a.dev then
            .ok (Tensor.ofFn a.dev a.shape fun idx => a.el idx * m.el idx.dropLast)
          else .error .runtimeError
        else .ok a
      else .error .assertionError
    else if m.shape.getLast? = a.shape.getLast? then
      if m.shape = a.shape ∧ m.dev = a.dev then .ok (Tensor.ofFn a.dev a.shape fun idx => a.el idx * m.el idx)
      else .error .runtimeError
    else .ok a

/-- logix/logging/logger.py:134-143: the loop over the plugins of one hook; conversion to `log_dtype` is not modelled. -/
def runPlugins [Semiring K] (L : Lib K) (s : LState K) (c : StatCall K) (ps : List Plugin) : Py (LState K) :=
  updates L s (ps.map fun p => (p, c))

/-- logix/logging/logger.py:103-143 `_forward_hook_fn`, its effect on the state. -/
def forwardHook [Semiring K] (L : Lib K) (ps : List Plugin) (s : LState K) (c : StatCall K) : Py (LState K) :=
  match maskActivations c.mask c.data with
  | .error e => .error e
  | .ok a => runPlugins L s { c with data := a, logType := .forward } ps

/-- The forward hooks of a run, in order: for each the plugins of the module's forward option and the batch. -/
def forwardHooks [Semiring K] (L : Lib K) : LState K → List (List Plugin × StatCall K) → Py (LState K)
  | s, [] => .ok s
  | s, (ps, c) :: rest =>
    match forwardHook L ps s c with
    | .error e => .error e
    | .ok s => forwardHooks L s rest

/-- The operations on the state that a program can perform, besides `set_state` and loading: an update by a plugin, `finalize` into a
directory, `clear`, and the requests for the inverse and the eigendecomposition made by influence computations
(logix/analysis/influence_function_utils.py:37,79). -/
inductive StateOp (K : Type) where
  | update (p : Plugin) (c : StatCall K)
  | finalize (dir : StateDir K)
  | clear
  | inverse (damping : Option K)
  | svd

/-- One operation. -/
def stepOp [Field K] (L : Lib K) (s : LState K) : StateOp K → Py (LState K)
  | .update p c => pluginUpdate L p s c
  | .finalize dir => (s.finalize dir).map Prod.fst
  | .clear => s.clear
  | .inverse damping => (s.getCovarianceInverse L damping).map Prod.fst
  | .svd => (s.getCovarianceSvd L).map Prod.fst

/-- A sequence of operations. -/
def runOps [Field K] (L : Lib K) : LState K → List (StateOp K) → Py (LState K)
  | s, [] => .ok s
  | s, o :: rest =>
    match stepOp L s o with
    | .error e => .error e
    | .ok s => runOps L s rest

end Logix
