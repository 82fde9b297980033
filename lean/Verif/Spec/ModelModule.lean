/-
Specification: what the state says about the watched modules.
-/
import Verif.Model.LoraIO
import Verif.Model.Stats
import Mathlib.Logic.Relation

namespace Logix.Spec
variable {K : Type}

/-- `model_module` of the state lists the given modules: their names, each with "grad", and the numbers of entries of their weights. -/
def Describes (s : LState K) (h : MHeap K) (names : Dict Nat PyStr) : Prop :=
  ∃ mm ds, s.getAttr nModelModule = .ok mm ∧ Dict.get? mm ['p', 'a', 't', 'h'] = some (.leaf (.paths (names.map fun e => (e.2, ['g', 'r', 'a', 'd'])))) ∧
    Dict.get? mm ['p', 'a', 't', 'h', '_', 'd', 'i', 'm'] = some (.leaf (.dims ds)) ∧
    List.Forall₂ (fun e n => ∃ w, h.paramVal e.1 nWeight = some w ∧ n = numel w.shape) names ds

/-- What may happen to a run between two calls of `watch`: operations on the statistics, `clear`, `add_lora` without watching, and `finalize`. -/
inductive Between [Field K] (L : Lib K) (R : LoraLib K) : LRun K → LRun K → Prop
  | state (s : LRun K) (o : StateOp K) (st : LState K) : stepOp L s.st o = .ok st → Between L R s { s with st := st }
  | clear (s t : LRun K) : s.clear = .ok t → Between L R s t
  | addLora (s t : LRun K) (rank0 : Bool) (a : LRun.Args) : a.watch = false → LRun.addLora R rank0 s a = .ok t → Between L R s t
  | finalize (s t : LRun K) : s.finalize = .ok t → Between L R s t

/-- What may happen to a run from its beginning on: the above, and calls of `watch` and `add_lora`. -/
inductive Happens [Field K] (L : Lib K) (R : LoraLib K) : LRun K → LRun K → Prop
  | between (s t : LRun K) : Between L R s t → Happens L R s t
  | watch (s t : LRun K) (root : Nat) (tf nf : Option (List PyStr)) : s.watch root tf nf = .ok t → Happens L R s t
  | addLora (s t : LRun K) (rank0 : Bool) (a : LRun.Args) : LRun.addLora R rank0 s a = .ok t → Happens L R s t

/-- A run that began with a new state. -/
def Running [Field K] (L : Lib K) (R : LoraLib K) (s : LRun K) : Prop := ∃ r : LRun K, r.st = .init ∧ Relation.ReflTransGen (Happens L R) r s

/-- The gradient that is logged for a layer has one entry for each entry of the weight, if the layer has `groups` groups: `w` is the weight, `x` the
input, `y` the output and `d` the gradient of the output of a call. -/
def ConvSizes (K : Type) [Semiring K] (groups : Nat) : Prop :=
  ∀ (g : ConvGeom) (w x y d : Tensor K) (b : Option (Tensor K)), conv2dForward g groups w b x = .ok y → d.shape = y.shape → d.dev = x.dev → 0 < numel y.shape →
    ∃ T, computePerSampleGradient x d (.conv2d g (w.size 0)) = .ok T ∧ T.shape.head? = x.shape.head? ∧ numel T.shape.tail = numel w.shape

/-- The same for linear layers. -/
def LinearSizes (K : Type) [Semiring K] : Prop :=
  ∀ (w x y d : Tensor K) (b : Option (Tensor K)), linearForward w b x = .ok y → 2 ≤ x.shape.length → d.shape = y.shape → d.dev = x.dev →
    ∃ T, computePerSampleGradient x d .linear = .ok T ∧ T.shape.head? = x.shape.head? ∧ numel T.shape.tail = numel w.shape

end Logix.Spec
