/-
Specification: the data that the statistics of a logging session are about, read off the program that the user wrote.
-/
import Verif.Spec.Session
import Verif.Spec.Stats

namespace Logix.Spec
variable {K : Type}

/-- What a reader of a program keeps in mind about a module: the mask of the current batch; the uses of the module so far, as (the numbers of)
input and output; those of them since hooks were last registered; and the gradients of the current batch that have arrived at these outputs, as
input of the use and gradient. -/
structure Book (K : Type) where
  mask : Option (Tensor K)
  uses : List (Nat × Nat)
  fresh : List (Nat × Nat)
  arrived : List (Nat × Nat)

/-- One operation of the program. -/
def Book.step (m : Nat) (b : Book K) : SOp K → Book K
  | .forward m' x y => if m' = m then { b with uses := b.uses ++ [(x, y)], fresh := b.fresh ++ [(x, y)] } else b
  | .gradAt y g => { b with arrived := b.arrived ++ (b.fresh.filter fun c => c.2 = y).map fun c => (c.1, g) }
  | .call _ mask _ => { b with mask := mask, arrived := [] }
  | .enter => { b with fresh := [] }
  | .start _ mask => { b with mask := mask, fresh := [], arrived := [] }
  | .log _ mask => { b with mask := mask, arrived := [] }
  | _ => b

/-- What the operations of a program contribute, in order. -/
def notes {α : Type} (f : Book K → SOp K → List α) (m : Nat) : Book K → List (SOp K) → List α
  | _, [] => []
  | b, o :: rest => f b o ++ notes f m (b.step m o) rest

/-- A call of the module has an input. -/
def input (m : Nat) (b : Book K) : SOp K → List (Nat × Option (Tensor K))
  | .forward m' x _ => if m' = m then [(x, b.mask)] else []
  | _ => []

/-- When the backward pass goes through a use of the module there is the gradient of its output. -/
def outGrad (b : Book K) : SOp K → List (Nat × Option (Tensor K))
  | .backward y g => (b.uses.filter fun c => c.2 = y).map fun _ => (g, b.mask)
  | _ => []

/-- At the end of a batch there are the gradients that have arrived in it. -/
def batchGrads (b : Book K) : SOp K → List (List (Nat × Nat) × Option (Tensor K))
  | .exit => if b.arrived = [] then [] else [(b.arrived, b.mask)]
  | .end _ => if b.arrived = [] then [] else [(b.arrived, b.mask)]
  | _ => []

/-- The operations of a program that logs batches, in any order: everything but changes of the configuration, analyses of the statistics, and
custom activations under the name `nm`. -/
def Logs (nm : PyStr) : SOp K → Prop
  | .setup _ => False
  | .watch _ => False
  | .analysis _ => False
  | .finalize _ => False
  | .clear => False
  | .watchActivation d => ∀ e ∈ d, e.1 ≠ nm
  | _ => True

/-- The configuration of a run before anything is logged. -/
def Configures : SOp K → Prop
  | .setup _ => True
  | .watch _ => True
  | .save _ => True
  | .eval => True
  | .alloc _ => True
  | _ => False

/-- The mask that the operation gives has the property. -/
def Masks (Q : Option (Tensor K) → Prop) : SOp K → Prop
  | .call _ mask _ => Q mask
  | .start _ mask => Q mask
  | .log _ mask => Q mask
  | _ => True

/-- The operation gives no mask. -/
def Unmasked : SOp K → Prop := Masks fun mask => mask = none

/-- The inputs of the calls of a module in a program. -/
def inputs (m : Nat) : List (SOp K) → List Nat :=
  List.flatMap fun o => match o with
    | .forward m' x _ => if m' = m then [x] else []
    | _ => []

/-- The module is watched, once and under a name that no other watched module has. -/
def Watches (s : Sess K) (m : Nat) (nm : PyStr) : Prop :=
  s.modules.count m = 1 ∧ Dict.get? s.names m = some nm ∧ ∀ m' ∈ s.modules, Dict.get? s.names m' = some nm → m' = m

/-- Inputs and output gradients are not themselves logged. -/
def OnlyStatistics (o : LogOption) : Prop := .log ∉ o.forward ∧ .log ∉ o.backward ∧ .log ∉ o.grad.tail

/-- `as` are the values of the tensors with these numbers. -/
def Values (tensors : List (TObj K)) (ns : List Nat) (as : List (Tensor K)) : Prop :=
  List.Forall₂ (fun n a => ∃ o, tensors[n]? = some o ∧ a = o.val) ns as

/-- `T` is the sum of some tensors of the same shape, at least one. -/
def IsSum [Semiring K] (vs : List (Tensor K)) (T : Tensor K) : Prop :=
  vs ≠ [] ∧ (∀ v ∈ vs, v.shape = T.shape) ∧ ∀ idx, T.el idx = (vs.map fun v => v.el idx).sum

/-- The gradient of a batch: the per-sample gradients of the uses of a module, from the inputs and the gradients that arrived, are summed. -/
def BatchGrad [Semiring K] (tensors : List (TObj K)) (kind : ModKind) (arrived : List (Nat × Nat)) (T : Tensor K) : Prop :=
  ∃ vs, List.Forall₂ (fun u v => ∃ x g, tensors[u.1]? = some x ∧ tensors[u.2]? = some g ∧
    computePerSampleGradient x.val g.val kind = .ok v) arrived vs ∧ IsSum vs T

/-- `T` is the mean of the rows of these data, over all samples. -/
def IsMean [Field K] (data : List (Tensor K)) (kind : Option ModKind) (lt : LogType) (T : Tensor K) : Prop :=
  ∃ W, T.shape = [W] ∧ (∀ a ∈ data, width a kind lt = W) ∧ ∀ i, i < W → T.el [i] =
    ((data.flatMap fun a => rows a kind lt).map fun r => r i).sum / ((data.map fun a => a.size 0).sum : Nat)

/-- `T` is the second moment of the rows of these data: the sum of their outer products over the number of samples. -/
def IsSecondMoment [Field K] (data : List (Tensor K)) (kind : Option ModKind) (lt : LogType) (T : Tensor K) : Prop :=
  ∃ W, T.shape = [W, W] ∧ (∀ a ∈ data, width a kind lt = W) ∧ ∀ i j, i < W → j < W → T.el [i, j] =
    ((data.flatMap fun a => rows a kind lt).map fun r => r i * r j).sum / ((data.map fun a => a.size 0).sum : Nat)

end Logix.Spec
