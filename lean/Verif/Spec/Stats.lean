/-
Specification of the statistics: the rows of the data that was logged, and averages over them.
-/
import Verif.Model.Stats
import Verif.Spec.Grad

namespace Logix.Spec
variable {K : Type} [Semiring K]

/-- Number of features of a row: for custom tensors and gradients everything but the first dimension; for linear layers the last
dimension; for convolutions the size of an input patch (forward) or the number of channels (backward). -/
def width (data : Tensor K) : Option ModKind → LogType → Nat
  | none, _ => numel data.shape.tail
  | some (.conv2d g _), .forward => data.size 1 * g.kernel.1 * g.kernel.2
  | some (.conv2d _ _), _ => data.size 1
  | some _, _ => data.shape.getLastD 0

/-- The rows of one batch of data. Custom tensors and gradients: one row per sample, its entries in C order. Linear layers: one row per
position (all dimensions but the last). Convolutions: one row per output pixel, the patch of the zero-padded input (forward), or
the vector over channels (backward). -/
def rows (data : Tensor K) : Option ModKind → LogType → List (Nat → K)
  | none, _ => (List.range (data.size 0)).map fun n j => data.el (n :: (indices data.shape.tail).getD j [])
  | some (.conv2d g _), .forward =>
    (List.range (data.size 0)).flatMap fun (n : Nat) =>
      (List.range (outSize g.kernel.1 g.stride.1 g.padding.1 1 (data.size 2))).flatMap fun (y : Nat) =>
        (List.range (outSize g.kernel.2 g.stride.2 g.padding.2 1 (data.size 3))).map fun (z r : Nat) =>
          pixel data n (r / (g.kernel.1 * g.kernel.2)) (y * g.stride.1 + (r / g.kernel.2 % g.kernel.1 : Nat) - g.padding.1)
            (z * g.stride.2 + (r % g.kernel.2 : Nat) - g.padding.2)
  | some (.conv2d _ _), _ =>
    (List.range (data.size 0)).flatMap fun (n : Nat) => (List.range (data.size 2)).flatMap fun y =>
      (List.range (data.size 3)).map fun z o => data.el [n, o, y, z]
  | some _, _ => (indices data.shape.dropLast).map fun p j => data.el (p ++ [j])

/-- The rows of a call. -/
def callRows (c : StatCall K) : List (Nat → K) := rows c.data c.module c.logType

/-- The row width of a call. -/
def callWidth (c : StatCall K) : Nat := width c.data c.module c.logType

/-- The calls of one plugin for one module and log type, in order. -/
def callsOf (p : Plugin) (m : PyStr) (lt : LogType) (calls : List (Plugin × StatCall K)) : List (StatCall K) :=
  (calls.filter fun pc => pc.1 = p ∧ pc.2.name = m ∧ pc.2.logType = lt).map Prod.snd

/-- All rows logged by some calls. -/
def allRows (cs : List (StatCall K)) : List (Nat → K) := cs.flatMap callRows

/-- Number of samples logged by some calls. -/
def samples (cs : List (StatCall K)) : Nat := (cs.map fun c => c.data.size 0).sum

/-- The tensor stored in a dictionary of states under a state name and a path. -/
def tensorAt (attrs : Dict PyStr (StateDict K)) (name : PyStr) (path : Path) : Option (Tensor K) :=
  match Dict.get? attrs name with
  | none => none
  | some d =>
    match (Nested.node d).lookup path with
    | some (.tensor t) => some t
    | _ => none

/-- Data that a statistic can take: a non-empty batch of a custom tensor or gradient; activations or output gradients of a linear layer
with a non-empty last dimension; images that the kernel of a convolution fits into; output gradients of a convolution. -/
def Loggable (data : Tensor K) : Option ModKind → LogType → Prop
  | none, _ => 0 < data.size 0 ∧ data.shape ≠ []
  | some .linear, lt => lt ≠ .grad ∧ 0 < data.shape.getLastD 0
  | some (.conv2d g _), .forward => ∃ n c h w, data.shape = [n, c, h, w] ∧ 0 < c ∧ 0 < g.kernel.1 ∧ 0 < g.kernel.2 ∧ 0 < g.stride.1 ∧
      0 < g.stride.2 ∧ g.kernel.1 ≤ h + 2 * g.padding.1 ∧ g.kernel.2 ≤ w + 2 * g.padding.2
  | some (.conv2d _ _), .backward => ∃ n c h w, data.shape = [n, c, h, w] ∧ 0 < c
  | _, _ => False

/-- A history of calls of `log`, `mean` and `covariance` in which every quantity keeps its width and device, and `cpu_offload` does not
change. -/
structure Regular (width : PyStr → LogType → Nat) (dev : PyStr → LogType → Dev) (offload : Bool) (calls : List (Plugin × StatCall K)) :
    Prop where
  plugin : ∀ pc ∈ calls, pc.1 = .log ∨ pc.1 = .mean ∨ pc.1 = .covariance
  loggable : ∀ pc ∈ calls, Loggable pc.2.data pc.2.module pc.2.logType
  width : ∀ pc ∈ calls, callWidth pc.2 = width pc.2.name pc.2.logType
  dev : ∀ pc ∈ calls, pc.2.data.dev = dev pc.2.name pc.2.logType
  offload : ∀ pc ∈ calls, pc.2.offload = offload

/-- Entry `(a, b)` of the gradient of sample `k` rotated by the backward and forward eigenvectors, `eb.T @ g[k] @ ef`. -/
def rotated (ef eb g : Tensor K) (k a b : Nat) : K :=
  ∑ p ∈ Finset.range (g.size 1), ∑ q ∈ Finset.range (g.size 2), eb.el [p, a] * g.el [k, p, q] * ef.el [q, b]

/-- The calls of the EKFAC plugin for one module, in order. -/
def ekfacCalls (m : PyStr) (calls : List (Plugin × StatCall K)) : List (StatCall K) :=
  (calls.filter fun pc => pc.1 = .correctedEigval ∧ pc.2.name = m).map Prod.snd

/-- A history of calls of the EKFAC plugin with gradients that fit the widths of the covariances, on their device. -/
structure EkRegular (width : PyStr → LogType → Nat) (dev : PyStr → LogType → Dev) (offload : Bool) (calls : List (Plugin × StatCall K)) :
    Prop where
  plugin : ∀ pc ∈ calls, pc.1 = .correctedEigval
  shape : ∀ pc ∈ calls, ∃ n, pc.2.data.shape = [n, width pc.2.name .backward, width pc.2.name .forward]
  dev : ∀ pc ∈ calls, pc.2.data.dev = dev pc.2.name .backward ∧ pc.2.data.dev = dev pc.2.name .forward
  offload : ∀ pc ∈ calls, pc.2.offload = offload

/-- A library whose `eigh` succeeds on square matrices and returns eigenvectors of the same shape on the same device. -/
def EighRuns (L : Lib K) : Prop := ∀ (x : Tensor K) (n : Nat), x.shape = [n, n] → ∃ w v, L.eigh x = .ok (w, v) ∧ v.shape = [n, n] ∧ v.dev = x.dev

/-- Sum of the squares of entry `(a, b)` of all rotated gradients. -/
def squares (ef eb : Tensor K) (a b : Nat) (cs : List (StatCall K)) : K :=
  (cs.flatMap fun c => (List.range (c.data.size 0)).map fun k => rotated ef eb c.data k a b ^ 2).sum

/-- A square matrix that is symmetric and positive semidefinite. -/
def PSD [LE K] (t : Tensor K) : Prop :=
  ∃ n, t.shape = [n, n] ∧ (∀ i j, i < n → j < n → t.el [i, j] = t.el [j, i]) ∧
    ∀ v : Nat → K, 0 ≤ ∑ i ∈ Finset.range n, ∑ j ∈ Finset.range n, v i * t.el [i, j] * v j

/-- The mask of an update, if there is one, has no negative entries. -/
def MaskNonneg [LE K] : StateOp K → Prop
  | .update _ c => ∀ m, c.mask = some m → ∀ x ∈ m.data, 0 ≤ x
  | _ => True

/-- The updates that a list of forward hooks makes, with the activations as they came, before masking. -/
def hookCalls (hs : List (List Plugin × StatCall K)) : List (Plugin × StatCall K) :=
  hs.flatMap fun h => h.1.map fun p => (p, { h.2 with logType := .forward })

/-- A batch of activations of a linear layer with a mask of zeros and ones over all its dimensions but the last. -/
def Masked (c : StatCall K) : Prop :=
  c.module = some .linear ∧ c.data.shape ≠ [] ∧
    ∃ mk, c.mask = some mk ∧ mk.shape = c.data.shape.dropLast ∧ ∀ p, mk.el p = 0 ∨ mk.el p = 1

/-- The rows of a batch at the positions where the mask is one. -/
def keptRows [DecidableEq K] (c : StatCall K) : List (Nat → K) :=
  match c.mask with
  | none => []
  | some mk => ((indices mk.shape).filter fun p => mk.el p = 1).map fun p j => c.data.el (p ++ [j])

/-- A batch of activations of a linear layer with a mask of the same number of dimensions whose last dimension is different, such as pooled
activations `[batch, dim]` with a token mask `[batch, seq]`. -/
def Unmatched (c : StatCall K) : Prop :=
  c.module = some .linear ∧ ∃ mk, c.mask = some mk ∧ mk.shape.length = c.data.shape.length ∧ mk.shape.getLast? ≠ c.data.shape.getLast?

/-- The sum of the entries of the masks of some batches. -/
def maskTotal (cs : List (StatCall K)) : K := (cs.map fun c => match c.mask with | none => 0 | some mk => mk.data.sum).sum

/-- Logging means and covariances into the state `s` raises when it does in a new state; otherwise it gives the same means and covariances
as in a new state, and finalize raises when it does there, or else leaves the same means and covariances, in memory and on disk. -/
def LikeNew {K : Type} [Field K] (L : Lib K) (s : LState K) : Prop :=
  ∀ calls : List (Plugin × StatCall K), (∀ pc ∈ calls, pc.1 = .log ∨ pc.1 = .mean ∨ pc.1 = .covariance) →
    (∀ err, updates L s calls = .error err ↔ updates L .init calls = .error err) ∧
    ∀ v u, updates L s calls = .ok v → updates L .init calls = .ok u →
      (∀ n ∈ [nMean, nMeanCounter, nCov, nCovCounter], Dict.get? v.attrs n = Dict.get? u.attrs n) ∧
      ∀ dir, (∀ err, v.finalize dir = .error err ↔ u.finalize dir = .error err) ∧
        ∀ v' u' dv du, v.finalize dir = .ok (v', dv) → u.finalize dir = .ok (u', du) →
          ∀ n ∈ [nMean, nCov], Dict.get? v'.attrs n = Dict.get? u'.attrs n ∧ Dict.get? dv.files n = Dict.get? du.files n

/-- The distinct elements of a list in the order of their first occurrence. -/
def firstSeen {α : Type} [DecidableEq α] : List α → List α
  | [] => []
  | a :: l => a :: (firstSeen l).filter (· ≠ a)

/-- Pairs grouped by their first components, in the order of first occurrence of these. -/
def grouped {α β : Type} [DecidableEq α] (l : List (α × β)) : List (α × β) := (firstSeen (l.map Prod.fst)).flatMap fun m => l.filter fun a => a.1 = m

/-- The quantities logged by a plugin: the modules in the order in which they were first logged, and for each of them its log types in the order in which
they were first logged. -/
def order (p : Plugin) (calls : List (Plugin × StatCall K)) : List (PyStr × LogType) :=
  grouped (firstSeen ((calls.filter fun pc => pc.1 = p).map fun pc => (pc.2.name, pc.2.logType)))

end Logix.Spec
