/-
Specification: influence scores with fitted eigenvalues (EKFAC), read off the programs that the user wrote.
-/
import Verif.Spec.SessionInfluence
import Verif.Spec.Ekfac

namespace Logix.Spec
variable {K : Type} [Field K]

/-- The columns of `v` are an orthonormal basis of eigenvectors of an `n × n` matrix. -/
structure EigenbasisOf (S : Nat → Nat → K) (n : Nat) (v : Nat → Nat → K) : Prop where
  eig : ∀ a, a < n → ∃ c, ∀ i, i < n → ∑ j ∈ Finset.range n, S i j * v j a = c * v i a
  orthonormal : ∀ a b, a < n → b < n → ∑ i ∈ Finset.range n, v i a * v i b = if a = b then 1 else 0

/-- No two columns of `v` are eigenvectors of the matrix for the same eigenvalue. -/
def SimpleOf (S : Nat → Nat → K) (n : Nat) (v : Nat → Nat → K) : Prop :=
  ∀ a b c, a < n → b < n → (∀ i, i < n → ∑ j ∈ Finset.range n, S i j * v j a = c * v i a) →
    (∀ i, i < n → ∑ j ∈ Finset.range n, S i j * v j b = c * v i b) → a = b

/-- `gs` are the gradients of the module in the batches of a program, one tensor for each batch. -/
def GradsOf (E : SEnv K) (body : List (SOp K)) (mask : Option (Tensor K)) (m : Nat) (gs : List (Tensor K)) : Prop :=
  List.Forall₂ (BatchGrad (allocs body) (E.kind m)) ((notes batchGrads m ⟨mask, [], [], []⟩ body).map Prod.fst) gs

/-- The average, over all samples of these gradients, of the square of entry `(a, b)` of the gradient in the bases. -/
def fittedTo (gs : List (Tensor K)) (h w : Nat) (vb vf : Nat → Nat → K) (a b : Nat) : K :=
  (gs.flatMap fun g => (List.range (g.size 0)).map fun k => inBases h w vb vf (row g k) a b ^ 2).sum / ((gs.map fun g => g.size 0).sum : Nat)

/-- For every module, orthonormal eigenvectors of `A` and of `B`, whose sizes are those of the gradients in the log. -/
structure BasesOf (A B : PyStr → Tensor K) (d : GLog K) (h w : PyStr → Nat) (vb vf : PyStr → Nat → Nat → K) : Prop where
  backward : ∀ m ∈ Dict.keys d, EigenbasisOf (entries (B m)) (h m) (vb m)
  forward : ∀ m ∈ Dict.keys d, EigenbasisOf (entries (A m)) (w m) (vf m)
  shapes : ∀ m ∈ Dict.keys d, (A m).shape = [w m, w m] ∧ (B m).shape = [h m, h m]
  sizes : ∀ m ∈ Dict.keys d, ∃ g n, grad d m = some g ∧ g.shape = [n, h m, w m]

/-- The bilinear form of the inverse of the damped Hessian: it is diagonal in the bases, and its eigenvalues are the averages of the squares of the
entries of the gradients `gs`, plus the damping `c`. -/
def ekFormTo (gs : List (Tensor K)) (h w : Nat) (vb vf : Nat → Nat → K) (c : K) (g f : List Nat → K) : K :=
  ∑ a ∈ Finset.range h, ∑ b ∈ Finset.range w, inBases h w vb vf g a b * inBases h w vb vf f a b / (fittedTo gs h w vb vf a b + c)

/-- The influence of sample `i` of one log on sample `j` of another, when the eigenvalues of module `m` are fitted to the gradients `G m`. -/
def ekScore (G : PyStr → List (Tensor K)) (h w : PyStr → Nat) (vb vf : PyStr → Nat → Nat → K) (c : K) (d e : GLog K) (i j : Nat) : K :=
  ((Dict.keys d).map fun m => match grad d m, grad e m with
    | some g, some f => ekFormTo (G m) (h m) (w m) (vb m) (vf m) c (row g i) (row f j)
    | _, _ => 0).sum

/-- Nothing is configured but logs of the gradients and the fit of the eigenvalues to them. -/
def OnlyEigenvalues (o : LogOption) : Prop := o.forward = [] ∧ o.backward = [] ∧ o.grad = [.log, .correctedEigval]

/-- What a user does for scores with EKFAC. A new run is configured (`conf`), a batch context is opened (`ctx`) and a program `body` goes on from there,
then `finalize` is called. The run is configured again (`conf'`), a second program logs batches, and `finalize` is called again. The tensors that a
program makes have the numbers 0, 1, ... in it. -/
structure EkPrograms (K : Type) where
  workers : Nat
  threshold : Int
  fs : FS
  conf : List (SOp K)
  ctx : List (SOp K)
  ids : List PyStr
  body : List (SOp K)
  dir : StateDir K
  conf' : List (SOp K)
  ctx' : List (SOp K)
  ids' : List PyStr
  mask' : Option (Tensor K)
  body' : List (SOp K)
  dir' : StateDir K

/-- The session before the first program. -/
def EkPrograms.start (p : EkPrograms K) (E : SEnv K) : Sess K := runHistory E p.conf (Sess.init p.workers p.threshold p.fs)

/-- The first program, with `finalize`, comes from its start to `t` without an exception. -/
def EkPrograms.First (p : EkPrograms K) (E : SEnv K) (t : Sess K) : Prop :=
  SAct.each (SOp.run E) (p.ctx ++ p.body.map (shift (p.start E).user.length) ++ [.finalize p.dir]) (p.start E) = (t, none)

/-- The second program, with `finalize`, comes from `s` to `t` without an exception. -/
def EkPrograms.Second (p : EkPrograms K) (E : SEnv K) (s t : Sess K) : Prop :=
  SAct.each (SOp.run E) (p.ctx' ++ p.body'.map (shift s.user.length) ++ [.finalize p.dir']) s = (t, none)

/-- The programs are as EKFAC needs them. The first is configured with covariances of `forward` and `backward` (and possibly means), without masks. The
second, which starts in `s`, is configured for the eigenvalues. In both the modules are watched (once, under names of their own), called, and gradients
come back to them. -/
structure EkPrograms.Fits (p : EkPrograms K) (E : SEnv K) (keys : List PyStr) (mods : PyStr → Nat) (hessian : Hess) (s : Sess K) : Prop where
  conf : ∀ o ∈ p.conf, Configures o
  ctx : Context p.ctx p.ids none
  body : ∀ o ∈ p.body, Unmasked o ∧ ∀ nm ∈ keys, Logs nm o
  only : OnlyStatistics (p.start E).opt
  plain : PlainStats (p.start E).opt
  forward : (p.start E).opt.forward.count .covariance = 1
  backward : (p.start E).opt.backward.count .covariance = 1
  hess : hessian = .kfac ∨ hessian = .auto ∧ .covariance ∉ (p.start E).opt.grad.tail
  watched : ∀ nm ∈ keys, Watches (p.start E) (mods nm) nm
  called : ∀ nm ∈ keys, inputs (mods nm) p.body ≠ [] ∧ notes outGrad (mods nm) ⟨none, [], [], []⟩ p.body ≠ []
  conf' : ∀ o ∈ p.conf', Configures o
  ctx' : Context p.ctx' p.ids' p.mask'
  body' : ∀ o ∈ p.body', ∀ nm ∈ keys, Logs nm o
  only' : OnlyEigenvalues s.opt
  watched' : ∀ nm ∈ keys, Watches s (mods nm) nm
  called' : ∀ nm ∈ keys, notes batchGrads (mods nm) ⟨p.mask', [], [], []⟩ p.body' ≠ []

end Logix.Spec
