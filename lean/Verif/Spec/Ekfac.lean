/-
Specification of influence scores with fitted eigenvalues (EKFAC).
-/
import Verif.Spec.Formula
import Verif.Spec.Determined
import Verif.Spec.Dist

namespace Logix.Spec
variable {K : Type} [Field K]

/-- Entry `(a, b)` of an `h × w` array in the bases given by the columns of `vb` and `vf`. -/
def inBases (h w : Nat) (vb vf : Nat → Nat → K) (g : List Nat → K) (a b : Nat) : K :=
  ∑ p ∈ Finset.range h, ∑ q ∈ Finset.range w, vb p a * g [p, q] * vf q b

/-- The columns of `v` are an orthonormal basis of eigenvectors of the second moment of a logged quantity with `n` features. -/
structure Eigenbasis (calls : List (Plugin × StatCall K)) (m : PyStr) (lt : LogType) (n : Nat) (v : Nat → Nat → K) : Prop where
  eig : ∀ a, a < n → ∃ c, ∀ i, i < n → ∑ j ∈ Finset.range n, secondMoment calls m lt i j * v j a = c * v i a
  orthonormal : ∀ a b, a < n → b < n → ∑ i ∈ Finset.range n, v i a * v i b = if a = b then 1 else 0

/-- The average, over all gradients logged by some calls, of the square of entry `(a, b)` of the gradient in the bases. -/
def fitted (h w : Nat) (vb vf : Nat → Nat → K) (cs : List (StatCall K)) (a b : Nat) : K :=
  (cs.flatMap fun c => (List.range (c.data.size 0)).map fun k => inBases h w vb vf (row c.data k) a b ^ 2).sum / (samples cs : K)

/-- The bilinear form of the inverse of the damped EKFAC Hessian: it is diagonal in the bases. -/
def ekForm (h w : Nat) (vb vf : Nat → Nat → K) (cs : List (StatCall K)) (c : K) (g f : List Nat → K) : K :=
  ∑ a ∈ Finset.range h, ∑ b ∈ Finset.range w, inBases h w vb vf g a b * inBases h w vb vf f a b / (fitted h w vb vf cs a b + c)

/-- The sizes and bases of the modules: for every module, orthonormal eigenvectors of the second moments of the output gradients and of the
activations, whose sizes are those of the gradients. -/
structure Bases (calls : List (Plugin × StatCall K)) (d : GLog K) (h w : PyStr → Nat) (vb vf : PyStr → Nat → Nat → K) : Prop where
  backward : ∀ m ∈ Dict.keys d, Eigenbasis calls m .backward (h m) (vb m)
  forward : ∀ m ∈ Dict.keys d, Eigenbasis calls m .forward (w m) (vf m)
  sizes : ∀ m ∈ Dict.keys d, ∃ g n, grad d m = some g ∧ g.shape = [n, h m, w m]

/-- No eigenvalue occurs twice. -/
def Simple (calls : List (Plugin × StatCall K)) (m : PyStr) (lt : LogType) (n : Nat) (v : Nat → Nat → K) : Prop :=
  ∀ a b c, a < n → b < n → (∀ i, i < n → ∑ j ∈ Finset.range n, secondMoment calls m lt i j * v j a = c * v i a) →
    (∀ i, i < n → ∑ j ∈ Finset.range n, secondMoment calls m lt i j * v j b = c * v i b) → a = b

/-- The influence of sample `i` of one log on sample `j` of another, with the EKFAC Hessian in the given bases. -/
def ekInfluence (ekcalls : List (Plugin × StatCall K)) (h w : PyStr → Nat) (vb vf : PyStr → Nat → Nat → K) (c : K) (d e : GLog K) (i j : Nat) : K :=
  ((Dict.keys d).map fun m => match grad d m, grad e m with
    | some g, some f => ekForm (h m) (w m) (vb m) (vf m) (ekfacCalls m ekcalls) c (row g i) (row f j)
    | _, _ => 0).sum

/-- A new instance has logged `calls` and was finalized, then logged the gradients of `ekcalls` to fit the eigenvalues, and was finalized in the
state `s`. -/
def EkFinalized (L : Lib K) [LE K] (calls ekcalls : List (Plugin × StatCall K)) (s : LState K) : Prop :=
  (∀ pc ∈ ekcalls, pc.1 = .log ∨ pc.1 = .correctedEigval) ∧
  ∃ s₁ s₂ dir dir', Finalized L calls s₁ ∧ updates L s₁ ekcalls = .ok s₂ ∧ s₂.finalize dir = .ok (s, dir')

/-- The history logged the activations and the output gradients of all modules for the covariances, and their gradients for the eigenvalues. With
`auto` it logged no covariances of gradients. -/
def EkLogged (calls ekcalls : List (Plugin × StatCall K)) (keys : List PyStr) (hessian : Hess) : Prop :=
  (hessian = .kfac ∨ hessian = .auto ∧ ∀ m ∈ keys, callsOf .covariance m .grad calls = []) ∧
    ∀ m ∈ keys, Logged calls m .forward ∧ Logged calls m .backward ∧ ekfacCalls m ekcalls ≠ []

/-- The eigenvectors that `torch.linalg.eigh` returns depend on the entries of the matrix only, not on its device. -/
def EighSame (L : Lib K) : Prop :=
  ∀ (x y : Tensor K) (n : Nat), x.shape = [n, n] → y.shape = [n, n] → (∀ i j, i < n → j < n → x.el [i, j] = y.el [i, j]) →
    ∀ w v w' v', L.eigh x = .ok (w, v) → L.eigh y = .ok (w', v') → ∀ i j, i < n → j < n → v.el [i, j] = v'.el [i, j]

/-- The modules in the order in which a process first logs a gradient of them to fit the eigenvalues. -/
def ekOrder (ekcalls : List (Plugin × StatCall K)) : List PyStr :=
  firstSeen ((ekcalls.filter fun pc => pc.1 = .correctedEigval).map fun pc => pc.2.name)

/-- New processes have logged `css` and were finalized together, then logged the gradients of `ekcss` to fit the eigenvalues, each meeting the modules in
the same order, and were finalized together in the states `ss`. -/
def EkFinalizedAll (L : Lib K) [LE K] (css ekcss : List (List (Plugin × StatCall K))) (ss : List (LState K)) : Prop :=
  (∀ cs ∈ ekcss, ∀ pc ∈ cs, pc.1 = .log ∨ pc.1 = .correctedEigval) ∧ (∀ cs ∈ ekcss, ∀ cs' ∈ ekcss, ekOrder cs = ekOrder cs') ∧
  ekcss.length = css.length ∧ ∃ ss₁ ss₂ dir dir', FinalizedAll L css ss₁ ∧
    List.Forall₂ (fun p s => updates L p.1 p.2 = .ok s) (ss₁.zip ekcss) ss₂ ∧ finalizeDist ss₂ dir = .ok (ss, dir')

end Logix.Spec
