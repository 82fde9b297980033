/-
The vectors that PCA initialisation computes are principal directions.
-/
import Verif.Spec.Pca
import Verif.Lemmas.Pca
import Verif.Lemmas.Tensor
import Mathlib.Algebra.BigOperators.Fin

set_option linter.unusedSectionVars false

namespace Logix
open Matrix Spec
variable {K : Type} [Field K] [LinearOrder K] [IsStrictOrderedRing K]

/-- The `m × n` matrix of the entries of a tensor. -/
def Tensor.mat (x : Tensor K) (m n : Nat) : Matrix (Fin m) (Fin n) K := fun i j => x.el [i.1, j.1]

theorem variance_eq (x : Tensor K) (n r : Nat) (q : Nat → Nat → K) :
    variance x n r q = captured (x.mat n n) (fun (i : Fin r) (k : Fin n) => q i.1 k.1) := by
  unfold variance captured
  rw [Finset.sum_range]
  refine Finset.sum_congr rfl fun i _ => ?_
  rw [Finset.sum_range, dotProduct]
  refine Finset.sum_congr rfl fun k _ => ?_
  rw [Finset.sum_range, Matrix.mulVec, dotProduct, Finset.mul_sum]
  refine Finset.sum_congr rfl fun l _ => ?_
  rw [mul_assoc]
  rfl

/-- The matrix with the rows `q 0, ..., q (r - 1)`. -/
def rowsOf (q : Nat → Nat → K) (r n : Nat) : Matrix (Fin r) (Fin n) K := fun i k => q i.1 k.1

theorem orthonormal_mat {n r : Nat} {q : Nat → Nat → K} (h : Orthonormal n r q) : rowsOf q r n * (rowsOf q r n)ᵀ = 1 := by
  ext i j
  rw [Matrix.mul_apply, Matrix.one_apply]
  have := h i.1 j.1 i.2 j.2
  rw [Finset.sum_range] at this
  simp only [Fin.ext_iff]
  exact this

theorem principal_congr {x : Tensor K} {n r : Nat} {p q : Nat → Nat → K} (h : Principal x n r p) (e : ∀ i, i < r → ∀ k, k < n → p i k = q i k) :
    Principal x n r q := by
  have hv : variance x n r p = variance x n r q := by
    unfold variance
    refine Finset.sum_congr rfl fun i hi => Finset.sum_congr rfl fun k hk => Finset.sum_congr rfl fun l hl => ?_
    rw [e i (Finset.mem_range.1 hi) k (Finset.mem_range.1 hk), e i (Finset.mem_range.1 hi) l (Finset.mem_range.1 hl)]
  obtain ⟨c, h1, h2, h3⟩ := h.eig
  refine ⟨fun i j hi hj => ?_, ⟨c, fun i hi k hk => ?_, h2, h3⟩, fun p' hp' => hv ▸ h.best p' hp'⟩
  · rw [← h.orth i j hi hj]
    refine Finset.sum_congr rfl fun k hk => ?_
    rw [e i hi k (Finset.mem_range.1 hk), e j hj k (Finset.mem_range.1 hk)]
  · rw [← e i hi k hk, ← h1 i hi k hk]
    refine Finset.sum_congr rfl fun l hl => ?_
    rw [e i hi l (Finset.mem_range.1 hl)]

theorem svdDec_principal {x u s v : Tensor K} {n r : Nat} (h : SvdDec x u s v n) (hsym : ∀ i j, i < n → j < n → x.el [i, j] = x.el [j, i])
    (hpsd : ∀ w : Nat → K, 0 ≤ ∑ i ∈ Finset.range n, ∑ j ∈ Finset.range n, w i * x.el [i, j] * w j) (hr : r ≤ n) :
    Principal x n r fun i k => u.el [k, i] := by
  have hM1 : (x.mat n n)ᵀ = x.mat n n := by
    ext i j
    exact hsym j.1 i.1 j.2 i.2
  have hM2 : ∀ w, 0 ≤ w ⬝ᵥ x.mat n n *ᵥ w := by
    intro w
    have := hpsd fun i => if h : i < n then w ⟨i, h⟩ else 0
    rw [Finset.sum_range] at this
    refine this.trans_eq ?_
    rw [dotProduct]
    refine Finset.sum_congr rfl fun i _ => ?_
    rw [Finset.sum_range, Matrix.mulVec, dotProduct, Finset.mul_sum]
    refine Finset.sum_congr rfl fun j _ => ?_
    simp only [i.2, j.2, dite_true, mul_assoc]
    rfl
  have hU1 : u.mat n n * (u.mat n n)ᵀ = 1 := by
    ext i j
    rw [Matrix.mul_apply, Matrix.one_apply]
    have := h.urows i.1 j.1 i.2 j.2
    rw [Finset.sum_range] at this
    simp only [Fin.ext_iff]
    exact this
  have hU2 : (u.mat n n)ᵀ * u.mat n n = 1 := by
    ext i j
    rw [Matrix.mul_apply, Matrix.one_apply]
    have := h.ucols i.1 j.1 i.2 j.2
    rw [Finset.sum_range] at this
    simp only [Fin.ext_iff]
    exact this
  have hV : v.mat n n * (v.mat n n)ᵀ = 1 := by
    ext i j
    rw [Matrix.mul_apply, Matrix.one_apply]
    have := h.vrows i.1 j.1 i.2 j.2
    rw [Finset.sum_range] at this
    simp only [Fin.ext_iff]
    exact this
  have hdec : x.mat n n = u.mat n n * diagonal (fun a : Fin n => s.el [a.1]) * v.mat n n := by
    ext i j
    rw [Matrix.mul_apply]
    have := h.dec i.1 j.1 i.2 j.2
    rw [Finset.sum_range] at this
    refine Eq.trans (show x.mat n n i j = x.el [i.1, j.1] from rfl) (this.trans (Finset.sum_congr rfl fun a _ => ?_))
    rw [Matrix.mul_diagonal]
    rfl
  have heig := svd_eig hM1 hM2 hdec hU2 hV (fun i => h.nonneg i.1 i.2)
  refine ⟨?_, ⟨fun i => s.el [i], ?_, fun i hi => h.nonneg i (by omega), fun i j hij hj => h.desc i j hij (by omega)⟩, ?_⟩
  · intro i j hi hj
    exact h.ucols i j (by omega) (by omega)
  · intro i hi k hk
    have := congrFun (heig ⟨i, by omega⟩) ⟨k, hk⟩
    rw [Finset.sum_range]
    exact this
  · intro p hp
    rw [variance_eq, variance_eq]
    exact ky_fan hU1 hU2 heig (fun i j hij => h.desc i.1 j.1 hij j.2) (orthonormal_mat hp) hr

/-- The columns that `compute_top_k_singular_vectors` returns are principal directions, if the matrix is a covariance. -/
theorem topVectors_principal {P : Pca K} (hP : SvdOk P.svd) {x u : Tensor K} {n r : Nat} (hx : PSD x) (hn : x.shape = [n, n]) (hr : r ≤ n)
    (h : P.topVectors x r = .ok u) : u.shape = [n, r] ∧ Principal x n r fun i k => u.el [k, i] := by
  unfold Pca.topVectors at h
  cases hs : P.svd x with
  | error e => rw [hs] at h; cases h
  | ok t =>
    obtain ⟨w, s, v⟩ := t
    rw [hs] at h
    have hd := hP x n hn w s v hs
    dsimp only at h
    rw [hd.ushape] at h
    dsimp only at h
    rw [min_eq_left hr] at h
    have h' := Except.ok.inj h
    subst h'
    refine ⟨rfl, ?_⟩
    obtain ⟨n', e, h1, h2⟩ := hx
    rw [hn] at e
    cases e
    have hp := svdDec_principal hd h1 h2 hr
    have hel : ∀ k i, k < n → i < r → (Tensor.ofFn2 w.dev n r fun i j => w.el [i, j]).el [k, i] = w.el [k, i] :=
      fun k i hk hi => Tensor.el_ofFn2 _ _ _ _ hk hi
    exact principal_congr hp fun i hi k hk => (hel k i hk hi).symm

end Logix
