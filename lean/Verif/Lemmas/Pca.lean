/-
Principal directions of positive semidefinite matrices from a singular value decomposition, over any ordered field.
-/
import Mathlib.Data.Matrix.Mul
import Mathlib.Algebra.Order.Field.Basic
import Mathlib.Algebra.Order.BigOperators.Ring.Finset
import Mathlib.Tactic.Ring
import Mathlib.Tactic.Linarith

set_option linter.unusedSectionVars false

namespace Logix
open Matrix
variable {K : Type} [Field K] [LinearOrder K] [IsStrictOrderedRing K] {n r : Nat}

theorem dot_self_nonneg (v : Fin n → K) : 0 ≤ v ⬝ᵥ v := Finset.sum_nonneg fun _ _ => mul_self_nonneg _

theorem dot_self_zero {v : Fin n → K} (h : v ⬝ᵥ v = 0) : v = 0 := by
  funext i
  have := (Finset.sum_eq_zero_iff_of_nonneg (fun i _ => mul_self_nonneg (v i))).1 h i (Finset.mem_univ i)
  simpa using this

theorem symm_dot {M : Matrix (Fin n) (Fin n) K} (hsym : Mᵀ = M) (v w : Fin n → K) : v ⬝ᵥ M *ᵥ w = (M *ᵥ v) ⬝ᵥ w := by
  rw [Matrix.dotProduct_mulVec, ← Matrix.mulVec_transpose, hsym]

/-- A vector that is an eigenvector of the square of a positive semidefinite matrix is one of the matrix. -/
theorem psd_eig {M : Matrix (Fin n) (Fin n) K} (hsym : Mᵀ = M) (hpsd : ∀ v, 0 ≤ v ⬝ᵥ M *ᵥ v) {s : K} (hs : 0 ≤ s) {u : Fin n → K}
    (h : M *ᵥ (M *ᵥ u) = (s * s) • u) : M *ᵥ u = s • u := by
  rw [← sub_eq_zero]
  set y := M *ᵥ u - s • u with hy
  have hMy : M *ᵥ y = -(s • y) := by
    rw [hy, Matrix.mulVec_sub, h, Matrix.mulVec_smul]
    funext i
    simp only [Pi.sub_apply, Pi.smul_apply, Pi.neg_apply, smul_eq_mul]
    ring
  have h1 := hpsd y
  rw [hMy, dotProduct_neg, dotProduct_smul, smul_eq_mul] at h1
  have h2 := dot_self_nonneg y
  rcases hs.eq_or_lt with h0 | h0
  · have hM2 : M *ᵥ (M *ᵥ u) = 0 := by rw [h, ← h0]; simp
    have : (M *ᵥ u) ⬝ᵥ (M *ᵥ u) = 0 := by rw [← symm_dot hsym, hM2, dotProduct_zero]
    rw [hy, dot_self_zero this, ← h0]
    simp
  · apply dot_self_zero
    have : 0 ≤ s * (y ⬝ᵥ y) := mul_nonneg hs h2
    have h3 : s * (y ⬝ᵥ y) = 0 := by linarith
    rcases mul_eq_zero.1 h3 with h4 | h4
    · exact absurd h4 h0.ne'
    · exact h4

/-- The left singular vectors of a positive semidefinite matrix are eigenvectors, with the singular values. -/
theorem svd_eig {M U V : Matrix (Fin n) (Fin n) K} {s : Fin n → K} (hsym : Mᵀ = M) (hpsd : ∀ v, 0 ≤ v ⬝ᵥ M *ᵥ v) (hdec : M = U * diagonal s * V)
    (hU : Uᵀ * U = 1) (hV : V * Vᵀ = 1) (hs : ∀ i, 0 ≤ s i) (j : Fin n) : M *ᵥ (Uᵀ j) = s j • Uᵀ j := by
  apply psd_eig hsym hpsd (hs j)
  have h1 : M * M = U * (diagonal s * diagonal s) * Uᵀ := by
    have : M * M = M * Mᵀ := by rw [hsym]
    rw [this, hdec]
    simp only [Matrix.transpose_mul, Matrix.diagonal_transpose, Matrix.mul_assoc]
    rw [← Matrix.mul_assoc V, hV, Matrix.one_mul]
  have h2 : Uᵀ *ᵥ (Uᵀ j) = Pi.single j 1 := by
    funext i
    have := congrFun (congrFun hU i) j
    rw [Matrix.one_apply] at this
    rw [Pi.single_apply]
    exact this
  rw [Matrix.mulVec_mulVec, h1, ← Matrix.mulVec_mulVec, h2, Matrix.diagonal_mul_diagonal, Matrix.mulVec_single_one]
  funext i
  simp [Matrix.mul_diagonal, Matrix.col_apply, mul_comm]

/-- Bessel's inequality. -/
theorem bessel {Q : Matrix (Fin r) (Fin n) K} (hQ : Q * Qᵀ = 1) (u : Fin n → K) : (Q *ᵥ u) ⬝ᵥ (Q *ᵥ u) ≤ u ⬝ᵥ u := by
  have h := dot_self_nonneg (u - Qᵀ *ᵥ (Q *ᵥ u))
  have h1 : u ⬝ᵥ Qᵀ *ᵥ (Q *ᵥ u) = (Q *ᵥ u) ⬝ᵥ (Q *ᵥ u) := by
    rw [Matrix.dotProduct_mulVec, Matrix.vecMul_transpose]
  have h2 : (Qᵀ *ᵥ (Q *ᵥ u)) ⬝ᵥ (Qᵀ *ᵥ (Q *ᵥ u)) = (Q *ᵥ u) ⬝ᵥ (Q *ᵥ u) := by
    rw [Matrix.dotProduct_mulVec, Matrix.vecMul_transpose, Matrix.mulVec_mulVec, hQ, Matrix.one_mulVec]
  rw [sub_dotProduct, dotProduct_sub, dotProduct_sub, dotProduct_comm (Qᵀ *ᵥ (Q *ᵥ u)) u, h1, h2] at h
  linarith

/-- The part of `M` that the rows of `Q` capture. -/
def captured (M : Matrix (Fin n) (Fin n) K) (Q : Matrix (Fin r) (Fin n) K) : K := ∑ i, Q i ⬝ᵥ M *ᵥ Q i

/-- With an orthonormal basis of eigenvectors, what is captured is the sum of the eigenvalues, with weights. -/
theorem captured_eq {M U : Matrix (Fin n) (Fin n) K} {s : Fin n → K} (hU : U * Uᵀ = 1) (heig : ∀ j, M *ᵥ (Uᵀ j) = s j • Uᵀ j)
    (Q : Matrix (Fin r) (Fin n) K) : captured M Q = ∑ j, s j * ((Q *ᵥ Uᵀ j) ⬝ᵥ (Q *ᵥ Uᵀ j)) := by
  have hM : M = U * diagonal s * Uᵀ := by
    have : M * U = U * diagonal s := by
      ext a j
      have := congrFun (heig j) a
      rw [Matrix.mul_diagonal, mul_comm]
      exact this
    rw [← this, Matrix.mul_assoc, hU, Matrix.mul_one]
  have h1 : ∀ i, Q i ⬝ᵥ M *ᵥ Q i = ∑ j, s j * ((Q *ᵥ Uᵀ j) i * (Q *ᵥ Uᵀ j) i) := by
    intro i
    rw [hM, ← Matrix.mulVec_mulVec, ← Matrix.mulVec_mulVec, Matrix.dotProduct_mulVec, dotProduct]
    refine Finset.sum_congr rfl fun j _ => ?_
    rw [Matrix.mulVec_diagonal]
    have e1 : (Q i ᵥ* U) j = (Q *ᵥ Uᵀ j) i := rfl
    have e2 : (Uᵀ *ᵥ Q i) j = (Q *ᵥ Uᵀ j) i := by
      show Uᵀ j ⬝ᵥ Q i = Q i ⬝ᵥ Uᵀ j
      exact dotProduct_comm _ _
    rw [e1, e2]
    ring
  unfold captured
  rw [Finset.sum_congr rfl fun i _ => h1 i, Finset.sum_comm]
  refine Finset.sum_congr rfl fun j _ => ?_
  rw [dotProduct, Finset.mul_sum]

theorem weights_sum {U : Matrix (Fin n) (Fin n) K} (hU : U * Uᵀ = 1) {Q : Matrix (Fin r) (Fin n) K} (hQ : Q * Qᵀ = 1) :
    ∑ j, (Q *ᵥ Uᵀ j) ⬝ᵥ (Q *ᵥ Uᵀ j) = (r : K) := by
  have h1 : ∀ i, ∑ j, (Q *ᵥ Uᵀ j) i * (Q *ᵥ Uᵀ j) i = 1 := by
    intro i
    have : (Q * U) * (Q * U)ᵀ = 1 := by
      rw [Matrix.transpose_mul, Matrix.mul_assoc, ← Matrix.mul_assoc U, hU, Matrix.one_mul, hQ]
    have := congrFun (congrFun this i) i
    rw [Matrix.one_apply_eq] at this
    exact this
  simp only [dotProduct]
  rw [Finset.sum_comm, Finset.sum_congr rfl fun i _ => h1 i]
  simp

/-- The vectors belonging to the `r` largest eigenvalues capture the most, and their eigenvalues are what they capture. -/
theorem ky_fan {M U : Matrix (Fin n) (Fin n) K} {s : Fin n → K} (hU : U * Uᵀ = 1) (hU' : Uᵀ * U = 1) (heig : ∀ j, M *ᵥ (Uᵀ j) = s j • Uᵀ j)
    (hs : ∀ i j, i ≤ j → s j ≤ s i) {Q : Matrix (Fin r) (Fin n) K} (hQ : Q * Qᵀ = 1) (hr : r ≤ n) :
    captured M Q ≤ captured M (fun i : Fin r => Uᵀ (Fin.castLE hr i)) := by
  have hright : captured M (fun i : Fin r => Uᵀ (Fin.castLE hr i)) = ∑ i : Fin r, s (Fin.castLE hr i) := by
    unfold captured
    refine Finset.sum_congr rfl fun i _ => ?_
    rw [heig, dotProduct_smul, smul_eq_mul]
    have := congrFun (congrFun hU' (Fin.castLE hr i)) (Fin.castLE hr i)
    rw [Matrix.one_apply_eq] at this
    rw [show Uᵀ (Fin.castLE hr i) ⬝ᵥ Uᵀ (Fin.castLE hr i) = 1 from this, mul_one]
  rw [hright, captured_eq hU heig]
  rcases Nat.eq_zero_or_pos r with rfl | hpos
  · simp [dotProduct]
  have hsum := weights_sum hU hQ
  set w : Fin n → K := fun j => (Q *ᵥ Uᵀ j) ⬝ᵥ (Q *ᵥ Uᵀ j) with hw
  have hw0 : ∀ j, 0 ≤ w j := fun j => dot_self_nonneg _
  have hw1 : ∀ j, w j ≤ 1 := by
    intro j
    have h1 := bessel hQ (Uᵀ j)
    have h2 := congrFun (congrFun hU' j) j
    rw [Matrix.one_apply_eq] at h2
    rw [show Uᵀ j ⬝ᵥ Uᵀ j = 1 from h2] at h1
    exact h1
  let k : Fin n := ⟨r - 1, by omega⟩
  have hle : ∀ j : Fin n, s j * w j ≤ s k * w j + if j.1 < r then s j - s k else 0 := by
    intro j
    by_cases hj : j.1 < r
    · rw [if_pos hj]
      have h1 : s k ≤ s j := hs j k (by rw [Fin.le_def]; show j.1 ≤ r - 1; omega)
      have : 0 ≤ (s j - s k) * (1 - w j) := mul_nonneg (by linarith) (by linarith [hw1 j])
      nlinarith
    · rw [if_neg hj]
      have h1 : s j ≤ s k := hs k j (by rw [Fin.le_def]; show r - 1 ≤ j.1; omega)
      have : 0 ≤ (s k - s j) * w j := mul_nonneg (by linarith) (hw0 j)
      nlinarith
  calc ∑ j, s j * w j ≤ ∑ j : Fin n, (s k * w j + if j.1 < r then s j - s k else 0) := Finset.sum_le_sum fun j _ => hle j
    _ = s k * r + ∑ j : Fin n, (if j.1 < r then s j - s k else 0) := by
      rw [Finset.sum_add_distrib, ← Finset.mul_sum, hsum]
    _ = s k * r + ∑ i : Fin r, (s (Fin.castLE hr i) - s k) := by
      congr 1
      rw [← Finset.sum_filter]
      symm
      refine Finset.sum_nbij (Fin.castLE hr) ?_ ?_ ?_ ?_
      · intro i _; simp
      · intro i _ j _ h; exact Fin.castLE_injective hr h
      · intro j hj
        simp only [Finset.coe_filter, Finset.mem_univ, true_and, Set.mem_ofPred_eq] at hj
        exact ⟨⟨j.1, hj⟩, by simp, rfl⟩
      · intro i _; rfl
    _ = ∑ i : Fin r, s (Fin.castLE hr i) := by
      rw [Finset.sum_sub_distrib]
      simp
      ring

end Logix
