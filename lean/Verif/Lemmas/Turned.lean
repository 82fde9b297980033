/-
Matrices in other coordinates.
-/
import Verif.Spec.Turned
import Verif.Lemmas.Influence
import Mathlib.Algebra.BigOperators.Field
import Mathlib.LinearAlgebra.Matrix.NonsingularInverse
import Mathlib.LinearAlgebra.Matrix.Trace
import Mathlib.LinearAlgebra.Matrix.Kronecker

set_option linter.unusedSectionVars false

namespace Logix
open Spec Matrix
open scoped Kronecker
variable {K : Type} [Field K]

/-- The matrix of the first entries. -/
def mat (h w : Nat) (f : Nat → Nat → K) : Matrix (Fin h) (Fin w) K := fun p q => f p q

theorem mat_inj {h w : Nat} {f g : Nat → Nat → K} (e : mat h w f = mat h w g) {p q : Nat} (hp : p < h) (hq : q < w) : f p q = g p q :=
  congrFun (congrFun e ⟨p, hp⟩) ⟨q, hq⟩

theorem orthonormal_mul {W : Nat} {P : Nat → Nat → K} (h : OrthoRows W P) : mat W W P * (mat W W P)ᵀ = 1 := by
  ext i j
  rw [Matrix.mul_apply, Matrix.one_apply]
  have := h i j i.2 j.2
  rw [Finset.sum_range] at this
  simp only [Fin.ext_iff]
  exact this

theorem orthonormal_mul' {W : Nat} {P : Nat → Nat → K} (h : OrthoRows W P) : (mat W W P)ᵀ * mat W W P = 1 :=
  mul_eq_one_comm.1 (orthonormal_mul h)

theorem mat_turned (h w : Nat) (Q P X : Nat → Nat → K) : mat h w (turned h w Q P X) = mat h h Q * mat h w X * (mat w w P)ᵀ := by
  ext p q
  simp only [Matrix.mul_apply, mat, turned, Matrix.transpose_apply, Finset.sum_range, Finset.sum_mul]
  exact Finset.sum_comm

theorem kfac_mat {h w : Nat} {A B X G : Nat → Nat → K} {c : K} :
    (∀ p q, p < h → q < w → (∑ p' ∈ Finset.range h, ∑ q' ∈ Finset.range w, B p p' * X p' q' * A q' q) + c * X p q = G p q) ↔
      mat h h B * mat h w X * mat w w A + c • mat h w X = mat h w G := by
  have e : ∀ (p : Fin h) (q : Fin w), (mat h h B * mat h w X * mat w w A + c • mat h w X) p q =
      (∑ p' ∈ Finset.range h, ∑ q' ∈ Finset.range w, B p p' * X p' q' * A q' q) + c * X p q := by
    intro p q
    rw [Matrix.add_apply, Matrix.smul_apply, smul_eq_mul]
    congr 1
    simp only [Matrix.mul_apply, mat, Finset.sum_range, Finset.sum_mul]
    exact Finset.sum_comm
  constructor
  · intro hs
    ext p q
    rw [e]
    exact hs p q p.2 q.2
  · intro hs p q hp hq
    rw [← e ⟨p, hp⟩ ⟨q, hq⟩, hs]
    rfl

/-- The system of KFAC in other coordinates. -/
theorem kfac_turned {h w : Nat} {A A' B B' P Q X G : Nat → Nat → K} {c : K} (hP : OrthoRows w P) (hQ : OrthoRows h Q)
    (hA : mat w w A' = mat w w P * mat w w A * (mat w w P)ᵀ) (hB : mat h h B' = mat h h Q * mat h h B * (mat h h Q)ᵀ)
    (hs : ∀ p q, p < h → q < w → (∑ p' ∈ Finset.range h, ∑ q' ∈ Finset.range w, B p p' * X p' q' * A q' q) + c * X p q = G p q) :
    ∀ p q, p < h → q < w → (∑ p' ∈ Finset.range h, ∑ q' ∈ Finset.range w, B' p p' * turned h w Q P X p' q' * A' q' q) + c * turned h w Q P X p q =
      turned h w Q P G p q := by
  rw [kfac_mat] at hs ⊢
  rw [hA, hB, mat_turned, mat_turned, ← hs]
  have e : mat h h Q * mat h h B * (mat h h Q)ᵀ * (mat h h Q * mat h w X * (mat w w P)ᵀ) * (mat w w P * mat w w A * (mat w w P)ᵀ) =
      mat h h Q * mat h h B * ((mat h h Q)ᵀ * mat h h Q) * mat h w X * ((mat w w P)ᵀ * mat w w P) * mat w w A * (mat w w P)ᵀ := by
    simp only [Matrix.mul_assoc]
  rw [e, orthonormal_mul' hP, orthonormal_mul' hQ]
  simp only [Matrix.mul_one, Matrix.mul_add, Matrix.add_mul, Matrix.mul_smul, Matrix.smul_mul, Matrix.mul_assoc]

/-- The matrix of `X ↦ Q X Pᵀ` on flattened matrices. -/
def both (h w : Nat) (Q P : Nat → Nat → K) : Matrix (Fin h × Fin w) (Fin h × Fin w) K := mat h h Q ⊗ₖ mat w w P

theorem both_mul {h w : Nat} {Q P : Nat → Nat → K} (hP : OrthoRows w P) (hQ : OrthoRows h Q) : both h w Q P * (both h w Q P)ᵀ = 1 := by
  unfold both
  rw [← Matrix.kroneckerMap_transpose, ← Matrix.mul_kronecker_mul, orthonormal_mul hP, orthonormal_mul hQ, Matrix.one_kronecker_one]

theorem both_mul' {h w : Nat} {Q P : Nat → Nat → K} (hP : OrthoRows w P) (hQ : OrthoRows h Q) : (both h w Q P)ᵀ * both h w Q P = 1 :=
  mul_eq_one_comm.1 (both_mul hP hQ)

/-- The flattened matrix. -/
def vec (h w : Nat) (X : Nat → Nat → K) : Fin h × Fin w → K := fun a => X a.1 a.2

theorem vec_turned (h w : Nat) (Q P X : Nat → Nat → K) : vec h w (turned h w Q P X) = both h w Q P *ᵥ vec h w X := by
  funext ⟨p, q⟩
  simp only [vec, turned, both, Matrix.mulVec, dotProduct, Fintype.sum_prod_type, Matrix.kroneckerMap_apply, mat, Finset.sum_range]
  exact Finset.sum_congr rfl fun p' _ => Finset.sum_congr rfl fun q' _ => by ring

theorem dot_vec (h w : Nat) (f g : List Nat → K) : dot [h, w] f g = vec h w (fun p q => f [p, q]) ⬝ᵥ vec h w (fun p q => g [p, q]) := by
  unfold dot
  rw [indices2_sum]
  simp only [Finset.sum_range, vec, dotProduct, Fintype.sum_prod_type]

/-- Inner products do not depend on the coordinates. -/
theorem dot_turned {h w : Nat} {Q P : Nat → Nat → K} (hP : OrthoRows w P) (hQ : OrthoRows h Q) {f g f' g' : List Nat → K}
    (hf : ∀ p q, p < h → q < w → f' [p, q] = turned h w Q P (fun p q => f [p, q]) p q)
    (hg : ∀ p q, p < h → q < w → g' [p, q] = turned h w Q P (fun p q => g [p, q]) p q) : dot [h, w] f' g' = dot [h, w] f g := by
  rw [dot_vec, dot_vec]
  have e1 : vec h w (fun p q => f' [p, q]) = both h w Q P *ᵥ vec h w (fun p q => f [p, q]) := by
    rw [← vec_turned]
    funext a
    exact hf a.1 a.2 a.1.2 a.2.2
  have e2 : vec h w (fun p q => g' [p, q]) = both h w Q P *ᵥ vec h w (fun p q => g [p, q]) := by
    rw [← vec_turned]
    funext a
    exact hg a.1 a.2 a.1.2 a.2.2
  rw [e1, e2, Matrix.dotProduct_mulVec, ← Matrix.mulVec_transpose, Matrix.mulVec_mulVec, both_mul' hP hQ, Matrix.one_mulVec]

/-- The matrix of a flattened quantity, by rows and columns. -/
def flatMat (h w : Nat) (S : Nat → Nat → K) : Matrix (Fin h × Fin w) (Fin h × Fin w) K := fun a b => S (a.1 * w + a.2) (b.1 * w + b.2)

/-- The system of the empirical Fisher matrix in other coordinates. -/
theorem raw_turned {h w : Nat} {S S' P Q : Nat → Nat → K} {X G : Nat → Nat → K} {c : K} (hP : OrthoRows w P) (hQ : OrthoRows h Q)
    (hS : flatMat h w S' = both h w Q P * flatMat h w S * (both h w Q P)ᵀ)
    (hs : ∀ p q, p < h → q < w → (∑ p' ∈ Finset.range h, ∑ q' ∈ Finset.range w, S (p * w + q) (p' * w + q') * X p' q') + c * X p q = G p q) :
    ∀ p q, p < h → q < w → (∑ p' ∈ Finset.range h, ∑ q' ∈ Finset.range w, S' (p * w + q) (p' * w + q') * turned h w Q P X p' q') + c * turned h w Q P X p q =
      turned h w Q P G p q := by
  have e : ∀ (S X G : Nat → Nat → K), (∀ p q, p < h → q < w → (∑ p' ∈ Finset.range h, ∑ q' ∈ Finset.range w, S (p * w + q) (p' * w + q') * X p' q') + c * X p q = G p q) ↔
      flatMat h w S *ᵥ vec h w X + c • vec h w X = vec h w G := by
    intro S X G
    have e : ∀ (p : Fin h) (q : Fin w), (flatMat h w S *ᵥ vec h w X + c • vec h w X) (p, q) =
        (∑ p' ∈ Finset.range h, ∑ q' ∈ Finset.range w, S (p * w + q) (p' * w + q') * X p' q') + c * X p q := by
      intro p q
      simp only [Pi.add_apply, Pi.smul_apply, smul_eq_mul, Matrix.mulVec, dotProduct, Fintype.sum_prod_type, flatMat, vec, Finset.sum_range]
    constructor
    · intro hs
      funext ⟨p, q⟩
      rw [e]
      exact hs p q p.2 q.2
    · intro hs p q hp hq
      rw [← e ⟨p, hp⟩ ⟨q, hq⟩, hs]
      rfl
  rw [e] at hs ⊢
  rw [hS, vec_turned, vec_turned, ← hs, Matrix.mulVec_mulVec, Matrix.mul_assoc, Matrix.mul_assoc, both_mul' hP hQ, Matrix.mul_one, Matrix.mulVec_add,
    Matrix.mulVec_smul, Matrix.mulVec_mulVec]

/-- The products of the entries of some vectors, over a number. -/
def momentMat {ι : Type} (φ : ι → Nat) (rs : List (Nat → K)) (n : K) : Matrix ι ι K := fun i j => (rs.map fun r => r (φ i) * r (φ j)).sum / n

theorem moment_turned {ι : Type} [Fintype ι] (φ : ι → Nat) (R : Matrix ι ι K) (n : K) {rs rs' : List (Nat → K)}
    (h : List.Forall₂ (fun r r' => ∀ i, r' (φ i) = ∑ j, R i j * r (φ j)) rs rs') : momentMat φ rs' n = R * momentMat φ rs n * Rᵀ := by
  ext i j
  simp only [Matrix.mul_apply, Matrix.transpose_apply, momentMat]
  induction h with
  | nil => simp
  | @cons r r' rs rs' hr _ ih =>
    simp only [List.map_cons, List.sum_cons, add_div, mul_add, add_mul, Finset.sum_add_distrib]
    rw [← ih]
    congr 1
    rw [hr i, hr j, Finset.sum_mul_sum, Finset.sum_comm, Finset.sum_div]
    refine Finset.sum_congr rfl fun x _ => ?_
    rw [Finset.sum_div, Finset.sum_mul]
    exact Finset.sum_congr rfl fun y _ => by ring

/-- The second moment of a quantity of width `W`, in other coordinates. -/
theorem secondMoment_turned {W : Nat} {P : Nat → Nat → K} {calls calls' : List (Plugin × StatCall K)} {m : PyStr} {lt : LogType}
    (h : RowsRelated W (Times W P) calls calls' m lt) :
    mat W W (secondMoment calls' m lt) = mat W W P * mat W W (secondMoment calls m lt) * (mat W W P)ᵀ := by
  have := moment_turned (fun i : Fin W => (i : Nat)) (mat W W P) (samples (callsOf .covariance m lt calls) : K) (h.rows.imp fun r r' hr i => by
    have := hr i i.2
    rw [Finset.sum_range] at this
    exact this)
  have e : mat W W (secondMoment calls' m lt) = momentMat (fun i : Fin W => (i : Nat)) (allRows (callsOf .covariance m lt calls'))
      (samples (callsOf .covariance m lt calls) : K) := by
    rw [h.samples]; rfl
  rw [e, this]
  rfl

/-- The second moment of flattened matrices, in other coordinates. -/
theorem flatMoment_turned {h w : Nat} {Q P : Nat → Nat → K} {calls calls' : List (Plugin × StatCall K)} {m : PyStr} {lt : LogType}
    (hr : RowsRelated (h * w) (TimesBoth h w Q P) calls calls' m lt) :
    flatMat h w (secondMoment calls' m lt) = both h w Q P * flatMat h w (secondMoment calls m lt) * (both h w Q P)ᵀ := by
  have := moment_turned (fun a : Fin h × Fin w => (a.1 * w + a.2 : Nat)) (both h w Q P) (samples (callsOf .covariance m lt calls) : K)
    (hr.rows.imp fun r r' hr a => by
      rw [show r' (a.1 * w + a.2) = _ from hr a.1 a.2 a.1.2 a.2.2]
      exact congrFun (vec_turned h w Q P fun p q => r (p * w + q)) a)
  have e : flatMat h w (secondMoment calls' m lt) = momentMat (fun a : Fin h × Fin w => (a.1 * w + a.2 : Nat)) (allRows (callsOf .covariance m lt calls'))
      (samples (callsOf .covariance m lt calls) : K) := by
    rw [hr.samples]; rfl
  rw [e, this]
  rfl

theorem trace_turned {ι : Type} [Fintype ι] [DecidableEq ι] {R M M' : Matrix ι ι K} (hR : Rᵀ * R = 1) (hM : M' = R * M * Rᵀ) : M'.trace = M.trace := by
  rw [hM, Matrix.trace_mul_comm, ← Matrix.mul_assoc, hR, Matrix.one_mul]

theorem meanDiagonal_mat (W : Nat) (A : Nat → Nat → K) : meanDiagonal W A = (mat W W A).trace / (W : K) := by
  unfold meanDiagonal Matrix.trace
  rw [Finset.sum_range]
  rfl

theorem meanDiagonal_flat (h w : Nat) (S : Nat → Nat → K) : meanDiagonal (h * w) S = (flatMat h w S).trace / ((h * w : Nat) : K) := by
  unfold meanDiagonal Matrix.trace
  congr 1
  have : h * w = numel [h, w] := by simp [numel]
  rw [this, sum_range_numel, indices2_sum]
  simp only [Fintype.sum_prod_type, Matrix.diag_apply, flatMat, Finset.sum_range, ravel, numel, Nat.add_zero]
  simp

end Logix
