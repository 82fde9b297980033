/-
Two orthonormal eigenbases of a matrix with simple eigenvalues differ by the order and the signs of the vectors.
-/
import Mathlib.LinearAlgebra.Matrix.NonsingularInverse
import Mathlib.Algebra.BigOperators.Fin
import Mathlib.Algebra.Order.Ring.Defs
import Mathlib.Data.Fintype.Card
import Mathlib.Tactic.Ring

namespace Logix
variable {K : Type} [Field K]

/-- A square matrix with orthonormal columns has orthonormal rows. -/
theorem rows_of_cols {n : Nat} {v : Nat → Nat → K} (h : ∀ a b, a < n → b < n → ∑ i ∈ Finset.range n, v i a * v i b = if a = b then 1 else 0) :
    ∀ i j, i < n → j < n → ∑ a ∈ Finset.range n, v i a * v j a = if i = j then 1 else 0 := by
  let M : Matrix (Fin n) (Fin n) K := fun i a => v i a
  have h1 : M.transpose * M = 1 := by
    ext a b
    rw [Matrix.mul_apply, Matrix.one_apply]
    have := h a b a.2 b.2
    rw [← Fin.sum_univ_eq_sum_range (fun i => v i a * v i b)] at this
    simp only [Fin.val_inj] at this
    exact this
  have h2 : M * M.transpose = 1 := mul_eq_one_comm.1 h1
  intro i j hi hj
  have := congrFun (congrFun h2 ⟨i, hi⟩) ⟨j, hj⟩
  rw [Matrix.mul_apply, Matrix.one_apply] at this
  rw [← Fin.sum_univ_eq_sum_range (fun a => v i a * v j a)]
  simp only [Fin.mk.injEq] at this
  exact this

/-- The new basis vectors are old ones up to sign, in another order. -/
theorem eigenbasis_perm {n : Nat} {S v v' : Nat → Nat → K} {l l' : Nat → K} (hS : ∀ i j, S i j = S j i)
    (ho : ∀ a b, a < n → b < n → ∑ i ∈ Finset.range n, v i a * v i b = if a = b then 1 else 0)
    (ho' : ∀ a b, a < n → b < n → ∑ i ∈ Finset.range n, v' i a * v' i b = if a = b then 1 else 0)
    (he : ∀ a, a < n → ∀ i, i < n → ∑ j ∈ Finset.range n, S i j * v j a = l a * v i a)
    (he' : ∀ a, a < n → ∀ i, i < n → ∑ j ∈ Finset.range n, S i j * v' j a = l' a * v' i a)
    (hs : ∀ a b, a < n → b < n → l a = l b → a = b) :
    ∃ (σ : Nat → Nat) (ε : Nat → K), (∀ b, b < n → σ b < n) ∧ (∀ b b', b < n → b' < n → σ b = σ b' → b = b') ∧ (∀ b, b < n → ε b * ε b = 1) ∧
      ∀ i b, i < n → b < n → v' i b = ε b * v i (σ b) := by
  have hr := rows_of_cols ho
  let α : Nat → Nat → K := fun a b => ∑ i ∈ Finset.range n, v i a * v' i b
  have expand : ∀ i b, i < n → v' i b = ∑ a ∈ Finset.range n, v i a * α a b := by
    intro i b hi
    calc v' i b = ∑ j ∈ Finset.range n, (if i = j then 1 else 0) * v' j b := by
          simp only [ite_mul, one_mul, zero_mul]
          rw [Finset.sum_ite_eq, if_pos (Finset.mem_range.2 hi)]
      _ = ∑ j ∈ Finset.range n, (∑ a ∈ Finset.range n, v i a * v j a) * v' j b :=
          Finset.sum_congr rfl fun j hj => by rw [hr i j hi (Finset.mem_range.1 hj)]
      _ = _ := by
          simp only [Finset.sum_mul]
          rw [Finset.sum_comm]
          refine Finset.sum_congr rfl fun a _ => ?_
          simp only [α, Finset.mul_sum]
          exact Finset.sum_congr rfl fun j _ => by ring
  have hα : ∀ a b, a < n → b < n → α a b ≠ 0 → l a = l' b := by
    intro a b ha hb h0
    have : l a * α a b = l' b * α a b := by
      calc l a * α a b = ∑ i ∈ Finset.range n, (l a * v i a) * v' i b := by
            simp only [α, Finset.mul_sum]; exact Finset.sum_congr rfl fun i _ => by ring
        _ = ∑ i ∈ Finset.range n, (∑ j ∈ Finset.range n, S i j * v j a) * v' i b :=
            Finset.sum_congr rfl fun i hi => by rw [he a ha i (Finset.mem_range.1 hi)]
        _ = ∑ j ∈ Finset.range n, v j a * ∑ i ∈ Finset.range n, S j i * v' i b := by
            simp only [Finset.sum_mul, Finset.mul_sum]
            rw [Finset.sum_comm]
            exact Finset.sum_congr rfl fun j _ => Finset.sum_congr rfl fun i _ => by rw [hS i j]; ring
        _ = ∑ j ∈ Finset.range n, v j a * (l' b * v' j b) :=
            Finset.sum_congr rfl fun j hj => by rw [he' b hb j (Finset.mem_range.1 hj)]
        _ = _ := by simp only [α, Finset.mul_sum]; exact Finset.sum_congr rfl fun i _ => by ring
    exact mul_right_cancel₀ h0 this
  have hex : ∀ b, ∃ a, b < n → a < n ∧ α a b ≠ 0 := by
    intro b
    by_cases hb : b < n
    · by_contra hne
      have h0 : ∀ a, a < n → α a b = 0 := by
        intro a ha
        by_contra h
        exact hne ⟨a, fun _ => ⟨ha, h⟩⟩
      have hv : ∀ i, i < n → v' i b = 0 := by
        intro i hi
        rw [expand i b hi]
        exact Finset.sum_eq_zero fun a ha => by rw [h0 a (Finset.mem_range.1 ha), mul_zero]
      have := ho' b b hb hb
      rw [if_pos rfl, Finset.sum_eq_zero fun i hi => by rw [hv i (Finset.mem_range.1 hi), zero_mul]] at this
      exact zero_ne_one this
    · exact ⟨0, fun h => absurd h hb⟩
  choose σ hσ using hex
  have hv : ∀ i b, i < n → b < n → v' i b = α (σ b) b * v i (σ b) := by
    intro i b hi hb
    rw [expand i b hi, Finset.sum_eq_single_of_mem (σ b) (Finset.mem_range.2 (hσ b hb).1), mul_comm]
    intro a ha hne
    rw [Finset.mem_range] at ha
    by_cases h0 : α a b = 0
    · rw [h0, mul_zero]
    · exact absurd (hs a (σ b) ha (hσ b hb).1 ((hα a b ha hb h0).trans (hα _ b (hσ b hb).1 hb (hσ b hb).2).symm)) hne
  have hprod : ∀ b b', b < n → b' < n → (if b = b' then (1 : K) else 0) = α (σ b) b * α (σ b') b' * if σ b = σ b' then 1 else 0 := by
    intro b b' hb hb'
    rw [← ho' b b' hb hb', ← ho _ _ (hσ b hb).1 (hσ b' hb').1, Finset.mul_sum]
    exact Finset.sum_congr rfl fun i hi => by rw [hv i b (Finset.mem_range.1 hi) hb, hv i b' (Finset.mem_range.1 hi) hb']; ring
  refine ⟨σ, fun b => α (σ b) b, fun b hb => (hσ b hb).1, fun b b' hb hb' he => ?_, fun b hb => ?_, hv⟩
  · by_contra hne
    have := hprod b b' hb hb'
    rw [if_neg hne, if_pos he, mul_one] at this
    exact mul_ne_zero (hσ b hb).2 (hσ b' hb').2 this.symm
  · have := hprod b b hb hb
    rw [if_pos rfl, if_pos rfl, mul_one] at this
    exact this.symm

/-- Sums over a permutation of a range. -/
theorem sum_range_perm {n : Nat} {σ : Nat → Nat} (h1 : ∀ b, b < n → σ b < n) (h2 : ∀ b b', b < n → b' < n → σ b = σ b' → b = b') (f : Nat → K) :
    ∑ b ∈ Finset.range n, f (σ b) = ∑ b ∈ Finset.range n, f b := by
  have hinj : Set.InjOn σ (Finset.range n) := fun b hb b' hb' h => h2 b b' (by simpa using hb) (by simpa using hb') h
  have himg : (Finset.range n).image σ = Finset.range n := by
    refine Finset.eq_of_subset_of_card_le (fun x hx => ?_) ?_
    · obtain ⟨b, hb, rfl⟩ := Finset.mem_image.1 hx
      exact Finset.mem_range.2 (h1 b (Finset.mem_range.1 hb))
    · rw [Finset.card_image_of_injOn hinj]
  conv_rhs => rw [← himg]
  rw [Finset.sum_image hinj]

end Logix
