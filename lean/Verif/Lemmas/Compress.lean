/-
Projections onto orthonormal directions, with sums over ranges.
-/
import Verif.Spec.Pca
import Mathlib.Tactic.Ring
import Mathlib.Tactic.Linarith
import Mathlib.Algebra.Order.BigOperators.Ring.Finset
import Mathlib.Algebra.Order.BigOperators.Group.List

set_option linter.unusedSectionVars false

namespace Logix
open Spec Finset
variable {K : Type} [Field K] [LinearOrder K] [IsStrictOrderedRing K] {n r : Nat} {q : Nat → Nat → K}

theorem coeff_eq (hq : Orthonormal n r q) {x c : Nat → K} (hx : ∀ k, k < n → x k = ∑ i ∈ range r, c i * q i k) {i : Nat} (hi : i < r) :
    ∑ k ∈ range n, q i k * x k = c i := by
  have h1 : ∑ k ∈ range n, q i k * x k = ∑ k ∈ range n, ∑ j ∈ range r, c j * (q i k * q j k) := by
    refine sum_congr rfl fun k hk => ?_
    rw [hx k (mem_range.1 hk), mul_sum]
    exact sum_congr rfl fun j _ => by ring
  rw [h1, sum_comm]
  have h2 : ∀ j ∈ range r, ∑ k ∈ range n, c j * (q i k * q j k) = if i = j then c j else 0 := by
    intro j hj
    rw [← mul_sum, hq i j hi (mem_range.1 hj)]
    split <;> simp
  rw [sum_congr rfl h2, sum_ite_eq, if_pos (mem_range.2 hi)]

/-- What is left of a vector after taking away its projection. -/
theorem residual (hq : Orthonormal n r q) (x : Nat → K) :
    ∑ k ∈ range n, (x k - ∑ i ∈ range r, (∑ l ∈ range n, q i l * x l) * q i k) ^ 2 =
      ∑ k ∈ range n, x k ^ 2 - ∑ i ∈ range r, (∑ l ∈ range n, q i l * x l) ^ 2 := by
  set c := fun i => ∑ l ∈ range n, q i l * x l with hc
  set y := fun k => ∑ i ∈ range r, c i * q i k with hy
  have h1 : ∑ k ∈ range n, x k * y k = ∑ i ∈ range r, c i ^ 2 := by
    have : ∀ k ∈ range n, x k * y k = ∑ i ∈ range r, c i * (q i k * x k) := by
      intro k _
      rw [hy]
      dsimp only
      rw [mul_sum]
      exact sum_congr rfl fun i _ => by ring
    rw [sum_congr rfl this, sum_comm]
    refine sum_congr rfl fun i _ => ?_
    rw [← mul_sum, pow_two]
  have h2 : ∑ k ∈ range n, y k * y k = ∑ i ∈ range r, c i ^ 2 := by
    have : ∀ k ∈ range n, y k * y k = ∑ i ∈ range r, c i * (q i k * y k) := by
      intro k _
      conv_lhs => rw [hy]
      dsimp only
      rw [sum_mul]
      exact sum_congr rfl fun i _ => by ring
    rw [sum_congr rfl this, sum_comm]
    refine sum_congr rfl fun i hi => ?_
    rw [← mul_sum, coeff_eq hq (fun k _ => rfl) (mem_range.1 hi), pow_two]
  have h3 : ∀ k ∈ range n, (x k - y k) ^ 2 = x k ^ 2 - 2 * (x k * y k) + y k * y k := fun k _ => by ring
  show ∑ k ∈ range n, (x k - y k) ^ 2 = _
  rw [sum_congr rfl h3, sum_add_distrib, sum_sub_distrib, ← mul_sum, h1, h2]
  ring

theorem bessel_sum (hq : Orthonormal n r q) (x : Nat → K) : ∑ i ∈ range r, (∑ l ∈ range n, q i l * x l) ^ 2 ≤ ∑ k ∈ range n, x k ^ 2 := by
  have h := residual hq x
  have : 0 ≤ ∑ k ∈ range n, (x k - ∑ i ∈ range r, (∑ l ∈ range n, q i l * x l) * q i k) ^ 2 := sum_nonneg fun _ _ => sq_nonneg _
  linarith

/-- A vector whose norm is kept is the sum of its components. -/
theorem kept_eq (hq : Orthonormal n r q) {x : Nat → K} (h : ∑ k ∈ range n, x k ^ 2 ≤ ∑ i ∈ range r, (∑ l ∈ range n, q i l * x l) ^ 2) {k : Nat} (hk : k < n) :
    x k = ∑ i ∈ range r, (∑ l ∈ range n, q i l * x l) * q i k := by
  have h1 := residual hq x
  have h2 : ∑ k ∈ range n, (x k - ∑ i ∈ range r, (∑ l ∈ range n, q i l * x l) * q i k) ^ 2 = 0 :=
    le_antisymm (by linarith) (sum_nonneg fun _ _ => sq_nonneg _)
  have h3 := (sum_eq_zero_iff_of_nonneg fun _ _ => sq_nonneg _).1 h2 k (mem_range.2 hk)
  exact sub_eq_zero.1 (by simpa using h3)

theorem span_norm (hq : Orthonormal n r q) {x : Nat → K} (h : InSpan n r q x) : ∑ i ∈ range r, (∑ l ∈ range n, q i l * x l) ^ 2 = ∑ k ∈ range n, x k ^ 2 := by
  obtain ⟨c, hc⟩ := h
  have h1 := residual hq x
  have h2 : ∀ k ∈ range n, (x k - ∑ i ∈ range r, (∑ l ∈ range n, q i l * x l) * q i k) ^ 2 = 0 := by
    intro k hk
    have : ∑ i ∈ range r, (∑ l ∈ range n, q i l * x l) * q i k = x k := by
      rw [hc k (mem_range.1 hk)]
      exact sum_congr rfl fun i hi => by rw [coeff_eq hq hc (mem_range.1 hi)]
    rw [this]
    ring
  rw [sum_congr rfl h2, sum_const_zero] at h1
  linarith

theorem list_le_eq {α : Type} (f g : α → K) : ∀ l : List α, (∀ a ∈ l, f a ≤ g a) → (l.map g).sum ≤ (l.map f).sum → ∀ a ∈ l, g a ≤ f a
  | [], _, _, a, ha => by simp at ha
  | b :: l, h, hs, a, ha => by
    simp only [List.map_cons, List.sum_cons] at hs
    have h1 := h b (by simp)
    have h2 : (l.map f).sum ≤ (l.map g).sum := List.sum_le_sum fun x hx => h x (by simp [hx])
    rcases List.mem_cons.1 ha with rfl | ha
    · linarith
    · exact list_le_eq f g l (fun x hx => h x (by simp [hx])) (by linarith) a ha

/-- If the vectors lie in some subspace of `r` dimensions, then the `r` directions that keep most of them keep all of them. -/
theorem best_keeps {l : List (Nat → K)} (hq : Orthonormal n r q) (hr : RankAtMost n r l)
    (hbest : ∀ p, Orthonormal n r p → (l.map fun x => ∑ i ∈ range r, (∑ k ∈ range n, p i k * x k) ^ 2).sum ≤
      (l.map fun x => ∑ i ∈ range r, (∑ k ∈ range n, q i k * x k) ^ 2).sum) {x : Nat → K} (hx : x ∈ l) :
    ∀ k, k < n → x k = ∑ i ∈ range r, (∑ k ∈ range n, q i k * x k) * q i k := by
  obtain ⟨p, hp, hl⟩ := hr
  have h1 := hbest p hp
  have h2 : (l.map fun x => ∑ i ∈ range r, (∑ k ∈ range n, p i k * x k) ^ 2) = l.map fun x => ∑ k ∈ range n, x k ^ 2 :=
    List.map_congr_left fun x hx => span_norm hp (hl x hx)
  rw [h2] at h1
  have h3 := list_le_eq (fun x => ∑ i ∈ range r, (∑ k ∈ range n, q i k * x k) ^ 2) (fun x => ∑ k ∈ range n, x k ^ 2) l (fun x _ => bessel_sum hq x) h1 x hx
  exact fun k hk => kept_eq hq h3 hk

/-- The compressed gradient `Cᵀ G Aᵀ`: the rows of `A` are `a 0, ...`, the columns of `C` are `d 0, ...`. -/
def squeeze (J O : Nat) (a d : Nat → Nat → K) (G : Nat → Nat → K) (s t : Nat) : K := ∑ o ∈ range O, ∑ j ∈ range J, d s o * G o j * a t j

variable {J O : Nat} {a d : Nat → Nat → K}

/-- Two sums in the other order. -/
theorem squeeze_eq (G : Nat → Nat → K) (s t : Nat) : squeeze J O a d G s t = ∑ j ∈ range J, a t j * ∑ o ∈ range O, d s o * G o j := by
  unfold squeeze
  rw [sum_comm]
  refine sum_congr rfl fun j _ => ?_
  rw [mul_sum]
  exact sum_congr rfl fun o _ => by ring

/-- Inner products with a gradient that can be recovered from its compressed form do not change. -/
theorem squeeze_inner {G G' : Nat → Nat → K} (hG : ∀ o j, o < O → j < J → G o j = ∑ s ∈ range r, ∑ t ∈ range r, d s o * squeeze J O a d G s t * a t j) :
    ∑ s ∈ range r, ∑ t ∈ range r, squeeze J O a d G s t * squeeze J O a d G' s t = ∑ o ∈ range O, ∑ j ∈ range J, G o j * G' o j := by
  have h1 : ∀ o ∈ range O, ∀ j ∈ range J, G o j * G' o j = ∑ s ∈ range r, ∑ t ∈ range r, squeeze J O a d G s t * (d s o * G' o j * a t j) := by
    intro o ho j hj
    rw [hG o j (mem_range.1 ho) (mem_range.1 hj), sum_mul]
    refine sum_congr rfl fun s _ => ?_
    rw [sum_mul]
    exact sum_congr rfl fun t _ => by ring
  rw [sum_congr rfl fun o ho => sum_congr rfl (h1 o ho)]
  have h2 : ∀ o ∈ range O, ∑ j ∈ range J, ∑ s ∈ range r, ∑ t ∈ range r, squeeze J O a d G s t * (d s o * G' o j * a t j) =
      ∑ s ∈ range r, ∑ t ∈ range r, ∑ j ∈ range J, squeeze J O a d G s t * (d s o * G' o j * a t j) := by
    intro o _
    rw [sum_comm]
    exact sum_congr rfl fun s _ => sum_comm
  rw [sum_congr rfl h2]
  conv_rhs => rw [sum_comm]
  refine sum_congr rfl fun s _ => ?_
  conv_rhs => rw [sum_comm]
  refine sum_congr rfl fun t _ => ?_
  conv_lhs => rw [show squeeze J O a d G' s t = ∑ o ∈ range O, ∑ j ∈ range J, d s o * G' o j * a t j from rfl, mul_sum]
  exact sum_congr rfl fun o _ => by rw [mul_sum]

/-- The gradient of a layer from inputs and output gradients that are sums of their components can be recovered from its compressed form. -/
theorem squeeze_recover {G : Nat → Nat → K} {P : Type} (l : List P) (x g : P → Nat → K)
    (hG : ∀ o j, o < O → j < J → G o j = (l.map fun p => g p o * x p j).sum)
    (hx : ∀ p ∈ l, ∀ j, j < J → x p j = ∑ t ∈ range r, (∑ k ∈ range J, a t k * x p k) * a t j)
    (hg : ∀ p ∈ l, ∀ o, o < O → g p o = ∑ s ∈ range r, (∑ k ∈ range O, d s k * g p k) * d s o) :
    ∀ o j, o < O → j < J → G o j = ∑ s ∈ range r, ∑ t ∈ range r, d s o * squeeze J O a d G s t * a t j := by
  have hsq : ∀ s t, squeeze J O a d G s t = (l.map fun p => (∑ o ∈ range O, d s o * g p o) * ∑ j ∈ range J, a t j * x p j).sum := by
    intro s t
    have h1 : squeeze J O a d G s t = ∑ o ∈ range O, ∑ j ∈ range J, (l.map fun p => d s o * g p o * (a t j * x p j)).sum := by
      unfold squeeze
      refine sum_congr rfl fun o ho => sum_congr rfl fun j hj => ?_
      rw [hG o j (mem_range.1 ho) (mem_range.1 hj), mul_comm (d s o), mul_assoc, ← List.sum_map_mul_right]
      congr 1
      exact List.map_congr_left fun p _ => by ring
    rw [h1]
    clear h1 hG hx hg
    induction l with
    | nil => simp
    | cons p l ih =>
      simp only [List.map_cons, List.sum_cons, sum_add_distrib]
      rw [ih, sum_mul_sum]
  intro o j ho hj
  rw [hG o j ho hj]
  have h2 : ∑ s ∈ range r, ∑ t ∈ range r, d s o * squeeze J O a d G s t * a t j =
      (l.map fun p => (∑ s ∈ range r, (∑ k ∈ range O, d s k * g p k) * d s o) * ∑ t ∈ range r, (∑ k ∈ range J, a t k * x p k) * a t j).sum := by
    simp only [hsq]
    clear hsq hG hx hg
    induction l with
    | nil => simp
    | cons p l ih =>
      simp only [List.map_cons, List.sum_cons, mul_add, add_mul, sum_add_distrib]
      rw [ih, sum_mul_sum]
      congr 1
      exact sum_congr rfl fun s _ => sum_congr rfl fun t _ => by ring
  rw [h2]
  congr 1
  refine List.map_congr_left fun p hp => ?_
  rw [← hx p hp j hj, ← hg p hp o ho]

/-- Compressing never makes a gradient larger. -/
theorem squeeze_le (ha : Orthonormal J r a) (hd : Orthonormal O r d) (G : Nat → Nat → K) :
    ∑ s ∈ range r, ∑ t ∈ range r, squeeze J O a d G s t ^ 2 ≤ ∑ o ∈ range O, ∑ j ∈ range J, G o j ^ 2 := by
  have h1 : ∀ s ∈ range r, ∑ t ∈ range r, squeeze J O a d G s t ^ 2 ≤ ∑ j ∈ range J, (∑ o ∈ range O, d s o * G o j) ^ 2 := by
    intro s _
    have := bessel_sum ha fun j => ∑ o ∈ range O, d s o * G o j
    simpa only [squeeze_eq] using this
  refine (sum_le_sum h1).trans ?_
  rw [sum_comm, sum_comm (s := range O)]
  exact sum_le_sum fun j _ => bessel_sum hd fun o => G o j

end Logix
