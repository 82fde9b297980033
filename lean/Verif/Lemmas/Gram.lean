/-
Damped systems of Gram matrices.
-/
import Mathlib.Algebra.BigOperators.Ring.Finset
import Mathlib.Algebra.Order.BigOperators.Ring.Finset
import Mathlib.Algebra.Order.Field.Basic
import Mathlib.Algebra.QuadraticDiscriminant
import Mathlib.Tactic.Ring
import Mathlib.Tactic.Linarith

namespace Logix
variable {K : Type} [Field K] [LinearOrder K] [IsStrictOrderedRing K] {ι : Type}

/-- A nonnegative multiple of a sum of squares of linear functions. -/
def IsGram (T : ι → ι → K) : Prop :=
  ∃ (Φ : List (ι → K)) (ρ : K), 0 ≤ ρ ∧ ∀ a b, T a b = ρ * (Φ.map fun φ => φ a * φ b).sum

theorem IsGram.symm {T : ι → ι → K} (h : IsGram T) (a b : ι) : T a b = T b a := by
  obtain ⟨Φ, ρ, -, h⟩ := h
  rw [h, h]
  simp only [mul_comm]

theorem sum_list_map {κ : Type} (s : Finset ι) (l : List κ) (f : ι → κ → K) : ∑ a ∈ s, (l.map (f a)).sum = (l.map fun k => ∑ a ∈ s, f a k).sum := by
  induction l with
  | nil => simp
  | cons k l ih => simp only [List.map_cons, List.sum_cons, Finset.sum_add_distrib, ih]

theorem gram_form {Φ : List (ι → K)} {ρ : K} {T : ι → ι → K} (h : ∀ a b, T a b = ρ * (Φ.map fun φ => φ a * φ b).sum) (s : Finset ι) (x y : ι → K) :
    ∑ a ∈ s, ∑ b ∈ s, x a * T a b * y b = ρ * (Φ.map fun φ => (∑ a ∈ s, x a * φ a) * ∑ b ∈ s, y b * φ b).sum := by
  have e : ∀ a b, x a * T a b * y b = (Φ.map fun φ => ρ * ((x a * φ a) * (y b * φ b))).sum := by
    intro a b
    rw [h, ← List.sum_map_mul_left, ← List.sum_map_mul_left, ← List.sum_map_mul_right]
    exact congrArg List.sum (List.map_congr_left fun φ _ => by ring)
  simp only [e, sum_list_map]
  rw [← List.sum_map_mul_left]
  refine congrArg List.sum (List.map_congr_left fun φ _ => ?_)
  rw [Finset.sum_mul_sum, Finset.mul_sum]
  refine Finset.sum_congr rfl fun a _ => ?_
  rw [Finset.mul_sum]

theorem IsGram.nonneg {T : ι → ι → K} (h : IsGram T) (s : Finset ι) (x : ι → K) : 0 ≤ ∑ a ∈ s, ∑ b ∈ s, x a * T a b * x b := by
  obtain ⟨Φ, ρ, hρ, h⟩ := h
  rw [gram_form h]
  refine mul_nonneg hρ (List.sum_nonneg fun v hv => ?_)
  obtain ⟨φ, -, rfl⟩ := List.mem_map.1 hv
  exact mul_self_nonneg _

/-- `x` solves `T x + c x = g` on `s`. -/
def DampedOn (s : Finset ι) (T : ι → ι → K) (c : K) (g x : ι → K) : Prop := ∀ a ∈ s, (∑ b ∈ s, T a b * x b) + c * x a = g a

variable {s : Finset ι} {T : ι → ι → K} {c c' : K} {g h x y : ι → K}

theorem damped_pair (hx : DampedOn s T c g x) (v : ι → K) : ∑ a ∈ s, v a * g a = (∑ a ∈ s, ∑ b ∈ s, v a * T a b * x b) + c * ∑ a ∈ s, v a * x a := by
  rw [Finset.mul_sum, ← Finset.sum_add_distrib]
  refine Finset.sum_congr rfl fun a ha => ?_
  rw [← hx a ha, mul_add, Finset.mul_sum]
  congr 1
  · exact Finset.sum_congr rfl fun b _ => by ring
  · ring

theorem form_symm (hT : IsGram T) (x y : ι → K) : ∑ a ∈ s, ∑ b ∈ s, x a * T a b * y b = ∑ a ∈ s, ∑ b ∈ s, y a * T a b * x b := by
  rw [Finset.sum_comm]
  exact Finset.sum_congr rfl fun a _ => Finset.sum_congr rfl fun b _ => by rw [hT.symm b a]; ring

theorem sq_sum_nonneg (x : ι → K) : 0 ≤ ∑ a ∈ s, x a * x a := Finset.sum_nonneg fun _ _ => mul_self_nonneg _

/-- The energy is not negative. -/
theorem damped_nonneg (hT : IsGram T) (hc : 0 ≤ c) (hx : DampedOn s T c g x) : 0 ≤ ∑ a ∈ s, x a * g a := by
  rw [damped_pair hx x]
  exact add_nonneg (hT.nonneg s x) (mul_nonneg hc (sq_sum_nonneg x))

/-- More damping, less energy. -/
theorem damped_antitone (hT : IsGram T) (hc : 0 ≤ c) (hcc : c ≤ c') (hx : DampedOn s T c g x) (hy : DampedOn s T c' g y) :
    ∑ a ∈ s, y a * g a ≤ ∑ a ∈ s, x a * g a := by
  have e1 := damped_pair hx y
  have e2 := damped_pair hy x
  rw [form_symm hT x y] at e2
  have e3 : ∑ a ∈ s, x a * y a = ∑ a ∈ s, y a * x a := Finset.sum_congr rfl fun a _ => mul_comm _ _
  rw [e3] at e2
  rcases eq_or_lt_of_le hcc with rfl | hlt
  · rw [e1, e2]
  -- the difference solves the system for a multiple of `y`
  have hz : DampedOn s T c (fun a => (c' - c) * y a) (fun a => x a - y a) := by
    intro a ha
    have h1 := hx a ha
    have h2 := hy a ha
    have : ∑ b ∈ s, T a b * (x b - y b) = (∑ b ∈ s, T a b * x b) - ∑ b ∈ s, T a b * y b := by
      rw [← Finset.sum_sub_distrib]; exact Finset.sum_congr rfl fun b _ => by ring
    rw [this]
    linear_combination h1 - h2
  have h1 := damped_nonneg hT hc hz
  have e4 : ∑ a ∈ s, (x a - y a) * ((c' - c) * y a) = (c' - c) * ((∑ a ∈ s, y a * x a) - ∑ a ∈ s, y a * y a) := by
    rw [← Finset.sum_sub_distrib, Finset.mul_sum]
    exact Finset.sum_congr rfl fun a _ => by ring
  rw [e4] at h1
  have h2 : 0 ≤ (∑ a ∈ s, y a * x a) - ∑ a ∈ s, y a * y a := nonneg_of_mul_nonneg_right h1 (sub_pos.2 hlt)
  have h3 := sq_sum_nonneg (s := s) y
  have h4 : 0 ≤ (c' - c) * ∑ a ∈ s, y a * x a := mul_nonneg (sub_nonneg.2 hcc) (by linarith)
  rw [e1, e2]
  linarith [sub_mul c' c (∑ a ∈ s, y a * x a)]

/-- The energy is at most the square of the right hand side over the damping. -/
theorem damped_bound (hT : IsGram T) (hc : 0 ≤ c) (hx : DampedOn s T c g x) : c * ∑ a ∈ s, x a * g a ≤ ∑ a ∈ s, g a * g a := by
  have h1 : ∑ a ∈ s, g a * g a = (∑ a ∈ s, (∑ b ∈ s, T a b * x b) * (∑ b ∈ s, T a b * x b)) + 2 * c * (∑ a ∈ s, ∑ b ∈ s, x a * T a b * x b) +
      c * c * ∑ a ∈ s, x a * x a := by
    rw [Finset.mul_sum, Finset.mul_sum, ← Finset.sum_add_distrib, ← Finset.sum_add_distrib]
    refine Finset.sum_congr rfl fun a ha => ?_
    have : ∑ b ∈ s, x a * T a b * x b = x a * ∑ b ∈ s, T a b * x b := by
      rw [Finset.mul_sum]; exact Finset.sum_congr rfl fun b _ => by ring
    rw [this, ← hx a ha]
    ring
  rw [damped_pair hx x, h1]
  have h2 := sq_sum_nonneg (s := s) fun a => ∑ b ∈ s, T a b * x b
  have h3 := mul_nonneg hc (hT.nonneg s x)
  linarith [mul_assoc c c (∑ a ∈ s, x a * x a)]

/-- The energy of a combination. -/
theorem damped_comb (hx : DampedOn s T c g x) (hy : DampedOn s T c h y) (t : K) :
    DampedOn s T c (fun a => g a - t * h a) (fun a => x a - t * y a) := by
  intro a ha
  have h1 := hx a ha
  have h2 := hy a ha
  have : ∑ b ∈ s, T a b * (x b - t * y b) = (∑ b ∈ s, T a b * x b) - t * ∑ b ∈ s, T a b * y b := by
    rw [Finset.mul_sum, ← Finset.sum_sub_distrib]; exact Finset.sum_congr rfl fun b _ => by ring
  rw [this]
  linear_combination h1 - t * h2

theorem damped_swap (hT : IsGram T) (hx : DampedOn s T c g x) (hy : DampedOn s T c h y) : ∑ a ∈ s, x a * h a = ∑ a ∈ s, y a * g a := by
  rw [damped_pair hx y, damped_pair hy x, form_symm hT x y]
  congr 2
  exact Finset.sum_congr rfl fun a _ => mul_comm _ _

/-- The energy of a combination is a quadratic function. -/
theorem damped_quad (hT : IsGram T) (hc : 0 ≤ c) (hx : DampedOn s T c g x) (hy : DampedOn s T c h y) (t : K) :
    0 ≤ (∑ a ∈ s, y a * h a) * (t * t) + -2 * (∑ a ∈ s, x a * h a) * t + ∑ a ∈ s, x a * g a := by
  have h1 := damped_nonneg hT hc (damped_comb hx hy t)
  have e : ∑ a ∈ s, (x a - t * y a) * (g a - t * h a) =
      (∑ a ∈ s, x a * g a) - t * (∑ a ∈ s, x a * h a) - t * (∑ a ∈ s, y a * g a) + t * t * ∑ a ∈ s, y a * h a := by
    rw [Finset.mul_sum, Finset.mul_sum, Finset.mul_sum, ← Finset.sum_sub_distrib, ← Finset.sum_sub_distrib, ← Finset.sum_add_distrib]
    exact Finset.sum_congr rfl fun a _ => by ring
  rw [e, ← damped_swap hT hx hy] at h1
  linarith

/-- Cauchy and Schwarz. -/
theorem sq_le_of_quad {p q r : K} (h : ∀ t : K, 0 ≤ p * (t * t) + -2 * q * t + r) : q * q ≤ r * p := by
  have := discrim_le_zero h
  unfold discrim at this
  nlinarith

end Logix
