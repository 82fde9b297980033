/-
C107: gradients of grouped convolutions.
-/
import Verif.Props.Grad
import Verif.Spec.ConvGroups
import Mathlib.Algebra.Order.Ring.Rat

namespace Logix
open Spec
variable {K : Type} [CommSemiring K]

theorem exchange_sums (Cg k0 k1 oh ow : Nat) (b : Nat → Nat → K) (p : Nat → Nat → Nat → Nat → Nat → K) (H : Nat → Nat → Nat → K) :
    ∑ c ∈ Finset.range Cg, ∑ i ∈ Finset.range k0, ∑ j ∈ Finset.range k1, (∑ y ∈ Finset.range oh, ∑ z ∈ Finset.range ow, b y z * p c i j y z) * H c i j =
      ∑ y ∈ Finset.range oh, ∑ z ∈ Finset.range ow, b y z * ∑ c ∈ Finset.range Cg, ∑ i ∈ Finset.range k0, ∑ j ∈ Finset.range k1, H c i j * p c i j y z := by
  simp only [← Finset.sum_product']
  simp only [Finset.sum_mul, Finset.mul_sum]
  rw [Finset.sum_comm]
  exact Finset.sum_congr rfl fun a _ => Finset.sum_congr rfl fun e _ => by ring

/-- **C107**, what holds. The logged gradient of a convolution with `G` groups has `G` times as many entries as the weight; the entries of the input
channels in the group of the output channel are the gradient with respect to the weight. -/
theorem C107_blocks_partial (g : ConvGeom) (G Cg per N h w : Nat) (fwd bwd : Tensor K) (hD : GroupedData g G Cg per N h w fwd bwd) :
    ∃ T, computePerSampleGradient fwd bwd (.conv2d g (G * per)) = .ok T ∧ T.shape = [N, G * per, G * Cg * g.kernel.1 * g.kernel.2] ∧
      ∀ n < N, IsWeightGrad g Cg per (G * per) fwd bwd n
        fun o c i j => T.el [n, o, ((o / per * Cg + c) * g.kernel.1 + i) * g.kernel.2 + j] := by
  obtain ⟨T, h1, h2, h3⟩ := convGrad_ok fwd bwd N (G * Cg) (G * per) h w g hD.fits hD.samples (Nat.mul_pos hD.groups hD.outs) hD.input hD.output hD.dev
  refine ⟨T, h1, h2, fun n hn H => Finset.sum_congr rfl fun o ho => ?_⟩
  have ho := Finset.mem_range.1 ho
  have hgrp : o / per < G := Nat.div_lt_of_lt_mul (by rw [Nat.mul_comm]; exact ho)
  unfold groupedOut
  rw [← exchange_sums]
  refine Finset.sum_congr rfl fun c hc => Finset.sum_congr rfl fun i hi => Finset.sum_congr rfl fun j hj => ?_
  have hc' : o / per * Cg + c < G * Cg :=
    calc o / per * Cg + c < o / per * Cg + Cg := Nat.add_lt_add_left (Finset.mem_range.1 hc) _
      _ = (o / per + 1) * Cg := by ring
      _ ≤ G * Cg := Nat.mul_le_mul_right _ hgrp
  change T.el [n, o, ((o / per * Cg + c) * g.kernel.1 + i) * g.kernel.2 + j] * H o c i j = _
  rw [h3 n o _ i j hn ho hc' (Finset.mem_range.1 hi) (Finset.mem_range.1 hj)]
  simp only [Tensor.size, hD.output]
  rfl

/-- **C107** for convolutions without groups: the logged gradient is the gradient with respect to the weight. -/
theorem C107_ungrouped_partial (g : ConvGeom) (Cg per N h w : Nat) (fwd bwd : Tensor K) (hD : GroupedData g 1 Cg per N h w fwd bwd) :
    ∃ T, computePerSampleGradient fwd bwd (.conv2d g (1 * per)) = .ok T ∧ T.shape = [N, 1 * per, Cg * g.kernel.1 * g.kernel.2] ∧
      ∀ n < N, IsWeightGrad g Cg per (1 * per) fwd bwd n fun o c i j => T.el [n, o, (c * g.kernel.1 + i) * g.kernel.2 + j] := by
  obtain ⟨T, h1, h2, h3⟩ := C107_blocks_partial g 1 Cg per N h w fwd bwd hD
  refine ⟨T, h1, by rw [h2, Nat.one_mul Cg], fun n hn H => ?_⟩
  rw [← h3 n hn H]
  refine Finset.sum_congr rfl fun o ho => Finset.sum_congr rfl fun c _ => ?_
  rw [Finset.mem_range, Nat.one_mul] at ho
  simp only [Nat.div_eq_of_lt ho, Nat.zero_mul, Nat.zero_add]

namespace ExConv

/-- A depthwise convolution with kernel 1 × 1 on two channels, for two images of one pixel. -/
def g1 : ConvGeom := ⟨(1, 1), (1, 1), (0, 0), (1, 1)⟩
def x1 : Tensor Rat := ⟨.cpu, [2, 2, 1, 1], [1, 0, 0, 1], rfl⟩
def d1 : Tensor Rat := ⟨.cpu, [2, 2, 1, 1], [1, 2, 1, 2], rfl⟩

theorem data1 : GroupedData g1 2 1 1 2 1 1 x1 d1 := ⟨⟨by decide, by decide, by decide, by decide, by decide, by decide⟩, by decide, by decide, by decide, rfl, rfl, rfl⟩

def shape1 : Option (List Nat) := (computePerSampleGradient x1 d1 (.conv2d g1 2)).toOption.map fun T => T.shape
example : shape1 = some [2, 2, 2] := by decide +kernel

/-- **C107 is false**: the logged gradient of a depthwise convolution has entries for weights that do not exist. -/
theorem C107_refuted : ¬ C107 Rat := by
  intro h
  obtain ⟨T, h1, h2, -⟩ := h g1 2 1 1 2 1 1 x1 d1 data1
  have : shape1 = some T.shape := by unfold shape1; rw [show 2 = 2 * 1 from rfl, h1]; rfl
  rw [h2] at this
  exact absurd this (by decide +kernel)

/-- The gradients of the two images with respect to the weight, by hand. -/
theorem grad0 : IsWeightGrad g1 1 1 (2 * 1) x1 d1 0 fun o _ _ _ => if o = 0 then 1 else 0 := by
  intro H
  have e : ∀ o y z, groupedOut H g1 1 1 x1 0 o y z = H o 0 0 0 * pixel x1 0 o (y : Int) z := by
    intro o y z; simp [groupedOut, g1]
  have s2 : d1.size 2 = 1 := rfl
  have s3 : d1.size 3 = 1 := rfl
  simp only [e, s2, s3]
  simp only [weightDot, g1, Finset.sum_range_succ, Finset.sum_range_zero]
  have p0 : pixel x1 0 0 0 0 = 1 := by decide +kernel
  have p1 : pixel x1 0 1 0 0 = 0 := by decide +kernel
  have q0 : d1.el [0, 0, 0, 0] = 1 := by decide +kernel
  simp [p0, p1, q0, mul_comm]

theorem grad1 : IsWeightGrad g1 1 1 (2 * 1) x1 d1 1 fun o _ _ _ => if o = 0 then 0 else 2 := by
  intro H
  have e : ∀ o y z, groupedOut H g1 1 1 x1 1 o y z = H o 0 0 0 * pixel x1 1 o (y : Int) z := by
    intro o y z; simp [groupedOut, g1]
  have s2 : d1.size 2 = 1 := rfl
  have s3 : d1.size 3 = 1 := rfl
  simp only [e, s2, s3]
  simp only [weightDot, g1, Finset.sum_range_succ, Finset.sum_range_zero]
  have p0 : pixel x1 1 0 0 0 = 0 := by decide +kernel
  have p1 : pixel x1 1 1 0 0 = 1 := by decide +kernel
  have q0 : d1.el [1, 1, 0, 0] = 2 := by decide +kernel
  simp [p0, p1, q0, mul_comm]

def inner1 (n n' : Nat) : Option Rat := (computePerSampleGradient x1 d1 (.conv2d g1 2)).toOption.map fun T =>
  ((indices T.shape.tail).map fun idx => T.el (n :: idx) * T.el (n' :: idx)).sum
example : inner1 0 0 = some 5 ∧ inner1 0 1 = some 0 := by decide +kernel

/-- **The scores are not those of the weight**: the gradient of the first image is 1 in one entry, so its square is 1; the logged one has square 5. -/
theorem C107_scores_refuted : ¬ C107_scores Rat := by
  intro h
  obtain ⟨T, h1, h2⟩ := h g1 2 1 1 2 1 1 x1 d1 data1
  have e := h2 0 (by decide) 0 (by decide) _ _ grad0 grad0
  have : inner1 0 0 = some (((indices T.shape.tail).map fun idx => T.el (0 :: idx) * T.el (0 :: idx)).sum) := by
    unfold inner1; rw [show 2 = 2 * 1 from rfl, h1]; rfl
  rw [e] at this
  exact absurd this (by decide +kernel)

end ExConv
end Logix
