/-
C94 on concrete runs: the scores, from solutions of the damped systems given by hand.
-/
import Verif.Props.Formula
import Verif.Props.DeterminedExample

namespace Logix.ExInfl
open Logix

theorem loggedWhole : Spec.LoggedAll wholeBatch (Dict.keys log1) .auto := by
  refine .inl ⟨.inr ⟨rfl, fun m hm => ?_⟩, fun m hm => ?_⟩
  · rcases keys1 m hm with rfl | rfl <;> rfl
  · rcases keys1 m hm with rfl | rfl
    · exact ⟨⟨List.cons_ne_nil _ _, fun c hc => .inl (by
        have hc : c ∈ [(fA 2 [3, 4, -8, 6] rfl).2] := hc
        rw [List.mem_singleton.1 hc]; rfl)⟩, List.cons_ne_nil _ _, fun c hc => .inl (by
        have hc : c ∈ [bA.2] := hc
        rw [List.mem_singleton.1 hc]; rfl)⟩
    · exact ⟨⟨List.cons_ne_nil _ _, fun c hc => .inl (by
        have hc : c ∈ [fB.2] := hc
        rw [List.mem_singleton.1 hc]; rfl)⟩, List.cons_ne_nil _ _, fun c hc => .inl (by
        have hc : c ∈ [bB.2] := hc
        rw [List.mem_singleton.1 hc]; rfl)⟩

/-- The solutions for the first sample of `log1`, by hand. -/
def solKfac (m : PyStr) (idx : List Nat) : Rat := if m = nmA then (if idx = [0, 0] then 104 / 2709 else 17 / 301) else 5 / 6

theorem solKfac_solves : ∀ m ∈ Dict.keys log1, Spec.Solves wholeBatch .auto 1 log1 0 m (solKfac m) := by
  intro m hm
  rcases keys1 m hm with rfl | rfl
  · refine ⟨_, 2, 1, 2, rfl, rfl, fun p q hp hq => ?_⟩
    obtain rfl : p = 0 := by omega
    have : ∀ q < 2, (∑ p' ∈ Finset.range 1, ∑ q' ∈ Finset.range 2, Spec.secondMoment wholeBatch nmA .backward 0 p' * solKfac nmA [p', q'] *
        Spec.secondMoment wholeBatch nmA .forward q' q) + 1 * solKfac nmA [0, q] = (⟨.cpu, [2, 1, 2], [1, 2, 3, 4], rfl⟩ : Tensor Rat).el [0, 0, q] := by
      decide +kernel
    exact this q hq
  · refine ⟨_, 2, 1, 1, rfl, rfl, fun p q hp hq => ?_⟩
    obtain rfl : p = 0 := by omega
    obtain rfl : q = 0 := by omega
    have : (∑ p' ∈ Finset.range 1, ∑ q' ∈ Finset.range 1, Spec.secondMoment wholeBatch nmB .backward 0 p' * solKfac nmB [p', q'] *
        Spec.secondMoment wholeBatch nmB .forward q' 0) + 1 * solKfac nmB [0, 0] = (⟨.cpu, [2, 1, 1], [5, 6], rfl⟩ : Tensor Rat).el [0, 0, 0] := by
      decide +kernel
    exact this

/-- The hypotheses of C94 are met, and it gives the scores of the first sample: `1 * 104/2709 + 2 * 17/301 + 5 * 5/6` with itself. -/
example : ∃ u r t, computeInfluence lib Rat.sqrt (stOf lib wholeBatch) ids1 (.dict log1) ids1 (.dict log1) .dot true .auto none (some 1) = .ok (u, r) ∧
    r.influence = .one t ∧ t.el [0, 0] = 104 / 2709 + 2 * (17 / 301) + 5 * (5 / 6) ∧ t.el [0, 1] = 3 * (104 / 2709) + 4 * (17 / 301) + 6 * (5 / 6) := by
  obtain ⟨u, r, h⟩ := isOk (x := computeInfluence lib Rat.sqrt (stOf lib wholeBatch) ids1 (.dict log1) ids1 (.dict log1) .dot true .auto none (some 1))
    (by decide +kernel)
  obtain ⟨t, h1, -, -, -, h2⟩ := C94_influence eighOk inverseOk finWhole loggedWhole (by decide +kernel) lab1 lab1 h
  refine ⟨u, r, t, h, h1, ?_, ?_⟩
  · rw [(h2 0 (by decide)).2 solKfac solKfac_solves 0 (by decide)]; decide +kernel
  · rw [(h2 0 (by decide)).2 solKfac solKfac_solves 1 (by decide)]; decide +kernel

example : ∃ u r t, computeSelf lib (stOf lib wholeBatch) ids1 (.dict log1) true .auto none (some 1) = .ok (u, r) ∧
    r.influence.get? kTotal = some t ∧ t.el [0] = 104 / 2709 + 2 * (17 / 301) + 5 * (5 / 6) := by
  obtain ⟨u, r, h⟩ := isOk (x := computeSelf lib (stOf lib wholeBatch) ids1 (.dict log1) true .auto none (some 1)) (by decide +kernel)
  obtain ⟨t, h1, -, -, h2⟩ := C94_self eighOk inverseOk finWhole loggedWhole (by decide +kernel) lab1 h
  refine ⟨u, r, t, h, h1, ?_⟩
  rw [(h2 0 (by decide)).2 solKfac solKfac_solves]; decide +kernel

/-! ### Gradients -/

def grA : Plugin × StatCall Rat := (.covariance, ⟨none, nmA, .grad, ⟨.cpu, [2, 1, 2], [1, 0, 1, 2], rfl⟩, none, false⟩)
def grB : Plugin × StatCall Rat := (.covariance, ⟨none, nmB, .grad, ⟨.cpu, [2, 1, 1], [1, 3], rfl⟩, none, false⟩)
def gradCalls : List (Plugin × StatCall Rat) := [grA, grB]

theorem finGrad : Spec.Finalized lib gradCalls (stOf lib gradCalls) :=
  finalized_of (by decide +kernel) (by intro pc h; simp only [gradCalls, List.mem_cons, List.not_mem_nil, or_false] at h; rcases h with rfl | rfl <;> exact .inr (.inr rfl))
    (by intro pc h; simp only [gradCalls, List.mem_cons, List.not_mem_nil, or_false] at h; rcases h with rfl | rfl <;> rfl)

theorem loggedGrad : Spec.LoggedAll gradCalls (Dict.keys log1) .auto := by
  refine .inr ⟨.inr rfl, fun m hm => ?_⟩
  rcases keys1 m hm with rfl | rfl <;> exact ⟨List.cons_ne_nil _ _, fun c hc => .inr rfl⟩

/-- The solutions for the first sample of `log1`, by hand. -/
def solRaw (m : PyStr) (idx : List Nat) : Rat := if m = nmA then (if idx = [0, 0] then 1 / 5 else 3 / 5) else 5 / 6

theorem solRaw_solves : ∀ m ∈ Dict.keys log1, Spec.Solves gradCalls .auto 1 log1 0 m (solRaw m) := by
  intro m hm
  rcases keys1 m hm with rfl | rfl
  · unfold Spec.Solves
    rw [if_pos (.inr ⟨rfl, List.cons_ne_nil _ _⟩)]
    refine ⟨_, rfl, ?_⟩
    have : ∀ idx ∈ indices [1, 2], ((indices [1, 2]).map fun idx' => Spec.secondMoment gradCalls nmA .grad (ravel [1, 2] idx) (ravel [1, 2] idx') *
        solRaw nmA idx').sum + 1 * solRaw nmA idx = (⟨.cpu, [2, 1, 2], [1, 2, 3, 4], rfl⟩ : Tensor Rat).el (0 :: idx) := by decide +kernel
    exact this
  · unfold Spec.Solves
    rw [if_pos (.inr ⟨rfl, List.cons_ne_nil _ _⟩)]
    refine ⟨_, rfl, ?_⟩
    have : ∀ idx ∈ indices [1, 1], ((indices [1, 1]).map fun idx' => Spec.secondMoment gradCalls nmB .grad (ravel [1, 1] idx) (ravel [1, 1] idx') *
        solRaw nmB idx').sum + 1 * solRaw nmB idx = (⟨.cpu, [2, 1, 1], [5, 6], rfl⟩ : Tensor Rat).el (0 :: idx) := by decide +kernel
    exact this

/-- The hypotheses of C94 are met with covariances of the gradients. -/
example : ∃ u r t, computeInfluence lib Rat.sqrt (stOf lib gradCalls) ids1 (.dict log1) ids1 (.dict log1) .dot true .auto none (some 1) = .ok (u, r) ∧
    r.influence = .one t ∧ t.el [0, 0] = 1 / 5 + 2 * (3 / 5) + 5 * (5 / 6) := by
  obtain ⟨u, r, h⟩ := isOk (x := computeInfluence lib Rat.sqrt (stOf lib gradCalls) ids1 (.dict log1) ids1 (.dict log1) .dot true .auto none (some 1))
    (by decide +kernel)
  obtain ⟨t, h1, -, -, -, h2⟩ := C94_influence eighOk inverseOk finGrad loggedGrad (by decide +kernel) lab1 lab1 h
  refine ⟨u, r, t, h, h1, ?_⟩
  rw [(h2 0 (by decide)).2 solRaw solRaw_solves 0 (by decide)]; decide +kernel

end Logix.ExInfl
