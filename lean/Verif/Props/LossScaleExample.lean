/-
C136 on concrete runs: a loss, and the loss times three.
-/
import Verif.Props.LossScale
import Verif.Props.ModuleOrderExample

namespace Logix.ExInfl
open Logix Spec

theorem finTriple : Finalized lib (wholeBatch.map (scaledCall 3)) (stOf lib (wholeBatch.map (scaledCall 3))) := by
  refine finalized_of (by decide +kernel) (fun pc h => ?_) (fun pc h => ?_) <;>
    simp only [wholeBatch, List.map_cons, List.map_nil, List.mem_cons, List.not_mem_nil, or_false] at h <;> rcases h with rfl | rfl | rfl | rfl
  all_goals first | exact .inr (.inr rfl) | rfl

theorem finTripleGrad : Finalized lib (gradCalls.map (scaledCall 3)) (stOf lib (gradCalls.map (scaledCall 3))) := by
  refine finalized_of (by decide +kernel) (fun pc h => ?_) (fun pc h => ?_) <;>
    simp only [gradCalls, List.map_cons, List.map_nil, List.mem_cons, List.not_mem_nil, or_false] at h <;> rcases h with rfl | rfl
  all_goals first | exact .inr (.inr rfl) | rfl

/-- The hypotheses of C136 are met: KFAC without damping, mode `l2`. -/
example : ∃ u r u' r' t t',
    computeInfluence lib Rat.sqrt (stOf lib wholeBatch) ids1 (.dict log1) ids1 (.dict log1) .l2 true .auto none none = .ok (u, r) ∧
    computeInfluence lib Rat.sqrt (stOf lib (wholeBatch.map (scaledCall 3))) ids1 (.dict (scaledLog 3 log1)) ids1 (.dict (scaledLog 3 log1)) .l2 true .auto none none =
      .ok (u', r') ∧
    r.influence.get? kTotal = some t ∧ r'.influence.get? kTotal = some t' ∧ ∀ i j, i < 2 → j < 2 → t.el [i, j] = t'.el [i, j] := by
  obtain ⟨u, r, h⟩ := isOk (x := computeInfluence lib Rat.sqrt (stOf lib wholeBatch) ids1 (.dict log1) ids1 (.dict log1) .l2 true .auto none none)
    (by decide +kernel)
  obtain ⟨u', r', h'⟩ := isOk (x := computeInfluence lib Rat.sqrt (stOf lib (wholeBatch.map (scaledCall 3))) ids1 (.dict (scaledLog 3 log1)) ids1
    (.dict (scaledLog 3 log1)) .l2 true .auto none none) (by decide +kernel)
  obtain ⟨t, t', a1, a2, -, a3⟩ := C136_influence (c := none) (show (3 : Rat) ≠ 0 by decide +kernel) eighOk inverseOk eighOk inverseOk finWhole finTriple loggedWhole
    (fun m hm => by rcases keys1 m hm with rfl | rfl <;> decide +kernel) lab1 lab1 rfl (by simp) (by simp) h h' kTotal (.inl rfl)
  exact ⟨u, r, u', r', t, t', h, h', a1, a2, a3⟩

/-- Self-influence with the empirical Fisher matrix and a damping that follows the scale. -/
example : ∃ u r u' r' t t',
    computeSelf lib (stOf lib gradCalls) ids1 (.dict log1) true .raw none (some 1) = .ok (u, r) ∧
    computeSelf lib (stOf lib (gradCalls.map (scaledCall 3))) ids1 (.dict (scaledLog 3 log1)) true .raw none (some (3 ^ 2 * 1)) = .ok (u', r') ∧
    r.influence.get? kTotal = some t ∧ r'.influence.get? kTotal = some t' ∧ ∀ i, i < 2 → t.el [i] = t'.el [i] := by
  obtain ⟨u, r, h⟩ := isOk (x := computeSelf lib (stOf lib gradCalls) ids1 (.dict log1) true .raw none (some 1)) (by decide +kernel)
  obtain ⟨u', r', h'⟩ := isOk (x := computeSelf lib (stOf lib (gradCalls.map (scaledCall 3))) ids1 (.dict (scaledLog 3 log1)) true .raw none (some (3 ^ 2 * 1)))
    (by decide +kernel)
  obtain ⟨t, t', a1, a2, -, a3⟩ := C136_self (c := some 1) (show (3 : Rat) ≠ 0 by decide +kernel) eighOk inverseOk eighOk inverseOk finGrad finTripleGrad
    (.inr ⟨.inl rfl, fun m hm => by rcases keys1 m hm with rfl | rfl <;> exact ⟨List.cons_ne_nil _ _, fun c hc => .inr rfl⟩⟩)
    (fun m _ => show (0 : Rat) < 1 by decide +kernel) lab1 (by simp) (by simp) h h' kTotal (.inl rfl)
  exact ⟨u, r, u', r', t, t', h, h', a1, a2, a3⟩

end Logix.ExInfl
