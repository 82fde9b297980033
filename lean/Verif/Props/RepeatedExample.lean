/-
C137 on concrete runs: one pass and two passes, the second in another order.
-/
import Verif.Props.Repeated
import Verif.Props.ModuleOrderExample

namespace Logix.ExInfl
open Logix Spec

theorem finTwice : Finalized lib (wholeBatch ++ wholeOther) (stOf lib (wholeBatch ++ wholeOther)) := by
  refine finalized_of (by decide +kernel) (fun pc h => ?_) (fun pc h => ?_) <;>
    simp only [wholeBatch, wholeOther, List.mem_append, List.mem_cons, List.not_mem_nil, or_false] at h <;> rcases h with (rfl | rfl | rfl | rfl) | rfl | rfl | rfl | rfl
  all_goals first | exact .inr (.inr rfl) | rfl

theorem sameTwice : SameBatchesTimes 2 wholeBatch (wholeBatch ++ wholeOther) := by
  intro m lt
  unfold callsOf
  refine List.Perm.map _ (List.Perm.filter _ ?_)
  exact List.Perm.append_left wholeBatch (List.reverse_perm wholeBatch).symm

/-- The hypotheses of C137 are met. -/
example : ∃ u r u' r' t t',
    computeInfluence lib Rat.sqrt (stOf lib wholeBatch) ids1 (.dict log1) ids1 (.dict log1) .l2 true .auto (some [nmA]) none = .ok (u, r) ∧
    computeInfluence lib Rat.sqrt (stOf lib (wholeBatch ++ wholeOther)) ids1 (.dict log1) ids1 (.dict log1) .l2 true .auto (some [nmA]) none = .ok (u', r') ∧
    r.influence.get? nmA = some t ∧ r'.influence.get? nmA = some t' ∧ ∀ i j, i < 2 → j < 2 → t.el [i, j] = t'.el [i, j] := by
  obtain ⟨u, r, h⟩ := isOk (x := computeInfluence lib Rat.sqrt (stOf lib wholeBatch) ids1 (.dict log1) ids1 (.dict log1) .l2 true .auto (some [nmA]) none)
    (by decide +kernel)
  obtain ⟨u', r', h'⟩ := isOk (x := computeInfluence lib Rat.sqrt (stOf lib (wholeBatch ++ wholeOther)) ids1 (.dict log1) ids1 (.dict log1) .l2 true .auto
    (some [nmA]) none) (by decide +kernel)
  obtain ⟨t, t', a1, a2, -, a3⟩ := C137_influence (c := none) (show 2 ≠ 0 by decide) eighOk inverseOk eighOk inverseOk finWhole finTwice sameTwice loggedWhole
    (fun m hm => by rcases keys1 m hm with rfl | rfl <;> decide +kernel) lab1 lab1 rfl (by decide) (by decide) h h' nmA (.inr (by decide))
  exact ⟨u, r, u', r', t, t', h, h', a1, a2, a3⟩

example : ∃ u r u' r' t t',
    computeSelf lib (stOf lib wholeBatch) ids1 (.dict log1) true .kfac none (some 1) = .ok (u, r) ∧
    computeSelf lib (stOf lib (wholeBatch ++ wholeOther)) ids1 (.dict log1) true .kfac none (some 1) = .ok (u', r') ∧
    r.influence.get? kTotal = some t ∧ r'.influence.get? kTotal = some t' ∧ ∀ i, i < 2 → t.el [i] = t'.el [i] := by
  obtain ⟨u, r, h⟩ := isOk (x := computeSelf lib (stOf lib wholeBatch) ids1 (.dict log1) true .kfac none (some 1)) (by decide +kernel)
  obtain ⟨u', r', h'⟩ := isOk (x := computeSelf lib (stOf lib (wholeBatch ++ wholeOther)) ids1 (.dict log1) true .kfac none (some 1)) (by decide +kernel)
  obtain ⟨t, t', a1, a2, -, a3⟩ := C137_self (c := some 1) (show 2 ≠ 0 by decide) eighOk inverseOk eighOk inverseOk finWhole finTwice sameTwice
    (loggedWhole.imp (fun h => ⟨.inl rfl, h.2⟩) fun h => absurd rfl ((h.2 nmA (by decide)).1)) (fun m _ => show (0 : Rat) < 1 by decide +kernel) lab1 (by simp) (by simp) h h' kTotal (.inl rfl)
  exact ⟨u, r, u', r', t, t', h, h', a1, a2, a3⟩

end Logix.ExInfl
