/-
C121 on concrete runs.
-/
import Verif.Props.FormulaModes
import Verif.Props.FormulaExample
import Verif.Props.SessionInfluenceExample

namespace Logix.ExInfl
open Logix

/-- The hypotheses of C121 are met: the score of group `a` in mode `l2` for the first sample with itself is half of `1 * 104/2709 + 2 * 17/301`. -/
example : ∃ u r t, computeInfluence lib Rat.sqrt (stOf lib wholeBatch) ids1 (.dict log1) ids1 (.dict log1) .l2 true .auto (some [gA]) (some 1) = .ok (u, r) ∧
    r.influence.get? gA = some t ∧ t.el [0, 0] = (104 / 2709 + 2 * (17 / 301)) / 2 := by
  obtain ⟨u, r, h⟩ := isOk (x := computeInfluence lib Rat.sqrt (stOf lib wholeBatch) ids1 (.dict log1) ids1 (.dict log1) .l2 true .auto (some [gA]) (some 1))
    (by decide +kernel)
  obtain ⟨t, h1, -, h2⟩ := C121_influence eighOk inverseOk finWhole loggedWhole (by decide +kernel) lab1 lab1 rfl (by decide) (by decide) h gA (.inr (by decide))
  refine ⟨u, r, t, h, h1, ?_⟩
  rw [(((h2 0 0 (by decide) (by decide)).2.2 solKfac solKfac_solves).2 solKfac solKfac_solves).1 rfl]; decide +kernel

/-- Self-influence of group `a`. -/
example : ∃ u r t, computeSelf lib (stOf lib wholeBatch) ids1 (.dict log1) true .auto (some [gA]) (some 1) = .ok (u, r) ∧
    r.influence.get? gA = some t ∧ t.el [0] = 104 / 2709 + 2 * (17 / 301) := by
  obtain ⟨u, r, h⟩ := isOk (x := computeSelf lib (stOf lib wholeBatch) ids1 (.dict log1) true .auto (some [gA]) (some 1)) (by decide +kernel)
  obtain ⟨t, h1, -, h2⟩ := C121_self eighOk inverseOk finWhole loggedWhole (by decide +kernel) lab1 (by decide) (by decide) h gA (.inr (by decide))
  refine ⟨u, r, t, h, h1, ?_⟩
  rw [(h2 0 (by decide)).2 solKfac solKfac_solves]; decide +kernel

end Logix.ExInfl

namespace Logix.ExSess
open Spec Sess

/-- The hypotheses of C121 are met by a program: KFAC, mode `cosine`. -/
example : ∃ A B : PyStr → Tensor Rat, InputMoment EI statBody 0 (A na) ∧ OutGradMoment EI statBody 0 (B na) ∧
    ∃ u r T, computeInfluence EI.lib Rat.sqrt tInf.1.st [['x']] (.dict dInf) [['u'], ['v']] (.dict eInf) .cosine true .kfac none (some 1) = .ok (u, r) ∧
      r.influence.get? ['t', 'o', 't', 'a', 'l'] = some T ∧ ∀ x y : PyStr → List Nat → Rat, KfacSystem (entries (A na)) (entries (B na)) 1 dInf 0 na (x na) →
        KfacSystem (entries (A na)) (entries (B na)) 1 eInf 1 na (y na) → T.el [0, 1] = against x eInf 1 [na] / Rat.sqrt (against y eInf 1 [na]) := by
  obtain ⟨A, B, h1, h2⟩ := C121_kfac EI ExInfl.eighOk ExInfl.inverseOk statConf statConf_ok 1 1000 [] _ _ (.with [i1] none false) statBody ⟨[], none⟩ [na]
    (fun _ => 0) statBody_ok .kfac (by decide) conf_ok.1 conf_ok.2.1 conf_ok.2.2.1 conf_ok.2.2.2.1 (.inl rfl)
    (fun nm h => by rw [List.mem_singleton.1 h]; exact ⟨watches_ok, by decide +kernel, by decide +kernel⟩) tInf.1 run_ok
  obtain ⟨u, r, h⟩ := ExInfl.isOk (x := computeInfluence EI.lib Rat.sqrt tInf.1.st [['x']] (.dict dInf) [['u'], ['v']] (.dict eInf) .cosine true .kfac none (some 1))
    (by decide +kernel)
  obtain ⟨T, a1, -, a2⟩ := h2 dInf eInf rfl rfl _ _ labD labE 1 (by decide +kernel) none (by decide) (by decide) _ _ _ _ h _ (.inl rfl)
  have hm := h1 na (List.mem_singleton.2 rfl)
  refine ⟨A, B, hm.1, hm.2, u, r, T, h, a1, fun x y hx hy => ?_⟩
  exact (((a2 0 1 (by decide) (by decide)).2.2 x fun m hm => by rw [List.mem_singleton.1 hm]; exact hx).2 y fun m hm => by
    rw [List.mem_singleton.1 hm]; exact hy).2 rfl

/-- And with the empirical Fisher matrix, mode `l2`. -/
example : ∃ C : PyStr → Tensor Rat, BatchGradMoment EI statBody 0 (C na) ∧
    ∃ u r T, computeInfluence EI.lib Rat.sqrt tInf.1.st [['x']] (.dict dInf) [['u'], ['v']] (.dict eInf) .l2 true .auto none (some 1) = .ok (u, r) ∧
      r.influence.get? ['t', 'o', 't', 'a', 'l'] = some T ∧ ∀ x y : PyStr → List Nat → Rat, RawSystem (entries (C na)) 1 dInf 0 na (x na) →
        RawSystem (entries (C na)) 1 eInf 1 na (y na) → T.el [0, 1] = against x eInf 1 [na] - 1 / 2 * against y eInf 1 [na] := by
  obtain ⟨C, h1, h2⟩ := C121_raw EI ExInfl.eighOk ExInfl.inverseOk statConf statConf_ok 1 1000 [] _ _ (.with [i1] none false) statBody ⟨[], none⟩ [na]
    (fun _ => 0) statBody_ok .auto (by decide) conf_ok.1 conf_ok.2.1 conf_ok.2.2.2.2.1 conf_ok.2.2.2.2.2 (.inr rfl)
    (fun nm h => by rw [List.mem_singleton.1 h]; exact ⟨watches_ok, by decide +kernel⟩) tInf.1 run_ok
  obtain ⟨u, r, h⟩ := ExInfl.isOk (x := computeInfluence EI.lib Rat.sqrt tInf.1.st [['x']] (.dict dInf) [['u'], ['v']] (.dict eInf) .l2 true .auto none (some 1))
    (by decide +kernel)
  obtain ⟨T, a1, -, a2⟩ := h2 dInf eInf rfl rfl _ _ labD labE 1 (by decide +kernel) none (by decide) (by decide) _ _ _ _ h _ (.inl rfl)
  refine ⟨C, h1 na (List.mem_singleton.2 rfl), u, r, T, h, a1, fun x y hx hy => ?_⟩
  exact (((a2 0 1 (by decide) (by decide)).2.2 x fun m hm => by rw [List.mem_singleton.1 hm]; exact hx).2 y fun m hm => by
    rw [List.mem_singleton.1 hm]; exact hy).1 rfl

end Logix.ExSess
