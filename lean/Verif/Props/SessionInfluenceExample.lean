/-
C106: scores after the concrete session of C105.
-/
import Verif.Props.SessionInfluence
import Verif.Props.SessionStatsExample
import Verif.Props.InflExample2

namespace Logix.ExSess
open Spec Sess

/-- The environment of the examples, with a library of linear algebra that keeps its promises. -/
def EI : SEnv Rat := { E with lib := ExInfl.lib }
def sInf : Sess Rat := runHistory EI statConf s₀
def tInf : Sess Rat × Option PyErr :=
  SAct.each (SOp.run EI) ([.call [i1] none false, .enter] ++ statBody.map (shift sInf.user.length) ++ [.finalize ⟨[], none⟩]) sInf

def dInf : GLog Rat := [(na, [(LogType.name .grad, ⟨.cpu, [1, 1, 1], [5], rfl⟩)])]
def eInf : GLog Rat := [(na, [(LogType.name .grad, ⟨.cpu, [2, 1, 1], [2, -1], rfl⟩)])]

theorem labD : Labelled [['x']] dInf := by
  refine ⟨by decide +kernel, fun m hm => ?_⟩
  simp only [dInf, Dict.keys, List.map_cons, List.map_nil, List.mem_cons, List.not_mem_nil, or_false] at hm
  subst hm; exact ⟨_, rfl, rfl⟩
theorem labE : Labelled [['u'], ['v']] eInf := by
  refine ⟨by decide +kernel, fun m hm => ?_⟩
  simp only [eInf, Dict.keys, List.map_cons, List.map_nil, List.mem_cons, List.not_mem_nil, or_false] at hm
  subst hm; exact ⟨_, rfl, rfl⟩

theorem statConf_ok : ∀ o ∈ statConf, Configures o := by
  simp only [statConf, List.mem_cons, List.not_mem_nil, or_false, forall_eq_or_imp, forall_eq]
  exact ⟨trivial, trivial, trivial⟩
theorem statBody_ok : ∀ o ∈ statBody, Unmasked o ∧ ∀ nm ∈ [na], Logs nm o := by
  simp only [statBody, List.mem_cons, List.not_mem_nil, or_false, forall_eq_or_imp, forall_eq]
  simp [Logs, Unmasked, Masks]
theorem conf_ok : OnlyStatistics sInf.opt ∧ PlainStats sInf.opt ∧ sInf.opt.forward.count .covariance = 1 ∧ sInf.opt.backward.count .covariance = 1 ∧
    sInf.opt.grad.head? = some .log ∧ sInf.opt.grad.tail.count .covariance = 1 := by unfold OnlyStatistics PlainStats; decide +kernel
theorem watches_ok : Watches sInf 0 na := by unfold Watches; decide +kernel
theorem run_ok : tInf = (tInf.1, none) := by
  have h : tInf.2 = none := by decide +kernel
  rw [← h]

/-- The hypotheses of C106 are met: KFAC. -/
example : ∃ A B : PyStr → Tensor Rat, InputMoment EI statBody 0 (A na) ∧ OutGradMoment EI statBody 0 (B na) ∧
    ∃ u r T, computeInfluence EI.lib Rat.sqrt tInf.1.st [['x']] (.dict dInf) [['u'], ['v']] (.dict eInf) .dot true .kfac none (some 1) = .ok (u, r) ∧
      r.influence = .one T ∧ ∀ x : PyStr → List Nat → Rat, KfacSystem (entries (A na)) (entries (B na)) 1 dInf 0 na (x na) →
        ∀ j, j < 2 → T.el [0, j] = against x eInf j [na] := by
  obtain ⟨A, B, h1, h2⟩ := C106_kfac EI ExInfl.eighOk ExInfl.inverseOk statConf statConf_ok 1 1000 [] _ _ (.with [i1] none false) statBody ⟨[], none⟩ [na]
    (fun _ => 0) statBody_ok .kfac conf_ok.1 conf_ok.2.1 conf_ok.2.2.1 conf_ok.2.2.2.1 (.inl rfl)
    (fun nm h => by rw [List.mem_singleton.1 h]; exact ⟨watches_ok, by decide +kernel, by decide +kernel⟩) tInf.1 run_ok
  obtain ⟨u, r, h⟩ := ExInfl.isOk (x := computeInfluence EI.lib Rat.sqrt tInf.1.st [['x']] (.dict dInf) [['u'], ['v']] (.dict eInf) .dot true .kfac none (some 1))
    (by decide +kernel)
  obtain ⟨T, a1, -, -, -, a2⟩ := h2 dInf eInf rfl _ _ labD labE 1 (by decide +kernel) _ _ _ h
  have hm := h1 na (List.mem_singleton.2 rfl)
  exact ⟨A, B, hm.1, hm.2, u, r, T, h, a1, fun x hx j hj => (a2 0 (by decide)).2 x (fun m hm => by rw [List.mem_singleton.1 hm]; exact hx) j hj⟩

/-- And for the empirical Fisher matrix. -/
example : ∃ C : PyStr → Tensor Rat, BatchGradMoment EI statBody 0 (C na) ∧
    ∃ u r T, computeInfluence EI.lib Rat.sqrt tInf.1.st [['x']] (.dict dInf) [['u'], ['v']] (.dict eInf) .dot true .auto none (some 1) = .ok (u, r) ∧
      r.influence = .one T ∧ ∀ x : PyStr → List Nat → Rat, RawSystem (entries (C na)) 1 dInf 0 na (x na) →
        ∀ j, j < 2 → T.el [0, j] = against x eInf j [na] := by
  obtain ⟨C, h1, h2⟩ := C106_raw EI ExInfl.eighOk ExInfl.inverseOk statConf statConf_ok 1 1000 [] _ _ (.with [i1] none false) statBody ⟨[], none⟩ [na]
    (fun _ => 0) statBody_ok .auto conf_ok.1 conf_ok.2.1 conf_ok.2.2.2.2.1 conf_ok.2.2.2.2.2 (.inr rfl)
    (fun nm h => by rw [List.mem_singleton.1 h]; exact ⟨watches_ok, by decide +kernel⟩) tInf.1 run_ok
  obtain ⟨u, r, h⟩ := ExInfl.isOk (x := computeInfluence EI.lib Rat.sqrt tInf.1.st [['x']] (.dict dInf) [['u'], ['v']] (.dict eInf) .dot true .auto none (some 1))
    (by decide +kernel)
  obtain ⟨T, a1, -, -, -, a2⟩ := h2 dInf eInf rfl _ _ labD labE 1 (by decide +kernel) _ _ _ h
  exact ⟨C, h1 na (List.mem_singleton.2 rfl), u, r, T, h, a1, fun x hx j hj => (a2 0 (by decide)).2 x (fun m hm => by rw [List.mem_singleton.1 hm]; exact hx) j hj⟩

def scores (x : Py (LState Rat × IFResult Rat)) : Option (List Rat) :=
  match x with
  | .ok (_, r) => match r.influence with
    | .one T => some T.data
    | _ => none
  | .error _ => none

/-- The scores themselves: `41 * x * 22/3 + x = 5` has the solution `3/181`, and `701 * x + x = 5` the solution `5/702`. -/
example : scores (computeInfluence EI.lib Rat.sqrt tInf.1.st [['x']] (.dict dInf) [['u'], ['v']] (.dict eInf) .dot true .kfac none (some 1)) =
      some [2 * (3 / 181), -1 * (3 / 181)] ∧
    scores (computeInfluence EI.lib Rat.sqrt tInf.1.st [['x']] (.dict dInf) [['u'], ['v']] (.dict eInf) .dot true .auto none (some 1)) =
      some [2 * (5 / 702), -1 * (5 / 702)] := by decide +kernel
end Logix.ExSess
