/-
C134: scores without damping after the concrete session of C105.
-/
import Verif.Props.DefaultDamping
import Verif.Props.SessionInfluenceExample

namespace Logix.ExSess
open Spec Sess

/-- The scores: the Hessian of KFAC is `41 * 22/3`, and that of the empirical Fisher matrix `701`; the damping is a tenth. -/
theorem default_scores : scores (computeInfluence EI.lib Rat.sqrt tInf.1.st [['x']] (.dict dInf) [['u'], ['v']] (.dict eInf) .dot true .kfac none none) =
      some [2 * (5 / (41 * (22 / 3) * (11 / 10))), -1 * (5 / (41 * (22 / 3) * (11 / 10)))] ∧
    scores (computeInfluence EI.lib Rat.sqrt tInf.1.st [['x']] (.dict dInf) [['u'], ['v']] (.dict eInf) .dot true .auto none none) =
      some [2 * (5 / (701 * (11 / 10))), -1 * (5 / (701 * (11 / 10)))] := by decide +kernel

theorem values_eq {K : Type} {tensors : List (TObj K)} {ns : List Nat} {as : List (Tensor K)} (h : Values tensors ns as) :
    as = ns.filterMap fun n => tensors[n]?.map (·.val) := by
  unfold Values at h
  induction h with
  | nil => rfl
  | cons h _ ih =>
    obtain ⟨o, h1, rfl⟩ := h
    rw [List.filterMap_cons, h1, ← ih]
    rfl

/-- The damping of KFAC in the example is positive. -/
theorem default_positive {A B : Tensor Rat} (hA : InputMoment EI statBody 0 A) (hB : OutGradMoment EI statBody 0 B) :
    0 < kfacDamping (B.size 0) (A.size 0) (entries B) (entries A) := by
  obtain ⟨xs, v, W, a1, a2, a3⟩ := hA
  obtain ⟨gs, v', W', b1, b2, b3⟩ := hB
  rw [values_eq v] at a2 a3
  rw [values_eq v'] at b2 b3
  have hW : W = 1 := (a2 ⟨.cpu, [1, 1], [2], rfl⟩ (by decide +kernel)).symm.trans (by decide +kernel)
  have hW' : W' = 1 := (b2 ⟨.cpu, [1, 1], [7], rfl⟩ (by decide +kernel)).symm.trans (by decide +kernel)
  subst hW; subst hW'
  have e1 : B.size 0 = 1 := by simp [Tensor.size, b1]
  have e2 : A.size 0 = 1 := by simp [Tensor.size, a1]
  unfold kfacDamping meanDiagonal entries
  rw [e1, e2, Finset.sum_range_one, Finset.sum_range_one, a3 0 0 (by decide) (by decide), b3 0 0 (by decide) (by decide)]
  decide +kernel

/-- The hypotheses of C134 are met: KFAC. -/
example : ∃ A B : PyStr → Tensor Rat, InputMoment EI statBody 0 (A na) ∧ OutGradMoment EI statBody 0 (B na) ∧
    ∃ u r T, computeInfluence EI.lib Rat.sqrt tInf.1.st [['x']] (.dict dInf) [['u'], ['v']] (.dict eInf) .dot true .kfac none none = .ok (u, r) ∧
      r.influence.get? ['t', 'o', 't', 'a', 'l'] = some T ∧ ∀ x : PyStr → List Nat → Rat, KfacSystem (entries (A na)) (entries (B na))
        (kfacDamping ((B na).size 0) ((A na).size 0) (entries (B na)) (entries (A na))) dInf 0 na (x na) →
        ∀ j, j < 2 → T.el [0, j] = against x eInf j [na] := by
  obtain ⟨A, B, h1, h2⟩ := C134_kfac EI ExInfl.eighOk ExInfl.inverseOk statConf statConf_ok 1 1000 [] _ _ (.with [i1] none false) statBody ⟨[], none⟩ [na]
    (fun _ => 0) statBody_ok .kfac conf_ok.1 conf_ok.2.1 conf_ok.2.2.1 conf_ok.2.2.2.1 (.inl rfl)
    (fun nm h => by rw [List.mem_singleton.1 h]; exact ⟨watches_ok, by decide +kernel, by decide +kernel⟩) tInf.1 run_ok
  obtain ⟨u, r, h⟩ := ExInfl.isOk (x := computeInfluence EI.lib Rat.sqrt tInf.1.st [['x']] (.dict dInf) [['u'], ['v']] (.dict eInf) .dot true .kfac none none)
    (by decide +kernel)
  have hm := h1 na (List.mem_singleton.2 rfl)
  obtain ⟨T, a1, -, a2⟩ := h2 dInf eInf rfl rfl _ _ labD labE na [] rfl _ rfl (default_positive hm.1 hm.2) none List.nodup_nil (by simp) _ _ _ _ h _ (.inl rfl)
  exact ⟨A, B, hm.1, hm.2, u, r, T, h, a1, fun x hx j hj => ((a2 0 j (by decide) hj).2.2 x (fun m hm => by rw [List.mem_singleton.1 hm]; exact hx)).1 rfl⟩

/-- And for the empirical Fisher matrix. -/
example : ∃ C : PyStr → Tensor Rat, BatchGradMoment EI statBody 0 (C na) ∧
    ∃ u r T, computeInfluence EI.lib Rat.sqrt tInf.1.st [['x']] (.dict dInf) [['u'], ['v']] (.dict eInf) .dot true .auto none none = .ok (u, r) ∧
      r.influence.get? ['t', 'o', 't', 'a', 'l'] = some T ∧
      ∀ x : PyStr → List Nat → Rat, RawSystem (entries (C na)) (rawDamping ((C na).size 0) (entries (C na))) dInf 0 na (x na) →
        ∀ j, j < 2 → T.el [0, j] = against x eInf j [na] := by
  obtain ⟨C, h1, h2⟩ := C134_raw EI ExInfl.eighOk ExInfl.inverseOk statConf statConf_ok 1 1000 [] _ _ (.with [i1] none false) statBody ⟨[], none⟩ [na]
    (fun _ => 0) statBody_ok .auto (by simp) conf_ok.1 conf_ok.2.1 conf_ok.2.2.2.2.1 conf_ok.2.2.2.2.2 (.inr rfl)
    (fun nm h => by rw [List.mem_singleton.1 h]; exact ⟨watches_ok, by decide +kernel⟩) tInf.1 run_ok
  obtain ⟨u, r, h⟩ := ExInfl.isOk (x := computeInfluence EI.lib Rat.sqrt tInf.1.st [['x']] (.dict dInf) [['u'], ['v']] (.dict eInf) .dot true .auto none none)
    (by decide +kernel)
  obtain ⟨T, a1, -, a2⟩ := h2 dInf eInf rfl rfl _ _ labD labE none List.nodup_nil (by simp) _ _ _ _ h _ (.inl rfl)
  exact ⟨C, h1 na (List.mem_singleton.2 rfl), u, r, T, h, a1,
    fun x hx j hj => ((a2 0 j (by decide) hj).2.2 x (fun m hm => by rw [List.mem_singleton.1 hm]; exact hx)).1 rfl⟩

end Logix.ExSess
