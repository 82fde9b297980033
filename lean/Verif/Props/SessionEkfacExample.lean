/-
C138: two programs with EKFAC.
-/
import Verif.Props.SessionEkfac
import Verif.Props.SessionInfluenceExample

namespace Logix.ExSess
open Spec Sess

/-- The first program is that of C105, with covariances of `forward` and `backward`. The second logs two batches to fit the eigenvalues. -/
def ekProg : EkPrograms Rat where
  workers := 1
  threshold := 1000
  fs := []
  conf := [.setup { forward := some [.name pCov], backward := some [.name pCov] }, .alloc (inp 1), .watch [(na, 0), (nb, 1)]]
  ctx := [.call [i1] none false, .enter]
  ids := [i1]
  body := statBody
  dir := ⟨[], none⟩
  conf' := [.setup { grad := some [.name ['l', 'o', 'g'], .cls .correctedEigval] }]
  ctx' := [.call [i1] none false, .enter]
  ids' := [i1]
  mask' := none
  body' := [.alloc (inp 2), .alloc (out 6), .alloc (inp 3), .forward 0 0 1, .gradAt 1 2, .backward 1 2, .exit,
    .call [i2] none false, .enter, .alloc (out 9), .forward 0 2 3, .gradAt 3 0, .backward 3 0, .exit]
  dir' := ⟨[], none⟩

def ekT₁ : Sess Rat × Option PyErr :=
  SAct.each (SOp.run EI) (ekProg.ctx ++ ekProg.body.map (shift (ekProg.start EI).user.length) ++ [.finalize ekProg.dir]) (ekProg.start EI)
def ekS : Sess Rat := runHistory EI ekProg.conf' ekT₁.1
def ekT : Sess Rat × Option PyErr :=
  SAct.each (SOp.run EI) (ekProg.ctx' ++ ekProg.body'.map (shift ekS.user.length) ++ [.finalize ekProg.dir']) ekS

theorem ek_first : ekProg.First EI ekT₁.1 := by
  have h : ekT₁.2 = none := by decide +kernel
  change ekT₁ = (ekT₁.1, none)
  rw [← h]
theorem ek_second : ekProg.Second EI ekS ekT.1 := by
  have h : ekT.2 = none := by decide +kernel
  change ekT = (ekT.1, none)
  rw [← h]

theorem ek_fits : ekProg.Fits EI [na] (fun _ => 0) .auto ekS where
  conf := by
    simp only [ekProg, List.mem_cons, List.not_mem_nil, or_false, forall_eq_or_imp, forall_eq]
    exact ⟨trivial, trivial, trivial⟩
  ctx := .with ..
  body := statBody_ok
  only := by unfold OnlyStatistics; decide +kernel
  plain := by unfold PlainStats; decide +kernel
  forward := by decide +kernel
  backward := by decide +kernel
  hess := .inr ⟨rfl, by decide +kernel⟩
  watched := fun nm h => by rw [List.mem_singleton.1 h]; unfold Watches; decide +kernel
  called := fun _ _ => by decide +kernel
  conf' := by
    simp only [ekProg, List.mem_cons, List.not_mem_nil, or_false, forall_eq]
    exact trivial
  ctx' := .with ..
  body' := by
    simp only [ekProg, List.mem_cons, List.not_mem_nil, or_false, forall_eq_or_imp, forall_eq]
    simp [Logs]
  only' := by unfold OnlyEigenvalues; decide +kernel
  watched' := fun nm h => by rw [List.mem_singleton.1 h]; unfold Watches; decide +kernel
  called' := fun _ _ => by decide +kernel

/-- The hypotheses of C138 are met, and there are scores. -/
example : ∃ (A B : PyStr → Tensor Rat) (G : PyStr → List (Tensor Rat)),
    InputMoment EI statBody 0 (A na) ∧ OutGradMoment EI statBody 0 (B na) ∧ GradsOf EI ekProg.body' none 0 (G na) ∧
    ∃ u r T, computeInfluence EI.lib Rat.sqrt ekT.1.st [['x']] (.dict dInf) [['u'], ['v']] (.dict eInf) .dot true .auto none (some 1) = .ok (u, r) ∧
      r.influence = .one T ∧ ∃ hs ws vb vf, BasesOf A B dInf hs ws vb vf ∧ ∀ j, j < 2 → T.el [0, j] = ekScore G hs ws vb vf 1 dInf eInf 0 j := by
  obtain ⟨A, B, G, h1, h2⟩ := C138_ekfac EI ExInfl.eighOk ekProg [na] (fun _ => 0) .auto ekT₁.1 ekT.1 ek_first ek_fits ek_second
  obtain ⟨u, r, h⟩ := ExInfl.isOk (x := computeInfluence EI.lib Rat.sqrt ekT.1.st [['x']] (.dict dInf) [['u'], ['v']] (.dict eInf) .dot true .auto none (some 1))
    (by decide +kernel)
  obtain ⟨T, a1, -, -, -, ⟨hs, ws, vb, vf, b1, -, b2⟩, -⟩ := h2 dInf eInf rfl _ _ labD labE 1 (by decide +kernel) _ _ _ h
  obtain ⟨c1, c2, c3⟩ := h1 na (List.mem_singleton.2 rfl)
  exact ⟨A, B, G, c1, c2, c3, u, r, T, h, a1, hs, ws, vb, vf, b1, fun j hj => b2 0 j (by decide) hj⟩

/-- And for self-influence. -/
example : ∃ (A B : PyStr → Tensor Rat) (G : PyStr → List (Tensor Rat)) (u : LState Rat) (r : SelfResult Rat) (T : Tensor Rat),
    computeSelf EI.lib ekT.1.st [['x']] (.dict dInf) true .auto none (some 1) = .ok (u, r) ∧ r.influence.get? ['t', 'o', 't', 'a', 'l'] = some T ∧
      ∃ hs ws vb vf, BasesOf A B dInf hs ws vb vf ∧ T.el [0] = ekScore G hs ws vb vf 1 dInf dInf 0 0 := by
  obtain ⟨A, B, G, h1, h2⟩ := C138_self EI ExInfl.eighOk ekProg [na] (fun _ => 0) .auto ekT₁.1 ekT.1 ek_first ek_fits ek_second
  obtain ⟨u, r, h⟩ := ExInfl.isOk (x := computeSelf EI.lib ekT.1.st [['x']] (.dict dInf) true .auto none (some 1)) (by decide +kernel)
  obtain ⟨T, a1, -, -, ⟨hs, ws, vb, vf, b1, -, b2⟩, -⟩ := h2 dInf rfl _ labD 1 (by decide +kernel) _ _ h
  exact ⟨A, B, G, u, r, T, h, a1, hs, ws, vb, vf, b1, b2 0 (by decide)⟩

/-- The scores themselves: the gradients of the second program are `2 * 3` and `3 * 2`, so the eigenvalue is 36. -/
example : scores (computeInfluence EI.lib Rat.sqrt ekT.1.st [['x']] (.dict dInf) [['u'], ['v']] (.dict eInf) .dot true .auto none (some 1)) =
    some [2 * 5 / 37, -1 * 5 / 37] := by decide +kernel

end Logix.ExSess
