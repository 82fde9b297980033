/-
C112: scores against the log directory of a concrete session.
-/
import Verif.Props.SessionScores
import Verif.Props.SessionInfluenceExample
import Verif.Props.SessionSamplesExample

namespace Logix.ExSess
open Spec Sess

/-- The module 0 is watched, its gradients are logged, with covariances of all log types. -/
def scoreConf : List (SOp Rat) := [
  .setup { forward := some [.name pCov], backward := some [.name pCov], grad := some [.name ['l', 'o', 'g'], .name pCov] },
  .alloc (inp 1), .watch [(na, 0)]]
/-- Two batches that are saved; in the first the module is called twice. -/
def scoreBody : List (SOp Rat) := [.alloc (inp 2), .alloc (out 6), .alloc (inp 5), .alloc (inp 3), .alloc (out 9), .alloc (inp 7),
  .forward 0 0 1, .forward 0 3 4, .gradAt 4 5, .backward 4 5, .gradAt 1 2, .backward 1 2, .exit,
  .call [i2] none true, .enter, .alloc (out 9), .forward 0 3 6, .gradAt 6 5, .backward 6 5, .exit]
def tScore : Sess Rat × Option PyErr :=
  SAct.each (SOp.run EI) (saveCtx ++ scoreBody.map (shift 1) ++ [.finalize dir₀]) (runHistory EI scoreConf s₀)

theorem scoreConf_ok : ∀ o ∈ scoreConf, Configures o := by
  simp only [scoreConf, List.mem_cons, List.not_mem_nil, or_false, forall_eq_or_imp, forall_eq]
  exact ⟨trivial, trivial, trivial⟩
theorem scoreBody_ok : ∀ o ∈ scoreBody, Unmasked o ∧ ∀ nm ∈ [na], Logs nm o := by
  simp only [scoreBody, List.mem_cons, List.not_mem_nil, or_false, forall_eq_or_imp, forall_eq]
  simp [Logs, Unmasked, Masks]
theorem scoreConf_opt : OnlyStatistics (runHistory EI scoreConf s₀).opt ∧ PlainStats (runHistory EI scoreConf s₀).opt ∧
    (runHistory EI scoreConf s₀).opt.forward.count .covariance = 1 ∧ (runHistory EI scoreConf s₀).opt.backward.count .covariance = 1 ∧
    (runHistory EI scoreConf s₀).opt.grad.head? = some .log ∧ (runHistory EI scoreConf s₀).opt.grad.tail.count .covariance = 1 ∧
    Watches (runHistory EI scoreConf s₀) 0 na ∧ (runHistory EI scoreConf s₀).paths = gradOrder [na] ∧ (runHistory EI scoreConf s₀).user.length = 1 := by
  unfold OnlyStatistics PlainStats Watches; decide +kernel

theorem tScore_ok : tScore.2 = none := by decide +kernel
theorem tScore_run : SAct.each (SOp.run EI) (saveCtx ++ scoreBody.map (shift (runHistory EI scoreConf (Sess.init 1 1000 [])).user.length) ++ [.finalize dir₀])
    (runHistory EI scoreConf (Sess.init 1 1000 [])) = (tScore.1, none) := by
  rw [show (runHistory EI scoreConf (Sess.init 1 1000 [])).user.length = 1 from scoreConf_opt.2.2.2.2.2.2.2.2]
  show tScore = _
  rw [← tScore_ok]

theorem score_saved : ∃ u v : List PyStr × (Nat → List (Nat × Nat)), savedBy scoreConf saveCtx none scoreBody = [u, v] ∧ u.1 = [i1] ∧ u.2 0 = [(3, 5), (0, 2)] ∧
    v.1 = [i2] ∧ v.2 0 = [(3, 5)] := ⟨_, _, rfl, by decide +kernel, by decide +kernel, by decide +kernel, by decide +kernel⟩

theorem score_one : BatchGrad (allocs scoreBody) .linear [(3, 5)] (grd 21).val := by
  refine ⟨[(grd 21).val], .cons ⟨inp 3, inp 7, by decide +kernel, by decide +kernel, by decide +kernel⟩ .nil, ?_⟩
  refine ⟨by simp, by simp, fun idx => by simp⟩
theorem score_two : BatchGrad (allocs scoreBody) .linear [(3, 5), (0, 2)] (grd 31).val := by
  refine ⟨[(grd 21).val, (grd 10).val], .cons ⟨inp 3, inp 7, by decide +kernel, by decide +kernel, by decide +kernel⟩
    (.cons ⟨inp 2, inp 5, by decide +kernel, by decide +kernel, by decide +kernel⟩ .nil), ?_⟩
  rcases accum_none [(grd 21).val, (grd 10).val] (some (grd 31).val) (by decide +kernel) with ⟨h, -⟩ | ⟨T, h, h'⟩
  · cases h
  · rw [Option.some.inj h]; exact h'

theorem scoreProgram : StoredProgram EI dec .float32 scoreConf 1 1000 [] saveCtx none scoreBody [na] (fun _ => 0) (fun _ => [1, 1]) where
  configures := scoreConf_ok
  logs := fun o h => (scoreBody_ok o h).2
  dtype := Or.inr ⟨rfl, by decide +kernel⟩
  stats := scoreConf_opt.1
  gradients := scoreConf_opt.2.2.2.2.1
  watches := fun nm h => by rw [List.mem_singleton.1 h]; exact scoreConf_opt.2.2.2.2.2.2.1
  names := by decide
  paths := scoreConf_opt.2.2.2.2.2.2.2.1
  dims := by decide
  size := ⟨na, by decide⟩
  tidy := by
    simp only [saveCtx, scoreBody, List.cons_append, List.nil_append, Tidy]
    trivial
  storable := by
    obtain ⟨u, v, h, h1, h2, h3, h4⟩ := score_saved
    intro w hw nm hm
    rw [h] at hw
    simp only [List.mem_cons, List.not_mem_nil, or_false] at hw
    rcases hw with rfl | rfl
    · rw [h1, h2]; exact storable_of score_two rfl (by decide +kernel)
    · rw [h3, h4]; exact storable_of score_one rfl (by decide +kernel)
  ids := by
    obtain ⟨u, v, h, h1, -, h3, -⟩ := score_saved
    rw [h]; simp only [List.flatMap_cons, h1, h3]; decide
  files := by decide
  clean := by intro f hf; cases hf
  one := Nat.le_refl _

theorem score_ids : (savedBy scoreConf saveCtx none scoreBody).flatMap (·.1) = [i1, i2] := by
  obtain ⟨u, v, h, h1, -, h3, -⟩ := score_saved
  rw [h]; simp only [List.flatMap_cons, h1, h3]; rfl

def scoreFront : Front := Front.init tScore.1.fs 0 1 1000
/-- What a user gets from the loader on the directory of the run. -/
def scoreAll (hessian : Hess) (b : Nat) : Option (List PyStr × Option (List Rat)) :=
  match (scoreFront.buildLoader (Dict.keys tScore.1.fs) b false).2 with
  | .error _ => none
  | .ok l => match l.batches with
    | .error _ => none
    | .ok bs => match computeInfluenceAll EI.lib Rat.sqrt (.new tScore.1.st) [['x']] (.dict dInf) (bs.map (LogBatch.arg ⟨EI.encode, dec⟩)) .dot true true
        hessian none (some 1) with
      | .ok (o, some x) => some ((o.heap.deref x).tgtIds, ((o.heap.deref x).influence.get? ['t', 'o', 't', 'a', 'l']).map Tensor.data)
      | _ => none

/-- The scores themselves: `41 * x * 22/3 + x = 5` has the solution `3/181`, and `701 * x + x = 5` the solution `5/702`; the gradients are 31 and 21. -/
example : scoreAll .kfac 1 = some ([i1, i2], some [31 * (3 / 181), 21 * (3 / 181)]) ∧ scoreAll .kfac 2 = some ([i1, i2], some [31 * (3 / 181), 21 * (3 / 181)]) ∧
    scoreAll .auto 1 = some ([i1, i2], some [31 * (5 / 702), 21 * (5 / 702)]) := by decide +kernel

attribute [local irreducible] tScore

/-- The hypotheses of C112 are met: KFAC. -/
example : ∃ A B : PyStr → Tensor Rat, InputMoment EI scoreBody 0 (A na) ∧ OutGradMoment EI scoreBody 0 (B na) ∧
    ∃ l bs, (scoreFront.buildLoader (Dict.keys tScore.1.fs) 1 false).2 = .ok l ∧ l.batches = .ok bs ∧
      ∀ o' r, computeInfluenceAll EI.lib Rat.sqrt (.new tScore.1.st) [['x']] (.dict dInf) (bs.map (LogBatch.arg ⟨EI.encode, dec⟩)) .dot true true
          .kfac none (some 1) = .ok (o', r) →
        ∃ x T, r = some x ∧ (o'.heap.deref x).tgtIds = [i1, i2] ∧ (o'.heap.deref x).influence.get? ['t', 'o', 't', 'a', 'l'] = some T ∧
          ∀ y : PyStr → List Nat → Rat, KfacSystem (entries (A na)) (entries (B na)) 1 dInf 0 na (y na) →
            ScoredBy EI scoreBody (fun _ => 0) [na] (fun _ => [1, 1]) (savedBy scoreConf saveCtx none scoreBody) T 0 y := by
  obtain ⟨A, B, h1, h2⟩ := C112_kfac EI ExInfl.eighOk ExInfl.inverseOk dec .float32 scoreConf 1 1000 [] saveCtx [i1] (.with ..) scoreBody [na] (fun _ => 0)
    (fun _ => [1, 1]) dir₀ scoreProgram (fun o h => (scoreBody_ok o h).1) (by rw [score_ids]; decide) .kfac scoreConf_opt.2.1 scoreConf_opt.2.2.1
    scoreConf_opt.2.2.2.1 (.inl rfl) (fun nm _ => ⟨by decide +kernel, by decide +kernel⟩) tScore.1 tScore_run
  have hm := h1 na (List.mem_singleton.2 rfl)
  obtain ⟨l, bs, h3, h4, h5⟩ := h2 _ (List.Perm.refl _) 1 (by decide) scoreFront rfl rfl rfl
  refine ⟨A, B, hm.1, hm.2, l, bs, h3, h4, fun o' r h => ?_⟩
  obtain ⟨x, T, e1, -, e2, e3, -, e4⟩ := h5 (.new tScore.1.st) o' [] [['x']] dInf true 1 Rat.sqrt r rfl (.new _) labD rfl (by decide +kernel) h
  rw [score_ids] at e2
  exact ⟨x, T, e1, e2, e3, fun y hy => (e4 0 (by decide)).2 y fun m hm => by rw [List.mem_singleton.1 hm]; exact hy⟩

/-- And for the empirical Fisher matrix. -/
example : ∃ C : PyStr → Tensor Rat, BatchGradMoment EI scoreBody 0 (C na) ∧
    ∃ l bs, (scoreFront.buildLoader (Dict.keys tScore.1.fs) 1 false).2 = .ok l ∧ l.batches = .ok bs ∧
      ∀ o' r, computeInfluenceAll EI.lib Rat.sqrt (.new tScore.1.st) [['x']] (.dict dInf) (bs.map (LogBatch.arg ⟨EI.encode, dec⟩)) .dot true true
          .auto none (some 1) = .ok (o', r) →
        ∃ x T, r = some x ∧ (o'.heap.deref x).tgtIds = [i1, i2] ∧ (o'.heap.deref x).influence.get? ['t', 'o', 't', 'a', 'l'] = some T ∧
          ∀ y : PyStr → List Nat → Rat, RawSystem (entries (C na)) 1 dInf 0 na (y na) →
            ScoredBy EI scoreBody (fun _ => 0) [na] (fun _ => [1, 1]) (savedBy scoreConf saveCtx none scoreBody) T 0 y := by
  obtain ⟨C, h1, h2⟩ := C112_raw EI ExInfl.eighOk ExInfl.inverseOk dec .float32 scoreConf 1 1000 [] saveCtx [i1] (.with ..) scoreBody [na] (fun _ => 0)
    (fun _ => [1, 1]) dir₀ scoreProgram (fun o h => (scoreBody_ok o h).1) (by rw [score_ids]; decide) .auto scoreConf_opt.2.1 scoreConf_opt.2.2.2.2.2.1
    (.inr rfl) tScore.1 tScore_run (fun nm _ => by decide +kernel)
  obtain ⟨l, bs, h3, h4, h5⟩ := h2 _ (List.Perm.refl _) 1 (by decide) scoreFront rfl rfl rfl
  refine ⟨C, h1 na (List.mem_singleton.2 rfl), l, bs, h3, h4, fun o' r h => ?_⟩
  obtain ⟨x, T, e1, -, e2, e3, -, e4⟩ := h5 (.new tScore.1.st) o' [] [['x']] dInf true 1 Rat.sqrt r rfl (.new _) labD rfl (by decide +kernel) h
  rw [score_ids] at e2
  exact ⟨x, T, e1, e2, e3, fun y hy => (e4 0 (by decide)).2 y fun m hm => by rw [List.mem_singleton.1 hm]; exact hy⟩

end Logix.ExSess
