/-
C129: processes that run the same program on different data stay in step.
-/
import Verif.Lemmas.InStep
import Verif.Props.DistSession

set_option linter.unusedSectionVars false

namespace Logix
open Spec Sess
variable {K : Type} [Field K]

/-- **C129, two processes.** Two processes that run the same program, each on its own tensors, ids and masks, saving its logs or not, meet the same quantities in
the same order, if both programs run through. -/
theorem C129_same_program (E : SEnv K) (p p' : Process K) (h : SameProgram p p') (hc : ∀ o ∈ p.setup, Configures o) (u u' : Sess K) (hu : p.Runs E u)
    (hu' : p'.Runs E u') : SameQuantities u.st u'.st := by
  have hb : SameShell (p.before E) (p'.before E) := configures_shell E h.setup hc _ _ (shell_init ..)
  have hl : (p.before E).user.length = (p'.before E).user.length := congrArg Shell.users hb.shell
  have ho : List.Forall₂ SameOp (p.ctx ++ p.body.map (shift (p.before E).user.length)) (p'.ctx ++ p'.body.map (shift (p'.before E).user.length)) := by
    refine List.rel_append h.ctx ?_
    rw [← hl, List.forall₂_map_left_iff, List.forall₂_map_right_iff]
    exact h.body.imp fun _ _ ho => sameOp_shift ho _
  have := InSync.each (ho.imp fun _ _ => sim_op E) _ _ u u' hb hu hu'
  intro n hn
  simp only [List.mem_cons, List.not_mem_nil, or_false] at hn
  rcases hn with rfl | rfl
  · exact this.mean.outline
  · exact this.cov.outline

/-- **C129, any number of processes.** -/
theorem C129_in_step (E : SEnv K) (ps : List (Process K)) (h : ∀ p ∈ ps, ∀ p' ∈ ps, SameProgram p p') (hc : ∀ p ∈ ps, ∀ o ∈ p.setup, Configures o) : InStep E ps :=
  fun p hp p' hp' u u' hu hu' => C129_same_program E p p' (h p hp p' hp') (hc p hp) u u' hu hu'

/-- **C129, nothing raises.** If the program fits the tensors of every process, then no process raises, and `finalize`, run by all of them, returns everywhere.
(By `C129_in_step` also the other parts of C128 hold for such processes.) -/
theorem C129_returns (E : SEnv K) (keys : List PyStr) (mods rows cols : PyStr → Nat) (ps : List (Process K)) (hps : ∀ p ∈ ps, p.Fits E keys mods rows cols)
    (h : ∀ p ∈ ps, ∀ p' ∈ ps, SameProgram p p') (dir : StateDir K) : ∃ (us ts : List (Sess K)) (dir' : StateDir K), List.Forall₂ (Process.Runs E) ps us ∧
      finalizeSessions E us dir = .ok (ts.map (fun t => (t, none)), dir') ∧ ts.length = ps.length :=
  C128_returns E keys mods rows cols ps hps (C129_in_step E ps h fun p hp => (hps p hp).configures) dir

end Logix
