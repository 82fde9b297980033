/-
C129 on two processes with the same program, on different devices and data.
-/
import Verif.Props.InStep
import Verif.Props.DistSessionExample

namespace Logix.ExDistSession
open Logix Spec Sess ExReturns

noncomputable section

def inp2 (a b : ℝ) : TObj ℝ := ⟨⟨.cpu, [1, 2], [a, b], rfl⟩, .float32, false, true⟩
def val2 (a : ℝ) : TObj ℝ := ⟨⟨.cpu, [1, 1], [a], rfl⟩, .float32, false, true⟩
def out2 (a : ℝ) : TObj ℝ := ⟨⟨.cpu, [1, 1], [a], rfl⟩, .float32, true, false⟩
def body2 : List (SOp ℝ) := [.alloc (inp2 5 7), .alloc (out2 (-1)), .alloc (out2 3), .alloc (val2 4),
  .forward 0 0 1, .forward 1 1 2, .gradAt 2 3, .backward 2 3, .gradAt 1 3, .backward 1 3, .end true]

/-- Another process with the program of `p1`; it saves its log. -/
def p2 : Process ℝ := ⟨3, 10, [], conf, [.start [['s']] none], [['s']], body2, { lay with dev := fun _ => .cpu }⟩

theorem configured2 (L : Lib ℝ) : Configured (p2.before (E L)) [nmA, nmB] mods p2.lay := by
  have h := configured L
  exact ⟨h.stats, h.plain, h.grad, h.nonempty, h.nodup, h.watches, h.all, h.paths, h.pos⟩

theorem body_ok2 : ∀ o ∈ body2, Unmasked o := by
  simp only [body2, List.mem_cons, List.not_mem_nil, or_false, forall_eq_or_imp, forall_eq]
  simp [Unmasked, Masks]

theorem fitsBody2 (L : Lib ℝ) {opt : LogOption} (ho : opt.grad ≠ []) :
    ProgramFits (E L) opt [nmA, nmB] mods p2.lay [] ⟨[['s']], false, false⟩ (fun _ => ⟨none, [], [], []⟩) body2 := by
  refine ⟨trivial, trivial, trivial, trivial, ⟨by decide, by decide, two (fun _ => ?_) nofun⟩,
    ⟨by decide, by decide, two nofun (fun _ => ?_)⟩, two ?_ ?_, two ?_ ?_, two ?_ ?_, two ?_ ?_, fun _ => ⟨ho, two nofun nofun⟩, trivial⟩
  · exact ⟨⟨1, inp2 5 7, rfl, one_pos, ⟨rfl, [], nofun, rfl⟩, nofun⟩, _, rfl, rfl⟩
  · exact ⟨⟨1, out2 (-1), rfl, one_pos, ⟨rfl, [], nofun, rfl⟩, nofun⟩, _, rfl, rfl⟩
  · exact List.forall_mem_cons.2 ⟨(fun h => absurd h (by decide)), nofun⟩
  · exact List.forall_mem_cons.2 ⟨(fun _ => ⟨out2 (-1), val2 4, rfl, rfl, List.cons_ne_nil _ _, rfl, [], rfl, rfl⟩), nofun⟩
  · exact List.forall_mem_cons.2 ⟨(fun h => absurd h (by decide)), nofun⟩
  · exact List.forall_mem_cons.2 ⟨(fun _ => ⟨1, out2 (-1), val2 4, rfl, rfl, one_pos, rfl, [], rfl, rfl⟩), nofun⟩
  · exact List.forall_mem_cons.2 ⟨(fun _ => ⟨inp2 5 7, val2 4, rfl, rfl, List.cons_ne_nil _ _, rfl, [], rfl, rfl⟩), nofun⟩
  · exact List.forall_mem_cons.2 ⟨(fun h => absurd h (by decide)), nofun⟩
  · exact List.forall_mem_cons.2 ⟨(fun _ => ⟨1, inp2 5 7, val2 4, rfl, rfl, one_pos, rfl, [], rfl, rfl⟩), nofun⟩
  · exact List.forall_mem_cons.2 ⟨(fun h => absurd h (by decide)), nofun⟩

theorem fits2 (L : Lib ℝ) : p2.Fits (E L) [nmA, nmB] mods lay.rows lay.cols :=
  ⟨conf_ok, .start .., body_ok2, rfl, rfl, configured2 L, fitsBody2 L nofun⟩

theorem same12 : ∀ p ∈ [p1, p2], ∀ p' ∈ [p1, p2], SameProgram p p' := by
  have refl : ∀ o ∈ conf, SameOp o o := by
    simp only [conf, List.mem_cons, List.not_mem_nil, or_false, forall_eq_or_imp, forall_eq]
    simp [SameOp]
  have hc : List.Forall₂ SameOp conf conf := by
    have : ∀ l : List (SOp ℝ), (∀ o ∈ l, SameOp o o) → List.Forall₂ SameOp l l := fun l h => List.forall₂_same.2 h
    exact this _ refl
  simp only [List.mem_cons, List.not_mem_nil, or_false, forall_eq_or_imp, forall_eq]
  refine ⟨⟨⟨hc, ?_, ?_⟩, hc, ?_, ?_⟩, ⟨hc, ?_, ?_⟩, hc, ?_, ?_⟩ <;> simp [p1, p2, body', body2, SameOp]

/-- The hypotheses of `C129_same_program` and `C129_in_step` are met. -/
example (L : Lib ℝ) : InStep (E L) [p1, p2] := C129_in_step (E L) [p1, p2] same12 (by
  simp only [List.mem_cons, List.not_mem_nil, or_false, forall_eq_or_imp, forall_eq]
  exact ⟨conf_ok, conf_ok⟩)

/-- The hypotheses of `C129_returns` are met. -/
example (L : Lib ℝ) : ∃ (us ts : List (Sess ℝ)) (dir' : StateDir ℝ), List.Forall₂ (Process.Runs (E L)) [p1, p2] us ∧
    finalizeSessions (E L) us ⟨[], none⟩ = .ok (ts.map (fun t => (t, none)), dir') ∧ ts.length = 2 :=
  C129_returns (E L) [nmA, nmB] mods lay.rows lay.cols [p1, p2]
    (by simp only [List.mem_cons, List.not_mem_nil, or_false, forall_eq_or_imp, forall_eq]; exact ⟨fits1 L, fits2 L⟩) same12 ⟨[], none⟩

end
end Logix.ExDistSession
