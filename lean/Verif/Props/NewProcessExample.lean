/-
C142 on the concrete program of C124.
-/
import Verif.Props.NewProcess
import Verif.Props.SessionDirectoryExample

namespace Logix.ExReturns
open Logix Spec Sess

noncomputable section

/-- The hypotheses of `C142_kfac` are met: another process computes scores of two sources against the saved sample. -/
example : ∃ (L : Lib ℝ) (t : Sess ℝ) (files : StateDir ℝ) (st : LState ℝ) (l : LogLoader) (bs : List LogBatch) (o : IFObj ℝ) (x : RRec ℝ) (T : Tensor ℝ),
    Leaves (E L) (ctx ++ body.map (shift 0)) ⟨[], none⟩ (s L) t files ∧ LState.init.loadState files = .ok st ∧
    ((Front.init t.fs 0 1 1000).buildLoader (Dict.keys t.fs) 4 false).2 = .ok l ∧ l.batches = .ok bs ∧
    computeInfluenceAll L Real.sqrt (.new st) [['x'], ['y']] (.dict src) (bs.map (LogBatch.arg ⟨(E L).encode, dec⟩)) .dot true true .auto none (some 1) =
      .ok (o, some x) ∧ (o.heap.deref x).tgtIds = [['p']] ∧ (o.heap.deref x).influence.get? ['t', 'o', 't', 'a', 'l'] = some T ∧ T.shape = [2, 1] := by
  obtain ⟨L, hE, hI, hL⟩ := exists_lib
  obtain ⟨t, files, st, A, B, h1, hst, -, h2⟩ := C142_kfac (E L) hE hI hL dec .float32 conf 1 1000 [] ctx _ (.with ..) _ mods lay body body_ok
    (savedProgram L conf_ok rfl rfl) ⟨[], none⟩ .auto (configured L) rfl rfl rfl (.inr ⟨rfl, nofun⟩) (fits L nofun) (two ⟨nofun, nofun⟩ ⟨nofun, nofun⟩)
  obtain ⟨l, bs, h3, h4, h5⟩ := h2 _ (List.Perm.refl _) 4 (by decide) (Front.init t.fs 0 1 1000) rfl rfl rfl
  obtain ⟨o, x, T, h6, -, h7, h8, h9, -⟩ := h5 _ src _ true 1 Real.sqrt srcLog rfl one_pos
  obtain ⟨u, g1, g2, -⟩ := saved
  rw [show savedBy conf ctx none body = [u] from g1] at h7 h9
  simp only [List.flatMap_cons, List.flatMap_nil, g2, List.append_nil] at h7 h9
  exact ⟨L, t, files, st, l, bs, o, x, T, h1, hst, h3, h4, h6, h7, h8, h9⟩

/-- The hypotheses of `C142_raw` are met. -/
example : ∃ (L : Lib ℝ) (t : Sess ℝ) (files : StateDir ℝ) (st : LState ℝ), Leaves (E L) (ctx ++ body.map (shift 0)) ⟨[], none⟩ (sRaw L) t files ∧
    LState.init.loadState files = .ok st := by
  obtain ⟨L, hE, hI, hL⟩ := exists_lib
  obtain ⟨t, files, st, C, h1, hst, -⟩ := C142_raw (E L) hE hI hL dec .float32 confRaw 1 1000 [] ctx _ (.with ..) _ mods lay body body_ok
    (savedProgram L confRaw_ok rfl rfl) ⟨[], none⟩ .auto (configuredRaw L) rfl (.inr rfl) (fits L nofun) (two nofun nofun)
  exact ⟨L, t, files, st, h1, hst⟩

end

end Logix.ExReturns

namespace Logix.ExInfl

/-- One source batch against a loader with one batch; the scores are saved. -/
def callAll : Spec.AllCall Rat := ⟨ids1, .dict (logB .cpu [5, 6]), [([['u']], .dict (logB .cpu [1]))], .dot, true, true, .kfac, none, some 1⟩

/-- How many source ids the saved scores have after the second call. -/
def savedTwice (x : List (Py (Option (IFResult Rat) × Option (IFResult Rat)))) : Option Nat :=
  match x with
  | [_, .ok (_, some r)] => some r.srcIds.length
  | _ => none

/-- The hypotheses of `C142_all_calls` are met by a run with fitted eigenvalues; after two calls the saved scores have the sources of both. -/
example : ∃ s' dir', stEk.finalize ⟨[], none⟩ = .ok (s', dir') ∧ (∃ u, LState.init.loadState dir' = .ok u ∧
      Spec.allAnswers lib Rat.sqrt (.new u) [callAll, callAll] = Spec.allAnswers lib Rat.sqrt (.new s') [callAll, callAll]) ∧
    savedTwice (Spec.allAnswers lib Rat.sqrt (.new s') [callAll, callAll]) = some (2 * ids1.length) := by
  obtain ⟨s', dir', h⟩ := isOk (x := stEk.finalize ⟨[], none⟩) (by decide +kernel)
  obtain ⟨u, h1, h2⟩ := C142_all_calls Rat.sqrt stEk_run h
  refine ⟨s', dir', h, ⟨u, h1, h2 _⟩, ?_⟩
  have key : ((stEk.finalize ⟨[], none⟩).toOption.map fun x =>
      decide (savedTwice (Spec.allAnswers lib Rat.sqrt (.new x.1) [callAll, callAll]) = some (2 * ids1.length))) = some true := by
    decide +kernel
  rw [h] at key
  exact of_decide_eq_true (Option.some.inj key)

end Logix.ExInfl
