/-
Cases that meet the hypotheses of C143.
-/
import Verif.Props.LoaderModes
import Verif.Props.SessionDirectoryExample

namespace Logix.ExReturns
open Spec Sess

noncomputable section

/-- The hypotheses of `C143_returns_kfac` (and so of `C143_kfac`) are met in every mode, with a group that has one of the two modules. -/
example (mode : Mode) (hm : mode = .dot ∨ mode = .l2 ∨ mode = .cosine) : ∃ (L : Lib ℝ) (t : Sess ℝ) (l : LogLoader) (bs : List LogBatch) (o : IFObj ℝ) (x : RRec ℝ) (T : Tensor ℝ),
    SAct.each (SOp.run (E L)) (ctx ++ body.map (shift 0) ++ [.finalize ⟨[], none⟩]) (s L) = (t, none) ∧
    ((Front.init t.fs 0 1 1000).buildLoader (Dict.keys t.fs) 4 false).2 = .ok l ∧ l.batches = .ok bs ∧
    computeInfluenceAll L Real.sqrt (.new t.st) [['x'], ['y']] (.dict src) (bs.map (LogBatch.arg ⟨(E L).encode, dec⟩)) mode true true .auto (some [nmB]) (some 1) =
      .ok (o, some x) ∧ (o.heap.deref x).tgtIds = [['p']] ∧ (o.heap.deref x).influence.get? nmB = some T ∧ T.shape = [2, 1] := by
  obtain ⟨L, hE, hI, hL⟩ := exists_lib
  obtain ⟨t, A, B, h1, -, h2⟩ := C143_returns_kfac (E L) hE hI hL dec .float32 conf 1 1000 [] ctx _ (.with ..) _ mods lay body body_ok (savedProgram L conf_ok rfl rfl) ⟨[], none⟩ .auto
    (configured L) rfl rfl rfl (.inr ⟨rfl, nofun⟩) (fits L nofun) (two ⟨nofun, nofun⟩ ⟨nofun, nofun⟩)
  obtain ⟨l, bs, h3, h4, h5⟩ := h2 _ (List.Perm.refl _) 4 (by decide) (Front.init t.fs 0 1 1000) rfl rfl rfl
  obtain ⟨o, x, h6, -, h7, h8⟩ := h5 (.new t.st) [] _ src _ mode true (some [nmB]) 1 Real.sqrt rfl (.new _) (.inr rfl) srcLog rfl (by simp) (by decide)
    (fun g hg => ⟨nmB, by simp, by rw [List.mem_singleton.1 hg]⟩) (hm.imp id fun h => ⟨h, rfl⟩) one_pos
  obtain ⟨T, h9, h10, -⟩ := h8 nmB (.inr (by simp))
  obtain ⟨u, g1, g2, -⟩ := saved
  rw [show savedBy conf ctx none body = [u] from g1] at h7 h10
  simp only [List.flatMap_cons, List.flatMap_nil, g2, List.append_nil] at h7 h10
  exact ⟨L, t, l, bs, o, x, T, h1, h3, h4, h6, h7, h9, h10⟩

/-- The hypotheses of `C143_returns_raw` (and so of `C143_raw`) are met. -/
example (mode : Mode) (hm : mode = .dot ∨ mode = .l2 ∨ mode = .cosine) : ∃ (L : Lib ℝ) (t : Sess ℝ) (l : LogLoader) (bs : List LogBatch) (o : IFObj ℝ) (x : RRec ℝ) (T : Tensor ℝ),
    SAct.each (SOp.run (E L)) (ctx ++ body.map (shift 0) ++ [.finalize ⟨[], none⟩]) (sRaw L) = (t, none) ∧
    ((Front.init t.fs 0 1 1000).buildLoader (Dict.keys t.fs) 4 false).2 = .ok l ∧ l.batches = .ok bs ∧
    computeInfluenceAll L Real.sqrt (.new t.st) [['x'], ['y']] (.dict src) (bs.map (LogBatch.arg ⟨(E L).encode, dec⟩)) mode true true .auto (some [nmB]) (some 1) =
      .ok (o, some x) ∧ (o.heap.deref x).tgtIds = [['p']] ∧ (o.heap.deref x).influence.get? nmB = some T ∧ T.shape = [2, 1] := by
  obtain ⟨L, hE, hI, hL⟩ := exists_lib
  obtain ⟨t, C, h1, -, h2⟩ := C143_returns_raw (E L) hE hI hL dec .float32 confRaw 1 1000 [] ctx _ (.with ..) _ mods lay body body_ok (savedProgram L confRaw_ok rfl rfl) ⟨[], none⟩ .auto
    (configuredRaw L) rfl (.inr rfl) (fits L nofun) (two nofun nofun)
  obtain ⟨l, bs, h3, h4, h5⟩ := h2 _ (List.Perm.refl _) 4 (by decide) (Front.init t.fs 0 1 1000) rfl rfl rfl
  obtain ⟨o, x, h6, -, h7, h8⟩ := h5 (.new t.st) [] _ src _ mode true (some [nmB]) 1 Real.sqrt rfl (.new _) (.inr rfl) srcLog rfl (by simp) (by decide)
    (fun g hg => ⟨nmB, by simp, by rw [List.mem_singleton.1 hg]⟩) (hm.imp id fun h => ⟨h, rfl⟩) one_pos
  obtain ⟨T, h9, h10, -⟩ := h8 nmB (.inr (by simp))
  obtain ⟨u, g1, g2, -⟩ := saved
  rw [show savedBy confRaw ctx none body = [u] from g1] at h7 h10
  simp only [List.flatMap_cons, List.flatMap_nil, g2, List.append_nil] at h7 h10
  exact ⟨L, t, l, bs, o, x, T, h1, h3, h4, h6, h7, h9, h10⟩

end
end Logix.ExReturns
