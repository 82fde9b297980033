/-
C122 on a concrete program, with library functions that keep all promises.
-/
import Verif.Props.SessionReturns
import Verif.Lemmas.RealLib

namespace Logix.ExReturns
open Logix Spec Sess

noncomputable section

/-- Linear layers everywhere. The numbers 5, 10 and 15 have different bytes. -/
def E (L : Lib ℝ) : SEnv ℝ where
  lib := L
  kind := fun _ => .linear
  cpuOffload := true
  dtype := none
  encode := fun d c => ⟨List.replicate d.itemsize (if c = 5 then 0 else if c = 10 then 1 else 2), List.length_replicate⟩
  failUpdate := fun _ _ s => s
  failOp := fun _ s => s

/-- The modules 0 and 1, with 2 inputs and 1 output and with 1 input and 1 output. -/
def nmA : PyStr := ['a']
def nmB : PyStr := ['b', 'b']
def mods (nm : PyStr) : Nat := nm.length - 1
def lay : Layout := ⟨fun _ => .cuda 0, fun _ => 1, fun nm => 3 - nm.length⟩

def pCov : Option (List PluginReq) := some [.name ['c', 'o', 'v', 'a', 'r', 'i', 'a', 'n', 'c', 'e']]
/-- Covariances for KFAC, and logs of the gradients. -/
def conf : List (SOp ℝ) := [.setup { forward := pCov, backward := pCov, grad := some [.name ['l', 'o', 'g']] }, .watch [(nmA, 0), (nmB, 1)]]

def inpA (a b : ℝ) : TObj ℝ := ⟨⟨.cuda 0, [1, 2], [a, b], rfl⟩, .float32, false, true⟩
def val (a : ℝ) : TObj ℝ := ⟨⟨.cuda 0, [1, 1], [a], rfl⟩, .float32, false, true⟩
def out (a : ℝ) : TObj ℝ := ⟨⟨.cuda 0, [1, 1], [a], rfl⟩, .float32, true, false⟩

/-- Two batches: the first is saved, in the second the modules are used in the other order of calls and the first module twice. -/
def body : List (SOp ℝ) := [.alloc (inpA 1 2), .alloc (out 3), .alloc (out 4), .alloc (val 5),
  .forward 0 0 1, .forward 1 1 2, .gradAt 2 3, .backward 2 3, .gradAt 1 3, .backward 1 3, .exit,
  .start [['q']] none, .alloc (out 6), .alloc (out 7),
  .forward 1 3 2, .forward 0 0 4, .forward 0 0 5, .gradAt 5 3, .backward 5 3, .gradAt 4 3, .backward 4 3, .end false]

def ctx : List (SOp ℝ) := [.call [['p']] none true, .enter]
def s (L : Lib ℝ) : Sess ℝ := runHistory (E L) conf (Sess.init 1 1000 [])

theorem conf_ok : ∀ o ∈ conf, Configures o := by
  simp only [conf, List.mem_cons, List.not_mem_nil, or_false, forall_eq_or_imp, forall_eq]
  exact ⟨trivial, trivial⟩

theorem opt_eq (L : Lib ℝ) : (s L).opt = { (s L).opt with forward := [.covariance], backward := [.covariance], grad := [.log] } := rfl
theorem modules_eq (L : Lib ℝ) : (s L).modules = [0, 1] ∧ (s L).names = [(0, nmA), (1, nmB)] ∧ (s L).paths = gradOrder [nmA, nmB] ∧ (s L).user = [] := ⟨rfl, rfl, rfl, rfl⟩

theorem configured (L : Lib ℝ) : Configured (s L) [nmA, nmB] mods lay := by
  obtain ⟨h1, h2, h3, h4⟩ := modules_eq L
  refine ⟨?_, ?_, .inr rfl, by simp, by decide, ?_, ?_, h3, ?_⟩
  · rw [opt_eq]; unfold OnlyStatistics; simp
  · rw [opt_eq]; unfold PlainStats; simp
  · unfold Watches
    rw [h1, h2]
    simp only [List.mem_cons, List.not_mem_nil, or_false, forall_eq_or_imp, forall_eq]
    decide
  · rw [h1]
    simp only [List.mem_cons, List.not_mem_nil, or_false, forall_eq_or_imp, forall_eq]
    exact ⟨⟨nmA, .inl rfl, rfl⟩, nmB, .inr rfl, rfl⟩
  · simp only [List.mem_cons, List.not_mem_nil, or_false, forall_eq_or_imp, forall_eq]
    decide

theorem two {P : PyStr → Prop} (h1 : P nmA) (h2 : P nmB) : ∀ nm ∈ [nmA, nmB], P nm := by
  intro nm hn
  rcases List.mem_cons.1 hn with rfl | hn
  · exact h1
  · rw [List.mem_singleton.1 hn]; exact h2

theorem inA (a b : ℝ) : IsInput lay nmA 1 (inpA a b).val .linear := ⟨rfl, [], nofun, rfl⟩
theorem inB (t : TObj ℝ) (h : t.val.dev = .cuda 0) (h' : t.val.shape = [1, 1]) : IsInput lay nmB 1 t.val .linear := ⟨h, [], nofun, h'⟩
theorem outA (a b g : ℝ) : IsOutGrad lay nmA 1 (inpA a b).val (val g).val .linear := ⟨rfl, [], rfl, rfl⟩
theorem outB (t : TObj ℝ) (h' : t.val.shape = [1, 1]) (g : ℝ) : IsOutGrad lay nmB 1 t.val (val g).val .linear := ⟨rfl, [], h', rfl⟩

theorem fits (L : Lib ℝ) {opt : LogOption} (ho : opt.grad ≠ []) :
    ProgramFits (E L) opt [nmA, nmB] mods lay [] ⟨[['p']], true, false⟩ (fun _ => ⟨none, [], [], []⟩) body := by
  refine ⟨trivial, trivial, trivial, trivial, ⟨by decide, by decide, two (fun _ => ?_) nofun⟩, ⟨by decide, by decide, two nofun (fun _ => ?_)⟩,
    two ?_ ?_, two ?_ ?_, two ?_ ?_, two ?_ ?_, fun _ => ⟨ho, two nofun nofun⟩, trivial, trivial, trivial,
    ⟨by decide, by decide, two nofun (fun _ => ?_)⟩, ⟨by decide, by decide, two (fun _ => ?_) nofun⟩, ⟨by decide, by decide, two (fun _ => ?_) nofun⟩,
    two ?_ ?_, two ?_ ?_, two ?_ ?_, two ?_ ?_, nofun, trivial⟩
  · exact ⟨⟨1, inpA 1 2, rfl, one_pos, inA .., nofun⟩, _, rfl, rfl⟩
  · exact ⟨⟨1, out 3, rfl, one_pos, inB _ rfl rfl, nofun⟩, _, rfl, rfl⟩
  · exact List.forall_mem_cons.2 ⟨(fun h => absurd h (by decide)), nofun⟩
  · exact List.forall_mem_cons.2 ⟨(fun _ => ⟨out 3, val 5, rfl, rfl, List.cons_ne_nil _ _, outB _ rfl 5⟩), nofun⟩
  · exact List.forall_mem_cons.2 ⟨(fun h => absurd h (by decide)), nofun⟩
  · exact List.forall_mem_cons.2 ⟨(fun _ => ⟨1, out 3, val 5, rfl, rfl, one_pos, outB _ rfl 5⟩), nofun⟩
  · exact List.forall_mem_cons.2 ⟨(fun _ => ⟨inpA 1 2, val 5, rfl, rfl, List.cons_ne_nil _ _, outA ..⟩), nofun⟩
  · exact List.forall_mem_cons.2 ⟨(fun h => absurd h (by decide)), nofun⟩
  · exact List.forall_mem_cons.2 ⟨(fun _ => ⟨1, inpA 1 2, val 5, rfl, rfl, one_pos, outA ..⟩), nofun⟩
  · exact List.forall_mem_cons.2 ⟨(fun h => absurd h (by decide)), nofun⟩
  · exact ⟨⟨1, val 5, rfl, one_pos, inB _ rfl rfl, nofun⟩, _, rfl, rfl⟩
  · exact ⟨⟨1, inpA 1 2, rfl, one_pos, inA .., nofun⟩, _, rfl, rfl⟩
  · exact ⟨⟨1, inpA 1 2, rfl, one_pos, inA .., nofun⟩, _, rfl, rfl⟩
  · exact List.forall_mem_cons.2 ⟨(fun h => absurd h (by decide)), List.forall_mem_cons.2 ⟨(fun _ => ⟨inpA 1 2, val 5, rfl, rfl, List.cons_ne_nil _ _, outA ..⟩), nofun⟩⟩
  · exact List.forall_mem_cons.2 ⟨(fun h => absurd h (by decide)), nofun⟩
  · exact List.forall_mem_cons.2 ⟨(fun h => absurd h (by decide)), List.forall_mem_cons.2 ⟨(fun h => absurd h (by decide)), List.forall_mem_cons.2 ⟨(fun _ => ⟨1, inpA 1 2, val 5, rfl, rfl, one_pos, outA ..⟩), nofun⟩⟩⟩
  · exact List.forall_mem_cons.2 ⟨(fun h => absurd h (by decide)), List.forall_mem_cons.2 ⟨(fun h => absurd h (by decide)), nofun⟩⟩
  · exact List.forall_mem_cons.2 ⟨(fun _ => ⟨inpA 1 2, val 5, rfl, rfl, List.cons_ne_nil _ _, outA ..⟩), List.forall_mem_cons.2 ⟨(fun h => absurd h (by decide)), nofun⟩⟩
  · exact List.forall_mem_cons.2 ⟨(fun h => absurd h (by decide)), nofun⟩
  · exact List.forall_mem_cons.2 ⟨(fun h => absurd h (by decide)), List.forall_mem_cons.2 ⟨(fun _ => ⟨1, inpA 1 2, val 5, rfl, rfl, one_pos, outA ..⟩), List.forall_mem_cons.2 ⟨(fun h => absurd h (by decide)), nofun⟩⟩⟩
  · exact List.forall_mem_cons.2 ⟨(fun h => absurd h (by decide)), List.forall_mem_cons.2 ⟨(fun h => absurd h (by decide)), nofun⟩⟩

theorem body_ok : ∀ o ∈ body, Unmasked o := by
  simp only [body, List.mem_cons, List.not_mem_nil, or_false, forall_eq_or_imp, forall_eq]
  simp [Unmasked, Masks]

/-- Nothing raises. -/
example (L : Lib ℝ) : ∃ t, SAct.each (SOp.run (E L)) (ctx ++ body.map (shift 0) ++ [.finalize ⟨[], none⟩]) (s L) = (t, none) :=
  C122_returns (E L) conf conf_ok 1 1000 [] ctx _ none (.with ..) _ mods lay body ⟨[], none⟩ (configured L) (fits L nofun)

def src : GLog ℝ := [(nmA, [(LogType.name .grad, ⟨.cpu, [2, 1, 2], [1, 2, 3, 4], rfl⟩)]), (nmB, [(LogType.name .grad, ⟨.cpu, [2, 1, 1], [1, 2], rfl⟩)])]
def tgt : GLog ℝ := [(nmA, [(LogType.name .grad, ⟨.cuda 0, [1, 1, 2], [0, 1], rfl⟩)]), (nmB, [(LogType.name .grad, ⟨.cuda 0, [1, 1, 1], [7], rfl⟩)])]

theorem srcLog : GradLog [['x'], ['y']] src .cpu lay.rows lay.cols := by
  refine ⟨by decide, two ⟨_, rfl, rfl, rfl⟩ ⟨_, rfl, rfl, rfl⟩, ?_, nofun, nofun⟩
  simp [src]
theorem tgtLog : GradLog [['u']] tgt (.cuda 0) lay.rows lay.cols := by
  refine ⟨by decide, two ⟨_, rfl, rfl, rfl⟩ ⟨_, rfl, rfl, rfl⟩, ?_, nofun, nofun⟩
  simp [tgt]

/-- The hypotheses of `C122_kfac` are met. -/
example : ∃ (L : Lib ℝ) (t : Sess ℝ) (u : LState ℝ) (r : IFResult ℝ) (T : Tensor ℝ),
    SAct.each (SOp.run (E L)) (ctx ++ body.map (shift 0) ++ [.finalize ⟨[], none⟩]) (s L) = (t, none) ∧
    computeInfluence L Real.sqrt t.st [['x'], ['y']] (.dict src) [['u']] (.dict tgt) .dot true .auto none (some 1) = .ok (u, r) ∧
    r.influence = .one T ∧ T.shape = [2, 1] := by
  obtain ⟨L, hE, hI, hL⟩ := exists_lib
  obtain ⟨t, A, B, h1, -, h2⟩ := C122_kfac (E L) hE hI hL conf conf_ok 1 1000 [] ctx _ (.with ..) _ mods lay body body_ok ⟨[], none⟩ .auto (configured L) rfl rfl
    (.inr ⟨rfl, nofun⟩) (fits L nofun) (two ⟨nofun, nofun⟩ ⟨nofun, nofun⟩)
  obtain ⟨u, r, T, h3, h4, -, -, h5, -⟩ := h2 src tgt _ _ _ _ srcLog tgtLog rfl (fun _ => Iff.rfl) 1 one_pos Real.sqrt
  exact ⟨L, t, u, r, T, h1, h3, h4, h5⟩

/-- Covariances of the gradients. -/
def confRaw : List (SOp ℝ) := [.setup { grad := some [.name ['l', 'o', 'g'], .cls .covariance] }, .watch [(nmA, 0), (nmB, 1)]]
def sRaw (L : Lib ℝ) : Sess ℝ := runHistory (E L) confRaw (Sess.init 1 1000 [])

theorem confRaw_ok : ∀ o ∈ confRaw, Configures o := by
  simp only [confRaw, List.mem_cons, List.not_mem_nil, or_false, forall_eq_or_imp, forall_eq]
  exact ⟨trivial, trivial⟩

theorem configuredRaw (L : Lib ℝ) : Configured (sRaw L) [nmA, nmB] mods lay := by
  have h := configured L
  refine ⟨?_, ?_, .inr rfl, h.nonempty, h.nodup, h.watches, h.all, h.paths, h.pos⟩
  · refine ⟨nofun, nofun, ?_⟩
    show Plugin.log ∉ [Plugin.covariance]
    decide
  · show ∀ p ∈ ([] ++ [] ++ [Plugin.log, Plugin.covariance]), _
    simp

/-- The hypotheses of `C122_raw` are met. -/
example : ∃ (L : Lib ℝ) (t : Sess ℝ) (u : LState ℝ) (r : IFResult ℝ) (T : Tensor ℝ),
    SAct.each (SOp.run (E L)) (ctx ++ body.map (shift 0) ++ [.finalize ⟨[], none⟩]) (sRaw L) = (t, none) ∧
    computeInfluence L Real.sqrt t.st [['x'], ['y']] (.dict src) [['u']] (.dict tgt) .dot true .raw none (some 1) = .ok (u, r) ∧
    r.influence = .one T ∧ T.shape = [2, 1] := by
  obtain ⟨L, hE, hI, hL⟩ := exists_lib
  obtain ⟨t, C, h1, -, h2⟩ := C122_raw (E L) hE hI hL confRaw confRaw_ok 1 1000 [] ctx _ (.with ..) _ mods lay body body_ok ⟨[], none⟩ .raw (configuredRaw L) rfl
    (.inl rfl) (fits L nofun) (two nofun nofun)
  obtain ⟨u, r, T, h3, h4, -, -, h5, -⟩ := h2 src tgt _ _ _ _ srcLog tgtLog rfl (fun _ => Iff.rfl) 1 one_pos Real.sqrt
  exact ⟨L, t, u, r, T, h1, h3, h4, h5⟩

end
end Logix.ExReturns
