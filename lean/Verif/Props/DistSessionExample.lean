/-
C128 on two concrete programs: one with two batches, saved and not saved, and one with a single batch on another device.
-/
import Verif.Props.DistSession
import Verif.Props.SessionReturnsExample

namespace Logix.ExDistSession
open Logix Spec Sess ExReturns

noncomputable section

def inp' (a b : ℝ) : TObj ℝ := ⟨⟨.cuda 1, [1, 2], [a, b], rfl⟩, .float32, false, true⟩
def val' (a : ℝ) : TObj ℝ := ⟨⟨.cuda 1, [1, 1], [a], rfl⟩, .float32, false, true⟩
def out' (a : ℝ) : TObj ℝ := ⟨⟨.cuda 1, [1, 1], [a], rfl⟩, .float32, true, false⟩
def body' : List (SOp ℝ) := [.alloc (inp' 0 (-1)), .alloc (out' 2), .alloc (out' 8), .alloc (val' 10),
  .forward 0 0 1, .forward 1 1 2, .gradAt 2 3, .backward 2 3, .gradAt 1 3, .backward 1 3, .end false]

def p0 : Process ℝ := ⟨1, 1000, [], conf, ctx, [['p']], body, lay⟩
def p1 : Process ℝ := ⟨0, 1000, [], conf, [.start [['r']] none], [['r']], body', { lay with dev := fun _ => .cuda 1 }⟩

theorem fits0 (L : Lib ℝ) : p0.Fits (E L) [nmA, nmB] mods lay.rows lay.cols :=
  ⟨conf_ok, .with .., body_ok, rfl, rfl, configured L, fits L nofun⟩

theorem configured' (L : Lib ℝ) : Configured (p1.before (E L)) [nmA, nmB] mods p1.lay := by
  have h := configured L
  exact ⟨h.stats, h.plain, h.grad, h.nonempty, h.nodup, h.watches, h.all, h.paths, h.pos⟩

theorem body_ok' : ∀ o ∈ body', Unmasked o := by
  simp only [body', List.mem_cons, List.not_mem_nil, or_false, forall_eq_or_imp, forall_eq]
  simp [Unmasked, Masks]

theorem fitsBody (L : Lib ℝ) (opt : LogOption) :
    ProgramFits (E L) opt [nmA, nmB] mods p1.lay [] ⟨[['r']], false, false⟩ (fun _ => ⟨none, [], [], []⟩) body' := by
  refine ⟨trivial, trivial, trivial, trivial, ⟨by decide, by decide, two (fun _ => ?_) nofun⟩,
    ⟨by decide, by decide, two nofun (fun _ => ?_)⟩, two ?_ ?_, two ?_ ?_, two ?_ ?_, two ?_ ?_, nofun, trivial⟩
  · exact ⟨⟨1, inp' 0 (-1), rfl, one_pos, ⟨rfl, [], nofun, rfl⟩, nofun⟩, _, rfl, rfl⟩
  · exact ⟨⟨1, out' 2, rfl, one_pos, ⟨rfl, [], nofun, rfl⟩, nofun⟩, _, rfl, rfl⟩
  · exact List.forall_mem_cons.2 ⟨(fun h => absurd h (by decide)), nofun⟩
  · exact List.forall_mem_cons.2 ⟨(fun _ => ⟨out' 2, val' 10, rfl, rfl, List.cons_ne_nil _ _, rfl, [], rfl, rfl⟩), nofun⟩
  · exact List.forall_mem_cons.2 ⟨(fun h => absurd h (by decide)), nofun⟩
  · exact List.forall_mem_cons.2 ⟨(fun _ => ⟨1, out' 2, val' 10, rfl, rfl, one_pos, rfl, [], rfl, rfl⟩), nofun⟩
  · exact List.forall_mem_cons.2 ⟨(fun _ => ⟨inp' 0 (-1), val' 10, rfl, rfl, List.cons_ne_nil _ _, rfl, [], rfl, rfl⟩), nofun⟩
  · exact List.forall_mem_cons.2 ⟨(fun h => absurd h (by decide)), nofun⟩
  · exact List.forall_mem_cons.2 ⟨(fun _ => ⟨1, inp' 0 (-1), val' 10, rfl, rfl, one_pos, rfl, [], rfl, rfl⟩), nofun⟩
  · exact List.forall_mem_cons.2 ⟨(fun h => absurd h (by decide)), nofun⟩

theorem fits1 (L : Lib ℝ) : p1.Fits (E L) [nmA, nmB] mods lay.rows lay.cols :=
  ⟨conf_ok, .start .., body_ok', rfl, rfl, configured' L, fitsBody L _⟩

def both : List (PyStr × List PyStr) :=
  [(nmA, [LogType.name .forward, LogType.name .backward]), (nmB, [LogType.name .forward, LogType.name .backward])]

/-- Library functions that keep all promises. -/
def L0 : Lib ℝ := Classical.choose exists_lib
theorem lib_ok : EighOk L0 ∧ InverseOk L0 ∧ LibTotal L0 := Classical.choose_spec exists_lib

theorem outline0 (u : Sess ℝ) (h : p0.Runs (E L0) u) :
    (Dict.get? u.st.attrs nMean).map outline = some [] ∧ (Dict.get? u.st.attrs nCov).map outline = some both := by
  unfold Process.Runs at h
  obtain rfl : _ = u := congrArg Prod.fst h
  clear h
  decide +kernel

theorem outline1 (u : Sess ℝ) (h : p1.Runs (E L0) u) :
    (Dict.get? u.st.attrs nMean).map outline = some [] ∧ (Dict.get? u.st.attrs nCov).map outline = some both := by
  unfold Process.Runs at h
  obtain rfl : _ = u := congrArg Prod.fst h
  clear h
  decide +kernel

theorem inStep : InStep (E L0) [p1, p0] := by
  have key : ∀ p ∈ [p1, p0], ∀ u, p.Runs (E L0) u →
      (Dict.get? u.st.attrs nMean).map outline = some [] ∧ (Dict.get? u.st.attrs nCov).map outline = some both := by
    simp only [List.mem_cons, List.not_mem_nil, or_false, forall_eq_or_imp, forall_eq]
    exact ⟨outline1, outline0⟩
  intro p hp p' hp' u u' hu hu' n hn
  have h1 := key p hp u hu
  have h2 := key p' hp' u' hu'
  simp only [List.mem_cons, List.not_mem_nil, or_false] at hn
  rcases hn with rfl | rfl
  · rw [h1.1, h2.1]
  · rw [h1.2, h2.2]

theorem fits01 (L : Lib ℝ) : ∀ p ∈ [p1, p0], p.Fits (E L) [nmA, nmB] mods lay.rows lay.cols := by
  simp only [List.mem_cons, List.not_mem_nil, or_false, forall_eq_or_imp, forall_eq]
  exact ⟨fits1 L, fits0 L⟩

/-- The hypotheses of `C128_kfac` are met. -/
example : ∃ (L : Lib ℝ) (us : List (Sess ℝ)) (t0 t1 : Sess ℝ) (dir' : StateDir ℝ) (u : LState ℝ) (r : IFResult ℝ) (T : Tensor ℝ),
    finalizeSessions (E L) us ⟨[], none⟩ = .ok ([(t0, none), (t1, none)], dir') ∧
    computeInfluence L Real.sqrt t1.st [['x'], ['y']] (.dict src) [['u']] (.dict tgt) .dot true .auto none (some 1) = .ok (u, r) ∧
    r.influence = .one T ∧ T.shape = [2, 1] := by
  obtain ⟨hE, hI, hL⟩ := lib_ok
  obtain ⟨us, ts, dir', -, h1, hl, h2⟩ := C128_kfac (E L0) hE hI hL [nmA, nmB] mods lay.rows lay.cols [p1, p0] (fits01 L0) inStep ⟨[], none⟩ .auto
    (by simp only [List.mem_cons, List.not_mem_nil, or_false, forall_eq_or_imp, forall_eq]; exact ⟨⟨rfl, rfl⟩, rfl, rfl⟩)
    (.inr ⟨rfl, by simp only [List.mem_cons, List.not_mem_nil, or_false, forall_eq_or_imp, forall_eq]; exact ⟨nofun, nofun⟩⟩)
    (two ⟨⟨p1, List.mem_cons_self, nofun⟩, p1, List.mem_cons_self, nofun⟩ ⟨⟨p1, List.mem_cons_self, nofun⟩, p1, List.mem_cons_self, nofun⟩)
  match ts, hl with
  | [t0, t1], _ =>
    obtain ⟨A, B, -, h3⟩ := h2 t1 (by simp)
    obtain ⟨u, r, T, h4, h5, -, -, h6, -⟩ := h3 src tgt _ _ _ _ srcLog tgtLog rfl (fun _ => Iff.rfl) 1 one_pos Real.sqrt
    exact ⟨L0, us, t0, t1, dir', u, r, T, h1, h4, h5, h6⟩

/-- The hypotheses of `C128_files` are met. -/
example : ∃ (us ts vs : List (Sess ℝ)) (dir' : StateDir ℝ), List.Forall₂ (Process.Runs (E L0)) [p1, p0] us ∧
    finalizeSessions (E L0) us ⟨[], none⟩ = .ok (ts.map (fun t => (t, none)), dir') ∧ List.Forall₂ (fun u v => Sess.finalize (E L0) ⟨[], none⟩ u = (v, none)) us vs ∧
    List.Forall₂ (fun v t => t = { v with st := t.st }) vs ts :=
  C128_files (E L0) [nmA, nmB] mods lay.rows lay.cols [p1, p0] (fits01 L0) inStep ⟨[], none⟩

/-! Covariances of the gradients. -/

def r0 : Process ℝ := { p0 with setup := confRaw }
def r1 : Process ℝ := { p1 with setup := confRaw }

theorem fitsR (L : Lib ℝ) : ∀ p ∈ [r1, r0], p.Fits (E L) [nmA, nmB] mods lay.rows lay.cols := by
  have h := configuredRaw L
  have h1 := fits1 L
  simp only [List.mem_cons, List.not_mem_nil, or_false, forall_eq_or_imp, forall_eq]
  exact ⟨⟨confRaw_ok, h1.context, h1.unmasked, rfl, rfl, ⟨h.stats, h.plain, h.grad, h.nonempty, h.nodup, h.watches, h.all, h.paths, h.pos⟩, fitsBody L _⟩,
    ⟨confRaw_ok, .with .., body_ok, rfl, rfl, h, fits L nofun⟩⟩

theorem inStepR : InStep (E L0) [r1, r0] := by
  have key : ∀ p ∈ [r1, r0], ∀ u, p.Runs (E L0) u → (Dict.get? u.st.attrs nMean).map outline = some [] ∧
      (Dict.get? u.st.attrs nCov).map outline = some [(nmB, [LogType.name .grad]), (nmA, [LogType.name .grad])] := by
    simp only [List.mem_cons, List.not_mem_nil, or_false, forall_eq_or_imp, forall_eq]
    constructor
    · intro u h
      unfold Process.Runs at h
      obtain rfl : _ = u := congrArg Prod.fst h
      clear h
      decide +kernel
    · intro u h
      unfold Process.Runs at h
      obtain rfl : _ = u := congrArg Prod.fst h
      clear h
      decide +kernel
  intro p hp p' hp' u u' hu hu' n hn
  have h1 := key p hp u hu
  have h2 := key p' hp' u' hu'
  simp only [List.mem_cons, List.not_mem_nil, or_false] at hn
  rcases hn with rfl | rfl
  · rw [h1.1, h2.1]
  · rw [h1.2, h2.2]

/-- The hypotheses of `C128_raw` are met. -/
example : ∃ (L : Lib ℝ) (us : List (Sess ℝ)) (t0 t1 : Sess ℝ) (dir' : StateDir ℝ) (u : LState ℝ) (r : IFResult ℝ) (T : Tensor ℝ),
    finalizeSessions (E L) us ⟨[], none⟩ = .ok ([(t0, none), (t1, none)], dir') ∧
    computeInfluence L Real.sqrt t1.st [['x'], ['y']] (.dict src) [['u']] (.dict tgt) .dot true .raw none (some 1) = .ok (u, r) ∧
    r.influence = .one T ∧ T.shape = [2, 1] := by
  obtain ⟨hE, hI, hL⟩ := lib_ok
  obtain ⟨us, ts, dir', -, h1, hl, h2⟩ := C128_raw (E L0) hE hI hL [nmA, nmB] mods lay.rows lay.cols [r1, r0] (fitsR L0) inStepR ⟨[], none⟩ .raw
    (by simp only [List.mem_cons, List.not_mem_nil, or_false, forall_eq_or_imp, forall_eq]; exact ⟨rfl, rfl⟩) (.inl rfl)
    (two ⟨r1, List.mem_cons_self, nofun⟩ ⟨r1, List.mem_cons_self, nofun⟩)
  match ts, hl with
  | [t0, t1], _ =>
    obtain ⟨C, -, h3⟩ := h2 t1 (by simp)
    obtain ⟨u, r, T, h4, h5, -, -, h6, -⟩ := h3 src tgt _ _ _ _ srcLog tgtLog rfl (fun _ => Iff.rfl) 1 one_pos Real.sqrt
    exact ⟨L0, us, t0, t1, dir', u, r, T, h1, h4, h5, h6⟩

end
end Logix.ExDistSession
