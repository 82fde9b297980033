/-
C130 on two runs with the same two samples: two processes with a batch of one each, and a single process with one batch of two, in the other order.
-/
import Verif.Props.Batching
import Verif.Props.InStepExample

namespace Logix.ExDistSession
open Logix Spec Sess ExReturns

noncomputable section

def inp3 : TObj ℝ := ⟨⟨.cpu, [2, 2], [5, 7, 0, -1], rfl⟩, .float32, false, true⟩
def val3 : TObj ℝ := ⟨⟨.cpu, [2, 1], [4, 10], rfl⟩, .float32, false, true⟩
def out3 (a b : ℝ) : TObj ℝ := ⟨⟨.cpu, [2, 1], [a, b], rfl⟩, .float32, true, false⟩
def body3 : List (SOp ℝ) := [.alloc inp3, .alloc (out3 (-1) 2), .alloc (out3 3 8), .alloc val3,
  .forward 0 0 1, .forward 1 1 2, .gradAt 2 3, .backward 2 3, .gradAt 1 3, .backward 1 3, .end true]

/-- One process with both samples in one batch. -/
def p3 : Process ℝ := ⟨3, 10, [], conf, [.start [['s'], ['r']] none], [['s'], ['r']], body3, { lay with dev := fun _ => .cpu }⟩

theorem body_ok3 : ∀ o ∈ body3, Unmasked o := by
  simp only [body3, List.mem_cons, List.not_mem_nil, or_false, forall_eq_or_imp, forall_eq]
  simp [Unmasked, Masks]

theorem fitsBody3 (L : Lib ℝ) {opt : LogOption} (ho : opt.grad ≠ []) :
    ProgramFits (E L) opt [nmA, nmB] mods p3.lay [] ⟨[['s'], ['r']], false, false⟩ (fun _ => ⟨none, [], [], []⟩) body3 := by
  refine ⟨trivial, trivial, trivial, trivial, ⟨by decide, by decide, two (fun _ => ?_) nofun⟩,
    ⟨by decide, by decide, two nofun (fun _ => ?_)⟩, two ?_ ?_, two ?_ ?_, two ?_ ?_, two ?_ ?_, fun _ => ⟨ho, two nofun nofun⟩, trivial⟩
  · exact ⟨⟨2, inp3, rfl, two_pos, ⟨rfl, [], nofun, rfl⟩, nofun⟩, _, rfl, rfl⟩
  · exact ⟨⟨2, out3 (-1) 2, rfl, two_pos, ⟨rfl, [], nofun, rfl⟩, nofun⟩, _, rfl, rfl⟩
  · exact List.forall_mem_cons.2 ⟨(fun h => absurd h (by decide)), nofun⟩
  · exact List.forall_mem_cons.2 ⟨(fun _ => ⟨out3 (-1) 2, val3, rfl, rfl, List.cons_ne_nil _ _, rfl, [], rfl, rfl⟩), nofun⟩
  · exact List.forall_mem_cons.2 ⟨(fun h => absurd h (by decide)), nofun⟩
  · exact List.forall_mem_cons.2 ⟨(fun _ => ⟨2, out3 (-1) 2, val3, rfl, rfl, two_pos, rfl, [], rfl, rfl⟩), nofun⟩
  · exact List.forall_mem_cons.2 ⟨(fun _ => ⟨inp3, val3, rfl, rfl, List.cons_ne_nil _ _, rfl, [], rfl, rfl⟩), nofun⟩
  · exact List.forall_mem_cons.2 ⟨(fun h => absurd h (by decide)), nofun⟩
  · exact List.forall_mem_cons.2 ⟨(fun _ => ⟨2, inp3, val3, rfl, rfl, two_pos, rfl, [], rfl, rfl⟩), nofun⟩
  · exact List.forall_mem_cons.2 ⟨(fun h => absurd h (by decide)), nofun⟩

theorem fits3 (L : Lib ℝ) : p3.Fits (E L) [nmA, nmB] mods lay.rows lay.cols :=
  ⟨conf_ok, .start .., body_ok3, rfl, rfl, configured2 L, fitsBody3 L nofun⟩

theorem alone (L : Lib ℝ) (p : Process ℝ) : InStep (E L) [p] := by
  intro q hq q' hq' u u' hu hu' n hn
  rw [List.mem_singleton] at hq hq'
  subst hq hq'
  obtain rfl : u = u' := congrArg Prod.fst (hu.symm.trans hu')
  rfl

theorem swap {a b ab : Tensor ℝ} (ha : samplesOf a = [oneSample ab 1]) (hb : samplesOf b = [oneSample ab 0]) (hn : ab.size 0 = 2)
    (h : ∀ x ∈ [a, b] ++ [ab], 2 ≤ x.shape.length) : SameSamples [a, b] [ab] := by
  refine ⟨h, ?_⟩
  simp only [List.flatMap_cons, List.flatMap_nil, List.append_nil, ha, hb]
  unfold samplesOf
  rw [hn]
  exact List.Perm.swap ..

theorem same_activations : SameActivations [nmA, nmB] mods mods [p1, p2] [p3] := by
  have v : ∀ {ts : List (TObj ℝ)} {n : Nat} {o : TObj ℝ}, ts[n]? = some o → Values ts [n] [o.val] := fun h => .cons ⟨_, h, rfl⟩ .nil
  have hg : SameSamples [(val' 10).val, (val2 4).val] [val3.val] := swap rfl rfl rfl (by decide)
  refine two ⟨⟨[(inp' 0 (-1)).val, (inp2 5 7).val], [inp3.val], ?_, ?_, ?_⟩, [(val' 10).val, (val2 4).val], [val3.val], ?_, ?_, hg⟩
    ⟨⟨[(out' 2).val, (out2 (-1)).val], [(out3 (-1) 2).val], ?_, ?_, ?_⟩, [(val' 10).val, (val2 4).val], [val3.val], ?_, ?_, hg⟩
  · exact ⟨[[_], [_]], .cons (v rfl) (.cons (v rfl) .nil), rfl⟩
  · exact ⟨[[_]], .cons (v rfl) .nil, rfl⟩
  · exact swap rfl rfl rfl (by decide)
  · exact ⟨[[_], [_]], .cons (v rfl) (.cons (v rfl) .nil), rfl⟩
  · exact ⟨[[_]], .cons (v rfl) .nil, rfl⟩
  · exact ⟨[[_], [_]], .cons (v rfl) (.cons (v rfl) .nil), rfl⟩
  · exact ⟨[[_]], .cons (v rfl) .nil, rfl⟩
  · exact swap rfl rfl rfl (by decide)
  · exact ⟨[[_], [_]], .cons (v rfl) (.cons (v rfl) .nil), rfl⟩
  · exact ⟨[[_]], .cons (v rfl) .nil, rfl⟩

theorem inStep12 (L : Lib ℝ) : InStep (E L) [p1, p2] := C129_in_step (E L) [p1, p2] same12 (by
  simp only [List.mem_cons, List.not_mem_nil, or_false, forall_eq_or_imp, forall_eq]
  exact ⟨conf_ok, conf_ok⟩)

/-- The hypotheses of `C130_kfac` are met. -/
example : ∃ (t0 t1 t : Sess ℝ), EqualScores
      (computeInfluence L0 Real.sqrt t0.st [['x'], ['y']] (.dict src) [['u']] (.dict tgt) .dot true .auto none (some 1))
      (computeInfluence L0 Real.sqrt t.st [['x'], ['y']] (.dict src) [['u']] (.dict tgt) .dot true .auto none (some 1)) ∧
    EqualScores (computeInfluence L0 Real.sqrt t1.st [['x'], ['y']] (.dict src) [['u']] (.dict tgt) .dot true .auto none (some 1))
      (computeInfluence L0 Real.sqrt t.st [['x'], ['y']] (.dict src) [['u']] (.dict tgt) .dot true .auto none (some 1)) := by
  obtain ⟨hE, hI, hL⟩ := lib_ok
  obtain ⟨us, ts, us', ts', _, _, _, _, -, l1, -, l2, h⟩ := C130_kfac (E L0) (E L0) hE hI hL hE hI hL [nmA, nmB] mods mods lay.rows lay.cols (fun _ _ => rfl)
    [p1, p2] [p3] (by simp only [List.mem_cons, List.not_mem_nil, or_false, forall_eq_or_imp, forall_eq]; exact ⟨fits1 L0, fits2 L0⟩)
    (by simp only [List.mem_cons, List.not_mem_nil, or_false, forall_eq]; exact fits3 L0) (inStep12 L0) (alone L0 p3) same_activations ⟨[], none⟩ ⟨[], none⟩ .auto
    (by simp only [List.mem_cons, List.not_mem_nil, or_false, forall_eq_or_imp, forall_eq]; exact ⟨⟨rfl, rfl⟩, rfl, rfl⟩)
    (by simp only [List.mem_cons, List.not_mem_nil, or_false, forall_eq]; exact ⟨rfl, rfl⟩)
    (.inr ⟨rfl, by simp only [List.mem_cons, List.not_mem_nil, or_false, forall_eq_or_imp, forall_eq]; exact ⟨nofun, nofun⟩,
      by simp only [List.mem_cons, List.not_mem_nil, or_false, forall_eq]; exact nofun⟩)
    (two ⟨⟨p1, List.mem_cons_self, nofun⟩, p1, List.mem_cons_self, nofun⟩ ⟨⟨p1, List.mem_cons_self, nofun⟩, p1, List.mem_cons_self, nofun⟩)
    (two ⟨⟨p3, List.mem_cons_self, nofun⟩, p3, List.mem_cons_self, nofun⟩ ⟨⟨p3, List.mem_cons_self, nofun⟩, p3, List.mem_cons_self, nofun⟩)
  match ts, l1, ts', l2 with
  | [t0, t1], _, [t], _ =>
    exact ⟨t0, t1, t, h t0 (by simp) t (by simp) src tgt _ _ _ _ srcLog tgtLog rfl (fun _ => Iff.rfl) 1 one_pos Real.sqrt Real.sqrt,
      h t1 (by simp) t (by simp) src tgt _ _ _ _ srcLog tgtLog rfl (fun _ => Iff.rfl) 1 one_pos Real.sqrt Real.sqrt⟩

/-! Covariances of the gradients. -/

def r2 : Process ℝ := { p2 with setup := confRaw }
def r3 : Process ℝ := { p3 with setup := confRaw }

theorem fitsR2 (L : Lib ℝ) : r2.Fits (E L) [nmA, nmB] mods lay.rows lay.cols := by
  have h := configuredRaw L
  exact ⟨confRaw_ok, .start .., body_ok2, rfl, rfl, ⟨h.stats, h.plain, h.grad, h.nonempty, h.nodup, h.watches, h.all, h.paths, h.pos⟩, fitsBody2 L nofun⟩

theorem fitsR3 (L : Lib ℝ) : r3.Fits (E L) [nmA, nmB] mods lay.rows lay.cols := by
  have h := configuredRaw L
  exact ⟨confRaw_ok, .start .., body_ok3, rfl, rfl, ⟨h.stats, h.plain, h.grad, h.nonempty, h.nodup, h.watches, h.all, h.paths, h.pos⟩, fitsBody3 L nofun⟩

theorem same12R : ∀ p ∈ [r1, r2], ∀ p' ∈ [r1, r2], SameProgram p p' := by
  have hc : List.Forall₂ SameOp confRaw confRaw := by
    have refl : ∀ o ∈ confRaw, SameOp o o := by
      simp only [confRaw, List.mem_cons, List.not_mem_nil, or_false, forall_eq_or_imp, forall_eq]
      simp [SameOp]
    exact List.forall₂_same.2 refl
  have h := same12
  simp only [List.mem_cons, List.not_mem_nil, or_false, forall_eq_or_imp, forall_eq] at h ⊢
  exact ⟨⟨⟨hc, h.1.1.2, h.1.1.3⟩, hc, h.1.2.2, h.1.2.3⟩, ⟨hc, h.2.1.2, h.2.1.3⟩, hc, h.2.2.2, h.2.2.3⟩

/-- The per-sample gradients of a linear layer. -/
def pg (x g : TObj ℝ) : Tensor ℝ := match computePerSampleGradient x.val g.val .linear with | .ok v => v | .error _ => x.val

theorem batchGrad_pg {ts : List (TObj ℝ)} {a b : Nat} {x g : TObj ℝ} (hx : ts[a]? = some x) (hg : ts[b]? = some g)
    (h : computePerSampleGradient x.val g.val .linear = .ok (pg x g)) : List.Forall₂ (BatchGrad ts .linear) [[(a, b)]] [pg x g] :=
  .cons ⟨[pg x g], .cons ⟨x, g, hx, hg, h⟩ .nil, nofun, by simp, fun idx => by simp⟩ .nil

theorem same_gradients (L : Lib ℝ) : SameGradients (E L) (E L) [nmA, nmB] mods mods [r1, r2] [r3] := by
  refine two ⟨[pg (inp' 0 (-1)) (val' 10), pg (inp2 5 7) (val2 4)], [pg inp3 val3], ?_, ?_, ?_⟩
    ⟨[pg (out' 2) (val' 10), pg (out2 (-1)) (val2 4)], [pg (out3 (-1) 2) val3], ?_, ?_, ?_⟩
  · exact ⟨[[_], [_]], .cons (batchGrad_pg rfl rfl rfl) (.cons (batchGrad_pg rfl rfl rfl) .nil), rfl⟩
  · exact ⟨[[_]], .cons (batchGrad_pg rfl rfl rfl) .nil, rfl⟩
  · exact swap rfl rfl rfl (by decide)
  · exact ⟨[[_], [_]], .cons (batchGrad_pg rfl rfl rfl) (.cons (batchGrad_pg rfl rfl rfl) .nil), rfl⟩
  · exact ⟨[[_]], .cons (batchGrad_pg rfl rfl rfl) .nil, rfl⟩
  · exact swap rfl rfl rfl (by decide)

/-- The hypotheses of `C130_raw` are met. -/
example : ∃ (t0 t1 t : Sess ℝ), EqualScores
      (computeInfluence L0 Real.sqrt t0.st [['x'], ['y']] (.dict src) [['u']] (.dict tgt) .dot true .raw none (some 1))
      (computeInfluence L0 Real.sqrt t.st [['x'], ['y']] (.dict src) [['u']] (.dict tgt) .dot true .raw none (some 1)) ∧
    EqualScores (computeInfluence L0 Real.sqrt t1.st [['x'], ['y']] (.dict src) [['u']] (.dict tgt) .dot true .raw none (some 1))
      (computeInfluence L0 Real.sqrt t.st [['x'], ['y']] (.dict src) [['u']] (.dict tgt) .dot true .raw none (some 1)) := by
  obtain ⟨hE, hI, hL⟩ := lib_ok
  obtain ⟨us, ts, us', ts', _, _, _, _, -, l1, -, l2, h⟩ := C130_raw (E L0) (E L0) hE hI hL hE hI hL [nmA, nmB] mods mods lay.rows lay.cols
    [r1, r2] [r3] (by simp only [List.mem_cons, List.not_mem_nil, or_false, forall_eq_or_imp, forall_eq]; exact ⟨fitsR L0 r1 List.mem_cons_self, fitsR2 L0⟩)
    (by simp only [List.mem_cons, List.not_mem_nil, or_false, forall_eq]; exact fitsR3 L0)
    (C129_in_step (E L0) [r1, r2] same12R (by
      simp only [List.mem_cons, List.not_mem_nil, or_false, forall_eq_or_imp, forall_eq]
      exact ⟨confRaw_ok, confRaw_ok⟩)) (alone L0 r3) (same_gradients L0) ⟨[], none⟩ ⟨[], none⟩ .raw
    (by simp only [List.mem_cons, List.not_mem_nil, or_false, forall_eq_or_imp, forall_eq]; exact ⟨rfl, rfl⟩)
    (by simp only [List.mem_cons, List.not_mem_nil, or_false, forall_eq]; rfl) (.inl rfl)
    (two ⟨r1, List.mem_cons_self, nofun⟩ ⟨r1, List.mem_cons_self, nofun⟩) (two ⟨r3, List.mem_cons_self, nofun⟩ ⟨r3, List.mem_cons_self, nofun⟩)
  match ts, l1, ts', l2 with
  | [t0, t1], _, [t], _ =>
    exact ⟨t0, t1, t, h t0 (by simp) t (by simp) src tgt _ _ _ _ srcLog tgtLog rfl (fun _ => Iff.rfl) 1 one_pos Real.sqrt Real.sqrt,
      h t1 (by simp) t (by simp) src tgt _ _ _ _ srcLog tgtLog rfl (fun _ => Iff.rfl) 1 one_pos Real.sqrt Real.sqrt⟩

end
end Logix.ExDistSession
