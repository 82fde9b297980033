/-
C137 from programs: a single process with one batch of two samples, and four processes that have each of the samples twice.
-/
import Verif.Props.RepeatedSession
import Verif.Props.BatchingExample

namespace Logix.ExDistSession
open Logix Spec Sess ExReturns

noncomputable section

def four : List (Process ℝ) := [p1, p2, p2, p1]

theorem four_mem {P : Process ℝ → Prop} (h1 : P p1) (h2 : P p2) : ∀ p ∈ four, P p := by
  simp only [four, List.mem_cons, List.not_mem_nil, or_false, forall_eq_or_imp, forall_eq]
  exact ⟨h1, h2, h2, h1⟩

theorem inStep4 (L : Lib ℝ) : InStep (E L) four := by
  have h : ∀ p ∈ four, p ∈ [p1, p2] := four_mem (by simp) (by simp)
  exact C129_in_step (E L) four (fun p hp p' hp' => same12 p (h p hp) p' (h p' hp')) (four_mem conf_ok conf_ok)

theorem swap4 {a b ab : Tensor ℝ} (ha : samplesOf a = [oneSample ab 1]) (hb : samplesOf b = [oneSample ab 0]) (hn : ab.size 0 = 2)
    (h : ∀ x ∈ [a, b] ++ [ab], 2 ≤ x.shape.length) : SameSamplesTimes 2 [ab] [a, b, b, a] := by
  simp only [List.mem_append, List.mem_cons, List.not_mem_nil, or_false] at h
  refine ⟨?_, ?_⟩
  · intro x hx
    simp only [List.replicate_succ, List.replicate_zero, List.flatten_cons, List.flatten_nil, List.append_nil, List.mem_append, List.mem_cons, List.not_mem_nil,
      or_false] at hx
    apply h
    tauto
  · have e : samplesOf ab = [oneSample ab 0, oneSample ab 1] := by unfold samplesOf; rw [hn]; rfl
    simp only [List.replicate_succ, List.replicate_zero, List.flatten_cons, List.flatten_nil, List.append_nil, List.flatMap_append, List.flatMap_cons,
      List.flatMap_nil, ha, hb, e]
    exact List.Perm.swap ..

theorem same_four : SameActivationsTimes 2 [nmA, nmB] mods mods [p3] four := by
  have v : ∀ {ts : List (TObj ℝ)} {n : Nat} {o : TObj ℝ}, ts[n]? = some o → Values ts [n] [o.val] := fun h => .cons ⟨_, h, rfl⟩ .nil
  have hg : SameSamplesTimes 2 [val3.val] [(val' 10).val, (val2 4).val, (val2 4).val, (val' 10).val] := swap4 rfl rfl rfl (by decide)
  refine two ⟨⟨[inp3.val], [(inp' 0 (-1)).val, (inp2 5 7).val, (inp2 5 7).val, (inp' 0 (-1)).val], ?_, ?_, ?_⟩, [val3.val], _, ?_, ?_, hg⟩
    ⟨⟨[(out3 (-1) 2).val], [(out' 2).val, (out2 (-1)).val, (out2 (-1)).val, (out' 2).val], ?_, ?_, ?_⟩, [val3.val], _, ?_, ?_, hg⟩
  · exact ⟨[[_]], .cons (v rfl) .nil, rfl⟩
  · exact ⟨[[_], [_], [_], [_]], .cons (v rfl) (.cons (v rfl) (.cons (v rfl) (.cons (v rfl) .nil))), rfl⟩
  · exact swap4 rfl rfl rfl (by decide)
  · exact ⟨[[_]], .cons (v rfl) .nil, rfl⟩
  · exact ⟨[[_], [_], [_], [_]], .cons (v rfl) (.cons (v rfl) (.cons (v rfl) (.cons (v rfl) .nil))), rfl⟩
  · exact ⟨[[_]], .cons (v rfl) .nil, rfl⟩
  · exact ⟨[[_], [_], [_], [_]], .cons (v rfl) (.cons (v rfl) (.cons (v rfl) (.cons (v rfl) .nil))), rfl⟩
  · exact swap4 rfl rfl rfl (by decide)
  · exact ⟨[[_]], .cons (v rfl) .nil, rfl⟩
  · exact ⟨[[_], [_], [_], [_]], .cons (v rfl) (.cons (v rfl) (.cons (v rfl) (.cons (v rfl) .nil))), rfl⟩

/-- The hypotheses of `C137_kfac` are met. -/
example : ∃ (t t0 t1 t2 t3 : Sess ℝ), ∀ t' ∈ [t0, t1, t2, t3], EqualScores
      (computeInfluence L0 Real.sqrt t.st [['x'], ['y']] (.dict src) [['u']] (.dict tgt) .dot true .auto none (some 1))
      (computeInfluence L0 Real.sqrt t'.st [['x'], ['y']] (.dict src) [['u']] (.dict tgt) .dot true .auto none (some 1)) := by
  obtain ⟨hE, hI, hL⟩ := lib_ok
  obtain ⟨us, ts, us', ts', _, _, _, _, -, l1, -, l2, h⟩ := C137_kfac two_ne_zero (E L0) (E L0) hE hI hL hE hI hL [nmA, nmB] mods mods lay.rows lay.cols (fun _ _ => rfl)
    [p3] four (by simp only [List.mem_cons, List.not_mem_nil, or_false, forall_eq]; exact fits3 L0) (four_mem (fits1 L0) (fits2 L0))
    (alone L0 p3) (inStep4 L0) same_four ⟨[], none⟩ ⟨[], none⟩ .auto
    (by simp only [List.mem_cons, List.not_mem_nil, or_false, forall_eq]; exact ⟨rfl, rfl⟩) (four_mem ⟨rfl, rfl⟩ ⟨rfl, rfl⟩)
    (.inr ⟨rfl, by simp only [List.mem_cons, List.not_mem_nil, or_false, forall_eq]; exact nofun, four_mem nofun nofun⟩)
    (two ⟨⟨p3, List.mem_cons_self, nofun⟩, p3, List.mem_cons_self, nofun⟩ ⟨⟨p3, List.mem_cons_self, nofun⟩, p3, List.mem_cons_self, nofun⟩)
    (two ⟨⟨p1, List.mem_cons_self, nofun⟩, p1, List.mem_cons_self, nofun⟩ ⟨⟨p1, List.mem_cons_self, nofun⟩, p1, List.mem_cons_self, nofun⟩)
  match ts, l1, ts', l2 with
  | [t], _, [t0, t1, t2, t3], _ =>
    exact ⟨t, t0, t1, t2, t3, fun t' ht' => h t (by simp) t' ht' src tgt _ _ _ _ srcLog tgtLog rfl (fun _ => Iff.rfl) 1 one_pos Real.sqrt Real.sqrt⟩

/-! Covariances of the gradients. -/

def fourR : List (Process ℝ) := [r1, r2, r2, r1]

theorem fourR_mem {P : Process ℝ → Prop} (h1 : P r1) (h2 : P r2) : ∀ p ∈ fourR, P p := by
  simp only [fourR, List.mem_cons, List.not_mem_nil, or_false, forall_eq_or_imp, forall_eq]
  exact ⟨h1, h2, h2, h1⟩

theorem same_fourR (L : Lib ℝ) : SameGradientsTimes 2 (E L) (E L) [nmA, nmB] mods mods [r3] fourR := by
  refine two ⟨[pg inp3 val3], [pg (inp' 0 (-1)) (val' 10), pg (inp2 5 7) (val2 4), pg (inp2 5 7) (val2 4), pg (inp' 0 (-1)) (val' 10)], ?_, ?_, ?_⟩
    ⟨[pg (out3 (-1) 2) val3], [pg (out' 2) (val' 10), pg (out2 (-1)) (val2 4), pg (out2 (-1)) (val2 4), pg (out' 2) (val' 10)], ?_, ?_, ?_⟩
  · exact ⟨[[_]], .cons (batchGrad_pg rfl rfl rfl) .nil, rfl⟩
  · exact ⟨[[_], [_], [_], [_]], .cons (batchGrad_pg rfl rfl rfl) (.cons (batchGrad_pg rfl rfl rfl) (.cons (batchGrad_pg rfl rfl rfl)
      (.cons (batchGrad_pg rfl rfl rfl) .nil))), rfl⟩
  · exact swap4 rfl rfl rfl (by decide)
  · exact ⟨[[_]], .cons (batchGrad_pg rfl rfl rfl) .nil, rfl⟩
  · exact ⟨[[_], [_], [_], [_]], .cons (batchGrad_pg rfl rfl rfl) (.cons (batchGrad_pg rfl rfl rfl) (.cons (batchGrad_pg rfl rfl rfl)
      (.cons (batchGrad_pg rfl rfl rfl) .nil))), rfl⟩
  · exact swap4 rfl rfl rfl (by decide)

/-- The hypotheses of `C137_raw` are met. -/
example : ∃ (t t0 t1 t2 t3 : Sess ℝ), ∀ t' ∈ [t0, t1, t2, t3], EqualScores
      (computeInfluence L0 Real.sqrt t.st [['x'], ['y']] (.dict src) [['u']] (.dict tgt) .dot true .raw none (some 1))
      (computeInfluence L0 Real.sqrt t'.st [['x'], ['y']] (.dict src) [['u']] (.dict tgt) .dot true .raw none (some 1)) := by
  obtain ⟨hE, hI, hL⟩ := lib_ok
  have hm : ∀ p ∈ fourR, p ∈ [r1, r2] := fourR_mem (by simp) (by simp)
  obtain ⟨us, ts, us', ts', _, _, _, _, -, l1, -, l2, h⟩ := C137_raw two_ne_zero (E L0) (E L0) hE hI hL hE hI hL [nmA, nmB] mods mods lay.rows lay.cols
    [r3] fourR (by simp only [List.mem_cons, List.not_mem_nil, or_false, forall_eq]; exact fitsR3 L0) (fourR_mem (fitsR L0 r1 List.mem_cons_self) (fitsR2 L0))
    (alone L0 r3) (C129_in_step (E L0) fourR (fun p hp p' hp' => same12R p (hm p hp) p' (hm p' hp')) (fourR_mem confRaw_ok confRaw_ok)) (same_fourR L0)
    ⟨[], none⟩ ⟨[], none⟩ .raw (by simp only [List.mem_cons, List.not_mem_nil, or_false, forall_eq]; rfl) (fourR_mem rfl rfl) (.inl rfl)
    (two ⟨r3, List.mem_cons_self, nofun⟩ ⟨r3, List.mem_cons_self, nofun⟩) (two ⟨r1, List.mem_cons_self, nofun⟩ ⟨r1, List.mem_cons_self, nofun⟩)
  match ts, l1, ts', l2 with
  | [t], _, [t0, t1, t2, t3], _ =>
    exact ⟨t, t0, t1, t2, t3, fun t' ht' => h t (by simp) t' ht' src tgt _ _ _ _ srcLog tgtLog rfl (fun _ => Iff.rfl) 1 one_pos Real.sqrt Real.sqrt⟩

end
end Logix.ExDistSession
