/-
C127: masks and the statistics of output gradients.
-/
import Verif.Props.TokenStats

set_option linter.unusedSectionVars false

namespace Logix
open Spec
variable {K : Type}

section
variable [Field K] [DecidableEq K]

/-- A batch of output gradients of a linear layer with a mask of zeros and ones over its positions. -/
def Spec.MaskedGrad (c : StatCall K) : Prop :=
  c.module = some .linear ∧ c.logType = .backward ∧ ∃ mk, c.mask = some mk ∧ TokenMask mk c.data

theorem maskedGrad_count {cs : List (StatCall K)} (h : ∀ c ∈ cs, MaskedGrad c) : (cs.map batchCount).sum = ((cs.flatMap keptRows).length : K) := by
  induction cs with
  | nil => simp
  | cons c cs ih =>
    obtain ⟨-, h2, mk, h3, h4⟩ := h c List.mem_cons_self
    have : batchCount c = ((keptRows c).length : K) := by
      unfold batchCount keptRows
      rw [h3]
      simp only
      rw [if_neg (by rw [h2]; decide), data_eq mk, count_mask _ _ fun p _ => h4.2.2 p]
      simp
    simp only [List.map_cons, List.sum_cons, List.flatMap_cons, List.length_append, Nat.cast_add, ih fun c hc => h c (List.mem_cons_of_mem _ hc), this]

/-- **C127**, covariance, as far as it holds. The covariance of `backward` is the sum of the outer products of the output gradients at *all* positions, over the number
of the unmasked positions; when the output gradients are zero at the masked positions, it is the average over the unmasked positions. -/
theorem C127_covariance_partial (L : Lib K) {calls : List (Plugin × StatCall K)} {s s' : LState K} {dir dir' : StateDir K}
    (hrun : updates L .init calls = .ok s) (hfin : s.finalize dir = .ok (s', dir')) (m : PyStr) (hne : callsOf .covariance m .backward calls ≠ [])
    (hm : ∀ c ∈ callsOf .covariance m .backward calls, MaskedGrad c) :
    ∃ T W, tensorAt s'.attrs nCov [m, LogType.name .backward] = some T ∧ T.shape = [W, W] ∧
      (∀ i j, i < W → j < W → T.el [i, j] = ((allRows (callsOf .covariance m .backward calls)).map fun r => r i * r j).sum /
        (((callsOf .covariance m .backward calls).flatMap keptRows).length : K)) ∧
      ((∀ c ∈ callsOf .covariance m .backward calls, ∀ mk, c.mask = some mk → ZeroPadded mk c.data) → ∀ i j, i < W → j < W → T.el [i, j] =
        (((callsOf .covariance m .backward calls).flatMap keptRows).map fun r => r i * r j).sum /
          (((callsOf .covariance m .backward calls).flatMap keptRows).length : K)) := by
  obtain ⟨T, W, a1, a2, -, a4⟩ := stat_finalize L statOf_cov (by decide) hrun hfin m .backward hne
  have h1 : ∀ i j, i < W → j < W → T.el [i, j] = ((allRows (callsOf .covariance m .backward calls)).map fun r => r i * r j).sum /
      (((callsOf .covariance m .backward calls).flatMap keptRows).length : K) := fun i j hi hj => by
    rw [a4 [i, j] (by simp [inRange, hi, hj]), maskedGrad_count hm]
    rfl
  refine ⟨T, W, a1, a2, h1, fun hz i j hi hj => ?_⟩
  rw [h1 i j hi hj, (padded_sum fun c hc => ⟨(hm c hc).1, (hm c hc).2.1, by
    obtain ⟨mk, h3, h4⟩ := (hm c hc).2.2
    exact ⟨mk, h3, h4, hz c hc mk h3⟩⟩).2 _ (mul_zero _)]

/-- **C127**, mean, as far as it holds. -/
theorem C127_mean_partial (L : Lib K) {calls : List (Plugin × StatCall K)} {s s' : LState K} {dir dir' : StateDir K}
    (hrun : updates L .init calls = .ok s) (hfin : s.finalize dir = .ok (s', dir')) (m : PyStr) (hne : callsOf .mean m .backward calls ≠ [])
    (hm : ∀ c ∈ callsOf .mean m .backward calls, MaskedGrad c) :
    ∃ T W, tensorAt s'.attrs nMean [m, LogType.name .backward] = some T ∧ T.shape = [W] ∧
      (∀ i, i < W → T.el [i] = ((allRows (callsOf .mean m .backward calls)).map fun r => r i).sum /
        (((callsOf .mean m .backward calls).flatMap keptRows).length : K)) ∧
      ((∀ c ∈ callsOf .mean m .backward calls, ∀ mk, c.mask = some mk → ZeroPadded mk c.data) → ∀ i, i < W → T.el [i] =
        (((callsOf .mean m .backward calls).flatMap keptRows).map fun r => r i).sum /
          (((callsOf .mean m .backward calls).flatMap keptRows).length : K)) := by
  obtain ⟨T, W, a1, a2, -, a4⟩ := stat_finalize L statOf_mean (by decide) hrun hfin m .backward hne
  have h1 : ∀ i, i < W → T.el [i] = ((allRows (callsOf .mean m .backward calls)).map fun r => r i).sum /
      (((callsOf .mean m .backward calls).flatMap keptRows).length : K) := fun i hi => by
    rw [a4 [i] (by simp [inRange, hi]), maskedGrad_count hm]
    rfl
  refine ⟨T, W, a1, a2, h1, fun hz i hi => ?_⟩
  rw [h1 i hi, (padded_sum fun c hc => ⟨(hm c hc).1, (hm c hc).2.1, by
    obtain ⟨mk, h3, h4⟩ := (hm c hc).2.2
    exact ⟨mk, h3, h4, hz c hc mk h3⟩⟩).2 _ rfl]

end

namespace ExMask

/-- Output gradients of two sequences of length two, the second with one masked position. -/
def gradBatch (a : Rat) : StatCall Rat :=
  ⟨some .linear, ExStats.nm, .backward, ⟨.cuda 0, [2, 2, 1], [1, 2, 3, a], rfl⟩, some ⟨.cuda 0, [2, 2], [1, 1, 1, 0], rfl⟩, false⟩

theorem gradBatch_masked (a : Rat) : MaskedGrad (gradBatch a) := by
  refine ⟨rfl, rfl, _, rfl, by simp [gradBatch], rfl, fun p => ?_⟩
  rw [Tensor.el]
  split
  · next h =>
    have H : ∀ p ∈ indices [2, 2], [1, 1, 1, (0 : Rat)].getD (ravel [2, 2] p) 0 = 0 ∨ [1, 1, 1, (0 : Rat)].getD (ravel [2, 2] p) 0 = 1 := by
      decide +kernel
    exact H p ((mem_indices _ _).2 h)
  · exact .inl rfl

theorem gradBatch_run (a : Rat) (T : Tensor Rat) (h : (match updates ExStats.lib .init [(.covariance, gradBatch a)] with
      | .ok s => ExStats.outcome s nCov [ExStats.nm, LogType.name .backward]
      | .error _ => none) = some T) : ∃ s s' d, updates ExStats.lib .init [(.covariance, gradBatch a)] = .ok s ∧
        s.finalize ExStats.dir = .ok (s', d) ∧ tensorAt s'.attrs nCov [ExStats.nm, LogType.name .backward] = some T := by
  split at h
  · next s hs =>
    unfold ExStats.outcome at h
    split at h
    · next s' d hd => exact ⟨s, s', d, hs, hd, h⟩
    · cases h
  · cases h

/-- The average over three tokens when the gradient is zero at the masked position. -/
example : ∃ s s' d, updates ExStats.lib .init [(.covariance, gradBatch 0)] = .ok s ∧ s.finalize ExStats.dir = .ok (s', d) ∧
    tensorAt s'.attrs nCov [ExStats.nm, LogType.name .backward] = some ⟨.cuda 0, [1, 1], [14 / 3], rfl⟩ :=
  gradBatch_run 0 _ (by decide +kernel)

end ExMask

/-- **C127** is false: a gradient at a masked position changes the covariance. -/
theorem C127_refuted :
    ¬ (∀ (L : Lib Rat) (calls : List (Plugin × StatCall Rat)) (s s' : LState Rat) (dir dir' : StateDir Rat) (m : PyStr) (T : Tensor Rat),
      updates L .init calls = .ok s → s.finalize dir = .ok (s', dir') → callsOf .covariance m .backward calls ≠ [] →
      (∀ c ∈ callsOf .covariance m .backward calls, MaskedGrad c) → tensorAt s'.attrs nCov [m, LogType.name .backward] = some T →
      ∀ i j, i < T.size 0 → j < T.size 0 → T.el [i, j] = (((callsOf .covariance m .backward calls).flatMap keptRows).map fun r => r i * r j).sum /
        (((callsOf .covariance m .backward calls).flatMap keptRows).length : Rat)) := by
  intro H
  obtain ⟨s, s', d, h1, h2, h3⟩ := ExMask.gradBatch_run 4 ⟨.cuda 0, [1, 1], [10], rfl⟩ (by decide +kernel)
  have := H ExStats.lib [(.covariance, ExMask.gradBatch 4)] s s' ExStats.dir d ExStats.nm _ h1 h2 (by decide) (by
    intro c hc
    rw [show callsOf .covariance ExStats.nm .backward [(.covariance, ExMask.gradBatch 4)] = [ExMask.gradBatch 4] from rfl, List.mem_singleton] at hc
    subst hc
    exact ExMask.gradBatch_masked 4) h3 0 0 (by decide) (by decide)
  revert this
  decide +kernel

end Logix
