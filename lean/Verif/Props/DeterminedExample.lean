/-
C93 on concrete runs: two libraries that pick different eigenvectors, and two ways of logging the same data.
-/
import Verif.Props.Determined
import Verif.Props.InflExample2

namespace Logix.ExInfl
open Logix

/-- Other candidates for the eigenvectors: those of `bases` in another order and with another sign. -/
def basesAlt (dev : Dev) (n : Nat) : List (Tensor Rat) :=
  [Tensor.ofFn2 dev n n fun i j => if i + j + 1 = n then -1 else 0, ⟨dev, [2, 2], [4 / 5, 3 / 5, -3 / 5, 4 / 5], rfl⟩]

def eighAlt (x : Tensor Rat) : Py (Tensor Rat × Tensor Rat) :=
  match (basesAlt x.dev (x.size 0)).find? fun v => eigCheck x (ritz x v (x.size 0)) v (x.size 0) with
  | some v => .ok (ritz x v (x.size 0), v)
  | none => .error .runtimeError

def libAlt : Lib Rat := ⟨eighAlt, inverse⟩

theorem eighOkAlt : Spec.EighOk libAlt := by
  intro x n hx w v h
  have hn : x.size 0 = n := by simp [Tensor.size, hx.1]
  have h : eighAlt x = .ok (w, v) := h
  unfold eighAlt at h
  rw [hn] at h
  split at h
  · next v' hv =>
    cases h
    have := List.find?_some hv
    simp only [eigCheck, decide_eq_true_eq] at this
    obtain ⟨h1, h2, h3, h4, h5, h6, h7⟩ := this
    exact ⟨⟨h1, h2, fun i a hi ha => h5 i hi a ha, fun i j hi hj => h6 i hi j hj, fun a b ha hb => h7 a ha b hb⟩, h3, h4⟩
  · cases h

def fA (n : Nat) (xs : List Rat) (h : xs.length = numel [n, 2]) : Plugin × StatCall Rat := (.covariance, ⟨some .linear, nmA, .forward, ⟨.cpu, [n, 2], xs, h⟩, none, false⟩)
def bA : Plugin × StatCall Rat := (.covariance, ⟨some .linear, nmA, .backward, ⟨.cpu, [2, 1], [1, 2], rfl⟩, none, false⟩)
def fB : Plugin × StatCall Rat := (.covariance, ⟨some .linear, nmB, .forward, ⟨.cpu, [2, 1], [1, 1], rfl⟩, none, false⟩)
def bB : Plugin × StatCall Rat := (.covariance, ⟨some .linear, nmB, .backward, ⟨.cpu, [2, 1], [1, 3], rfl⟩, none, false⟩)

/-- All data in one batch per quantity. -/
def wholeBatch : List (Plugin × StatCall Rat) := [fA 2 [3, 4, -8, 6] rfl, bA, fB, bB]

/-- The activations of `e.a` in two batches and in the opposite order. -/
def splitBatches : List (Plugin × StatCall Rat) := [fA 1 [-8, 6] rfl, bB, fB, fA 1 [3, 4] rfl, bA]

def stOf (L : Lib Rat) (calls : List (Plugin × StatCall Rat)) : LState Rat :=
  match updates L .init calls with
  | .ok s₀ => match s₀.finalize ⟨[], none⟩ with
    | .ok (s, _) => s
    | .error _ => .init
  | .error _ => .init

theorem finalized_of {L : Lib Rat} {calls : List (Plugin × StatCall Rat)}
    (h : ((updates L .init calls).toOption.bind fun s₀ => (s₀.finalize ⟨[], none⟩).toOption).isSome = true)
    (hp : ∀ pc ∈ calls, pc.1 = .log ∨ pc.1 = .mean ∨ pc.1 = .covariance) (hm : ∀ pc ∈ calls, pc.2.mask = none) :
    Spec.Finalized L calls (stOf L calls) := by
  refine ⟨hp, fun pc hpc m hm' => absurd ((hm pc hpc).symm.trans hm') (by simp), ?_⟩
  unfold stOf
  cases hu : updates L .init calls with
  | error e => rw [hu] at h; cases h
  | ok s₀ =>
    rw [hu] at h
    simp only [Except.toOption, Option.bind] at h
    cases hf : s₀.finalize ⟨[], none⟩ with
    | error e => rw [hf] at h; cases h
    | ok x => exact ⟨s₀, ⟨[], none⟩, x.2, rfl, by simp only [hf]⟩

theorem finWhole : Spec.Finalized lib wholeBatch (stOf lib wholeBatch) :=
  finalized_of (by decide +kernel) (by intro pc h; simp only [wholeBatch, List.mem_cons, List.not_mem_nil, or_false] at h; rcases h with rfl | rfl | rfl | rfl <;> exact .inr (.inr rfl))
    (by intro pc h; simp only [wholeBatch, List.mem_cons, List.not_mem_nil, or_false] at h; rcases h with rfl | rfl | rfl | rfl <;> rfl)

theorem finSplit : Spec.Finalized libAlt splitBatches (stOf libAlt splitBatches) :=
  finalized_of (by decide +kernel)
    (by intro pc h; simp only [splitBatches, List.mem_cons, List.not_mem_nil, or_false] at h; rcases h with rfl | rfl | rfl | rfl | rfl <;> exact .inr (.inr rfl))
    (by intro pc h; simp only [splitBatches, List.mem_cons, List.not_mem_nil, or_false] at h; rcases h with rfl | rfl | rfl | rfl | rfl <;> rfl)

theorem el_ge {dev : Dev} {n w : Nat} {xs : List Rat} {h : xs.length = numel [n, w]} {i j : Nat} (hj : w ≤ j) : (⟨dev, [n, w], xs, h⟩ : Tensor Rat).el [i, j] = 0 := by
  unfold Tensor.el
  rw [if_neg]
  simp [inRange, Nat.not_lt.2 hj]

theorem sameData12 : Spec.SameStatData wholeBatch splitBatches (Dict.keys log1) .auto := by
  refine .inl ⟨.inr ⟨rfl, fun m hm => ?_⟩, fun m hm => ?_⟩
  · rcases keys1 m hm with rfl | rfl <;> exact ⟨rfl, rfl⟩
  · rcases keys1 m hm with rfl | rfl
    · refine ⟨⟨⟨by exact List.cons_ne_nil _ _, by exact List.cons_ne_nil _ _⟩, ?_, ?_, ?_, rfl⟩, ⟨⟨by exact List.cons_ne_nil _ _, by exact List.cons_ne_nil _ _⟩, ?_, .refl _, ?_, rfl⟩⟩
      · show ∀ c ∈ [(fA 2 [3, 4, -8, 6] rfl).2, (fA 1 [-8, 6] rfl).2, (fA 1 [3, 4] rfl).2], _
        intro c hc
        simp only [List.mem_cons, List.not_mem_nil, or_false] at hc
        rcases hc with rfl | rfl | rfl <;> exact .inl rfl
      · show List.Perm [fun j => (fA 2 [3, 4, -8, 6] rfl).2.data.el [0, j], fun j => (fA 2 [3, 4, -8, 6] rfl).2.data.el [1, j]]
          [fun j => (fA 1 [-8, 6] rfl).2.data.el [0, j], fun j => (fA 1 [3, 4] rfl).2.data.el [0, j]]
        have e1 : (fun j => (fA 1 [-8, 6] rfl).2.data.el [0, j]) = fun j => (fA 2 [3, 4, -8, 6] rfl).2.data.el [1, j] := by
          funext j
          match j with
          | 0 => rfl
          | 1 => rfl
          | j + 2 => exact (el_ge (by omega)).trans (el_ge (by omega)).symm
        have e2 : (fun j => (fA 1 [3, 4] rfl).2.data.el [0, j]) = fun j => (fA 2 [3, 4, -8, 6] rfl).2.data.el [0, j] := by
          funext j
          match j with
          | 0 => rfl
          | 1 => rfl
          | j + 2 => exact (el_ge (by omega)).trans (el_ge (by omega)).symm
        rw [e1, e2]
        exact .swap _ _ _
      · show ∀ c ∈ [(fA 2 [3, 4, -8, 6] rfl).2], ∀ c' ∈ [(fA 1 [-8, 6] rfl).2, (fA 1 [3, 4] rfl).2], _
        intro c hc c' hc'
        simp only [List.mem_cons, List.not_mem_nil, or_false] at hc hc'
        rcases hc with rfl
        rcases hc' with rfl | rfl <;> rfl
      · show ∀ c ∈ [bA.2, bA.2], _
        intro c hc
        simp only [List.mem_cons, List.not_mem_nil, or_false, or_self] at hc
        rcases hc with rfl; exact .inl rfl
      · show ∀ c ∈ [bA.2], ∀ c' ∈ [bA.2], _
        intro c hc c' hc'
        simp only [List.mem_cons, List.not_mem_nil, or_false] at hc hc'
        subst hc; subst hc'; rfl
    · refine ⟨⟨⟨by exact List.cons_ne_nil _ _, by exact List.cons_ne_nil _ _⟩, ?_, .refl _, ?_, rfl⟩, ⟨⟨by exact List.cons_ne_nil _ _, by exact List.cons_ne_nil _ _⟩, ?_, .refl _, ?_, rfl⟩⟩
      · show ∀ c ∈ [fB.2, fB.2], _
        intro c hc
        simp only [List.mem_cons, List.not_mem_nil, or_false, or_self] at hc
        rcases hc with rfl; exact .inl rfl
      · show ∀ c ∈ [fB.2], ∀ c' ∈ [fB.2], _
        intro c hc c' hc'
        simp only [List.mem_cons, List.not_mem_nil, or_false] at hc hc'
        subst hc; subst hc'; rfl
      · show ∀ c ∈ [bB.2, bB.2], _
        intro c hc
        simp only [List.mem_cons, List.not_mem_nil, or_false, or_self] at hc
        rcases hc with rfl; exact .inl rfl
      · show ∀ c ∈ [bB.2], ∀ c' ∈ [bB.2], _
        intro c hc c' hc'
        simp only [List.mem_cons, List.not_mem_nil, or_false] at hc hc'
        subst hc; subst hc'; rfl

/-- The eigenvectors are not the same. -/
example : ((lib.eigh (covAt nmA (LogType.name .forward))).toOption.map fun x => x.2.data) = some [3 / 5, -4 / 5, 4 / 5, 3 / 5] ∧
    ((libAlt.eigh (covAt nmA (LogType.name .forward))).toOption.map fun x => x.2.data) = some [4 / 5, 3 / 5, -3 / 5, 4 / 5] := by decide +kernel

/-- The hypotheses of C93 are met in the mode `l2` with a group, and the scores are not trivial. -/
example : ∃ u r u' r',
    computeInfluence lib Rat.sqrt (stOf lib wholeBatch) ids1 (.dict log1) ids1 (.dict log1) .l2 true .auto (some [['b']]) (some 1) = .ok (u, r) ∧
    computeInfluence libAlt Rat.sqrt (stOf libAlt splitBatches) ids1 (.dict log1) ids1 (.dict log1) .l2 true .auto (some [['b']]) (some 1) = .ok (u', r') ∧
    ∃ t, r.influence.get? kTotal = some t ∧ r'.influence.get? kTotal = some t := by
  obtain ⟨u, r, h⟩ := isOk (x := computeInfluence lib Rat.sqrt (stOf lib wholeBatch) ids1 (.dict log1) ids1 (.dict log1) .l2 true .auto (some [['b']]) (some 1))
    (by decide +kernel)
  obtain ⟨u', r', h'⟩ := isOk (x := computeInfluence libAlt Rat.sqrt (stOf libAlt splitBatches) ids1 (.dict log1) ids1 (.dict log1) .l2 true .auto (some [['b']]) (some 1))
    (by decide +kernel)
  obtain ⟨t, h1, h2⟩ := (C93_logged eighOk eighOkAlt inverseOk inverseOk finWhole finSplit sameData12 (by decide +kernel) lab1 lab1 (.inr rfl) h h').2.2 kTotal (.inl rfl)
  exact ⟨u, r, u', r', h, h', t, h1, h2⟩

/-- The scores of both. -/
example : infData (computeInfluence lib Rat.sqrt (stOf lib wholeBatch) ids1 (.dict log1) ids1 (.dict log1) .l2 true .auto (some [['b']]) (some 1)) kTotal =
    infData (computeInfluence libAlt Rat.sqrt (stOf libAlt splitBatches) ids1 (.dict log1) ids1 (.dict log1) .l2 true .auto (some [['b']]) (some 1)) kTotal ∧
    infData (computeInfluence lib Rat.sqrt (stOf lib wholeBatch) ids1 (.dict log1) ids1 (.dict log1) .dot true .auto (some [['b']]) (some 1)) kTotal ≠
      infData (computeInfluence lib Rat.sqrt (stOf lib wholeBatch) ids1 (.dict log1) ids1 (.dict log1) .dot false .auto (some [['b']]) (some 1)) kTotal := by
  decide +kernel

/-- The hypotheses of the version for self-influence are met. -/
example : ∃ u r u' r', computeSelf lib (stOf lib wholeBatch) ids1 (.dict log1) true .auto none (some 1) = .ok (u, r) ∧
    computeSelf libAlt (stOf libAlt splitBatches) ids1 (.dict log1) true .auto none (some 1) = .ok (u', r') ∧
    ∃ t, r.influence.get? kTotal = some t ∧ r'.influence.get? kTotal = some t := by
  obtain ⟨u, r, h⟩ := isOk (x := computeSelf lib (stOf lib wholeBatch) ids1 (.dict log1) true .auto none (some 1)) (by decide +kernel)
  obtain ⟨u', r', h'⟩ := isOk (x := computeSelf libAlt (stOf libAlt splitBatches) ids1 (.dict log1) true .auto none (some 1)) (by decide +kernel)
  exact ⟨u, r, u', r', h, h', (C93_logged_self eighOk eighOkAlt inverseOk inverseOk finWhole finSplit sameData12 (by decide +kernel) lab1 h h').2 kTotal (.inl rfl)⟩

end Logix.ExInfl
