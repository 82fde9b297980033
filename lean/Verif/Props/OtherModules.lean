/-
C149: logs with different modules.
-/
import Verif.Props.NoPrecondition

namespace Logix
variable {K : Type} [Field K]

/-- C149, what holds: if the source log has a module that the target log has no gradients of, `compute_influence` raises. -/
theorem C149_missing_partial {L : Lib K} {sqrt : K → K} {s : LState K} {srcIds tgtIds : List PyStr} {d e : GLog K} {mode : Mode} {pre : Bool} {hessian : Hess}
    {groups : Option (List PyStr)} {c : Option K} (hd : Spec.Labelled srcIds d) (he : Spec.Labelled tgtIds e) {m : PyStr} (hm : m ∈ Dict.keys d)
    (hn : Spec.grad e m = none) : ∀ v, computeInfluence L sqrt s srcIds (.dict d) tgtIds (.dict e) mode pre hessian groups c ≠ .ok v := by
  rintro ⟨u, r⟩ h
  obtain ⟨H, H', s₁, -, -, -, -, g, -⟩ := computeInfluence_ok h hd he
  obtain ⟨_, _, -, h2, -⟩ := g m hm
  rw [hn] at h2
  cases h2

/-- C149, what happens to the modules that only the target log has: in mode dot they are ignored. If two target logs have the same gradients of the modules of
the source, the scores are the same. -/
theorem C149_ignored_partial {L : Lib K} {sqrt : K → K} {s u u' : LState K} {srcIds tgtIds : List PyStr} {d e e' : GLog K} {pre : Bool} {hessian : Hess}
    {groups : Option (List PyStr)} {c : Option K} {r r' : IFResult K} (hd : Spec.Labelled srcIds d) (he : Spec.Labelled tgtIds e) (he' : Spec.Labelled tgtIds e')
    (hsame : ∀ m ∈ Dict.keys d, Spec.grad e m = Spec.grad e' m)
    (h : computeInfluence L sqrt s srcIds (.dict d) tgtIds (.dict e) .dot pre hessian groups c = .ok (u, r))
    (h' : computeInfluence L sqrt s srcIds (.dict d) tgtIds (.dict e') .dot pre hessian groups c = .ok (u', r')) :
    ∀ k, k = ['t', 'o', 't', 'a', 'l'] ∨ k ∈ groups.getD [] → ∃ t t', r.influence.get? k = some t ∧ r'.influence.get? k = some t' ∧ t.shape = t'.shape ∧
      ∀ i j, i < srcIds.length → j < tgtIds.length → t.el [i, j] = t'.el [i, j] := by
  intro k hk
  obtain ⟨H, _, s₁, p, -, -, -, -, -, -, g⟩ := computeInfluence_ok h hd he
  obtain ⟨H', _, s₂, p', -, -, -, -, -, -, g'⟩ := computeInfluence_ok h' hd he'
  obtain rfl := preOf_unique p p'
  obtain ⟨t, a1, -, a2, a3⟩ := g k hk
  obtain ⟨t', b1, -, b2, b3⟩ := g' k hk
  refine ⟨t, t', a1, b1, by rw [a2, b2], fun i j hi hj => ?_⟩
  rw [(a3 (.inl rfl)).2 i j hi hj, (b3 (.inl rfl)).2 i j hi hj]
  show ((Dict.keys d).map _).sum = ((Dict.keys d).map _).sum
  refine congrArg List.sum (List.map_congr_left fun m hm => ?_)
  simp only [formAt, hsame m hm]

/-- C149, the other part that holds: if the first module of the target log is not in the source log, `compute_influence` raises. (The device of the targets is
looked up in the source log under the first name of the target log, and only under that name.) -/
theorem C149_first_partial {L : Lib K} {sqrt : K → K} {s : LState K} {srcIds tgtIds : List PyStr} {d e rest : GLog K} {mode : Mode} {pre : Bool} {hessian : Hess}
    {groups : Option (List PyStr)} {c : Option K} {m : PyStr} {sub : Dict PyStr (Tensor K)} (hd : Spec.Labelled srcIds d) (hm : m ∉ Dict.keys d)
    (he : e = (m, sub) :: rest) (hsub : sub ≠ []) :
    ∀ v, computeInfluence L sqrt s srcIds (.dict d) tgtIds (.dict e) mode pre hessian groups c ≠ .ok v := by
  rintro ⟨u, r⟩ h
  unfold computeInfluence at h
  split at h
  · cases h
  · split at h
    · cases h
    · next s₁ o hpre =>
      obtain ⟨p, H, rfl, -, hacts⟩ := pre_ok hd.1 hpre
      have hnone : Dict.get? p m = none := by
        cases hg : Dict.get? p m with
        | none => rfl
        | some _ => exact absurd (hacts.1 ▸ (Dict.get?_isSome_iff _ _).1 (by rw [hg]; rfl)) hm
      obtain ⟨⟨t, x⟩, sub', rfl⟩ := List.exists_cons_of_ne_nil hsub
      subst he
      have : syncDevice p ((m, (t, x) :: sub') :: rest) = .error .keyError := by
        simp only [syncDevice, List.flatMap_cons, List.map_cons, List.cons_append, logItem, hnone]
      simp only [rawScores, this] at h
      cases h

namespace ExInfl

/-- Only the first module of `log1`. -/
def logOne : GLog Rat := [(nmA, [(LogType.name .grad, ⟨.cpu, [2, 1, 2], [1, 2, 3, 4], rfl⟩)])]

theorem labOne : Spec.Labelled ids1 logOne := by
  refine ⟨by decide +kernel, fun m hm => ?_⟩
  simp only [logOne, Dict.keys, List.map_cons, List.map_nil, List.mem_cons, List.not_mem_nil, or_false] at hm
  subst hm; exact ⟨_, rfl, rfl⟩

/-- C149 is false: the target log has a module that the source log has not, and `compute_influence` returns. -/
theorem C149_refuted : ¬ ∀ (L : Lib Rat) (sqrt : Rat → Rat) (s u : LState Rat) (srcIds tgtIds : List PyStr) (d e : GLog Rat) (mode : Mode) (pre : Bool)
    (hessian : Hess) (groups : Option (List PyStr)) (c : Option Rat) (r : IFResult Rat), Spec.Labelled srcIds d → Spec.Labelled tgtIds e →
    computeInfluence L sqrt s srcIds (.dict d) tgtIds (.dict e) mode pre hessian groups c = .ok (u, r) → ∀ m, m ∈ Dict.keys d ↔ m ∈ Dict.keys e := by
  intro H
  obtain ⟨u, r, h⟩ := isOk (x := computeInfluence lib Rat.sqrt (stOf lib gradCalls) ids1 (.dict logOne) ids1 (.dict log1) .dot true .auto none (some 1)) (by decide +kernel)
  have := (H _ _ _ _ _ _ _ _ _ _ _ _ _ _ labOne lab1 h nmB).2 (by decide +kernel)
  exact absurd this (by decide +kernel)

/-- In mode l2 too, and there the module that the source has not counts for the norm of the target only: the score of a sample with itself is less than zero,
while it is not with either module set on both sides. -/
example : scoreAt (computeInfluence lib Rat.sqrt (stOf lib gradCalls) ids1 (.dict logOne) ids1 (.dict log1) .l2 true .auto none (some 1)) 0 0 = some (-83 / 60) ∧
    scoreAt (computeInfluence lib Rat.sqrt (stOf lib gradCalls) ids1 (.dict logOne) ids1 (.dict logOne) .l2 true .auto none (some 1)) 0 0 = some (7 / 10) ∧
    scoreAt (computeInfluence lib Rat.sqrt (stOf lib gradCalls) ids1 (.dict log1) ids1 (.dict log1) .l2 true .auto none (some 1)) 0 0 = some (167 / 60) := by
  decide +kernel

/-- The same target log with its modules in the other order is rejected. -/
example : ∀ v, computeInfluence lib Rat.sqrt (stOf lib gradCalls) ids1 (.dict logOne) ids1 (.dict log1.reverse) .dot true .auto none (some 1) ≠ .ok v :=
  C149_first_partial (m := nmB) labOne (by decide +kernel) (show log1.reverse = (nmB, _) :: _ from rfl) (by decide +kernel)

/-- With the logs the other way round it raises. -/
example : ∀ v, computeInfluence lib Rat.sqrt (stOf lib gradCalls) ids1 (.dict log1) ids1 (.dict logOne) .dot true .auto none (some 1) ≠ .ok v :=
  C149_missing_partial lab1 labOne (m := nmB) (by decide +kernel) (by decide +kernel)

/-- The hypotheses of `C149_ignored_partial` are met. -/
example : ∃ u r u' r' t t', computeInfluence lib Rat.sqrt (stOf lib gradCalls) ids1 (.dict logOne) ids1 (.dict log1) .dot true .auto none (some 1) = .ok (u, r) ∧
    computeInfluence lib Rat.sqrt (stOf lib gradCalls) ids1 (.dict logOne) ids1 (.dict logOne) .dot true .auto none (some 1) = .ok (u', r') ∧
    r.influence.get? kTotal = some t ∧ r'.influence.get? kTotal = some t' ∧ t.el [0, 1] = t'.el [0, 1] := by
  obtain ⟨u, r, h⟩ := isOk (x := computeInfluence lib Rat.sqrt (stOf lib gradCalls) ids1 (.dict logOne) ids1 (.dict log1) .dot true .auto none (some 1)) (by decide +kernel)
  obtain ⟨u', r', h'⟩ := isOk (x := computeInfluence lib Rat.sqrt (stOf lib gradCalls) ids1 (.dict logOne) ids1 (.dict logOne) .dot true .auto none (some 1)) (by decide +kernel)
  obtain ⟨t, t', a1, a2, -, a3⟩ := C149_ignored_partial labOne lab1 labOne (fun m hm => by
    simp only [logOne, Dict.keys, List.map_cons, List.map_nil, List.mem_cons, List.not_mem_nil, or_false] at hm
    subst hm; rfl) h h' kTotal (.inl rfl)
  exact ⟨u, r, u', r', t, t', h, h', a1, a2, a3 0 1 (by decide) (by decide)⟩

end ExInfl
end Logix
