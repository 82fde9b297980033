/-
C148: `precondition=False`.
-/
import Verif.Props.Modes
import Verif.Props.FormulaExample

namespace Logix
variable {K : Type} [Field K]

/-- C148 in mode dot: without preconditioning the scores do not depend on the state, the Hessian and the damping; a new instance gives the same. -/
theorem C148_dot_partial {L : Lib K} {sqrt : K → K} {s u : LState K} {srcIds tgtIds : List PyStr} {d e : GLog K} {hessian : Hess}
    {groups : Option (List PyStr)} {c : Option K} {r : IFResult K}
    (h : computeInfluence L sqrt s srcIds (.dict d) tgtIds (.dict e) .dot false hessian groups c = .ok (u, r)) (L' : Lib K) (sqrt' : K → K) (s' : LState K)
    (hessian' : Hess) (c' : Option K) : u = s ∧ computeInfluence L' sqrt' s' srcIds (.dict d) tgtIds (.dict e) .dot false hessian' groups c' = .ok (s', r) := by
  unfold computeInfluence at h ⊢
  simp only [reduceCtorEq, if_false, Bool.false_eq_true, rawScores, modeScores, if_true] at h ⊢
  cases h1 : syncDevice d e with
  | error x => simp only [h1] at h; cases h
  | ok t =>
    simp only [h1] at h ⊢
    cases h2 : moduleLoop groups t d (initScores (groups.getD [])) with
    | error x => simp only [h2] at h; cases h
    | ok sc =>
      simp only [h2] at h ⊢
      cases h3 : checkScores [srcIds.length, tgtIds.length] sc with
      | error x => simp only [h3] at h; cases h
      | ok sc' =>
        simp only [h3] at h ⊢
        cases h4 : finishScores groups sc' with
        | error x => simp only [h4] at h; cases h
        | ok inf => simp only [h4] at h ⊢; cases h; exact ⟨rfl, rfl⟩

/-- C148, self-influence: likewise. -/
theorem C148_self_partial {L : Lib K} {s u : LState K} {ids : List PyStr} {d : GLog K} {hessian : Hess} {groups : Option (List PyStr)} {c : Option K}
    {r : SelfResult K} (h : computeSelf L s ids (.dict d) false hessian groups c = .ok (u, r)) (L' : Lib K) (s' : LState K) (hessian' : Hess) (c' : Option K) :
    u = s ∧ computeSelf L' s' ids (.dict d) false hessian' groups c' = .ok (s', r) := by
  unfold computeSelf at h ⊢
  simp only [Bool.false_eq_true, if_false] at h ⊢
  cases h2 : selfLoop groups d d (initScores (groups.getD [])) with
  | error x => simp only [h2] at h; cases h
  | ok sc =>
    simp only [h2] at h ⊢
    cases h3 : checkScores [ids.length] sc with
    | error x => simp only [h3] at h; cases h
    | ok sc' =>
      simp only [h3] at h ⊢
      cases h4 : finishScores groups sc' with
      | error x => simp only [h4] at h; cases h
      | ok inf => simp only [h4] at h ⊢; cases h; exact ⟨rfl, rfl⟩

/-- C148, what the modes l2 and cosine do instead: the plain score is combined with the preconditioned self-influence of the target. -/
theorem C148_modes_partial {L : Lib K} {sqrt : K → K} {s u u₀ u₁ : LState K} {srcIds tgtIds : List PyStr} {d e : GLog K} {mode : Mode} {hessian : Hess}
    {groups : Option (List PyStr)} {c : Option K} {r r₀ : IFResult K} {v : SelfResult K} (hm : mode = .l2 ∨ mode = .cosine)
    (h : computeInfluence L sqrt s srcIds (.dict d) tgtIds (.dict e) mode false hessian groups c = .ok (u, r))
    (h₀ : computeInfluence L sqrt s srcIds (.dict d) tgtIds (.dict e) .dot false hessian groups c = .ok (u₀, r₀))
    (hs : computeSelf L s tgtIds (.dict e) true hessian groups c = .ok (u₁, v))
    (hd : Spec.Labelled srcIds d) (he : Spec.Labelled tgtIds e) (hk : Dict.keys d = Dict.keys e) :
    ∀ k, k = ['t', 'o', 't', 'a', 'l'] ∨ k ∈ groups.getD [] → ∃ t t₀ w, r.influence.get? k = some t ∧ r₀.influence.get? k = some t₀ ∧
      v.influence.get? k = some w ∧ ∀ i j, i < srcIds.length → j < tgtIds.length →
        (mode = .l2 → t.el [i, j] = t₀.el [i, j] - 1 / 2 * w.el [j]) ∧ (mode = .cosine → t.el [i, j] = t₀.el [i, j] / sqrt (w.el [j])) := by
  intro k hkk
  obtain ⟨H, H', s₁, p, q, -, -, -, -, -, g⟩ := computeInfluence_ok h hd he
  obtain ⟨H₀, _, s₂, p₀, -, -, -, -, -, -, g₀⟩ := computeInfluence_ok h₀ hd he
  obtain ⟨H₁, p₁, -, -, g₁⟩ := computeSelf_ok hs he
  obtain rfl := preOf_unique p p₀
  rw [if_neg (by rcases hm with rfl | rfl <;> simp)] at q
  have hs₁ : s₁ = s := by
    unfold PreOf at p
    simp only [Bool.false_eq_true, if_false] at p
    exact p.2
  subst hs₁
  obtain rfl := preOf_unique q p₁
  obtain ⟨t, t1, -, -, t2⟩ := g k hkk
  obtain ⟨t₀, a1, -, -, a2⟩ := g₀ k hkk
  obtain ⟨w, b1, -, -, -, -, b2⟩ := g₁ k hkk
  refine ⟨t, t₀, w, t1, a1, b1, fun i j hi hj => ?_⟩
  rw [(t2 (.inr hk)).2 i j hi hj, (a2 (.inl rfl)).2 i j hi hj, b2 j hj]
  constructor <;> (rintro rfl; rfl)

namespace ExInfl

/-- The total score of a pair of samples. -/
def scoreAt (x : Py (LState Rat × IFResult Rat)) (i j : Nat) : Option Rat :=
  match x with
  | .ok (_, r) => match r.influence with
    | .one t => some (t.el [i, j])
    | _ => none
  | .error _ => none

/-- C148 is false in mode l2 (and cosine): without preconditioning the scores still depend on the damping and on the statistics. The score of the first
sample with itself is `1633 / 60` with damping 1 and `4261 / 154` with damping 2; without statistics it is 15, half of the square of the norm. -/
theorem C148_refuted : ¬ ∀ (L : Lib Rat) (sqrt : Rat → Rat) (s s' u u' : LState Rat) (srcIds tgtIds : List PyStr) (d e : GLog Rat) (mode : Mode)
    (hessian : Hess) (c c' : Option Rat) (r r' : IFResult Rat),
    computeInfluence L sqrt s srcIds (.dict d) tgtIds (.dict e) mode false hessian none c = .ok (u, r) →
    computeInfluence L sqrt s' srcIds (.dict d) tgtIds (.dict e) mode false hessian none c' = .ok (u', r') → r'.influence.get? kTotal = r.influence.get? kTotal := by
  intro H
  have k1 : scoreAt (computeInfluence lib Rat.sqrt (stOf lib gradCalls) ids1 (.dict log1) ids1 (.dict log1) .l2 false .auto none (some 1)) 0 0 = some (1633 / 60) := by
    decide +kernel
  have k2 : scoreAt (computeInfluence lib Rat.sqrt (stOf lib gradCalls) ids1 (.dict log1) ids1 (.dict log1) .l2 false .auto none (some 2)) 0 0 = some (4261 / 154) := by
    decide +kernel
  obtain ⟨u, r, h⟩ := isOk (x := computeInfluence lib Rat.sqrt (stOf lib gradCalls) ids1 (.dict log1) ids1 (.dict log1) .l2 false .auto none (some 1)) (by decide +kernel)
  obtain ⟨u', r', h'⟩ := isOk (x := computeInfluence lib Rat.sqrt (stOf lib gradCalls) ids1 (.dict log1) ids1 (.dict log1) .l2 false .auto none (some 2)) (by decide +kernel)
  have := H _ _ _ _ _ _ _ _ _ _ _ _ _ _ _ _ h h'
  rw [h] at k1
  rw [h'] at k2
  unfold scoreAt at k1 k2
  dsimp only at k1 k2
  cases e1 : r.influence with
  | groups _ => rw [e1] at k1; cases k1
  | one t =>
    cases e2 : r'.influence with
    | groups _ => rw [e2] at k2; cases k2
    | one t' =>
      rw [e1] at k1; rw [e2] at k2
      rw [e1, e2] at this
      simp only [Influence.get?, kTotal, if_true, Option.some.injEq] at this
      subst this
      rw [k1] at k2
      exact absurd k2 (by decide +kernel)

/-- Without statistics: 15. -/
example : scoreAt (computeInfluence lib Rat.sqrt .init ids1 (.dict log1) ids1 (.dict log1) .l2 false .auto none (some 2)) 0 0 = some 15 := by decide +kernel

/-- The hypotheses of the partial theorems are met. -/
example : ∃ u r u₀ r₀ u₁ v t t₀ w,
    computeInfluence lib Rat.sqrt (stOf lib gradCalls) ids1 (.dict log1) ids1 (.dict log1) .l2 false .auto none (some 1) = .ok (u, r) ∧
    computeInfluence lib Rat.sqrt (stOf lib gradCalls) ids1 (.dict log1) ids1 (.dict log1) .dot false .auto none (some 1) = .ok (u₀, r₀) ∧
    computeInfluence lib Rat.sqrt .init ids1 (.dict log1) ids1 (.dict log1) .dot false .raw none none = .ok (.init, r₀) ∧
    computeSelf lib (stOf lib gradCalls) ids1 (.dict log1) true .auto none (some 1) = .ok (u₁, v) ∧ r.influence.get? kTotal = some t ∧
    r₀.influence.get? kTotal = some t₀ ∧ v.influence.get? kTotal = some w ∧ t.el [0, 1] = t₀.el [0, 1] - 1 / 2 * w.el [1] := by
  obtain ⟨u, r, h⟩ := isOk (x := computeInfluence lib Rat.sqrt (stOf lib gradCalls) ids1 (.dict log1) ids1 (.dict log1) .l2 false .auto none (some 1)) (by decide +kernel)
  obtain ⟨u₀, r₀, h₀⟩ := isOk (x := computeInfluence lib Rat.sqrt (stOf lib gradCalls) ids1 (.dict log1) ids1 (.dict log1) .dot false .auto none (some 1)) (by decide +kernel)
  obtain ⟨u₁, v, hv⟩ := isOk (x := computeSelf lib (stOf lib gradCalls) ids1 (.dict log1) true .auto none (some 1)) (by decide +kernel)
  obtain ⟨t, t₀, w, a1, a2, a3, a4⟩ := C148_modes_partial (.inl rfl) h h₀ hv lab1 lab1 rfl kTotal (.inl rfl)
  exact ⟨u, r, u₀, r₀, u₁, v, t, t₀, w, h, h₀, (C148_dot_partial h₀ lib Rat.sqrt .init .raw none).2, hv, a1, a2, a3, (a4 0 1 (by decide) (by decide)).1 rfl⟩

end ExInfl
end Logix
