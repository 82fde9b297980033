/-
C51, C52: the modes l2 and cosine.
-/
import Verif.Lemmas.Modes
import Mathlib.Tactic.Linarith

namespace Logix
variable {K : Type}

/-! ### C51 -/

section C51
variable [Field K] [LinearOrder K] [IsStrictOrderedRing K]

/-- **C51.** In mode l2 the score of source `s` and target `t` is half the self-influence of `s` minus half the self-influence of `s - t`,
under every key. The state holds no fitted eigenvalues. -/
theorem C51_distance_partial {L : Lib K} {sqrt : K → K} {s s₁ s₂ s₃ : LState K} {srcIds tgtIds difIds : List PyStr} {d e f : GLog K}
    {hessian : Hess} {groups : Option (List PyStr)} {c : K} {r : IFResult K} {rs rd : SelfResult K}
    (hP : Spec.PosHessian L s (Dict.keys d) hessian c) (hek : s.hasAttr nEkfac = false)
    (h : computeInfluence L sqrt s srcIds (.dict d) tgtIds (.dict e) .l2 true hessian groups (some c) = .ok (s₁, r))
    (hs : computeSelf L s srcIds (.dict d) true hessian groups (some c) = .ok (s₂, rs))
    (hf : computeSelf L s difIds (.dict f) true hessian groups (some c) = .ok (s₃, rd))
    (hd : Spec.Labelled srcIds d) (he : Spec.Labelled tgtIds e) (hl : Spec.Labelled difIds f)
    {i j l : Nat} (hi : i < srcIds.length) (hj : j < tgtIds.length) (hll : l < difIds.length) (hc : Spec.SampleComb 1 d i (-1) e j f l) :
    ∀ k, k = ['t', 'o', 't', 'a', 'l'] ∨ k ∈ groups.getD [] → ∃ t u v, r.influence.get? k = some t ∧ rs.influence.get? k = some u ∧
      rd.influence.get? k = some v ∧ t.el [i, j] = 1 / 2 * u.el [i] - 1 / 2 * v.el [l] := by
  intro k hk
  obtain ⟨ops, hrun, -⟩ := hP.run
  obtain ⟨H, h1, h2, h3⟩ := mode_scores hrun hek h hd he (hc.left.trans hc.right.symm)
  obtain ⟨H₂, s₄, g1, -, g2⟩ := self_scores' hs hd
  rw [h1] at g1; cases g1
  obtain ⟨H₃, s₅, f1, -, f2⟩ := self_scores' hf hl
  rw [← hc.left, h1] at f1; cases f1
  obtain ⟨t, t1, t2⟩ := h3 k hk
  obtain ⟨u, u1, u2⟩ := g2 k hk
  obtain ⟨v, v1, v2⟩ := f2 k hk
  refine ⟨t, u, v, t1, u1, v1, ?_⟩
  rw [t2 i j hi hj, u2 i hi, v2 l hll, ← hc.left]
  have key : ∀ m ∈ Dict.keys d, formAt H.form f l f l m = formAt H.form d i d i m + formAt H.form e j e j m - 2 * formAt H.form d i e j m := by
    intro m hm
    obtain ⟨g, x, y, k1, k2, k3, k4, k5, -⟩ := hc.rows m (hc.left ▸ hm)
    have hm' : m ∈ Dict.keys f := hc.left ▸ hm
    rw [formAt_comb_left hc H hm', formAt_comb_right (x := d) (l := i) hc H hm' (fun a b ha hb => by rw [k3] at ha; rw [k1] at hb; cases ha; cases hb; exact k4.symm),
      formAt_comb_right (x := e) (l := j) hc H hm' (fun a b ha hb => by rw [k3] at ha; rw [k2] at hb; cases ha; cases hb; exact k5.symm)]
    have : formAt H.form e j d i m = formAt H.form d i e j m := by
      simp only [formAt, k1, k2, k4, k5]
      exact (hess_pos hP h1 hm).2 _ _ _
    rw [this]
    ring
  have sum : ((Dict.keys d).map fun m => ((scoreKeys groups m).count k : K) * formAt H.form f l f l m).sum =
      ((Dict.keys d).map fun m => ((scoreKeys groups m).count k : K) * formAt H.form d i d i m).sum +
      ((Dict.keys d).map fun m => ((scoreKeys groups m).count k : K) * formAt H.form e j e j m).sum -
      2 * ((Dict.keys d).map fun m => ((scoreKeys groups m).count k : K) * formAt H.form d i e j m).sum := by
    generalize Dict.keys d = keys at key
    induction keys with
    | nil => simp
    | cons m keys ih =>
      simp only [List.map_cons, List.sum_cons]
      rw [ih fun m hm => key m (List.mem_cons_of_mem _ hm), key m (by simp)]
      ring
  rw [sum]
  simp only [modeFn]
  ring

/-- **C51.** In mode l2 no target scores higher than a target with the gradients of the source, under every key. -/
theorem C51_identical_best_partial {L : Lib K} {sqrt : K → K} {s s₁ : LState K} {srcIds tgtIds : List PyStr} {d e : GLog K} {hessian : Hess}
    {groups : Option (List PyStr)} {c : K} {r : IFResult K} (hP : Spec.PosHessian L s (Dict.keys d) hessian c) (hek : s.hasAttr nEkfac = false)
    (h : computeInfluence L sqrt s srcIds (.dict d) tgtIds (.dict e) .l2 true hessian groups (some c) = .ok (s₁, r))
    (hd : Spec.Labelled srcIds d) (he : Spec.Labelled tgtIds e)
    {i j : Nat} (hi : i < srcIds.length) (hj : j < tgtIds.length) (hc : Spec.SameSample d i e j) :
    ∀ k, k = ['t', 'o', 't', 'a', 'l'] ∨ k ∈ groups.getD [] → ∃ t, r.influence.get? k = some t ∧ ∀ j', j' < tgtIds.length → t.el [i, j'] ≤ t.el [i, j] := by
  intro k hk
  obtain ⟨ops, hrun, -⟩ := hP.run
  obtain ⟨H, h1, h2, h3⟩ := mode_scores hrun hek h hd he hc.keys
  obtain ⟨t, t1, t2⟩ := h3 k hk
  refine ⟨t, t1, fun j' hj' => ?_⟩
  rw [t2 i j hi hj, t2 i j' hi hj']
  have self : ∀ x m, m ∈ Dict.keys d → formAt H.form d i x j m = formAt H.form e j x j m := fun x m hm => by
    have := formAt_comb_left (x := x) (l := j) hc.comb H (hc.keys ▸ hm)
    rw [zero_mul, one_mul, add_zero] at this
    exact this.symm
  have e1 : ((Dict.keys d).map fun m => ((scoreKeys groups m).count k : K) * formAt H.form d i e j m).sum =
      ((Dict.keys d).map fun m => ((scoreKeys groups m).count k : K) * formAt H.form e j e j m).sum := by
    congr 1
    exact List.map_congr_left fun m hm => by rw [self e m hm]
  have e2 : ((Dict.keys d).map fun m => ((scoreKeys groups m).count k : K) * formAt H.form d i e j' m).sum =
      ((Dict.keys d).map fun m => ((scoreKeys groups m).count k : K) * formAt H.form e j e j' m).sum := by
    congr 1
    refine List.map_congr_left fun m hm => ?_
    have := formAt_comb_left (x := e) (l := j') hc.comb H (hc.keys ▸ hm)
    rw [zero_mul, one_mul, add_zero] at this
    rw [this]
  have q := sum_quad (Dict.keys d) (fun m => (scoreKeys groups m).count k) (fun m => formAt H.form e j e j m) (fun m => formAt H.form e j e j' m)
    (fun m => formAt H.form e j' e j' m) 1 (-1) (fun m hm => by
      obtain ⟨g, x, k1, k2, k3⟩ := h2 m hm
      exact form_quad (hess_pos hP h1 hm).2 (hess_pos hP h1 hm).1 k2 k2 rfl 1 (-1))
  simp only [modeFn]
  rw [e1, e2]
  linarith

end C51

/-! ### C52 -/

section C52
variable [Field K] [LinearOrder K] [IsStrictOrderedRing K]

theorem Spec.SqrtAt.unique {sqrt : K → K} {x y c : K} (hx : Spec.SqrtAt sqrt x) (hy : Spec.SqrtAt sqrt y) (hc : 0 ≤ c) (h : y = c * c * x) : sqrt y = c * sqrt x := by
  have : sqrt y * sqrt y = (c * sqrt x) * (c * sqrt x) := by
    rw [hy.2, h, mul_mul_mul_comm, hx.2]
  exact (mul_self_inj hy.1 (mul_nonneg hc hx.1)).1 this

/-- **C52.** In mode cosine, if a target gradient is a positive multiple of another, both have the same score, under every key. `torch.sqrt`
is only asked to give the square roots of the two self-influences. (They are taken in the state `sp` that the preconditioning of the source
leaves; with fitted eigenvalues this is not the state `s` before.) -/
theorem C52_scale {L : Lib K} {sqrt : K → K} {s sp s₁ s₂ s₃ s₄ : LState K} {srcIds ids₁ ids₂ : List PyStr} {d e₁ e₂ : GLog K} {p : LogArg K}
    {pre : Bool} {hessian : Hess} {groups : Option (List PyStr)} {damping : Option K} {r₁ r₂ : IFResult K} {a₁ a₂ : SelfResult K}
    (hp : (if pre then precondition L s (.dict d) hessian damping else .ok (s, .dict d)) = .ok (sp, p))
    (h₁ : computeInfluence L sqrt s srcIds (.dict d) ids₁ (.dict e₁) .cosine pre hessian groups damping = .ok (s₁, r₁))
    (h₂ : computeInfluence L sqrt s srcIds (.dict d) ids₂ (.dict e₂) .cosine pre hessian groups damping = .ok (s₂, r₂))
    (g₁ : computeSelf L sp ids₁ (.dict e₁) true hessian groups damping = .ok (s₃, a₁))
    (g₂ : computeSelf L sp ids₂ (.dict e₂) true hessian groups damping = .ok (s₄, a₂))
    (hd : Spec.Labelled srcIds d) (he₁ : Spec.Labelled ids₁ e₁) (he₂ : Spec.Labelled ids₂ e₂) (hk : Dict.keys d = Dict.keys e₁)
    {i j₁ j₂ : Nat} (hi : i < srcIds.length) (hj₁ : j₁ < ids₁.length) (hj₂ : j₂ < ids₂.length) {c : K} (hc : 0 < c)
    (hs : Spec.SampleComb c e₁ j₁ 0 e₁ j₁ e₂ j₂) : ∀ k, k = ['t', 'o', 't', 'a', 'l'] ∨ k ∈ groups.getD [] → ∃ t₁ t₂ u₁ u₂,
      r₁.influence.get? k = some t₁ ∧ r₂.influence.get? k = some t₂ ∧ a₁.influence.get? k = some u₁ ∧ a₂.influence.get? k = some u₂ ∧
      (Spec.SqrtAt sqrt (u₁.el [j₁]) → Spec.SqrtAt sqrt (u₂.el [j₂]) → t₂.el [i, j₂] = t₁.el [i, j₁]) := by
  intro k hk'
  have hk₂ := hk.trans hs.left
  obtain ⟨H, H₁, x₁, ⟨o₁, c1⟩, p1, p2, -, -, -, -, -, p3⟩ := computeInfluence_ok' h₁ hd he₁
  obtain ⟨H₂, H₃, x₂, ⟨o₂, c2⟩, q1, q2, -, -, q4, -, -, q3⟩ := computeInfluence_ok' h₂ hd he₂
  rw [hp] at c1 c2
  cases c1; cases c2
  obtain rfl := preOf_unique p1 q1
  simp only [reduceCtorEq, if_false] at p2 q2
  rw [← hs.left] at q2
  obtain rfl := preOf_unique p2 q2
  obtain ⟨H₄, f1, -, -, f2⟩ := computeSelf_ok g₁ he₁
  obtain rfl := preOf_unique p2 f1
  obtain ⟨H₅, e1, -, -, e2⟩ := computeSelf_ok g₂ he₂
  rw [← hs.left] at e1
  obtain rfl := preOf_unique p2 e1
  obtain ⟨t₁, t1, -, -, t1'⟩ := p3 k hk'
  obtain ⟨t₂, t2, -, -, t2'⟩ := q3 k hk'
  have t1' := (t1' (.inr hk)).2
  have t2' := (t2' (.inr hk₂)).2
  obtain ⟨u₁, u1, -, -, -, -, u1'⟩ := f2 k hk'
  obtain ⟨u₂, u2, -, -, -, -, u2'⟩ := e2 k hk'
  refine ⟨t₁, t₂, u₁, u₂, t1, t2, u1, u2, fun hr₁ hr₂ => ?_⟩
  have tails : ∀ m ∈ Dict.keys d, ∀ g z, Spec.grad e₂ m = some g → Spec.grad d m = some z → g.shape.tail = z.shape.tail := fun m hm g z hg hz => by
    obtain ⟨a, b, k1, k2, k3⟩ := q4 m hm
    rw [k1] at hz; rw [k2] at hg
    cases hz; cases hg
    exact k3.symm
  have cross : ((Dict.keys d).map fun m => ((scoreKeys groups m).count k : K) * formAt H.form d i e₂ j₂ m).sum =
      c * ((Dict.keys d).map fun m => ((scoreKeys groups m).count k : K) * formAt H.form d i e₁ j₁ m).sum := by
    rw [← List.sum_map_mul_left]
    congr 1
    refine List.map_congr_left fun m hm => ?_
    rw [formAt_comb_right hs H (hs.left ▸ hk ▸ hm) (tails m hm)]
    ring
  have own : u₂.el [j₂] = c * c * u₁.el [j₁] := by
    rw [u2' _ hj₂, u1' _ hj₁, ← hs.left, ← List.sum_map_mul_left]
    congr 1
    refine List.map_congr_left fun m hm => ?_
    have hm' : m ∈ Dict.keys e₂ := hs.left ▸ hm
    obtain ⟨g, x, y, k1, -, k3, k4, -, -⟩ := hs.rows m hm'
    rw [formAt_comb_left hs H₁ hm', formAt_comb_right hs H₁ hm' (fun a b ha hb => by rw [k3] at ha; rw [k1] at hb; cases ha; cases hb; exact k4.symm)]
    ring
  have root := Spec.SqrtAt.unique hr₁ hr₂ hc.le own
  rw [t1' i j₁ hi hj₁, t2' i j₂ hi hj₂]
  simp only [modeFn]
  rw [u1' _ hj₁, u2' _ hj₂] at root
  rw [cross, root, mul_div_mul_left _ _ hc.ne']

/-- **C52.** In mode cosine the absolute value of a score is at most the square root of the self-influence of the source, under every key, for
targets with positive self-influence. -/
theorem C52_bound_partial {L : Lib K} {sqrt : K → K} {s s₁ s₂ s₃ : LState K} {srcIds tgtIds : List PyStr} {d e : GLog K} {hessian : Hess}
    {groups : Option (List PyStr)} {c : K} {r : IFResult K} {a b : SelfResult K} (hP : Spec.PosHessian L s (Dict.keys d) hessian c)
    (hek : s.hasAttr nEkfac = false)
    (h : computeInfluence L sqrt s srcIds (.dict d) tgtIds (.dict e) .cosine true hessian groups (some c) = .ok (s₁, r))
    (hs : computeSelf L s srcIds (.dict d) true hessian groups (some c) = .ok (s₂, a))
    (ht : computeSelf L s tgtIds (.dict e) true hessian groups (some c) = .ok (s₃, b))
    (hd : Spec.Labelled srcIds d) (he : Spec.Labelled tgtIds e) (hk : Dict.keys d = Dict.keys e)
    {i j : Nat} (hi : i < srcIds.length) (hj : j < tgtIds.length) : ∀ k, k = ['t', 'o', 't', 'a', 'l'] ∨ k ∈ groups.getD [] → ∃ t u v,
      r.influence.get? k = some t ∧ a.influence.get? k = some u ∧ b.influence.get? k = some v ∧
      (0 < v.el [j] → Spec.SqrtAt sqrt (v.el [j]) → Spec.SqrtAt sqrt (u.el [i]) → |t.el [i, j]| ≤ sqrt (u.el [i])) := by
  intro k hk'
  obtain ⟨ops, hrun, -⟩ := hP.run
  obtain ⟨H, p1, p2, p3⟩ := mode_scores hrun hek h hd he hk
  obtain ⟨H₃, s₅, f1, -, f2⟩ := self_scores' hs hd
  rw [p1] at f1; cases f1
  obtain ⟨H₄, s₆, e1, -, e2⟩ := self_scores' ht he
  rw [← hk, p1] at e1; cases e1
  obtain ⟨t, t1, t1'⟩ := p3 k hk'
  obtain ⟨u, u1, u1'⟩ := f2 k hk'
  obtain ⟨v, v1, v1'⟩ := e2 k hk'
  refine ⟨t, u, v, t1, u1, v1, fun hpos hv hu => ?_⟩
  have q := fun a b => sum_quad (Dict.keys d) (fun m => (scoreKeys groups m).count k) (fun m => formAt H.form d i d i m) (fun m => formAt H.form d i e j m)
    (fun m => formAt H.form e j e j m) a b (fun m hm => by
      obtain ⟨g, x, k1, k2, k3⟩ := p2 m hm
      exact form_quad (hess_pos hP p1 hm).2 (hess_pos hP p1 hm).1 k1 k2 k3 a b)
  have t2 := t1' i j hi hj
  rw [u1' i hi] at hu ⊢
  rw [v1' j hj, ← hk] at hpos hv
  simp only [modeFn] at t2
  rw [t2]
  generalize ((Dict.keys d).map fun m => ((scoreKeys groups m).count k : K) * formAt H.form d i e j m).sum = x at *
  generalize ((Dict.keys d).map fun m => ((scoreKeys groups m).count k : K) * formAt H.form e j e j m).sum = y at *
  generalize ((Dict.keys d).map fun m => ((scoreKeys groups m).count k : K) * formAt H.form d i d i m).sum = z at *
  have hxy : x * x ≤ z * y := by
    have := q y (-x)
    have h2 : 0 ≤ y * (z * y - x * x) := by
      refine le_of_le_of_eq this ?_
      ring
    have := nonneg_of_mul_nonneg_right h2 hpos
    linarith
  refine abs_le_of_sq_le_sq ?_ hu.1
  have hsq : sqrt y ≠ 0 := fun h0 => by
    have := hv.2
    rw [h0, mul_zero] at this
    rw [← this] at hpos
    exact lt_irrefl _ hpos
  rw [pow_two, pow_two, hu.2, div_mul_div_comm, hv.2, div_le_iff₀ hpos]
  exact hxy

end C52
end Logix
