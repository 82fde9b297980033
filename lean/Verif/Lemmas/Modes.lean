/-
Lemmas about scores in all modes, with the same Hessian for scores and norms.
-/
import Verif.Props.Influence

namespace Logix
variable {K : Type}

/-- In every mode one Hessian is used for the scores and the norms, if no fitted eigenvalues are changed in place. -/
theorem mode_scores [Field K] {L : Lib K} {sqrt : K → K} {ops : List (StateOp K)} {s s' : LState K} {srcIds tgtIds : List PyStr} {d e : GLog K} {mode : Mode}
    {hessian : Hess} {groups : Option (List PyStr)} {damping : Option K} {r : IFResult K} (hrun : runOps L .init ops = .ok s)
    (hek : s.hasAttr nEkfac = false)
    (h : computeInfluence L sqrt s srcIds (.dict d) tgtIds (.dict e) mode true hessian groups damping = .ok (s', r))
    (hd : Spec.Labelled srcIds d) (he : Spec.Labelled tgtIds e) (hk : Dict.keys d = Dict.keys e) :
    ∃ H, hessOf L s (Dict.keys d) hessian damping = .ok (s', H) ∧
      (∀ m ∈ Dict.keys d, ∃ g h, Spec.grad d m = some g ∧ Spec.grad e m = some h ∧ g.shape.tail = h.shape.tail) ∧
      ∀ k, k = nTotal ∨ k ∈ groups.getD [] → ∃ t, r.influence.get? k = some t ∧ ∀ i j, i < srcIds.length → j < tgtIds.length →
        t.el [i, j] = modeFn sqrt mode ((Dict.keys d).map fun m => ((scoreKeys groups m).count k : K) * formAt H.form d i e j m).sum
          ((Dict.keys d).map fun m => ((scoreKeys groups m).count k : K) * formAt H.form e j e j m).sum := by
  obtain ⟨H, H', s₁, h1, h2, -, -, h3, -, -, h4⟩ := computeInfluence_ok h hd he
  have h1 : ∃ s₁', hessOf L s (Dict.keys d) hessian damping = .ok (s₁', H) ∧ (H.NoShared → s₁ = s₁') := h1
  obtain ⟨s₂, h1, h1'⟩ := h1
  have hns := noShared hrun hek h1
  obtain rfl := h1' hns
  by_cases hm : mode = .dot
  · subst hm
    rw [if_pos rfl] at h2
    subst h2
    refine ⟨H, h1, h3, fun k hk' => ?_⟩
    obtain ⟨t, k1, -, -, k3⟩ := h4 k hk'
    exact ⟨t, k1, fun i j hi hj => by rw [(k3 (.inl rfl)).2 i j hi hj]; rfl⟩
  · rw [if_neg hm] at h2
    have h2 : ∃ s₃, hessOf L s₁ (Dict.keys e) hessian damping = .ok (s₃, H') ∧ (H'.NoShared → s' = s₃) := h2
    obtain ⟨s₃, h2, h2'⟩ := h2
    rw [← hk, hessOf_idem h1] at h2
    cases h2
    obtain rfl := h2' hns
    refine ⟨H, h1, h3, fun k hk' => ?_⟩
    obtain ⟨t, k1, -, -, k3⟩ := h4 k hk'
    exact ⟨t, k1, fun i j hi hj => by rw [(k3 (.inr hk)).2 i j hi hj, hk]⟩

/-- The same for `compute_self_influence`. -/
theorem self_scores' [Field K] {L : Lib K} {s s' : LState K} {ids : List PyStr} {d : GLog K} {hessian : Hess} {groups : Option (List PyStr)}
    {damping : Option K} {r : SelfResult K} (h : computeSelf L s ids (.dict d) true hessian groups damping = .ok (s', r)) (hd : Spec.Labelled ids d) :
    ∃ H s₁, hessOf L s (Dict.keys d) hessian damping = .ok (s₁, H) ∧ (H.NoShared → s' = s₁) ∧
      ∀ k, k = nTotal ∨ k ∈ groups.getD [] → ∃ t, r.influence.get? k = some t ∧
      ∀ i, i < ids.length → t.el [i] = ((Dict.keys d).map fun m => ((scoreKeys groups m).count k : K) * formAt H.form d i d i m).sum := by
  obtain ⟨H, h1, h2, -, h3⟩ := computeSelf_ok h hd
  have h1 : ∃ s₁', hessOf L s (Dict.keys d) hessian damping = .ok (s₁', H) ∧ (H.NoShared → s' = s₁') := h1
  obtain ⟨s₁, h1, h1'⟩ := h1
  refine ⟨H, s₁, h1, h1', fun k hk => ?_⟩
  obtain ⟨t, h4, -, -, -, -, h6⟩ := h3 k hk
  exact ⟨t, h4, h6⟩

theorem Spec.SameSample.comb [Semiring K] {d e : GLog K} {i j : Nat} (h : Spec.SameSample d i e j) : Spec.SampleComb 1 d i 0 d i e j := by
  refine ⟨h.keys, h.keys, fun m hm => ?_⟩
  obtain ⟨g, x, h1, h2, h3, h4⟩ := h.rows m hm
  exact ⟨g, g, x, h1, h1, h2, h3, h3, fun idx hidx => by rw [h4 idx hidx]; simp⟩

theorem Spec.SameSample.formAt [Field K] {d d' e e' : GLog K} {i i' j j' : Nat} (h : Spec.SameSample d i d' i') (h' : Spec.SameSample e j e' j') (H : HessKind K)
    {m : PyStr} (hm : m ∈ Dict.keys d') (hm' : m ∈ Dict.keys e')
    (hs : ∀ g z, Spec.grad e' m = some g → Spec.grad d' m = some z → g.shape.tail = z.shape.tail) :
    formAt H.form d i e j m = formAt H.form d' i' e' j' m := by
  have h1 := formAt_comb_right (x := d') (l := i') h'.comb H hm' hs
  have h2 := formAt_comb_left (x := e) (l := j) h.comb H hm
  rw [zero_mul, one_mul, add_zero] at h1 h2
  rw [h1, h2]

theorem Spec.SameSample.sameRows [Zero K] {d e : GLog K} {i j : Nat} (h : Spec.SameSample d i e j) : Spec.SameRows d i e j := h.rows

theorem Spec.SameRows.formAt [Field K] {e e' d : GLog K} {j j' : Nat} (h : Spec.SameRows e j e' j') (H : HessKind K) (i : Nat) {m : PyStr} (hm : m ∈ Dict.keys e')
    (hs : ∀ g z, Spec.grad e' m = some g → Spec.grad d m = some z → g.shape.tail = z.shape.tail) :
    formAt H.form d i e j m = formAt H.form d i e' j' m := by
  obtain ⟨g, x, h1, h2, h3, h4⟩ := h m hm
  unfold Logix.formAt
  simp only [h1, h2]
  cases hz : Spec.grad d m with
  | none => rfl
  | some z =>
    simp only
    refine form_congr H m (fun _ _ => rfl) fun idx hidx => ?_
    rw [← hs x z h2 hz] at hidx
    exact (h4 idx hidx).symm

/-- A symmetric positive form on two samples: the square of any combination is not negative. -/
theorem form_quad [Field K] [LinearOrder K] [IsStrictOrderedRing K] {H : HessKind K} {m : PyStr} (hs : H.SymmAt m) (hp : H.PosAt m) {d e : GLog K} {i j : Nat}
    {g h : Tensor K} (hg : Spec.grad d m = some g) (hh : Spec.grad e m = some h) (ht : g.shape.tail = h.shape.tail) (a b : K) :
    0 ≤ a * a * formAt H.form d i d i m + b * (2 * (a * formAt H.form d i e j m)) + b * b * formAt H.form e j e j m := by
  have := hp g.shape.tail fun idx => a * Spec.row g i idx + b * Spec.row h j idx
  rw [form_lin_left, form_lin_right, form_lin_right, hs _ (Spec.row h j)] at this
  simp only [formAt, hg, hh, ← ht]
  refine le_of_le_of_eq this ?_
  ring

theorem sum_quad [Field K] [LinearOrder K] [IsStrictOrderedRing K] {α : Type} (l : List α) (n : α → Nat) (x y z : α → K) (a b : K)
    (h : ∀ m ∈ l, 0 ≤ a * a * x m + b * (2 * (a * y m)) + b * b * z m) :
    0 ≤ a * a * (l.map fun m => (n m : K) * x m).sum + b * (2 * (a * (l.map fun m => (n m : K) * y m).sum)) + b * b * (l.map fun m => (n m : K) * z m).sum := by
  induction l with
  | nil => simp
  | cons m l ih =>
    have h1 := mul_nonneg (Nat.cast_nonneg (n m) : (0 : K) ≤ _) (h m (by simp))
    have h2 := ih fun m hm => h m (List.mem_cons_of_mem _ hm)
    simp only [List.map_cons, List.sum_cons]
    refine le_of_le_of_eq (add_nonneg h1 h2) ?_
    ring

end Logix
