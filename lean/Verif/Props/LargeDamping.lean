/-
C145: with much damping the scores are the plain inner products.
-/
import Verif.Props.Damping

namespace Logix
open Spec
variable {K : Type} [Field K] [LinearOrder K] [IsStrictOrderedRing K]

section
variable {ι : Type} {s : Finset ι} {T : ι → ι → K} {c : K} {g x : ι → K}

/-- The solution is at most the right hand side over the damping. -/
theorem damped_sq (hT : IsGram T) (hc : 0 < c) (hx : DampedOn s T c g x) : c * c * ∑ a ∈ s, x a * x a ≤ ∑ a ∈ s, g a * g a := by
  have h1 := damped_bound hT hc.le hx
  rw [damped_pair hx x] at h1
  have h2 := mul_nonneg hc.le (hT.nonneg s x)
  rw [mul_add, ← mul_assoc] at h1
  linarith

/-- Damping times the solution differs from the right hand side by a bounded amount over the damping. -/
theorem damped_limit (hT : IsGram T) (hc : 0 < c) (hx : DampedOn s T c g x) (h : ι → K) :
    c * |c * (∑ a ∈ s, x a * h a) - ∑ a ∈ s, g a * h a| ≤
      (∑ a ∈ s, g a * g a) + ∑ a ∈ s, (∑ b ∈ s, T a b * h b) * ∑ b ∈ s, T a b * h b := by
  have e1 : ∑ a ∈ s, g a * h a = (∑ a ∈ s, x a * ∑ b ∈ s, T a b * h b) + c * ∑ a ∈ s, x a * h a := by
    have := damped_pair hx h
    rw [form_symm hT h x] at this
    simp only [Finset.mul_sum, mul_comm (g _), mul_comm (x _) (h _), mul_assoc] at this ⊢
    exact this
  have e2 : c * (∑ a ∈ s, x a * h a) - ∑ a ∈ s, g a * h a = -∑ a ∈ s, x a * ∑ b ∈ s, T a b * h b := by rw [e1]; ring
  rw [e2, abs_neg]
  generalize hv : (fun a => ∑ b ∈ s, T a b * h b) = v
  have hv' : ∀ a, ∑ b ∈ s, T a b * h b = v a := fun a => by rw [← hv]
  simp only [hv']
  have h1 := damped_sq hT hc hx
  have h2 : ∀ σ : K, σ * σ = 1 → 2 * (c * (σ * ∑ a ∈ s, x a * v a)) ≤ c * c * (∑ a ∈ s, x a * x a) + ∑ a ∈ s, v a * v a := by
    intro σ hσ
    have e : c * c * (∑ a ∈ s, x a * x a) + (∑ a ∈ s, v a * v a) - 2 * (c * (σ * ∑ a ∈ s, x a * v a)) =
        ∑ a ∈ s, (c * x a - σ * v a) * (c * x a - σ * v a) := by
      simp only [Finset.mul_sum]
      rw [← Finset.sum_add_distrib, ← Finset.sum_sub_distrib]
      refine Finset.sum_congr rfl fun a _ => ?_
      linear_combination (-(v a * v a)) * hσ
    have := Finset.sum_nonneg (s := s) fun a _ => mul_self_nonneg (c * x a - σ * v a)
    rw [← e] at this
    linarith
  have h3 := sq_sum_nonneg (s := s) v
  have h4 := sq_sum_nonneg (s := s) g
  rcases abs_cases (∑ a ∈ s, x a * v a) with ⟨h5, -⟩ | ⟨h5, -⟩
  · have := h2 1 (by ring)
    rw [h5]; rw [one_mul] at this
    linarith
  · have := h2 (-1) (by ring)
    rw [h5]; rw [neg_one_mul] at this
    linarith
end

omit [LinearOrder K] [IsStrictOrderedRing K] in
theorem sum_map_sub_list {α : Type} (f g : α → K) : ∀ l : List α, (l.map fun a => f a - g a).sum = (l.map f).sum - (l.map g).sum
  | [] => by simp
  | a :: l => by
    simp only [List.map_cons, List.sum_cons, sum_map_sub_list f g l]
    ring

theorem abs_list_sum {α : Type} (f : α → K) : ∀ l : List α, |(l.map f).sum| ≤ (l.map fun a => |f a|).sum
  | [] => by simp
  | a :: l => by
    simp only [List.map_cons, List.sum_cons]
    exact (abs_add_le _ _).trans (add_le_add le_rfl (abs_list_sum f l))

/-- **C145.** For each source `i` and target `j` there is a number `B`, the same for all dampings: with damping `c`, the score times `c` differs from
the score without preconditioning by at most `B / c`. -/
theorem C145_limit {L : Lib K} {sqrt : K → K} {calls : List (Plugin × StatCall K)} {s u₀ : LState K} {srcIds tgtIds : List PyStr} {d e : GLog K}
    {hessian : Hess} {c₀ : Option K} {r₀ : IFResult K} (hE : EighOk L) (hI : InverseOk L) (hf : Finalized L calls s)
    (hl : LoggedAll calls (Dict.keys d) hessian) (hd : Labelled srcIds d) (he : Labelled tgtIds e)
    (h₀ : computeInfluence L sqrt s srcIds (.dict d) tgtIds (.dict e) .dot false hessian none c₀ = .ok (u₀, r₀)) :
    ∃ t₀, r₀.influence = .one t₀ ∧ ∃ B : Nat → Nat → K, ∀ c u r, 0 < c →
      computeInfluence L sqrt s srcIds (.dict d) tgtIds (.dict e) .dot true hessian none (some c) = .ok (u, r) →
        ∃ t, r.influence = .one t ∧ ∀ i j, i < srcIds.length → j < tgtIds.length → |c * t.el [i, j] - t₀.el [i, j]| ≤ B i j / c := by
  obtain ⟨H, t₀, p, ht₀, -, -, -, hsz, hel⟩ := dot_scores h₀ hd he
  unfold PreOf at p
  simp only [Bool.false_eq_true, if_false] at p
  obtain ⟨rfl, rfl⟩ := p
  have key : ∀ i j m, ∃ b : K, ∀ c x, 0 < c → m ∈ Dict.keys d → Solves calls hessian c d i m x →
      c * |c * (match grad e m with | some h => dot h.shape.tail x (row h j) | none => 0) - moduleDot d i e j m| ≤ b := by
    intro i j m
    by_cases hm : m ∈ Dict.keys d
    · obtain ⟨g, h, hg, hh, hs⟩ := hsz m hm
      obtain ⟨T, hT, k⟩ := solves_damped calls hessian g.shape.tail m
      refine ⟨(∑ a ∈ (indices g.shape.tail).toFinset, row g i a * row g i a) +
        ∑ a ∈ (indices g.shape.tail).toFinset, (∑ b ∈ (indices g.shape.tail).toFinset, T a b * row h j b) *
          ∑ b ∈ (indices g.shape.tail).toFinset, T a b * row h j b, fun c x hc _ hx => ?_⟩
      simp only [moduleDot, hg, hh, ← hs, dot_finset]
      exact damped_limit hT hc (k c d i x g hx hg rfl) _
    · exact ⟨0, fun _ _ _ h => absurd h hm⟩
  choose b hb using key
  refine ⟨t₀, ht₀, fun i j => ((Dict.keys d).map (b i j)).sum, fun c u r hc h => ?_⟩
  obtain ⟨t, h1, -, -, -, h2⟩ := C94_influence hE hI hf hl hc hd he h
  refine ⟨t, h1, fun i j hi hj => ?_⟩
  obtain ⟨⟨x, hx⟩, h3⟩ := h2 i hi
  rw [h3 x hx j hj, hel i j hi hj, le_div_iff₀ hc, mul_comm, against]
  have e1 : (Dict.keys d).map (fun m => formAt HessKind.none.form d i e j m) = (Dict.keys d).map fun m => moduleDot d i e j m := rfl
  rw [e1, ← List.sum_map_mul_left, ← sum_map_sub_list]
  refine (mul_le_mul_of_nonneg_left (abs_list_sum _ _) hc.le).trans ?_
  rw [← List.sum_map_mul_left]
  exact list_sum_le fun m hm => hb i j m c (x m) hc hm (hx m hm)

/-- **C145**, the order of the targets: if one target has a larger plain score than another, then with enough damping it has a larger score. -/
theorem C145_order {L : Lib K} {sqrt : K → K} {calls : List (Plugin × StatCall K)} {s u₀ : LState K} {srcIds tgtIds : List PyStr} {d e : GLog K}
    {hessian : Hess} {c₀ : Option K} {r₀ : IFResult K} {t₀ : Tensor K} (hE : EighOk L) (hI : InverseOk L) (hf : Finalized L calls s)
    (hl : LoggedAll calls (Dict.keys d) hessian) (hd : Labelled srcIds d) (he : Labelled tgtIds e)
    (h₀ : computeInfluence L sqrt s srcIds (.dict d) tgtIds (.dict e) .dot false hessian none c₀ = .ok (u₀, r₀)) (ht₀ : r₀.influence = .one t₀)
    {i j k : Nat} (hi : i < srcIds.length) (hj : j < tgtIds.length) (hk : k < tgtIds.length) (hlt : t₀.el [i, j] < t₀.el [i, k]) :
    ∃ C, 0 < C ∧ ∀ c u r, C ≤ c → computeInfluence L sqrt s srcIds (.dict d) tgtIds (.dict e) .dot true hessian none (some c) = .ok (u, r) →
      ∃ t, r.influence = .one t ∧ t.el [i, j] < t.el [i, k] := by
  obtain ⟨t', ht', B, hB⟩ := C145_limit hE hI hf hl hd he h₀
  rw [ht₀] at ht'
  cases ht'
  have hδ := sub_pos.2 hlt
  refine ⟨(|B i j| + |B i k|) / (t₀.el [i, k] - t₀.el [i, j]) + 1, by positivity, fun c u r hC h => ?_⟩
  have hc : 0 < c := lt_of_lt_of_le (by positivity) hC
  obtain ⟨t, h1, h2⟩ := hB c u r hc h
  refine ⟨t, h1, ?_⟩
  have hj' := (abs_le.1 (h2 i j hi hj)).2
  have hk' := (abs_le.1 (h2 i k hi hk)).1
  have h3 : (|B i j| + |B i k|) / (t₀.el [i, k] - t₀.el [i, j]) < c := by linarith
  rw [div_lt_iff₀ hδ, mul_comm, ← div_lt_iff₀ hc, add_div] at h3
  have h4 : B i j / c ≤ |B i j| / c := div_le_div_of_nonneg_right (le_abs_self _) hc.le
  have h5 : B i k / c ≤ |B i k| / c := div_le_div_of_nonneg_right (le_abs_self _) hc.le
  have h6 : c * t.el [i, j] < c * t.el [i, k] := by linarith
  exact lt_of_mul_lt_mul_left h6 hc.le

namespace ExInfl

/-- The plain scores of the first sample against the two samples differ; with enough damping the other scores differ in the same way. -/
example : ∃ u₀ r₀ t₀ C, computeInfluence lib Rat.sqrt (stOf lib gradCalls) ids1 (.dict log1) ids1 (.dict log1) .dot false .auto none none = .ok (u₀, r₀) ∧
    r₀.influence = .one t₀ ∧ t₀.el [0, 0] < t₀.el [0, 1] ∧ ∀ c u r, C ≤ c →
      computeInfluence lib Rat.sqrt (stOf lib gradCalls) ids1 (.dict log1) ids1 (.dict log1) .dot true .auto none (some c) = .ok (u, r) →
        ∃ t, r.influence = .one t ∧ t.el [0, 0] < t.el [0, 1] := by
  obtain ⟨u₀, r₀, h₀⟩ := isOk (x := computeInfluence lib Rat.sqrt (stOf lib gradCalls) ids1 (.dict log1) ids1 (.dict log1) .dot false .auto none none)
    (by decide +kernel)
  obtain ⟨t₀, h1, -⟩ := C145_limit eighOk inverseOk finGrad loggedGrad lab1 lab1 h₀
  have h2 : (match computeInfluence lib Rat.sqrt (stOf lib gradCalls) ids1 (.dict log1) ids1 (.dict log1) .dot false .auto none none with
    | .ok (_, r) => match r.influence with
      | .one t => decide (t.el [0, 0] < t.el [0, 1])
      | _ => false
    | _ => false) = true := by decide +kernel
  simp only [h₀, h1, decide_eq_true_eq] at h2
  obtain ⟨C, -, h3⟩ := C145_order eighOk inverseOk finGrad loggedGrad lab1 lab1 h₀ h1 (i := 0) (j := 0) (k := 1) (by decide) (by decide) (by decide) h2
  exact ⟨u₀, r₀, t₀, C, h₀, h1, h2, h3⟩

/-- Such a call returns. -/
example : ∃ u r, computeInfluence lib Rat.sqrt (stOf lib gradCalls) ids1 (.dict log1) ids1 (.dict log1) .dot true .auto none (some 1000) = .ok (u, r) :=
  isOk (by decide +kernel)

end ExInfl
end Logix
