/-
C151: scores of sums of gradients are the sums of the scores.
-/
import Verif.Spec.Bilinear
import Verif.Props.NoPrecondition

namespace Logix
open Spec
variable {K : Type} [Field K]

theorem dot_weighted (r : List Nat) (ws : List (K × Nat)) (f : Nat → List Nat → K) (h : List Nat → K) :
    dot r (fun idx => (ws.map fun w => w.1 * f w.2 idx).sum) h = (ws.map fun w => w.1 * dot r (f w.2) h).sum := by
  induction ws with
  | nil => simp [dot]
  | cons w ws ih =>
    simp only [List.map_cons, List.sum_cons]
    rw [← ih]
    unfold dot
    rw [← List.sum_map_mul_left, ← List.sum_map_add]
    exact congrArg List.sum (List.map_congr_left fun idx _ => by ring)

theorem rotF_weighted (ef eb : Tensor K) (r : List Nat) (ws : List (K × Nat)) (f : Nat → List Nat → K) (a b : Nat) :
    rotF ef eb (cut r fun idx => (ws.map fun w => w.1 * f w.2 idx).sum) a b = (ws.map fun w => w.1 * rotF ef eb (cut r (f w.2)) a b).sum := by
  induction ws with
  | nil => simp [rotF, cut]
  | cons w ws ih =>
    simp only [List.map_cons, List.sum_cons]
    rw [← ih]
    unfold rotF
    simp only [Finset.mul_sum, ← Finset.sum_add_distrib]
    refine Finset.sum_congr rfl fun p _ => Finset.sum_congr rfl fun q _ => ?_
    unfold cut
    split <;> ring

/-- The form of the inverse Hessian is linear in the first argument. -/
theorem form_weighted (H : HessKind K) (m : PyStr) (r : List Nat) (ws : List (K × Nat)) (f : Nat → List Nat → K) (h : List Nat → K) :
    H.form m r (fun idx => (ws.map fun w => w.1 * f w.2 idx).sum) h = (ws.map fun w => w.1 * H.form m r (f w.2) h).sum := by
  have hz : (ws.map fun w => w.1 * (0 : K)).sum = 0 := by simp
  cases H with
  | none => exact dot_weighted r ws f h
  | kfac vals vecs d =>
    simp only [HessKind.form]
    split
    · simp only [rotF_weighted]
      clear hz
      induction ws with
      | nil => simp
      | cons w ws ih =>
        simp only [List.map_cons, List.sum_cons]
        rw [← ih]
        simp only [Finset.mul_sum, ← Finset.sum_add_distrib]
        exact Finset.sum_congr rfl fun a _ => Finset.sum_congr rfl fun b _ => by ring
    · exact hz.symm
  | raw inv =>
    simp only [HessKind.form]
    split
    · next i _ =>
      split
      · have := dot_weighted r ws (fun k idx => ((indices r).map fun idx' => f k idx' * i.el [ravel r idx', ravel r idx]).sum) h
        unfold dot at this
        rw [← this]
        refine congrArg List.sum (List.map_congr_left fun idx _ => ?_)
        congr 1
        exact dot_weighted r ws f fun idx' => i.el [ravel r idx', ravel r idx]
      · exact hz.symm
    · exact hz.symm

/-- And in the second. -/
theorem form_weighted' (H : HessKind K) (m : PyStr) (r : List Nat) (ws : List (K × Nat)) (f : Nat → List Nat → K) (g : List Nat → K) :
    H.form m r g (fun idx => (ws.map fun w => w.1 * f w.2 idx).sum) = (ws.map fun w => w.1 * H.form m r g (f w.2)).sum := by
  have hz : (ws.map fun w => w.1 * (0 : K)).sum = 0 := by simp
  have hdot : ∀ g : List Nat → K, dot r g (fun idx => (ws.map fun w => w.1 * f w.2 idx).sum) = (ws.map fun w => w.1 * dot r g (f w.2)).sum := fun g => by
    rw [dot_comm, dot_weighted]
    exact congrArg List.sum (List.map_congr_left fun w _ => by rw [dot_comm])
  cases H with
  | none => exact hdot g
  | kfac vals vecs d =>
    simp only [HessKind.form]
    split
    · simp only [rotF_weighted]
      clear hz hdot
      induction ws with
      | nil => simp
      | cons w ws ih =>
        simp only [List.map_cons, List.sum_cons]
        rw [← ih]
        simp only [Finset.mul_sum, ← Finset.sum_add_distrib]
        exact Finset.sum_congr rfl fun a _ => Finset.sum_congr rfl fun b _ => by ring
    · exact hz.symm
  | raw inv =>
    simp only [HessKind.form]
    split
    · split
      · exact hdot _
      · exact hz.symm
    · exact hz.symm

theorem sum_swap_weighted (ks : List PyStr) (ws : List (K × Nat)) (a : PyStr → K) (f : PyStr → Nat → K) :
    (ks.map fun m => a m * (ws.map fun w => w.1 * f m w.2).sum).sum = (ws.map fun w => w.1 * (ks.map fun m => a m * f m w.2).sum).sum := by
  induction ks with
  | nil => simp
  | cons m ks ih =>
    simp only [List.map_cons, List.sum_cons, ih, mul_add, List.sum_map_add]
    congr 1
    rw [← List.sum_map_mul_left]
    exact congrArg List.sum (List.map_congr_left fun w _ => by ring)

variable {L : Lib K} {sqrt : K → K} {s u u' : LState K} {pre : Bool} {hessian : Hess} {groups : Option (List PyStr)} {c : Option K} {r r' : IFResult K}

/-- **C151, sources.** In mode dot, with any Hessian and any damping (also the default), in every state: if the gradient of a source is the sum of the gradients of other
sources with weights, in all modules, its scores are the sums of their scores with these weights, in total and for all groups. -/
theorem C151_source {srcIds srcIds' tgtIds : List PyStr} {d d' e : GLog K} (hd : Labelled srcIds d) (hd' : Labelled srcIds' d') (he : Labelled tgtIds e)
    (hk : Dict.keys d = Dict.keys d') (h : computeInfluence L sqrt s srcIds (.dict d) tgtIds (.dict e) .dot pre hessian groups c = .ok (u, r))
    (h' : computeInfluence L sqrt s srcIds' (.dict d') tgtIds (.dict e) .dot pre hessian groups c = .ok (u', r')) :
    ∀ k, k = ['t', 'o', 't', 'a', 'l'] ∨ k ∈ groups.getD [] → ∃ t t', r.influence.get? k = some t ∧ r'.influence.get? k = some t' ∧
      ∀ i ws, i < srcIds.length → (∀ w ∈ ws, w.2 < srcIds'.length) → WeightedSum ws d' d (Dict.keys d) i →
        ∀ j, j < tgtIds.length → t.el [i, j] = (ws.map fun w => w.1 * t'.el [w.2, j]).sum := by
  intro k hkk
  obtain ⟨H, _, s₁, p, -, -, -, sz, -, -, g⟩ := computeInfluence_ok h hd he
  obtain ⟨H', _, s₂, p', -, -, -, -, -, -, g'⟩ := computeInfluence_ok h' hd' he
  rw [← hk] at p'
  obtain rfl := preOf_unique p p'
  obtain ⟨t, a1, -, -, a3⟩ := g k hkk
  obtain ⟨t', b1, -, -, b3⟩ := g' k hkk
  refine ⟨t, t', a1, b1, fun i ws hi hws hsum j hj => ?_⟩
  have hw : (ws.map fun w => w.1 * t'.el [w.2, j]) = ws.map fun w => w.1 * ((Dict.keys d).map fun m => (List.count k (scoreKeys groups m) : K) * formAt H.form d' w.2 e j m).sum :=
    List.map_congr_left fun w hw => by rw [(b3 (.inl rfl)).2 w.2 j (hws w hw) hj, hk]; rfl
  rw [(a3 (.inl rfl)).2 i j hi hj, hw]
  simp only [modeFn]
  rw [← sum_swap_weighted (Dict.keys d) ws (fun m => (List.count k (scoreKeys groups m) : K)) fun m v => formAt H.form d' v e j m]
  refine congrArg List.sum (List.map_congr_left fun m hm => ?_)
  congr 1
  obtain ⟨x, x', q1, q2, q3, q4⟩ := hsum m hm
  obtain ⟨_, y, -, z2, -⟩ := sz m hm
  simp only [formAt, q1, q2, z2]
  rw [show row x i = fun idx => (ws.map fun w => w.1 * row x' w.2 idx).sum from funext q4, form_weighted, q3]

/-- **C151, targets.** The same for the targets. -/
theorem C151_target {srcIds tgtIds tgtIds' : List PyStr} {d e e' : GLog K} (hd : Labelled srcIds d) (he : Labelled tgtIds e) (he' : Labelled tgtIds' e')
    (h : computeInfluence L sqrt s srcIds (.dict d) tgtIds (.dict e) .dot pre hessian groups c = .ok (u, r))
    (h' : computeInfluence L sqrt s srcIds (.dict d) tgtIds' (.dict e') .dot pre hessian groups c = .ok (u', r')) :
    ∀ k, k = ['t', 'o', 't', 'a', 'l'] ∨ k ∈ groups.getD [] → ∃ t t', r.influence.get? k = some t ∧ r'.influence.get? k = some t' ∧
      ∀ j ws, j < tgtIds.length → (∀ w ∈ ws, w.2 < tgtIds'.length) → WeightedSum ws e' e (Dict.keys d) j →
        ∀ i, i < srcIds.length → t.el [i, j] = (ws.map fun w => w.1 * t'.el [i, w.2]).sum := by
  intro k hkk
  obtain ⟨H, _, s₁, p, -, -, -, sz, -, -, g⟩ := computeInfluence_ok h hd he
  obtain ⟨H', _, s₂, p', -, -, -, -, -, -, g'⟩ := computeInfluence_ok h' hd he'
  obtain rfl := preOf_unique p p'
  obtain ⟨t, a1, -, -, a3⟩ := g k hkk
  obtain ⟨t', b1, -, -, b3⟩ := g' k hkk
  refine ⟨t, t', a1, b1, fun j ws hj hws hsum i hi => ?_⟩
  have hw : (ws.map fun w => w.1 * t'.el [i, w.2]) = ws.map fun w => w.1 * ((Dict.keys d).map fun m => (List.count k (scoreKeys groups m) : K) * formAt H.form d i e' w.2 m).sum :=
    List.map_congr_left fun w hw => by rw [(b3 (.inl rfl)).2 i w.2 hi (hws w hw)]; rfl
  rw [(a3 (.inl rfl)).2 i j hi hj, hw]
  simp only [modeFn]
  rw [← sum_swap_weighted (Dict.keys d) ws (fun m => (List.count k (scoreKeys groups m) : K)) fun m v => formAt H.form d i e' v m]
  refine congrArg List.sum (List.map_congr_left fun m hm => ?_)
  congr 1
  obtain ⟨x, x', q1, q2, q3, q4⟩ := hsum m hm
  obtain ⟨y, _, z1, -, -⟩ := sz m hm
  simp only [formAt, q1, q2, z1]
  rw [show row x j = fun idx => (ws.map fun w => w.1 * row x' w.2 idx).sum from funext q4, form_weighted']

namespace ExInfl

/-- One sample: the gradient of the first sample of `log1` plus twice the gradient of the second. -/
def logSum : GLog Rat := [(nmA, [(LogType.name .grad, ⟨.cpu, [1, 1, 2], [7, 10], rfl⟩)]), (nmB, [(LogType.name .grad, ⟨.cpu, [1, 1, 1], [17], rfl⟩)])]

theorem labSum : Spec.Labelled [['s']] logSum := by
  refine ⟨by decide +kernel, fun m hm => ?_⟩
  simp only [logSum, Dict.keys, List.map_cons, List.map_nil, List.mem_cons, List.not_mem_nil, or_false] at hm
  rcases hm with rfl | rfl
  · exact ⟨_, rfl, rfl⟩
  · exact ⟨_, rfl, rfl⟩

theorem sum_el {g g' : Tensor Rat} {n n' : Nat} {r : List Nat} (h : g.shape = n :: r) (h' : g'.shape = n' :: r) (i : Nat) (ws : List (Rat × Nat))
    (H : ∀ idx ∈ indices r, g.el (i :: idx) = (ws.map fun w => w.1 * g'.el (w.2 :: idx)).sum) (idx : List Nat) :
    g.el (i :: idx) = (ws.map fun w => w.1 * g'.el (w.2 :: idx)).sum := by
  by_cases hr : inRange r idx = true
  · exact H idx ((mem_indices _ _).2 hr)
  · have e : ∀ {x : Tensor Rat} {k}, x.shape = k :: r → ∀ v, x.el (v :: idx) = 0 := fun {x k} hx v =>
      Tensor.el_of_not x _ (by rw [hx]; simp [inRange, Bool.eq_false_iff.2 hr])
    rw [e h, List.map_congr_left (g := fun _ => (0 : Rat)) fun w _ => by rw [e h', mul_zero]]
    simp

theorem sumOf : WeightedSum [(1, 0), (2, 1)] log1 logSum (Dict.keys logSum) 0 := by
  intro m hm
  simp only [logSum, Dict.keys, List.map_cons, List.map_nil, List.mem_cons, List.not_mem_nil, or_false] at hm
  rcases hm with rfl | rfl
  · exact ⟨_, _, rfl, rfl, rfl, sum_el rfl rfl 0 _ (by decide +kernel)⟩
  · exact ⟨_, _, rfl, rfl, rfl, sum_el rfl rfl 0 _ (by decide +kernel)⟩

/-- The hypotheses of both theorems are met, with preconditioning. -/
example : ∃ u r u' r' v q t t' p,
    computeInfluence lib Rat.sqrt (stOf lib gradCalls) [['s']] (.dict logSum) ids1 (.dict log1) .dot true .auto none (some 1) = .ok (u, r) ∧
    computeInfluence lib Rat.sqrt (stOf lib gradCalls) ids1 (.dict log1) ids1 (.dict log1) .dot true .auto none (some 1) = .ok (u', r') ∧
    computeInfluence lib Rat.sqrt (stOf lib gradCalls) ids1 (.dict log1) [['s']] (.dict logSum) .dot true .auto none (some 1) = .ok (v, q) ∧
    r.influence.get? kTotal = some t ∧ r'.influence.get? kTotal = some t' ∧ q.influence.get? kTotal = some p ∧
    t.el [0, 1] = t'.el [0, 1] + 2 * t'.el [1, 1] ∧ p.el [1, 0] = t'.el [1, 0] + 2 * t'.el [1, 1] := by
  obtain ⟨u, r, h⟩ := isOk (x := computeInfluence lib Rat.sqrt (stOf lib gradCalls) [['s']] (.dict logSum) ids1 (.dict log1) .dot true .auto none (some 1)) (by decide +kernel)
  obtain ⟨u', r', h'⟩ := isOk (x := computeInfluence lib Rat.sqrt (stOf lib gradCalls) ids1 (.dict log1) ids1 (.dict log1) .dot true .auto none (some 1)) (by decide +kernel)
  obtain ⟨v, q, hq⟩ := isOk (x := computeInfluence lib Rat.sqrt (stOf lib gradCalls) ids1 (.dict log1) [['s']] (.dict logSum) .dot true .auto none (some 1)) (by decide +kernel)
  obtain ⟨t, t', a1, a2, a3⟩ := C151_source labSum lab1 lab1 rfl h h' kTotal (.inl rfl)
  obtain ⟨p, t'', b1, b2, b3⟩ := C151_target lab1 labSum lab1 hq h' kTotal (.inl rfl)
  obtain rfl := Option.some.inj (a2.symm.trans b2)
  have e := a3 0 [(1, 0), (2, 1)] (by decide) (by decide) sumOf 1 (by decide)
  have e' := b3 0 [(1, 0), (2, 1)] (by decide) (by decide) sumOf 1 (by decide)
  simp only [List.map_cons, List.map_nil, List.sum_cons, List.sum_nil, one_mul, add_zero] at e e'
  exact ⟨u, r, u', r', v, q, t, t', p, h, h', hq, a1, a2, b1, e, e'⟩

end ExInfl
end Logix
