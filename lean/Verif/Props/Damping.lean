/-
C109, C110: how large scores can be.
-/
import Verif.Spec.Damping
import Verif.Lemmas.Gram
import Verif.Props.Formula
import Verif.Props.FormulaExample
import Verif.Props.LoraGrad

namespace Logix
open Spec
variable {K : Type} [Field K] [LinearOrder K] [IsStrictOrderedRing K]

theorem dot_finset (sh : List Nat) (f g : List Nat → K) : dot sh f g = ∑ a ∈ (indices sh).toFinset, f a * g a := by
  unfold dot
  rw [List.sum_toFinset _ (indices_nodup sh)]

theorem secondMoment_gram (calls : List (Plugin × StatCall K)) (m : PyStr) (lt : LogType) : IsGram (secondMoment calls m lt) :=
  ⟨allRows (callsOf .covariance m lt calls), ((samples (callsOf .covariance m lt calls) : Nat) : K)⁻¹, inv_nonneg.2 (Nat.cast_nonneg _), fun i j => by
    unfold secondMoment
    rw [div_eq_mul_inv, mul_comm]⟩

theorem IsGram.comp {ι κ : Type} {T : ι → ι → K} (h : IsGram T) (f : κ → ι) : IsGram fun a b => T (f a) (f b) := by
  obtain ⟨Φ, ρ, h0, h⟩ := h
  refine ⟨Φ.map fun φ a => φ (f a), ρ, h0, fun a b => ?_⟩
  dsimp only
  rw [h, List.map_map]
  rfl

theorem sum_flatMap_list {α : Type} (l : List α) (f : α → List K) : (l.flatMap f).sum = (l.map fun a => (f a).sum).sum := by
  induction l with
  | nil => rfl
  | cons a l ih => rw [List.flatMap_cons, List.sum_append, ih, List.map_cons, List.sum_cons]

theorem IsGram.mul {ι : Type} {T U : ι → ι → K} (hT : IsGram T) (hU : IsGram U) : IsGram fun a b => T a b * U a b := by
  obtain ⟨Φ, ρ, h0, h⟩ := hT
  obtain ⟨Ψ, σ, h1, k⟩ := hU
  refine ⟨Φ.flatMap fun φ => Ψ.map fun ψ a => φ a * ψ a, ρ * σ, mul_nonneg h0 h1, fun a b => ?_⟩
  dsimp only
  rw [h, k, List.map_flatMap, sum_flatMap_list]
  simp only [List.map_map]
  have : ∀ φ : ι → K, (Ψ.map ((fun φ => φ a * φ b) ∘ fun ψ a => φ a * ψ a)).sum = (φ a * φ b) * (Ψ.map fun ψ => ψ a * ψ b).sum := by
    intro φ
    rw [← List.sum_map_mul_left]
    exact congrArg List.sum (List.map_congr_left fun ψ _ => by simp only [Function.comp]; ring)
  simp only [this]
  rw [List.sum_map_mul_right]
  ring

/-- The systems of all Hessians are damped systems of Gram matrices. -/
theorem solves_damped (calls : List (Plugin × StatCall K)) (hessian : Hess) (sh : List Nat) (m : PyStr) :
    ∃ T : List Nat → List Nat → K, IsGram T ∧ ∀ (c : K) (d : GLog K) (i : Nat) (x : List Nat → K) (g : Tensor K), Solves calls hessian c d i m x →
      grad d m = some g → g.shape.tail = sh → DampedOn (indices sh).toFinset T c (row g i) x := by
  by_cases hr : hessian = .raw ∨ hessian = .auto ∧ callsOf .covariance m .grad calls ≠ []
  · refine ⟨_, (secondMoment_gram calls m .grad).comp (ravel sh), fun c d i x g hs hg hsh a ha => ?_⟩
    unfold Solves at hs
    rw [if_pos hr] at hs
    obtain ⟨g', hg', h⟩ := hs
    obtain rfl := Option.some.inj (hg.symm.trans hg')
    rw [hsh] at h
    have := h a (List.mem_toFinset.1 ha)
    rw [List.sum_toFinset _ (indices_nodup sh)]
    exact this
  · refine ⟨_, ((secondMoment_gram calls m .backward).comp fun a : List Nat => a.getD 0 0).mul ((secondMoment_gram calls m .forward).comp fun a : List Nat => a.getD 1 0),
      fun c d i x g hs hg hsh a ha => ?_⟩
    unfold Solves at hs
    rw [if_neg hr] at hs
    obtain ⟨g', n, h, w, hg', hs1, h2⟩ := hs
    obtain rfl := Option.some.inj (hg.symm.trans hg')
    rw [hs1] at hsh
    obtain rfl : [h, w] = sh := hsh
    rw [List.sum_toFinset _ (indices_nodup _)]
    have ha' := (mem_indices _ _).1 (List.mem_toFinset.1 ha)
    match a, ha' with
    | [], ha' => cases ha'
    | [_], ha' => simp [inRange] at ha'
    | _ :: _ :: _ :: _, ha' => simp [inRange] at ha'
    | [p, q], ha' =>
      simp only [inRange, Bool.and_eq_true, decide_eq_true_eq] at ha'
      have := h2 p q ha'.1 ha'.2.1
      rw [indices2_sum]
      rw [← show _ = row g i [p, q] from this]
      congr 1
      refine Finset.sum_congr rfl fun p' _ => Finset.sum_congr rfl fun q' _ => ?_
      simp only [List.getD_cons_zero, List.getD_cons_succ]
      rw [(secondMoment_gram calls m .forward).symm q q']
      ring

theorem list_sum_le {α : Type} {l : List α} {f g : α → K} (h : ∀ a ∈ l, f a ≤ g a) : (l.map f).sum ≤ (l.map g).sum := by
  induction l with
  | nil => simp
  | cons a l ih =>
    simp only [List.map_cons, List.sum_cons]
    exact add_le_add (h a List.mem_cons_self) (ih fun b hb => h b (List.mem_cons_of_mem _ hb))

/-- **C109.** With more damping self-influence does not grow; it is never negative, and at most the square of the norm of the gradient over the damping. -/
theorem C109_shrinks {L : Lib K} {calls : List (Plugin × StatCall K)} {s u u' : LState K} {ids : List PyStr} {d : GLog K} {hessian : Hess} {c c' : K}
    {r r' : SelfResult K} (hE : EighOk L) (hI : InverseOk L) (hf : Finalized L calls s) (hl : LoggedAll calls (Dict.keys d) hessian)
    (hc : 0 < c) (hcc : c ≤ c') (hd : Labelled ids d) (h : computeSelf L s ids (.dict d) true hessian none (some c) = .ok (u, r))
    (h' : computeSelf L s ids (.dict d) true hessian none (some c') = .ok (u', r')) :
    ∃ t t', r.influence.get? ['t', 'o', 't', 'a', 'l'] = some t ∧ r'.influence.get? ['t', 'o', 't', 'a', 'l'] = some t' ∧
      t.shape = [ids.length] ∧ t'.shape = [ids.length] ∧ ∀ i, i < ids.length → 0 ≤ t'.el [i] ∧ t'.el [i] ≤ t.el [i] ∧ c * t.el [i] ≤ sqNorm d i := by
  have hc' : 0 < c' := lt_of_lt_of_le hc hcc
  obtain ⟨t, h1, -, h2, h3⟩ := C94_self hE hI hf hl hc hd h
  obtain ⟨t', h1', -, h2', h3'⟩ := C94_self hE hI hf hl hc' hd h'
  refine ⟨t, t', h1, h1', h2, h2', fun i hi => ?_⟩
  obtain ⟨⟨x, hx⟩, e⟩ := h3 i hi
  obtain ⟨⟨y, hy⟩, e'⟩ := h3' i hi
  rw [e x hx, e' y hy]
  have key : ∀ m ∈ Dict.keys d, ∃ g T, grad d m = some g ∧ IsGram T ∧ DampedOn (indices g.shape.tail).toFinset T c (row g i) (x m) ∧
      DampedOn (indices g.shape.tail).toFinset T c' (row g i) (y m) := by
    intro m hm
    obtain ⟨g, hg, -⟩ := hd.rows m hm
    obtain ⟨T, hT, k⟩ := solves_damped calls hessian g.shape.tail m
    exact ⟨g, T, hg, hT, k c d i _ g (hx m hm) hg rfl, k c' d i _ g (hy m hm) hg rfl⟩
  unfold against sqNorm
  refine ⟨?_, list_sum_le fun m hm => ?_, ?_⟩
  · refine list_sum_nonneg fun m hm => ?_
    obtain ⟨g, T, hg, hT, kx, ky⟩ := key m hm
    simp only [hg, dot_finset]
    exact damped_nonneg hT hc'.le ky
  · obtain ⟨g, T, hg, hT, kx, ky⟩ := key m hm
    simp only [hg, dot_finset]
    exact damped_antitone hT hc.le hcc kx ky
  · rw [← List.sum_map_mul_left]
    refine list_sum_le fun m hm => ?_
    obtain ⟨g, T, hg, hT, kx, ky⟩ := key m hm
    simp only [hg, dot_finset]
    exact damped_bound hT hc.le kx

/-- **C110.** The square of the influence of a source on a target is at most the product of their self-influences. -/
theorem C110_cauchy_schwarz {L : Lib K} {sqrt : K → K} {calls : List (Plugin × StatCall K)} {s u u₁ u₂ : LState K} {srcIds tgtIds : List PyStr} {d e : GLog K}
    {hessian : Hess} {c : K} {r : IFResult K} {r₁ r₂ : SelfResult K} (hE : EighOk L) (hI : InverseOk L) (hf : Finalized L calls s)
    (hl : LoggedAll calls (Dict.keys d) hessian) (hc : 0 < c) (hd : Labelled srcIds d) (he : Labelled tgtIds e) (hs : SameSizes d e)
    (h : computeInfluence L sqrt s srcIds (.dict d) tgtIds (.dict e) .dot true hessian none (some c) = .ok (u, r))
    (h₁ : computeSelf L s srcIds (.dict d) true hessian none (some c) = .ok (u₁, r₁))
    (h₂ : computeSelf L s tgtIds (.dict e) true hessian none (some c) = .ok (u₂, r₂)) :
    ∃ t a b, r.influence = .one t ∧ r₁.influence.get? ['t', 'o', 't', 'a', 'l'] = some a ∧ r₂.influence.get? ['t', 'o', 't', 'a', 'l'] = some b ∧
      ∀ i j, i < srcIds.length → j < tgtIds.length → t.el [i, j] * t.el [i, j] ≤ a.el [i] * b.el [j] := by
  obtain ⟨t, e1, -, -, -, e2⟩ := C94_influence hE hI hf hl hc hd he h
  obtain ⟨a, a1, -, -, a2⟩ := C94_self hE hI hf hl hc hd h₁
  obtain ⟨b, b1, -, -, b2⟩ := C94_self hE hI hf (hs.1 ▸ hl) hc he h₂
  refine ⟨t, a, b, e1, a1, b1, fun i j hi hj => ?_⟩
  obtain ⟨⟨x, hx⟩, e3⟩ := e2 i hi
  obtain ⟨⟨y, hy⟩, b3⟩ := b2 j hj
  rw [e3 x hx j hj, (a2 i hi).2 x hx, b3 y hy]
  rw [← hs.1] at hy ⊢
  refine sq_le_of_quad fun τ => ?_
  unfold against
  rw [← List.sum_map_mul_right, ← List.sum_map_mul_left, ← List.sum_map_mul_right, ← List.sum_map_add, ← List.sum_map_add]
  refine list_sum_nonneg fun m hm => ?_
  obtain ⟨g, hg, -⟩ := hd.rows m hm
  obtain ⟨g', hg', -⟩ := he.rows m (hs.1 ▸ hm)
  obtain ⟨T, hT, k⟩ := solves_damped calls hessian g.shape.tail m
  have e5 := hs.2 m g g' hg hg'
  simp only [hg, hg', ← e5, dot_finset]
  exact damped_quad hT hc.le (k c d i _ g (hx m hm) hg rfl) (k c e j _ g' (hy m hm) hg' e5.symm) τ

namespace ExInfl

/-- The self-influences of the first sample with dampings 1 and 2: less with more damping, and less than the square of its norm, 30. -/
example : ∃ u r u' r' t t', computeSelf lib (stOf lib wholeBatch) ids1 (.dict log1) true .auto none (some 1) = .ok (u, r) ∧
    computeSelf lib (stOf lib wholeBatch) ids1 (.dict log1) true .auto none (some 2) = .ok (u', r') ∧
    r.influence.get? kTotal = some t ∧ r'.influence.get? kTotal = some t' ∧ 0 ≤ t'.el [0] ∧ t'.el [0] ≤ t.el [0] ∧ 1 * t.el [0] ≤ 30 := by
  obtain ⟨u, r, h⟩ := isOk (x := computeSelf lib (stOf lib wholeBatch) ids1 (.dict log1) true .auto none (some 1)) (by decide +kernel)
  obtain ⟨u', r', h'⟩ := isOk (x := computeSelf lib (stOf lib wholeBatch) ids1 (.dict log1) true .auto none (some 2)) (by decide +kernel)
  obtain ⟨t, t', h1, h2, -, -, h3⟩ := C109_shrinks eighOk inverseOk finWhole loggedWhole (by decide +kernel) (by decide +kernel) lab1 h h'
  have e : sqNorm log1 0 = 30 := by decide +kernel
  exact ⟨u, r, u', r', t, t', h, h', h1, h2, e ▸ h3 0 (by decide)⟩

/-- The hypotheses of C110 are met, with gradients and with the statistics of KFAC. -/
example : ∃ u r t u₁ r₁ a, computeInfluence lib Rat.sqrt (stOf lib gradCalls) ids1 (.dict log1) ids1 (.dict log1) .dot true .auto none (some 1) = .ok (u, r) ∧
    computeSelf lib (stOf lib gradCalls) ids1 (.dict log1) true .auto none (some 1) = .ok (u₁, r₁) ∧
    r.influence = .one t ∧ r₁.influence.get? kTotal = some a ∧ t.el [0, 1] * t.el [0, 1] ≤ a.el [0] * a.el [1] := by
  obtain ⟨u, r, h⟩ := isOk (x := computeInfluence lib Rat.sqrt (stOf lib gradCalls) ids1 (.dict log1) ids1 (.dict log1) .dot true .auto none (some 1))
    (by decide +kernel)
  obtain ⟨u₁, r₁, h₁⟩ := isOk (x := computeSelf lib (stOf lib gradCalls) ids1 (.dict log1) true .auto none (some 1)) (by decide +kernel)
  obtain ⟨t, a, b, e1, e2, e3, e4⟩ := C110_cauchy_schwarz eighOk inverseOk finGrad loggedGrad (by decide +kernel) lab1 lab1
    ⟨rfl, fun m g k hg hk => by rw [Option.some.inj (hg.symm.trans hk)]⟩ h h₁ h₁
  obtain rfl := Option.some.inj (e2.symm.trans e3)
  exact ⟨u, r, t, u₁, r₁, a, h, h₁, e1, e2, e4 0 1 (by decide) (by decide)⟩

end ExInfl
end Logix
