/-
The form of the inverse Hessian, from any solution of the damped system.
-/
import Verif.Lemmas.Determined
import Verif.Props.Precondition

set_option linter.unusedSectionVars false

namespace Logix
variable {K : Type} [Field K] [LinearOrder K] [IsStrictOrderedRing K]

/-- KFAC: any solution of `B x A + c x = g` gives the form. -/
theorem kfac_solution {L : Lib K} {s s₁ s₂ : LState K} {d : GLog K} {o : LogArg K} {hessian : Hess} {c : K} {H : HessKind K}
    (hP : Spec.PosHessian L s (Dict.keys d) hessian c) (hn : (Dict.keys d).Nodup) (hek : s.hasAttr nEkfac = false) (hu : Spec.UsesKfac s (Dict.keys d) hessian)
    (hpre : precondition L s (.dict d) hessian (some c) = .ok (s₂, o)) (hH : hessOf L s (Dict.keys d) hessian (some c) = .ok (s₁, H)) {m : PyStr}
    (hm : m ∈ Dict.keys d) {A B : Tensor K} (hA : Spec.tensorAt s.attrs nCov [m, LogType.name .forward] = some A)
    (hB : Spec.tensorAt s.attrs nCov [m, LogType.name .backward] = some B) {w h : Nat} (hAs : A.shape = [w, w]) (hBs : B.shape = [h, h])
    (hk' : ∀ m ∈ Dict.keys d, (Spec.tensorAt s.attrs nCov [m, LogType.name .forward]).isSome = true) {g f x : List Nat → K}
    (hx : ∀ p q, p < h → q < w → (∑ p' ∈ Finset.range h, ∑ q' ∈ Finset.range w, B.el [p, p'] * x [p', q'] * A.el [q', q]) + c * x [p, q] = g [p, q]) :
    H.form m [h, w] g f = Spec.dot [h, w] x f := by
  have sA : Spec.Symm A w := by
    obtain ⟨w', h1, -⟩ := posHessian_symm hP hA
    have := h1.1; rw [hAs] at this
    obtain rfl := (List.cons.inj this).1
    exact h1
  have sB : Spec.Symm B h := by
    obtain ⟨w', h1, -⟩ := posHessian_symm hP hB
    have := h1.1; rw [hBs] at this
    obtain rfl := (List.cons.inj this).1
    exact h1
  obtain ⟨wf, ef, wb, eb, dA, dB, hne, hform⟩ := kfac_form hP hn hek hu hpre hH hm hA hB sA sB hk'
  rw [hform, form_of_solution (B := fun i j => B.el [i, j]) (A := fun i j => A.el [i, j]) (P := fun p q => x [p, q]) sB.2 dB.eig dB.rows dA.eig dA.rows hne]
  · unfold Spec.dot
    rw [indices2_sum]
    refine Finset.sum_congr rfl fun p hp => Finset.sum_congr rfl fun q hq => ?_
    rw [Finset.mem_range] at hp hq
    unfold cut
    rw [if_pos (by simp [inRange, hp, hq])]
  · intro p q hp hq
    unfold cut
    rw [if_pos (by simp [inRange, hp, hq])]
    exact hx p q hp hq

/-- The covariance of the gradients: any solution of `C x + c x = g` gives the form. -/
theorem raw_solution {L : Lib K} {s s₁ : LState K} {keys : List PyStr} {hessian : Hess} {c : K} {H : HessKind K} {C : Tensor K} {m : PyStr} {r : List Nat}
    (hP : Spec.PosHessian L s keys hessian c) (hu : Spec.UsesRaw s keys hessian) (hH : hessOf L s keys hessian (some c) = .ok (s₁, H))
    (hk : ∀ m ∈ keys, (Spec.tensorAt s.attrs nCov [m, LogType.name .grad]).isSome = true)
    (hC : Spec.tensorAt s.attrs nCov [m, LogType.name .grad] = some C) (hCs : C.shape = [numel r, numel r]) {g f x : List Nat → K}
    (hx : ∀ idx ∈ indices r, ((indices r).map fun idx' => C.el [ravel r idx, ravel r idx'] * x idx').sum + c * x idx = g idx) :
    H.form m r g f = Spec.dot r x f := by
  obtain ⟨n, sC, -⟩ := posHessian_symm hP hC
  have hn := sC.1
  rw [hCs] at hn
  obtain rfl := (List.cons.inj hn).1
  obtain ⟨i, di, hform⟩ := raw_form hP hu hH hk hC hCs
  rw [hform, if_pos di.shape]
  unfold Spec.dot
  congr 1
  refine List.map_congr_left fun idx hidx => ?_
  congr 1
  have hidx' := (mem_indices _ _).1 hidx
  have hlt := ravel_lt r idx hidx'
  set X : Nat → K := fun a => x ((indices r).getD a []) with hX
  have hXr : ∀ idx ∈ indices r, x idx = X (ravel r idx) := fun idx h => by rw [hX]; simp only [getD_ravel r idx ((mem_indices _ _).1 h)]
  have step : ∀ idx' ∈ indices r, g idx' * i.el [ravel r idx', ravel r idx] =
      (fun b => ((∑ a ∈ Finset.range (numel r), C.el [b, a] * X a) + c * X b) * i.el [b, ravel r idx]) (ravel r idx') := by
    intro idx' h'
    simp only
    rw [← hx idx' h', sum_range_numel, ← hXr idx' h']
    congr 3
    exact List.map_congr_left fun idx'' h'' => by rw [← hXr idx'' h'']
  rw [List.map_congr_left step, ← sum_range_numel r (fun b => ((∑ a ∈ Finset.range (numel r), C.el [b, a] * X a) + c * X b) * i.el [b, ravel r idx])]
  calc _ = ∑ b ∈ Finset.range (numel r), ∑ a ∈ Finset.range (numel r), X a * ((C.el [a, b] + if a = b then c else 0) * i.el [b, ravel r idx]) := by
        refine Finset.sum_congr rfl fun b hb => ?_
        have : c * X b = ∑ a ∈ Finset.range (numel r), (if a = b then c else 0) * X a := by
          simp only [ite_mul, zero_mul]
          rw [Finset.sum_ite_eq', if_pos hb]
        rw [this, ← Finset.sum_add_distrib, Finset.sum_mul]
        refine Finset.sum_congr rfl fun a ha => ?_
        rw [sC.2 b a (Finset.mem_range.1 hb) (Finset.mem_range.1 ha)]
        ring
    _ = ∑ a ∈ Finset.range (numel r), X a * (if a = ravel r idx then 1 else 0) := by
        rw [Finset.sum_comm]
        refine Finset.sum_congr rfl fun a ha => ?_
        rw [← Finset.mul_sum, di.right a _ (Finset.mem_range.1 ha) hlt]
    _ = _ := by
        simp only [mul_ite, mul_one, mul_zero]
        rw [Finset.sum_ite_eq', if_pos (Finset.mem_range.2 hlt), ← hXr idx hidx]

end Logix
