/-
The preconditioned gradients solve the damped linear systems.
-/
import Verif.Lemmas.Scores
import Verif.Props.Hessian

namespace Logix
variable {K : Type}

/-! ### Linear algebra -/

theorem sum_ite_eq_range [Semiring K] (n : Nat) (f : Nat → K) {a : Nat} (ha : a < n) :
    ∑ k ∈ Finset.range n, (if a = k then 1 else 0) * f k = f a := by
  simp only [ite_mul, one_mul, zero_mul]
  rw [Finset.sum_ite_eq, if_pos (Finset.mem_range.2 ha)]

/-- With `B = Eb diag(wb) Ebᵀ`, `A = Ef diag(wf) Efᵀ` and `P = Eb ((Ebᵀ G Ef) / (wb wfᵀ + d)) Efᵀ`: `B P A + d P = G`. -/
theorem kfac_math [Field K] {o w : Nat} {B A eb ef G P : Nat → Nat → K} {wb wf : Nat → K} {d : K}
    (hb : ∀ i a, i < o → a < o → ∑ j ∈ Finset.range o, B i j * eb j a = wb a * eb i a)
    (hbo : ∀ i j, i < o → j < o → ∑ a ∈ Finset.range o, eb i a * eb j a = if i = j then 1 else 0)
    (hA : ∀ i j, i < w → j < w → A i j = A j i)
    (hf : ∀ i a, i < w → a < w → ∑ j ∈ Finset.range w, A i j * ef j a = wf a * ef i a)
    (hfo : ∀ i j, i < w → j < w → ∑ a ∈ Finset.range w, ef i a * ef j a = if i = j then 1 else 0)
    (hd : ∀ a b, a < o → b < w → wb a * wf b + d ≠ 0)
    (hP : ∀ x y, x < o → y < w → P x y = ∑ a ∈ Finset.range o, ∑ b ∈ Finset.range w,
      eb x a * ((∑ p ∈ Finset.range o, ∑ q ∈ Finset.range w, eb p a * G p q * ef q b) / (wb a * wf b + d)) * ef y b)
    {x y : Nat} (hx : x < o) (hy : y < w) :
    (∑ x' ∈ Finset.range o, ∑ y' ∈ Finset.range w, B x x' * P x' y' * A y' y) + d * P x y = G x y := by
  set R : Nat → Nat → K := fun a b => ∑ p ∈ Finset.range o, ∑ q ∈ Finset.range w, eb p a * G p q * ef q b with hR
  have h1 : ∑ x' ∈ Finset.range o, ∑ y' ∈ Finset.range w, B x x' * P x' y' * A y' y =
      ∑ a ∈ Finset.range o, ∑ b ∈ Finset.range w, (wb a * wf b) * (eb x a * (R a b / (wb a * wf b + d)) * ef y b) := by
    calc _ = ∑ x' ∈ Finset.range o, ∑ y' ∈ Finset.range w, ∑ a ∈ Finset.range o, ∑ b ∈ Finset.range w,
          (B x x' * eb x' a) * (R a b / (wb a * wf b + d)) * (A y y' * ef y' b) := by
          refine Finset.sum_congr rfl fun x' hx' => Finset.sum_congr rfl fun y' hy' => ?_
          rw [Finset.mem_range] at hx' hy'
          rw [hP x' y' hx' hy', hA y' y hy' hy, Finset.mul_sum, Finset.sum_mul]
          refine Finset.sum_congr rfl fun a _ => ?_
          rw [Finset.mul_sum, Finset.sum_mul]
          exact Finset.sum_congr rfl fun b _ => by ring
      _ = ∑ a ∈ Finset.range o, ∑ b ∈ Finset.range w, ∑ x' ∈ Finset.range o, ∑ y' ∈ Finset.range w,
          (B x x' * eb x' a) * (R a b / (wb a * wf b + d)) * (A y y' * ef y' b) := by
          rw [Finset.sum_congr rfl fun x' _ => Finset.sum_comm, Finset.sum_comm]
          refine Finset.sum_congr rfl fun a _ => ?_
          rw [Finset.sum_congr rfl fun x' _ => Finset.sum_comm, Finset.sum_comm]
      _ = _ := by
          refine Finset.sum_congr rfl fun a ha => Finset.sum_congr rfl fun b hb' => ?_
          rw [Finset.mem_range] at ha hb'
          rw [Finset.sum_congr rfl fun x' _ => (Finset.mul_sum _ _ _).symm, ← Finset.sum_mul, ← Finset.sum_mul, hb x a hx ha, hf y b hy hb']
          ring
  rw [h1, hP x y hx hy, Finset.mul_sum, ← Finset.sum_add_distrib]
  calc _ = ∑ a ∈ Finset.range o, ∑ b ∈ Finset.range w, eb x a * R a b * ef y b := by
        refine Finset.sum_congr rfl fun a ha => ?_
        rw [Finset.mul_sum, ← Finset.sum_add_distrib]
        refine Finset.sum_congr rfl fun b hb' => ?_
        rw [Finset.mem_range] at ha hb'
        have hc : R a b = (wb a * wf b + d) * (R a b / (wb a * wf b + d)) := (mul_div_cancel₀ _ (hd a b ha hb')).symm
        rw [hc]
        show _ + d * (eb x a * (R a b / (wb a * wf b + d)) * ef y b) = _
        rw [← hc]
        conv_rhs => rw [hc]
        ring
    _ = ∑ p ∈ Finset.range o, ∑ q ∈ Finset.range w, (∑ a ∈ Finset.range o, eb x a * eb p a) * G p q * (∑ b ∈ Finset.range w, ef y b * ef q b) := by
        rw [show (∑ a ∈ Finset.range o, ∑ b ∈ Finset.range w, eb x a * R a b * ef y b) =
          ∑ a ∈ Finset.range o, ∑ b ∈ Finset.range w, ∑ p ∈ Finset.range o, ∑ q ∈ Finset.range w, (eb x a * eb p a) * G p q * (ef y b * ef q b) from ?_]
        · rw [Finset.sum_congr rfl fun a _ => Finset.sum_comm, Finset.sum_comm]
          refine Finset.sum_congr rfl fun p _ => ?_
          rw [Finset.sum_congr rfl fun a _ => Finset.sum_comm, Finset.sum_comm]
          refine Finset.sum_congr rfl fun q _ => ?_
          rw [Finset.sum_congr rfl fun a _ => (Finset.mul_sum _ _ _).symm, ← Finset.sum_mul, ← Finset.sum_mul]
        · refine Finset.sum_congr rfl fun a _ => Finset.sum_congr rfl fun b _ => ?_
          simp only [hR]
          rw [Finset.mul_sum, Finset.sum_mul]
          refine Finset.sum_congr rfl fun p _ => ?_
          rw [Finset.mul_sum, Finset.sum_mul]
          exact Finset.sum_congr rfl fun q _ => by ring
    _ = _ := by
        calc _ = ∑ p ∈ Finset.range o, ∑ q ∈ Finset.range w, (if x = p then 1 else 0) * G p q * (if y = q then 1 else 0) := by
              refine Finset.sum_congr rfl fun p hp => Finset.sum_congr rfl fun q hq => ?_
              rw [Finset.mem_range] at hp hq
              rw [hbo x p hx hp, hfo y q hy hq]
          _ = ∑ p ∈ Finset.range o, (if x = p then 1 else 0) * ∑ q ∈ Finset.range w, (if y = q then 1 else 0) * G p q := by
              refine Finset.sum_congr rfl fun p _ => ?_
              rw [Finset.mul_sum]
              exact Finset.sum_congr rfl fun q _ => by ring
          _ = _ := by
              rw [sum_ite_eq_range o (fun p => ∑ q ∈ Finset.range w, (if y = q then 1 else 0) * G p q) hx, sum_ite_eq_range w (fun q => G x q) hy]

/-! ### What the state holds -/

theorem tensorAt_congr [Semiring K] {s s' : LState K} {n : PyStr} (h : Dict.get? s'.attrs n = Dict.get? s.attrs n) (p : Path) :
    Spec.tensorAt s'.attrs n p = Spec.tensorAt s.attrs n p := by
  unfold Spec.tensorAt; rw [h]

theorem svd_sound [Field K] {L : Lib K} {ops : List (StateOp K)} {s s₁ : LState K} {n : PyStr} (hrun : runOps L .init ops = .ok s)
    (hE : Spec.EighOk L) (hs : Spec.SvdFresh s) (h : s.getCovarianceSvd L = .ok (s₁, n)) :
    Spec.SvdFresh s₁ ∧ s₁.hasAttr nEigvec = true ∧ (∀ n, n ≠ nEigval → n ≠ nEigvec → Dict.get? s₁.attrs n = Dict.get? s.attrs n) ∧
      (n = if s.hasAttr nEkfac then nEkfac else nEigval) := by
  have F := (getCovarianceSvd_frame L h).2
  have hek : s₁.hasAttr nEkfac = s.hasAttr nEkfac := by unfold LState.hasAttr; rw [F _ (by decide) (by decide)]
  have hn : n = if s₁.hasAttr nEkfac then nEkfac else nEigval := by
    unfold LState.getCovarianceSvd at h
    split at h
    · cases h
    · cases h; rfl
  rw [hek] at hn
  cases hv : s.hasAttr nEigvec with
  | true =>
    have hs1 : s₁ = s := by
      unfold LState.getCovarianceSvd at h
      rw [hs.both, hv] at h
      simp only [Bool.and_self, if_true] at h
      cases h; rfl
    subst hs1
    exact ⟨hs, hv, fun _ _ _ => rfl, hn⟩
  | false =>
    have hval : s.hasAttr nEigval = false := hs.both.trans hv
    have hhas : s₁.hasAttr nEigval = true ∧ s₁.hasAttr nEigvec = true := by
      unfold LState.getCovarianceSvd at h
      rw [hv, hval] at h
      simp only [Bool.and_self, Bool.false_eq_true, if_false] at h
      split at h
      · cases h
      · next h3 => cases h; exact covarianceSvd_both h3
    refine ⟨⟨by rw [hhas.1, hhas.2], fun _ m t x k hx hsym => ?_⟩, hhas.2, F, hn⟩
    rw [tensorAt_congr (F nCov (by decide) (by decide))] at hx
    obtain ⟨-, w, v, h1, h2, h3⟩ := C42_first_svd_partial L hrun ⟨hv, hval⟩ h hx
    exact ⟨w, v, h2, h3, (hE x k hsym w v h1).1⟩

theorem inv_sound [Field K] {L : Lib K} {ops : List (StateOp K)} {s s₁ : LState K} {inv : StateDict K} {c : K} (hrun : runOps L .init ops = .ok s)
    (hI : Spec.InverseOk L) (hs : Spec.InvFresh s c) (h : s.getCovarianceInverse L (some c) = .ok (s₁, inv)) :
    Spec.InvFresh s₁ c ∧ s₁.getAttr nInverse = .ok inv ∧ (∀ n, n ≠ nInverse → Dict.get? s₁.attrs n = Dict.get? s.attrs n) := by
  have F := (getCovarianceInverse_frame L h).2
  have hinv : s₁.getAttr nInverse = .ok inv := by
    unfold LState.getCovarianceInverse at h
    split at h
    · cases h
    · split at h
      · cases h
      · next d hd => cases h; exact hd
  refine ⟨?_, hinv, F⟩
  cases hv : s.hasAttr nInverse with
  | true =>
    have hs1 : s₁ = s := by
      unfold LState.getCovarianceInverse at h
      rw [hv] at h
      simp only [if_true] at h
      split at h
      · cases h
      · cases h; rfl
    subst hs1
    exact hs
  | false =>
    intro _ m t x n hx hsh
    rw [tensorAt_congr (F nCov (by decide))] at hx
    obtain ⟨i, h1, h2, -⟩ := C42_first_inverse_partial L hrun hv h hx
    have hn : x.size 0 = n := by simp [Tensor.size, hsh]
    simp only [hn] at h1
    obtain ⟨k1, k2, k3⟩ := hI _ n (by rw [Tensor.ofFn2_shape]) i h1
    refine ⟨i, h2, k1, fun a b ha hb => ?_, fun a b ha hb => ?_⟩
    · rw [← k2 a b ha hb]
      refine Finset.sum_congr rfl fun k hk => ?_
      rw [Tensor.el_ofFn2 _ _ _ _ ha (Finset.mem_range.1 hk)]
    · rw [← k3 a b ha hb]
      refine Finset.sum_congr rfl fun k hk => ?_
      rw [Tensor.el_ofFn2 _ _ _ _ (Finset.mem_range.1 hk) hb]

/-! ### Which Hessian is used -/

theorem tensorAt_node [Semiring K] {s : LState K} {n m t : PyStr} {d : StateDict K} {x : Tensor K} (hd : s.getAttr n = .ok d)
    (h : Spec.tensorAt s.attrs n [m, t] = some x) : item2 d m t = .ok (some (.tensor x)) ∧ ∃ sub, Dict.get? d m = some (.node sub) ∧
      Dict.get? sub t = some (.leaf (.tensor x)) := by
  obtain ⟨d', h1, h2⟩ := item2_of_tensorAt h
  obtain rfl := Option.some.inj ((getAttr_eq.1 hd).symm.trans h1)
  refine ⟨h2, ?_⟩
  unfold item2 at h2
  cases hm : Dict.get? d m with
  | none => rw [hm] at h2; cases h2
  | some v =>
    rw [hm] at h2
    cases v with
    | leaf a => cases h2
    | node sub =>
      simp only at h2
      cases ht : Dict.get? sub t with
      | none => rw [ht] at h2; cases h2
      | some w =>
        rw [ht] at h2
        cases w with
        | node _ => cases h2
        | leaf a => cases h2; exact ⟨sub, rfl, ht⟩

theorem usesRaw_kfac {s : LState K} {cov : StateDict K} (hcov : s.getAttr nCov = .ok cov) {keys : List PyStr} {hessian : Hess}
    (h : Spec.UsesKfac s keys hessian) (hk : ∀ m ∈ keys, ∃ sub, Dict.get? cov m = some (.node sub)) {src : GLog K} (hs : Dict.keys src = keys) {b : Bool}
    (hb : usesRaw cov src hessian = .ok b) : b = false := by
  rcases h with rfl | ⟨rfl, h⟩
  · cases hb; rfl
  · unfold usesRaw at hb
    simp only at hb
    split at hb
    · cases hb
    · next m sub rest =>
      have hm : m ∈ keys := by rw [← hs]; simp [Dict.keys]
      obtain ⟨sub', hsub⟩ := hk m hm
      rw [hsub] at hb
      simp only at hb
      cases hb
      have := h cov hcov m hm sub' hsub
      unfold Dict.contains
      rw [Bool.eq_false_iff]
      intro hh
      exact this ((Dict.get?_isSome_iff _ _).1 hh)

theorem usesRaw_raw {s : LState K} {cov : StateDict K} (hcov : s.getAttr nCov = .ok cov) {keys : List PyStr} {hessian : Hess}
    (h : Spec.UsesRaw s keys hessian) (hk : ∀ m ∈ keys, ∃ sub, Dict.get? cov m = some (.node sub)) {src : GLog K} (hs : Dict.keys src = keys) {b : Bool}
    (hb : usesRaw cov src hessian = .ok b) : b = true := by
  rcases h with rfl | ⟨rfl, h⟩
  · cases hb; rfl
  · unfold usesRaw at hb
    simp only at hb
    split at hb
    · cases hb
    · next m sub rest =>
      have hm : m ∈ keys := by rw [← hs]; simp [Dict.keys]
      obtain ⟨sub', hsub⟩ := hk m hm
      rw [hsub] at hb
      simp only at hb
      cases hb
      have := h cov hcov m hm sub' hsub
      unfold Dict.contains
      exact (Dict.get?_isSome_iff _ _).2 this

end Logix
