/-
When the Hessian can be computed: with covariances of fitting sizes and positive damping.
-/
import Verif.Lemmas.Success
import Verif.Props.EkfacScores
import Mathlib.LinearAlgebra.Matrix.ToLin

set_option linter.unusedSectionVars false

namespace Logix
variable {K : Type}

/-! ### Inverses -/

/-- A positive semidefinite matrix plus a positive multiple of the identity has an inverse. -/
theorem PSD.damped_inverse [Field K] [LinearOrder K] [IsStrictOrderedRing K] {x : Tensor K} (hx : Spec.PSD x) {c : K} (hc : 0 < c) :
    ∃ n y, x.shape = [n, n] ∧ ∀ i j, i < n → j < n →
      ∑ k ∈ Finset.range n, (dampedCov x (some c)).el [i, k] * (y : Tensor K).el [k, j] = if i = j then 1 else 0 := by
  obtain ⟨n, hn, -, hpos⟩ := hx
  have hsz : x.size 0 = n := by simp [Tensor.size, hn]
  let M : Matrix (Fin n) (Fin n) K := fun i j => x.el [i, j] + if i = j then c else 0
  have hinj : Function.Injective M.mulVec := by
    rw [← Matrix.coe_mulVecLin, ← LinearMap.ker_eq_bot, LinearMap.ker_eq_bot']
    intro v hv
    have hv : M.mulVec v = 0 := hv
    let f : Nat → K := fun i => if h : i < n then v ⟨i, h⟩ else 0
    have hf : ∀ i : Fin n, f i = v i := fun i => by simp [f]
    have h0 : ∑ i : Fin n, v i * M.mulVec v i = 0 := by rw [hv]; simp
    have h1 : ∑ i : Fin n, v i * M.mulVec v i =
        (∑ i ∈ Finset.range n, ∑ j ∈ Finset.range n, f i * x.el [i, j] * f j) + ∑ i : Fin n, c * (v i * v i) := by
      rw [Finset.sum_range, ← Finset.sum_add_distrib]
      refine Finset.sum_congr rfl fun i _ => ?_
      rw [Finset.sum_range]
      show v i * (∑ j, M i j * v j) = _
      rw [Finset.mul_sum]
      have : ∀ j : Fin n, v i * (M i j * v j) = f i * x.el [i, j] * f j + if i = j then c * (v i * v i) else 0 := by
        intro j
        rw [hf, hf]
        simp only [M]
        split
        · next h => subst h; ring
        · ring
      rw [Finset.sum_congr rfl fun j _ => this j, Finset.sum_add_distrib, Finset.sum_ite_eq]
      simp
    have h2 := hpos f
    have h3 : ∑ i : Fin n, c * (v i * v i) ≤ 0 := by
      rw [h1] at h0; linarith
    have h4 : ∀ i ∈ Finset.univ, 0 ≤ c * (v i * v i) := fun i _ => mul_nonneg hc.le (mul_self_nonneg _)
    have h5 := (Finset.sum_eq_zero_iff_of_nonneg h4).1 (le_antisymm h3 (Finset.sum_nonneg h4))
    funext i
    have h6 := h5 i (Finset.mem_univ i)
    rcases mul_eq_zero.1 h6 with h | h
    · exact absurd h hc.ne'
    · exact mul_self_eq_zero.1 h
  have hunit : IsUnit M := Matrix.mulVec_injective_iff_isUnit.1 hinj
  have hdet : IsUnit M.det := (Matrix.isUnit_iff_isUnit_det M).1 hunit
  have hmul := Matrix.mul_nonsing_inv M hdet
  refine ⟨n, Tensor.ofFn2 .cpu n n fun i j => if h : i < n ∧ j < n then M⁻¹ ⟨i, h.1⟩ ⟨j, h.2⟩ else 0, hn, fun i j hi hj => ?_⟩
  have e := congrFun (congrFun hmul ⟨i, hi⟩) ⟨j, hj⟩
  rw [Matrix.mul_apply, Matrix.one_apply] at e
  simp only [Fin.mk.injEq] at e
  rw [← e, Finset.sum_range]
  refine Finset.sum_congr rfl fun k _ => ?_
  unfold dampedCov
  simp only [hsz]
  rw [Tensor.el_ofFn2 _ _ _ _ hi k.2, Tensor.el_ofFn2 _ _ _ _ k.2 hj, dif_pos ⟨k.2, hj⟩]
  simp only [M, Option.getD_some]
  congr 2
  simp only [Fin.ext_iff]

theorem dampedCov_shape [Field K] (x : Tensor K) (d : Option K) : (dampedCov x d).shape = [x.size 0, x.size 0] := rfl

theorem inverseModules_succ [Field K] (L : Lib K) (d : Option K) : ∀ (cov : StateDict K),
    (∀ m v, (m, v) ∈ cov → ∃ sub, v = .node sub ∧ ∀ t w, (t, w) ∈ sub → ∃ x z, w = .leaf (.tensor x) ∧ L.inverse (dampedCov x d) = .ok z) →
    ∀ inv, ∃ r, inverseModules L d cov inv = .ok r := by
  have inner : ∀ (m : PyStr) (sub : StateDict K), (∀ t w, (t, w) ∈ sub → ∃ x z, w = .leaf (.tensor x) ∧ L.inverse (dampedCov x d) = .ok z) → ∀ inv,
      ∃ r, inverseModes L d m sub inv = .ok r := by
    intro m sub
    induction sub with
    | nil => intro _ inv; exact ⟨_, rfl⟩
    | cons a rest ih =>
      obtain ⟨t, w⟩ := a
      intro h inv
      obtain ⟨x, z, rfl, hz⟩ := h t w List.mem_cons_self
      unfold inverseModes
      simp only [hz]
      exact ih (fun t w ht => h t w (List.mem_cons_of_mem _ ht)) _
  intro cov
  induction cov with
  | nil => intro _ inv; exact ⟨_, rfl⟩
  | cons a rest ih =>
    obtain ⟨m, v⟩ := a
    intro h inv
    obtain ⟨sub, rfl, hs⟩ := h m v List.mem_cons_self
    obtain ⟨i, hi⟩ := inner m sub hs inv
    unfold inverseModules
    simp only [hi]
    exact ih (fun m v hm => h m v (List.mem_cons_of_mem _ hm)) _

theorem Reg.getAttr {s : LState K} (h : Reg s) {n : PyStr} (hn : n ∈ s.states) : ∃ d, s.getAttr n = .ok d := by
  obtain ⟨d, hd⟩ := Option.isSome_iff_exists.1 ((h.attrs n).1 hn)
  exact ⟨d, getAttr_eq.2 hd⟩

/-- An entry of a well-formed table, by its path. -/
theorem tensorAt_of_mem [Semiring K] {s : LState K} {n : PyStr} {d sub : StateDict K} (hd : s.getAttr n = .ok d) (hw : (Nested.node d).WF) {m t : PyStr} {x : Tensor K}
    (hm : (m, Nested.node sub) ∈ d) (ht : (t, Nested.leaf (SVal.tensor x)) ∈ sub) : Spec.tensorAt s.attrs n [m, t] = some x := by
  rw [Nested.WF] at hw
  have h1 := Dict.get?_of_mem d hw.1 hm
  have h2 := stWFList_mem hw.2 hm
  rw [Nested.WF] at h2
  exact tensorAt_sub hd h1 (Dict.get?_of_mem sub h2.1 ht)

section
variable [Field K] [LinearOrder K] [IsStrictOrderedRing K]

theorem cov_table {L : Lib K} {ops : List (StateOp K)} {s : LState K} (hrun : runOps L .init ops = .ok s) (hmask : ∀ o ∈ ops, Spec.MaskNonneg o) :
    ∃ cov, s.getAttr nCov = .ok cov ∧ (Nested.node cov).WF ∧ TwoLevel Spec.PSD cov := by
  obtain ⟨d, e, hd, _, hP, _⟩ := (covOk_run L hmask hrun covOk_init).cov
  obtain ⟨cov, hcov, hw⟩ := cov_wf_init L hrun
  obtain rfl := Except.ok.inj (hd.symm.trans hcov)
  exact ⟨d, hd, hw, hP⟩

/-- The eigendecomposition returns. -/
theorem svd_returns {L : Lib K} {ops : List (StateOp K)} {s : LState K} (hrun : runOps L .init ops = .ok s) (hmask : ∀ o ∈ ops, Spec.MaskNonneg o)
    (hL : Spec.LibReturns L s) : ∃ s₁ n, s.getCovarianceSvd L = .ok (s₁, n) := by
  obtain ⟨cov, hcov, hw, hP⟩ := cov_table hrun hmask
  have hr := reg_init.run hrun
  have hsvd : ∃ s₁, s.covarianceSvd L = .ok s₁ := by
    have r1 := hr.reg nEigval false true (fun h => absurd h (by decide)) (by decide)
    have r2 := r1.reg nEigvec false true (fun _ => registerState_mem _ _ _ _ _) (by decide)
    have hc : ((s.registerState nEigval false true false).registerState nEigvec false true false).getAttr nCov = .ok cov := by
      rw [getAttr_eq, registerState_frame _ _ _ _ _ _ (by decide), registerState_frame _ _ _ _ _ _ (by decide)]
      exact getAttr_eq.1 hcov
    obtain ⟨vals, hv⟩ := r2.getAttr (registerState_mono _ nEigvec false true false (registerState_mem s nEigval false true false))
    obtain ⟨vecs, hv'⟩ := r2.getAttr (registerState_mem _ nEigvec false true false)
    obtain ⟨⟨a, b⟩, hab⟩ := svdModules_succ L cov (fun m v hm => by
      obtain ⟨sub, rfl, h1⟩ := hP m v hm
      refine ⟨sub, rfl, fun t w ht => ?_⟩
      obtain ⟨x, rfl, -⟩ := h1 t w ht
      obtain ⟨r, hr⟩ := hL.eigh _ _ (tensorAt_of_mem hcov hw hm ht)
      exact ⟨x, r, rfl, hr⟩) vals vecs
    unfold LState.covarianceSvd
    simp only [hc, hv, hv', hab]
    exact ⟨_, rfl⟩
  unfold LState.getCovarianceSvd
  split
  · next h =>
    split at h
    · cases h
    · obtain ⟨s₁, h1⟩ := hsvd
      rw [h1] at h; cases h
  · exact ⟨_, _, rfl⟩

/-- The inverse returns. -/
theorem inverse_returns {L : Lib K} {ops : List (StateOp K)} {s : LState K} (hrun : runOps L .init ops = .ok s) (hmask : ∀ o ∈ ops, Spec.MaskNonneg o)
    (hL : Spec.LibReturns L s) {c : K} (hc : 0 < c) : ∃ s₁ inv, s.getCovarianceInverse L (some c) = .ok (s₁, inv) := by
  obtain ⟨cov, hcov, hw, hP⟩ := cov_table hrun hmask
  have hr := reg_init.run hrun
  have hinv : ∃ s₁, s.covarianceInverse L (some c) = .ok s₁ ∧ ∃ d, s₁.getAttr nInverse = .ok d := by
    have r1 := hr.reg nInverse false true (fun h => absurd h (by decide)) (by decide)
    have hc' : (s.registerState nInverse false true false).getAttr nCov = .ok cov := by
      rw [getAttr_eq, registerState_frame _ _ _ _ _ _ (by decide)]
      exact getAttr_eq.1 hcov
    obtain ⟨inv, hv⟩ := r1.getAttr (registerState_mem _ nInverse false true false)
    obtain ⟨i, hi⟩ := inverseModules_succ L (some c) cov (fun m v hm => by
      obtain ⟨sub, rfl, h1⟩ := hP m v hm
      refine ⟨sub, rfl, fun t w ht => ?_⟩
      obtain ⟨x, rfl, hx⟩ := h1 t w ht
      obtain ⟨n, y, hn, hy⟩ := PSD.damped_inverse hx hc
      obtain ⟨z, hz⟩ := hL.inverse (dampedCov x (some c)) y n (by rw [dampedCov_shape]; simp [Tensor.size, hn]) hy
      exact ⟨x, z, rfl, hz⟩) inv
    unfold LState.covarianceInverse
    simp only [hc', hv, hi]
    exact ⟨_, rfl, i, by rw [getAttr_setAttr]; simp⟩
  unfold LState.getCovarianceInverse
  split
  · next h =>
    split at h
    · cases h
    · obtain ⟨s₁, h1, -⟩ := hinv
      rw [h1] at h; cases h
  · next s' h =>
    split at h
    · next hh =>
      cases h
      unfold LState.hasAttr at hh
      obtain ⟨d, hd⟩ := Option.isSome_iff_exists.1 hh
      rw [getAttr_eq.2 hd]
      exact ⟨_, _, rfl⟩
    · obtain ⟨s₁, h1, d, h2⟩ := hinv
      rw [h1] at h; cases h
      rw [h2]
      exact ⟨_, _, rfl⟩

end

/-! ### The loops -/

theorem fullEigval_returns [Semiring K] {vals sub : StateDict K} {m : PyStr} {wf wb : Tensor K} {o i : Nat} (dev : Dev) (hs : Dict.get? vals m = some (.node sub))
    (hf : Dict.get? sub (LogType.name .forward) = some (.leaf (.tensor wf))) (hb : Dict.get? sub (LogType.name .backward) = some (.leaf (.tensor wb)))
    (sf : wf.shape = [i]) (sb : wb.shape = [o]) (hd : wf.dev = wb.dev) : ∃ full, fullEigval vals m dev = .ok (full, false) ∧ full.shape = [o, i] := by
  unfold fullEigval
  simp only [hs, hf, hb]
  rw [if_pos ⟨by simp [sf], by simp [sb], hd⟩]
  refine ⟨_, rfl, ?_⟩
  simp [Tensor.ofFn2_shape, Tensor.size, sf, sb]

theorem kfacSolve_returns [Field K] {g ef eb full : Tensor K} {n o i : Nat} (hg : g.shape = [n, o, i]) (hf : ef.shape = [i, i]) (hb : eb.shape = [o, o])
    (hs : full.shape = [o, i]) : ∃ p, kfacSolve g ef eb full = .ok p := by
  unfold kfacSolve
  rw [hg]
  have h1 : full.size 1 = i := by simp [Tensor.size, hs]
  have h0 : full.size 0 = o := by simp [Tensor.size, hs]
  simp only
  rw [if_pos ⟨by rw [hf, h1], by rw [hb, h0], by simp [hs]⟩]
  exact ⟨_, rfl⟩

theorem kfacLoop_returns [Field K] {vals vecs : StateDict K} {rows cols : PyStr → Nat} : ∀ {src out : GLog K} {damping : Option K},
    (∀ p ∈ src, (∃ g n, Dict.get? p.2 (LogType.name .grad) = some g ∧ g.shape = [n, rows p.1, cols p.1]) ∧
      (∃ ef eb, item2 vecs p.1 (LogType.name .forward) = .ok (some (.tensor ef)) ∧ item2 vecs p.1 (LogType.name .backward) = .ok (some (.tensor eb)) ∧
        ef.shape = [cols p.1, cols p.1] ∧ eb.shape = [rows p.1, rows p.1]) ∧
      ∀ dev, ∃ full, fullEigval vals p.1 dev = .ok (full, false) ∧ full.shape = [rows p.1, cols p.1]) →
    ∃ r, kfacLoop vecs damping vals out src = .ok r
  | [], out, damping, _ => ⟨_, rfl⟩
  | (m, sub) :: rest, out, damping, h => by
    obtain ⟨⟨g, n, h1, h2⟩, ⟨ef, eb, h3, h4, h5, h6⟩, h7⟩ := h (m, sub) (by simp)
    obtain ⟨full, h8, h9⟩ := h7 g.dev
    obtain ⟨p, hp⟩ := kfacSolve_returns (full := Tensor.ofFn full.dev full.shape fun idx => full.el idx + damping.getD (1 / 10 * full.mean)) h2 h5 h6 h9
    rw [kfacLoop]
    simp only at h1 h3 h4 h8
    simp only [h1, h3, h4, h8, hp]
    exact kfacLoop_returns fun p hp => h p (List.mem_cons_of_mem _ hp)

theorem rawSolve_returns [Semiring K] {g inv : Tensor K} {n o i : Nat} (hg : g.shape = [n, o, i]) (hn : n ≠ 0) (hi : inv.shape = [o * i, o * i]) :
    ∃ p, rawSolve g inv = .ok p := by
  have hx : ∃ x, make2d g none .grad = .ok x ∧ x.shape = [n, o * i] ∧ x.dev = g.dev := by
    unfold make2d
    simp only [hg]
    unfold Tensor.reshapeInfer
    have h1 : numel [n] = n := by simp [numel]
    have h2 : numel g.shape = n * (o * i) := by simp [hg, numel, mul_assoc]
    have h3 : numel ([] : List Nat) = 1 := by simp [numel]
    rw [h1, h3, mul_one, if_neg hn, h2, Nat.mul_div_cancel_left _ (Nat.pos_of_ne_zero hn)]
    unfold Tensor.reshape
    rw [dif_pos (by rw [h2]; simp [numel])]
    exact ⟨_, rfl, rfl, rfl⟩
  obtain ⟨x, h1, h2, h3⟩ := hx
  unfold rawSolve
  rw [h1]
  simp only
  unfold Tensor.matmul
  have s0 : x.size 0 = n := by simp [Tensor.size, h2]
  have s1 : x.size 1 = o * i := by simp [Tensor.size, h2]
  have t0 : inv.size 0 = o * i := by simp [Tensor.size, hi]
  have t1 : inv.size 1 = o * i := by simp [Tensor.size, hi]
  rw [if_pos ⟨by simp [h2], by simp [hi], by rw [s1, Tensor.onDev_size, t0], h3⟩]
  simp only [Tensor.onDev_size]
  unfold Tensor.reshape
  rw [dif_pos (by rw [Tensor.ofFn2_shape, s0, t1, hg]; simp [numel, mul_assoc])]
  exact ⟨_, rfl⟩

theorem rawLoop_returns [Semiring K] {inv : StateDict K} {rows cols : PyStr → Nat} : ∀ {src out : GLog K},
    (∀ p ∈ src, (∃ g n, Dict.get? p.2 (LogType.name .grad) = some g ∧ n ≠ 0 ∧ g.shape = [n, rows p.1, cols p.1]) ∧
      ∃ i, item2 inv p.1 (LogType.name .grad) = .ok (some (.tensor i)) ∧ i.shape = [rows p.1 * cols p.1, rows p.1 * cols p.1]) →
    ∃ r, rawLoop inv out src = .ok r
  | [], out, _ => ⟨_, rfl⟩
  | (m, sub) :: rest, out, h => by
    obtain ⟨⟨g, n, h1, h2, h3⟩, i, h4, h5⟩ := h (m, sub) (by simp)
    obtain ⟨p, hp⟩ := rawSolve_returns h3 h2 h5
    rw [rawLoop]
    simp only at h1 h4
    simp only [h1, h4, hp]
    exact rawLoop_returns fun p hp => h p (List.mem_cons_of_mem _ hp)

theorem rawLoop_only [Semiring K] {inv : StateDict K} : ∀ {src out out' : GLog K}, rawLoop inv out src = .ok out' →
    (∀ p ∈ out, ∀ q ∈ p.2, q.1 = LogType.name .grad) → ∀ p ∈ out', ∀ q ∈ p.2, q.1 = LogType.name .grad
  | [], out, out', h, ho => by cases h; exact ho
  | (m, sub) :: rest, out, out', h, ho => by
    rw [rawLoop] at h
    split at h
    · cases h
    · split at h
      · split at h
        · cases h
        · refine rawLoop_only h fun p hp => ?_
          rcases Dict.mem_set hp with rfl | hp
          · simp
          · exact ho p hp
      · cases h

theorem kfacLoop_only [Field K] {vecs : StateDict K} : ∀ {src out : GLog K} {damping : Option K} {vals vals' : StateDict K} {out' : GLog K},
    kfacLoop vecs damping vals out src = .ok (vals', out') →
    (∀ p ∈ out, ∀ q ∈ p.2, q.1 = LogType.name .grad) → ∀ p ∈ out', ∀ q ∈ p.2, q.1 = LogType.name .grad
  | [], out, damping, vals, vals', out', h, ho => by cases h; exact ho
  | (m, sub) :: rest, out, damping, vals, vals', out', h, ho => by
    rw [kfacLoop] at h
    split at h
    · cases h
    · split at h
      · split at h
        · cases h
        · simp only at h
          split at h
          · cases h
          · refine kfacLoop_only h fun p hp => ?_
            rcases Dict.mem_set hp with rfl | hp
            · simp
            · exact ho p hp
      · cases h

end Logix
