/-
The Hessian that a state gives is symmetric and positive.
-/
import Verif.Lemmas.Forms
import Verif.Lemmas.EigInv

namespace Logix
variable {K : Type}

theorem hasAttr_of_getAttr {s : LState K} {n : PyStr} {d : StateDict K} (h : s.getAttr n = .ok d) : s.hasAttr n = true := by
  unfold LState.hasAttr; rw [getAttr_eq.1 h]; rfl

theorem keys_map_nil (keys : List PyStr) : Dict.keys (keys.map fun k => (k, ([] : Dict PyStr (Tensor K)))) = keys := by
  unfold Dict.keys
  rw [List.map_map]
  exact List.map_id _

/-- What `hessOf` can be: nothing, an inverse, or eigenvalues with eigenvectors. -/
theorem hessOf_cases [Field K] {L : Lib K} {s s₁ : LState K} {keys : List PyStr} {hessian : Hess} {damping : Option K} {H : HessKind K}
    (h : hessOf L s keys hessian damping = .ok (s₁, H)) : ∃ cov, s.getAttr nCov = .ok cov ∧ ((H = .none ∧ s₁ = s) ∨
      (usesRaw cov (keys.map fun k => (k, ([] : Dict PyStr (Tensor K)))) hessian = .ok true ∧ ∃ inv, H = .raw inv ∧ s.getCovarianceInverse L damping = .ok (s₁, inv)) ∨
      (usesRaw cov (keys.map fun k => (k, ([] : Dict PyStr (Tensor K)))) hessian = .ok false ∧ ∃ n vals vecs, H = .kfac vals vecs (effDamping vals keys damping) ∧
        s.getCovarianceSvd L = .ok (s₁, n) ∧ s₁.getAttr n = .ok vals ∧ s₁.getAttr nEigvec = .ok vecs)) := by
  unfold hessOf at h
  split at h
  · cases h
  · next cov hcov =>
    refine ⟨cov, hcov, ?_⟩
    split at h
    · cases h; exact .inl ⟨rfl, rfl⟩
    · split at h
      · cases h
      · next hr =>
        split at h
        · cases h
        · next hi => cases h; exact .inr (.inl ⟨hr, _, rfl, hi⟩)
      · next hr =>
        split at h
        · cases h
        · next s₂ n hs =>
          split at h
          · next vals vecs h1 h2 => cases h; exact .inr (.inr ⟨hr, n, vals, vecs, rfl, hs, h1, h2⟩)
          · cases h

theorem cov_node [Semiring K] {s : LState K} {cov : StateDict K} (hcov : s.getAttr nCov = .ok cov) {m t : PyStr}
    (h : (Spec.tensorAt s.attrs nCov [m, t]).isSome = true) : ∃ sub, Dict.get? cov m = some (.node sub) := by
  obtain ⟨x, hx⟩ := Option.isSome_iff_exists.1 h
  obtain ⟨-, sub, h1, -⟩ := tensorAt_node hcov hx
  exact ⟨sub, h1⟩

/-- With symmetric covariances of the gradients, or with eigendecompositions, the form is symmetric. -/
theorem hess_symm [Field K] {L : Lib K} {ops : List (StateOp K)} {s s₁ : LState K} {keys : List PyStr} {hessian : Hess} {damping : Option K}
    {H : HessKind K} (hrun : runOps L .init ops = .ok s) (h : hessOf L s keys hessian damping = .ok (s₁, H))
    (hc : (Spec.UsesKfac s keys hessian ∧ ∀ m ∈ keys, ∃ t, (Spec.tensorAt s.attrs nCov [m, t]).isSome = true) ∨
      ∃ c, damping = some c ∧ Spec.InverseOk L ∧ Spec.InvFresh s c ∧ ∀ m ∈ keys, ∃ x n, Spec.tensorAt s.attrs nCov [m, LogType.name .grad] = some x ∧ Spec.Symm x n)
    {m : PyStr} (hm : m ∈ keys) : H.SymmAt m := by
  obtain ⟨cov, hcov, ⟨rfl, -⟩ | ⟨hr, inv, rfl, hi⟩ | ⟨-, n, vals, vecs, rfl, -⟩⟩ := hessOf_cases h
  · exact symmAt_none m
  · rcases hc with ⟨hu, hk⟩ | ⟨c, rfl, hI, hF, hC⟩
    · have := usesRaw_kfac hcov hu (fun m hm => by obtain ⟨t, ht⟩ := hk m hm; exact cov_node hcov ht) (keys_map_nil keys) hr
      cases this
    · obtain ⟨f1, f2, f3⟩ := inv_sound hrun hI hF hi
      obtain ⟨x, n, hx, hs⟩ := hC m hm
      rw [← tensorAt_congr (f3 nCov (by decide))] at hx
      obtain ⟨i, i1, di⟩ := f1 (hasAttr_of_getAttr f2) _ _ _ _ hx hs.1
      exact symmAt_raw (tensorAt_node f2 i1).1 hs di
  · exact symmAt_kfac _ _ _ m

theorem tensorAt_sub [Semiring K] {s : LState K} {n m t : PyStr} {d sub : StateDict K} {x : Tensor K} (hd : s.getAttr n = .ok d)
    (h : Dict.get? d m = some (.node sub)) (ht : Dict.get? sub t = some (.leaf (.tensor x))) : Spec.tensorAt s.attrs n [m, t] = some x := by
  refine tensorAt_item2 hd ?_
  unfold item2
  simp [h, ht]

/-- Without fitted eigenvalues no tensor of the state is changed in place. -/
theorem noShared [Field K] {L : Lib K} {ops : List (StateOp K)} {s s₁ : LState K} {keys : List PyStr} {hessian : Hess} {damping : Option K}
    {H : HessKind K} (hrun : runOps L .init ops = .ok s) (hek : s.hasAttr nEkfac = false) (h : hessOf L s keys hessian damping = .ok (s₁, H)) : H.NoShared := by
  obtain ⟨cov, hcov, ⟨rfl, -⟩ | ⟨hr, inv, rfl, hi⟩ | ⟨-, n, vals, vecs, rfl, hs, hv, -⟩⟩ := hessOf_cases h
  · trivial
  · trivial
  · have F := (getCovarianceSvd_frame L hs).2
    have hn : n = nEigval := by
      unfold LState.getCovarianceSvd at hs
      split at hs
      · cases hs
      · cases hs
        have : s₁.hasAttr nEkfac = false := by
          unfold LState.hasAttr at hek ⊢; rw [F _ (by decide) (by decide)]; exact hek
        rw [this]; rfl
    subst hn
    intro m t ht
    have := (eigTable hrun).getCovarianceSvd hs vals (getAttr_eq.1 hv) m
    unfold indexable at this
    rw [ht] at this
    cases this

variable [Field K] [LinearOrder K] [IsStrictOrderedRing K]

/-- The Hessian of a state with positive semidefinite covariances and positive damping gives a symmetric positive form. -/
theorem hess_pos {L : Lib K} {s s₁ : LState K} {keys : List PyStr} {hessian : Hess} {c : K} {H : HessKind K} (hP : Spec.PosHessian L s keys hessian c)
    (h : hessOf L s keys hessian (some c) = .ok (s₁, H)) {m : PyStr} (hm : m ∈ keys) : H.PosAt m ∧ H.SymmAt m := by
  obtain ⟨ops, hrun, hmask⟩ := hP.run
  have psd := C33_psd L hrun hmask
  have sym : ∀ {path x n}, Spec.tensorAt s.attrs nCov path = some x → x.shape = [n, n] → Spec.Symm x n := by
    intro path x n hx hn
    obtain ⟨n', hn', hsym, -⟩ := psd path x hx
    rw [hn] at hn'
    have : n = n' := (List.cons.inj hn').1
    subst this
    exact ⟨hn, hsym⟩
  have hC : Spec.UsesRaw s keys hessian → (∀ m ∈ keys, (Spec.tensorAt s.attrs nCov [m, LogType.name .grad]).isSome = true) →
      ∀ m ∈ keys, ∃ x n, Spec.tensorAt s.attrs nCov [m, LogType.name .grad] = some x ∧ Spec.Symm x n := by
    intro _ hk m hm
    obtain ⟨x, hx⟩ := Option.isSome_iff_exists.1 (hk m hm)
    obtain ⟨n, hn, -⟩ := psd _ _ hx
    exact ⟨x, n, hx, sym hx hn⟩
  refine ⟨?_, ?_⟩
  · obtain ⟨cov, hcov, ⟨rfl, -⟩ | ⟨hr, inv, rfl, hi⟩ | ⟨hr, n, vals, vecs, rfl, hs, hv, he⟩⟩ := hessOf_cases h
    · exact posAt_none m
    · rcases hP.cov with ⟨hu, hk⟩ | ⟨hu, hk⟩
      · have := usesRaw_kfac hcov hu (fun m hm => cov_node hcov (hk m hm).1) (keys_map_nil keys) hr
        cases this
      · obtain ⟨f1, f2, f3⟩ := inv_sound hrun hP.inverse hP.inv hi
        obtain ⟨x, n, hx, hs⟩ := hC hu hk m hm
        have hx' := hx
        rw [← tensorAt_congr (f3 nCov (by decide))] at hx
        obtain ⟨i, i1, di⟩ := f1 (hasAttr_of_getAttr f2) _ _ _ _ hx hs.1
        exact posAt_raw (tensorAt_node f2 i1).1 (psd _ _ hx') hs.1 hP.pos di
    · rcases hP.cov with ⟨hu, hk⟩ | ⟨hu, hk⟩
      · refine posAt_kfac hP.pos fun full sh hf a b ha hb => ?_
        obtain ⟨g1, g2, g3, g4⟩ := svd_sound hrun hP.eigh hP.svd hs
        have eig : ∀ t w, (Spec.tensorAt s.attrs nCov [m, t]).isSome = true → Spec.tensorAt s₁.attrs nEigval [m, t] = some w →
            ∀ a, a < w.size 0 → 0 ≤ w.el [a] := by
          intro t w ht hw a ha
          obtain ⟨x, hx⟩ := Option.isSome_iff_exists.1 ht
          obtain ⟨n, hn, -⟩ := psd _ _ hx
          have hx' := hx
          rw [← tensorAt_congr (g3 nCov (by decide) (by decide))] at hx'
          obtain ⟨w', v, e1, -, dec⟩ := g1.dec g2 _ _ _ _ hx' (sym hx hn)
          rw [hw] at e1; cases e1
          have : w.size 0 = n := by rw [Tensor.size, dec.wshape]; rfl
          rw [this] at ha
          exact PSD.eigenvalue_nonneg (psd _ _ hx) hn (EigenDec.isEigenvalue dec ha)
        unfold fullEigval at hf
        split at hf
        · cases hf
        · next t ht =>
          cases hf
          split at g4
          · subst g4
            have hg := getAttr_eq.1 hv
            rw [g3 nEkfac (by decide) (by decide)] at hg
            obtain ⟨t', e1, e2⟩ := (ekOk hrun).vals _ hg m _ (mem_of_get? ht)
            cases e1
            have hlen : inRange t.shape [a, b] = true → 0 ≤ t.el [a, b] := fun h' => e2 _ ((mem_indices _ _).2 h')
            by_cases h' : inRange t.shape [a, b] = true
            · exact hlen h'
            · show 0 ≤ t.el [a, b]
              unfold Tensor.el
              rw [if_neg h']
          · exfalso
            subst g4
            obtain ⟨x, hx⟩ := Option.isSome_iff_exists.1 (hk m hm).1
            obtain ⟨n, hn, -⟩ := psd _ _ hx
            have hx' := hx
            rw [← tensorAt_congr (g3 nCov (by decide) (by decide))] at hx'
            obtain ⟨w', v, e1, -, dec⟩ := g1.dec g2 _ _ _ _ hx' (sym hx hn)
            obtain ⟨-, sub, e2, -⟩ := tensorAt_node hv e1
            rw [ht] at e2; cases e2
        · cases hf
        · next sub hsub =>
          split at hf
          · next wf wb hwf hwb =>
            split at hf
            · cases hf
              have ha' : a < wb.size 0 := ha
              have hb' : b < wf.size 0 := hb
              rw [Tensor.el_ofFn2 _ _ _ _ ha' hb']
              have tf := tensorAt_sub hv hsub hwf
              have tb := tensorAt_sub hv hsub hwb
              split at g4
              · subst g4
                have hg := getAttr_eq.1 hv
                rw [g3 nEkfac (by decide) (by decide)] at hg
                obtain ⟨t', e1, -⟩ := (ekOk hrun).vals _ hg m _ (mem_of_get? hsub)
                cases e1
              · subst g4
                exact mul_nonneg (eig _ _ (hk m hm).2 tb a ha') (eig _ _ (hk m hm).1 tf b hb')
            · cases hf
          · cases hf
          · cases hf
      · have := usesRaw_raw hcov hu (fun m hm => cov_node hcov (hk m hm)) (keys_map_nil keys) hr
        cases this
  · refine hess_symm hrun h ?_ hm
    rcases hP.cov with ⟨hu, hk⟩ | ⟨hu, hk⟩
    · exact .inl ⟨hu, fun m hm => ⟨_, (hk m hm).1⟩⟩
    · exact .inr ⟨c, rfl, hP.inverse, hP.inv, hC hu hk⟩

end Logix
