/-
C43, C44, C45: preconditioning.
-/
import Verif.Lemmas.Solve
import Verif.Props.Psd

namespace Logix
variable {K : Type}

/-- A column of the matrix of eigenvectors is an eigenvector. -/
theorem EigenDec.isEigenvalue [Field K] {x w v : Tensor K} {n : Nat} (h : Spec.EigenDec x w v n) {a : Nat} (ha : a < n) :
    Spec.IsEigenvalue x n (w.el [a]) := by
  refine ⟨fun i => v.el [i, a], ?_, fun i hi => h.eig i a hi ha⟩
  by_contra hc
  push Not at hc
  have := h.cols a a ha ha
  rw [if_pos rfl, Finset.sum_eq_zero fun i hi => by rw [hc i (Finset.mem_range.1 hi), mul_zero]] at this
  exact zero_ne_one this

theorem getD_ravel (r idx : List Nat) (h : inRange r idx = true) : (indices r).getD (ravel r idx) [] = idx := by
  rw [List.getD_eq_getElem?_getD, getElem?_indices r idx h]; rfl

/-- The pieces of a successful call of `precondition` when all modules have covariances. -/
theorem precondition_split [Field K] {L : Lib K} {s s' : LState K} {d : GLog K} {o : LogArg K} {hessian : Hess} {damping : Option K}
    {cov : StateDict K} (hcov : s.getAttr nCov = .ok cov) (hk : ∀ m ∈ Dict.keys d, ∃ sub, Dict.get? cov m = some (.node sub))
    (h : precondition L s (.dict d) hessian damping = .ok (s', o)) :
    ∃ b out, usesRaw cov d hessian = .ok b ∧ o = .dict out ∧
      (if b then preconditionRaw L s d damping else preconditionKfac L s d damping) = .ok (s', out) := by
  unfold precondition at h
  split at h
  · cases h
  · simp only [hcov] at h
    have hany : ¬(d.any fun p => !Dict.contains cov p.1) = true := by
      rw [List.any_eq_true]
      rintro ⟨p, hp, hc⟩
      obtain ⟨sub, hs⟩ := hk p.1 (List.mem_map_of_mem (f := Prod.fst) hp)
      simp [Dict.contains, hs] at hc
    rw [if_neg hany] at h
    split at h
    · cases h
    · next b hb =>
      split at h
      · cases h
      · next s₁ out hout =>
        cases h
        exact ⟨b, out, hb, rfl, hout⟩

theorem cov_getAttr [Field K] {L : Lib K} {ops : List (StateOp K)} {s : LState K} (h : runOps L .init ops = .ok s) : ∃ cov, s.getAttr nCov = .ok cov := by
  obtain ⟨cov, h1, -⟩ := cov_wf_init L h
  exact ⟨cov, h1⟩

/-- **C43.** In every reachable state whose cached eigendecompositions (if there are any) belong to its covariances: if every module of the
log has symmetric covariances `A` of its inputs and `B` of its output gradients, and EKFAC is not used, then the preconditioned gradient `P`
of every sample `k` of every module solves `B P A + damping * P = G`, provided no product of an eigenvalue of `B` and one of `A` is
`-damping`. The modules and their order, the shapes and the devices stay the same. -/
theorem C43_kfac_solves [Field K] {L : Lib K} {ops : List (StateOp K)} {s s' : LState K} {d : GLog K} {o : LogArg K} {hessian : Hess} {c : K}
    (hrun : runOps L .init ops = .ok s) (hE : Spec.EighOk L) (hs : Spec.SvdFresh s) (hek : s.hasAttr nEkfac = false)
    (hn : (Dict.keys d).Nodup) (hu : Spec.UsesKfac s (Dict.keys d) hessian)
    {A B : PyStr → Tensor K} {wd ht : PyStr → Nat}
    (hA : ∀ m ∈ Dict.keys d, Spec.tensorAt s.attrs nCov [m, LogType.name .forward] = some (A m) ∧ Spec.Symm (A m) (wd m))
    (hB : ∀ m ∈ Dict.keys d, Spec.tensorAt s.attrs nCov [m, LogType.name .backward] = some (B m) ∧ Spec.Symm (B m) (ht m))
    (hc : ∀ m ∈ Dict.keys d, ∀ a b, Spec.IsEigenvalue (A m) (wd m) a → Spec.IsEigenvalue (B m) (ht m) b → b * a + c ≠ 0)
    (h : precondition L s (.dict d) hessian (some c) = .ok (s', o)) :
    ∃ out, o = .dict out ∧ Dict.keys out = Dict.keys d ∧ ∀ m ∈ Dict.keys d, ∃ G P n, Spec.grad d m = some G ∧ Spec.grad out m = some P ∧
      G.shape = [n, ht m, wd m] ∧ P.shape = [n, ht m, wd m] ∧ P.dev = G.dev ∧ ∀ k x y, k < n → x < ht m → y < wd m →
        (∑ x' ∈ Finset.range (ht m), ∑ y' ∈ Finset.range (wd m), (B m).el [x, x'] * P.el [k, x', y'] * (A m).el [y', y]) + c * P.el [k, x, y] =
          G.el [k, x, y] := by
  obtain ⟨cov, hcov⟩ := cov_getAttr hrun
  have hk : ∀ m ∈ Dict.keys d, ∃ sub, Dict.get? cov m = some (.node sub) := fun m hm => by
    obtain ⟨-, sub, h1, -⟩ := tensorAt_node hcov (hA m hm).1
    exact ⟨sub, h1⟩
  obtain ⟨b, out, hb, rfl, hout⟩ := precondition_split hcov hk h
  have := usesRaw_kfac hcov hu hk rfl hb
  subst this
  simp only [Bool.false_eq_true, if_false] at hout
  unfold preconditionKfac at hout
  split at hout
  · cases hout
  · next s₁ nm hsvd =>
    obtain ⟨f1, f2, f3, f4⟩ := svd_sound hrun hE hs hsvd
    rw [hek] at f4
    simp only [Bool.false_eq_true, if_false] at f4
    subst f4
    split at hout
    · next vals vecs hvals hvecs =>
      split at hout
      · cases hout
      · next vals' out' hl =>
        cases hout
        obtain ⟨k1, -, k3⟩ := kfacLoop_ok hl hn (by simp [Dict.keys])
        refine ⟨out, rfl, by rw [k1]; rfl, fun m hm => ?_⟩
        obtain ⟨g, ef, eb, full, sh, p, e1, e2, e3, e4, e5, e6, -⟩ := k3 m hm
        have tA := (hA m hm).1
        have tB := (hB m hm).1
        rw [← tensorAt_congr (f3 nCov (by decide) (by decide))] at tA tB
        obtain ⟨wf, vf, wf1, vf1, dA⟩ := f1.dec f2 _ _ _ _ tA (hA m hm).2
        obtain ⟨wb, vb, wb1, vb1, dB⟩ := f1.dec f2 _ _ _ _ tB (hB m hm).2
        obtain ⟨q1, sub, q2, q3⟩ := tensorAt_node hvals wf1
        obtain ⟨q1', sub', q2', q3'⟩ := tensorAt_node hvals wb1
        rw [q2] at q2'; cases q2'
        obtain ⟨vf2, -⟩ := tensorAt_node hvecs vf1
        obtain ⟨vb2, -⟩ := tensorAt_node hvecs vb1
        rw [e2] at vf2; cases vf2
        rw [e3] at vb2; cases vb2
        have hw0 : wf.size 0 = wd m := by simp [Tensor.size, dA.wshape]
        have hb0 : wb.size 0 = ht m := by simp [Tensor.size, dB.wshape]
        have hfull : full = Tensor.ofFn2 g.dev (ht m) (wd m) fun a b => wb.el [a] * wf.el [b] := by
          unfold fullEigval at e4
          simp only [q2, q3, q3'] at e4
          split at e4
          · cases e4; rw [hb0, hw0]
          · cases e4
        obtain ⟨n, o', w', hs', j1, j2, j3, j4, j5, j6⟩ := kfacSolve_ok e5
        have hef0 : ef.size 0 = wd m := by simp [Tensor.size, dA.vshape]
        have heb0 : eb.size 0 = ht m := by simp [Tensor.size, dB.vshape]
        have ho : o' = ht m := by
          have := dB.vshape; rw [j2] at this; exact (List.cons.inj this).1
        have hw : w' = wd m := by
          have := dA.vshape; rw [j1] at this; exact (List.cons.inj this).1
        subst hfull
        have hz0 : ∀ f : List Nat → K, (Tensor.ofFn (Tensor.ofFn2 g.dev (ht m) (wd m) fun a b => wb.el [a] * wf.el [b]).dev
          (Tensor.ofFn2 g.dev (ht m) (wd m) fun a b => wb.el [a] * wf.el [b]).shape f).size 0 = ht m := fun _ => rfl
        have hz1 : ∀ f : List Nat → K, (Tensor.ofFn (Tensor.ofFn2 g.dev (ht m) (wd m) fun a b => wb.el [a] * wf.el [b]).dev
          (Tensor.ofFn2 g.dev (ht m) (wd m) fun a b => wb.el [a] * wf.el [b]).shape f).size 1 = wd m := fun _ => rfl
        rw [hz0, hz1] at j6
        rw [ho, hw] at hs' j6
        refine ⟨g, p, n, e1, e6, hs', by rw [j4]; exact hs', j5, fun k x y hk hx hy => ?_⟩
        refine kfac_math (B := fun i j => (B m).el [i, j]) (A := fun i j => (A m).el [i, j]) (eb := fun i a => eb.el [i, a])
          (ef := fun i a => ef.el [i, a]) (G := fun x y => g.el [k, x, y]) (P := fun x y => p.el [k, x, y]) (wb := fun a => wb.el [a])
          (wf := fun a => wf.el [a]) dB.eig dB.rows (hA m hm).2.2 dA.eig dA.rows ?_ ?_ hx hy
        · intro a b ha hb
          exact hc m hm _ _ (EigenDec.isEigenvalue dA hb) (EigenDec.isEigenvalue dB ha)
        · intro x y hx hy
          rw [j6 k x y hk hx hy]
          refine Finset.sum_congr rfl fun a ha => Finset.sum_congr rfl fun b hb => ?_
          rw [Finset.mem_range] at ha hb
          rw [Tensor.el_ofFn, if_pos (by simp [inRange, ha, hb]), Tensor.el_ofFn2 _ _ _ _ ha hb]
          simp only [rotF, hef0, heb0, effDamping, Option.getD_some]
          rfl
    · cases hout

/-- An eigenvalue of a positive semidefinite matrix is not negative. -/
theorem PSD.eigenvalue_nonneg [Field K] [LinearOrder K] [IsStrictOrderedRing K] {x : Tensor K} {n : Nat} {c : K} (hx : Spec.PSD x)
    (hs : x.shape = [n, n]) (h : Spec.IsEigenvalue x n c) : 0 ≤ c := by
  obtain ⟨n', hn', -, hp⟩ := hx
  rw [hs] at hn'
  have : n = n' := (List.cons.inj hn').1
  subst this
  obtain ⟨v, ⟨i, hi, hvi⟩, hv⟩ := h
  have h1 := hp v
  have h2 : ∑ i ∈ Finset.range n, ∑ j ∈ Finset.range n, v i * x.el [i, j] * v j = c * ∑ i ∈ Finset.range n, v i * v i := by
    rw [Finset.mul_sum]
    refine Finset.sum_congr rfl fun i hi => ?_
    have := hv i (Finset.mem_range.1 hi)
    rw [show (∑ j ∈ Finset.range n, v i * x.el [i, j] * v j) = v i * ∑ j ∈ Finset.range n, x.el [i, j] * v j by
      rw [Finset.mul_sum]; exact Finset.sum_congr rfl fun j _ => by ring, this]
    ring
  rw [h2] at h1
  have h3 : 0 < ∑ i ∈ Finset.range n, v i * v i :=
    Finset.sum_pos' (fun i _ => mul_self_nonneg _) ⟨i, Finset.mem_range.2 hi, mul_self_pos.2 hvi⟩
  by_contra hc
  have := mul_neg_of_neg_of_pos (not_le.1 hc) h3
  exact absurd h1 (not_le.2 this)

/-- **C43**, with a positive damping. No condition on the eigenvalues is needed: the covariances of a run have none below zero. -/
theorem C43_positive_damping [Field K] [LinearOrder K] [IsStrictOrderedRing K] {L : Lib K} {ops : List (StateOp K)} {s s' : LState K} {d : GLog K}
    {o : LogArg K} {hessian : Hess} {c : K} (hrun : runOps L .init ops = .ok s) (hmask : ∀ o ∈ ops, Spec.MaskNonneg o) (hE : Spec.EighOk L)
    (hs : Spec.SvdFresh s) (hek : s.hasAttr nEkfac = false) (hn : (Dict.keys d).Nodup) (hu : Spec.UsesKfac s (Dict.keys d) hessian)
    {A B : PyStr → Tensor K} {wd ht : PyStr → Nat}
    (hA : ∀ m ∈ Dict.keys d, Spec.tensorAt s.attrs nCov [m, LogType.name .forward] = some (A m) ∧ (A m).shape = [wd m, wd m])
    (hB : ∀ m ∈ Dict.keys d, Spec.tensorAt s.attrs nCov [m, LogType.name .backward] = some (B m) ∧ (B m).shape = [ht m, ht m])
    (hc : 0 < c) (h : precondition L s (.dict d) hessian (some c) = .ok (s', o)) :
    ∃ out, o = .dict out ∧ Dict.keys out = Dict.keys d ∧ ∀ m ∈ Dict.keys d, ∃ G P n, Spec.grad d m = some G ∧ Spec.grad out m = some P ∧
      G.shape = [n, ht m, wd m] ∧ P.shape = [n, ht m, wd m] ∧ P.dev = G.dev ∧ ∀ k x y, k < n → x < ht m → y < wd m →
        (∑ x' ∈ Finset.range (ht m), ∑ y' ∈ Finset.range (wd m), (B m).el [x, x'] * P.el [k, x', y'] * (A m).el [y', y]) + c * P.el [k, x, y] =
          G.el [k, x, y] := by
  have sym : ∀ {path x n}, Spec.tensorAt s.attrs nCov path = some x → x.shape = [n, n] → Spec.Symm x n := by
    intro path x n hx hn
    obtain ⟨n', hn', hsym, -⟩ := C33_psd L hrun hmask path x hx
    rw [hn] at hn'
    have : n = n' := (List.cons.inj hn').1
    subst this
    exact ⟨hn, hsym⟩
  refine C43_kfac_solves hrun hE hs hek hn hu (fun m hm => ⟨(hA m hm).1, sym (hA m hm).1 (hA m hm).2⟩)
    (fun m hm => ⟨(hB m hm).1, sym (hB m hm).1 (hB m hm).2⟩) (fun m hm a b ha hb => ?_) h
  have ha' := PSD.eigenvalue_nonneg (C33_psd L hrun hmask _ _ (hA m hm).1) (hA m hm).2 ha
  have hb' := PSD.eigenvalue_nonneg (C33_psd L hrun hmask _ _ (hB m hm).1) (hB m hm).2 hb
  exact (add_pos_of_nonneg_of_pos (mul_nonneg hb' ha') hc).ne'

/-- **C44.** In every reachable state whose cached inverses (if there are any) are those of its covariances with the same damping: if every
module of the log has a covariance `C` of its gradients, then the preconditioned gradient `p` of every sample of every module, flattened in C
order, solves `p (C + damping * 1) = g`. The modules and their order, the shapes and the devices stay the same. -/
theorem C44_raw_solves [Field K] {L : Lib K} {ops : List (StateOp K)} {s s' : LState K} {d : GLog K} {o : LogArg K} {hessian : Hess} {c : K}
    (hrun : runOps L .init ops = .ok s) (hI : Spec.InverseOk L) (hs : Spec.InvFresh s c)
    (hn : (Dict.keys d).Nodup) (hu : Spec.UsesRaw s (Dict.keys d) hessian) {C : PyStr → Tensor K} {wd : PyStr → Nat}
    (hC : ∀ m ∈ Dict.keys d, Spec.tensorAt s.attrs nCov [m, LogType.name .grad] = some (C m) ∧ (C m).shape = [wd m, wd m])
    (h : precondition L s (.dict d) hessian (some c) = .ok (s', o)) :
    ∃ out, o = .dict out ∧ Dict.keys out = Dict.keys d ∧ ∀ m ∈ Dict.keys d, ∃ g p n r, Spec.grad d m = some g ∧ Spec.grad out m = some p ∧
      g.shape = n :: r ∧ p.shape = n :: r ∧ numel r = wd m ∧ p.dev = g.dev ∧ ∀ i, i < n → ∀ idx ∈ indices r,
        ((indices r).map fun idx' => p.el (i :: idx') * ((C m).el [ravel r idx', ravel r idx] + if ravel r idx' = ravel r idx then c else 0)).sum =
          g.el (i :: idx) := by
  obtain ⟨cov, hcov⟩ := cov_getAttr hrun
  have hk : ∀ m ∈ Dict.keys d, ∃ sub, Dict.get? cov m = some (.node sub) := fun m hm => by
    obtain ⟨-, sub, h1, -⟩ := tensorAt_node hcov (hC m hm).1
    exact ⟨sub, h1⟩
  obtain ⟨b, out, hb, rfl, hout⟩ := precondition_split hcov hk h
  have := usesRaw_raw hcov hu hk rfl hb
  subst this
  simp only [if_true] at hout
  unfold preconditionRaw at hout
  split at hout
  · cases hout
  · next s₁ inv hinv =>
    obtain ⟨f1, f2, f3⟩ := inv_sound hrun hI hs hinv
    split at hout
    · cases hout
    · next out' hl =>
      cases hout
      obtain ⟨k1, -, k3⟩ := rawLoop_ok hl hn (by simp [Dict.keys])
      refine ⟨out, rfl, by rw [k1]; rfl, fun m hm => ?_⟩
      obtain ⟨g, i, p, e1, e2, e3, e4⟩ := k3 m hm
      have tC := (hC m hm).1
      rw [← tensorAt_congr (f3 nCov (by decide))] at tC
      obtain ⟨i', i1, di⟩ := f1 (by unfold LState.hasAttr; rw [getAttr_eq.1 f2]; rfl) _ _ _ _ tC (hC m hm).2
      obtain ⟨i2, -⟩ := tensorAt_node f2 i1
      rw [e2] at i2; cases i2
      obtain ⟨n, r, hs', j1, j2, j3, j4⟩ := rawSolve_ok e3
      have hr : numel r = wd m := by
        have := di.shape; rw [j1] at this; exact (List.cons.inj this).1
      refine ⟨g, p, n, r, e1, e4, hs', by rw [j2]; exact hs', hr, j3, fun k hk idx hidx => ?_⟩
      have hidx' := (mem_indices _ _).1 hidx
      have hlt := ravel_lt r idx hidx'
      have step : ∀ idx' ∈ indices r, p.el (k :: idx') * ((C m).el [ravel r idx', ravel r idx] + if ravel r idx' = ravel r idx then c else 0) =
          (∑ a ∈ Finset.range (numel r), g.el (k :: (indices r).getD a []) * i.el [a, ravel r idx']) *
            ((C m).el [ravel r idx', ravel r idx] + if ravel r idx' = ravel r idx then c else 0) := by
        intro idx' h'
        congr 1
        rw [j4 k idx' hk ((mem_indices _ _).1 h'), sum_range_numel]
        congr 1
        refine List.map_congr_left fun idx'' h'' => ?_
        rw [getD_ravel r idx'' ((mem_indices _ _).1 h'')]
      rw [List.map_congr_left step]
      rw [← sum_range_numel r (fun b => (∑ a ∈ Finset.range (numel r), g.el (k :: (indices r).getD a []) * i.el [a, b]) *
            ((C m).el [b, ravel r idx] + if b = ravel r idx then c else 0))]
      calc _ = ∑ b ∈ Finset.range (numel r), ∑ a ∈ Finset.range (numel r), g.el (k :: (indices r).getD a []) *
            (i.el [a, b] * ((C m).el [b, ravel r idx] + if b = ravel r idx then c else 0)) := by
            refine Finset.sum_congr rfl fun b _ => ?_
            rw [Finset.sum_mul]
            exact Finset.sum_congr rfl fun a _ => by ring
        _ = ∑ a ∈ Finset.range (numel r), g.el (k :: (indices r).getD a []) * (if a = ravel r idx then 1 else 0) := by
            rw [Finset.sum_comm]
            refine Finset.sum_congr rfl fun a ha => ?_
            rw [← Finset.mul_sum, hr, di.left a _ (by rw [← hr]; exact Finset.mem_range.1 ha) (by rw [← hr]; exact hlt)]
        _ = _ := by
            simp only [mul_ite, mul_one, mul_zero]
            rw [Finset.sum_ite_eq', if_pos (Finset.mem_range.2 hlt), getD_ravel r idx hidx']

/-- **C45.** If any module of the log has no covariance, the log comes back unchanged, and so does the state. -/
theorem C45_nothing [Field K] {L : Lib K} {s : LState K} {d : GLog K} {hessian : Hess} {damping : Option K} {cov : StateDict K}
    (hcov : s.getAttr nCov = .ok cov) (hh : hessian ≠ .other) {m : PyStr} (hm : m ∈ Dict.keys d) (hmiss : m ∉ Dict.keys cov) :
    precondition L s (.dict d) hessian damping = .ok (s, .dict d) := by
  unfold precondition
  rw [if_neg hh]
  simp only [hcov]
  rw [if_pos]
  rw [List.any_eq_true]
  obtain ⟨p, hp, rfl⟩ := List.mem_map.1 hm
  refine ⟨p, hp, ?_⟩
  rw [Dict.contains, (Dict.get?_eq_none_iff _ _).2 hmiss]
  rfl

/-- **C45.** Otherwise every module is preconditioned: `out` has the same modules, and for each of them the gradient is the one computed from
the eigendecomposition (or from the inverse) of that module. -/
theorem C45_all [Field K] {L : Lib K} {s s' : LState K} {d : GLog K} {o : LogArg K} {hessian : Hess} {damping : Option K} {cov : StateDict K}
    (hcov : s.getAttr nCov = .ok cov) (hn : (Dict.keys d).Nodup) (hall : ∀ m ∈ Dict.keys d, m ∈ Dict.keys cov)
    (h : precondition L s (.dict d) hessian damping = .ok (s', o)) :
    ∃ out, o = .dict out ∧ Dict.keys out = Dict.keys d ∧
      ((∀ m ∈ Dict.keys d, ∃ g i p, Spec.grad d m = some g ∧ Spec.grad out m = some p ∧ Spec.tensorAt s'.attrs nInverse [m, LogType.name .grad] = some i ∧
          p.shape = g.shape ∧ ∀ k, k < g.size 0 → ∀ idx ∈ indices g.shape.tail, p.el (k :: idx) = ((indices g.shape.tail).map fun idx' =>
            g.el (k :: idx') * i.el [ravel g.shape.tail idx', ravel g.shape.tail idx]).sum) ∨
        ∃ c n, ∀ m ∈ Dict.keys d, ∃ g ef eb full p, Spec.grad d m = some g ∧ Spec.grad out m = some p ∧
          Spec.tensorAt s'.attrs nEigvec [m, LogType.name .forward] = some ef ∧ Spec.tensorAt s'.attrs nEigvec [m, LogType.name .backward] = some eb ∧
          (∃ s₁ vals sh, s.getCovarianceSvd L = .ok (s₁, n) ∧ s₁.getAttr n = .ok vals ∧ fullEigval vals m g.dev = .ok (full, sh)) ∧
          p.shape = g.shape ∧ ∀ k x y, k < g.size 0 → x < g.size 1 → y < g.size 2 → p.el [k, x, y] =
            ∑ a ∈ Finset.range (full.size 0), ∑ b ∈ Finset.range (full.size 1), eb.el [x, a] *
              ((∑ x' ∈ Finset.range (g.size 1), ∑ y' ∈ Finset.range (g.size 2), eb.el [x', a] * g.el [k, x', y'] * ef.el [y', b]) /
                (full.el [a, b] + c)) * ef.el [y, b]) := by
  unfold precondition at h
  split at h
  · cases h
  · simp only [hcov] at h
    rw [if_neg] at h
    · split at h
      · cases h
      · next b hb =>
        split at h
        · cases h
        · next s₁ out hout =>
          cases h
          refine ⟨out, rfl, ?_⟩
          cases b with
          | true =>
            simp only [if_true] at hout
            unfold preconditionRaw at hout
            split at hout
            · cases hout
            · next s₂ inv hinv =>
              split at hout
              · cases hout
              · next out' hl =>
                cases hout
                obtain ⟨k1, -, k3⟩ := rawLoop_ok hl hn (by simp [Dict.keys])
                refine ⟨by rw [k1]; rfl, .inl fun m hm => ?_⟩
                obtain ⟨g, i, p, e1, e2, e3, e4⟩ := k3 m hm
                obtain ⟨n, r, hs', j1, j2, j3, j4⟩ := rawSolve_ok e3
                refine ⟨g, i, p, e1, e4, tensorAt_item2 (d := inv) ?_ e2, j2, fun k hk idx hidx => ?_⟩
                rotate_left
                · have hk' : k < n := by simpa [Tensor.size, hs'] using hk
                  rw [hs', List.tail_cons] at hidx ⊢
                  exact j4 k idx hk' ((mem_indices _ _).1 hidx)
                unfold LState.getCovarianceInverse at hinv
                split at hinv
                · cases hinv
                · split at hinv
                  · cases hinv
                  · next hd => cases hinv; exact hd
          | false =>
            simp only [Bool.false_eq_true, if_false] at hout
            unfold preconditionKfac at hout
            split at hout
            · cases hout
            · next s₂ n hsvd =>
              split at hout
              · next vals vecs hvals hvecs =>
                split at hout
                · cases hout
                · next vals' out' hl =>
                  cases hout
                  obtain ⟨k1, -, k3⟩ := kfacLoop_ok hl hn (by simp [Dict.keys])
                  refine ⟨by rw [k1]; rfl, .inr ⟨effDamping vals (Dict.keys d) damping, n, fun m hm => ?_⟩⟩
                  obtain ⟨g, ef, eb, full, sh, p, e1, e2, e3, e4, e5, e6, -⟩ := k3 m hm
                  have hne : n ≠ nEigvec := by
                    unfold LState.getCovarianceSvd at hsvd
                    split at hsvd
                    · cases hsvd
                    · cases hsvd; split <;> decide
                  have hv' : (s₂.setAttr n vals').getAttr nEigvec = .ok vecs := by rw [getAttr_setAttr, if_neg hne]; exact hvecs
                  obtain ⟨n', o', w', hs', j1, j2, j3, j4, j5, j6⟩ := kfacSolve_ok e5
                  refine ⟨g, ef, eb, full, p, e1, e6, tensorAt_item2 hv' e2, tensorAt_item2 hv' e3, ⟨s₂, vals, sh, hsvd, hvals, e4⟩, j4,
                    fun k x y hk hx hy => ?_⟩
                  have h0 : g.size 0 = n' := by simp [Tensor.size, hs']
                  have h1 : g.size 1 = o' := by simp [Tensor.size, hs']
                  have h2 : g.size 2 = w' := by simp [Tensor.size, hs']
                  have h3 : ef.size 0 = w' := by simp [Tensor.size, j1]
                  have h4 : eb.size 0 = o' := by simp [Tensor.size, j2]
                  rw [h0] at hk
                  rw [h1] at hx ⊢
                  rw [h2] at hy ⊢
                  rw [j6 k x y hk hx hy]
                  refine Finset.sum_congr rfl fun a ha => Finset.sum_congr rfl fun b hb => ?_
                  rw [Finset.mem_range] at ha hb
                  simp only [rotF, h3, h4, Spec.row]
                  rw [Tensor.el_ofFn, if_pos]
                  rw [Tensor.ofFn_shape] at j3
                  rw [j3]
                  simp only [inRange, Bool.and_eq_true, decide_eq_true_eq, and_true]
                  exact ⟨ha, hb⟩
              · cases hout
    · rw [List.any_eq_true]
      rintro ⟨p, hp, hc⟩
      have := hall p.1 (List.mem_map_of_mem (f := Prod.fst) hp)
      rw [← Dict.get?_isSome_iff] at this
      simp [Dict.contains, this] at hc

end Logix
