/-
C134: the scores when no damping is given.
-/
import Verif.Props.FormulaModes
import Verif.Props.Repeat
import Verif.Spec.DefaultDamping
import Mathlib.Tactic.Linarith

set_option linter.unusedSectionVars false

namespace Logix
open Spec
variable {K : Type}

/-- The sum of the eigenvalues is that of the diagonal. -/
theorem eigen_trace [Field K] {x w v : Tensor K} {n : Nat} (h : EigenDec x w v n) : ∑ a ∈ Finset.range n, w.el [a] = ∑ i ∈ Finset.range n, x.el [i, i] := by
  have e1 : ∀ i ∈ Finset.range n, x.el [i, i] = ∑ a ∈ Finset.range n, w.el [a] * (v.el [i, a] * v.el [i, a]) := by
    intro i hi
    have hi' := Finset.mem_range.1 hi
    calc x.el [i, i] = ∑ j ∈ Finset.range n, x.el [i, j] * (if j = i then 1 else 0) := by
          simp only [mul_ite, mul_one, mul_zero]
          rw [Finset.sum_ite_eq', if_pos hi]
      _ = ∑ j ∈ Finset.range n, ∑ a ∈ Finset.range n, x.el [i, j] * v.el [j, a] * v.el [i, a] := by
          refine Finset.sum_congr rfl fun j hj => ?_
          rw [← h.rows j i (Finset.mem_range.1 hj) hi', Finset.mul_sum]
          exact Finset.sum_congr rfl fun a _ => by ring
      _ = _ := by
          rw [Finset.sum_comm]
          refine Finset.sum_congr rfl fun a ha => ?_
          rw [← Finset.sum_mul, h.eig i a hi' (Finset.mem_range.1 ha)]
          ring
  rw [Finset.sum_congr rfl e1, Finset.sum_comm]
  refine Finset.sum_congr rfl fun a ha => ?_
  rw [← Finset.mul_sum, h.cols a a (Finset.mem_range.1 ha) (Finset.mem_range.1 ha), if_pos rfl, mul_one]

/-- Without damping given, KFAC is damped by a tenth of the mean of the eigenvalues of the first module. -/
theorem default_kfac [Field K] {L : Lib K} {ops : List (StateOp K)} {s : LState K} (hrun : runOps L .init ops = .ok s) (hE : EighOk L) (hs : SvdFresh s)
    (hek : s.hasAttr nEkfac = false) {keys : List PyStr} {hessian : Hess} (hu : UsesKfac s keys hessian) {m : PyStr} {tl : List PyStr} (hk : keys = m :: tl)
    {A B : Tensor K} (hA : tensorAt s.attrs nCov [m, LogType.name .forward] = some A) (hB : tensorAt s.attrs nCov [m, LogType.name .backward] = some B)
    {w h : Nat} (sA : Symm A w) (sB : Symm B h) :
    (∀ d : GLog K, Dict.keys d = keys → precondition L s (.dict d) hessian none = precondition L s (.dict d) hessian (some (kfacDamping h w (entries B) (entries A)))) ∧
    ∀ (d : GLog K) s₂ o, Dict.keys d = keys → precondition L s (.dict d) hessian none = .ok (s₂, o) →
      hessOf L s keys hessian none = hessOf L s keys hessian (some (kfacDamping h w (entries B) (entries A))) := by
  have hmean : ∀ s₁ n vals, s.getCovarianceSvd L = .ok (s₁, n) → s₁.getAttr n = .ok vals → ∀ dev full sh, fullEigval vals m dev = .ok (full, sh) →
      1 / 10 * full.mean = kfacDamping h w (entries B) (entries A) := by
    intro s₁ n vals hsvd hvals dev full sh hfull
    obtain ⟨f1, f2, f3, f4⟩ := svd_sound hrun hE hs hsvd
    rw [hek] at f4
    simp only [Bool.false_eq_true, if_false] at f4
    subst f4
    have tA := hA
    have tB := hB
    rw [← tensorAt_congr (f3 nCov (by decide) (by decide))] at tA tB
    obtain ⟨wf, vf, wf1, -, dA⟩ := f1.dec f2 _ _ _ _ tA sA
    obtain ⟨wb, vb, wb1, -, dB⟩ := f1.dec f2 _ _ _ _ tB sB
    obtain ⟨-, sub, q2, q3⟩ := tensorAt_node hvals wf1
    obtain ⟨-, sub', q2', q3'⟩ := tensorAt_node hvals wb1
    rw [q2] at q2'; cases q2'
    have hfull' : full = Tensor.ofFn2 dev h w fun a b => wb.el [a] * wf.el [b] := by
      unfold fullEigval at hfull
      simp only [q2, q3, q3'] at hfull
      split at hfull
      · cases hfull
        rw [show wf.size 0 = w by simp [Tensor.size, dA.wshape], show wb.size 0 = h by simp [Tensor.size, dB.wshape]]
      · cases hfull
    subst hfull'
    unfold kfacDamping meanDiagonal entries
    rw [← eigen_trace dA, ← eigen_trace dB]
    unfold Tensor.mean
    rw [show (Tensor.ofFn2 dev h w fun a b => wb.el [a] * wf.el [b]).shape = [h, w] from rfl, indices2_sum]
    congr 1
    rw [div_mul_div_comm, Finset.sum_mul_sum]
    congr 1
    · refine Finset.sum_congr rfl fun a ha => Finset.sum_congr rfl fun b hb => ?_
      rw [Tensor.el_ofFn2 _ _ _ _ (Finset.mem_range.1 ha) (Finset.mem_range.1 hb)]
    · simp [numel]
  obtain ⟨cov, hcov⟩ := cov_getAttr hrun
  obtain ⟨-, sub, hsub, -⟩ := tensorAt_node hcov hA
  have hraw : ∀ d : GLog K, Dict.keys d = keys → ∀ b, usesRaw cov d hessian = .ok b → b = false := by
    intro d hd b hb
    rcases hu with rfl | ⟨rfl, hu⟩
    · cases hb; rfl
    · cases d with
      | nil => cases hb
      | cons p rest =>
        have : p.1 = m := by
          rw [hk] at hd
          exact (List.cons.inj hd).1
        obtain ⟨p1, p2⟩ := p
        subst this
        unfold usesRaw at hb
        simp only [hsub] at hb
        rw [← Except.ok.inj hb, ← Bool.not_eq_true, Dict.contains_iff]
        exact hu cov hcov p1 (by rw [hk]; exact List.mem_cons_self) sub hsub
  refine ⟨fun d hd => ?_, fun d s₂ o hd hp => ?_⟩
  · have hloop : ∀ s₁ n vals vecs, s.getCovarianceSvd L = .ok (s₁, n) → s₁.getAttr n = .ok vals →
        kfacLoop vecs none vals [] d = kfacLoop vecs (some (kfacDamping h w (entries B) (entries A))) vals [] d := by
      intro s₁ n vals vecs hsvd hvals
      cases d with
      | nil => rfl
      | cons p rest =>
        have : p.1 = m := by
          rw [hk] at hd
          exact (List.cons.inj hd).1
        obtain ⟨p1, p2⟩ := p
        subst this
        rw [kfacLoop, kfacLoop]
        cases hgr : Dict.get? p2 (LogType.name .grad) with
        | none => rfl
        | some g =>
          simp only
          cases hfull : fullEigval vals p1 g.dev with
          | error e => rfl
          | ok fs =>
            obtain ⟨full, sh⟩ := fs
            simp only [Option.getD_none, Option.getD_some, hmean _ _ _ hsvd hvals _ _ _ hfull]
    unfold precondition
    simp only [hcov]
    cases hr : usesRaw cov d hessian with
    | error e => rfl
    | ok b =>
      have := hraw d hd b hr
      subst this
      simp only [Bool.false_eq_true, if_false]
      unfold preconditionKfac
      cases hsvd : s.getCovarianceSvd L with
      | error e => rfl
      | ok p =>
        obtain ⟨s₁, n⟩ := p
        simp only
        cases hvals : s₁.getAttr n with
        | error e => rfl
        | ok vals =>
          cases hvecs : s₁.getAttr nEigvec with
          | error e => rfl
          | ok vecs => simp only [hloop s₁ n vals vecs hsvd hvals]
  · have hany : (d.any fun p => !Dict.contains cov p.1) = keys.any fun k => !Dict.contains cov k := by rw [← hd, Dict.keys, List.any_map]; rfl
    unfold precondition at hp
    split at hp
    · cases hp
    · simp only [hcov, hany] at hp
      unfold hessOf
      simp only [hcov]
      split at hp
      · next hc => rw [if_pos hc, if_pos hc]
      · next hc =>
        rw [if_neg hc, if_neg hc]
        rw [← hd, usesRaw_keys]
        cases hr : usesRaw cov d hessian with
        | error e => rfl
        | ok b =>
          have := hraw d hd b hr
          subst this
          simp only [hr, Bool.false_eq_true, if_false] at hp
          simp only
          unfold preconditionKfac at hp
          cases hsvd : s.getCovarianceSvd L with
          | error e => rfl
          | ok p =>
            obtain ⟨s₁, n⟩ := p
            simp only [hsvd] at hp
            simp only
            cases hvals : s₁.getAttr n with
            | error e => rfl
            | ok vals =>
              cases hvecs : s₁.getAttr nEigvec with
              | error e => rfl
              | ok vecs =>
                simp only [hvals, hvecs] at hp
                simp only
                have : effDamping vals (Dict.keys d) none = kfacDamping h w (entries B) (entries A) := by
                  cases d with
                  | nil => rw [hk] at hd; cases hd
                  | cons p rest =>
                    have : p.1 = m := by
                      rw [hk] at hd
                      exact (List.cons.inj hd).1
                    obtain ⟨p1, p2⟩ := p
                    subst this
                    rw [kfacLoop] at hp
                    cases hgr : Dict.get? p2 (LogType.name .grad) with
                    | none => rw [hgr] at hp; cases hp
                    | some g =>
                      simp only [hgr] at hp
                      cases hfull : fullEigval vals p1 g.dev with
                      | error e =>
                        simp only [hfull] at hp
                        split at hp
                        · cases hp
                        · next hq =>
                          split at hq
                          · cases hq
                          · next hq₂ => split at hq₂ <;> cases hq₂
                      | ok fs =>
                        obtain ⟨full', sh'⟩ := fs
                        obtain ⟨-, sh₂, hf⟩ := fullEigval_dev hfull .cpu
                        show (match fullEigval vals p1 .cpu with | .ok (full, _) => 1 / 10 * full.mean | .error _ => 0) = _
                        simp only [hf]
                        exact hmean _ _ _ hsvd hvals _ _ _ hf
                rw [this]
                rfl

/-- Any solution of `C x + c x = g` gives the form of the inverse of `C + c`. -/
theorem inverse_form [Field K] {C i : Tensor K} {r : List Nat} {c : K} (sC : Symm C (numel r)) (di : DampedInverse C i (numel r) c) {g f x : List Nat → K}
    (hx : ∀ idx ∈ indices r, ((indices r).map fun idx' => C.el [ravel r idx, ravel r idx'] * x idx').sum + c * x idx = g idx) :
    ((indices r).map fun idx => ((indices r).map fun idx' => g idx' * i.el [ravel r idx', ravel r idx]).sum * f idx).sum = dot r x f := by
  unfold Spec.dot
  congr 1
  refine List.map_congr_left fun idx hidx => ?_
  congr 1
  have hidx' := (mem_indices _ _).1 hidx
  have hlt := ravel_lt r idx hidx'
  set X : Nat → K := fun a => x ((indices r).getD a []) with hX
  have hXr : ∀ idx ∈ indices r, x idx = X (ravel r idx) := fun idx h => by rw [hX]; simp only [getD_ravel r idx ((mem_indices _ _).1 h)]
  have step : ∀ idx' ∈ indices r, g idx' * i.el [ravel r idx', ravel r idx] =
      (fun b => ((∑ a ∈ Finset.range (numel r), C.el [b, a] * X a) + c * X b) * i.el [b, ravel r idx]) (ravel r idx') := by
    intro idx' h'
    simp only
    rw [← hx idx' h', sum_range_numel, ← hXr idx' h']
    congr 3
    exact List.map_congr_left fun idx'' h'' => by rw [← hXr idx'' h'']
  rw [List.map_congr_left step, ← sum_range_numel r (fun b => ((∑ a ∈ Finset.range (numel r), C.el [b, a] * X a) + c * X b) * i.el [b, ravel r idx])]
  calc _ = ∑ b ∈ Finset.range (numel r), ∑ a ∈ Finset.range (numel r), X a * ((C.el [a, b] + if a = b then c else 0) * i.el [b, ravel r idx]) := by
        refine Finset.sum_congr rfl fun b hb => ?_
        have : c * X b = ∑ a ∈ Finset.range (numel r), (if a = b then c else 0) * X a := by
          simp only [ite_mul, zero_mul]
          rw [Finset.sum_ite_eq', if_pos hb]
        rw [this, ← Finset.sum_add_distrib, Finset.sum_mul]
        refine Finset.sum_congr rfl fun a ha => ?_
        rw [sC.2 b a (Finset.mem_range.1 hb) (Finset.mem_range.1 ha)]
        ring
    _ = ∑ a ∈ Finset.range (numel r), X a * (if a = ravel r idx then 1 else 0) := by
        rw [Finset.sum_comm]
        refine Finset.sum_congr rfl fun a ha => ?_
        rw [← Finset.mul_sum, di.right a _ (Finset.mem_range.1 ha) hlt]
    _ = _ := by
        simp only [mul_ite, mul_one, mul_zero]
        rw [Finset.sum_ite_eq', if_pos (Finset.mem_range.2 hlt), ← hXr idx hidx]

/-- The inverse of `C + c` solves `C x + c x = g`. -/
theorem inverse_solves [Field K] {C i : Tensor K} {r : List Nat} {c : K} (sC : Symm C (numel r)) (di : DampedInverse C i (numel r) c) (g : List Nat → K) :
    ∃ x : List Nat → K, ∀ idx ∈ indices r, ((indices r).map fun idx' => C.el [ravel r idx, ravel r idx'] * x idx').sum + c * x idx = g idx := by
  set G : Nat → K := fun a => g ((indices r).getD a []) with hG
  have hGr : ∀ idx ∈ indices r, g idx = G (ravel r idx) := fun idx h => by rw [hG]; simp only [getD_ravel r idx ((mem_indices _ _).1 h)]
  set X : Nat → K := fun b => ∑ a ∈ Finset.range (numel r), G a * i.el [a, b] with hX
  refine ⟨fun idx => X (ravel r idx), fun idx hidx => ?_⟩
  have hlt := ravel_lt r idx ((mem_indices _ _).1 hidx)
  rw [hGr idx hidx, ← sum_range_numel r (fun b => C.el [ravel r idx, b] * X b)]
  set b := ravel r idx with hb
  calc _ = ∑ a ∈ Finset.range (numel r), X a * (C.el [a, b] + if a = b then c else 0) := by
        have : c * X b = ∑ a ∈ Finset.range (numel r), X a * (if a = b then c else 0) := by
          simp only [mul_ite, mul_zero]
          rw [Finset.sum_ite_eq', if_pos (Finset.mem_range.2 hlt), mul_comm]
        rw [this, ← Finset.sum_add_distrib]
        refine Finset.sum_congr rfl fun a ha => ?_
        rw [sC.2 b a hlt (Finset.mem_range.1 ha)]
        ring
    _ = ∑ a' ∈ Finset.range (numel r), G a' * (if a' = b then 1 else 0) := by
        rw [hX]
        simp only [Finset.sum_mul]
        rw [Finset.sum_comm]
        refine Finset.sum_congr rfl fun a ha => ?_
        rw [← di.left a b (Finset.mem_range.1 ha) hlt, Finset.mul_sum]
        exact Finset.sum_congr rfl fun k _ => by ring
    _ = _ := by
        simp only [mul_ite, mul_one, mul_zero]
        rw [Finset.sum_ite_eq', if_pos (Finset.mem_range.2 hlt)]

variable [Field K] [LinearOrder K] [IsStrictOrderedRing K]

/-- With the empirical Fisher matrix and no damping given, every module has its own damping. -/
theorem raw_solutions_default {L : Lib K} {calls : List (Plugin × StatCall K)} {s s₁ s₂ : LState K} {ids : List PyStr} {d : GLog K} {o : LogArg K}
    {hessian : Hess} {H : HessKind K} (hE : EighOk L) (hI : InverseOk L) (hf : Finalized L calls s) (hu : UsesRaw s (Dict.keys d) hessian)
    {C : PyStr → Tensor K} {wd : PyStr → Nat} {S : PyStr → Nat → Nat → K}
    (hC : ∀ m ∈ Dict.keys d, tensorAt s.attrs nCov [m, LogType.name .grad] = some (C m) ∧ (C m).shape = [wd m, wd m] ∧
      ∀ i j, i < wd m → j < wd m → (C m).el [i, j] = S m i j)
    (hd : Labelled ids d) (hpre : precondition L s (.dict d) hessian none = .ok (s₂, o))
    (hH : hessOf L s (Dict.keys d) hessian none = .ok (s₁, H)) :
    (∀ m ∈ Dict.keys d, ∀ g, grad d m = some g → numel g.shape.tail = wd m) ∧
    (∀ i, i < ids.length → ∃ x : PyStr → List Nat → K, ∀ m ∈ Dict.keys d, RawSystem (S m) (rawDamping (wd m) (S m)) d i m (x m)) ∧
    ∀ i m x, m ∈ Dict.keys d → RawSystem (S m) (rawDamping (wd m) (S m)) d i m x → ∀ g, grad d m = some g → ∀ f,
      H.form m g.shape.tail (row g i) f = dot g.shape.tail x f := by
  have hP : PosHessian L s (Dict.keys d) hessian 1 := posHessian_of_logged hE hI hf one_pos (.inr ⟨hu, fun m hm => by rw [(hC m hm).1]; rfl⟩)
  obtain ⟨ops, hrun, hmask⟩ := hP.run
  have hno : s.hasAttr nInverse = false := finalized_hasAttr hf (by decide) rfl
  obtain ⟨cov, hcov⟩ := cov_getAttr hrun
  have hk : ∀ m ∈ Dict.keys d, ∃ sub, Dict.get? cov m = some (.node sub) := fun m hm => by
    obtain ⟨-, sub, h1, -⟩ := tensorAt_node hcov (hC m hm).1
    exact ⟨sub, h1⟩
  obtain ⟨b, out, hb, rfl, hout⟩ := precondition_split hcov hk hpre
  have := usesRaw_raw hcov hu hk rfl hb
  subst this
  simp only [if_true] at hout
  unfold preconditionRaw at hout
  split at hout
  · cases hout
  · next s₃ inv hinv =>
    split at hout
    · cases hout
    · next out' hl =>
      cases hout
      obtain ⟨-, -, k3⟩ := rawLoop_ok hl hd.nodup (by simp [Dict.keys])
      have hHinv : H = .raw inv := by
        obtain ⟨cov', hcov', ⟨rfl, -⟩ | ⟨hr, inv', rfl, hi⟩ | ⟨hr, n, vals, vecs, rfl, hsvd, hv, he⟩⟩ := hessOf_cases hH
        · exfalso
          unfold hessOf at hH
          simp only [hcov'] at hH
          rw [hcov] at hcov'; cases hcov'
          split at hH
          · next hc =>
            rw [List.any_eq_true] at hc
            obtain ⟨k, hk1, hk2⟩ := hc
            obtain ⟨sub, hsub⟩ := hk k hk1
            simp [Dict.contains, hsub] at hk2
          · split at hH
            · cases hH
            · split at hH <;> cases hH
            · split at hH
              · cases hH
              · split at hH <;> cases hH
        · rw [hinv] at hi; cases hi; rfl
        · rw [hcov] at hcov'; cases hcov'
          have := usesRaw_raw hcov hu hk (keys_map_nil _) hr
          cases this
      subst hHinv
      have key : ∀ m ∈ Dict.keys d, ∃ g n r i, grad d m = some g ∧ g.shape = n :: r ∧ n = ids.length ∧ numel r = wd m ∧
          item2 inv m (LogType.name .grad) = .ok (some (.tensor i)) ∧ Symm (C m) (numel r) ∧ DampedInverse (C m) i (numel r) (rawDamping (wd m) (S m)) := by
        intro m hm
        obtain ⟨g, i, p, e1, e2, e3, e4⟩ := k3 m hm
        obtain ⟨n, r, hs', j1, j2, j3, j4⟩ := rawSolve_ok e3
        obtain ⟨i', h1, -, h3⟩ := C42_first_inverse_partial L hrun hno hinv (hC m hm).1
        rw [e2] at h3; cases h3
        have hn : (C m).size 0 = wd m := by simp [Tensor.size, (hC m hm).2.1]
        simp only [hn] at h1
        obtain ⟨k1, k2, k3⟩ := hI _ (wd m) (by rw [Tensor.ofFn2_shape]) i h1
        have hr : numel r = wd m := by rw [j1] at k1; exact (List.cons.inj k1).1
        obtain ⟨G', g1', g6⟩ := hd.rows m hm
        rw [e1] at g1'; cases g1'
        obtain ⟨n₀, hsym, -⟩ := posHessian_symm hP (hC m hm).1
        have hw := hsym.1
        rw [(hC m hm).2.1] at hw
        obtain rfl := (List.cons.inj hw).1
        have hdamp : 1 / 10 * (∑ k ∈ Finset.range (wd m), (C m).el [k, k]) / (wd m : K) = rawDamping (wd m) (S m) := by
          unfold rawDamping meanDiagonal
          rw [mul_div_assoc, Finset.sum_congr rfl fun k hk => (hC m hm).2.2 k k (Finset.mem_range.1 hk) (Finset.mem_range.1 hk)]
        rw [hdamp] at k2 k3
        refine ⟨g, n, r, i, e1, hs', by rw [← g6]; simp [Tensor.size, hs'], hr, e2, hr ▸ hsym, ?_⟩
        rw [hr]
        refine ⟨k1, fun a b ha hb => ?_, fun a b ha hb => ?_⟩
        · rw [← k2 a b ha hb]
          refine Finset.sum_congr rfl fun k hk => ?_
          rw [Tensor.el_ofFn2 _ _ _ _ ha (Finset.mem_range.1 hk)]
        · rw [← k3 a b ha hb]
          refine Finset.sum_congr rfl fun k hk => ?_
          rw [Tensor.el_ofFn2 _ _ _ _ (Finset.mem_range.1 hk) hb]
      have conv : ∀ m ∈ Dict.keys d, ∀ r, numel r = wd m → ∀ x : List Nat → K, ∀ idx ∈ indices r,
          ((indices r).map fun idx' => (C m).el [ravel r idx, ravel r idx'] * x idx').sum = ((indices r).map fun idx' => S m (ravel r idx) (ravel r idx') * x idx').sum := by
        intro m hm r hr x idx hidx
        congr 1
        refine List.map_congr_left fun idx' h' => ?_
        rw [(hC m hm).2.2 _ _ (by rw [← hr]; exact ravel_lt r idx ((mem_indices _ _).1 hidx)) (by rw [← hr]; exact ravel_lt r idx' ((mem_indices _ _).1 h'))]
      refine ⟨fun m hm g hg => ?_, fun i hi => ?_, fun i m x hm hx g hg f => ?_⟩
      · obtain ⟨g', n, r, i, e1, e2, -, e4, -⟩ := key m hm
        rw [hg] at e1; cases e1
        rw [e2]; exact e4
      · have : ∀ m, ∃ x : List Nat → K, m ∈ Dict.keys d → RawSystem (S m) (rawDamping (wd m) (S m)) d i m x := by
          intro m
          by_cases hm : m ∈ Dict.keys d
          · obtain ⟨g, n, r, iv, e1, e2, -, e4, e5, e6, e7⟩ := key m hm
            obtain ⟨x, hx⟩ := inverse_solves e6 e7 (fun idx => g.el (i :: idx))
            refine ⟨x, fun _ => ⟨g, e1, ?_⟩⟩
            rw [e2]
            simp only [List.tail_cons]
            intro idx hidx
            rw [← hx idx hidx, conv m hm r e4 x idx hidx]
          · exact ⟨fun _ => 0, fun h => absurd h hm⟩
        choose x hx using this
        exact ⟨x, fun m hm => hx m hm⟩
      · obtain ⟨g', n, r, iv, e1, e2, -, e4, e5, e6, e7⟩ := key m hm
        rw [hg] at e1; cases e1
        obtain ⟨G', g1, g3⟩ := hx
        rw [hg] at g1; cases g1
        rw [e2] at g3 ⊢
        simp only [List.tail_cons] at g3 ⊢
        simp only [HessKind.form, e5, e7.shape, if_true]
        refine inverse_form e6 e7 fun idx hidx => ?_
        rw [conv m hm r e4 x idx hidx, g3 idx hidx]
        rfl

/-- With KFAC and no damping given, all modules have the damping of the first. -/
theorem kfac_solutions_default {L : Lib K} {calls : List (Plugin × StatCall K)} {s s₁ s₂ : LState K} {ids : List PyStr} {d : GLog K} {o : LogArg K}
    {hessian : Hess} {H : HessKind K} (hE : EighOk L) (hI : InverseOk L) (hf : Finalized L calls s) (hu : UsesKfac s (Dict.keys d) hessian)
    {A B : PyStr → Tensor K} {wd ht : PyStr → Nat} {a b : PyStr → Nat → Nat → K}
    (hA : ∀ m ∈ Dict.keys d, tensorAt s.attrs nCov [m, LogType.name .forward] = some (A m) ∧ (A m).shape = [wd m, wd m] ∧
      ∀ i j, i < wd m → j < wd m → (A m).el [i, j] = a m i j)
    (hB : ∀ m ∈ Dict.keys d, tensorAt s.attrs nCov [m, LogType.name .backward] = some (B m) ∧ (B m).shape = [ht m, ht m] ∧
      ∀ i j, i < ht m → j < ht m → (B m).el [i, j] = b m i j)
    {first : PyStr} {tl : List PyStr} (hk : Dict.keys d = first :: tl) (hc : 0 < kfacDamping (ht first) (wd first) (b first) (a first)) (hd : Labelled ids d)
    (hpre : precondition L s (.dict d) hessian none = .ok (s₂, o)) (hH : hessOf L s (Dict.keys d) hessian none = .ok (s₁, H)) :
    (∀ i, i < ids.length → ∃ x : PyStr → List Nat → K, ∀ m ∈ Dict.keys d,
      KfacSystem (a m) (b m) (kfacDamping (ht first) (wd first) (b first) (a first)) d i m (x m)) ∧
    ∀ i m x, m ∈ Dict.keys d → KfacSystem (a m) (b m) (kfacDamping (ht first) (wd first) (b first) (a first)) d i m x → ∀ g, grad d m = some g → ∀ f,
      H.form m g.shape.tail (row g i) f = dot g.shape.tail x f := by
  have hek : s.hasAttr nEkfac = false := finalized_hasAttr hf (by decide) rfl
  have hP : PosHessian L s (Dict.keys d) hessian (1 : K) :=
    posHessian_of_logged hE hI hf one_pos (.inl ⟨hu, fun m hm => ⟨by rw [(hA m hm).1]; rfl, by rw [(hB m hm).1]; rfl⟩⟩)
  obtain ⟨ops, hrun, hmask⟩ := hP.run
  have hm₀ : first ∈ Dict.keys d := by rw [hk]; exact List.mem_cons_self
  have sym : ∀ {lt : PyStr} {x : Tensor K} {n : Nat}, tensorAt s.attrs nCov [first, lt] = some x → x.shape = [n, n] → Symm x n := by
    intro lt x n hx hn
    obtain ⟨n', h1, -⟩ := posHessian_symm hP hx
    have := h1.1
    rw [hn] at this
    obtain rfl := (List.cons.inj this).1
    exact h1
  have hdamp : kfacDamping (ht first) (wd first) (entries (B first)) (entries (A first)) = kfacDamping (ht first) (wd first) (b first) (a first) := by
    unfold kfacDamping meanDiagonal entries
    rw [Finset.sum_congr rfl fun k hk => (hA first hm₀).2.2 k k (Finset.mem_range.1 hk) (Finset.mem_range.1 hk),
      Finset.sum_congr rfl fun k hk => (hB first hm₀).2.2 k k (Finset.mem_range.1 hk) (Finset.mem_range.1 hk)]
  obtain ⟨q1, q2⟩ := default_kfac hrun hE hP.svd hek hu hk (hA first hm₀).1 (hB first hm₀).1 (sym (hA first hm₀).1 (hA first hm₀).2.1)
    (sym (hB first hm₀).1 (hB first hm₀).2.1)
  rw [q2 d _ _ rfl hpre, hdamp] at hH
  rw [q1 d rfl, hdamp] at hpre
  exact kfac_solutions hE hI hf hu hA hB hc hd hpre hH

/-- The covariances after the run, with the sizes of what was logged. -/
theorem finalized_features {L : Lib K} {calls : List (Plugin × StatCall K)} {s : LState K} (h : Finalized L calls s) {keys : List PyStr} {lt : LogType}
    (hl : ∀ m ∈ keys, Logged calls m lt) : ∃ A : PyStr → Tensor K, ∀ m ∈ keys, tensorAt s.attrs nCov [m, lt.name] = some (A m) ∧
      (A m).shape = [features calls m lt, features calls m lt] ∧
      ∀ i j, i < features calls m lt → j < features calls m lt → (A m).el [i, j] = secondMoment calls m lt i j := by
  have : ∀ m, ∃ t : Tensor K, m ∈ keys → tensorAt s.attrs nCov [m, lt.name] = some t ∧ t.shape = [features calls m lt, features calls m lt] ∧
      ∀ i j, i < features calls m lt → j < features calls m lt → t.el [i, j] = secondMoment calls m lt i j := by
    intro m
    by_cases hm : m ∈ keys
    · obtain ⟨-, -, s₀, dir, dir', h2, h3⟩ := h
      obtain ⟨t, W, a1, a2, a3, a4⟩ := C31_covariance L h2 h3 m lt (hl m hm).1 fun c hc => by
        refine ((hl m hm).2 c hc).imp id fun e => ?_
        rw [← e]
        unfold callsOf at hc
        obtain ⟨pc, hpc, rfl⟩ := List.mem_map.1 hc
        have := (List.mem_filter.1 hpc).2
        simp only [decide_eq_true_eq] at this
        exact this.2.2
      have : features calls m lt = W := by
        unfold features
        split
        · next h0 => exact absurd h0 (hl m hm).1
        · next c cs h0 => exact a3 c (by rw [h0]; exact List.mem_cons_self)
      rw [this]
      exact ⟨t, fun _ => ⟨a1, a2, a4⟩⟩
    · exact ⟨Tensor.ofFn2 .cpu 0 0 fun _ _ => 0, fun h => absurd h hm⟩
  choose A hA using this
  exact ⟨A, hA⟩

/-- The systems with the default damping have solutions, and any solutions give the form of the inverse Hessian. -/
theorem solutions_default {L : Lib K} {calls : List (Plugin × StatCall K)} {s s₁ s₂ : LState K} {ids : List PyStr} {d : GLog K} {o : LogArg K} {hessian : Hess}
    {H : HessKind K} (hE : EighOk L) (hI : InverseOk L) (hf : Finalized L calls s) (hl : LoggedAll calls (Dict.keys d) hessian)
    (hc : ∀ m ∈ Dict.keys d, 0 < defaultDamping calls hessian (Dict.keys d) m) (hd : Labelled ids d)
    (hpre : precondition L s (.dict d) hessian none = .ok (s₂, o)) (hH : hessOf L s (Dict.keys d) hessian none = .ok (s₁, H)) :
    (∀ i, i < ids.length → ∃ x : PyStr → List Nat → K, ∀ m ∈ Dict.keys d, Solves calls hessian (defaultDamping calls hessian (Dict.keys d) m) d i m (x m)) ∧
    ∀ i m x, m ∈ Dict.keys d → Solves calls hessian (defaultDamping calls hessian (Dict.keys d) m) d i m x → ∀ g, grad d m = some g → ∀ f,
      H.form m g.shape.tail (row g i) f = dot g.shape.tail x f := by
  rcases hl with ⟨hh, hl⟩ | ⟨hh, hl⟩
  · have hu := usesKfac_of_calls hf hh
    obtain ⟨A, hA⟩ := finalized_features hf fun m hm => (hl m hm).1
    obtain ⟨B, hB⟩ := finalized_features hf fun m hm => (hl m hm).2
    have hS : ∀ m ∈ Dict.keys d, ¬(hessian = .raw ∨ hessian = .auto ∧ callsOf .covariance m .grad calls ≠ []) := by
      intro m hm
      rintro (h1 | ⟨h1, h2⟩) <;> rcases hh with h3 | ⟨h3, h4⟩
      · rw [h1] at h3; cases h3
      · rw [h1] at h3; cases h3
      · rw [h1] at h3; cases h3
      · exact h2 (h4 m hm)
    cases hk : Dict.keys d with
    | nil => exact ⟨fun i _ => ⟨fun _ _ => 0, fun m hm => by cases hm⟩, fun i m x hm => by cases hm⟩
    | cons first tl =>
      have hm₀ : first ∈ Dict.keys d := by rw [hk]; exact List.mem_cons_self
      have hdd : ∀ m ∈ Dict.keys d, defaultDamping calls hessian (first :: tl) m = kfacDamping (features calls first .backward) (features calls first .forward)
          (secondMoment calls first .backward) (secondMoment calls first .forward) := fun m hm => by unfold defaultDamping; rw [if_neg (hS m hm)]
      have hc₀ := hc first hm₀
      rw [hk, hdd first hm₀] at hc₀
      obtain ⟨k1, k2⟩ := kfac_solutions_default hE hI hf hu hA hB hk hc₀ hd hpre hH
      have hS' : ∀ m ∈ Dict.keys d, ∀ i x, Solves calls hessian (defaultDamping calls hessian (first :: tl) m) d i m x =
          KfacSystem (secondMoment calls m .forward) (secondMoment calls m .backward) (kfacDamping (features calls first .backward) (features calls first .forward)
          (secondMoment calls first .backward) (secondMoment calls first .forward)) d i m x := fun m hm i x => by
        unfold Solves; rw [if_neg (hS m hm), hdd m hm]; rfl
      rw [← hk]
      exact ⟨fun i hi => (k1 i hi).imp fun x hx m hm => by rw [hk, hS' m hm]; exact hx m hm, fun i m x hm hx => k2 i m x hm (by rw [hk, hS' m hm] at hx; exact hx)⟩
  · have hu := usesRaw_of_calls hf hh fun m hm => (hl m hm).1
    obtain ⟨C, hC⟩ := finalized_features hf hl
    have hS : ∀ m ∈ Dict.keys d, ∀ i x, Solves calls hessian (defaultDamping calls hessian (Dict.keys d) m) d i m x =
        RawSystem (secondMoment calls m .grad) (rawDamping (features calls m .grad) (secondMoment calls m .grad)) d i m x := by
      intro m hm i x
      have h1 : hessian = .raw ∨ hessian = .auto ∧ callsOf .covariance m .grad calls ≠ [] := hh.imp id fun h => ⟨h, (hl m hm).1⟩
      unfold Solves defaultDamping
      rw [if_pos h1, if_pos h1]; rfl
    obtain ⟨-, k1, k2⟩ := raw_solutions_default hE hI hf hu hC hd hpre hH
    exact ⟨fun i hi => (k1 i hi).imp fun x hx m hm => by rw [hS m hm]; exact hx m hm, fun i m x hm hx => k2 i m x hm (by rw [hS m hm] at hx; exact hx)⟩

/-- The mean eigenvalue of a second moment is positive if some entry of a row that was logged is not zero. -/
theorem C134_positive {calls : List (Plugin × StatCall K)} {m : PyStr} {lt : LogType} (hs : 0 < samples (callsOf .covariance m lt calls)) {r : Nat → K}
    (hr : r ∈ allRows (callsOf .covariance m lt calls)) {i : Nat} (hi : i < features calls m lt) (hne : r i ≠ 0) :
    0 < meanDiagonal (features calls m lt) (secondMoment calls m lt) := by
  have hs' : (0 : K) < (samples (callsOf .covariance m lt calls) : K) := Nat.cast_pos.2 hs
  have hnn : ∀ (l : List (Nat → K)) (k : Nat), 0 ≤ (l.map fun r => r k * r k).sum := fun l k => by
    refine List.sum_nonneg fun a ha => ?_
    obtain ⟨b, -, rfl⟩ := List.mem_map.1 ha
    exact mul_self_nonneg _
  refine div_pos (Finset.sum_pos' (fun k _ => div_nonneg (hnn _ _) hs'.le) ⟨i, Finset.mem_range.2 hi, div_pos ?_ hs'⟩)
    (Nat.cast_pos.2 (Nat.lt_of_le_of_lt (Nat.zero_le _) hi))
  obtain ⟨l₁, l₂, e⟩ := List.append_of_mem hr
  rw [e, List.map_append, List.sum_append, List.map_cons, List.sum_cons]
  have h1 := hnn l₁ i
  have h2 := hnn l₂ i
  have h3 : 0 < r i * r i := mul_self_pos.2 hne
  linarith

/-- **C134.** A new instance logs data for the covariances and is finalized, and `compute_influence` is called without damping. The scores for the total and
for every group are those of the influence function of the logged data (as in C121), where the damping is a tenth of the mean of the eigenvalues of the
Hessian: with the empirical Fisher matrix every module has the damping of its own matrix, with KFAC all modules have that of the first module in the log.
(The damping must be positive; `C134_positive` says that it is if anything but zeros was logged.) -/
theorem C134_influence {L : Lib K} {sqrt : K → K} {calls : List (Plugin × StatCall K)} {s u : LState K} {srcIds tgtIds : List PyStr} {d e : GLog K}
    {mode : Mode} {hessian : Hess} {groups : Option (List PyStr)} {r : IFResult K} (hE : EighOk L) (hI : InverseOk L) (hf : Finalized L calls s)
    (hl : LoggedAll calls (Dict.keys d) hessian) (hc : ∀ m ∈ Dict.keys d, 0 < defaultDamping calls hessian (Dict.keys d) m)
    (hd : Labelled srcIds d) (he : Labelled tgtIds e) (hk : Dict.keys d = Dict.keys e)
    (hg : (groups.getD []).Nodup) (hn : ['t', 'o', 't', 'a', 'l'] ∉ groups.getD [])
    (h : computeInfluence L sqrt s srcIds (.dict d) tgtIds (.dict e) mode true hessian groups none = .ok (u, r)) :
    ∀ k, k = ['t', 'o', 't', 'a', 'l'] ∨ k ∈ groups.getD [] → ∃ t, r.influence.get? k = some t ∧ t.shape = [srcIds.length, tgtIds.length] ∧
      ∀ i j, i < srcIds.length → j < tgtIds.length →
        (∃ x : PyStr → List Nat → K, ∀ m ∈ Dict.keys d, Solves calls hessian (defaultDamping calls hessian (Dict.keys d) m) d i m (x m)) ∧
        (mode ≠ .dot → ∃ y : PyStr → List Nat → K, ∀ m ∈ Dict.keys d, Solves calls hessian (defaultDamping calls hessian (Dict.keys d) m) e j m (y m)) ∧
        ∀ x : PyStr → List Nat → K, (∀ m ∈ Dict.keys d, Solves calls hessian (defaultDamping calls hessian (Dict.keys d) m) d i m (x m)) →
          (mode = .dot → t.el [i, j] = against x e j (members (Dict.keys d) k)) ∧
          ∀ y : PyStr → List Nat → K, (∀ m ∈ Dict.keys d, Solves calls hessian (defaultDamping calls hessian (Dict.keys d) m) e j m (y m)) →
            (mode = .l2 → t.el [i, j] = against x e j (members (Dict.keys d) k) - 1 / 2 * against y e j (members (Dict.keys d) k)) ∧
            (mode = .cosine → t.el [i, j] = against x e j (members (Dict.keys d) k) / sqrt (against y e j (members (Dict.keys d) k))) :=
  modes_of_solutions (S := fun d' i m x => Solves calls hessian (defaultDamping calls hessian (Dict.keys d) m) d' i m x) hf hd he hk hg hn
    (fun d' _ hk' hd' _ _ _ _ g0 hv => by
      have := solutions_default hE hI hf (by rw [hk']; exact hl) (by rw [hk']; exact hc) hd' g0 hv
      rw [hk'] at this ⊢
      exact this)
    (fun _ _ hs i m x => hs.solves calls hessian _ i m x) h

/-- **C134**, self-influence. -/
theorem C134_self {L : Lib K} {calls : List (Plugin × StatCall K)} {s u : LState K} {ids : List PyStr} {d : GLog K}
    {hessian : Hess} {groups : Option (List PyStr)} {r : SelfResult K} (hE : EighOk L) (hI : InverseOk L) (hf : Finalized L calls s)
    (hl : LoggedAll calls (Dict.keys d) hessian) (hc : ∀ m ∈ Dict.keys d, 0 < defaultDamping calls hessian (Dict.keys d) m) (hd : Labelled ids d)
    (hg : (groups.getD []).Nodup) (hn : ['t', 'o', 't', 'a', 'l'] ∉ groups.getD [])
    (h : computeSelf L s ids (.dict d) true hessian groups none = .ok (u, r)) :
    ∀ k, k = ['t', 'o', 't', 'a', 'l'] ∨ k ∈ groups.getD [] → ∃ t, r.influence.get? k = some t ∧ t.shape = [ids.length] ∧ ∀ i, i < ids.length →
      (∃ x : PyStr → List Nat → K, ∀ m ∈ Dict.keys d, Solves calls hessian (defaultDamping calls hessian (Dict.keys d) m) d i m (x m)) ∧
      ∀ x : PyStr → List Nat → K, (∀ m ∈ Dict.keys d, Solves calls hessian (defaultDamping calls hessian (Dict.keys d) m) d i m (x m)) →
        t.el [i] = against x d i (members (Dict.keys d) k) :=
  self_groups_of_solutions hd hg hn (fun _ _ _ _ g0 hv => solutions_default hE hI hf hl hc hd g0 hv) h

/-- **C134**, in terms of the program, with KFAC: `A` is the second moment of all inputs of the module in the program, and `B` that of the gradients of
its outputs; `c` is a tenth of the mean eigenvalue of the Hessian of the first module, and `x` and `y` solve `B x A + c x = g` for all modules. -/
theorem C134_kfac (E : SEnv K) (hE : EighOk E.lib) (hI : InverseOk E.lib) (ops : List (SOp K)) (hops : ∀ o ∈ ops, Configures o) (n : Nat) (th : Int)
    (fs : FS) (ctx : List (SOp K)) (ids : List PyStr) (hx : Context ctx ids none) (body : List (SOp K)) (dir : StateDir K) (keys : List PyStr)
    (mods : PyStr → Nat) (hbody : ∀ o ∈ body, Unmasked o ∧ ∀ nm ∈ keys, Logs nm o) (hessian : Hess) :
    let s := runHistory E ops (Sess.init n th fs)
    OnlyStatistics s.opt → PlainStats s.opt → s.opt.forward.count .covariance = 1 → s.opt.backward.count .covariance = 1 →
    (hessian = .kfac ∨ hessian = .auto ∧ .covariance ∉ s.opt.grad.tail) →
    (∀ nm ∈ keys, Watches s (mods nm) nm ∧ inputs (mods nm) body ≠ [] ∧ notes outGrad (mods nm) ⟨none, [], [], []⟩ body ≠ []) →
    ∀ t, SAct.each (SOp.run E) (ctx ++ body.map (shift s.user.length) ++ [.finalize dir]) s = (t, none) →
    ∃ A B : PyStr → Tensor K, (∀ nm ∈ keys, InputMoment E body (mods nm) (A nm) ∧ OutGradMoment E body (mods nm) (B nm)) ∧
      ∀ d e : GLog K, Dict.keys d = keys → Dict.keys e = keys → ∀ srcIds tgtIds, Labelled srcIds d → Labelled tgtIds e →
      ∀ first rest, keys = first :: rest → ∀ c, c = kfacDamping ((B first).size 0) ((A first).size 0) (entries (B first)) (entries (A first)) → 0 < c →
      ∀ groups : Option (List PyStr), (groups.getD []).Nodup → ['t', 'o', 't', 'a', 'l'] ∉ groups.getD [] → ∀ sqrt mode u r,
        computeInfluence E.lib sqrt t.st srcIds (.dict d) tgtIds (.dict e) mode true hessian groups none = .ok (u, r) →
        ∀ k, k = ['t', 'o', 't', 'a', 'l'] ∨ k ∈ groups.getD [] → ∃ T, r.influence.get? k = some T ∧ T.shape = [srcIds.length, tgtIds.length] ∧
          ∀ i j, i < srcIds.length → j < tgtIds.length →
            (∃ x : PyStr → List Nat → K, ∀ m ∈ keys, KfacSystem (entries (A m)) (entries (B m)) c d i m (x m)) ∧
            (mode ≠ .dot → ∃ y : PyStr → List Nat → K, ∀ m ∈ keys, KfacSystem (entries (A m)) (entries (B m)) c e j m (y m)) ∧
            ∀ x : PyStr → List Nat → K, (∀ m ∈ keys, KfacSystem (entries (A m)) (entries (B m)) c d i m (x m)) →
              (mode = .dot → T.el [i, j] = against x e j (members keys k)) ∧
              ∀ y : PyStr → List Nat → K, (∀ m ∈ keys, KfacSystem (entries (A m)) (entries (B m)) c e j m (y m)) →
                (mode = .l2 → T.el [i, j] = against x e j (members keys k) - 1 / 2 * against y e j (members keys k)) ∧
                (mode = .cosine → T.el [i, j] = against x e j (members keys k) / sqrt (against y e j (members keys k))) := by
  intro s ho hp hf hb hh hmods t ht
  have key : ∀ nm, ∃ A B : Tensor K, nm ∈ keys → (InputMoment E body (mods nm) A ∧ OutGradMoment E body (mods nm) B) ∧
      tensorAt t.st.attrs nCov [nm, LogType.name .forward] = some A ∧ tensorAt t.st.attrs nCov [nm, LogType.name .backward] = some B := by
    intro nm
    by_cases hm : nm ∈ keys
    · obtain ⟨hw, hin, hout⟩ := hmods nm hm
      have hbd : ∀ o ∈ body, Logs nm o ∧ Unmasked o := fun o h => ⟨(hbody o h).2 nm hm, (hbody o h).1⟩
      obtain ⟨xs, v1, -, c1⟩ := C105_forward E ops hops n th fs (mods nm) nm ctx ids hx body hbd dir hw ho t ht hin
      obtain ⟨gs, v2, -, c2⟩ := C105_backward E ops hops n th fs (mods nm) nm ctx ids hx body hbd dir hw ho (count_one_ne_nil hb) t ht
        (fun h => hout (List.map_eq_nil_iff.1 h))
      obtain ⟨A, a1, a2⟩ := c1 hf
      obtain ⟨B, b1, b2⟩ := c2 hb
      exact ⟨A, B, fun _ => ⟨⟨⟨xs, v1, a2⟩, gs, v2, b2⟩, a1, b1⟩⟩
    · exact ⟨Tensor.ofFn2 .cpu 0 0 fun _ _ => 0, Tensor.ofFn2 .cpu 0 0 fun _ _ => 0, fun h => absurd h hm⟩
  choose A B hAB using key
  refine ⟨A, B, fun nm hm => (hAB nm hm).1, ?_⟩
  rintro d e rfl hke srcIds tgtIds hd he first rest hk c rfl hc groups hg hn sqrt mode u r h
  have hm : first ∈ Dict.keys d := by rw [hk]; exact List.mem_cons_self
  obtain ⟨calls, hfin, hgr, -⟩ := session_finalized E ops hops n th fs (mods first) first ctx ids hx body
    (fun o h => ⟨(hbody o h).2 first hm, (hbody o h).1⟩) dir (hmods first hm).1 ho hp t ht
  have hsA : ∀ m ∈ Dict.keys d, (A m).shape = [(A m).size 0, (A m).size 0] := fun m h => by
    obtain ⟨xs, -, w, h1, -⟩ := (hAB m h).1.1
    simp [Tensor.size, h1]
  have hsB : ∀ m ∈ Dict.keys d, (B m).shape = [(B m).size 0, (B m).size 0] := fun m h => by
    obtain ⟨xs, -, w, h1, -⟩ := (hAB m h).1.2
    simp [Tensor.size, h1]
  refine modes_of_solutions (S := fun d' i m x => KfacSystem (entries (A m)) (entries (B m)) (kfacDamping ((B first).size 0) ((A first).size 0)
    (entries (B first)) (entries (A first))) d' i m x) hfin hd he hke.symm hg hn (fun d' ids' hk' hd' s₁ s₂ o H g0 hH => ?_) (fun _ _ hs i m x => hs.kfacSystem _ _ _ i m x) h
  have hu : UsesKfac t.st (Dict.keys d') hessian := usesKfac_of_calls hfin (hh.imp id fun h => ⟨h.1, fun m _ => hgr h.2 m⟩)
  exact kfac_solutions_default (a := fun m => entries (A m)) (b := fun m => entries (B m)) (wd := fun m => (A m).size 0) (ht := fun m => (B m).size 0)
    hE hI hfin hu (fun m h => ⟨(hAB m (hk' ▸ h)).2.1, hsA m (hk' ▸ h), fun _ _ _ _ => rfl⟩)
    (fun m h => ⟨(hAB m (hk' ▸ h)).2.2, hsB m (hk' ▸ h), fun _ _ _ _ => rfl⟩) (hk'.trans hk) hc hd' g0 hH

/-- **C134**, in terms of the program, with the empirical Fisher matrix: `C` is the second moment of the per-sample gradients of the module; `x` and `y`
solve `C x + c x = g`, where `c` is a tenth of the mean eigenvalue of `C`. -/
theorem C134_raw (E : SEnv K) (hE : EighOk E.lib) (hI : InverseOk E.lib) (ops : List (SOp K)) (hops : ∀ o ∈ ops, Configures o) (n : Nat) (th : Int)
    (fs : FS) (ctx : List (SOp K)) (ids : List PyStr) (hx : Context ctx ids none) (body : List (SOp K)) (dir : StateDir K) (keys : List PyStr)
    (mods : PyStr → Nat) (hbody : ∀ o ∈ body, Unmasked o ∧ ∀ nm ∈ keys, Logs nm o) (hessian : Hess) (hne : keys ≠ []) :
    let s := runHistory E ops (Sess.init n th fs)
    OnlyStatistics s.opt → PlainStats s.opt → s.opt.grad.head? = some .log → s.opt.grad.tail.count .covariance = 1 → (hessian = .raw ∨ hessian = .auto) →
    (∀ nm ∈ keys, Watches s (mods nm) nm ∧ notes batchGrads (mods nm) ⟨none, [], [], []⟩ body ≠ []) →
    ∀ t, SAct.each (SOp.run E) (ctx ++ body.map (shift s.user.length) ++ [.finalize dir]) s = (t, none) →
    ∃ C : PyStr → Tensor K, (∀ nm ∈ keys, BatchGradMoment E body (mods nm) (C nm)) ∧
      ∀ d e : GLog K, Dict.keys d = keys → Dict.keys e = keys → ∀ srcIds tgtIds, Labelled srcIds d → Labelled tgtIds e →
      ∀ groups : Option (List PyStr), (groups.getD []).Nodup → ['t', 'o', 't', 'a', 'l'] ∉ groups.getD [] → ∀ sqrt mode u r,
        computeInfluence E.lib sqrt t.st srcIds (.dict d) tgtIds (.dict e) mode true hessian groups none = .ok (u, r) →
        ∀ k, k = ['t', 'o', 't', 'a', 'l'] ∨ k ∈ groups.getD [] → ∃ T, r.influence.get? k = some T ∧ T.shape = [srcIds.length, tgtIds.length] ∧
          ∀ i j, i < srcIds.length → j < tgtIds.length →
            (∃ x : PyStr → List Nat → K, ∀ m ∈ keys, RawSystem (entries (C m)) (rawDamping ((C m).size 0) (entries (C m))) d i m (x m)) ∧
            (mode ≠ .dot → ∃ y : PyStr → List Nat → K, ∀ m ∈ keys, RawSystem (entries (C m)) (rawDamping ((C m).size 0) (entries (C m))) e j m (y m)) ∧
            ∀ x : PyStr → List Nat → K, (∀ m ∈ keys, RawSystem (entries (C m)) (rawDamping ((C m).size 0) (entries (C m))) d i m (x m)) →
              (mode = .dot → T.el [i, j] = against x e j (members keys k)) ∧
              ∀ y : PyStr → List Nat → K, (∀ m ∈ keys, RawSystem (entries (C m)) (rawDamping ((C m).size 0) (entries (C m))) e j m (y m)) →
                (mode = .l2 → T.el [i, j] = against x e j (members keys k) - 1 / 2 * against y e j (members keys k)) ∧
                (mode = .cosine → T.el [i, j] = against x e j (members keys k) / sqrt (against y e j (members keys k))) := by
  intro s ho hp hl hg hh hmods t ht
  have key : ∀ nm, ∃ C : Tensor K, nm ∈ keys → BatchGradMoment E body (mods nm) C ∧ tensorAt t.st.attrs nCov [nm, LogType.name .grad] = some C := by
    intro nm
    by_cases hm : nm ∈ keys
    · obtain ⟨hw, hne⟩ := hmods nm hm
      obtain ⟨gs, v1, -, c1⟩ := C105_grad E ops hops n th fs (mods nm) nm ctx ids none hx body (fun o h => (hbody o h).2 nm hm) dir hw ho hl t ht
        (fun h => hne (List.map_eq_nil_iff.1 h))
      obtain ⟨C, a1, a2⟩ := c1 hg
      exact ⟨C, fun _ => ⟨⟨gs, v1, a2⟩, a1⟩⟩
    · exact ⟨Tensor.ofFn2 .cpu 0 0 fun _ _ => 0, fun h => absurd h hm⟩
  choose C hC using key
  refine ⟨C, fun nm hm => (hC nm hm).1, ?_⟩
  rintro d e rfl hke srcIds tgtIds hd he groups hgr hn sqrt mode u r h
  obtain ⟨⟨calls, hfin⟩, hu⟩ := session_usesRaw E ops hops n th fs ctx ids hx body dir (Dict.keys d) mods hbody hessian ho hp hl hg hh hmods t ht hne
  have hs : ∀ m ∈ Dict.keys d, (C m).shape = [(C m).size 0, (C m).size 0] := fun m h => by
    obtain ⟨xs, -, w, h1, -⟩ := (hC m h).1
    simp [Tensor.size, h1]
  refine modes_of_solutions (S := fun d' i m x => RawSystem (entries (C m)) (rawDamping ((C m).size 0) (entries (C m))) d' i m x) hfin hd he hke.symm hgr hn
    (fun d' ids' hk' hd' s₁ s₂ o H g0 hH => ?_) (fun _ _ hs i m x => hs.rawSystem _ _ i m x) h
  exact (raw_solutions_default (S := fun m => entries (C m)) (wd := fun m => (C m).size 0) hE hI hfin (hk' ▸ hu)
    (fun m h => ⟨(hC m (hk' ▸ h)).2, hs m (hk' ▸ h), fun _ _ _ _ => rfl⟩) hd' g0 hH).2

end Logix
