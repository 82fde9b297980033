/-
The form of the inverse Hessian depends on the covariances only.
-/
import Verif.Lemmas.HessState
import Verif.Spec.Determined

set_option linter.unusedSectionVars false

namespace Logix
variable {K : Type} [Field K]

/-! ### Linear algebra -/

theorem parseval₁ {o : Nat} {e : Nat → Nat → K}
    (he : ∀ i j, i < o → j < o → ∑ a ∈ Finset.range o, e i a * e j a = if i = j then 1 else 0) (u v : Nat → K) :
    ∑ a ∈ Finset.range o, (∑ p ∈ Finset.range o, e p a * u p) * (∑ x ∈ Finset.range o, e x a * v x) = ∑ p ∈ Finset.range o, u p * v p := by
  calc _ = ∑ a ∈ Finset.range o, ∑ p ∈ Finset.range o, ∑ x ∈ Finset.range o, u p * v x * (e p a * e x a) := by
        refine Finset.sum_congr rfl fun a _ => ?_
        rw [Finset.sum_mul_sum]
        exact Finset.sum_congr rfl fun p _ => Finset.sum_congr rfl fun x _ => by ring
    _ = ∑ p ∈ Finset.range o, ∑ x ∈ Finset.range o, u p * v x * ∑ a ∈ Finset.range o, e p a * e x a := by
        rw [Finset.sum_comm]
        refine Finset.sum_congr rfl fun p _ => ?_
        rw [Finset.sum_comm]
        exact Finset.sum_congr rfl fun x _ => by rw [Finset.mul_sum]
    _ = ∑ p ∈ Finset.range o, ∑ x ∈ Finset.range o, u p * v x * (if p = x then 1 else 0) := by
        refine Finset.sum_congr rfl fun p hp => Finset.sum_congr rfl fun x hx => ?_
        rw [he p x (Finset.mem_range.1 hp) (Finset.mem_range.1 hx)]
    _ = _ := by
        refine Finset.sum_congr rfl fun p hp => ?_
        simp only [mul_ite, mul_one, mul_zero]
        rw [Finset.sum_ite_eq, if_pos hp]

/-- An array in a pair of bases. -/
def rot2 (o w : Nat) (eb ef G : Nat → Nat → K) (a b : Nat) : K := ∑ p ∈ Finset.range o, ∑ q ∈ Finset.range w, eb p a * G p q * ef q b

theorem rot2_eq (o w : Nat) (eb ef G : Nat → Nat → K) (a b : Nat) :
    rot2 o w eb ef G a b = ∑ p ∈ Finset.range o, eb p a * ∑ q ∈ Finset.range w, ef q b * G p q := by
  unfold rot2
  refine Finset.sum_congr rfl fun p _ => ?_
  rw [Finset.mul_sum]
  exact Finset.sum_congr rfl fun q _ => by ring

theorem parseval₂ {o w : Nat} {eb ef : Nat → Nat → K}
    (hb : ∀ i j, i < o → j < o → ∑ a ∈ Finset.range o, eb i a * eb j a = if i = j then 1 else 0)
    (hf : ∀ i j, i < w → j < w → ∑ a ∈ Finset.range w, ef i a * ef j a = if i = j then 1 else 0) (P Q : Nat → Nat → K) :
    ∑ a ∈ Finset.range o, ∑ b ∈ Finset.range w, rot2 o w eb ef P a b * rot2 o w eb ef Q a b =
      ∑ x ∈ Finset.range o, ∑ y ∈ Finset.range w, P x y * Q x y := by
  rw [Finset.sum_comm]
  simp only [rot2_eq]
  calc _ = ∑ b ∈ Finset.range w, ∑ p ∈ Finset.range o, (∑ q ∈ Finset.range w, ef q b * P p q) * (∑ q ∈ Finset.range w, ef q b * Q p q) :=
        Finset.sum_congr rfl fun b _ => parseval₁ hb _ _
    _ = _ := by
        rw [Finset.sum_comm]
        exact Finset.sum_congr rfl fun p _ => parseval₁ hf _ _

/-- A solution of `B P A + d P = G` gives the form in every pair of eigenbases. -/
theorem form_of_solution {o w : Nat} {B A eb ef G P Q : Nat → Nat → K} {wb wf : Nat → K} {d : K}
    (hB : ∀ i j, i < o → j < o → B i j = B j i)
    (hb : ∀ i a, i < o → a < o → ∑ j ∈ Finset.range o, B i j * eb j a = wb a * eb i a)
    (hbo : ∀ i j, i < o → j < o → ∑ a ∈ Finset.range o, eb i a * eb j a = if i = j then 1 else 0)
    (hf : ∀ i a, i < w → a < w → ∑ j ∈ Finset.range w, A i j * ef j a = wf a * ef i a)
    (hfo : ∀ i j, i < w → j < w → ∑ a ∈ Finset.range w, ef i a * ef j a = if i = j then 1 else 0)
    (hd : ∀ a b, a < o → b < w → wb a * wf b + d ≠ 0)
    (hP : ∀ x y, x < o → y < w → (∑ x' ∈ Finset.range o, ∑ y' ∈ Finset.range w, B x x' * P x' y' * A y' y) + d * P x y = G x y) :
    ∑ a ∈ Finset.range o, ∑ b ∈ Finset.range w, rot2 o w eb ef G a b * rot2 o w eb ef Q a b / (wb a * wf b + d) =
      ∑ x ∈ Finset.range o, ∑ y ∈ Finset.range w, P x y * Q x y := by
  rw [← parseval₂ hbo hfo]
  refine Finset.sum_congr rfl fun a ha => Finset.sum_congr rfl fun b hb' => ?_
  rw [Finset.mem_range] at ha hb'
  have key : rot2 o w eb ef G a b = (wb a * wf b + d) * rot2 o w eb ef P a b := by
    calc rot2 o w eb ef G a b = ∑ p ∈ Finset.range o, ∑ q ∈ Finset.range w,
          (eb p a * (∑ x' ∈ Finset.range o, ∑ y' ∈ Finset.range w, B p x' * P x' y' * A y' q) * ef q b + d * (eb p a * P p q * ef q b)) := by
          unfold rot2
          refine Finset.sum_congr rfl fun p hp => Finset.sum_congr rfl fun q hq => ?_
          rw [← hP p q (Finset.mem_range.1 hp) (Finset.mem_range.1 hq)]
          ring
      _ = (∑ p ∈ Finset.range o, ∑ q ∈ Finset.range w,
          eb p a * (∑ x' ∈ Finset.range o, ∑ y' ∈ Finset.range w, B p x' * P x' y' * A y' q) * ef q b) + d * rot2 o w eb ef P a b := by
          unfold rot2
          rw [Finset.mul_sum, ← Finset.sum_add_distrib]
          refine Finset.sum_congr rfl fun p _ => ?_
          rw [Finset.mul_sum, ← Finset.sum_add_distrib]
      _ = (∑ x' ∈ Finset.range o, ∑ y' ∈ Finset.range w,
          (∑ p ∈ Finset.range o, B x' p * eb p a) * P x' y' * ∑ q ∈ Finset.range w, A y' q * ef q b) + d * rot2 o w eb ef P a b := by
          congr 1
          calc _ = ∑ p ∈ Finset.range o, ∑ q ∈ Finset.range w, ∑ x' ∈ Finset.range o, ∑ y' ∈ Finset.range w,
                (B x' p * eb p a) * P x' y' * (A y' q * ef q b) := by
                refine Finset.sum_congr rfl fun p hp => Finset.sum_congr rfl fun q _ => ?_
                rw [Finset.mul_sum, Finset.sum_mul]
                refine Finset.sum_congr rfl fun x' hx' => ?_
                rw [Finset.mul_sum, Finset.sum_mul, hB p x' (Finset.mem_range.1 hp) (Finset.mem_range.1 hx')]
                exact Finset.sum_congr rfl fun y' _ => by ring
            _ = ∑ p ∈ Finset.range o, ∑ x' ∈ Finset.range o, ∑ y' ∈ Finset.range w, ∑ q ∈ Finset.range w,
                (B x' p * eb p a) * P x' y' * (A y' q * ef q b) := by
                refine Finset.sum_congr rfl fun p _ => ?_
                rw [Finset.sum_comm]
                exact Finset.sum_congr rfl fun x' _ => Finset.sum_comm
            _ = ∑ x' ∈ Finset.range o, ∑ y' ∈ Finset.range w, ∑ p ∈ Finset.range o, ∑ q ∈ Finset.range w,
                (B x' p * eb p a) * P x' y' * (A y' q * ef q b) := by
                rw [Finset.sum_comm]
                exact Finset.sum_congr rfl fun x' _ => Finset.sum_comm
            _ = _ := by
                refine Finset.sum_congr rfl fun x' _ => Finset.sum_congr rfl fun y' _ => ?_
                rw [Finset.sum_mul, Finset.sum_mul]
                refine Finset.sum_congr rfl fun p _ => ?_
                rw [Finset.mul_sum]
      _ = wb a * wf b * rot2 o w eb ef P a b + d * rot2 o w eb ef P a b := by
          congr 1
          unfold rot2
          rw [Finset.mul_sum]
          refine Finset.sum_congr rfl fun x' hx' => ?_
          rw [Finset.mul_sum]
          refine Finset.sum_congr rfl fun y' hy' => ?_
          rw [hb x' a (Finset.mem_range.1 hx') ha, hf y' b (Finset.mem_range.1 hy') hb']
          ring
      _ = _ := by ring
  rw [key]
  rw [mul_assoc, mul_comm, mul_div_assoc, div_self (hd a b ha hb'), mul_one]

/-- Two inverses of the same matrix agree. -/
theorem DampedInverse.unique {x x' i i' : Tensor K} {n : Nat} {c : K} (h : Spec.DampedInverse x i n c) (h' : Spec.DampedInverse x' i' n c)
    (hx : ∀ a b, a < n → b < n → x.el [a, b] = x'.el [a, b]) {a b : Nat} (ha : a < n) (hb : b < n) : i.el [a, b] = i'.el [a, b] := by
  calc i.el [a, b] = ∑ l ∈ Finset.range n, i.el [a, l] * if l = b then 1 else 0 := by
        simp only [mul_ite, mul_one, mul_zero]
        rw [Finset.sum_ite_eq', if_pos (Finset.mem_range.2 hb)]
    _ = ∑ l ∈ Finset.range n, i.el [a, l] * ∑ k ∈ Finset.range n, (x.el [l, k] + if l = k then c else 0) * i'.el [k, b] := by
        refine Finset.sum_congr rfl fun l hl => ?_
        rw [← h'.right l b (Finset.mem_range.1 hl) hb]
        congr 1
        exact Finset.sum_congr rfl fun k hk => by rw [hx l k (Finset.mem_range.1 hl) (Finset.mem_range.1 hk)]
    _ = ∑ k ∈ Finset.range n, (∑ l ∈ Finset.range n, i.el [a, l] * (x.el [l, k] + if l = k then c else 0)) * i'.el [k, b] := by
        simp only [Finset.mul_sum, Finset.sum_mul]
        rw [Finset.sum_comm]
        exact Finset.sum_congr rfl fun k _ => Finset.sum_congr rfl fun l _ => by ring
    _ = ∑ k ∈ Finset.range n, (if a = k then 1 else 0) * i'.el [k, b] :=
        Finset.sum_congr rfl fun k hk => by rw [h.left a k ha (Finset.mem_range.1 hk)]
    _ = _ := sum_ite_eq_range _ _ ha

/-! ### The Hessian of a state -/

variable [LinearOrder K] [IsStrictOrderedRing K]

theorem posHessian_symm {L : Lib K} {s : LState K} {keys : List PyStr} {hessian : Hess} {c : K} (hP : Spec.PosHessian L s keys hessian c)
    {path : Path} {x : Tensor K} (hx : Spec.tensorAt s.attrs nCov path = some x) : ∃ n, Spec.Symm x n ∧ Spec.PSD x := by
  obtain ⟨ops, hrun, hmask⟩ := hP.run
  obtain ⟨n, hn, hs, hv⟩ := C33_psd L hrun hmask path x hx
  exact ⟨n, ⟨hn, hs⟩, n, hn, hs, hv⟩

/-- The form of the inverse Hessian of a state that solves the KFAC system. -/
theorem kfac_form {L : Lib K} {s s₁ s₂ : LState K} {d : GLog K} {o : LogArg K} {hessian : Hess} {c : K} {H : HessKind K}
    (hP : Spec.PosHessian L s (Dict.keys d) hessian c) (hn : (Dict.keys d).Nodup) (hek : s.hasAttr nEkfac = false) (hu : Spec.UsesKfac s (Dict.keys d) hessian)
    (hpre : precondition L s (.dict d) hessian (some c) = .ok (s₂, o)) (hH : hessOf L s (Dict.keys d) hessian (some c) = .ok (s₁, H)) {m : PyStr}
    (hm : m ∈ Dict.keys d) {A B : Tensor K} (hA : Spec.tensorAt s.attrs nCov [m, LogType.name .forward] = some A)
    (hB : Spec.tensorAt s.attrs nCov [m, LogType.name .backward] = some B) {w h : Nat} (hAs : Spec.Symm A w) (hBs : Spec.Symm B h)
    (hk' : ∀ m ∈ Dict.keys d, (Spec.tensorAt s.attrs nCov [m, LogType.name .forward]).isSome = true) :
    ∃ wf ef wb eb, Spec.EigenDec A wf ef w ∧ Spec.EigenDec B wb eb h ∧ (∀ a b, a < h → b < w → wb.el [a] * wf.el [b] + c ≠ 0) ∧
      ∀ r g f, H.form m r g f = ∑ a ∈ Finset.range h, ∑ b ∈ Finset.range w,
        rot2 h w (fun p a => eb.el [p, a]) (fun q b => ef.el [q, b]) (fun p q => cut r g [p, q]) a b *
          rot2 h w (fun p a => eb.el [p, a]) (fun q b => ef.el [q, b]) (fun p q => cut r f [p, q]) a b / (wb.el [a] * wf.el [b] + c) := by
  obtain ⟨ops, hrun, hmask⟩ := hP.run
  obtain ⟨cov, hcov, ⟨rfl, -⟩ | ⟨hr, inv, rfl, hi⟩ | ⟨-, n, vals, vecs, rfl, hsvd, hv, he⟩⟩ := hessOf_cases hH
  · -- all modules have a covariance
    exfalso
    unfold hessOf at hH
    simp only [hcov] at hH
    split at hH
    · next hc =>
      rw [List.any_eq_true] at hc
      obtain ⟨k, hk, hk2⟩ := hc
      obtain ⟨sub, hsub⟩ := cov_node hcov (hk' k hk)
      simp [Dict.contains, hsub] at hk2
    · split at hH
      · cases hH
      · split at hH <;> cases hH
      · split at hH
        · cases hH
        · split at hH <;> cases hH
  · exfalso
    have := usesRaw_kfac hcov hu (fun m hm => cov_node hcov (hk' m hm)) (keys_map_nil _) hr
    cases this
  · obtain ⟨f1, f2, f3, f4⟩ := svd_sound hrun hP.eigh hP.svd hsvd
    rw [hek] at f4
    simp only [Bool.false_eq_true, if_false] at f4
    subst f4
    have tA := hA
    have tB := hB
    rw [← tensorAt_congr (f3 nCov (by decide) (by decide))] at tA tB
    obtain ⟨wf, ef, wf1, vf1, dA⟩ := f1.dec f2 _ _ _ _ tA hAs
    obtain ⟨wb, eb, wb1, vb1, dB⟩ := f1.dec f2 _ _ _ _ tB hBs
    obtain ⟨-, sub, q2, q3⟩ := tensorAt_node hv wf1
    obtain ⟨-, sub', q2', q3'⟩ := tensorAt_node hv wb1
    rw [q2] at q2'; cases q2'
    obtain ⟨vf2, -⟩ := tensorAt_node he vf1
    obtain ⟨vb2, -⟩ := tensorAt_node he vb1
    have hw0 : wf.size 0 = w := by simp [Tensor.size, dA.wshape]
    have hb0 : wb.size 0 = h := by simp [Tensor.size, dB.wshape]
    have hef0 : ef.size 0 = w := by simp [Tensor.size, dA.vshape]
    have heb0 : eb.size 0 = h := by simp [Tensor.size, dB.vshape]
    -- the devices of the eigenvalues agree, since `precondition` returned
    have hdev : wf.shape.length = 1 ∧ wb.shape.length = 1 ∧ wf.dev = wb.dev := by
      obtain ⟨b, out, hb, rfl, hout⟩ := precondition_split hcov (fun m hm => cov_node hcov (hk' m hm)) hpre
      have := usesRaw_kfac hcov hu (fun m hm => cov_node hcov (hk' m hm)) rfl hb
      subst this
      simp only [Bool.false_eq_true, if_false] at hout
      unfold preconditionKfac at hout
      rw [hsvd] at hout
      simp only [hv, he] at hout
      split at hout
      · cases hout
      · next vals' out' hl =>
        obtain ⟨-, -, k3⟩ := kfacLoop_ok hl hn (by simp [Dict.keys])
        obtain ⟨g, ef', eb', full, sh, p, e1, e2, e3, e4, -⟩ := k3 m hm
        unfold fullEigval at e4
        simp only [q2, q3, q3'] at e4
        split at e4
        · next hc => exact hc
        · cases e4
    have hfull : fullEigval vals m .cpu = .ok (Tensor.ofFn2 .cpu h w fun a b => wb.el [a] * wf.el [b], false) := by
      unfold fullEigval
      simp only [q2, q3, q3', if_pos hdev, hw0, hb0]
    refine ⟨wf, ef, wb, eb, dA, dB, fun a b ha hb => ?_, fun r g f => ?_⟩
    · have pA := PSD.eigenvalue_nonneg (C33_psd L hrun hmask _ _ hA) hAs.1 (EigenDec.isEigenvalue dA hb)
      have pB := PSD.eigenvalue_nonneg (C33_psd L hrun hmask _ _ hB) hBs.1 (EigenDec.isEigenvalue dB ha)
      exact (add_pos_of_nonneg_of_pos (mul_nonneg pB pA) hP.pos).ne'
    · simp only [HessKind.form, vf2, vb2, hfull]
      refine Finset.sum_congr rfl fun a ha => Finset.sum_congr rfl fun b hb => ?_
      rw [Finset.mem_range] at ha hb
      rw [Tensor.el_ofFn2 _ _ _ _ ha hb]
      simp only [rotF, hef0, heb0, effDamping, Option.getD_some]
      rfl

/-- The form of the inverse Hessian of a state that inverts the covariance of the gradients. -/
theorem raw_form {L : Lib K} {s s₁ : LState K} {keys : List PyStr} {hessian : Hess} {c : K} {H : HessKind K} {C : Tensor K} {m : PyStr} {n : Nat}
    (hP : Spec.PosHessian L s keys hessian c) (hu : Spec.UsesRaw s keys hessian) (hH : hessOf L s keys hessian (some c) = .ok (s₁, H))
    (hk : ∀ m ∈ keys, (Spec.tensorAt s.attrs nCov [m, LogType.name .grad]).isSome = true)
    (hC : Spec.tensorAt s.attrs nCov [m, LogType.name .grad] = some C) (hCs : C.shape = [n, n]) : ∃ i, Spec.DampedInverse C i n c ∧
      ∀ r g f, H.form m r g f = if i.shape = [numel r, numel r] then
        ((indices r).map fun idx => ((indices r).map fun idx' => g idx' * i.el [ravel r idx', ravel r idx]).sum * f idx).sum else 0 := by
  obtain ⟨ops, hrun, hmask⟩ := hP.run
  obtain ⟨cov, hcov, ⟨rfl, -⟩ | ⟨hr, inv, rfl, hi⟩ | ⟨hr, n, vals, vecs, rfl, hsvd, hv, he⟩⟩ := hessOf_cases hH
  · exfalso
    unfold hessOf at hH
    simp only [hcov] at hH
    split at hH
    · next hc =>
      rw [List.any_eq_true] at hc
      obtain ⟨k, hk1, hk2⟩ := hc
      obtain ⟨sub, hsub⟩ := cov_node hcov (hk k hk1)
      simp [Dict.contains, hsub] at hk2
    · split at hH
      · cases hH
      · split at hH <;> cases hH
      · split at hH
        · cases hH
        · split at hH <;> cases hH
  · obtain ⟨f1, f2, f3⟩ := inv_sound hrun hP.inverse hP.inv hi
    have hC' := hC
    rw [← tensorAt_congr (f3 nCov (by decide))] at hC'
    obtain ⟨i, i1, di⟩ := f1 (hasAttr_of_getAttr f2) _ _ _ _ hC' hCs
    refine ⟨i, di, fun r g f => ?_⟩
    simp only [HessKind.form, (tensorAt_node f2 i1).1]
  · exfalso
    have := usesRaw_raw hcov hu (fun m hm => cov_node hcov (hk m hm)) (keys_map_nil _) hr
    cases this

/-- The form depends on the covariances only. -/
theorem hess_form_same {L L' : Lib K} {s s' s₁ s₁' s₂ s₂' : LState K} {d e : GLog K} {o o' : LogArg K} {hessian : Hess} {c : K} {H H' : HessKind K}
    (hke : Dict.keys e = Dict.keys d)
    (hP : Spec.PosHessian L s (Dict.keys d) hessian c) (hP' : Spec.PosHessian L' s' (Dict.keys d) hessian c) (hn : (Dict.keys d).Nodup)
    (hek : s.hasAttr nEkfac = false) (hek' : s'.hasAttr nEkfac = false) (hsame : Spec.SameHessian s s' (Dict.keys d) hessian)
    (hpre : precondition L s (.dict d) hessian (some c) = .ok (s₂, o)) (hpre' : precondition L' s' (.dict e) hessian (some c) = .ok (s₂', o'))
    (hH : hessOf L s (Dict.keys d) hessian (some c) = .ok (s₁, H)) (hH' : hessOf L' s' (Dict.keys d) hessian (some c) = .ok (s₁', H'))
    {m : PyStr} (hm : m ∈ Dict.keys d) (r : List Nat) (g f : List Nat → K) : H.form m r g f = H'.form m r g f := by
  rcases hsame with ⟨hu, hu', hc⟩ | ⟨hu, hu', hc⟩
  · obtain ⟨⟨A, A', hA, hA', hsA, heA⟩, ⟨B, B', hB, hB', hsB, heB⟩⟩ := hc m hm
    obtain ⟨w, hAs, -⟩ := posHessian_symm hP hA
    obtain ⟨h, hBs, -⟩ := posHessian_symm hP hB
    obtain ⟨w', hAs', -⟩ := posHessian_symm hP' hA'
    obtain ⟨h', hBs', -⟩ := posHessian_symm hP' hB'
    obtain rfl : w = w' := by have := hsA; rw [hAs.1, hAs'.1] at this; exact (List.cons.inj this).1
    obtain rfl : h = h' := by have := hsB; rw [hBs.1, hBs'.1] at this; exact (List.cons.inj this).1
    obtain ⟨wf, ef, wb, eb, dA, dB, hne, hf⟩ := kfac_form hP hn hek hu hpre hH hm hA hB hAs hBs
      (fun m hm => by obtain ⟨t, t', ht, -⟩ := (hc m hm).1; rw [ht]; rfl)
    have hke' := hke.symm
    rw [← hke] at hP' hn hu' hH' hm
    obtain ⟨wf', ef', wb', eb', dA', dB', hne', hf'⟩ := kfac_form hP' hn hek' hu' hpre' hH' hm hA' hB' hAs' hBs'
      (fun m hm => by obtain ⟨t, t', -, ht, -⟩ := (hc m (hke ▸ hm)).1; rw [ht]; rfl)
    rw [hf, hf']
    have eA : ∀ i j, i < w → j < w → A.el [i, j] = A'.el [i, j] := fun i j hi hj => heA _ (by rw [hAs.1]; simp [inRange, hi, hj])
    have eB : ∀ i j, i < h → j < h → B.el [i, j] = B'.el [i, j] := fun i j hi hj => heB _ (by rw [hBs.1]; simp [inRange, hi, hj])
    -- the solution in the second basis
    have sol : ∀ x y, x < h → y < w → _ := fun x y hx hy =>
      kfac_math (B := fun i j => B'.el [i, j]) (A := fun i j => A'.el [i, j]) (eb := fun i a => eb'.el [i, a])
        (ef := fun i a => ef'.el [i, a]) (G := fun x y => cut r g [x, y]) (wb := fun a => wb'.el [a])
        (wf := fun a => wf'.el [a]) dB'.eig dB'.rows hAs'.2 dA'.eig dA'.rows hne' (fun x y _ _ => rfl) hx hy
    rw [form_of_solution (B := fun i j => B'.el [i, j]) (A := fun i j => A'.el [i, j]) hBs'.2 dB'.eig dB'.rows dA'.eig dA'.rows hne' sol]
    refine form_of_solution (B := fun i j => B.el [i, j]) (A := fun i j => A.el [i, j]) hBs.2 dB.eig dB.rows dA.eig dA.rows hne fun x y hx hy => ?_
    rw [← sol x y hx hy]
    congr 1
    refine Finset.sum_congr rfl fun x' hx' => Finset.sum_congr rfl fun y' hy' => ?_
    rw [Finset.mem_range] at hx' hy'
    simp only [eA y' y hy' hy, eB x x' hx hx']
  · obtain ⟨C, C', hC, hC', hsC, heC⟩ := hc m hm
    obtain ⟨n, hCs, -⟩ := posHessian_symm hP hC
    obtain ⟨i, di, hi⟩ := raw_form hP hu hH (fun m hm => by obtain ⟨t, t', ht, -⟩ := hc m hm; rw [ht]; rfl) hC hCs.1
    obtain ⟨i', di', hi'⟩ := raw_form hP' hu' hH' (fun m hm => by obtain ⟨t, t', -, ht, -⟩ := hc m hm; rw [ht]; rfl) hC' (by rw [← hsC]; exact hCs.1)
    rw [hi, hi', di.shape, di'.shape]
    split
    · next hr =>
      have hr' : n = numel r := (List.cons.inj hr).1
      congr 1
      refine List.map_congr_left fun idx hidx => ?_
      congr 2
      refine List.map_congr_left fun idx' hidx' => ?_
      rw [DampedInverse.unique di di' (fun a b ha hb => heC _ (by rw [hCs.1]; simp [inRange, ha, hb]))
        (by rw [hr']; exact ravel_lt r _ ((mem_indices _ _).1 hidx')) (by rw [hr']; exact ravel_lt r _ ((mem_indices _ _).1 hidx))]
    · rfl

end Logix
