/-
C99: the scores with fitted eigenvalues.
-/
import Verif.Spec.Ekfac
import Verif.Props.Formula
import Verif.Lemmas.Eigenbasis

set_option linter.unusedSectionVars false
namespace Logix
variable {K : Type}

theorem svdFresh_congr [Semiring K] {s s' : LState K} (h1 : Dict.get? s'.attrs nCov = Dict.get? s.attrs nCov)
    (h2 : Dict.get? s'.attrs nEigval = Dict.get? s.attrs nEigval) (h3 : Dict.get? s'.attrs nEigvec = Dict.get? s.attrs nEigvec) (h : Spec.SvdFresh s) :
    Spec.SvdFresh s' := by
  refine ⟨?_, fun hv m t x n hx hs => ?_⟩
  · have := h.both
    unfold LState.hasAttr at this ⊢
    rw [h2, h3]; exact this
  · rw [tensorAt_congr h1] at hx
    obtain ⟨w, v, a, b, c⟩ := h.dec (by unfold LState.hasAttr at hv ⊢; rw [← h3]; exact hv) m t x n hx hs
    exact ⟨w, v, by rw [tensorAt_congr h2]; exact a, by rw [tensorAt_congr h3]; exact b, c⟩

theorem runOps_snoc [Field K] {L : Lib K} {o : StateOp K} {s' t : LState K} : ∀ {ops : List (StateOp K)} {s : LState K}, runOps L s ops = .ok s' →
    stepOp L s' o = .ok t → runOps L s (ops ++ [o]) = .ok t
  | [], s, h, h' => by
    obtain rfl := Except.ok.inj h
    simp only [List.nil_append, runOps, h']
  | a :: l, s, h, h' => by
    unfold runOps at h
    split at h
    · cases h
    · next s1 hs1 =>
      simp only [List.cons_append, runOps, hs1]
      exact runOps_snoc h h'

/-- Fitting the eigenvalues keeps the covariances, and makes their eigendecompositions. -/
theorem svdFresh_update [Field K] {L : Lib K} {ops : List (StateOp K)} {s s' : LState K} {q : Plugin} {c : StatCall K} (hrun : runOps L .init ops = .ok s)
    (hE : Spec.EighOk L) (hs : Spec.SvdFresh s) (hq : q = .log ∨ q = .correctedEigval) (h : pluginUpdate L q s c = .ok s') :
    Spec.SvdFresh s' ∧ Dict.get? s'.attrs nCov = Dict.get? s.attrs nCov := by
  rcases hq with rfl | rfl
  · obtain rfl : s = s' := Except.ok.inj h
    exact ⟨hs, rfl⟩
  · have hcov := (pluginUpdate_frame L h).2 nCov (by decide)
    refine ⟨?_, hcov⟩
    obtain ⟨s1, vecs, vals, ek, cn, t, cn', ef, eb, t', x, h0, -, -, -, -, -, -, -, -, -, rfl⟩ := correctedEigval_ok L h
    have F : ∀ n, n ≠ nEkfac → n ≠ nEkfacCounter → Dict.get? ((s1.setAttr nEkfac (Dict.set ek c.name (.leaf (.tensor t')))).setAttr nEkfacCounter
        (Dict.set cn' c.name (.leaf (.num (x + (c.data.size 0 : K)))))).attrs n = Dict.get? s1.attrs n := fun n h1 h2 => by
      rw [get?_setAttr, if_neg (Ne.symm h2), get?_setAttr, if_neg (Ne.symm h1)]
    refine svdFresh_congr (F _ (by decide) (by decide)) (F _ (by decide) (by decide)) (F _ (by decide) (by decide)) ?_
    unfold ekfacPrepare at h0
    split at h0
    · obtain rfl := Except.ok.inj h0
      exact hs
    · next hv =>
      split at h0
      · cases h0
      · next sv hsv =>
        obtain rfl := Except.ok.inj h0
        have hv' : s.hasAttr nEigvec = false := by simpa using hv
        have hval : s.hasAttr nEigval = false := hs.both.trans hv'
        have hg : ∃ n, s.getCovarianceSvd L = .ok (sv, n) := by
          unfold LState.getCovarianceSvd
          rw [hv', hval]
          simp only [Bool.and_self, Bool.false_eq_true, if_false, hsv]
          exact ⟨_, rfl⟩
        obtain ⟨n, hg⟩ := hg
        have G : ∀ n, nEkfac ≠ n → nEkfacCounter ≠ n → Dict.get? (((sv.registerState nEkfac true true false).registerState nEkfacCounter true false
            false).registerNormalizePair nEkfac nEkfacCounter).attrs n = Dict.get? sv.attrs n := fun n h1 h2 => by
          rw [registerNormalizePair_attrs, registerState_frame _ _ _ _ _ _ h2, registerState_frame _ _ _ _ _ _ h1]
        exact svdFresh_congr (G _ (by decide) (by decide)) (G _ (by decide) (by decide)) (G _ (by decide) (by decide)) (svd_sound hrun hE hs hg).1

theorem svdFresh_updates [Field K] {L : Lib K} (hE : Spec.EighOk L) : ∀ {calls : List (Plugin × StatCall K)} {ops : List (StateOp K)} {s s' : LState K},
    runOps L .init ops = .ok s → Spec.SvdFresh s → (∀ pc ∈ calls, pc.1 = .log ∨ pc.1 = .correctedEigval) → updates L s calls = .ok s' →
    Spec.SvdFresh s' ∧ Dict.get? s'.attrs nCov = Dict.get? s.attrs nCov
  | [], _, _, _, _, hs, _, h => by cases h; exact ⟨hs, rfl⟩
  | (q, c) :: rest, ops, s, s', hrun, hs, hq, h => by
    unfold updates at h
    split at h
    · cases h
    · next s1 hs1 =>
      obtain ⟨a1, a2⟩ := svdFresh_update hrun hE hs (hq _ List.mem_cons_self) hs1
      have hrun' : runOps L .init (ops ++ [.update q c]) = .ok s1 := by
        exact runOps_snoc hrun hs1
      obtain ⟨b1, b2⟩ := svdFresh_updates hE hrun' a1 (fun pc hpc => hq pc (List.mem_cons_of_mem _ hpc)) h
      exact ⟨b1, b2.trans a2⟩

section
variable [Field K] [LinearOrder K] [IsStrictOrderedRing K]

theorem finalized_runs {L : Lib K} {calls : List (Plugin × StatCall K)} {s : LState K} (h : Spec.Finalized L calls s) :
    ∃ ops, runOps L .init ops = .ok s ∧ ∀ o ∈ ops, Spec.MaskNonneg o := by
  obtain ⟨-, hm, s₀, dir, dir', h2, h3⟩ := h
  refine ⟨calls.map (fun pc => StateOp.update pc.1 pc.2) ++ [.finalize dir], ?_, ?_⟩
  · rw [updates_runOps h2]
    simp only [runOps, stepOp, h3]
    rfl
  · intro o ho
    rcases List.mem_append.1 ho with ho | ho
    · obtain ⟨pc, hpc, rfl⟩ := List.mem_map.1 ho
      exact hm pc hpc
    · rw [List.mem_singleton.1 ho]
      trivial

/-- What a state holds of a module after its eigenvalues were fitted. -/
structure EkParts (calls ekcalls : List (Plugin × StatCall K)) (s : LState K) (m : PyStr) (h w : Nat) (eb ef t : Tensor K) : Prop where
  vf : Spec.tensorAt s.attrs nEigvec [m, LogType.name .forward] = some ef
  vb : Spec.tensorAt s.attrs nEigvec [m, LogType.name .backward] = some eb
  val : Spec.tensorAt s.attrs nEkfac [m] = some t
  fshape : ef.shape = [w, w]
  bshape : eb.shape = [h, h]
  tshape : t.shape = [h, w]
  fbasis : Spec.Eigenbasis calls m .forward w fun q b => ef.el [q, b]
  bbasis : Spec.Eigenbasis calls m .backward h fun p a => eb.el [p, a]
  fit : ∀ a b, a < h → b < w →
    t.el [a, b] = Spec.fitted h w (fun p a => eb.el [p, a]) (fun q b => ef.el [q, b]) (Spec.ekfacCalls m ekcalls) a b

theorem fitted_nonneg {h w : Nat} {vb vf : Nat → Nat → K} (cs : List (StatCall K)) (a b : Nat) : 0 ≤ Spec.fitted h w vb vf cs a b := by
  unfold Spec.fitted
  refine div_nonneg (List.sum_nonneg fun x hx => ?_) (Nat.cast_nonneg _)
  obtain ⟨c, -, hx⟩ := List.mem_flatMap.1 hx
  obtain ⟨k, -, rfl⟩ := List.mem_map.1 hx
  exact sq_nonneg _

/-- The form of the inverse Hessian that such a state gives. -/
theorem ekfac_core {L : Lib K} {calls ekcalls : List (Plugin × StatCall K)} {s s₁ s₂ : LState K} {d : GLog K} {o : LogArg K} {hessian : Hess} {c : K}
    {H : HessKind K} {m : PyStr} {h w : Nat} {eb' ef' t : Tensor K} (P : EkParts calls ekcalls s m h w eb' ef' t)
    (hsvdS : s.getCovarianceSvd L = .ok (s, nEkfac)) (hu : Spec.UsesKfac s (Dict.keys d) hessian)
    (hk' : ∀ m ∈ Dict.keys d, (Spec.tensorAt s.attrs nCov [m, LogType.name .forward]).isSome = true)
    (hn : (Dict.keys d).Nodup) (hpre : precondition L s (.dict d) hessian (some c) = .ok (s₂, o))
    (hH : hessOf L s (Dict.keys d) hessian (some c) = .ok (s₁, H)) (hm : m ∈ Dict.keys d) :
    (∃ g n, Spec.grad d m = some g ∧ g.shape = [n, h, w]) ∧
      ∀ g f, H.form m [h, w] g f = Spec.ekForm h w (fun p a => eb'.el [p, a]) (fun q b => ef'.el [q, b]) (Spec.ekfacCalls m ekcalls) c g f := by
  have vf1 := P.vf
  have vb1 := P.vb
  have e3 := P.val
  have e4 := P.tshape
  have hfit := P.fit
  have f0 : ef'.size 0 = w := by simp [Tensor.size, P.fshape]
  have b0 : eb'.size 0 = h := by simp [Tensor.size, P.bshape]
  obtain ⟨cov, hcov, ⟨rfl, -⟩ | ⟨hr, inv, rfl, hi⟩ | ⟨-, n, vals, vecs, rfl, hsvd, hv, he⟩⟩ := hessOf_cases hH
  · exfalso
    unfold hessOf at hH
    simp only [hcov] at hH
    split at hH
    · next hc =>
      rw [List.any_eq_true] at hc
      obtain ⟨k, hk, hk2⟩ := hc
      obtain ⟨sub, hsub⟩ := cov_node hcov (hk' k hk)
      simp [Dict.contains, hsub] at hk2
    · split at hH
      · cases hH
      · split at hH <;> cases hH
      · split at hH
        · cases hH
        · split at hH <;> cases hH
  · exfalso
    have := usesRaw_kfac hcov hu (fun m hm => cov_node hcov (hk' m hm)) (keys_map_nil _) hr
    cases this
  · rw [hsvdS] at hsvd
    obtain ⟨rfl, rfl⟩ := Prod.mk.inj (Except.ok.inj hsvd)
    obtain ⟨vf2, -⟩ := tensorAt_node he vf1
    obtain ⟨vb2, -⟩ := tensorAt_node he vb1
    have hleaf : Dict.get? vals m = some (.leaf (.tensor t)) := by
      unfold Spec.tensorAt at e3
      rw [getAttr_eq.1 hv] at e3
      simp only [Nested.lookup] at e3
      cases hx : Dict.get? vals m with
      | none => simp [hx] at e3
      | some v =>
        cases v with
        | node _ => simp [hx, Nested.lookup] at e3
        | leaf a =>
          cases a <;> simp [hx, Nested.lookup] at e3
          rw [e3]
    have hfull : ∀ dv, fullEigval vals m dv = .ok (t.onDev dv, decide (t.dev = dv)) := by
      intro dv
      unfold fullEigval
      simp only [hleaf]
    refine ⟨?_, fun g f => ?_⟩
    · obtain ⟨b, out, hb, rfl, hout⟩ := precondition_split hcov (fun m hm => cov_node hcov (hk' m hm)) hpre
      have := usesRaw_kfac hcov hu (fun m hm => cov_node hcov (hk' m hm)) rfl hb
      subst this
      simp only [Bool.false_eq_true, if_false] at hout
      unfold preconditionKfac at hout
      rw [hsvdS] at hout
      simp only [hv, he] at hout
      split at hout
      · cases hout
      · next vals' out' hl =>
        obtain ⟨-, -, k3⟩ := kfacLoop_ok hl hn (by simp [Dict.keys])
        obtain ⟨g, ef₁, eb₁, full, sh, p, g1, g2, g3, -, g4, -⟩ := k3 m hm
        obtain rfl : ef' = ef₁ := by rw [vf2] at g2; simpa using g2
        obtain rfl : eb' = eb₁ := by rw [vb2] at g3; simpa using g3
        obtain ⟨n, o, i, z1, z2, z3, -⟩ := kfacSolve_ok g4
        rw [P.fshape] at z2
        rw [P.bshape] at z3
        obtain rfl := (List.cons.inj z2).1
        obtain rfl := (List.cons.inj z3).1
        exact ⟨g, n, g1, z1⟩
    · simp only [HessKind.form, vf2, vb2, hfull]
      have t0 : (t.onDev .cpu).size 0 = h := by simp [Tensor.size, Tensor.onDev, e4]
      have t1 : (t.onDev .cpu).size 1 = w := by simp [Tensor.size, Tensor.onDev, e4]
      rw [t0, t1]
      unfold Spec.ekForm
      refine Finset.sum_congr rfl fun a ha => Finset.sum_congr rfl fun b hb => ?_
      rw [Finset.mem_range] at ha hb
      have hrot : ∀ g : List Nat → K, rotF ef' eb' (cut [h, w] g) a b = Spec.inBases h w (fun p a => eb'.el [p, a]) (fun q b => ef'.el [q, b]) g a b := by
        intro g
        unfold rotF Spec.inBases
        rw [b0, f0]
        refine Finset.sum_congr rfl fun p hp => Finset.sum_congr rfl fun q hq => ?_
        rw [Finset.mem_range] at hp hq
        have : inRange [h, w] [p, q] = true := by simp [inRange, hp, hq]
        simp only [cut, this, if_true]
      rw [hrot, hrot, ← hfit a b ha hb]
      rfl

/-- What a state holds of a module after its eigenvalues were fitted, and that it is used. -/
theorem ekfac_parts {L : Lib K} {calls ekcalls : List (Plugin × StatCall K)} {s p₁ p₂ : LState K} {dir dir' : StateDir K} {hessian : Hess}
    (hE : Spec.EighOk L) (hplug : ∀ pc ∈ ekcalls, pc.1 = .log ∨ pc.1 = .correctedEigval) (hfin : Spec.Finalized L calls p₁)
    (hupd : updates L p₁ ekcalls = .ok p₂) (hfin2 : p₂.finalize dir = .ok (s, dir')) {m : PyStr} (hl : Spec.EkLogged calls ekcalls [m] hessian) :
    ∃ h w eb ef t A B, EkParts calls ekcalls s m h w eb ef t ∧ s.getCovarianceSvd L = .ok (s, nEkfac) ∧ Spec.UsesKfac s [m] hessian ∧
      (Spec.tensorAt s.attrs nCov [m, LogType.name .forward]).isSome = true ∧
      Spec.tensorAt p₁.attrs nCov [m, LogType.name .forward] = some A ∧ Spec.tensorAt p₁.attrs nCov [m, LogType.name .backward] = some B ∧
      A.shape = [w, w] ∧ B.shape = [h, h] := by
  have hm : m ∈ [m] := List.mem_singleton.2 rfl
  obtain ⟨hh, hl⟩ := hl
  have n1 : p₁.hasAttr nEigval = false := finalized_hasAttr hfin (by decide) rfl
  have n2 : p₁.hasAttr nEigvec = false := finalized_hasAttr hfin (by decide) rfl
  obtain ⟨ops, hrun, hmask⟩ := finalized_runs hfin
  obtain ⟨fr, hcov12⟩ := svdFresh_updates hE hrun ⟨by rw [n1, n2], fun hv => absurd (n2.symm.trans hv) (by decide)⟩ hplug hupd
  obtain ⟨q1, q2⟩ := finalize_ok hfin2
  have hreg : NormReg p₂ := (normReg_init.run hrun).updates hupd
  have frame : ∀ n, n ≠ nMean → n ≠ nCov → n ≠ nEkfac → Dict.get? s.attrs n = Dict.get? p₂.attrs n := by
    intro n h1 h2 h3
    refine normalizePairs_frame q1 n ?_
    rcases hreg with e | e <;> rw [e] <;> simp [basePairs, h1, h2, h3]
  have hcovS : ∀ m lt, (∀ x, Spec.tensorAt p₁.attrs nCov [m, lt] = some x → (Spec.tensorAt s.attrs nCov [m, lt]).isSome = true) ∧
      ∀ cov₁, p₁.getAttr nCov = .ok cov₁ → item2 cov₁ m lt = .ok none → ∃ cov, s.getAttr nCov = .ok cov ∧ item2 cov m lt = .ok none := by
    intro m lt
    obtain ⟨cv, e, cv', k1, k2, k3, k4⟩ := normalize_get hreg q1 (st := nCov) (cn := nCovCounter) (by simp [basePairs])
    have k0 : p₁.getAttr nCov = .ok cv := by rw [← getAttr_congr hcov12]; exact k1
    refine ⟨fun x hx => ?_, fun cov₁ hc₁ hi => ⟨cv', k4, ?_⟩⟩
    · obtain ⟨z, -, hz⟩ := (normalizeDict_item2 k3 m lt).1 x (tensorAt_node k0 hx).1
      rw [tensorAt_item2 k4 hz]; rfl
    · obtain rfl := Except.ok.inj (hc₁.symm.trans k0)
      exact (normalizeDict_item2 k3 m lt).2 hi
  have hu : Spec.UsesKfac s [m] hessian := by
    rcases hh with hh | ⟨hh, hc⟩
    · exact .inl hh
    · refine .inr ⟨hh, fun cov hcov m hm sub hsub hmem => ?_⟩
      obtain ⟨cov₁, hcov₁, hi⟩ := finalized_item hfin
      obtain ⟨cov', hcov', this⟩ := (hcovS m _).2 cov₁ hcov₁ ((hi m .grad).1 (hc m hm))
      obtain rfl := Except.ok.inj (hcov.symm.trans hcov')
      unfold item2 at this
      rw [hsub] at this
      simp only at this
      rw [← Dict.get?_isSome_iff] at hmem
      obtain ⟨v, hv⟩ := Option.isSome_iff_exists.1 hmem
      rw [hv] at this
      cases v <;> cases this
  have hk' : (Spec.tensorAt s.attrs nCov [m, LogType.name .forward]).isSome = true := by
    obtain ⟨t, W, h1, -⟩ := finalized_cov hfin (hl m hm).1
    exact (hcovS m _).1 t h1
  obtain ⟨A, w, hA, hAs, hAe⟩ := finalized_cov hfin (hl m hm).1
  obtain ⟨B, h, hB, hBs, hBe⟩ := finalized_cov hfin (hl m hm).2.1
  obtain ⟨ef, eb, t, e1, e2, e3, e4, e5, e6⟩ := C36_ekfac L hrun n2 hupd hfin2 m (hl m hm).2.2
  have hvec : p₂.hasAttr nEigvec = true := by
    unfold LState.hasAttr
    unfold Spec.tensorAt at e1
    cases hx : Dict.get? p₂.attrs nEigvec with
    | none => rw [hx] at e1; cases e1
    | some v => rfl
  have hval : p₂.hasAttr nEigval = true := fr.both.trans hvec
  have symm : ∀ {x : Tensor K} {path} {n}, Spec.tensorAt p₁.attrs nCov path = some x → x.shape = [n, n] → Spec.Symm x n := by
    intro x path n hx hs
    obtain ⟨n', a1, a2, -⟩ := C33_psd L hrun hmask path x hx
    rw [hs] at a1
    obtain rfl := (List.cons.inj a1).1
    exact ⟨hs, a2⟩
  obtain ⟨wf, ef', -, vf1, dA⟩ := fr.dec hvec _ _ A w (by rw [tensorAt_congr hcov12]; exact hA) (symm hA hAs)
  obtain ⟨wb, eb', -, vb1, dB⟩ := fr.dec hvec _ _ B h (by rw [tensorAt_congr hcov12]; exact hB) (symm hB hBs)
  obtain rfl := Option.some.inj (vf1.symm.trans e1)
  obtain rfl := Option.some.inj (vb1.symm.trans e2)
  have f0 : ef'.size 0 = w := by simp [Tensor.size, dA.vshape]
  have f1 : ef'.size 1 = w := by simp [Tensor.size, dA.vshape]
  have b0 : eb'.size 0 = h := by simp [Tensor.size, dB.vshape]
  have b1 : eb'.size 1 = h := by simp [Tensor.size, dB.vshape]
  rw [b1, f1] at e4
  rw [b0, f0] at e5
  rw [b1, f1] at e6
  have hfit : ∀ a b, a < h → b < w →
      t.el [a, b] = Spec.fitted h w (fun p a => eb'.el [p, a]) (fun q b => ef'.el [q, b]) (Spec.ekfacCalls m ekcalls) a b := by
    intro a b ha hb
    rw [e6 a b ha hb]
    unfold Spec.fitted Spec.squares
    congr 2
    refine List.flatMap_congr fun cl hcl => ?_
    refine List.map_congr_left fun k _ => ?_
    unfold Spec.rotated Spec.inBases
    rw [← (e5 cl hcl).1, ← (e5 cl hcl).2]
    rfl
  have hhasS : s.hasAttr nEigval = true ∧ s.hasAttr nEigvec = true ∧ s.hasAttr nEkfac = true := by
    refine ⟨?_, ?_, ?_⟩
    · unfold LState.hasAttr at hval ⊢; rw [frame _ (by decide) (by decide) (by decide)]; exact hval
    · unfold LState.hasAttr at hvec ⊢; rw [frame _ (by decide) (by decide) (by decide)]; exact hvec
    · unfold LState.hasAttr
      unfold Spec.tensorAt at e3
      cases hx : Dict.get? s.attrs nEkfac with
      | none => rw [hx] at e3; cases e3
      | some v => rfl
  have hsvdS : s.getCovarianceSvd L = .ok (s, nEkfac) := by
    unfold LState.getCovarianceSvd
    rw [hhasS.1, hhasS.2.1]
    simp only [Bool.and_self, if_true, hhasS.2.2]
  have P : EkParts calls ekcalls s m h w eb' ef' t := by
    refine ⟨by rw [tensorAt_congr (frame nEigvec (by decide) (by decide) (by decide))]; exact vf1,
      by rw [tensorAt_congr (frame nEigvec (by decide) (by decide) (by decide))]; exact vb1, e3, dA.vshape, dB.vshape, e4,
      ⟨fun a ha => ⟨wf.el [a], fun i hi => ?_⟩, dA.cols⟩, ⟨fun a ha => ⟨wb.el [a], fun i hi => ?_⟩, dB.cols⟩, hfit⟩
    · rw [← dA.eig i a hi ha]
      exact Finset.sum_congr rfl fun j hj => by rw [hAe i j hi (Finset.mem_range.1 hj)]
    · rw [← dB.eig i a hi ha]
      exact Finset.sum_congr rfl fun j hj => by rw [hBe i j hi (Finset.mem_range.1 hj)]
  exact ⟨h, w, eb', ef', t, A, B, P, hsvdS, hu, hk', hA, hB, hAs, hBs⟩

theorem usesKfac_each {s : LState K} {keys : List PyStr} {hessian : Hess} (h : ∀ m ∈ keys, Spec.UsesKfac s [m] hessian) (hne : keys ≠ []) :
    Spec.UsesKfac s keys hessian := by
  obtain ⟨m, hm⟩ := List.exists_mem_of_ne_nil _ hne
  rcases h m hm with hh | ⟨hh, -⟩
  · exact .inl hh
  · refine .inr ⟨hh, fun cov hcov m' hm' => ?_⟩
    rcases h m' hm' with h' | ⟨-, h'⟩
    · rw [hh] at h'; cases h'
    · exact h' cov hcov m' (List.mem_singleton.2 rfl)

/-- The form of the inverse Hessian after the eigenvalues were fitted. -/
theorem ekfac_form {L : Lib K} {calls ekcalls : List (Plugin × StatCall K)} {s s₁ s₂ : LState K} {d : GLog K} {o : LogArg K} {hessian : Hess} {c : K}
    {H : HessKind K} (hE : Spec.EighOk L) (hf : Spec.EkFinalized L calls ekcalls s) (hl : Spec.EkLogged calls ekcalls (Dict.keys d) hessian)
    (hn : (Dict.keys d).Nodup) (hpre : precondition L s (.dict d) hessian (some c) = .ok (s₂, o))
    (hH : hessOf L s (Dict.keys d) hessian (some c) = .ok (s₁, H)) {m : PyStr} (hm : m ∈ Dict.keys d) :
    ∃ h w vb vf, Spec.Eigenbasis calls m .backward h vb ∧ Spec.Eigenbasis calls m .forward w vf ∧ (∃ g n, Spec.grad d m = some g ∧ g.shape = [n, h, w]) ∧
      (∀ a b, a < h → b < w → 0 ≤ Spec.fitted h w vb vf (Spec.ekfacCalls m ekcalls) a b) ∧
      ∀ g f, H.form m [h, w] g f = Spec.ekForm h w vb vf (Spec.ekfacCalls m ekcalls) c g f := by
  obtain ⟨hplug, p₁, p₂, dir, dir', hfin, hupd, hfin2⟩ := hf
  have parts := fun m (hm : m ∈ Dict.keys d) => ekfac_parts (m := m) hE hplug hfin hupd hfin2 (hessian := hessian)
    ⟨hl.1.imp id fun h => ⟨h.1, fun m' hm' => by rw [List.mem_singleton.1 hm']; exact h.2 m hm⟩, fun m' hm' => by rw [List.mem_singleton.1 hm']; exact hl.2 m hm⟩
  obtain ⟨h, w, eb, ef, t, -, -, P, hsvd, -⟩ := parts m hm
  obtain ⟨k1, k2⟩ := ekfac_core P hsvd (usesKfac_each (fun m hm => by obtain ⟨_, _, _, _, _, _, _, _, _, hu, _⟩ := parts m hm; exact hu) (List.ne_nil_of_mem hm))
    (fun m hm => by obtain ⟨_, _, _, _, _, _, _, _, _, _, hk, _⟩ := parts m hm; exact hk) hn hpre hH hm
  exact ⟨h, w, fun p a => eb.el [p, a], fun q b => ef.el [q, b], P.bbasis, P.fbasis, k1, fun a b _ _ => fitted_nonneg _ a b, k2⟩

/-- The bases of all modules. -/
theorem ekfac_forms {L : Lib K} {calls ekcalls : List (Plugin × StatCall K)} {s s₁ s₂ : LState K} {d : GLog K} {o : LogArg K} {hessian : Hess} {c : K}
    {H : HessKind K} (hE : Spec.EighOk L) (hf : Spec.EkFinalized L calls ekcalls s) (hl : Spec.EkLogged calls ekcalls (Dict.keys d) hessian)
    (hn : (Dict.keys d).Nodup) (hpre : precondition L s (.dict d) hessian (some c) = .ok (s₂, o))
    (hH : hessOf L s (Dict.keys d) hessian (some c) = .ok (s₁, H)) :
    ∃ h w vb vf, Spec.Bases calls d h w vb vf ∧ (∀ m ∈ Dict.keys d, ∀ a b, a < h m → b < w m →
        0 ≤ Spec.fitted (h m) (w m) (vb m) (vf m) (Spec.ekfacCalls m ekcalls) a b) ∧
      ∀ m ∈ Dict.keys d, ∀ g, Spec.grad d m = some g → ∀ i f,
        H.form m g.shape.tail i f = Spec.ekForm (h m) (w m) (vb m) (vf m) (Spec.ekfacCalls m ekcalls) c i f := by
  have : ∀ m, ∃ h w vb vf, m ∈ Dict.keys d → Spec.Eigenbasis calls m .backward h vb ∧ Spec.Eigenbasis calls m .forward w vf ∧
      (∃ g n, Spec.grad d m = some g ∧ g.shape = [n, h, w]) ∧
      (∀ a b, a < h → b < w → 0 ≤ Spec.fitted h w vb vf (Spec.ekfacCalls m ekcalls) a b) ∧
      ∀ g f, H.form m [h, w] g f = Spec.ekForm h w vb vf (Spec.ekfacCalls m ekcalls) c g f := by
    intro m
    by_cases hm : m ∈ Dict.keys d
    · obtain ⟨h, w, vb, vf, k⟩ := ekfac_form hE hf hl hn hpre hH hm
      exact ⟨h, w, vb, vf, fun _ => k⟩
    · exact ⟨0, 0, fun _ _ => 0, fun _ _ => 0, fun h => absurd h hm⟩
  choose h w vb vf k using this
  refine ⟨h, w, vb, vf, ⟨fun m hm => (k m hm).1, fun m hm => (k m hm).2.1, fun m hm => (k m hm).2.2.1⟩, fun m hm => (k m hm).2.2.2.1, fun m hm g hg i f => ?_⟩
  obtain ⟨g', n, g1, g2⟩ := (k m hm).2.2.1
  obtain rfl := Option.some.inj (hg.symm.trans g1)
  rw [g2]
  exact (k m hm).2.2.2.2 i f

/-- **C99.** A new instance logs activations and output gradients and is finalized, then logs gradients to fit the eigenvalues, and is finalized.
Then there are orthonormal eigenvectors of the second moments of the activations and of the output gradients, such that the score of the first
`compute_influence` for source `i` and target `j` is the sum, over the modules and the entries of a gradient, of the products of the two gradients'
entries in these bases, over the damped average of the squares of this entry in the gradients that were logged for the eigenvalues. -/
theorem C99_ekfac {L : Lib K} {sqrt : K → K} {calls ekcalls : List (Plugin × StatCall K)} {s u : LState K} {srcIds tgtIds : List PyStr} {d e : GLog K}
    {hessian : Hess} {c : K} {r : IFResult K} (hE : Spec.EighOk L) (hf : Spec.EkFinalized L calls ekcalls s)
    (hl : Spec.EkLogged calls ekcalls (Dict.keys d) hessian) (hc : 0 < c) (hd : Spec.Labelled srcIds d) (he : Spec.Labelled tgtIds e)
    (h : computeInfluence L sqrt s srcIds (.dict d) tgtIds (.dict e) .dot true hessian none (some c) = .ok (u, r)) :
    ∃ hs ws vb vf t, Spec.Bases calls d hs ws vb vf ∧ (∀ m ∈ Dict.keys d, ∀ a b, a < hs m → b < ws m →
        0 < Spec.fitted (hs m) (ws m) (vb m) (vf m) (Spec.ekfacCalls m ekcalls) a b + c) ∧
      r.influence = .one t ∧ r.srcIds = srcIds ∧ r.tgtIds = tgtIds ∧ t.shape = [srcIds.length, tgtIds.length] ∧
      ∀ i j, i < srcIds.length → j < tgtIds.length → t.el [i, j] = Spec.ekInfluence ekcalls hs ws vb vf c d e i j := by
  obtain ⟨H', -, s₂, ⟨o, g0⟩, -⟩ := computeInfluence_ok' h hd he
  obtain ⟨H, t, g1, g2, g3, g4, g5, g6, g7⟩ := dot_scores h hd he
  simp only [if_true] at g0
  simp only [PreOf, if_true] at g1
  obtain ⟨v, hv, -⟩ := g1
  obtain ⟨hs, ws, vb, vf, k1, k2, k3⟩ := ekfac_forms hE hf hl hd.nodup g0 hv
  refine ⟨hs, ws, vb, vf, t, k1, fun m hm a b ha hb => add_pos_of_nonneg_of_pos (k2 m hm a b ha hb) hc, g2, g3, g4, g5, fun i j hi hj => ?_⟩
  rw [g7 i j hi hj]
  unfold Spec.ekInfluence
  congr 1
  refine List.map_congr_left fun m hm => ?_
  obtain ⟨g, f, a1, a2, a3⟩ := g6 m hm
  unfold formAt
  simp only [a1, a2]
  exact k3 m hm g a1 _ _

/-- **C99**, self-influence: the score of sample `i` is its influence on itself with the EKFAC Hessian. -/
theorem C99_ekfac_self {L : Lib K} {calls ekcalls : List (Plugin × StatCall K)} {s u : LState K} {ids : List PyStr} {d : GLog K}
    {hessian : Hess} {c : K} {r : SelfResult K} (hE : Spec.EighOk L) (hf : Spec.EkFinalized L calls ekcalls s)
    (hl : Spec.EkLogged calls ekcalls (Dict.keys d) hessian) (hc : 0 < c) (hd : Spec.Labelled ids d)
    (h : computeSelf L s ids (.dict d) true hessian none (some c) = .ok (u, r)) :
    ∃ hs ws vb vf t, Spec.Bases calls d hs ws vb vf ∧ (∀ m ∈ Dict.keys d, ∀ a b, a < hs m → b < ws m →
        0 < Spec.fitted (hs m) (ws m) (vb m) (vf m) (Spec.ekfacCalls m ekcalls) a b + c) ∧
      r.influence.get? ['t', 'o', 't', 'a', 'l'] = some t ∧ r.srcIds = ids ∧ t.shape = [ids.length] ∧
      ∀ i, i < ids.length → t.el [i] = Spec.ekInfluence ekcalls hs ws vb vf c d d i i := by
  obtain ⟨s₂, o, g0⟩ := computeSelf_pre h
  obtain ⟨H, g1, g3, -, g5⟩ := computeSelf_ok h hd
  obtain ⟨t, t1, -, t2, t3, -, t4⟩ := g5 nTotal (.inl rfl)
  simp only [PreOf, if_true] at g1
  obtain ⟨v, hv, -⟩ := g1
  obtain ⟨hs, ws, vb, vf, k1, k2, k3⟩ := ekfac_forms hE hf hl hd.nodup g0 hv
  refine ⟨hs, ws, vb, vf, t, k1, fun m hm a b ha hb => add_pos_of_nonneg_of_pos (k2 m hm a b ha hb) hc, t1, g3, t3, fun i hi => ?_⟩
  rw [t4 i hi]
  unfold Spec.ekInfluence
  congr 1
  refine List.map_congr_left fun m hm => ?_
  obtain ⟨g, a1, -⟩ := hd.rows m hm
  rw [count_none, Nat.cast_one, one_mul]
  unfold formAt
  simp only [a1]
  exact k3 m hm g a1 _ _

/-- If no eigenvalue occurs twice, every other eigenbasis has the same vectors up to order and sign. -/
theorem Eigenbasis.perm {calls : List (Plugin × StatCall K)} {m : PyStr} {lt : LogType} {n : Nat} {v v' : Nat → Nat → K}
    (h : Spec.Eigenbasis calls m lt n v) (h' : Spec.Eigenbasis calls m lt n v') (hs : Spec.Simple calls m lt n v) :
    ∃ (σ : Nat → Nat) (ε : Nat → K), (∀ b, b < n → σ b < n) ∧ (∀ b b', b < n → b' < n → σ b = σ b' → b = b') ∧ (∀ b, b < n → ε b * ε b = 1) ∧
      ∀ i b, i < n → b < n → v' i b = ε b * v i (σ b) := by
  have c1 : ∀ a, ∃ c, a < n → ∀ i, i < n → ∑ j ∈ Finset.range n, Spec.secondMoment calls m lt i j * v j a = c * v i a := by
    intro a
    by_cases ha : a < n
    · obtain ⟨c, hc⟩ := h.eig a ha; exact ⟨c, fun _ => hc⟩
    · exact ⟨0, fun h => absurd h ha⟩
  have c2 : ∀ a, ∃ c, a < n → ∀ i, i < n → ∑ j ∈ Finset.range n, Spec.secondMoment calls m lt i j * v' j a = c * v' i a := by
    intro a
    by_cases ha : a < n
    · obtain ⟨c, hc⟩ := h'.eig a ha; exact ⟨c, fun _ => hc⟩
    · exact ⟨0, fun h => absurd h ha⟩
  choose l hl using c1
  choose l' hl' using c2
  refine eigenbasis_perm (S := Spec.secondMoment calls m lt) (fun i j => ?_) h.orthonormal h'.orthonormal hl hl'
    fun a b ha hb e => hs a b (l a) ha hb (hl a ha) (by rw [e]; exact hl b hb)
  unfold Spec.secondMoment
  congr 2
  exact List.map_congr_left fun r _ => mul_comm _ _

/-- The form does not depend on the order and the signs of the basis vectors. -/
theorem ekForm_perm {h w : Nat} {vb vf vb' vf' : Nat → Nat → K} {σ τ : Nat → Nat} {ε δ : Nat → K} (cs : List (StatCall K)) (c : K) (g f : List Nat → K)
    (s1 : ∀ b, b < h → σ b < h) (s2 : ∀ b b', b < h → b' < h → σ b = σ b' → b = b') (s3 : ∀ b, b < h → ε b * ε b = 1)
    (s4 : ∀ i b, i < h → b < h → vb' i b = ε b * vb i (σ b))
    (t1 : ∀ b, b < w → τ b < w) (t2 : ∀ b b', b < w → b' < w → τ b = τ b' → b = b') (t3 : ∀ b, b < w → δ b * δ b = 1)
    (t4 : ∀ i b, i < w → b < w → vf' i b = δ b * vf i (τ b)) : Spec.ekForm h w vb' vf' cs c g f = Spec.ekForm h w vb vf cs c g f := by
  have key : ∀ g a b, a < h → b < w → Spec.inBases h w vb' vf' g a b = ε a * δ b * Spec.inBases h w vb vf g (σ a) (τ b) := by
    intro g a b ha hb
    unfold Spec.inBases
    rw [Finset.mul_sum]
    refine Finset.sum_congr rfl fun p hp => ?_
    rw [Finset.mul_sum]
    refine Finset.sum_congr rfl fun q hq => ?_
    rw [s4 p a (Finset.mem_range.1 hp) ha, t4 q b (Finset.mem_range.1 hq) hb]
    ring
  have mul : ∀ x y a b, a < h → b < w → (ε a * δ b * x) * (ε a * δ b * y) = x * y := by
    intro x y a b ha hb
    calc _ = (ε a * ε a) * (δ b * δ b) * (x * y) := by ring
      _ = _ := by rw [s3 a ha, t3 b hb]; ring
  have fit : ∀ a b, a < h → b < w → Spec.fitted h w vb' vf' cs a b = Spec.fitted h w vb vf cs (σ a) (τ b) := by
    intro a b ha hb
    unfold Spec.fitted
    congr 2
    refine List.flatMap_congr fun cl _ => List.map_congr_left fun k _ => ?_
    rw [key _ a b ha hb, sq, sq, mul _ _ a b ha hb]
  unfold Spec.ekForm
  symm
  rw [← sum_range_perm s1 s2]
  refine Finset.sum_congr rfl fun a ha => ?_
  rw [← sum_range_perm t1 t2]
  refine Finset.sum_congr rfl fun b hb => ?_
  rw [Finset.mem_range] at ha hb
  rw [key g a b ha hb, key f a b ha hb, mul _ _ a b ha hb, fit a b ha hb]

theorem ekInfluence_bases {calls ekcalls : List (Plugin × StatCall K)} {d e : GLog K} {hs ws hs' ws' : PyStr → Nat} {vb vf vb' vf' : PyStr → Nat → Nat → K}
    (hB : Spec.Bases calls d hs ws vb vf) (hB' : Spec.Bases calls d hs' ws' vb' vf')
    (hS : ∀ m ∈ Dict.keys d, Spec.Simple calls m .backward (hs m) (vb m) ∧ Spec.Simple calls m .forward (ws m) (vf m)) (c : K) (i j : Nat) :
    Spec.ekInfluence ekcalls hs' ws' vb' vf' c d e i j = Spec.ekInfluence ekcalls hs ws vb vf c d e i j := by
  unfold Spec.ekInfluence
  congr 1
  refine List.map_congr_left fun m hm => ?_
  obtain ⟨g, n, g1, g2⟩ := hB.sizes m hm
  obtain ⟨g', n', g1', g2'⟩ := hB'.sizes m hm
  obtain rfl := Option.some.inj (g1.symm.trans g1')
  rw [g2] at g2'
  obtain ⟨-, g3⟩ := List.cons.inj g2'
  obtain ⟨eh, g4⟩ := List.cons.inj g3
  obtain ⟨ew, -⟩ := List.cons.inj g4
  have hb' := hB'.backward m hm
  have hf' := hB'.forward m hm
  rw [← eh] at hb'
  rw [← ew] at hf'
  obtain ⟨σ, ε, s1, s2, s3, s4⟩ := Eigenbasis.perm (hB.backward m hm) hb' (hS m hm).1
  obtain ⟨τ, δ, t1, t2, t3, t4⟩ := Eigenbasis.perm (hB.forward m hm) hf' (hS m hm).2
  rw [← eh, ← ew]
  split
  · exact ekForm_perm _ _ _ _ s1 s2 s3 s4 t1 t2 t3 t4
  · rfl

/-- **C99**, simple eigenvalues: if no eigenvalue of the second moments occurs twice, the score is given by every choice of the eigenvectors. -/
theorem C99_simple {L : Lib K} {sqrt : K → K} {calls ekcalls : List (Plugin × StatCall K)} {s u : LState K} {srcIds tgtIds : List PyStr} {d e : GLog K}
    {hessian : Hess} {c : K} {r : IFResult K} (hE : Spec.EighOk L) (hf : Spec.EkFinalized L calls ekcalls s)
    (hl : Spec.EkLogged calls ekcalls (Dict.keys d) hessian) (hc : 0 < c) (hd : Spec.Labelled srcIds d) (he : Spec.Labelled tgtIds e)
    (h : computeInfluence L sqrt s srcIds (.dict d) tgtIds (.dict e) .dot true hessian none (some c) = .ok (u, r))
    {hs ws : PyStr → Nat} {vb vf : PyStr → Nat → Nat → K} (hB : Spec.Bases calls d hs ws vb vf)
    (hS : ∀ m ∈ Dict.keys d, Spec.Simple calls m .backward (hs m) (vb m) ∧ Spec.Simple calls m .forward (ws m) (vf m)) :
    ∃ t, r.influence = .one t ∧ t.shape = [srcIds.length, tgtIds.length] ∧
      ∀ i j, i < srcIds.length → j < tgtIds.length → t.el [i, j] = Spec.ekInfluence ekcalls hs ws vb vf c d e i j := by
  obtain ⟨hs', ws', vb', vf', t, k1, -, k2, -, -, k3, k4⟩ := C99_ekfac hE hf hl hc hd he h
  exact ⟨t, k2, k3, fun i j hi hj => by rw [k4 i j hi hj, ekInfluence_bases hB k1 hS]⟩

/-- **C99**, self-influence with simple eigenvalues. -/
theorem C99_simple_self {L : Lib K} {calls ekcalls : List (Plugin × StatCall K)} {s u : LState K} {ids : List PyStr} {d : GLog K}
    {hessian : Hess} {c : K} {r : SelfResult K} (hE : Spec.EighOk L) (hf : Spec.EkFinalized L calls ekcalls s)
    (hl : Spec.EkLogged calls ekcalls (Dict.keys d) hessian) (hc : 0 < c) (hd : Spec.Labelled ids d)
    (h : computeSelf L s ids (.dict d) true hessian none (some c) = .ok (u, r))
    {hs ws : PyStr → Nat} {vb vf : PyStr → Nat → Nat → K} (hB : Spec.Bases calls d hs ws vb vf)
    (hS : ∀ m ∈ Dict.keys d, Spec.Simple calls m .backward (hs m) (vb m) ∧ Spec.Simple calls m .forward (ws m) (vf m)) :
    ∃ t, r.influence.get? ['t', 'o', 't', 'a', 'l'] = some t ∧ t.shape = [ids.length] ∧
      ∀ i, i < ids.length → t.el [i] = Spec.ekInfluence ekcalls hs ws vb vf c d d i i := by
  obtain ⟨hs', ws', vb', vf', t, k1, -, k2, -, k3, k4⟩ := C99_ekfac_self hE hf hl hc hd h
  exact ⟨t, k2, k3, fun i hi => by rw [k4 i hi, ekInfluence_bases hB k1 hS]⟩

end

end Logix
