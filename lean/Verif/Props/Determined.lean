/-
C93: the scores are determined by the logged data.
-/
import Verif.Lemmas.Determined
import Verif.Props.Stats

set_option linter.unusedSectionVars false

namespace Logix
variable {K : Type} [Field K]

/-! ### What a call needed to return -/

theorem computeSelf_pre {L : Lib K} {s s' : LState K} {ids : List PyStr} {d : GLog K} {hessian : Hess} {groups : Option (List PyStr)} {damping : Option K}
    {r : SelfResult K} (h : computeSelf L s ids (.dict d) true hessian groups damping = .ok (s', r)) :
    ∃ s₁ o, precondition L s (.dict d) hessian damping = .ok (s₁, o) := by
  unfold computeSelf at h
  simp only [if_true] at h
  split at h
  · cases h
  · cases h
  · next s₁ p hp => exact ⟨_, _, hp⟩

theorem computeInfluence_pre_tgt {L : Lib K} {sqrt : K → K} {s s' : LState K} {srcIds tgtIds : List PyStr} {d e : GLog K} {mode : Mode}
    {hessian : Hess} {groups : Option (List PyStr)} {damping : Option K} {r : IFResult K}
    (h : computeInfluence L sqrt s srcIds (.dict d) tgtIds (.dict e) mode false hessian groups damping = .ok (s', r))
    (hd : Spec.Labelled srcIds d) (he : Spec.Labelled tgtIds e) (hmode : mode ≠ .dot) :
    ∃ e' s₁ o, Dict.keys e' = Dict.keys e ∧ precondition L s (.dict e') hessian damping = .ok (s₁, o) := by
  unfold computeInfluence at h
  split at h
  · cases h
  · simp only [Bool.false_eq_true, if_false] at h
    split at h
    · cases h
    · next sc tgt hraw =>
      obtain ⟨e', rfl, hsame, -⟩ := rawScores_ok hraw (Acts.refl d) hd he
      unfold modeScores at h
      rw [if_neg hmode] at h
      split at h
      · cases h
      · next s₂ sc₂ hms =>
        split at hms
        · cases hms
        · next s₃ norm hself =>
          obtain ⟨s₁, o, hp⟩ := computeSelf_pre hself
          exact ⟨e', s₁, o, hsame.1, hp⟩

/-! ### Equal covariances -/

theorem inRange_two_lt {n k : Nat} {idx : List Nat} (h : inRange [n, k] idx = true) : ∃ i j, idx = [i, j] ∧ i < n ∧ j < k := by
  match idx, h with
  | [], h => cases h
  | [i], h => simp [inRange] at h
  | [i, j], h =>
    simp only [inRange, Bool.and_eq_true, decide_eq_true_eq, and_true] at h
    exact ⟨i, j, rfl, h.1, h.2⟩
  | _ :: _ :: _ :: _, h => simp [inRange] at h

theorem inRange_one_lt {n : Nat} {idx : List Nat} (h : inRange [n] idx = true) : ∃ i, idx = [i] ∧ i < n := by
  match idx, h with
  | [], h => cases h
  | [i], h =>
    simp only [inRange, Bool.and_eq_true, decide_eq_true_eq, and_true] at h
    exact ⟨i, rfl, h⟩
  | _ :: _ :: _, h => simp [inRange] at h

variable [LinearOrder K] [IsStrictOrderedRing K]

theorem formAt_same {H H' : HessKind K} {m : PyStr} (h : ∀ r g f, H.form m r g f = H'.form m r g f) (d e : GLog K) (i j : Nat) :
    formAt H.form d i e j m = formAt H'.form d i e j m := by
  unfold formAt
  cases Spec.grad d m with
  | none => rfl
  | some g =>
    cases Spec.grad e m with
    | none => rfl
    | some f => exact h _ _ _

/-- **C93**, for states. Two reachable states with the same covariances, of two instances whose libraries may return different eigenvectors and
inverses, give the same scores, in all modes and with any groups: the tensors under every key are equal. The damping is positive and EKFAC is not
used. -/
theorem C93_covariances {L L' : Lib K} {sqrt : K → K} {s s' u u' : LState K} {srcIds tgtIds : List PyStr} {d e : GLog K} {mode : Mode} {pre : Bool}
    {hessian : Hess} {groups : Option (List PyStr)} {c : K} {r r' : IFResult K}
    (hP : Spec.PosHessian L s (Dict.keys d) hessian c) (hP' : Spec.PosHessian L' s' (Dict.keys d) hessian c)
    (hek : s.hasAttr nEkfac = false) (hek' : s'.hasAttr nEkfac = false) (hsame : Spec.SameHessian s s' (Dict.keys d) hessian)
    (hd : Spec.Labelled srcIds d) (he : Spec.Labelled tgtIds e) (hk : mode = .dot ∨ Dict.keys d = Dict.keys e)
    (h : computeInfluence L sqrt s srcIds (.dict d) tgtIds (.dict e) mode pre hessian groups (some c) = .ok (u, r))
    (h' : computeInfluence L' sqrt s' srcIds (.dict d) tgtIds (.dict e) mode pre hessian groups (some c) = .ok (u', r')) :
    r.srcIds = r'.srcIds ∧ r.tgtIds = r'.tgtIds ∧ ∀ k, k = ['t', 'o', 't', 'a', 'l'] ∨ k ∈ groups.getD [] →
      ∃ t, r.influence.get? k = some t ∧ r'.influence.get? k = some t := by
  obtain ⟨H, H2, s₁, ⟨o, g0⟩, g1, g2, g3, g4, -, -, -, g5⟩ := computeInfluence_ok' h hd he
  obtain ⟨H', H2', s₁', ⟨o', g0'⟩, g1', g2', g3', g4', -, -, -, g5'⟩ := computeInfluence_ok' h' hd he
  refine ⟨g3.trans g3'.symm, g4.trans g4'.symm, fun k hkk => ?_⟩
  obtain ⟨t, t1, t2, t3, t4⟩ := g5 k hkk
  obtain ⟨t', t1', t2', t3', t4'⟩ := g5' k hkk
  refine ⟨t, t1, ?_⟩
  rw [t1']
  congr 1
  -- the forms on the source
  have hform : ∀ m ∈ Dict.keys d, ∀ r g f, H'.form m r g f = H.form m r g f := by
    intro m hm r g f
    cases pre with
    | false =>
      simp only [PreOf, Bool.false_eq_true, if_false] at g1 g1'
      rw [g1.1, g1'.1]
    | true =>
      simp only [PreOf, if_true] at g1 g1' g0 g0'
      obtain ⟨v, hv, -⟩ := g1
      obtain ⟨v', hv', -⟩ := g1'
      exact (hess_form_same rfl hP hP' hd.nodup hek hek' hsame g0 g0' hv hv' hm r g f).symm
  -- the forms on the target
  have hform2 : mode ≠ .dot → Dict.keys d = Dict.keys e → ∀ m ∈ Dict.keys e, ∀ r g f, H2'.form m r g f = H2.form m r g f := by
    intro hmode hke m hm r g f
    rw [if_neg hmode] at g2 g2'
    simp only [PreOf, if_true] at g2 g2'
    obtain ⟨w, hw, -⟩ := g2
    obtain ⟨w', hw', -⟩ := g2'
    rw [← hke] at hw hw' hm
    cases pre with
    | true =>
      simp only [PreOf, if_true] at g1 g1'
      obtain ⟨v, hv, hv2⟩ := g1
      obtain ⟨v', hv', hv2'⟩ := g1'
      obtain ⟨ops, hrun, -⟩ := hP.run
      obtain ⟨ops', hrun', -⟩ := hP'.run
      rw [hv2 (noShared hrun hek hv), hessOf_idem hv] at hw
      rw [hv2' (noShared hrun' hek' hv'), hessOf_idem hv'] at hw'
      cases hw; cases hw'
      exact hform m hm r g f
    | false =>
      simp only [PreOf, Bool.false_eq_true, if_false] at g1 g1'
      rw [g1.2] at hw
      rw [g1'.2] at hw'
      obtain ⟨a, sa, oa, ka, pa⟩ := computeInfluence_pre_tgt h hd he hmode
      obtain ⟨b, sb, ob, kb, pb⟩ := computeInfluence_pre_tgt h' hd he hmode
      rw [← hke] at ka kb
      refine (hess_form_same (kb.trans ka.symm) (ka ▸ hP) (ka ▸ hP') (ka ▸ hd.nodup) hek hek' (ka ▸ hsame) pa pb (ka ▸ hw) (ka ▸ hw') (ka ▸ hm) r g f).symm
  refine Tensor.ext_el (t2'.trans t2.symm) (t3'.trans t3.symm) fun idx hidx => ?_
  rw [t3'] at hidx
  · obtain ⟨i, j, rfl, hij⟩ := inRange_two_lt hidx
    rw [(t4 hk).2 i j hij.1 hij.2, (t4' hk).2 i j hij.1 hij.2]
    have e1 : ((Dict.keys d).map fun m => ((scoreKeys groups m).count k : K) * formAt H'.form d i e j m).sum =
        ((Dict.keys d).map fun m => ((scoreKeys groups m).count k : K) * formAt H.form d i e j m).sum := by
      congr 1
      exact List.map_congr_left fun m hm => by rw [formAt_same (hform m hm)]
    by_cases hmode : mode = .dot
    · subst hmode
      simp only [modeFn]
      exact e1
    · have e2 : ((Dict.keys e).map fun m => ((scoreKeys groups m).count k : K) * formAt H2'.form e j e j m).sum =
          ((Dict.keys e).map fun m => ((scoreKeys groups m).count k : K) * formAt H2.form e j e j m).sum := by
        congr 1
        exact List.map_congr_left fun m hm => by rw [formAt_same (hform2 hmode (hk.resolve_left hmode) m hm)]
      rw [e1, e2]

/-- **C93**, for states, self-influence. -/
theorem C93_covariances_self {L L' : Lib K} {s s' u u' : LState K} {ids : List PyStr} {d : GLog K} {pre : Bool}
    {hessian : Hess} {groups : Option (List PyStr)} {c : K} {r r' : SelfResult K}
    (hP : Spec.PosHessian L s (Dict.keys d) hessian c) (hP' : Spec.PosHessian L' s' (Dict.keys d) hessian c)
    (hek : s.hasAttr nEkfac = false) (hek' : s'.hasAttr nEkfac = false) (hsame : Spec.SameHessian s s' (Dict.keys d) hessian)
    (hd : Spec.Labelled ids d)
    (h : computeSelf L s ids (.dict d) pre hessian groups (some c) = .ok (u, r))
    (h' : computeSelf L' s' ids (.dict d) pre hessian groups (some c) = .ok (u', r')) :
    r.srcIds = r'.srcIds ∧ ∀ k, k = ['t', 'o', 't', 'a', 'l'] ∨ k ∈ groups.getD [] →
      ∃ t, r.influence.get? k = some t ∧ r'.influence.get? k = some t := by
  obtain ⟨H, g1, g3, -, g5⟩ := computeSelf_ok h hd
  obtain ⟨H', g1', g3', -, g5'⟩ := computeSelf_ok h' hd
  refine ⟨g3.trans g3'.symm, fun k hkk => ?_⟩
  obtain ⟨t, t1, -, t2, t3, -, t4⟩ := g5 k hkk
  obtain ⟨t', t1', -, t2', t3', -, t4'⟩ := g5' k hkk
  refine ⟨t, t1, ?_⟩
  rw [t1']
  congr 1
  have hform : ∀ m ∈ Dict.keys d, ∀ r g f, H'.form m r g f = H.form m r g f := by
    intro m hm r g f
    cases pre with
    | false =>
      simp only [PreOf, Bool.false_eq_true, if_false] at g1 g1'
      rw [g1.1, g1'.1]
    | true =>
      simp only [PreOf, if_true] at g1 g1'
      obtain ⟨v, hv, -⟩ := g1
      obtain ⟨v', hv', -⟩ := g1'
      obtain ⟨_, _, g0⟩ := computeSelf_pre h
      obtain ⟨_, _, g0'⟩ := computeSelf_pre h'
      exact (hess_form_same rfl hP hP' hd.nodup hek hek' hsame g0 g0' hv hv' hm r g f).symm
  refine Tensor.ext_el (t2'.trans t2.symm) (t3'.trans t3.symm) fun idx hidx => ?_
  rw [t3'] at hidx
  · obtain ⟨i, rfl, hij⟩ := inRange_one_lt hidx
    rw [t4 i hij, t4' i hij]
    congr 1
    exact List.map_congr_left fun m hm => by rw [formAt_same (hform m hm)]

/-! ### Equal data -/

theorem updates_runOps {L : Lib K} : ∀ {calls : List (Plugin × StatCall K)} {s s' : LState K}, updates L s calls = .ok s' →
    ∀ rest, runOps L s (calls.map (fun pc => StateOp.update pc.1 pc.2) ++ rest) = runOps L s' rest := by
  intro calls
  induction calls with
  | nil => intro s s' h rest; cases h; rfl
  | cons a l ih =>
    intro s s' h rest
    unfold updates at h
    split at h
    · cases h
    · next s1 hs1 =>
      simp only [List.map_cons, List.cons_append, runOps, stepOp, hs1]
      exact ih h rest

theorem updates_untouched {L : Lib K} {n : PyStr} (hn : n ∉ [nMean, nMeanCounter, nCov, nCovCounter]) : ∀ {calls : List (Plugin × StatCall K)} {s s' : LState K},
    updates L s calls = .ok s' → (∀ pc ∈ calls, pc.1 = .log ∨ pc.1 = .mean ∨ pc.1 = .covariance) → Dict.get? s'.attrs n = Dict.get? s.attrs n ∧
      s'.toNormalize = s.toNormalize := by
  intro calls
  induction calls with
  | nil => intro s s' h _; cases h; exact ⟨rfl, rfl⟩
  | cons a l ih =>
    intro s s' h hp
    unfold updates at h
    split at h
    · cases h
    · next s1 hs1 =>
      obtain ⟨i1, i2⟩ := ih h fun pc hpc => hp pc (List.mem_cons_of_mem _ hpc)
      have F := (pluginUpdate_frame L hs1).2 n (by
        rcases hp a (by simp) with h | h | h <;> rw [h] <;> simp only [touched]
        · simp
        · exact fun h => hn (by simp only [List.mem_cons, List.not_mem_nil, or_false] at h ⊢; rcases h with h | h <;> simp [h])
        · exact fun h => hn (by simp only [List.mem_cons, List.not_mem_nil, or_false] at h ⊢; rcases h with h | h <;> simp [h]))
      have N : s1.toNormalize = s.toNormalize := by
        rcases hp a (by simp) with h | h | h <;> rw [h] at hs1
        · cases hs1; rfl
        · obtain ⟨_, _, e⟩ := statUpdate_frame meanAcc hs1; rw [e]; rfl
        · obtain ⟨_, _, e⟩ := statUpdate_frame covAcc hs1; rw [e]; rfl
      exact ⟨i1.trans F, i2.trans N⟩

theorem finalized_hasAttr {L : Lib K} {calls : List (Plugin × StatCall K)} {s : LState K} (h : Spec.Finalized L calls s) {n : PyStr}
    (hn : n ∉ [nMean, nMeanCounter, nCov, nCovCounter]) (hi : Dict.get? (LState.init : LState K).attrs n = none) : s.hasAttr n = false := by
  obtain ⟨h1, -, s₀, dir, dir', h2, h3⟩ := h
  obtain ⟨u1, u2⟩ := updates_untouched hn h2 h1
  obtain ⟨f1, -⟩ := finalize_ok h3
  have := normalizePairs_frame f1 n (by
    rw [u2]
    show n ∉ [nMean, nCov]
    exact fun h => hn (by simp only [List.mem_cons, List.not_mem_nil, or_false] at h ⊢; rcases h with h | h <;> simp [h]))
  unfold LState.hasAttr
  rw [this, u1, hi]
  rfl

/-- What a finalized state holds for a quantity. -/
theorem finalized_item {L : Lib K} {calls : List (Plugin × StatCall K)} {s : LState K} (h : Spec.Finalized L calls s) :
    ∃ cov, s.getAttr nCov = .ok cov ∧ ∀ m lt, (Spec.callsOf .covariance m lt calls = [] → item2 cov m lt.name = .ok none) ∧
      (Spec.callsOf .covariance m lt calls ≠ [] → ∃ t, item2 cov m lt.name = .ok (some (.tensor t))) := by
  obtain ⟨-, -, s₀, dir, dir', h2, h3⟩ := h
  have hp : (nCov, nCovCounter) ∈ basePairs := by simp [basePairs]
  obtain ⟨i1, i2⟩ := init_getAttr (K := K) hp
  obtain ⟨d, e, hd, he, I⟩ := updates_inv L statOf_cov h2 i1 i2
  obtain ⟨f1, f2⟩ := finalize_ok h3
  obtain ⟨d1, e1, d', g1, g2, g3, g4⟩ := normalize_get (normReg_init.updates h2) f1 hp
  obtain rfl := Except.ok.inj (hd.symm.trans g1)
  obtain rfl := Except.ok.inj (he.symm.trans g2)
  refine ⟨d', g4, fun m lt => ⟨fun hnil => ?_, fun hne => ?_⟩⟩
  · refine (normalizeDict_item2 g3 m lt.name).2 ?_
    rw [((I m lt).nil hnil).1]
    rfl
  · obtain ⟨t0, n0, t, W, -, -, -, -, h1, -, -⟩ := (I m lt).cons hne
    obtain ⟨c, -, hc'⟩ := (normalizeDict_item2 g3 m lt.name).1 t h1
    exact ⟨_, hc'⟩

theorem usesKfac_of_calls {L : Lib K} {calls : List (Plugin × StatCall K)} {s : LState K} (h : Spec.Finalized L calls s) {keys : List PyStr} {hessian : Hess}
    (hh : hessian = .kfac ∨ hessian = .auto ∧ ∀ m ∈ keys, Spec.callsOf .covariance m .grad calls = []) : Spec.UsesKfac s keys hessian := by
  rcases hh with hh | ⟨hh, hc⟩
  · exact .inl hh
  · refine .inr ⟨hh, fun cov hcov m hm sub hsub hmem => ?_⟩
    obtain ⟨cov', hcov', hi⟩ := finalized_item h
    obtain rfl := Except.ok.inj (hcov.symm.trans hcov')
    have := (hi m .grad).1 (hc m hm)
    unfold item2 at this
    rw [hsub] at this
    simp only at this
    rw [← Dict.get?_isSome_iff] at hmem
    obtain ⟨v, hv⟩ := Option.isSome_iff_exists.1 hmem
    rw [hv] at this
    cases v <;> cases this

theorem usesRaw_of_calls {L : Lib K} {calls : List (Plugin × StatCall K)} {s : LState K} (h : Spec.Finalized L calls s) {keys : List PyStr} {hessian : Hess}
    (hh : hessian = .raw ∨ hessian = .auto) (hc : ∀ m ∈ keys, Spec.callsOf .covariance m .grad calls ≠ []) : Spec.UsesRaw s keys hessian := by
  rcases hh with hh | hh
  · exact .inl hh
  · refine .inr ⟨hh, fun cov hcov m hm sub hsub => ?_⟩
    obtain ⟨cov', hcov', hi⟩ := finalized_item h
    obtain rfl := Except.ok.inj (hcov.symm.trans hcov')
    obtain ⟨t, ht⟩ := (hi m .grad).2 (hc m hm)
    unfold item2 at ht
    rw [hsub] at ht
    simp only at ht
    rw [← Dict.get?_isSome_iff]
    cases hv : Dict.get? sub (LogType.name .grad) with
    | none => rw [hv] at ht; cases ht
    | some v => rfl

theorem sameCov_of_logged {L L' : Lib K} {calls calls' : List (Plugin × StatCall K)} {s s' : LState K} (h : Spec.Finalized L calls s) (h' : Spec.Finalized L' calls' s')
    {m : PyStr} {lt : LogType} (hl : Spec.SameLogged calls calls' m lt) : Spec.SameCov s s' m lt := by
  obtain ⟨-, -, s₀, dir, dir', h2, h3⟩ := h
  obtain ⟨-, -, s₀', dir₁, dir₁', h2', h3'⟩ := h'
  have hm : ∀ c ∈ Spec.callsOf .covariance m lt calls ++ Spec.callsOf .covariance m lt calls', c.mask = none ∨ c.logType = .grad := by
    intro c hc
    refine (hl.nomask c hc).imp id fun e => ?_
    rw [← e]
    rcases List.mem_append.1 hc with hc | hc <;>
    · unfold Spec.callsOf at hc
      obtain ⟨pc, hpc, rfl⟩ := List.mem_map.1 hc
      have := (List.mem_filter.1 hpc).2
      simp only [decide_eq_true_eq] at this
      exact this.2.2
  obtain ⟨t, W, a1, a2, a3, a4⟩ := C31_covariance L h2 h3 m lt hl.some.1 fun c hc => hm c (List.mem_append_left _ hc)
  obtain ⟨t', W', b1, b2, b3, b4⟩ := C31_covariance L' h2' h3' m lt hl.some.2 fun c hc => hm c (List.mem_append_right _ hc)
  obtain ⟨c, hc⟩ := List.exists_mem_of_ne_nil _ hl.some.1
  obtain ⟨c', hc'⟩ := List.exists_mem_of_ne_nil _ hl.some.2
  have hW : W = W' := by rw [← a3 c hc, ← b3 c' hc']; exact hl.width c hc c' hc'
  subst hW
  refine ⟨t, t', a1, b1, a2.trans b2.symm, fun idx hidx => ?_⟩
  rw [a2] at hidx
  · obtain ⟨i, j, rfl, hij⟩ := inRange_two_lt hidx
    rw [a4 i j hij.1 hij.2, b4 i j hij.1 hij.2, hl.samples]
    congr 1
    exact (hl.rows.map _).sum_eq

theorem posHessian_of_logged {L : Lib K} (hE : Spec.EighOk L) (hI : Spec.InverseOk L) {calls : List (Plugin × StatCall K)} {s : LState K}
    (h : Spec.Finalized L calls s) {keys : List PyStr} {hessian : Hess} {c : K} (hc : 0 < c) (hh : Spec.HasHessian s keys hessian) :
    Spec.PosHessian L s keys hessian c := by
  have n1 : s.hasAttr nEigval = false := finalized_hasAttr h (by decide) rfl
  have n2 : s.hasAttr nEigvec = false := finalized_hasAttr h (by decide) rfl
  have n3 : s.hasAttr nInverse = false := finalized_hasAttr h (by decide) rfl
  obtain ⟨-, hm, s₀, dir, dir', h2, h3⟩ := h
  refine ⟨⟨calls.map (fun pc => StateOp.update pc.1 pc.2) ++ [.finalize dir], ?_, ?_⟩, hE, hI, ⟨by rw [n1, n2], fun hv => absurd (n2.symm.trans hv) (by decide)⟩,
    fun hv => absurd (n3.symm.trans hv) (by decide), hh, hc⟩
  · rw [updates_runOps h2]
    simp only [runOps, stepOp, h3]
    rfl
  · intro o ho
    rcases List.mem_append.1 ho with ho | ho
    · obtain ⟨pc, hpc, rfl⟩ := List.mem_map.1 ho
      exact hm pc hpc
    · rw [List.mem_singleton.1 ho]
      trivial

theorem sameData {L L' : Lib K} {calls calls' : List (Plugin × StatCall K)} {s s' : LState K} (h : Spec.Finalized L calls s) (h' : Spec.Finalized L' calls' s')
    {keys : List PyStr} {hessian : Hess} (hdata : Spec.SameStatData calls calls' keys hessian) :
    Spec.SameHessian s s' keys hessian ∧ Spec.HasHessian s keys hessian ∧ Spec.HasHessian s' keys hessian := by
  rcases hdata with ⟨hh, hl⟩ | ⟨hh, hl⟩
  · have u := usesKfac_of_calls h (hh.imp id fun x => ⟨x.1, fun m hm => (x.2 m hm).1⟩)
    have u' := usesKfac_of_calls h' (hh.imp id fun x => ⟨x.1, fun m hm => (x.2 m hm).2⟩)
    have sc := fun m hm => And.intro (sameCov_of_logged h h' (hl m hm).1) (sameCov_of_logged h h' (hl m hm).2)
    refine ⟨.inl ⟨u, u', sc⟩, .inl ⟨u, fun m hm => ?_⟩, .inl ⟨u', fun m hm => ?_⟩⟩
    · obtain ⟨⟨t, t', a, -⟩, ⟨v, v', b, -⟩⟩ := sc m hm
      rw [a, b]; exact ⟨rfl, rfl⟩
    · obtain ⟨⟨t, t', -, a, -⟩, ⟨v, v', -, b, -⟩⟩ := sc m hm
      rw [a, b]; exact ⟨rfl, rfl⟩
  · have u := usesRaw_of_calls h hh (fun m hm => (hl m hm).some.1)
    have u' := usesRaw_of_calls h' hh (fun m hm => (hl m hm).some.2)
    have sc := fun m hm => sameCov_of_logged h h' (hl m hm)
    refine ⟨.inr ⟨u, u', sc⟩, .inr ⟨u, fun m hm => ?_⟩, .inr ⟨u', fun m hm => ?_⟩⟩
    · obtain ⟨t, t', a, -⟩ := sc m hm
      rw [a]; rfl
    · obtain ⟨t, t', -, a, -⟩ := sc m hm
      rw [a]; rfl

/-- **C93.** Two new instances log the same data for the covariances, in any order and cut into batches in any way, and are finalized. Then
`compute_influence` gives the same scores in both, for the same sources and targets, any mode, groups and positive damping, whatever eigenvectors
and inverses their libraries pick. -/
theorem C93_logged {L L' : Lib K} {sqrt : K → K} {calls calls' : List (Plugin × StatCall K)} {s s' u u' : LState K} {srcIds tgtIds : List PyStr} {d e : GLog K}
    {mode : Mode} {pre : Bool} {hessian : Hess} {groups : Option (List PyStr)} {c : K} {r r' : IFResult K}
    (hE : Spec.EighOk L) (hE' : Spec.EighOk L') (hI : Spec.InverseOk L) (hI' : Spec.InverseOk L')
    (hf : Spec.Finalized L calls s) (hf' : Spec.Finalized L' calls' s') (hdata : Spec.SameStatData calls calls' (Dict.keys d) hessian) (hc : 0 < c)
    (hd : Spec.Labelled srcIds d) (he : Spec.Labelled tgtIds e) (hk : mode = .dot ∨ Dict.keys d = Dict.keys e)
    (h : computeInfluence L sqrt s srcIds (.dict d) tgtIds (.dict e) mode pre hessian groups (some c) = .ok (u, r))
    (h' : computeInfluence L' sqrt s' srcIds (.dict d) tgtIds (.dict e) mode pre hessian groups (some c) = .ok (u', r')) :
    r.srcIds = r'.srcIds ∧ r.tgtIds = r'.tgtIds ∧ ∀ k, k = ['t', 'o', 't', 'a', 'l'] ∨ k ∈ groups.getD [] →
      ∃ t, r.influence.get? k = some t ∧ r'.influence.get? k = some t := by
  obtain ⟨h1, h2, h3⟩ := sameData hf hf' hdata
  exact C93_covariances (posHessian_of_logged hE hI hf hc h2) (posHessian_of_logged hE' hI' hf' hc h3) (finalized_hasAttr hf (by decide) rfl)
    (finalized_hasAttr hf' (by decide) rfl) h1 hd he hk h h'

/-- **C93**, self-influence. -/
theorem C93_logged_self {L L' : Lib K} {calls calls' : List (Plugin × StatCall K)} {s s' u u' : LState K} {ids : List PyStr} {d : GLog K}
    {pre : Bool} {hessian : Hess} {groups : Option (List PyStr)} {c : K} {r r' : SelfResult K}
    (hE : Spec.EighOk L) (hE' : Spec.EighOk L') (hI : Spec.InverseOk L) (hI' : Spec.InverseOk L')
    (hf : Spec.Finalized L calls s) (hf' : Spec.Finalized L' calls' s') (hdata : Spec.SameStatData calls calls' (Dict.keys d) hessian) (hc : 0 < c)
    (hd : Spec.Labelled ids d)
    (h : computeSelf L s ids (.dict d) pre hessian groups (some c) = .ok (u, r))
    (h' : computeSelf L' s' ids (.dict d) pre hessian groups (some c) = .ok (u', r')) :
    r.srcIds = r'.srcIds ∧ ∀ k, k = ['t', 'o', 't', 'a', 'l'] ∨ k ∈ groups.getD [] →
      ∃ t, r.influence.get? k = some t ∧ r'.influence.get? k = some t := by
  obtain ⟨h1, h2, h3⟩ := sameData hf hf' hdata
  exact C93_covariances_self (posHessian_of_logged hE hI hf hc h2) (posHessian_of_logged hE' hI' hf' hc h3) (finalized_hasAttr hf (by decide) rfl)
    (finalized_hasAttr hf' (by decide) rfl) h1 hd h h'

end Logix
