/-
C115: influence can be computed after logging.
-/
import Verif.Lemmas.SuccessHess

set_option linter.unusedSectionVars false

namespace Logix
open Spec
variable {K : Type} [Field K] [LinearOrder K] [IsStrictOrderedRing K]

/-! ### The state stays ready -/

theorem Spec.InfReady.mono {L : Lib K} {s : LState K} {keys keys' : List PyStr} {hessian : Hess} {c : K} {rows cols : PyStr → Nat}
    (h : InfReady L s keys hessian c rows cols) (hk : ∀ m ∈ keys', m ∈ keys) : InfReady L s keys' hessian c rows cols := by
  have k1 : UsesKfac s keys hessian → UsesKfac s keys' hessian := Or.imp_right fun h => ⟨h.1, fun cov hcov m hm => h.2 cov hcov m (hk m hm)⟩
  have k2 : UsesRaw s keys hessian → UsesRaw s keys' hessian := Or.imp_right fun h => ⟨h.1, fun cov hcov m hm => h.2 cov hcov m (hk m hm)⟩
  refine ⟨⟨h.hess.run, h.hess.eigh, h.hess.inverse, h.hess.svd, h.hess.inv, ?_, h.hess.pos⟩, h.plain, h.lib, h.dev, ?_⟩
  · exact h.hess.cov.imp (fun x => ⟨k1 x.1, fun m hm => x.2 m (hk m hm)⟩) fun x => ⟨k2 x.1, fun m hm => x.2 m (hk m hm)⟩
  · exact h.fits.imp (fun x => ⟨k1 x.1, fun m hm => x.2 m (hk m hm)⟩) fun x => ⟨k2 x.1, fun m hm => x.2 m (hk m hm)⟩

/-- A step that leaves the covariances and the fitted eigenvalues alone. -/
theorem Spec.InfReady.step {L : Lib K} {s t : LState K} {keys : List PyStr} {hessian : Hess} {c : K} {rows cols : PyStr → Nat} {o : StateOp K}
    (h : InfReady L s keys hessian c rows cols) (ho : stepOp L s o = .ok t) (hm : MaskNonneg o) (hcov : Dict.get? t.attrs nCov = Dict.get? s.attrs nCov)
    (hek : Dict.get? t.attrs nEkfac = Dict.get? s.attrs nEkfac) (hsvd : SvdFresh t) (hinv : InvFresh t c)
    (hdev : ∀ m (t₁ t₂ : LogType) x y w w', tensorAt t.attrs nCov [m, t₁.name] = some x → tensorAt t.attrs nCov [m, t₂.name] = some y →
      tensorAt t.attrs nEigval [m, t₁.name] = some w → tensorAt t.attrs nEigval [m, t₂.name] = some w' → w.dev = w'.dev) : InfReady L t keys hessian c rows cols := by
  have hC : ∀ p, tensorAt t.attrs nCov p = tensorAt s.attrs nCov p := tensorAt_congr hcov
  have hG : t.getAttr nCov = s.getAttr nCov := getAttr_congr hcov
  have k1 : UsesKfac s keys hessian → UsesKfac t keys hessian := by unfold UsesKfac; rw [hG]; exact id
  have k2 : UsesRaw s keys hessian → UsesRaw t keys hessian := by unfold UsesRaw; rw [hG]; exact id
  obtain ⟨ops, r1, r2⟩ := h.hess.run
  refine ⟨⟨⟨ops ++ [o], runOps_snoc r1 ho, fun o' ho' => ?_⟩, h.hess.eigh, h.hess.inverse, hsvd, hinv, ?_, h.hess.pos⟩, ?_, ⟨fun p x hx => ?_, h.lib.inverse⟩,
    ⟨fun m t₁ t₂ x y hx hy => ?_, hdev⟩, ?_⟩
  · rcases List.mem_append.1 ho' with h' | h'
    · exact r2 o' h'
    · rw [List.mem_singleton] at h'; rw [h']; exact hm
  · simp only [HasHessian, hC]
    exact h.hess.cov.imp (fun x => ⟨k1 x.1, x.2⟩) fun x => ⟨k2 x.1, x.2⟩
  · unfold LState.hasAttr; rw [hek]; exact h.plain
  · rw [hC] at hx; exact h.lib.eigh p x hx
  · rw [hC] at hx hy; exact h.dev.cov m t₁ t₂ x y hx hy
  · simp only [FitsCov, hC]
    exact h.fits.imp (fun x => ⟨k1 x.1, x.2⟩) fun x => ⟨k2 x.1, x.2⟩

theorem psd_symm {L : Lib K} {s : LState K} {keys : List PyStr} {hessian : Hess} {c : K} (hP : PosHessian L s keys hessian c) {path : Path} {x : Tensor K} {n : Nat}
    (hx : tensorAt s.attrs nCov path = some x) (hn : x.shape = [n, n]) : Symm x n := by
  obtain ⟨ops, hrun, hmask⟩ := hP.run
  obtain ⟨n', hn', hsym, -⟩ := C33_psd L hrun hmask path x hx
  rw [hn] at hn'
  have : n = n' := (List.cons.inj hn').1
  subst this
  exact ⟨hn, hsym⟩

theorem Spec.InfReady.afterSvd {L : Lib K} {s t : LState K} {keys : List PyStr} {hessian : Hess} {c : K} {rows cols : PyStr → Nat} {n : PyStr}
    (h : InfReady L s keys hessian c rows cols) (ht : s.getCovarianceSvd L = .ok (t, n)) : InfReady L t keys hessian c rows cols ∧ n = nEigval ∧ t.hasAttr nEigvec = true := by
  obtain ⟨ops, hrun, hmask⟩ := h.hess.run
  obtain ⟨g1, g2, g3, g4⟩ := svd_sound hrun h.hess.eigh h.hess.svd ht
  rw [h.plain] at g4
  have hC : ∀ p, tensorAt t.attrs nCov p = tensorAt s.attrs nCov p := tensorAt_congr (g3 nCov (by decide) (by decide))
  refine ⟨h.step (o := .svd) (by simp only [stepOp, ht]; rfl) trivial (g3 _ (by decide) (by decide)) (g3 _ (by decide) (by decide)) g1 ?_ ?_, by simpa using g4, g2⟩
  · have i1 : t.hasAttr nInverse = s.hasAttr nInverse := by unfold LState.hasAttr; rw [g3 _ (by decide) (by decide)]
    intro hi m t' x k hx hk
    rw [i1] at hi
    rw [hC] at hx
    rw [tensorAt_congr (g3 nInverse (by decide) (by decide))]
    exact h.hess.inv hi m t' x k hx hk
  · intro m t₁ t₂ x y w w' hx hy hw hw'
    rw [hC] at hx hy
    cases hv : s.hasAttr nEigvec with
    | true =>
      have hs1 : t = s := by
        unfold LState.getCovarianceSvd at ht
        rw [h.hess.svd.both, hv] at ht
        simp only [Bool.and_self, if_true] at ht
        cases ht; rfl
      subst hs1
      exact h.dev.eig m t₁ t₂ x y w w' hx hy hw hw'
    | false =>
      have hval : s.hasAttr nEigval = false := h.hess.svd.both.trans hv
      have D : ∀ t₁ x w, tensorAt s.attrs nCov [m, t₁] = some x → tensorAt t.attrs nEigval [m, t₁] = some w → w.dev = x.dev := by
        intro t₁ x w hx hw
        obtain ⟨-, w₁, v, h1, h2, -⟩ := C42_first_svd_partial L hrun ⟨hv, hval⟩ ht hx
        rw [hw] at h2
        cases h2
        obtain ⟨k, hk, -⟩ := C33_psd L hrun hmask _ x hx
        exact (h.hess.eigh x k (psd_symm h.hess hx hk) w v h1).2.1
      rw [D _ _ _ hx hw, D _ _ _ hy hw']
      exact h.dev.cov m t₁ t₂ x y hx hy

theorem Spec.InfReady.afterInverse {L : Lib K} {s t : LState K} {keys : List PyStr} {hessian : Hess} {c : K} {rows cols : PyStr → Nat} {inv : StateDict K}
    (h : InfReady L s keys hessian c rows cols) (ht : s.getCovarianceInverse L (some c) = .ok (t, inv)) :
    InfReady L t keys hessian c rows cols ∧ t.getAttr nInverse = .ok inv ∧ t.hasAttr nInverse = true := by
  obtain ⟨ops, hrun, hmask⟩ := h.hess.run
  obtain ⟨g1, g2, g3⟩ := inv_sound hrun h.hess.inverse h.hess.inv ht
  have e : ∀ n, n ≠ nInverse → t.hasAttr n = s.hasAttr n := fun n hn => by unfold LState.hasAttr; rw [g3 n hn]
  have hT : ∀ n, n ≠ nInverse → ∀ p, tensorAt t.attrs n p = tensorAt s.attrs n p := fun n hn => tensorAt_congr (g3 n hn)
  refine ⟨h.step (o := .inverse (some c)) (by simp only [stepOp, ht]; rfl) trivial (g3 _ (by decide)) (g3 _ (by decide)) ⟨?_, ?_⟩ g1 ?_, g2, hasAttr_of_getAttr g2⟩
  · rw [e _ (by decide), e _ (by decide)]; exact h.hess.svd.both
  · rw [e _ (by decide)]
    simp only [hT nCov (by decide), hT nEigval (by decide), hT nEigvec (by decide)]
    exact h.hess.svd.dec
  · simp only [hT nCov (by decide), hT nEigval (by decide)]
    exact h.dev.eig

/-! ### Preconditioning -/

theorem GradLog.entry {ids : List PyStr} {d : GLog K} {dev : Dev} {rows cols : PyStr → Nat} (hd : GradLog ids d dev rows cols) {p : PyStr × Dict PyStr (Tensor K)} (hp : p ∈ d) :
    ∃ g, Dict.get? p.2 (LogType.name .grad) = some g ∧ grad d p.1 = some g ∧ g.shape = [ids.length, rows p.1, cols p.1] ∧ g.dev = dev := by
  obtain ⟨g, h1, h2, h3⟩ := hd.grads p.1 (List.mem_map_of_mem (f := Prod.fst) hp)
  exact ⟨g, by rw [← grad_of_mem hd.nodup hp]; exact h1, h1, h2, h3⟩

theorem GradLog.labelled {ids : List PyStr} {d : GLog K} {dev : Dev} {rows cols : PyStr → Nat} (hd : GradLog ids d dev rows cols) : Labelled ids d :=
  ⟨hd.nodup, fun m hm => by obtain ⟨g, h1, h2, -⟩ := hd.grads m hm; exact ⟨g, h1, by simp [Tensor.size, h2]⟩⟩

theorem usesRaw_returns {s : LState K} {cov : StateDict K} {d : GLog K} {hessian : Hess} (hne : Dict.keys d ≠ [])
    (hk : ∀ m ∈ Dict.keys d, ∃ sub, Dict.get? cov m = some (.node sub)) : ∃ b, usesRaw cov d hessian = .ok b := by
  unfold usesRaw
  split
  · exact ⟨_, rfl⟩
  · cases d with
    | nil => exact absurd rfl hne
    | cons p rest =>
      obtain ⟨m, x⟩ := p
      obtain ⟨sub, hs⟩ := hk m (by simp [Dict.keys])
      simp only [hs]
      exact ⟨_, rfl⟩
  · exact ⟨_, rfl⟩

/-- Preconditioning returns, and the state stays ready. -/
theorem precondition_returns {L : Lib K} {s : LState K} {ids : List PyStr} {d : GLog K} {dev : Dev} {hessian : Hess} {c : K} {rows cols : PyStr → Nat}
    (h : InfReady L s (Dict.keys d) hessian c rows cols) (hd : GradLog ids d dev rows cols) :
    ∃ s' p, precondition L s (.dict d) hessian (some c) = .ok (s', .dict p) ∧ GradLog ids p dev rows cols ∧ Dict.keys p = Dict.keys d ∧
      InfReady L s' (Dict.keys d) hessian c rows cols := by
  obtain ⟨ops, hrun, hmask⟩ := h.hess.run
  obtain ⟨cov, hcov, -, -⟩ := cov_table hrun hmask
  have hother : hessian ≠ .other := by
    rintro rfl
    rcases h.fits with ⟨h1, -⟩ | ⟨h1, -⟩ <;> rcases h1 with h1 | ⟨h1, -⟩ <;> cases h1
  have hnode : ∀ m ∈ Dict.keys d, ∃ sub, Dict.get? cov m = some (.node sub) := by
    intro m hm
    rcases h.fits with ⟨-, h1⟩ | ⟨-, h1⟩
    · obtain ⟨⟨A, hA, -⟩, -⟩ := h1 m hm
      exact cov_node hcov (by rw [hA]; rfl)
    · obtain ⟨C, hC, -⟩ := h1 m hm
      exact cov_node hcov (by rw [hC]; rfl)
  have hall : (d.any fun p => !Dict.contains cov p.1) = false := by
    rw [Bool.eq_false_iff]
    intro h'
    obtain ⟨p, hp, hn⟩ := List.any_eq_true.1 h'
    obtain ⟨sub, hs⟩ := hnode p.1 (List.mem_map_of_mem (f := Prod.fst) hp)
    simp [Dict.contains, hs] at hn
  obtain ⟨b, hb⟩ := usesRaw_returns (s := s) (hessian := hessian) hd.some hnode
  have main : ∃ s' out, (if b then preconditionRaw L s d (some c) else preconditionKfac L s d (some c)) = .ok (s', out) ∧ InfReady L s' (Dict.keys d) hessian c rows cols := by
    rcases h.fits with ⟨hu, hf⟩ | ⟨hu, hf⟩
    · have := usesRaw_kfac hcov hu hnode rfl hb
      subst this
      simp only [Bool.false_eq_true, if_false]
      obtain ⟨t, n, ht⟩ := svd_returns hrun hmask h.lib
      obtain ⟨hr, rfl, hv⟩ := h.afterSvd ht
      have F := (getCovarianceSvd_frame L ht).2
      have hC : ∀ p, tensorAt t.attrs nCov p = tensorAt s.attrs nCov p := tensorAt_congr (F nCov (by decide) (by decide))
      have hval : t.hasAttr nEigval = true := hr.hess.svd.both.trans hv
      obtain ⟨vals, hvals⟩ := Option.isSome_iff_exists.1 hval
      obtain ⟨vecs, hvecs⟩ := Option.isSome_iff_exists.1 hv
      replace hvals := getAttr_eq.2 hvals
      replace hvecs := getAttr_eq.2 hvecs
      obtain ⟨⟨vals', out⟩, hout⟩ := kfacLoop_returns (vals := vals) (vecs := vecs) (rows := rows) (cols := cols) (src := d) (out := []) (damping := some c) (by
        intro p hp
        obtain ⟨g, q1, -, q2, -⟩ := GradLog.entry hd hp
        obtain ⟨⟨A, hA, sA⟩, B, hB, sB⟩ := hf p.1 (List.mem_map_of_mem (f := Prod.fst) hp)
        rw [← hC] at hA hB
        obtain ⟨wf, ef, w1, w2, w3⟩ := hr.hess.svd.dec hv _ _ _ _ hA (psd_symm hr.hess hA sA)
        obtain ⟨wb, eb, w4, w5, w6⟩ := hr.hess.svd.dec hv _ _ _ _ hB (psd_symm hr.hess hB sB)
        refine ⟨⟨g, _, q1, q2⟩, ⟨ef, eb, (tensorAt_node hvecs w2).1, (tensorAt_node hvecs w5).1, w3.vshape, w6.vshape⟩, fun dev => ?_⟩
        obtain ⟨-, sub, n1, n2⟩ := tensorAt_node hvals w1
        obtain ⟨-, sub', n3, n4⟩ := tensorAt_node hvals w4
        rw [n1] at n3
        cases n3
        exact fullEigval_returns dev n1 n2 n4 w3.wshape w6.wshape (hr.dev.eig _ _ _ _ _ _ _ hA hB w1 w4))
      have hsame : vals' = vals := kfacLoop_vals (fun m x hx => by
        have := (eigTable hrun).getCovarianceSvd ht vals (getAttr_eq.1 hvals) m
        unfold indexable at this
        rw [hx] at this
        cases this) hout
      refine ⟨t, out, ?_, hr⟩
      unfold preconditionKfac
      simp only [ht, hvals, hvecs, hout]
      rw [hsame, setAttr_self hvals]
    · have := usesRaw_raw hcov hu hnode rfl hb
      subst this
      simp only [if_true]
      obtain ⟨t, inv, ht⟩ := inverse_returns hrun hmask h.lib h.hess.pos
      obtain ⟨hr, hg, hi⟩ := h.afterInverse ht
      have F := (getCovarianceInverse_frame L ht).2
      have hC : ∀ p, tensorAt t.attrs nCov p = tensorAt s.attrs nCov p := tensorAt_congr (F nCov (by decide))
      obtain ⟨out, hout⟩ := rawLoop_returns (inv := inv) (rows := rows) (cols := cols) (src := d) (out := []) (by
        intro p hp
        obtain ⟨g, q1, -, q2, -⟩ := GradLog.entry hd hp
        obtain ⟨C, hC', sC⟩ := hf p.1 (List.mem_map_of_mem (f := Prod.fst) hp)
        rw [← hC] at hC'
        obtain ⟨i, i1, i2⟩ := hr.hess.inv hi _ _ _ _ hC' sC
        exact ⟨⟨g, _, q1, fun h0 => hd.ids (List.length_eq_zero_iff.1 h0), q2⟩, i, (tensorAt_node hg i1).1, i2.shape⟩)
      refine ⟨t, out, ?_, hr⟩
      unfold preconditionRaw
      simp only [ht, hout]
  obtain ⟨s', out, hm, hr⟩ := main
  have hpre : precondition L s (.dict d) hessian (some c) = .ok (s', .dict out) := by
    unfold precondition
    rw [if_neg hother]
    simp only [hcov, hall, hb, hm, Bool.false_eq_true, if_false]
  obtain ⟨out', s₁, H, o1, -, -, ⟨a1, a2⟩, -⟩ := precondition_acts hd.nodup hpre
  cases o1
  have hcase : out = d ∨ ∀ p ∈ out, ∀ q ∈ p.2, q.1 = LogType.name .grad := by
    right
    split at hm
    · unfold preconditionRaw at hm
      split at hm
      · cases hm
      · split at hm
        · cases hm
        · next h' => cases hm; exact rawLoop_only h' (by simp)
    · unfold preconditionKfac at hm
      split at hm
      · cases hm
      · split at hm
        · split at hm
          · cases hm
          · next h' => cases hm; exact kfacLoop_only h' (by simp)
        · cases hm
  refine ⟨s', out, hpre, ⟨by rw [a1]; exact hd.nodup, fun m hm' => ?_, ?_, hd.ids, by rw [a1]; exact hd.some⟩, a1, hr⟩
  · rw [a1] at hm'
    obtain ⟨g, g1, g2, g3⟩ := hd.grads m hm'
    obtain ⟨p, p1, p2, p3, -⟩ := a2 m g g1
    exact ⟨p, p1, p2.trans g2, p3.trans g3⟩
  · rcases hcase with rfl | h'
    · exact hd.only
    · exact h'

/-! ### Scores -/

theorem init_sized (dims : List Nat) (dev : Dev) (gs : List PyStr) : Sized dims dev (initScores gs : Scores K) := fun k t h => by
  cases (initScores_get (K := K) gs).1 k _ h

theorem selfLoop_keys {groups : Option (List PyStr)} {tgt : GLog K} : ∀ {src : GLog K} {d d' : Scores K}, selfLoop groups tgt src d = .ok d' →
    Dict.keys d' = Dict.keys d
  | [], d, d', h => by cases h; rfl
  | (m, sub) :: src, d, d', h => by
    unfold selfLoop at h
    split at h
    · split at h
      · cases h
      · split at h
        · cases h
        · next h1 => rw [selfLoop_keys h, addScores_keys h1]
    · cases h

/-- Self-influence returns with scores on the CPU, one per id, for every key. -/
theorem computeSelf_returns {L : Lib K} {s : LState K} {ids : List PyStr} {d : GLog K} {dev : Dev} {hessian : Hess} {c : K} {rows cols : PyStr → Nat}
    (h : InfReady L s (Dict.keys d) hessian c rows cols) (hd : GradLog ids d dev rows cols) (pre : Bool) {groups : Option (List PyStr)} (hg : GroupsHit groups (Dict.keys d)) :
    ∃ s' r, computeSelf L s ids (.dict d) pre hessian groups (some c) = .ok (s', r) ∧ InfReady L s' (Dict.keys d) hessian c rows cols ∧
      ∀ k, k = nTotal ∨ k ∈ groups.getD [] → ∃ t, r.influence.at k = .ok t ∧ t.shape = [ids.length] ∧ t.dev = .cpu := by
  have hpre : ∃ s' p, (if pre then precondition L s (.dict d) hessian (some c) else .ok (s, .dict d)) = .ok (s', .dict p) ∧ GradLog ids p dev rows cols ∧
      Dict.keys p = Dict.keys d ∧ InfReady L s' (Dict.keys d) hessian c rows cols := by
    cases pre with
    | true => exact precondition_returns h hd
    | false => exact ⟨s, d, rfl, hd, rfl, h⟩
  obtain ⟨s', p, h1, hp, hk, hr⟩ := hpre
  obtain ⟨sc, l1, l2, l3⟩ := selfLoop_returns (groups := groups) (b := p) (dev := dev) (n := ids.length) (src := d) (d := initScores (groups.getD []))
    (init_sized _ _ _) (fun k hk => ((initScores_get (K := K) _).2 k).2 hk) (fun q hq => by
      obtain ⟨g, q1, q2, q3, q4⟩ := GradLog.entry hd hq
      obtain ⟨g', p1, p2, p3⟩ := hp.grads q.1 (by rw [hk]; exact grad_mem q2)
      exact ⟨g, _, _, g', q1, q4, q3, p1, p2.trans q3.symm, p3⟩)
  have hkeys : Dict.keys sc = Dict.keys (initScores (groups.getD []) : Scores K) := selfLoop_keys l1
  have hall := all_scored hd.some hg hkeys l2 (fun k hn m hm => by
    obtain ⟨q, hq, rfl⟩ := List.mem_map.1 hm
    exact (l3 k hn).2 q hq)
  obtain ⟨sc', hc⟩ := checkScores_returns (dims := [ids.length]) (sc := sc) (fun q hq => by obtain ⟨t, t1, t2, -⟩ := hall q hq; exact ⟨t, t1, t2⟩)
  have hkeys' := (checkScores_ok hc).1
  have hmem : ∀ k, k = nTotal ∨ k ∈ groups.getD [] → k ∈ Dict.keys sc' := fun k hk => by
    rw [hkeys', hkeys]; exact ((initScores_get (K := K) _).2 k).2 hk
  obtain ⟨inf, hinf⟩ := finish_returns (groups := groups) (d := sc') (hmem _ (.inl rfl))
  refine ⟨s', ⟨ids, inf⟩, ?_, hr, fun k hk => ?_⟩
  · unfold computeSelf
    simp only [h1, l1, hc, hinf]
  · obtain ⟨t, ht⟩ := Option.isSome_iff_exists.1 ((Dict.get?_isSome_iff sc' k).2 (hmem k hk))
    refine ⟨t, ?_, checkScores_mem hc _ (Dict.mem_of_get? _ ht)⟩
    unfold finishScores at hinf
    cases groups with
    | some gs => cases hinf; simp only [Influence.at, ht]
    | none =>
      rcases hk with rfl | hk
      · simp only [ht] at hinf
        cases hinf; rfl
      · cases hk

theorem applyNorm_returns {f : K → K → K} {norm : Influence K} {n m : Nat} : ∀ {sc : Scores K},
    (∀ p ∈ sc, ∃ t u, p.2 = some t ∧ t.shape = [n, m] ∧ t.dev = .cpu ∧ norm.at p.1 = .ok u ∧ u.shape = [m] ∧ u.dev = .cpu) →
    ∃ d, applyNorm f norm sc = .ok d ∧ ∀ p ∈ d, ∃ t, p.2 = some t ∧ t.shape = [n, m]
  | [], _ => ⟨[], rfl, by simp⟩
  | (k, v) :: sc, h => by
    obtain ⟨t, u, h1, h2, h3, h4, h5, h6⟩ := h (k, v) (by simp)
    simp only at h1 h4
    subst h1
    obtain ⟨d, hd, hd'⟩ := applyNorm_returns (f := f) fun p hp => h p (List.mem_cons_of_mem _ hp)
    have hx : ∃ x, scoreOp f (some t) u.unsqueeze0 = .ok x ∧ x.shape = [n, m] := by
      have hs : u.unsqueeze0.shape = [1, m] := by show 1 :: u.shape = _; rw [h5]
      have hdv : u.unsqueeze0.dev = .cpu := h6
      simp only [scoreOp, Tensor.iop]
      rw [if_pos ⟨by rw [h3, hdv], by rw [h2, hs]; simp [bcast]⟩]
      exact ⟨_, rfl, h2⟩
    obtain ⟨x, hx, hx'⟩ := hx
    unfold applyNorm
    simp only [h4, hx, hd]
    refine ⟨_, rfl, fun p hp => ?_⟩
    rcases List.mem_cons.1 hp with rfl | hp
    · exact ⟨x, rfl, hx'⟩
    · exact hd' p hp

/-- The inner products return, for logs of the same modules. -/
theorem rawScores_returns {s : LState K} {ids tids : List PyStr} {d e : GLog K} {dev dev' : Dev} {rows cols : PyStr → Nat} (hd : GradLog ids d dev rows cols)
    (he : GradLog tids e dev' rows cols) (hmods : ∀ m, m ∈ Dict.keys d ↔ m ∈ Dict.keys e) {groups : Option (List PyStr)} (hg : GroupsHit groups (Dict.keys d)) :
    ∃ sc, rawScores s (.dict d) (.dict e) groups = .ok (sc, .dict (logOnDev e dev)) ∧ Dict.keys sc = Dict.keys (initScores (groups.getD []) : Scores K) ∧
      ∀ p ∈ sc, ∃ t, p.2 = some t ∧ t.shape = [ids.length, tids.length] ∧ t.dev = dev := by
  have hsync : syncDevice d e = .ok (logOnDev e dev) := by
    obtain ⟨m₀, hm₀⟩ := List.exists_mem_of_ne_nil _ he.some
    obtain ⟨g₀, hg₀, -⟩ := he.grads m₀ hm₀
    have hmem := grad_entry hg₀
    unfold syncDevice
    split
    · next hnil => rw [hnil] at hmem; cases hmem
    · next m t rest heq =>
      have : (m, t) ∈ e.flatMap fun p => p.2.map fun q => (p.1, q.1) := by rw [heq]; simp
      obtain ⟨x, hx, hy⟩ := List.mem_flatMap.1 this
      obtain ⟨q, hq, hz⟩ := List.mem_map.1 hy
      cases hz
      rw [he.only x hx q hq]
      obtain ⟨a, k1, -, k2⟩ := hd.grads x.1 ((hmods _).2 (List.mem_map_of_mem (f := Prod.fst) hx))
      rw [logItem_grad k1]
      simp only
      rw [k2]
      rfl
  obtain ⟨sc, l1, l2, l3⟩ := moduleLoop_returns (groups := groups) (b := logOnDev e dev) (dev := dev) (n := ids.length) (m := tids.length) (src := d)
    (d := initScores (groups.getD [])) (init_sized _ _ _) (fun k hk => ((initScores_get (K := K) _).2 k).2 hk) (fun q hq => by
      obtain ⟨g, q1, q2, q3, q4⟩ := GradLog.entry hd hq
      obtain ⟨g', p1, p2, -⟩ := he.grads q.1 ((hmods _).1 (grad_mem q2))
      exact ⟨g, _, g'.onDev dev, q1, q4, q3, by rw [grad_logOnDev', p1]; rfl, p2, rfl⟩)
  have hkeys : Dict.keys sc = Dict.keys (initScores (groups.getD []) : Scores K) := moduleLoop_keys l1
  refine ⟨sc, ?_, hkeys, all_scored hd.some hg hkeys l2 (fun k hn m hm => ?_)⟩
  · unfold rawScores
    simp only [hsync, l1]
  · obtain ⟨q, hq, rfl⟩ := List.mem_map.1 hm
    exact (l3 k hn).2 q hq

theorem GradLog.onDev {ids : List PyStr} {e : GLog K} {dev : Dev} {rows cols : PyStr → Nat} (he : GradLog ids e dev rows cols) (dev' : Dev) :
    GradLog ids (logOnDev e dev') dev' rows cols := by
  refine ⟨by rw [keys_logOnDev]; exact he.nodup, fun m hm => ?_, fun p hp q hq => ?_, he.ids, by rw [keys_logOnDev]; exact he.some⟩
  · rw [keys_logOnDev] at hm
    obtain ⟨g, g1, g2, -⟩ := he.grads m hm
    exact ⟨g.onDev dev', by rw [grad_logOnDev', g1]; rfl, g2, rfl⟩
  · unfold logOnDev at hp
    obtain ⟨x, hx, rfl⟩ := List.mem_map.1 hp
    obtain ⟨y, hy, rfl⟩ := List.mem_map.1 hq
    exact he.only x hx y hy

/-- **C115.** In a state ready for influence computations, `compute_influence` of two logs of gradients of the same modules returns: for every
`hessian`, with or without preconditioning and groups; with mode `dot` on all devices, with `l2` and `cosine` on the CPU. The state is ready for the
next call. -/
theorem C115_influence_returns {L : Lib K} {sqrt : K → K} {s : LState K} {ids tids : List PyStr} {d e : GLog K} {dev dev' : Dev} {hessian : Hess} {c : K}
    {rows cols : PyStr → Nat} (h : InfReady L s (Dict.keys d) hessian c rows cols) (hd : GradLog ids d dev rows cols) (he : GradLog tids e dev' rows cols)
    (hmods : ∀ m, m ∈ Dict.keys d ↔ m ∈ Dict.keys e) (pre : Bool) {groups : Option (List PyStr)} (hg : GroupsHit groups (Dict.keys d)) {mode : Mode}
    (hmode : mode = .dot ∨ (mode = .l2 ∨ mode = .cosine) ∧ dev = .cpu) :
    ∃ s' r, computeInfluence L sqrt s ids (.dict d) tids (.dict e) mode pre hessian groups (some c) = .ok (s', r) ∧
      InfReady L s' (Dict.keys d) hessian c rows cols := by
  have hpre : ∃ s' p, (if pre then precondition L s (.dict d) hessian (some c) else .ok (s, .dict d)) = .ok (s', .dict p) ∧ GradLog ids p dev rows cols ∧
      Dict.keys p = Dict.keys d ∧ InfReady L s' (Dict.keys d) hessian c rows cols := by
    cases pre with
    | true => exact precondition_returns h hd
    | false => exact ⟨s, d, rfl, hd, rfl, h⟩
  obtain ⟨s₁, p, h1, hp, hk, hr⟩ := hpre
  obtain ⟨sc, r1, r2, r3⟩ := rawScores_returns (s := s₁) hp he (fun m => by rw [hk]; exact hmods m) (groups := groups) (by rw [hk]; exact hg)
  have hmodes : ∃ s₂ sc₂, modeScores L sqrt s₁ tids (.dict (logOnDev e dev)) mode hessian groups (some c) sc = .ok (s₂, sc₂) ∧
      InfReady L s₂ (Dict.keys d) hessian c rows cols ∧ Dict.keys sc₂ = Dict.keys sc ∧ ∀ p ∈ sc₂, ∃ t, p.2 = some t ∧ t.shape = [ids.length, tids.length] := by
    rcases hmode with rfl | ⟨hmode, rfl⟩
    · exact ⟨s₁, sc, by unfold modeScores; rw [if_pos rfl], hr, rfl, fun p hp => by obtain ⟨t, t1, t2, -⟩ := r3 p hp; exact ⟨t, t1, t2⟩⟩
    · have hne : mode ≠ .dot := by rcases hmode with rfl | rfl <;> simp
      have hke : ∀ m, m ∈ Dict.keys (logOnDev e .cpu) ↔ m ∈ Dict.keys d := fun m => by rw [keys_logOnDev]; exact (hmods m).symm
      obtain ⟨s₂, nr, c1, c2, c3⟩ := computeSelf_returns (hr.mono fun m hm => (hke m).1 hm) (GradLog.onDev he .cpu) true (groups := groups)
        (fun g hg' => by obtain ⟨m, m1, m2⟩ := hg g hg'; exact ⟨m, (hke m).2 m1, m2⟩)
      obtain ⟨sc₂, a1, a2⟩ := applyNorm_returns (f := if mode = .cosine then fun x y => x / sqrt y else fun x y => x - 1 / 2 * y) (norm := nr.influence)
        (n := ids.length) (m := tids.length) (sc := sc) (fun q hq => by
          obtain ⟨t, t1, t2, t3⟩ := r3 q hq
          have hm : q.1 ∈ Dict.keys sc := List.mem_map_of_mem (f := Prod.fst) hq
          rw [r2, (initScores_get (K := K) _).2] at hm
          obtain ⟨u, u1, u2, u3⟩ := c3 q.1 hm
          exact ⟨t, u, t1, t2, t3, u1, u2, u3⟩)
      refine ⟨s₂, sc₂, ?_, c2.mono fun m hm => (hke m).2 hm, applyNorm_keys a1, a2⟩
      unfold modeScores
      rw [if_neg hne]
      simp only [c1, a1]
  obtain ⟨s₂, sc₂, m1, m2, m3, m4⟩ := hmodes
  obtain ⟨sc', hc⟩ := checkScores_returns m4
  obtain ⟨inf, hinf⟩ := finish_returns (groups := groups) (d := sc') (by
    rw [(checkScores_ok hc).1, m3, r2]; exact ((initScores_get (K := K) _).2 _).2 (.inl rfl))
  refine ⟨s₂, ⟨ids, tids, inf⟩, ?_, m2⟩
  have hother : mode ≠ .other := by rcases hmode with rfl | ⟨rfl | rfl, -⟩ <;> simp
  unfold computeInfluence
  rw [if_neg hother]
  simp only [h1, r1, m1, hc, hinf]

/-- **C115**, self-influence. -/
theorem C115_self_returns {L : Lib K} {s : LState K} {ids : List PyStr} {d : GLog K} {dev : Dev} {hessian : Hess} {c : K} {rows cols : PyStr → Nat}
    (h : InfReady L s (Dict.keys d) hessian c rows cols) (hd : GradLog ids d dev rows cols) (pre : Bool) {groups : Option (List PyStr)} (hg : GroupsHit groups (Dict.keys d)) :
    ∃ s' r, computeSelf L s ids (.dict d) pre hessian groups (some c) = .ok (s', r) ∧ InfReady L s' (Dict.keys d) hessian c rows cols := by
  obtain ⟨s', r, h1, h2, -⟩ := computeSelf_returns h hd pre hg
  exact ⟨s', r, h1, h2⟩

/-- **C115**, all batches of a loader: `compute_influence_all` returns (without an earlier saved result, or without saving). -/
theorem C115_all_returns {L : Lib K} {sqrt : K → K} {o : IFObj K} {ids : List PyStr} {d : GLog K} {dev : Dev} {hessian : Hess} {c : K} {rows cols : PyStr → Nat}
    (h : InfReady L o.st (Dict.keys d) hessian c rows cols) (hd : GradLog ids d dev rows cols) {loader : List (List PyStr × LogArg K)}
    (hl : ∀ b ∈ loader, ∃ e dev', b.2 = .dict e ∧ GradLog b.1 e dev' rows cols ∧ ∀ m, m ∈ Dict.keys d ↔ m ∈ Dict.keys e)
    (pre save : Bool) (hs : save = false ∨ o.saved = none) {groups : Option (List PyStr)} (hg : GroupsHit groups (Dict.keys d)) {mode : Mode}
    (hmode : mode = .dot ∨ (mode = .l2 ∨ mode = .cosine) ∧ dev = .cpu) :
    ∃ o' r, computeInfluenceAll L sqrt o ids (.dict d) loader mode pre save hessian groups (some c) = .ok (o', r) := by
  have hpre : ∃ s' p, (if pre then precondition L o.st (.dict d) hessian (some c) else .ok (o.st, .dict d)) = .ok (s', .dict p) ∧ GradLog ids p dev rows cols ∧
      Dict.keys p = Dict.keys d ∧ InfReady L s' (Dict.keys d) hessian c rows cols := by
    cases pre with
    | true => exact precondition_returns h hd
    | false => exact ⟨o.st, d, rfl, hd, rfl, h⟩
  obtain ⟨s₁, p, h1, hp, hk, hr⟩ := hpre
  rw [← hk] at hr hl hg
  have loop : ∀ {bs : List (List PyStr × LogArg K)} {s : LState K}, InfReady L s (Dict.keys p) hessian c rows cols →
      (∀ b ∈ bs, ∃ e dev', b.2 = .dict e ∧ GradLog b.1 e dev' rows cols ∧ ∀ m, m ∈ Dict.keys p ↔ m ∈ Dict.keys e) →
      ∃ s' vs, BatchRun L sqrt ids (.dict p) mode hessian groups (some c) s bs s' vs := by
    intro bs
    induction bs with
    | nil => intro s _ _; exact ⟨s, [], rfl, rfl⟩
    | cons b bs ih =>
      intro s hs hb
      obtain ⟨e, dev', e1, e2, e3⟩ := hb b (by simp)
      obtain ⟨s', r, c1, c2⟩ := C115_influence_returns (sqrt := sqrt) hs hp e2 e3 false hg hmode
      obtain ⟨s'', vs, hv⟩ := ih c2 fun b' hb' => hb b' (List.mem_cons_of_mem _ hb')
      exact ⟨s'', r :: vs, s', r, vs, by rw [e1]; exact c1, hv, rfl⟩
  obtain ⟨s₂, vs, hb⟩ := loop hr hl
  exact all_returns h1 hb hs

end Logix
