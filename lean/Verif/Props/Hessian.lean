/-
C42: which covariance and damping the inverse and the eigendecomposition belong to.
-/
import Verif.Props.Clear
import Verif.Props.Stats

namespace Logix
variable {K : Type}

/-! ### The tables of covariances have no duplicate keys -/

theorem cov_wf_step [Field K] {L : Lib K} {s s' : LState K} {o : StateOp K} (hr : NormReg s) (h : stepOp L s o = .ok s')
    (hd : ∃ d, s.getAttr nCov = .ok d ∧ (Nested.node d).WF) : ∃ d, s'.getAttr nCov = .ok d ∧ (Nested.node d).WF := by
  have frame : Dict.get? s'.attrs nCov = Dict.get? s.attrs nCov → ∃ d, s'.getAttr nCov = .ok d ∧ (Nested.node d).WF := by
    intro f
    obtain ⟨d, h1, h2⟩ := hd
    exact ⟨d, by rw [getAttr_congr f]; exact h1, h2⟩
  cases o with
  | update p c =>
    have h : pluginUpdate L p s c = .ok s' := h
    exact cov_wf_updates L (calls := [(p, c)]) (by unfold updates; rw [h]; rfl) hd
  | finalize dir =>
    obtain ⟨⟨a, b⟩, h1, h2⟩ := Except.map_ok h
    subst h2
    obtain ⟨d1, e1, d', g1, g2, g3, g4⟩ := normalize_get (st := nCov) (cn := nCovCounter) hr (finalize_ok h1).1 (by decide)
    obtain ⟨d, k1, k2⟩ := hd
    obtain rfl := Except.ok.inj (k1.symm.trans g1)
    exact ⟨d', g4, WF_normalizeDict _ _ _ g3 k2⟩
  | clear =>
    obtain ⟨d, k1, k2⟩ := hd
    have G := clearNames_get h nCov
    split at G
    · exact ⟨[], getAttr_eq.2 G, by rw [Nested.WF, Nested.WFList]; simp⟩
    · exact ⟨d, by rw [getAttr_eq, G]; exact getAttr_eq.1 k1, k2⟩
  | inverse damping =>
    obtain ⟨⟨a, b⟩, h1, h2⟩ := Except.map_ok h
    subst h2
    exact frame ((getCovarianceInverse_frame L h1).2 _ (by decide))
  | svd =>
    obtain ⟨⟨a, b⟩, h1, h2⟩ := Except.map_ok h
    subst h2
    exact frame ((getCovarianceSvd_frame L h1).2 _ (by decide) (by decide))

theorem cov_wf_run [Field K] (L : Lib K) : ∀ {ops : List (StateOp K)} {s s' : LState K}, NormReg s → runOps L s ops = .ok s' →
    (∃ d, s.getAttr nCov = .ok d ∧ (Nested.node d).WF) → ∃ d, s'.getAttr nCov = .ok d ∧ (Nested.node d).WF := by
  intro ops
  induction ops with
  | nil => intro s s' _ h hd; cases h; exact hd
  | cons o rest ih =>
    intro s s' hr h hd
    unfold runOps at h
    split at h
    · cases h
    · next s1 hs1 => exact ih (hr.step hs1) h (cov_wf_step hr hs1 hd)

theorem cov_wf_init [Field K] (L : Lib K) {ops : List (StateOp K)} {s : LState K} (h : runOps L .init ops = .ok s) :
    ∃ d, s.getAttr nCov = .ok d ∧ (Nested.node d).WF :=
  cov_wf_run L normReg_init h ⟨[], rfl, by rw [Nested.WF, Nested.WFList]; simp⟩

/-! ### The inverse -/

theorem inverseModes_ok [Field K] (L : Lib K) (damping : Option K) (m : PyStr) : ∀ {modes inv inv' : StateDict K},
    inverseModes L damping m modes inv = .ok inv' → (modes.map Prod.fst).Nodup → (∀ m, indexable inv m = true) →
    (∀ m, indexable inv' m = true) ∧
    (∀ t x, (t, .leaf (.tensor x)) ∈ modes → ∃ i, L.inverse (dampedCov x damping) = .ok i ∧ item2 inv' m t = .ok (some (.tensor i))) ∧
    ∀ m' t', (m' ≠ m ∨ t' ∉ modes.map Prod.fst) → item2 inv' m' t' = item2 inv m' t' := by
  intro modes
  induction modes with
  | nil =>
    intro inv inv' h _ h1
    unfold inverseModes at h
    cases h
    exact ⟨h1, by simp, fun _ _ _ => rfl⟩
  | cons a rest ih =>
    obtain ⟨t, x⟩ := a
    intro inv inv' h hn h1
    unfold inverseModes at h
    split at h
    · next heq => cases heq
    · next t0 cov rest0 heq =>
      simp only [List.cons.injEq, Prod.mk.injEq] at heq
      obtain ⟨⟨rfl, rfl⟩, rfl⟩ := heq
      split at h
      · cases h
      · next i hi =>
        simp only [List.map_cons, List.nodup_cons] at hn
        obtain ⟨i1, i3, i4⟩ := ih h hn.2 (indexable_set2 _ _ _ _ h1)
        refine ⟨i1, fun t' x' hx' => ?_, fun m' t' hmt => ?_⟩
        · rcases List.mem_cons.1 hx' with hx' | hx'
          · simp only [Prod.mk.injEq, Nested.leaf.injEq, SVal.tensor.injEq] at hx'
            obtain ⟨rfl, rfl⟩ := hx'
            exact ⟨i, hi, by rw [i4 m t' (.inr hn.1), item2_set2_self]⟩
          · exact i3 t' x' hx'
        · have hmt' : ¬(m = m' ∧ t = t') := by
            rintro ⟨rfl, rfl⟩
            rcases hmt with h | h
            · exact h rfl
            · simp at h
          have hmt2 : m' ≠ m ∨ t' ∉ rest.map Prod.fst := by
            rcases hmt with h | h
            · exact .inl h
            · simp only [List.map_cons, List.mem_cons, not_or] at h; exact .inr h.2
          rw [i4 m' t' hmt2, item2_set2 (h1 m), if_neg hmt']
    · cases h

theorem inverseModules_ok [Field K] (L : Lib K) (damping : Option K) : ∀ {cov inv inv' : StateDict K},
    inverseModules L damping cov inv = .ok inv' → (Nested.node cov).WF → (∀ m, indexable inv m = true) →
    (∀ m, indexable inv' m = true) ∧
    (∀ m sub, Dict.get? cov m = some (.node sub) → ∀ t x, (t, .leaf (.tensor x)) ∈ sub → ∃ i, L.inverse (dampedCov x damping) = .ok i ∧
      item2 inv' m t = .ok (some (.tensor i))) ∧
    ∀ m, Dict.get? cov m = none → ∀ t, item2 inv' m t = item2 inv m t := by
  intro cov
  induction cov with
  | nil =>
    intro inv inv' h _ h1
    unfold inverseModules at h
    cases h
    exact ⟨h1, by simp, fun _ _ _ => rfl⟩
  | cons a rest ih =>
    obtain ⟨m, x⟩ := a
    intro inv inv' h hw h1
    rw [Nested.WF, Nested.WFList] at hw
    have hrest : (Nested.node rest).WF := by
      rw [Nested.WF]
      exact ⟨(List.nodup_cons.1 hw.1).2, hw.2.2⟩
    have hmr : Dict.get? rest m = none := (Dict.get?_eq_none_iff _ _).2 (List.nodup_cons.1 hw.1).1
    cases x with
    | leaf y => unfold inverseModules at h; cases h
    | node modes =>
      unfold inverseModules at h
      split at h
      · cases h
      · next inv1 hm =>
        have hx := hw.2.1
        rw [Nested.WF] at hx
        obtain ⟨i1, i3, i4⟩ := inverseModes_ok L damping m hm hx.1 h1
        obtain ⟨k1, k3, k4⟩ := ih h hrest i1
        refine ⟨k1, fun m' sub hsub t x htx => ?_, fun m' hm' t => ?_⟩
        · rw [Dict.get?_cons] at hsub
          split at hsub
          · next heq =>
            subst heq
            simp only [Option.some.injEq, Nested.node.injEq] at hsub
            subst hsub
            obtain ⟨i, g1, g2⟩ := i3 t x htx
            exact ⟨i, g1, by rw [k4 m hmr t, g2]⟩
          · exact k3 m' sub hsub t x htx
        · rw [Dict.get?_cons] at hm'
          split at hm'
          · cases hm'
          · next hne => rw [k4 m' hm' t, i4 m' t (.inl (Ne.symm hne))]

/-- **C42**, the part that holds for the inverse: the first request after the creation of the instance returns, for every covariance, the
inverse of that covariance with the requested damping on its diagonal (or a tenth of its mean diagonal entry if none is requested). -/
theorem C42_first_inverse_partial [Field K] (L : Lib K) {ops : List (StateOp K)} {s s' : LState K} {damping : Option K} {inv : StateDict K}
    (hrun : runOps L .init ops = .ok s) (hfirst : s.hasAttr nInverse = false) (h : s.getCovarianceInverse L damping = .ok (s', inv))
    {m t : PyStr} {x : Tensor K} (hx : Spec.tensorAt s.attrs nCov [m, t] = some x) :
    ∃ i, L.inverse (Tensor.ofFn2 x.dev (x.size 0) (x.size 0) fun a b => x.el [a, b] + if a = b then
        (match damping with | some d => d | none => 1 / 10 * (∑ k ∈ Finset.range (x.size 0), x.el [k, k]) / (x.size 0 : K)) else 0) = .ok i ∧
      Spec.tensorAt s'.attrs nInverse [m, t] = some i ∧ item2 inv m t = .ok (some (.tensor i)) := by
  have hr := reg_init.run hrun
  obtain ⟨cov, hcov, hwf⟩ := cov_wf_init L hrun
  unfold LState.getCovarianceInverse at h
  rw [hfirst] at h
  simp only [Bool.false_eq_true, if_false] at h
  split at h
  · cases h
  · next s1 hs1 =>
    split at h
    · cases h
    · next d hd =>
      cases h
      unfold LState.covarianceInverse at hs1
      have hnot : nInverse ∉ s.states := fun hh => by
        have := (hr.attrs _).1 hh
        unfold LState.hasAttr at hfirst
        rw [hfirst] at this
        cases this
      have g1 : (s.registerState nInverse false true false).getAttr nInverse = .ok [] :=
        registerState_get s nInverse false true false hnot
      have g2 : (s.registerState nInverse false true false).getAttr nCov = .ok cov := by
        rw [getAttr_congr (registerState_frame _ _ _ _ _ _ (by decide))]; exact hcov
      simp only [g1, g2] at hs1
      split at hs1
      · cases hs1
      · next inv' hinv =>
        cases hs1
        rw [getAttr_setAttr, if_pos rfl] at hd
        cases hd
        obtain ⟨-, k, -⟩ := inverseModules_ok L damping hinv hwf (fun _ => rfl)
        obtain ⟨cov', hc', hi⟩ := item2_of_tensorAt hx
        obtain rfl := Option.some.inj ((getAttr_eq.1 hcov).symm.trans hc')
        unfold item2 at hi
        cases hm : Dict.get? cov m with
        | none => rw [hm] at hi; cases hi
        | some v =>
          rw [hm] at hi
          cases v with
          | leaf a => cases hi
          | node sub =>
            simp only at hi
            cases ht : Dict.get? sub t with
            | none => rw [ht] at hi; cases hi
            | some w =>
              rw [ht] at hi
              cases w with
              | node _ => cases hi
              | leaf a =>
                cases hi
                obtain ⟨i, i1, i2⟩ := k m sub hm t x (mem_of_get? ht)
                refine ⟨i, ?_, ?_, i2⟩
                · rw [← i1]
                  unfold dampedCov
                  cases damping <;> rfl
                · exact tensorAt_item2 (s := (s.registerState nInverse false true false).setAttr nInverse inv)
                    (by rw [getAttr_setAttr, if_pos rfl]) i2

/-- An operation other than `clear`. -/
def NoClear : StateOp K → Prop
  | .clear => False
  | _ => True

theorem attr_kept [Field K] (L : Lib K) : ∀ {ops : List (StateOp K)} {s s' : LState K}, runOps L s ops = .ok s' → (∀ o ∈ ops, NoClear o) →
    Reg s → NormReg s → (s.hasAttr nInverse = true → Dict.get? s'.attrs nInverse = Dict.get? s.attrs nInverse) ∧
      (s.hasAttr nEigvec = true → Dict.get? s'.attrs nEigvec = Dict.get? s.attrs nEigvec ∧ Dict.get? s'.attrs nEigval = Dict.get? s.attrs nEigval) := by
  intro ops
  induction ops with
  | nil => intro s s' h _ _ _; cases h; exact ⟨fun _ => rfl, fun _ => ⟨rfl, rfl⟩⟩
  | cons o rest ih =>
    intro s s' h hc hr hn
    unfold runOps at h
    split at h
    · cases h
    · next s1 hs1 =>
      obtain ⟨ih1, ih2⟩ := ih h (fun o ho => hc o (List.mem_cons_of_mem _ ho)) (hr.step hs1) (hn.step hs1)
      have key : (s.hasAttr nInverse = true → Dict.get? s1.attrs nInverse = Dict.get? s.attrs nInverse) ∧
          (s.hasAttr nEigvec = true → Dict.get? s1.attrs nEigvec = Dict.get? s.attrs nEigvec ∧
            Dict.get? s1.attrs nEigval = Dict.get? s.attrs nEigval) := by
        cases o with
        | update p c =>
          have hs1 : pluginUpdate L p s c = .ok s1 := hs1
          by_cases hp : p = .correctedEigval
          · subst hp
            refine ⟨fun _ => (pluginUpdate_frame L hs1).2 _ (by decide), fun hv => ?_⟩
            obtain ⟨s2, vecs, vals, ek, cn, t, cn', ef, eb, t', x, h0, -, -, -, -, -, -, -, -, -, hs⟩ := correctedEigval_ok L hs1
            unfold ekfacPrepare at h0
            rw [if_pos hv] at h0
            cases h0
            subst hs
            rw [get?_setAttr, if_neg (by decide), get?_setAttr, if_neg (by decide), get?_setAttr, if_neg (by decide), get?_setAttr,
              if_neg (by decide)]
            exact ⟨rfl, rfl⟩
          · have F := (pluginUpdate_frame L hs1).2
            exact ⟨fun _ => F _ (by cases p <;> first | (exact absurd rfl hp) | decide),
              fun _ => ⟨F _ (by cases p <;> first | (exact absurd rfl hp) | decide), F _ (by cases p <;> first | (exact absurd rfl hp) | decide)⟩⟩
        | finalize dir =>
          obtain ⟨⟨a, b⟩, g1, g2⟩ := Except.map_ok hs1
          subst g2
          have F := normalizePairs_frame (finalize_ok g1).1
          exact ⟨fun _ => F _ (by rcases hn with hn | hn <;> rw [hn] <;> decide),
            fun _ => ⟨F _ (by rcases hn with hn | hn <;> rw [hn] <;> decide), F _ (by rcases hn with hn | hn <;> rw [hn] <;> decide)⟩⟩
        | clear => exact absurd (hc .clear List.mem_cons_self) (by simp [NoClear])
        | inverse damping =>
          obtain ⟨⟨a, b⟩, g1, g2⟩ := Except.map_ok hs1
          subst g2
          have F := (getCovarianceInverse_frame L g1).2
          refine ⟨fun hi => ?_, fun _ => ⟨F _ (by decide), F _ (by decide)⟩⟩
          unfold LState.getCovarianceInverse at g1
          rw [if_pos hi] at g1
          simp only at g1
          split at g1
          · cases g1
          · cases g1; rfl
        | svd =>
          obtain ⟨⟨a, b⟩, g1, g2⟩ := Except.map_ok hs1
          subst g2
          have F := (getCovarianceSvd_frame L g1).2
          refine ⟨fun _ => F _ (by decide) (by decide), fun hv => ?_⟩
          have hval : s.hasAttr nEigval = true := (hr.attrs _).1 (hr.eig ((hr.attrs _).2 hv))
          unfold LState.getCovarianceSvd at g1
          rw [hv, hval] at g1
          simp only [Bool.and_self, if_true] at g1
          cases g1
          exact ⟨rfl, rfl⟩
      refine ⟨fun hi => ?_, fun hv => ?_⟩
      · rw [ih1 (by unfold LState.hasAttr at hi ⊢; rw [key.1 hi]; exact hi)]
        exact key.1 hi
      · obtain ⟨a, b⟩ := ih2 (by unfold LState.hasAttr at hv ⊢; rw [(key.2 hv).1]; exact hv)
        rw [a, b]
        exact key.2 hv

/-- **C42** is false: after the first request for the inverse, every later one returns the same tensors, whatever its damping, and whatever
was logged, finalized or computed in between (short of `clear`). -/
theorem C42_inverse_cached [Field K] (L : Lib K) {ops ops' : List (StateOp K)} {s s₁ s₂ : LState K} {d₁ : Option K} {inv : StateDict K}
    (hrun : runOps L .init ops = .ok s) (h₁ : s.getCovarianceInverse L d₁ = .ok (s₁, inv)) (h : runOps L s₁ ops' = .ok s₂)
    (hc : ∀ o ∈ ops', NoClear o) (d₂ : Option K) : s₂.getCovarianceInverse L d₂ = .ok (s₂, inv) := by
  have hr := reg_init.run hrun
  have st : stepOp L s (.inverse d₁) = .ok s₁ := by show (s.getCovarianceInverse L d₁).map Prod.fst = _; rw [h₁]; rfl
  have hinv : Dict.get? s₁.attrs nInverse = some inv := by
    unfold LState.getCovarianceInverse at h₁
    split at h₁
    · cases h₁
    · split at h₁
      · cases h₁
      · next d hd => cases h₁; exact getAttr_eq.1 hd
  have hk := (attr_kept L h hc (hr.step st) ((normReg_init.run hrun).step st)).1 (by unfold LState.hasAttr; rw [hinv]; rfl)
  rw [hinv] at hk
  unfold LState.getCovarianceInverse
  rw [if_pos (by unfold LState.hasAttr; rw [hk]; rfl)]
  simp only [getAttr_eq.2 hk]

/-- **C42** is false for the eigendecomposition too: the eigenvectors and eigenvalues computed by the first request (or by the first EKFAC
update) are never computed again (short of `clear`, after which they stay empty: `C38_eigvec_stays_empty`). -/
theorem C42_svd_cached [Field K] (L : Lib K) {ops ops' : List (StateOp K)} {s s₁ : LState K} (hrun : runOps L .init ops = .ok s)
    (hv : s.hasAttr nEigvec = true) (h : runOps L s ops' = .ok s₁) (hc : ∀ o ∈ ops', NoClear o) :
    Dict.get? s₁.attrs nEigvec = Dict.get? s.attrs nEigvec ∧ Dict.get? s₁.attrs nEigval = Dict.get? s.attrs nEigval ∧
      ∃ n, s₁.getCovarianceSvd L = .ok (s₁, n) := by
  have hr := reg_init.run hrun
  obtain ⟨h1, h2⟩ := (attr_kept L h hc hr (normReg_init.run hrun)).2 hv
  have hval : s.hasAttr nEigval = true := (hr.attrs _).1 (hr.eig ((hr.attrs _).2 hv))
  refine ⟨h1, h2, ?_⟩
  unfold LState.getCovarianceSvd
  rw [if_pos]
  · exact ⟨_, rfl⟩
  · unfold LState.hasAttr at hv hval ⊢
    rw [h1, h2, hv, hval]
    rfl

/-- **C42**, the part that holds for the eigendecomposition: the first request returns the eigendecomposition of every covariance as it is at
that moment. -/
theorem C42_first_svd_partial [Field K] (L : Lib K) {ops : List (StateOp K)} {s s' : LState K} {n : PyStr} (hrun : runOps L .init ops = .ok s)
    (hfirst : s.hasAttr nEigvec = false ∧ s.hasAttr nEigval = false) (h : s.getCovarianceSvd L = .ok (s', n)) {m t : PyStr} {x : Tensor K}
    (hx : Spec.tensorAt s.attrs nCov [m, t] = some x) :
    n = nEigval ∧ ∃ w v, L.eigh x = .ok (w, v) ∧ Spec.tensorAt s'.attrs nEigval [m, t] = some w ∧ Spec.tensorAt s'.attrs nEigvec [m, t] = some v := by
  have hr := reg_init.run hrun
  obtain ⟨-, -, -, hek⟩ := (ekReg_run L hrun ekReg_init).fresh hfirst.1
  obtain ⟨cov, hcov, hwf⟩ := cov_wf_init L hrun
  obtain ⟨cov', hcov', hi⟩ := item2_of_tensorAt hx
  obtain rfl := Option.some.inj (hcov'.symm.trans (getAttr_eq.1 hcov))
  unfold LState.getCovarianceSvd at h
  rw [hfirst.1, Bool.and_false] at h
  simp only [Bool.false_eq_true, if_false] at h
  split at h
  · cases h
  · next s1 hs1 =>
    have F := covarianceSvd_frame L hs1
    simp only [Except.ok.injEq, Prod.mk.injEq] at h
    obtain ⟨rfl, h⟩ := h
    have hek' : s1.hasAttr nEkfac = false := by unfold LState.hasAttr; rw [F.2 _ (by decide) (by decide), hek]; rfl
    rw [hek'] at h
    refine ⟨h.symm, ?_⟩
    have hn : ∀ n, s.hasAttr n = false → n ∉ s.states := fun n hf hh => by
      have := (hr.attrs _).1 hh
      unfold LState.hasAttr at hf
      rw [hf] at this
      cases this
    unfold LState.covarianceSvd at hs1
    have g3 : ((s.registerState nEigval false true false).registerState nEigvec false true false).getAttr nEigvec = .ok [] :=
      registerState_get _ nEigvec false true false (by rw [registerState_states s nEigval false true false nEigvec (by decide)]; exact hn _ hfirst.1)
    have g2 : ((s.registerState nEigval false true false).registerState nEigvec false true false).getAttr nEigval = .ok [] := by
      rw [getAttr_congr (registerState_frame _ nEigvec nEigval false true false (by decide))]
      exact registerState_get s nEigval false true false (hn _ hfirst.2)
    have g1 : ((s.registerState nEigval false true false).registerState nEigvec false true false).getAttr nCov = .ok cov' := by
      rw [getAttr_congr (registerState_frame _ nEigvec nCov false true false (by decide)),
        getAttr_congr (registerState_frame _ nEigval nCov false true false (by decide))]
      exact hcov
    simp only [g1, g2, g3] at hs1
    split at hs1
    · cases hs1
    · next vals' vecs' hvv =>
      cases hs1
      obtain ⟨-, -, k, -⟩ := svdModules_ok L hvv hwf (fun _ => rfl) (fun _ => rfl)
      obtain ⟨w, v, k1, k2, k3⟩ := k m t x hi
      refine ⟨w, v, k1, tensorAt_item2 ?_ k2, tensorAt_item2 ?_ k3⟩
      · rw [getAttr_setAttr, if_neg (by decide), getAttr_setAttr, if_pos rfl]
      · rw [getAttr_setAttr, if_pos rfl]

/-! ### A concrete run -/

namespace ExHessian

/-- Inverses of one-by-one matrices. -/
def lib : Lib Rat := ⟨ExEkfac.lib.eigh, fun x => if x.shape = [1, 1] then .ok (Tensor.ofFn2 x.dev 1 1 fun _ _ => 1 / x.el [0, 0]) else .error .runtimeError⟩

def nm : PyStr := ['f', 'c']
def batch : StatCall Rat := ⟨none, nm, .grad, ⟨.cpu, [2, 1], [1, 3], rfl⟩, none, false⟩

/-- Covariance 5; the inverse with damping 5 is 1/10, and so is the one with damping 15 afterwards. -/
theorem run : ∃ s s₁ s₂ i₁ i₂, runOps lib .init [.update .covariance batch, .finalize ⟨[], none⟩] = .ok s ∧ s.hasAttr nInverse = false ∧
    Spec.tensorAt s.attrs nCov [nm, LogType.name .grad] = some ⟨.cpu, [1, 1], [5], rfl⟩ ∧
    s.getCovarianceInverse lib (some 5) = .ok (s₁, i₁) ∧ item2 i₁ nm (LogType.name .grad) = .ok (some (.tensor ⟨.cpu, [1, 1], [1 / 10], rfl⟩)) ∧
    s₁.getCovarianceInverse lib (some 15) = .ok (s₂, i₂) ∧
    item2 i₂ nm (LogType.name .grad) = .ok (some (.tensor ⟨.cpu, [1, 1], [1 / 10], rfl⟩)) := by
  have key : ((runOps lib .init [.update .covariance batch, .finalize ⟨[], none⟩]).toOption.bind fun s =>
      (s.getCovarianceInverse lib (some 5)).toOption.bind fun p => (p.1.getCovarianceInverse lib (some 15)).toOption.bind fun q =>
      (item2 p.2 nm (LogType.name .grad)).toOption.bind fun v => (item2 q.2 nm (LogType.name .grad)).toOption.bind fun w =>
      some (s.hasAttr nInverse, Spec.tensorAt s.attrs nCov [nm, LogType.name .grad], v, w)) =
      some (false, some ⟨.cpu, [1, 1], [5], rfl⟩, some (.tensor ⟨.cpu, [1, 1], [1 / 10], rfl⟩), some (.tensor ⟨.cpu, [1, 1], [1 / 10], rfl⟩)) := by
    decide +kernel
  have ofOpt : ∀ {α : Type} {x : Py α} {a : α}, x.toOption = some a → x = .ok a := by
    intro α x a h
    cases x with
    | ok b => cases h; rfl
    | error e => cases h
  obtain ⟨s, hs, key⟩ := Option.bind_eq_some_iff.1 key
  obtain ⟨⟨s₁, i₁⟩, h₁, key⟩ := Option.bind_eq_some_iff.1 key
  obtain ⟨⟨s₂, i₂⟩, h₂, key⟩ := Option.bind_eq_some_iff.1 key
  obtain ⟨v, h₃, key⟩ := Option.bind_eq_some_iff.1 key
  obtain ⟨w, h₄, key⟩ := Option.bind_eq_some_iff.1 key
  simp only [Option.some.injEq, Prod.mk.injEq] at key
  obtain ⟨k1, k2, rfl, rfl⟩ := key
  exact ⟨s, s₁, s₂, i₁, i₂, ofOpt hs, k1, k2, ofOpt h₁, ofOpt h₃, ofOpt h₂, ofOpt h₄⟩

/-- The hypotheses of the theorems on the eigendecomposition are met: it is asked for once, then the covariance changes. -/
example : ((runOps ExEkfac.lib .init (ExEkfac.calls.map fun pc => .update pc.1 pc.2)).toOption.bind fun s =>
    (s.getCovarianceSvd ExEkfac.lib).toOption.bind fun p => (runOps ExEkfac.lib p.1 [.update .covariance ExEkfac.fwd, .finalize ⟨[], none⟩]).toOption.bind
      fun s₁ => some (s.hasAttr nEigvec, s.hasAttr nEigval, (Spec.tensorAt s.attrs nCov [ExEkfac.nm, LogType.name .forward]).isSome, p.1.hasAttr nEigvec,
        decide (Spec.tensorAt s₁.attrs nCov [ExEkfac.nm, LogType.name .forward] = Spec.tensorAt s.attrs nCov [ExEkfac.nm, LogType.name .forward]))) =
    some (false, false, true, true, false) := by
  decide +kernel

end ExHessian

/-- **C42** is false: two requests with different dampings, and the second does not get the inverse with its own damping. -/
theorem C42_refuted : ¬ (∀ (L : Lib Rat) (ops : List (StateOp Rat)) (s s' : LState Rat) (d : Rat) (inv : StateDict Rat) (m t : PyStr)
    (x i : Tensor Rat), runOps L .init ops = .ok s → s.getCovarianceInverse L (some d) = .ok (s', inv) →
      Spec.tensorAt s.attrs nCov [m, t] = some x → item2 inv m t = .ok (some (.tensor i)) →
      L.inverse (Tensor.ofFn2 x.dev (x.size 0) (x.size 0) fun a b => x.el [a, b] + if a = b then d else 0) = .ok i) := by
  intro H
  obtain ⟨s, s₁, s₂, i₁, i₂, hs, h1, h2, h3, h4, h5, h6⟩ := ExHessian.run
  have hs₁ : runOps ExHessian.lib .init [.update .covariance ExHessian.batch, .finalize ⟨[], none⟩, .inverse (some 5)] = .ok s₁ := by
    have app : ∀ (ops : List (StateOp Rat)) (o : StateOp Rat) (a b c : LState Rat), runOps ExHessian.lib a ops = .ok b →
        stepOp ExHessian.lib b o = .ok c → runOps ExHessian.lib a (ops ++ [o]) = .ok c := by
      intro ops
      induction ops with
      | nil => intro o a b c hab hbc; cases hab; simp only [List.nil_append, runOps, hbc]
      | cons q rest ih =>
        intro o a b c hab hbc
        simp only [List.cons_append, runOps] at hab ⊢
        split at hab
        · cases hab
        · exact ih o _ b c hab hbc
    exact app _ _ _ _ _ hs (by show (s.getCovarianceInverse _ _).map Prod.fst = _; rw [h3]; rfl)
  have hcov : Spec.tensorAt s₁.attrs nCov [ExHessian.nm, LogType.name .grad] = some ⟨.cpu, [1, 1], [5], rfl⟩ := by
    rw [← h2]
    unfold Spec.tensorAt
    rw [(getCovarianceInverse_frame _ h3).2 nCov (by decide)]
  have := H _ _ _ _ _ _ _ _ _ _ hs₁ h5 hcov h6
  have := congrArg Except.toOption this
  revert this
  decide +kernel

end Logix
