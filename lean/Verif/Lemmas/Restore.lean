/-
Influence computations in two states that hold the same dictionaries but may have registered different names.
-/
import Verif.Lemmas.View
import Verif.Props.Load

namespace Logix
variable {K : Type}

/-- The attributes that influence computations read. -/
def readNames : List PyStr := [nCov, nModelModule, nEkfac, nEigval, nEigvec, nInverse]

/-- The same dictionaries; and whatever is computed on demand starts from the same. -/
structure Sim (s u : LState K) : Prop where
  get : ∀ n ∈ readNames, Dict.get? u.attrs n = Dict.get? s.attrs n
  eig : ((Dict.get? s.attrs nEigval).isSome = true ∧ (Dict.get? s.attrs nEigvec).isSome = true) ∨
    (regD u nEigval = regD s nEigval ∧ regD u nEigvec = regD s nEigvec)
  inv : (Dict.get? s.attrs nInverse).isSome = true ∨ regD u nInverse = regD s nInverse

theorem Sim.eigD {L : Lib K} {s u : LState K} (h : Sim s u) : eigD L u = eigD L s := by
  unfold Logix.eigD
  rw [h.get nEigval (by decide), h.get nEigvec (by decide), h.get nCov (by decide)]
  rcases h.eig with ⟨h1, h2⟩ | ⟨h1, h2⟩
  · obtain ⟨a, ha⟩ := Option.isSome_iff_exists.1 h1
    obtain ⟨b, hb⟩ := Option.isSome_iff_exists.1 h2
    rw [ha, hb]
  · rw [h1, h2]

theorem Sim.invD [Field K] {L : Lib K} {s u : LState K} (h : Sim s u) (c : Option K) : invD L u c = invD L s c := by
  unfold Logix.invD
  rw [h.get nInverse (by decide), h.get nCov (by decide)]
  rcases h.inv with h1 | h1
  · obtain ⟨a, ha⟩ := Option.isSome_iff_exists.1 h1
    rw [ha]
  · rw [h1]

/-- The same result or the same error, and similar states after. -/
def SimOut {α : Type} (x y : Py (LState K × α)) : Prop :=
  (∃ e, x = .error e ∧ y = .error e) ∨ ∃ s₁ s₂ a, x = .ok (s₁, a) ∧ y = .ok (s₂, a) ∧ Sim s₁ s₂

theorem SimOut.map {α β : Type} {x y : Py (LState K × α)} (h : SimOut x y) (f : α → β) :
    SimOut (x.map fun r => (r.1, f r.2)) (y.map fun r => (r.1, f r.2)) := by
  rcases h with ⟨e, rfl, rfl⟩ | ⟨s₁, s₂, a, rfl, rfl, h⟩
  · exact .inl ⟨e, rfl, rfl⟩
  · exact .inr ⟨s₁, s₂, f a, rfl, rfl, h⟩

theorem precondition_sim [Field K] {L : Lib K} {s u : LState K} (h : Sim s u) (src : LogArg K) (hessian : Hess) (damping : Option K) :
    SimOut (precondition L s src hessian damping) (precondition L u src hessian damping) := by
  unfold precondition
  split
  · exact .inl ⟨_, rfl, rfl⟩
  · cases src with
    | flat t => exact .inl ⟨_, rfl, rfl⟩
    | dict d =>
      simp only
      rw [getAttr_congr (h.get nCov (by decide))]
      cases s.getAttr nCov with
      | error e => exact .inl ⟨_, rfl, rfl⟩
      | ok cov =>
        simp only
        split
        · exact .inr ⟨_, _, _, rfl, rfl, h⟩
        · cases usesRaw cov d hessian with
          | error e => exact .inl ⟨_, rfl, rfl⟩
          | ok raw =>
            cases raw with
            | true =>
              simp only [if_true]
              unfold preconditionRaw
              obtain ⟨v1, v2⟩ := inv_view L s damping
              obtain ⟨w1, w2⟩ := inv_view L u damping
              rw [h.invD] at w1 w2
              cases hi : invD L s damping with
              | error e => rw [v1 e hi, w1 e hi]; exact .inl ⟨_, rfl, rfl⟩
              | ok inv =>
                obtain ⟨s₁, a1, a2, a3⟩ := v2 inv hi
                obtain ⟨u₁, b1, b2, b3⟩ := w2 inv hi
                rw [a1, b1]
                simp only
                cases rawLoop inv [] d with
                | error e => exact .inl ⟨_, rfl, rfl⟩
                | ok out =>
                  refine .inr ⟨s₁, u₁, _, rfl, rfl, fun n hn => ?_, ?_, .inl (by rw [a2]; rfl)⟩
                  · by_cases hni : n = nInverse
                    · subst hni; rw [a2, b2]
                    · rw [(a3 n hni).1, (b3 n hni).1]; exact h.get n hn
                  · rw [(a3 nEigval (by decide)).1, (a3 nEigvec (by decide)).1, (a3 nEigval (by decide)).2, (a3 nEigvec (by decide)).2,
                      (b3 nEigval (by decide)).2, (b3 nEigvec (by decide)).2]
                    exact h.eig
            | false =>
              simp only [Bool.false_eq_true, if_false]
              unfold preconditionKfac
              obtain ⟨v1, v2⟩ := svd_view L s
              obtain ⟨w1, w2⟩ := svd_view L u
              rw [h.eigD] at w1 w2
              cases hi : eigD L s with
              | error e => rw [v1 e hi, w1 e hi]; exact .inl ⟨_, rfl, rfl⟩
              | ok ab =>
                obtain ⟨vals, vecs⟩ := ab
                obtain ⟨s₁, a1, a2, a3, a4⟩ := v2 vals vecs hi
                obtain ⟨u₁, b1, b2, b3, b4⟩ := w2 vals vecs hi
                have hek : u.hasAttr nEkfac = s.hasAttr nEkfac := by unfold LState.hasAttr; rw [h.get nEkfac (by decide)]
                rw [a1, b1, hek]
                simp only
                have hsame : ∀ n ∈ readNames, Dict.get? u₁.attrs n = Dict.get? s₁.attrs n := by
                  intro n hn
                  by_cases h1 : n = nEigval
                  · subst h1; rw [a2, b2]
                  · by_cases h2 : n = nEigvec
                    · subst h2; rw [a3, b3]
                    · rw [(a4 n h1 h2).1, (b4 n h1 h2).1]; exact h.get n hn
                have key : ∀ n ∈ [nEkfac, nEigval], SimOut (match (match s₁.getAttr n, s₁.getAttr nEigvec with
                    | .ok vals, .ok vecs =>
                      match kfacLoop vecs damping vals [] d with
                      | .error e => .error e
                      | .ok (vals, out) => .ok (s₁.setAttr n vals, out)
                    | _, _ => .error .attributeError : Py (LState K × GLog K)) with
                      | .error e => .error e
                      | .ok (s, out) => .ok (s, LogArg.dict out)) (match (match u₁.getAttr n, u₁.getAttr nEigvec with
                    | .ok vals, .ok vecs =>
                      match kfacLoop vecs damping vals [] d with
                      | .error e => .error e
                      | .ok (vals, out) => .ok (u₁.setAttr n vals, out)
                    | _, _ => .error .attributeError : Py (LState K × GLog K)) with
                      | .error e => .error e
                      | .ok (s, out) => .ok (s, LogArg.dict out)) := by
                  intro n hn
                  rw [getAttr_congr (hsame n (by revert n; decide)), getAttr_congr (hsame nEigvec (by decide))]
                  cases s₁.getAttr n with
                  | error e => exact .inl ⟨_, rfl, rfl⟩
                  | ok x =>
                    cases s₁.getAttr nEigvec with
                    | error e => exact .inl ⟨_, rfl, rfl⟩
                    | ok y =>
                      simp only
                      cases kfacLoop y damping x [] d with
                      | error e => exact .inl ⟨_, rfl, rfl⟩
                      | ok vo =>
                        obtain ⟨x', out⟩ := vo
                        refine .inr ⟨_, _, _, rfl, rfl, fun k hk => ?_, .inl ⟨?_, ?_⟩, ?_⟩
                        · rw [get?_setAttr, get?_setAttr, hsame k hk]
                        · rw [get?_setAttr]
                          split
                          · rfl
                          · rw [a2]; rfl
                        · rw [get?_setAttr]
                          split
                          · rfl
                          · rw [a3]; rfl
                        · have hne : n ≠ nInverse := by
                            rintro rfl
                            revert hn; decide
                          have hr : ∀ t : LState K, regD (t.setAttr n x') nInverse = regD t nInverse := by
                            intro t
                            unfold regD
                            rw [get?_setAttr, if_neg hne]; rfl
                          rw [get?_setAttr, if_neg hne, hr, hr, (a4 nInverse (by decide) (by decide)).1, (a4 nInverse (by decide) (by decide)).2,
                            (b4 nInverse (by decide) (by decide)).2]
                          exact h.inv
                cases s.hasAttr nEkfac with
                | true => exact key nEkfac (by decide)
                | false => exact key nEigval (by decide)

theorem pre_sim [Field K] {L : Lib K} {s u : LState K} (h : Sim s u) (pre : Bool) (src : LogArg K) (hessian : Hess) (damping : Option K) :
    SimOut (if pre then precondition L s src hessian damping else .ok (s, src)) (if pre then precondition L u src hessian damping else .ok (u, src)) := by
  cases pre with
  | true => exact precondition_sim h src hessian damping
  | false => exact .inr ⟨s, u, src, rfl, rfl, h⟩

theorem computeSelf_sim [Field K] {L : Lib K} {s u : LState K} (h : Sim s u) (ids : List PyStr) (src : LogArg K) (pre : Bool)
    (hessian : Hess) (groups : Option (List PyStr)) (damping : Option K) :
    SimOut (computeSelf L s ids src pre hessian groups damping) (computeSelf L u ids src pre hessian groups damping) := by
  unfold computeSelf
  cases src with
  | flat t => exact .inl ⟨_, rfl, rfl⟩
  | dict d =>
    simp only
    rcases pre_sim h pre (.dict d) hessian damping with ⟨e, e1, e2⟩ | ⟨s₁, s₂, o, e1, e2, e3⟩
    · rw [e1, e2]
      exact .inl ⟨e, rfl, rfl⟩
    · rw [e1, e2]
      cases o with
      | flat t => exact .inl ⟨_, rfl, rfl⟩
      | dict p =>
        simp only
        cases selfLoop groups p d (initScores (groups.getD [])) with
        | error e => exact .inl ⟨_, rfl, rfl⟩
        | ok sc =>
          simp only
          cases checkScores [ids.length] sc with
          | error e => exact .inl ⟨_, rfl, rfl⟩
          | ok sc =>
            simp only
            cases finishScores groups sc with
            | error e => exact .inl ⟨_, rfl, rfl⟩
            | ok inf => exact .inr ⟨_, _, _, rfl, rfl, e3⟩

theorem computeInfluence_sim [Field K] {L : Lib K} {s u : LState K} (h : Sim s u) (sqrt : K → K) (srcIds tgtIds : List PyStr)
    (src tgt : LogArg K) (mode : Mode) (pre : Bool) (hessian : Hess) (groups : Option (List PyStr)) (damping : Option K) :
    SimOut (computeInfluence L sqrt s srcIds src tgtIds tgt mode pre hessian groups damping)
      (computeInfluence L sqrt u srcIds src tgtIds tgt mode pre hessian groups damping) := by
  unfold computeInfluence
  split
  · exact .inl ⟨_, rfl, rfl⟩
  · rcases pre_sim h pre src hessian damping with ⟨e, e1, e2⟩ | ⟨s₁, s₂, o, e1, e2, e3⟩
    · rw [e1, e2]
      exact .inl ⟨e, rfl, rfl⟩
    · rw [e1, e2]
      simp only
      have hraw : rawScores s₂ o tgt groups = rawScores s₁ o tgt groups := by
        unfold rawScores
        rw [getAttr_congr (e3.get nModelModule (by decide))]
      rw [hraw]
      cases rawScores s₁ o tgt groups with
      | error e => exact .inl ⟨_, rfl, rfl⟩
      | ok st =>
        obtain ⟨sc, t⟩ := st
        simp only
        have hm : SimOut (modeScores L sqrt s₁ tgtIds t mode hessian groups damping sc) (modeScores L sqrt s₂ tgtIds t mode hessian groups damping sc) := by
          unfold modeScores
          split
          · exact .inr ⟨_, _, _, rfl, rfl, e3⟩
          · rcases computeSelf_sim (L := L) e3 tgtIds t true hessian groups damping with ⟨e, f1, f2⟩ | ⟨x₁, x₂, r, f1, f2, f3⟩
            · rw [f1, f2]; exact .inl ⟨e, rfl, rfl⟩
            · rw [f1, f2]
              simp only
              cases applyNorm (if mode = .cosine then fun x y => x / sqrt y else fun x y => x - 1 / 2 * y) r.influence sc with
              | error e => exact .inl ⟨_, rfl, rfl⟩
              | ok sc => exact .inr ⟨_, _, _, rfl, rfl, f3⟩
        rcases hm with ⟨e, f1, f2⟩ | ⟨x₁, x₂, r, f1, f2, f3⟩
        · rw [f1, f2]; exact .inl ⟨e, rfl, rfl⟩
        · rw [f1, f2]
          simp only
          cases checkScores [srcIds.length, tgtIds.length] r with
          | error e => exact .inl ⟨_, rfl, rfl⟩
          | ok sc =>
            simp only
            cases finishScores groups sc with
            | error e => exact .inl ⟨_, rfl, rfl⟩
            | ok inf => exact .inr ⟨_, _, _, rfl, rfl, f3⟩

theorem serve_sim [Field K] {L : Lib K} {s u : LState K} (h : Sim s u) (sqrt : K → K) (c : Spec.Call K) :
    SimOut (Spec.serve L sqrt s c) (Spec.serve L sqrt u c) := by
  cases c with
  | influence srcIds src tgtIds tgt mode pre hessian groups damping =>
    exact (computeInfluence_sim h sqrt srcIds tgtIds src tgt mode pre hessian groups damping).map Sum.inl
  | selfInfluence ids src pre hessian groups damping => exact (computeSelf_sim h ids src pre hessian groups damping).map Sum.inr

/-! ### What is saved of the caches -/

/-- Whatever is computed on demand or fitted is also saved; eigenvalues and eigenvectors come together. -/
structure CacheReg (s : LState K) : Prop where
  pair : nEigval ∈ s.states ↔ nEigvec ∈ s.states
  save : ∀ n ∈ [nEkfac, nEigval, nEigvec, nInverse], n ∈ s.states → n ∈ s.toSave

theorem CacheReg.of_eq {s u : LState K} (h : CacheReg s) (h1 : u.states = s.states) (h2 : u.toSave = s.toSave) : CacheReg u :=
  ⟨by rw [h1]; exact h.pair, by rw [h1, h2]; exact h.save⟩

/-- Registering a state that is saved, or one that is none of these. -/
theorem CacheReg.save_reg {s : LState K} (h : ∀ n ∈ [nEkfac, nEigval, nEigvec, nInverse], n ∈ s.states → n ∈ s.toSave) (k : PyStr) (a b c : Bool)
    (hb : b = true ∨ k ∉ [nEkfac, nEigval, nEigvec, nInverse]) :
    ∀ n ∈ [nEkfac, nEigval, nEigvec, nInverse], n ∈ (s.registerState k a b c).states → n ∈ (s.registerState k a b c).toSave := by
  intro n hn hm
  unfold LState.registerState at hm ⊢
  split
  · next hk => rw [if_pos hk] at hm; exact h n hn hm
  · next hk =>
    rw [if_neg hk] at hm
    have hm : n ∈ s.states ++ [k] := hm
    show n ∈ if b = true then s.toSave ++ [k] else s.toSave
    rcases List.mem_append.1 hm with h1 | h1
    · split
      · exact List.mem_append_left _ (h n hn h1)
      · exact h n hn h1
    · rw [List.mem_singleton] at h1
      subst h1
      rcases hb with rfl | hb
      · simp
      · exact absurd hn hb

theorem states_setAttr (s : LState K) (n : PyStr) (d : StateDict K) : (s.setAttr n d).states = s.states := rfl

theorem CacheReg.svd {L : Lib K} {s s' : LState K} (hr : CacheReg s) (h : s.covarianceSvd L = .ok s') : CacheReg s' := by
  unfold LState.covarianceSvd at h
  simp only at h
  split at h
  · split at h
    · cases h
    · cases h
      refine CacheReg.of_eq (s := (s.registerState nEigval false true false).registerState nEigvec false true false) ⟨?_, ?_⟩ rfl rfl
      · exact ⟨fun _ => registerState_mem _ _ _ _ _, fun _ => registerState_mono _ _ _ _ _ (registerState_mem _ _ _ _ _)⟩
      · exact CacheReg.save_reg (CacheReg.save_reg hr.save _ _ _ _ (.inl rfl)) _ _ _ _ (.inl rfl)
  · cases h

theorem CacheReg.inverse [Field K] {L : Lib K} {s s' : LState K} {damping : Option K} (hr : CacheReg s) (h : s.covarianceInverse L damping = .ok s') :
    CacheReg s' := by
  unfold LState.covarianceInverse at h
  simp only at h
  split at h
  · split at h
    · cases h
    · cases h
      refine CacheReg.of_eq (s := s.registerState nInverse false true false) ⟨?_, ?_⟩ rfl rfl
      · rw [states_registerState _ _ _ _ _ _ (by decide), states_registerState _ _ _ _ _ _ (by decide)]; exact hr.pair
      · exact CacheReg.save_reg hr.save _ _ _ _ (.inl rfl)
  · cases h

theorem CacheReg.prepare {L : Lib K} {s s' : LState K} (hr : CacheReg s) (h : ekfacPrepare L s = .ok s') : CacheReg s' := by
  unfold ekfacPrepare at h
  split at h
  · cases h; exact hr
  · split at h
    · cases h
    · next s1 hs1 =>
      cases h
      have r := hr.svd hs1
      have hp : ∀ (t : LState K) (a b : PyStr), (t.registerNormalizePair a b).states = t.states ∧ (t.registerNormalizePair a b).toSave = t.toSave := by
        intro t a b
        unfold LState.registerNormalizePair
        split <;> exact ⟨rfl, rfl⟩
      refine CacheReg.of_eq ⟨?_, ?_⟩ (hp _ _ _).1 (hp _ _ _).2
      · rw [states_registerState _ _ _ _ _ _ (by decide), states_registerState _ _ _ _ _ _ (by decide), states_registerState _ _ _ _ _ _ (by decide),
          states_registerState _ _ _ _ _ _ (by decide)]
        exact r.pair
      · exact CacheReg.save_reg (CacheReg.save_reg r.save _ _ _ _ (.inl rfl)) _ _ _ _ (.inr (by decide))

theorem CacheReg.stat [Semiring K] {st cn : PyStr} {z : Nat → List Nat} {acc : Tensor K → Tensor K → Py (Tensor K)}
    {term : (Nat → K) → List Nat → K} (A : AccSpec z acc term) {s s' : LState K} {c : StatCall K} (hr : CacheReg s)
    (h : statUpdate st cn z acc s c = .ok s') : CacheReg s' := by
  obtain ⟨d1, e1, t0, n0, t, hd1, he1, hcase, hs0, hst, hdv, hval, e', he', hn', hs'⟩ := statUpdate_ok A h
  rw [hs']
  exact hr.of_eq rfl rfl

theorem CacheReg.plugin [Semiring K] {L : Lib K} {p : Plugin} {s s' : LState K} {c : StatCall K} (hr : CacheReg s) (h : pluginUpdate L p s c = .ok s') :
    CacheReg s' := by
  cases p with
  | log => cases h; exact hr
  | mean => exact hr.stat meanAcc h
  | variance => exact hr.stat meanAcc h
  | covariance => exact hr.stat covAcc h
  | correctedEigval =>
    obtain ⟨s1, vecs, vals, ek, cn, t, cn', ef, eb, t', x, h0, -, -, h3, h4, -, -, -, -, -, hs⟩ := correctedEigval_ok L h
    subst hs
    exact (hr.prepare h0).of_eq rfl rfl

theorem normalizePairs_regs [Field K] : ∀ {pairs : List (PyStr × PyStr)} {s s' : LState K}, normalizePairs s pairs = .ok s' →
    s'.states = s.states ∧ s'.toSave = s.toSave := by
  intro pairs
  induction pairs with
  | nil => intro s s' h; cases h; exact ⟨rfl, rfl⟩
  | cons a rest ih =>
    intro s s' h
    unfold normalizePairs at h
    split at h
    · split at h
      · cases h
      · have h' := ih h
        exact h'
    · cases h

theorem clearNames_regs : ∀ {names : List PyStr} {s s' : LState K}, clearNames s names = .ok s' → s'.states = s.states ∧ s'.toSave = s.toSave := by
  intro names
  induction names with
  | nil => intro s s' h; cases h; exact ⟨rfl, rfl⟩
  | cons a rest ih =>
    intro s s' h
    unfold clearNames at h
    split at h
    · exact ih h
    · split at h
      · cases h
      · have h' := ih h
        exact h'

theorem CacheReg.finalize [Field K] {s s' : LState K} {dir dir' : StateDir K} (hr : CacheReg s) (h : s.finalize dir = .ok (s', dir')) : CacheReg s' :=
  hr.of_eq (normalizePairs_regs (finalize_ok h).1).1 (normalizePairs_regs (finalize_ok h).1).2

theorem CacheReg.step [Field K] {L : Lib K} {s s' : LState K} {o : StateOp K} (hr : CacheReg s) (h : stepOp L s o = .ok s') : CacheReg s' := by
  cases o with
  | update p c => exact hr.plugin (show pluginUpdate L p s c = .ok s' from h)
  | finalize dir =>
    obtain ⟨⟨a, b⟩, h1, h2⟩ := Except.map_ok h
    subst h2
    exact hr.finalize h1
  | clear => exact hr.of_eq (clearNames_regs h).1 (clearNames_regs h).2
  | inverse damping =>
    obtain ⟨⟨a, b⟩, h1, h2⟩ := Except.map_ok h
    subst h2
    unfold LState.getCovarianceInverse at h1
    split at h1
    · cases h1
    · next s1 hs1 =>
      split at h1
      · cases h1
      · cases h1
        split at hs1
        · cases hs1; exact hr
        · exact hr.inverse hs1
  | svd =>
    obtain ⟨⟨a, b⟩, h1, h2⟩ := Except.map_ok h
    subst h2
    unfold LState.getCovarianceSvd at h1
    split at h1
    · cases h1
    · next s1 hs1 =>
      cases h1
      split at hs1
      · cases hs1; exact hr
      · exact hr.svd hs1

theorem CacheReg.run [Field K] {L : Lib K} : ∀ {ops : List (StateOp K)} {s s' : LState K}, CacheReg s → runOps L s ops = .ok s' → CacheReg s' := by
  intro ops
  induction ops with
  | nil => intro s s' hr h; cases h; exact hr
  | cons o rest ih =>
    intro s s' hr h
    unfold runOps at h
    split at h
    · cases h
    · next s1 hs1 => exact ih (hr.step hs1) h

theorem cacheReg_init : CacheReg (LState.init : LState K) := by
  have h1 : (LState.init : LState K).states = baseNames := rfl
  refine ⟨by rw [h1]; decide, ?_⟩
  rw [h1]
  intro n hn hm
  exfalso
  revert n
  decide

/-- A state that was saved, loaded by an instance that has none of the caches. -/
theorem Sim.load [Field K] {s u u' : LState K} {dir dir' : StateDir K} (hr : Reg s) (hc : CacheReg s) (hsave : s.saveState dir = .ok dir')
    (hu : Reg u) (hnone : ∀ n ∈ [nEkfac, nEigval, nEigvec, nInverse], u.hasAttr n = false) (hload : u.loadState dir' = .ok u') : Sim s u' := by
  obtain ⟨u'', h1, h2, -, -, -, h3, -⟩ := saveState_load hsave u
  rw [hload] at h1
  cases h1
  have hst : ∀ n ∈ [nEkfac, nEigval, nEigvec, nInverse], n ∉ u'.states := by
    intro n hn hm
    rw [h3, hu.attrs n] at hm
    have := hnone n hn
    unfold LState.hasAttr at this
    rw [this] at hm
    cases hm
  have hget : ∀ n ∈ readNames, Dict.get? u'.attrs n = Dict.get? s.attrs n := by
    intro n hn
    rw [h2]
    split
    · rfl
    · next hns =>
      have hmem : n ∈ [nEkfac, nEigval, nEigvec, nInverse] := by
        simp only [readNames, List.mem_cons, List.not_mem_nil, or_false] at hn
        rcases hn with rfl | rfl | rfl | rfl | rfl | rfl
        · exact absurd hr.saved.2.1 hns
        · exact absurd hr.saved.2.2 hns
        all_goals decide
      have a1 : Dict.get? u.attrs n = none := by
        have := hnone n hmem
        unfold LState.hasAttr at this
        simpa using this
      have a2 : Dict.get? s.attrs n = none := by
        have : n ∉ s.states := fun hm => hns (hc.save n hmem hm)
        rw [hr.attrs n] at this
        simpa using this
      rw [a1, a2]
  have hreg : ∀ n ∈ [nEkfac, nEigval, nEigvec, nInverse], n ∉ s.states → regD u' n = regD s n := by
    intro n hn hm
    unfold regD
    rw [if_neg hm, if_neg (hst n hn)]
  refine ⟨hget, ?_, ?_⟩
  · by_cases hm : nEigval ∈ s.states
    · exact .inl ⟨(hr.attrs _).1 hm, (hr.attrs _).1 (hc.pair.1 hm)⟩
    · exact .inr ⟨hreg _ (by decide) hm, hreg _ (by decide) fun h => hm (hc.pair.2 h)⟩
  · by_cases hm : nInverse ∈ s.states
    · exact .inl ((hr.attrs _).1 hm)
    · exact .inr (hreg _ (by decide) hm)

end Logix
