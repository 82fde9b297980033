/-
The registries of `LogIXState` along every sequence of operations.
-/
import Verif.Props.Psd

namespace Logix
variable {K : Type}

/-- The names registered by `__init__`. -/
def baseNames : List PyStr := [nMean, nMeanCounter, nCov, nCovCounter, nModelModule]

/-- The registries fit the attributes. -/
structure Reg (s : LState K) : Prop where
  attrs : ∀ n, n ∈ s.states ↔ (Dict.get? s.attrs n).isSome = true
  save : ∀ n ∈ s.toSave, n ∈ s.states
  pairs : ∀ p ∈ s.toNormalize, p.1 ∈ s.states ∧ p.2 ∈ s.states
  base : ∀ n ∈ baseNames, n ∈ s.states
  saved : nMean ∈ s.toSave ∧ nCov ∈ s.toSave ∧ nModelModule ∈ s.toSave
  keep : s.notClear = [nModelModule]
  eig : nEigvec ∈ s.states → nEigval ∈ s.states
  nosave : nMeanCounter ∉ s.toSave ∧ nCovCounter ∉ s.toSave ∧ nEkfacCounter ∉ s.toSave

theorem reg_init : Reg (LState.init : LState K) := by
  have h1 : (LState.init : LState K).states = baseNames := rfl
  have h2 : (LState.init : LState K).toSave = [nMean, nCov, nModelModule] := rfl
  have h3 : (LState.init : LState K).toNormalize = basePairs := rfl
  have h4 : (LState.init : LState K).attrs = baseNames.map fun n => (n, []) := rfl
  refine ⟨fun n => ?_, ?_, ?_, ?_, ?_, rfl, ?_, ?_⟩
  · rw [Dict.get?_isSome_iff, h1, h4]
    unfold Dict.keys
    rw [List.map_map]
    show _ ↔ n ∈ baseNames.map id
    rw [List.map_id]
  · rw [h1, h2]; decide
  · rw [h1, h3]; decide
  · rw [h1]; exact fun n hn => hn
  · rw [h2]; decide
  · rw [h1]; decide
  · rw [h2]; decide

theorem Reg.set {s : LState K} (h : Reg s) {n : PyStr} (hn : n ∈ s.states) (d : StateDict K) : Reg (s.setAttr n d) := by
  refine ⟨fun n' => ?_, h.save, h.pairs, h.base, h.saved, h.keep, h.eig, h.nosave⟩
  rw [get?_setAttr]
  show n' ∈ s.states ↔ _
  split
  · next hnn => subst hnn; simp [hn]
  · exact h.attrs n'

theorem Reg.mem {s : LState K} (h : Reg s) {n : PyStr} {d : StateDict K} (hn : s.getAttr n = .ok d) : n ∈ s.states :=
  (h.attrs n).2 (by rw [getAttr_eq.1 hn]; rfl)

theorem Reg.reg {s : LState K} (h : Reg s) (n : PyStr) (a b : Bool) (he : n = nEigvec → nEigval ∈ s.states)
    (hb : b = true → n ≠ nEkfacCounter) : Reg (s.registerState n a b false) := by
  unfold LState.registerState
  split
  · exact h
  · next hn =>
    refine ⟨fun n' => ?_, fun n' hn' => ?_, fun p hp => ?_, fun n' hn' => ?_, ?_, ?_, ?_, ?_⟩
    · show n' ∈ s.states ++ [n] ↔ (Dict.get? (Dict.set s.attrs n []) n').isSome = true
      rw [Dict.get?_set]
      split
      · next hnn => subst hnn; simp
      · next hnn => rw [List.mem_append, List.mem_singleton, h.attrs n']; simp [Ne.symm hnn]
    · have hn' : n' ∈ if b = true then s.toSave ++ [n] else s.toSave := hn'
      show n' ∈ s.states ++ [n]
      split at hn'
      · rcases List.mem_append.1 hn' with h1 | h1
        · exact List.mem_append_left _ (h.save n' h1)
        · exact List.mem_append_right _ h1
      · exact List.mem_append_left _ (h.save n' hn')
    · exact ⟨List.mem_append_left _ (h.pairs p hp).1, List.mem_append_left _ (h.pairs p hp).2⟩
    · exact List.mem_append_left _ (h.base n' hn')
    · show nMean ∈ (if b = true then s.toSave ++ [n] else s.toSave) ∧ nCov ∈ (if b = true then s.toSave ++ [n] else s.toSave) ∧
        nModelModule ∈ (if b = true then s.toSave ++ [n] else s.toSave)
      split
      · exact ⟨List.mem_append_left _ h.saved.1, List.mem_append_left _ h.saved.2.1, List.mem_append_left _ h.saved.2.2⟩
      · exact h.saved
    · exact h.keep
    · intro hv
      rcases List.mem_append.1 hv with h1 | h1
      · exact List.mem_append_left _ (h.eig h1)
      · exact List.mem_append_left _ (he (List.mem_singleton.1 h1).symm)
    · show nMeanCounter ∉ (if b = true then s.toSave ++ [n] else s.toSave) ∧ nCovCounter ∉ (if b = true then s.toSave ++ [n] else s.toSave) ∧
        nEkfacCounter ∉ (if b = true then s.toSave ++ [n] else s.toSave)
      split
      · next hbt =>
        have k1 : nMeanCounter ≠ n := by rintro rfl; exact hn (h.base _ (by decide))
        have k2 : nCovCounter ≠ n := by rintro rfl; exact hn (h.base _ (by decide))
        simp [h.nosave, k1, k2, (hb hbt).symm]
      · exact h.nosave

theorem registerState_mem (s : LState K) (n : PyStr) (a b c : Bool) : n ∈ (s.registerState n a b c).states := by
  unfold LState.registerState
  split
  · next h => exact h
  · exact List.mem_append_right _ (List.mem_singleton.2 rfl)

theorem registerState_mono (s : LState K) (n : PyStr) (a b c : Bool) {n' : PyStr} (h : n' ∈ s.states) : n' ∈ (s.registerState n a b c).states := by
  unfold LState.registerState
  split
  · exact h
  · exact List.mem_append_left _ h

theorem Reg.pair {s : LState K} (h : Reg s) {a b : PyStr} (ha : a ∈ s.states) (hb : b ∈ s.states) : Reg (s.registerNormalizePair a b) := by
  unfold LState.registerNormalizePair
  split
  · exact h
  · refine ⟨h.attrs, h.save, fun p hp => ?_, h.base, h.saved, h.keep, h.eig, h.nosave⟩
    rcases List.mem_append.1 hp with h1 | h1
    · exact h.pairs p h1
    · rw [List.mem_singleton.1 h1]; exact ⟨ha, hb⟩

theorem Reg.svd {L : Lib K} {s s' : LState K} (hr : Reg s) (h : s.covarianceSvd L = .ok s') : Reg s' := by
  unfold LState.covarianceSvd at h
  simp only at h
  split at h
  · next cov vals vecs h1 h2 h3 =>
    split at h
    · cases h
    · cases h
      have r1 := hr.reg nEigval false true (fun he => absurd he (by decide)) (by decide)
      have r2 := r1.reg nEigvec false true (fun _ => registerState_mem _ _ _ _ _) (by decide)
      exact (r2.set (registerState_mono _ _ _ _ _ (registerState_mem s nEigval _ _ _)) _).set (registerState_mem _ _ _ _ _) _
  · cases h

theorem Reg.inverse [Field K] {L : Lib K} {s s' : LState K} {damping : Option K} (hr : Reg s) (h : s.covarianceInverse L damping = .ok s') :
    Reg s' := by
  unfold LState.covarianceInverse at h
  simp only at h
  split at h
  · split at h
    · cases h
    · cases h
      exact (hr.reg nInverse false true (fun he => absurd he (by decide)) (by decide)).set (registerState_mem _ _ _ _ _) _
  · cases h

theorem Reg.prepare {L : Lib K} {s s' : LState K} (hr : Reg s) (h : ekfacPrepare L s = .ok s') : Reg s' := by
  unfold ekfacPrepare at h
  split at h
  · cases h; exact hr
  · split at h
    · cases h
    · next s1 hs1 =>
      cases h
      have r1 := (hr.svd hs1).reg nEkfac true true (fun he => absurd he (by decide)) (by decide)
      have r2 := r1.reg nEkfacCounter true false (fun he => absurd he (by decide)) (by decide)
      exact r2.pair (registerState_mono _ _ _ _ _ (registerState_mem _ _ _ _ _)) (registerState_mem _ _ _ _ _)

theorem Reg.stat [Semiring K] {st cn : PyStr} {z : Nat → List Nat} {acc : Tensor K → Tensor K → Py (Tensor K)}
    {term : (Nat → K) → List Nat → K} (A : AccSpec z acc term) {s s' : LState K} {c : StatCall K} (hr : Reg s)
    (h : statUpdate st cn z acc s c = .ok s') : Reg s' := by
  obtain ⟨d1, e1, t0, n0, t, hd1, he1, hcase, hs0, hst, hdv, hval, e', he', hn', hs'⟩ := statUpdate_ok A h
  rw [hs']
  exact (hr.set (hr.mem hd1) _).set (hr.mem he1) _

theorem Reg.plugin [Semiring K] {L : Lib K} {p : Plugin} {s s' : LState K} {c : StatCall K} (hr : Reg s) (h : pluginUpdate L p s c = .ok s') :
    Reg s' := by
  cases p with
  | log => cases h; exact hr
  | mean => exact hr.stat meanAcc h
  | variance => exact hr.stat meanAcc h
  | covariance => exact hr.stat covAcc h
  | correctedEigval =>
    obtain ⟨s1, vecs, vals, ek, cn, t, cn', ef, eb, t', x, h0, -, -, h3, h4, -, -, -, -, -, hs⟩ := correctedEigval_ok L h
    subst hs
    have r := hr.prepare h0
    exact (r.set (r.mem h3) _).set (r.mem h4) _

theorem Reg.updates [Semiring K] {L : Lib K} : ∀ {calls : List (Plugin × StatCall K)} {s s' : LState K}, Reg s →
    Logix.updates L s calls = .ok s' → Reg s' := by
  intro calls
  induction calls with
  | nil => intro s s' hr h; cases h; exact hr
  | cons pc rest ih =>
    intro s s' hr h
    unfold Logix.updates at h
    split at h
    · cases h
    · next s1 hs1 => exact ih (hr.plugin hs1) h

theorem Reg.normalizePairs [Field K] : ∀ {pairs : List (PyStr × PyStr)} {s s' : LState K}, Reg s → Logix.normalizePairs s pairs = .ok s' → Reg s' := by
  intro pairs
  induction pairs with
  | nil => intro s s' hr h; cases h; exact hr
  | cons a rest ih =>
    intro s s' hr h
    unfold Logix.normalizePairs at h
    split at h
    · next d e hd he =>
      split at h
      · cases h
      · exact ih (hr.set (hr.mem hd) _) h
    · cases h

theorem Reg.finalize [Field K] {s s' : LState K} {dir dir' : StateDir K} (hr : Reg s) (h : s.finalize dir = .ok (s', dir')) : Reg s' :=
  hr.normalizePairs (finalize_ok h).1

theorem Reg.clearNames : ∀ {names : List PyStr} {s s' : LState K}, Reg s → Logix.clearNames s names = .ok s' → Reg s' := by
  intro names
  induction names with
  | nil => intro s s' hr h; cases h; exact hr
  | cons a rest ih =>
    intro s s' hr h
    unfold Logix.clearNames at h
    split at h
    · exact ih hr h
    · split at h
      · cases h
      · next d hd => exact ih (hr.set (hr.mem hd) _) h

/-- Clearing registered states succeeds. -/
theorem Reg.clear_succ : ∀ {names : List PyStr} {s : LState K}, Reg s → (∀ n ∈ names, n ∈ s.states) → ∃ s', Logix.clearNames s names = .ok s' := by
  intro names
  induction names with
  | nil => intro s _ _; exact ⟨s, rfl⟩
  | cons a rest ih =>
    intro s hr hn
    unfold Logix.clearNames
    split
    · exact ih hr fun n h => hn n (List.mem_cons_of_mem _ h)
    · have ha := hn a List.mem_cons_self
      obtain ⟨d, hd⟩ := Option.isSome_iff_exists.1 ((hr.attrs a).1 ha)
      rw [getAttr_eq.2 hd]
      exact ih (hr.set ha _) fun n h => hn n (List.mem_cons_of_mem _ h)

theorem Reg.step [Field K] {L : Lib K} {s s' : LState K} {o : StateOp K} (hr : Reg s) (h : stepOp L s o = .ok s') : Reg s' := by
  cases o with
  | update p c => exact hr.plugin (show pluginUpdate L p s c = .ok s' from h)
  | finalize dir =>
    obtain ⟨⟨a, b⟩, h1, h2⟩ := Except.map_ok h
    subst h2
    exact hr.finalize h1
  | clear => exact hr.clearNames h
  | inverse damping =>
    obtain ⟨⟨a, b⟩, h1, h2⟩ := Except.map_ok h
    subst h2
    unfold LState.getCovarianceInverse at h1
    split at h1
    · cases h1
    · next s1 hs1 =>
      split at h1
      · cases h1
      · cases h1
        split at hs1
        · cases hs1; exact hr
        · exact hr.inverse hs1
  | svd =>
    obtain ⟨⟨a, b⟩, h1, h2⟩ := Except.map_ok h
    subst h2
    unfold LState.getCovarianceSvd at h1
    split at h1
    · cases h1
    · next s1 hs1 =>
      cases h1
      split at hs1
      · cases hs1; exact hr
      · exact hr.svd hs1

theorem Reg.run [Field K] {L : Lib K} : ∀ {ops : List (StateOp K)} {s s' : LState K}, Reg s → runOps L s ops = .ok s' → Reg s' := by
  intro ops
  induction ops with
  | nil => intro s s' hr h; cases h; exact hr
  | cons o rest ih =>
    intro s s' hr h
    unfold runOps at h
    split at h
    · cases h
    · next s1 hs1 => exact ih (hr.step hs1) h

theorem NormReg.run [Field K] {L : Lib K} : ∀ {ops : List (StateOp K)} {s s' : LState K}, NormReg s → runOps L s ops = .ok s' → NormReg s' := by
  intro ops
  induction ops with
  | nil => intro s s' hr h; cases h; exact hr
  | cons o rest ih =>
    intro s s' hr h
    unfold runOps at h
    split at h
    · cases h
    · next s1 hs1 => exact ih (hr.step hs1) h

/-! ### Saving -/

/-- The files after saving. -/
theorem saveStates_get {s : LState K} : ∀ {names : List PyStr} {fs fs' : Dict PyStr (StateDict K)}, saveStates s names fs = .ok fs' →
    ∀ n, Dict.get? fs' n = if n ∈ names then Dict.get? s.attrs n else Dict.get? fs n := by
  intro names
  induction names with
  | nil => intro fs fs' h n; cases h; simp
  | cons a rest ih =>
    intro fs fs' h n
    unfold saveStates at h
    split at h
    · cases h
    · next d hd =>
      rw [ih h n, Dict.get?_set]
      by_cases hna : a = n
      · subst hna; simp [getAttr_eq.1 hd]
      · simp [hna, Ne.symm hna]

theorem saveStates_succ {s : LState K} : ∀ {names : List PyStr}, (∀ n ∈ names, (Dict.get? s.attrs n).isSome = true) →
    ∀ fs, ∃ fs', saveStates s names fs = .ok fs' := by
  intro names
  induction names with
  | nil => intro _ fs; exact ⟨fs, rfl⟩
  | cons a rest ih =>
    intro h fs
    obtain ⟨d, hd⟩ := Option.isSome_iff_exists.1 (h a List.mem_cons_self)
    unfold saveStates
    rw [getAttr_eq.2 hd]
    exact ih (fun n hn => h n (List.mem_cons_of_mem _ hn)) _

theorem Reg.save_succ {s : LState K} (hr : Reg s) (dir : StateDir K) : ∃ dir', s.saveState dir = .ok dir' := by
  obtain ⟨fs, hfs⟩ := saveStates_succ (s := s) (names := s.toSave) (fun n hn => (hr.attrs n).1 (hr.save n hn)) dir.files
  unfold LState.saveState
  rw [hfs]
  exact ⟨_, rfl⟩

theorem item2_of_tensorAt [Semiring K] {attrs : Dict PyStr (StateDict K)} {n m t : PyStr} {x : Tensor K}
    (h : Spec.tensorAt attrs n [m, t] = some x) : ∃ d, Dict.get? attrs n = some d ∧ item2 d m t = .ok (some (.tensor x)) := by
  unfold Spec.tensorAt at h
  cases hd : Dict.get? attrs n with
  | none => rw [hd] at h; cases h
  | some d =>
    rw [hd] at h
    refine ⟨d, rfl, ?_⟩
    simp only [Nested.lookup] at h
    unfold item2
    cases hm : Dict.get? d m with
    | none => rw [hm] at h; cases h
    | some v =>
      rw [hm] at h
      cases v with
      | leaf a => simp [Nested.lookup] at h
      | node sub =>
        simp only [Nested.lookup] at h ⊢
        cases ht : Dict.get? sub t with
        | none => rw [ht] at h; cases h
        | some w =>
          rw [ht] at h
          cases w with
          | node _ => simp [Nested.lookup] at h
          | leaf a =>
            simp only [Nested.lookup] at h ⊢
            cases a with
            | tensor y => simp only [Option.some.injEq] at h; rw [h]
            | num _ => cases h
            | paths _ => cases h
            | dims _ => cases h

end Logix
