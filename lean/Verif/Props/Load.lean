/-
C40, C41, C83: restoring a saved state.
-/
import Verif.Props.Clear
import Verif.Props.Stats

namespace Logix
variable {K : Type}

theorem loadStates_ok {dir : StateDir K} : ∀ {names : List PyStr} {u : LState K}, (∀ n ∈ names, (Dict.get? dir.files n).isSome = true) →
    ∃ u', loadStates dir names u = .ok u' ∧
      (∀ n, Dict.get? u'.attrs n = if n ∈ names then Dict.get? dir.files n else Dict.get? u.attrs n) ∧
      u'.toSync = u.toSync ∧ u'.toSave = u.toSave ∧ u'.toNormalize = u.toNormalize ∧ u'.states = u.states ∧ u'.notClear = u.notClear := by
  intro names
  induction names with
  | nil => intro u _; exact ⟨u, rfl, fun _ => by simp, rfl, rfl, rfl, rfl, rfl⟩
  | cons a rest ih =>
    intro u h
    obtain ⟨d, hd⟩ := Option.isSome_iff_exists.1 (h a List.mem_cons_self)
    obtain ⟨u', h1, h2, h3⟩ := ih (u := u.setAttr a d) (fun n hn => h n (List.mem_cons_of_mem _ hn))
    refine ⟨u', ?_, fun n => ?_, h3⟩
    · unfold loadStates
      rw [hd]
      exact h1
    · rw [h2 n, get?_setAttr]
      by_cases hna : a = n
      · subst hna; simp [hd]
      · simp [hna, Ne.symm hna]

theorem saveState_load {s : LState K} {dir dir' : StateDir K} (h : s.saveState dir = .ok dir') (u : LState K) :
    ∃ u', u.loadState dir' = .ok u' ∧ (∀ n, Dict.get? u'.attrs n = if n ∈ s.toSave then Dict.get? s.attrs n else Dict.get? u.attrs n) ∧
      u'.toSync = s.toSync ∧ u'.toSave = s.toSave ∧ u'.toNormalize = s.toNormalize ∧ u'.states = u.states ∧ u'.notClear = u.notClear := by
  unfold LState.saveState at h
  split at h
  · cases h
  · next fs hfs =>
    cases h
    have hsome : ∀ (names : List PyStr) (f f' : Dict PyStr (StateDict K)), saveStates s names f = .ok f' → ∀ n ∈ names, (Dict.get? s.attrs n).isSome = true := by
      intro names
      induction names with
      | nil => simp
      | cons a rest ih =>
        intro f f' h n hn
        unfold saveStates at h
        split at h
        · cases h
        · next d hd =>
          rcases List.mem_cons.1 hn with rfl | hn
          · rw [getAttr_eq.1 hd]; rfl
          · exact ih _ _ h n hn
    obtain ⟨u', h1, h2, h3⟩ := loadStates_ok (dir := ⟨fs, some (s.toSync, s.toSave, s.toNormalize)⟩) (names := s.toSave)
      (u := { u with toSync := s.toSync, toSave := s.toSave, toNormalize := s.toNormalize }) (fun n hn => by
        show (Dict.get? fs n).isSome = true
        rw [saveStates_get hfs n, if_pos hn]
        exact hsome _ _ _ hfs n hn)
    refine ⟨u', h1, fun n => ?_, h3⟩
    rw [h2 n]
    split
    · next hn =>
      show Dict.get? fs n = _
      rw [saveStates_get hfs n, if_pos hn]
    · rfl

/-- **C40**: what finalize saved is restored exactly, by any instance, whatever it and the directory held before; states that were not
registered for saving keep the value they had in the loading instance. -/
theorem C40_restored [Field K] {s s' : LState K} {dir dir' : StateDir K} (h : s.finalize dir = .ok (s', dir')) (u : LState K) :
    ∃ u', u.loadState dir' = .ok u' ∧ (∀ n ∈ s'.toSave, Dict.get? u'.attrs n = Dict.get? s'.attrs n) ∧
      (∀ n, n ∉ s'.toSave → Dict.get? u'.attrs n = Dict.get? u.attrs n) ∧
      u'.toSync = s'.toSync ∧ u'.toSave = s'.toSave ∧ u'.toNormalize = s'.toNormalize := by
  obtain ⟨u', h1, h2, h3, h4, h5, -⟩ := saveState_load (finalize_ok h).2 u
  exact ⟨u', h1, fun n hn => by rw [h2, if_pos hn], fun n hn => by rw [h2, if_neg hn], h3, h4, h5⟩

/-- **C40** for the states that every instance saves: mean, covariance and the table of modules. -/
theorem C40_restored_base [Field K] (L : Lib K) {ops : List (StateOp K)} {s s' : LState K} {dir dir' : StateDir K}
    (hrun : runOps L .init ops = .ok s) (h : s.finalize dir = .ok (s', dir')) (u : LState K) :
    ∃ u', u.loadState dir' = .ok u' ∧ ∀ n ∈ [nMean, nCov, nModelModule], Dict.get? u'.attrs n = Dict.get? s'.attrs n := by
  obtain ⟨u', h1, h2, -⟩ := C40_restored h u
  have hs := ((reg_init.run hrun).finalize h).saved
  refine ⟨u', h1, fun n hn => h2 n ?_⟩
  simp only [List.mem_cons, List.not_mem_nil, or_false] at hn
  rcases hn with rfl | rfl | rfl
  · exact hs.1
  · exact hs.2.1
  · exact hs.2.2

/-- A concrete run meets the hypotheses, with a loading instance that has logged something else and a directory with other files. -/
example : ∃ s s' dir', runOps ExEkfac.lib .init ExClear.ops = .ok s ∧ s.finalize ⟨[(nInverse, [])], none⟩ = .ok (s', dir') ∧
    (∃ t, Spec.tensorAt s'.attrs nEkfac [ExEkfac.nm] = some t) ∧ nEkfac ∈ s'.toSave := by
  have key : (match runOps ExEkfac.lib .init ExClear.ops with
      | .ok s => match s.finalize ⟨[(nInverse, [])], none⟩ with
        | .ok (s', _) => (Spec.tensorAt s'.attrs nEkfac [ExEkfac.nm]).isSome && decide (nEkfac ∈ s'.toSave)
        | .error _ => false
      | .error _ => false) = true := by decide +kernel
  split at key
  · next s hs =>
    split at key
    · next s' d hf =>
      rw [Bool.and_eq_true, decide_eq_true_eq] at key
      exact ⟨s, s', d, hs, hf, Option.isSome_iff_exists.1 key.1, key.2⟩
    · cases key
  · cases key

/-! ### Resuming -/

/-- **C41** is false: if a saved state has a mean or a covariance of anything, a new instance that has loaded it can never finalize again
(whatever is logged in between, if that does not already raise), because the counters are not saved. -/
theorem C41_refuted [Field K] (L : Lib K) {ops : List (StateOp K)} {s s' u : LState K} {dir dir' : StateDir K}
    (hrun : runOps L .init ops = .ok s) (hfin : s.finalize dir = .ok (s', dir')) {st m : PyStr} (hst : st = nMean ∨ st = nCov) {lt : LogType}
    {t : Tensor K} (ht : Spec.tensorAt s'.attrs st [m, lt.name] = some t) (hload : (LState.init : LState K).loadState dir' = .ok u)
    (calls : List (Plugin × StatCall K)) (v : LState K) (hup : updates L u calls = .ok v) (dir₂ : StateDir K) :
    ∃ e, v.finalize dir₂ = .error e := by
  have hr := (reg_init.run hrun).finalize hfin
  obtain ⟨u', h1, h2, h3, h4, h5, h6, h7⟩ := saveState_load (finalize_ok hfin).2 (LState.init : LState K)
  rw [hload] at h1
  cases h1
  have core : ∀ (p : Plugin) (st cn : PyStr) (z : Nat → List Nat) (term : (Nat → K) → List Nat → K), StatOf p st cn z term → (st, cn) ∈ basePairs →
      st ∈ s'.toSave → cn ∉ s'.toSave → Spec.tensorAt s'.attrs st [m, lt.name] = some t → ∃ e, v.finalize dir₂ = .error e := by
    intro p st cn z term S hp hs hc ht
    obtain ⟨d, hd, hi⟩ := item2_of_tensorAt ht
    have g1 : u.getAttr st = .ok d := by rw [getAttr_eq, h2, if_pos hs]; exact hd
    have g2 : u.getAttr cn = .ok [] := by rw [getAttr_congr (s := (LState.init : LState K)) (by rw [h2, if_neg hc])]; exact (init_getAttr hp).2
    obtain ⟨d', e', k1, k2, I⟩ := updates_inv L S hup g1 g2
    have hentry : item2 d' m lt.name = .ok (some (.tensor t)) ∧ item2 e' m lt.name = .ok none := by
      by_cases hc : Spec.callsOf p m lt calls = []
      · obtain ⟨b1, b2⟩ := (I m lt).nil hc
        exact ⟨by rw [b1]; exact hi, by rw [b2]; rfl⟩
      · obtain ⟨t0, n0, t', W, hz, -⟩ := (I m lt).cons hc
        rcases hz with ⟨hz, _⟩ | ⟨_, hz⟩
        · rw [hi] at hz; cases hz
        · cases hz
    cases hf : v.finalize dir₂ with
    | error e => exact ⟨e, rfl⟩
    | ok r =>
      exfalso
      obtain ⟨v', dv⟩ := r
      have nr : NormReg u := by
        unfold NormReg
        rw [h5, (normalizePairs_reg (finalize_ok hfin).1).1]
        exact normReg_init.run hrun
      obtain ⟨d1, e1, d2, a1, a2, a3, a4⟩ := normalize_get (nr.updates hup) (finalize_ok hf).1 hp
      rw [k1] at a1
      rw [k2] at a2
      cases a1
      cases a2
      obtain ⟨c, hc, _⟩ := (normalizeDict_item2 a3 m lt.name).1 t hentry.1
      rw [hentry.2] at hc
      cases hc
  rcases hst with rfl | rfl
  · exact core _ _ _ _ _ statOf_mean (by decide) hr.saved.1 hr.nosave.1 ht
  · exact core _ _ _ _ _ statOf_cov (by decide) hr.saved.2.1 hr.nosave.2.1 ht

/-- The hypotheses of `C41_refuted` are met. -/
example : ∃ s s' dir' u v t, runOps ExStats.lib .init [.update .covariance ExStats.b1] = .ok s ∧ s.finalize ⟨[], none⟩ = .ok (s', dir') ∧
    Spec.tensorAt s'.attrs nCov [ExStats.nm, LogType.name .forward] = some t ∧ LState.init.loadState dir' = .ok u ∧
    updates ExStats.lib u [(.covariance, { ExStats.b2 with name := ['f', 'c', '2'] })] = .ok v := by
  have key : (match runOps ExStats.lib .init [.update .covariance ExStats.b1] with
      | .ok s => match s.finalize ⟨[], none⟩ with
        | .ok (s', d) => match LState.init.loadState d with
          | .ok u => match updates ExStats.lib u [(.covariance, { ExStats.b2 with name := ['f', 'c', '2'] })] with
            | .ok _ => (Spec.tensorAt s'.attrs nCov [ExStats.nm, LogType.name .forward]).isSome
            | .error _ => false
          | .error _ => false
        | .error _ => false
      | .error _ => false) = true := by decide +kernel
  split at key
  · next s hs =>
    split at key
    · next s' d hf =>
      split at key
      · next u hu =>
        split at key
        · next v hv =>
          obtain ⟨t, ht⟩ := Option.isSome_iff_exists.1 key
          exact ⟨s, s', d, u, v, t, hs, hf, ht, hu, hv⟩
        · cases key
      · cases key
    · cases key
  · cases key

/-! ### Starting over after loading -/

/-- A new instance that has loaded a state can be cleared; that empties means, covariances and their counters. -/
theorem load_clear [Field K] {L : Lib K} {ops : List (StateOp K)} {s s' u : LState K} {dir dir' : StateDir K}
    (hrun : runOps L .init ops = .ok s) (hfin : s.finalize dir = .ok (s', dir')) (hload : (LState.init : LState K).loadState dir' = .ok u) :
    ∃ u₁, u.clear = .ok u₁ ∧ Agree u₁ (LState.init : LState K) ∧ (∀ n ∈ s'.toSave, (Dict.get? u₁.attrs n).isSome = true) ∧
      u₁.toSave = s'.toSave ∧ u₁.toNormalize = s'.toNormalize := by
  have hr := (reg_init.run hrun).finalize hfin
  obtain ⟨u', h1, h2, h3, h4, h5, h6, h7⟩ := saveState_load (finalize_ok hfin).2 (LState.init : LState K)
  rw [hload] at h1
  cases h1
  have succ : ∀ (names : List PyStr) (w : LState K), (∀ n ∈ names, (Dict.get? w.attrs n).isSome = true) → ∃ w', clearNames w names = .ok w' := by
    intro names
    induction names with
    | nil => intro w _; exact ⟨w, rfl⟩
    | cons a rest ih =>
      intro w hw
      unfold clearNames
      split
      · exact ih w fun n h => hw n (List.mem_cons_of_mem _ h)
      · obtain ⟨d, hd⟩ := Option.isSome_iff_exists.1 (hw a List.mem_cons_self)
        rw [getAttr_eq.2 hd]
        refine ih _ fun n h => ?_
        rw [get?_setAttr]
        split
        · rfl
        · exact hw n (List.mem_cons_of_mem _ h)
  have hsome : ∀ n, n ∈ s'.toSave ∨ n ∈ baseNames → (Dict.get? u.attrs n).isSome = true := by
    intro n hn
    rw [h2]
    split
    · next hs => exact (hr.attrs n).1 (hr.save n hs)
    · next hs => exact (reg_init.attrs n).1 (hn.resolve_left hs)
  obtain ⟨u₁, hu₁⟩ := succ u.states u (fun n hn => hsome n (.inr (by rw [h6] at hn; exact hn)))
  refine ⟨u₁, hu₁, fun n hn => ?_, fun n hn => ?_, ?_, ?_⟩
  · have hb : n ∈ (LState.init : LState K).states := reg_init.base n (by revert n; decide)
    have hm : n ∉ (LState.init : LState K).notClear := by
      show n ∉ [nModelModule]
      clear hb; revert n; decide
    rw [clearNames_get hu₁, h6, h7, if_pos ⟨hb, hm⟩]
    simp only [statNames, List.mem_cons, List.not_mem_nil, or_false] at hn
    rcases hn with rfl | rfl | rfl | rfl <;> rfl
  · rw [clearNames_isSome hu₁]; exact hsome n (.inl hn)
  · rw [(clearNames_reg hu₁).2.1, h4]
  · rw [(clearNames_reg hu₁).1, h5]

/-- **C83**, the part that holds: if EKFAC had not been used before saving, a new instance that loads the state and clears it is like new. -/
theorem C83_like_new_partial [Field K] (L : Lib K) {ops : List (StateOp K)} {s s' u : LState K} {dir dir' : StateDir K}
    (hrun : runOps L .init ops = .ok s) (hfin : s.finalize dir = .ok (s', dir')) (hek : (nEkfac, nEkfacCounter) ∉ s'.toNormalize)
    (hload : (LState.init : LState K).loadState dir' = .ok u) : ∃ u₁, u.clear = .ok u₁ ∧ Spec.LikeNew L u₁ := by
  obtain ⟨u₁, h1, h2, h3, h4, h5⟩ := load_clear hrun hfin hload
  have hr := (reg_init.run hrun).finalize hfin
  refine ⟨u₁, h1, likeNew L h2 (.inl ?_) (by rw [h4]; exact h3) (by rw [h4]; exact ⟨hr.saved.1, hr.saved.2.1⟩)⟩
  rw [h5]
  have := (normalizePairs_reg (finalize_ok hfin).1).1
  rw [this] at hek ⊢
  rcases normReg_init.run hrun with hb | hb
  · exact hb
  · rw [hb] at hek; exact absurd (by simp) hek

/-- **C83** is false: if EKFAC had been used before saving, a new instance that has loaded the state can never finalize, not even after `clear`. -/
theorem C83_ekfac_refuted [Field K] (L : Lib K) {ops : List (StateOp K)} {s s' u : LState K} {dir dir' : StateDir K}
    (hrun : runOps L .init ops = .ok s) (hfin : s.finalize dir = .ok (s', dir')) (hek : (nEkfac, nEkfacCounter) ∈ s'.toNormalize)
    (hload : (LState.init : LState K).loadState dir' = .ok u) :
    ∃ u₁, u.clear = .ok u₁ ∧ ∀ (calls : List (Plugin × StatCall K)) (v : LState K),
      (∀ pc ∈ calls, pc.1 = .log ∨ pc.1 = .mean ∨ pc.1 = .covariance) → updates L u₁ calls = .ok v → ∀ dir₂, ∃ e, v.finalize dir₂ = .error e := by
  obtain ⟨u₁, hu₁, -⟩ := load_clear hrun hfin hload
  refine ⟨u₁, hu₁, fun calls v hp hup dir₂ => ?_⟩
  have hr := (reg_init.run hrun).finalize hfin
  obtain ⟨u', h1, h2, h3, h4, h5, h6, h7⟩ := saveState_load (finalize_ok hfin).2 (LState.init : LState K)
  rw [hload] at h1
  cases h1
  have hnone : Dict.get? u.attrs nEkfacCounter = none := by rw [h2, if_neg hr.nosave.2.2]; rfl
  have hnone₁ : Dict.get? u₁.attrs nEkfacCounter = none := clearNames_frame hu₁ _ hnone
  rcases updates_agree L hp (s := u₁) (u := u₁) (fun _ _ => rfl) with ⟨a, b, g1, -, -, -, g3, g4⟩ | ⟨err, g1, -⟩
  · rw [hup] at g1
    cases g1
    have hv : Dict.get? v.attrs nEkfacCounter = none := by rw [g4 _ (by decide)]; exact hnone₁
    have hn : v.toNormalize = basePairs ++ [(nEkfac, nEkfacCounter)] := by
      rw [g3, (clearNames_reg hu₁).1, h5]
      have := (normalizePairs_reg (finalize_ok hfin).1).1
      rw [this] at hek ⊢
      rcases normReg_init.run hrun with hb | hb
      · rw [hb] at hek; exact absurd hek (by decide)
      · exact hb
    unfold LState.finalize LState.normalize
    rw [hn, normalizePairs_append]
    cases hb : normalizePairs v basePairs with
    | error e => exact ⟨e, rfl⟩
    | ok w =>
      have hw : w.getAttr nEkfacCounter = .error .attributeError := by
        unfold LState.getAttr
        rw [normalizePairs_frame hb _ (by decide), hv]
      refine ⟨.attributeError, ?_⟩
      simp only [normalizePairs, hw]
      split
      · next h => split at h <;> simp_all
      · next h => split at h <;> simp_all
  · rw [hup] at g1
    cases g1

/-- The hypotheses of `C83_ekfac_refuted` are met. -/
example : ∃ s s' dir' u, runOps ExEkfac.lib .init ExClear.ops = .ok s ∧ s.finalize ⟨[], none⟩ = .ok (s', dir') ∧
    (nEkfac, nEkfacCounter) ∈ s'.toNormalize ∧ LState.init.loadState dir' = .ok u := by
  have key : (match runOps ExEkfac.lib .init ExClear.ops with
      | .ok s => match s.finalize ⟨[], none⟩ with
        | .ok (s', d) => match LState.init.loadState d with
          | .ok _ => decide ((nEkfac, nEkfacCounter) ∈ s'.toNormalize)
          | .error _ => false
        | .error _ => false
      | .error _ => false) = true := by decide +kernel
  split at key
  · next s hs =>
    split at key
    · next s' d hf =>
      split at key
      · next u hu => exact ⟨s, s', d, u, hs, hf, by simpa using key, hu⟩
      · cases key
    · cases key
  · cases key

end Logix
