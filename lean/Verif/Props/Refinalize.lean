/-
C35: calling `finalize` again.
-/
import Verif.Props.Stats

namespace Logix
variable {K : Type}

/-- What two rounds of logging and finalize compute: the normalised sum of the first round is added to the sum of the second one, and the
result is divided by the number of samples of both. -/
theorem stat_finalize_twice [Field K] (L : Lib K) {p : Plugin} {st cn : PyStr} {z : Nat → List Nat} {term : (Nat → K) → List Nat → K}
    (S : StatOf p st cn z term) (hp : (st, cn) ∈ basePairs) {calls₁ calls₂ : List (Plugin × StatCall K)} {s₁ s₁' s₂ s₂' : LState K}
    {dir₁ dir₁' dir₂ dir₂' : StateDir K} (h₁ : updates L .init calls₁ = .ok s₁) (f₁ : s₁.finalize dir₁ = .ok (s₁', dir₁'))
    (h₂ : updates L s₁' calls₂ = .ok s₂) (f₂ : s₂.finalize dir₂ = .ok (s₂', dir₂')) (m : PyStr) (lt : LogType)
    (hne : Spec.callsOf p m lt calls₁ ≠ []) :
    ∃ t W, Spec.tensorAt s₂'.attrs st [m, lt.name] = some t ∧ t.shape = z W ∧ (∀ c ∈ Spec.callsOf p m lt calls₁, Spec.callWidth c = W) ∧
      ∀ idx, inRange (z W) idx = true →
        t.el idx = (rowSum term (Spec.allRows (Spec.callsOf p m lt calls₁)) idx / ((Spec.callsOf p m lt calls₁).map batchCount).sum +
          rowSum term (Spec.allRows (Spec.callsOf p m lt calls₂)) idx) /
            (((Spec.callsOf p m lt calls₁).map batchCount).sum + ((Spec.callsOf p m lt calls₂).map batchCount).sum) := by
  obtain ⟨i1, i2⟩ := init_getAttr (K := K) hp
  obtain ⟨d, e, hd, he, I⟩ := updates_inv L S h₁ i1 i2
  obtain ⟨t0, n0, t, W, hz, hw, hs0, hs, a1, a2, hv⟩ := (I m lt).cons hne
  have hr1 := normReg_init.updates h₁
  obtain ⟨f1, -⟩ := finalize_ok f₁
  obtain ⟨d1, e1, d', g1, g2, g3, g4⟩ := normalize_get hr1 f1 hp
  obtain rfl := Except.ok.inj (hd.symm.trans g1)
  obtain rfl := Except.ok.inj (he.symm.trans g2)
  obtain ⟨c, hc, hc'⟩ := (normalizeDict_item2 g3 m lt.name).1 t a1
  have hn0 : n0 = 0 ∧ ∀ idx, t0.el idx = 0 := by
    rcases hz with ⟨_, hz, hn⟩ | ⟨hz, _⟩
    · exact ⟨hn, hz⟩
    · cases hz
  have hc0 : c = ((Spec.callsOf p m lt calls₁).map batchCount).sum := by
    have := hc.symm.trans a2
    rw [hn0.1, zero_add] at this
    simpa using this
  have hcnt : s₁'.getAttr cn = .ok e := by rw [normalize_counter hr1 f1 hp]; exact he
  have hr1' : NormReg s₁' := by unfold NormReg; rw [(normalizePairs_reg f1).1]; exact hr1
  obtain ⟨d2, e2, hd2, he2, I2⟩ := updates_inv L S h₂ g4 hcnt
  obtain ⟨f2, -⟩ := finalize_ok f₂
  obtain ⟨d3, e3, d'', k1, k2, k3, k4⟩ := normalize_get (hr1'.updates h₂) f2 hp
  obtain rfl := Except.ok.inj (hd2.symm.trans k1)
  obtain rfl := Except.ok.inj (he2.symm.trans k2)
  -- the entry before the second finalize
  have hmid : ∃ u n, item2 d2 m lt.name = .ok (some (.tensor u)) ∧ item2 e2 m lt.name = .ok (some (.num n)) ∧ u.shape = z W ∧
      n = ((Spec.callsOf p m lt calls₁).map batchCount).sum + ((Spec.callsOf p m lt calls₂).map batchCount).sum ∧
      ∀ idx, inRange (z W) idx = true → u.el idx =
        rowSum term (Spec.allRows (Spec.callsOf p m lt calls₁)) idx / ((Spec.callsOf p m lt calls₁).map batchCount).sum +
          rowSum term (Spec.allRows (Spec.callsOf p m lt calls₂)) idx := by
    have hfirst : ∀ idx, inRange (z W) idx = true → (t.divNum c).el idx =
        rowSum term (Spec.allRows (Spec.callsOf p m lt calls₁)) idx / ((Spec.callsOf p m lt calls₁).map batchCount).sum := by
      intro idx hidx
      rw [divNum_el _ _ _ (by rw [hs]; exact hidx), hv idx hidx, hc0, hn0.2, zero_add]
    by_cases hc2 : Spec.callsOf p m lt calls₂ = []
    · obtain ⟨b1, b2⟩ := (I2 m lt).nil hc2
      refine ⟨t.divNum c, c, by rw [b1]; exact hc', by rw [b2]; exact hc, hs, by rw [hc2, hc0]; simp, fun idx hidx => ?_⟩
      rw [hfirst idx hidx, hc2]
      simp [Spec.allRows, rowSum]
    · obtain ⟨u0, m0, u, W', b1, b2, b3, b4, b5, b6, b7⟩ := (I2 m lt).cons hc2
      rcases b1 with ⟨b1, _⟩ | ⟨b1, b1'⟩
      · rw [hc'] at b1; cases b1
      · have e1 : u0 = t.divNum c := by
          have := b1.symm.trans hc'
          simpa using this
        have e2 : m0 = c := by
          have := b1'.symm.trans hc
          simpa using this
        have e3 : z W' = z W := by
          rw [← b3, e1]; exact hs
        refine ⟨u, _, b5, b6, by rw [b4, e3], by rw [e2, hc0], fun idx hidx => ?_⟩
        rw [b7 idx (by rw [e3]; exact hidx), e1, hfirst idx hidx]
  obtain ⟨u, n, q1, q2, q3, q4, q5⟩ := hmid
  obtain ⟨c2, hc2, hc2'⟩ := (normalizeDict_item2 k3 m lt.name).1 u q1
  have hcn : c2 = n := by
    have := hc2.symm.trans q2
    simpa using this
  refine ⟨_, W, tensorAt_item2 k4 hc2', q3, hw, fun idx hidx => ?_⟩
  rw [divNum_el _ _ _ (by rw [q3]; exact hidx), q5 idx hidx, hcn, q4]

/-- **C35**, what the code computes (partial: the property is false, see `C35_refuted`): the covariance after logging, finalize, more logging
and finalize. It is the covariance of all the data if the first round logged a single sample. -/
theorem C35_covariance_partial [Field K] (L : Lib K) {calls₁ calls₂ : List (Plugin × StatCall K)} {s₁ s₁' s₂ s₂' : LState K}
    {dir₁ dir₁' dir₂ dir₂' : StateDir K} (h₁ : updates L .init calls₁ = .ok s₁) (f₁ : s₁.finalize dir₁ = .ok (s₁', dir₁'))
    (h₂ : updates L s₁' calls₂ = .ok s₂) (f₂ : s₂.finalize dir₂ = .ok (s₂', dir₂')) (m : PyStr) (lt : LogType)
    (hne : Spec.callsOf .covariance m lt calls₁ ≠ [])
    (hmask₁ : ∀ c ∈ Spec.callsOf .covariance m lt calls₁, c.mask = none ∨ c.logType = .grad)
    (hmask₂ : ∀ c ∈ Spec.callsOf .covariance m lt calls₂, c.mask = none ∨ c.logType = .grad) :
    ∃ t W, Spec.tensorAt s₂'.attrs nCov [m, lt.name] = some t ∧ t.shape = [W, W] ∧
      (∀ i j, i < W → j < W → t.el [i, j] =
        (((Spec.allRows (Spec.callsOf .covariance m lt calls₁)).map fun r => r i * r j).sum / (Spec.samples (Spec.callsOf .covariance m lt calls₁) : K) +
          ((Spec.allRows (Spec.callsOf .covariance m lt calls₂)).map fun r => r i * r j).sum) /
          ((Spec.samples (Spec.callsOf .covariance m lt calls₁) : K) + (Spec.samples (Spec.callsOf .covariance m lt calls₂) : K))) ∧
      (Spec.samples (Spec.callsOf .covariance m lt calls₁) = 1 → ∀ i j, i < W → j < W → t.el [i, j] =
        ((Spec.allRows (Spec.callsOf .covariance m lt (calls₁ ++ calls₂))).map fun r => r i * r j).sum /
          (Spec.samples (Spec.callsOf .covariance m lt (calls₁ ++ calls₂)) : K)) := by
  obtain ⟨t, W, g1, g2, g3, g4⟩ := stat_finalize_twice L statOf_cov (by decide) h₁ f₁ h₂ f₂ m lt hne
  have hval : ∀ i j, i < W → j < W → t.el [i, j] =
        (((Spec.allRows (Spec.callsOf .covariance m lt calls₁)).map fun r => r i * r j).sum / (Spec.samples (Spec.callsOf .covariance m lt calls₁) : K) +
          ((Spec.allRows (Spec.callsOf .covariance m lt calls₂)).map fun r => r i * r j).sum) /
          ((Spec.samples (Spec.callsOf .covariance m lt calls₁) : K) + (Spec.samples (Spec.callsOf .covariance m lt calls₂) : K)) := by
    intro i j hi hj
    rw [g4 [i, j] (by simp [inRange, hi, hj]), count_samples _ hmask₁, count_samples _ hmask₂]
    rfl
  refine ⟨t, W, g1, g2, hval, fun h1 i j hi hj => ?_⟩
  rw [hval i j hi hj, callsOf_append, allRows_append, h1]
  have hsum : Spec.samples (Spec.callsOf .covariance m lt calls₁ ++ Spec.callsOf .covariance m lt calls₂) =
      1 + Spec.samples (Spec.callsOf .covariance m lt calls₂) := by
    rw [← h1]; simp [Spec.samples]
  rw [hsum]
  simp

/-- **C35** is false: over the rationals, calling `finalize` a second time with no logging in between changes the covariance, and so does
continuing to log after it: the result is not the covariance of all the data. -/
theorem C35_refuted :
    ¬ (∀ (L : Lib Rat) (calls₁ calls₂ : List (Plugin × StatCall Rat)) (s₁ s₁' s₂ s₂' : LState Rat) (dir₁ dir₁' dir₂ dir₂' : StateDir Rat)
        (t₁ t₂ : Tensor Rat) (m : PyStr) (lt : LogType), updates L .init calls₁ = .ok s₁ → s₁.finalize dir₁ = .ok (s₁', dir₁') →
      updates L s₁' calls₂ = .ok s₂ → s₂.finalize dir₂ = .ok (s₂', dir₂') → Spec.tensorAt s₁'.attrs nCov [m, lt.name] = some t₁ →
      Spec.tensorAt s₂'.attrs nCov [m, lt.name] = some t₂ → calls₂ = [] → t₁ = t₂) := by
  intro H
  have run : ∃ s₁ s₁' d₁ s₂' d₂, updates ExStats.lib .init ExStats.calls = .ok s₁ ∧ s₁.finalize ExStats.dir = .ok (s₁', d₁) ∧
      s₁'.finalize ExStats.dir = .ok (s₂', d₂) ∧
      Spec.tensorAt s₁'.attrs nCov [ExStats.nm, LogType.name .forward] = some ⟨.cuda 0, [2, 2], [35 / 3, -1 / 3, -1 / 3, 29 / 3], rfl⟩ ∧
      Spec.tensorAt s₂'.attrs nCov [ExStats.nm, LogType.name .forward] = some ⟨.cuda 0, [2, 2], [35 / 9, -1 / 9, -1 / 9, 29 / 9], rfl⟩ := by
    have key : (match updates ExStats.lib .init ExStats.calls with
        | .ok s₁ => match s₁.finalize ExStats.dir with
          | .ok (s₁', _) => match s₁'.finalize ExStats.dir with
            | .ok (s₂', _) => decide (Spec.tensorAt s₁'.attrs nCov [ExStats.nm, LogType.name .forward] =
                  some ⟨.cuda 0, [2, 2], [35 / 3, -1 / 3, -1 / 3, 29 / 3], rfl⟩ ∧
                Spec.tensorAt s₂'.attrs nCov [ExStats.nm, LogType.name .forward] =
                  some ⟨.cuda 0, [2, 2], [35 / 9, -1 / 9, -1 / 9, 29 / 9], rfl⟩)
            | .error _ => false
          | .error _ => false
        | .error _ => false) = true := by decide +kernel
    split at key
    · next s₁ h1 =>
      split at key
      · next s₁' d₁ h2 =>
        split at key
        · next s₂' d₂ h3 => exact ⟨s₁, s₁', d₁, s₂', d₂, h1, h2, h3, of_decide_eq_true key⟩
        · cases key
      · cases key
    · cases key
  obtain ⟨s₁, s₁', d₁, s₂', d₂, h1, h2, h3, h4, h5⟩ := run
  have := H _ _ [] _ _ _ _ _ _ _ _ _ _ _ _ h1 h2 rfl h3 h4 h5 rfl
  revert this
  decide +kernel

/-- **C35**, generally: after every run, a second `finalize` divides the covariance by the number of samples once more. So for a quantity
logged with two or more samples every nonzero entry changes. -/
theorem C35_divides_again [Field K] (L : Lib K) {calls : List (Plugin × StatCall K)} {s s₁ s₂ : LState K} {dir₁ dir₁' dir₂ dir₂' : StateDir K}
    (h : updates L .init calls = .ok s) (f₁ : s.finalize dir₁ = .ok (s₁, dir₁')) (f₂ : s₁.finalize dir₂ = .ok (s₂, dir₂')) (m : PyStr)
    (lt : LogType) (hne : Spec.callsOf .covariance m lt calls ≠ [])
    (hmask : ∀ c ∈ Spec.callsOf .covariance m lt calls, c.mask = none ∨ c.logType = .grad) :
    ∃ t₁ t₂ W, Spec.tensorAt s₁.attrs nCov [m, lt.name] = some t₁ ∧ Spec.tensorAt s₂.attrs nCov [m, lt.name] = some t₂ ∧
      t₁.shape = [W, W] ∧ t₂.shape = [W, W] ∧
      ∀ i j, i < W → j < W → t₂.el [i, j] = t₁.el [i, j] / (Spec.samples (Spec.callsOf .covariance m lt calls) : K) := by
  obtain ⟨t₁, W, a1, a2, a3, a4⟩ := C31_covariance L h f₁ m lt hne hmask
  obtain ⟨t₂, W', b1, b2, b3, -⟩ := C35_covariance_partial L h f₁ (calls₂ := []) rfl f₂ m lt hne hmask (by simp [Spec.callsOf])
  have hW : W' = W := by
    obtain ⟨t, W'', c1, c2, c3, c4⟩ := stat_finalize_twice L statOf_cov (by decide) h f₁ (calls₂ := []) rfl f₂ m lt hne
    obtain ⟨c, hc⟩ := List.exists_mem_of_ne_nil _ hne
    rw [c1] at b1
    cases b1
    have h1 := c3 c hc
    have h2 := a3 c hc
    have h3 : [W'', W''] = [W', W'] := c2.symm.trans b2
    simp at h3
    rw [← h3, ← h1, h2]
  subst hW
  refine ⟨t₁, t₂, W', a1, b1, a2, b2, fun i j hi hj => ?_⟩
  rw [b3 i j hi hj, a4 i j hi hj]
  simp [Spec.callsOf, Spec.allRows, Spec.samples]

end Logix
