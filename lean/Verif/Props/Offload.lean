/-
cpu_offload: C39.
-/
import Verif.Props.Clear
import Verif.Lemmas.Collate

namespace Logix
variable {K : Type}

/-! ### A copy of the state with all tensors on the CPU -/

/-- A value with its tensor, if it is one, on the CPU. -/
def cpuV : SVal K → SVal K
  | .tensor t => .tensor (t.onDev .cpu)
  | v => v

mutual
def cpuN : Nested (SVal K) → Nested (SVal K)
  | .leaf v => .leaf (cpuV v)
  | .node d => .node (cpuD d)
def cpuD : List (PyStr × Nested (SVal K)) → List (PyStr × Nested (SVal K))
  | [] => []
  | (k, v) :: rest => (k, cpuN v) :: cpuD rest
end

/-- The attributes with all tensors on the CPU. -/
def cpuA : Dict PyStr (StateDict K) → Dict PyStr (StateDict K)
  | [] => []
  | (k, v) :: rest => (k, cpuD v) :: cpuA rest

/-- The state with all tensors on the CPU. -/
def cpuS (s : LState K) : LState K := { s with attrs := cpuA s.attrs }

theorem cpuD_get (d : StateDict K) (k : PyStr) : Dict.get? (cpuD d) k = (Dict.get? d k).map cpuN := by
  induction d with
  | nil => rfl
  | cons p rest ih =>
    obtain ⟨a, v⟩ := p
    simp only [cpuD, Dict.get?, ih]
    split <;> rfl

theorem cpuD_set (d : StateDict K) (k : PyStr) (v : Nested (SVal K)) : Dict.set (cpuD d) k (cpuN v) = cpuD (Dict.set d k v) := by
  induction d with
  | nil => rfl
  | cons p rest ih =>
    obtain ⟨a, w⟩ := p
    simp only [cpuD, Dict.set, ih]
    split <;> rfl

theorem cpuA_get (d : Dict PyStr (StateDict K)) (k : PyStr) : Dict.get? (cpuA d) k = (Dict.get? d k).map cpuD := by
  induction d with
  | nil => rfl
  | cons p rest ih =>
    obtain ⟨a, v⟩ := p
    simp only [cpuA, Dict.get?, ih]
    split <;> rfl

theorem cpuA_set (d : Dict PyStr (StateDict K)) (k : PyStr) (v : StateDict K) : Dict.set (cpuA d) k (cpuD v) = cpuA (Dict.set d k v) := by
  induction d with
  | nil => rfl
  | cons p rest ih =>
    obtain ⟨a, w⟩ := p
    simp only [cpuA, Dict.set, ih]
    split <;> rfl

theorem cpuS_getAttr {s : LState K} {n : PyStr} {d : StateDict K} (h : s.getAttr n = .ok d) : (cpuS s).getAttr n = .ok (cpuD d) := by
  rw [getAttr_eq] at h ⊢
  show Dict.get? (cpuA s.attrs) n = _
  rw [cpuA_get, h]
  rfl

theorem cpuS_hasAttr (s : LState K) (n : PyStr) : (cpuS s).hasAttr n = s.hasAttr n := by
  show (Dict.get? (cpuA s.attrs) n).isSome = (Dict.get? s.attrs n).isSome
  rw [cpuA_get]
  cases Dict.get? s.attrs n <;> rfl

theorem cpuS_setAttr (s : LState K) (n : PyStr) (d : StateDict K) : (cpuS s).setAttr n (cpuD d) = cpuS (s.setAttr n d) := by
  simp only [cpuS, LState.setAttr, cpuA_set]

theorem cpuS_registerState (s : LState K) (n : PyStr) (a b c : Bool) :
    (cpuS s).registerState n a b c = cpuS (s.registerState n a b c) := by
  unfold LState.registerState
  show (if n ∈ s.states then _ else _) = _
  split
  · rfl
  · show LState.mk _ _ _ _ _ _ = LState.mk _ _ _ _ _ _
    simp only [LState.mk.injEq]
    refine ⟨?_, rfl, rfl, rfl, rfl, rfl⟩
    exact cpuA_set s.attrs n []

theorem cpuS_registerNormalizePair (s : LState K) (a b : PyStr) :
    (cpuS s).registerNormalizePair a b = cpuS (s.registerNormalizePair a b) := by
  unfold LState.registerNormalizePair
  show (if (a, b) ∈ s.toNormalize then _ else _) = _
  split <;> rfl

theorem item2_cpu {d : StateDict K} {m t : PyStr} {v : Option (SVal K)} (h : item2 d m t = .ok v) : item2 (cpuD d) m t = .ok (v.map cpuV) := by
  unfold item2 at h ⊢
  rw [cpuD_get]
  cases hm : Dict.get? d m with
  | none => rw [hm] at h; cases h; rfl
  | some w =>
    rw [hm] at h
    cases w with
    | leaf a => cases h
    | node sub =>
      simp only [Option.map_some, cpuN] at h ⊢
      rw [cpuD_get]
      cases ht : Dict.get? sub t with
      | none => rw [ht] at h; cases h; rfl
      | some w =>
        rw [ht] at h
        cases w with
        | leaf a => cases h; rfl
        | node _ => cases h

theorem indexable_cpu (d : StateDict K) (m : PyStr) : indexable (cpuD d) m = indexable d m := by
  unfold indexable
  rw [cpuD_get]
  cases Dict.get? d m with
  | none => rfl
  | some w => cases w <;> rfl

theorem set2_cpu (d : StateDict K) (m t : PyStr) (v : SVal K) : set2 (cpuD d) m t (cpuV v) = cpuD (set2 d m t v) := by
  unfold set2
  rw [cpuD_get]
  cases Dict.get? d m with
  | none => exact cpuD_set d m (.node [(t, .leaf v)])
  | some w =>
    cases w with
    | leaf a => exact cpuD_set d m (.node [(t, .leaf v)])
    | node sub =>
      simp only [Option.map_some, cpuN]
      rw [show Nested.leaf (cpuV v) = cpuN (.leaf v) from rfl, cpuD_set sub t (.leaf v)]
      exact cpuD_set d m (.node (Dict.set sub t (.leaf v)))

/-! ### The operations commute with the copy -/

/-- The same call with another setting of `cpu_offload`. -/
def withOffload (b : Bool) : StateOp K → StateOp K
  | .update p c => .update p { c with offload := b }
  | o => o

theorem statUpdate_cpu [Semiring K] {st cn : PyStr} {z : Nat → List Nat} {acc : Tensor K → Tensor K → Py (Tensor K)}
    (hacc : ∀ t x t', acc t x = .ok t' → t.dev = x.dev) {s s' : LState K} {c : StatCall K}
    (h : statUpdate st cn z acc s { c with offload := false } = .ok s') :
    statUpdate st cn z acc (cpuS s) { c with offload := true } = .ok (cpuS s') := by
  unfold statUpdate at h ⊢
  cases hd : s.getAttr st with
  | error _ => simp only [hd] at h; cases h
  | ok d =>
  cases he : s.getAttr cn with
  | error _ => simp only [hd, he] at h; cases h
  | ok e =>
  simp only [hd, he, cpuS_getAttr hd, cpuS_getAttr he] at h ⊢
  cases hx : make2d c.data c.module c.logType with
  | error _ => simp only [hx] at h; cases h
  | ok x =>
  simp only [hx] at h ⊢
  cases hv : item2 d c.name c.logType.name with
  | error _ => simp only [hv] at h; cases h
  | ok v =>
  simp only [hv, item2_cpu hv, indexable_cpu, Bool.false_eq_true, if_false, if_true, Option.isNone_map] at h ⊢
  cases hb : (v.isNone && !indexable e c.name) with
  | true => simp only [hb, if_true] at h; cases h
  | false =>
  simp only [hb, Bool.false_eq_true, if_false] at h ⊢
  have hcn : (if v.isNone = true then set2 (cpuD e) c.name c.logType.name (.num 0) else cpuD e) =
      cpuD (if v.isNone = true then set2 e c.name c.logType.name (.num 0) else e) := by
    split
    · exact set2_cpu e c.name c.logType.name (.num 0)
    · rfl
  rw [hcn]
  have hval : (v.map cpuV).getD (.tensor (Tensor.zeros .cpu (z (x.size 1)))) =
      cpuV (v.getD (.tensor (Tensor.zeros x.dev (z (x.size 1))))) := by
    cases v with
    | none => rfl
    | some w => rfl
  rw [hval]
  cases hw : v.getD (.tensor (Tensor.zeros x.dev (z (x.size 1)))) with
  | num _ => simp only [hw] at h; cases h
  | paths _ => simp only [hw] at h; cases h
  | dims _ => simp only [hw] at h; cases h
  | tensor t =>
  simp only [hw, cpuV, Tensor.onDev_onDev] at h ⊢
  cases ht : acc t x with
  | error _ => simp only [ht] at h; cases h
  | ok t' =>
  have hdev := hacc _ _ _ ht
  rw [← hdev, Tensor.onDev_self, ht]
  simp only [ht, Except.map] at h ⊢
  cases hn : item2 (if v.isNone = true then set2 e c.name c.logType.name (.num 0) else e) c.name c.logType.name with
  | error _ => simp only [hn] at h; cases h
  | ok w =>
  simp only [hn, item2_cpu hn] at h ⊢
  cases w with
  | none => cases h
  | some w =>
    cases w with
    | tensor _ => cases h
    | paths _ => cases h
    | dims _ => cases h
    | num y =>
      cases h
      simp only [Option.map_some, cpuV]
      rw [← cpuS_setAttr, ← cpuS_setAttr]
      have e1 := set2_cpu d c.name c.logType.name (.tensor t')
      have e2 := set2_cpu (if v.isNone = true then set2 e c.name c.logType.name (.num 0) else e) c.name c.logType.name
        (.num (y + batchCount { c with offload := false }))
      simp only [cpuV] at e1 e2
      rw [← e1, ← e2]
      rfl

/-- `eigh` and `inverse` do the same on every device. -/
structure DeviceFree (L : Lib K) : Prop where
  eigh : ∀ x d w v, L.eigh x = .ok (w, v) → L.eigh (x.onDev d) = .ok (w.onDev d, v.onDev d)
  inverse : ∀ x d i, L.inverse x = .ok i → L.inverse (x.onDev d) = .ok (i.onDev d)

theorem svdModes_cpu {L : Lib K} (hL : DeviceFree L) (m : PyStr) : ∀ {modes vals vecs vals' vecs' : StateDict K},
    svdModes L m modes vals vecs = .ok (vals', vecs') →
      svdModes L m (cpuD modes) (cpuD vals) (cpuD vecs) = .ok (cpuD vals', cpuD vecs') := by
  intro modes
  induction modes with
  | nil => intro vals vecs vals' vecs' h; cases h; rfl
  | cons p rest ih =>
    intro vals vecs vals' vecs' h
    obtain ⟨mode, v⟩ := p
    cases v with
    | node _ => cases h
    | leaf v =>
      cases v with
      | num _ => cases h
      | paths _ => cases h
      | dims _ => cases h
      | tensor x =>
        simp only [svdModes] at h
        cases he : L.eigh x with
        | error _ => simp only [he] at h; cases h
        | ok wv =>
          obtain ⟨w, v⟩ := wv
          simp only [he] at h
          simp only [cpuD, cpuN, cpuV, svdModes, hL.eigh x .cpu w v he]
          have e1 := set2_cpu vals m mode (.tensor w)
          have e2 := set2_cpu vecs m mode (.tensor v)
          simp only [cpuV] at e1 e2
          rw [e1, e2]
          exact ih h

theorem svdModules_cpu {L : Lib K} (hL : DeviceFree L) : ∀ {cov vals vecs vals' vecs' : StateDict K},
    svdModules L cov vals vecs = .ok (vals', vecs') →
      svdModules L (cpuD cov) (cpuD vals) (cpuD vecs) = .ok (cpuD vals', cpuD vecs') := by
  intro cov
  induction cov with
  | nil => intro vals vecs vals' vecs' h; cases h; rfl
  | cons p rest ih =>
    intro vals vecs vals' vecs' h
    obtain ⟨m, v⟩ := p
    cases v with
    | leaf _ => cases h
    | node modes =>
      simp only [svdModules] at h
      cases he : svdModes L m modes vals vecs with
      | error _ => simp only [he] at h; cases h
      | ok wv =>
        simp only [he] at h
        simp only [cpuD, cpuN, svdModules, svdModes_cpu hL m he]
        exact ih h

theorem covarianceSvd_cpu {L : Lib K} (hL : DeviceFree L) {s s' : LState K} (h : s.covarianceSvd L = .ok s') :
    (cpuS s).covarianceSvd L = .ok (cpuS s') := by
  unfold LState.covarianceSvd at h ⊢
  simp only [cpuS_registerState]
  dsimp only at h
  generalize (s.registerState nEigval false true false).registerState nEigvec false true false = u at h ⊢
  cases h1 : u.getAttr nCov with
  | error _ => simp only [h1] at h; cases h
  | ok cov =>
  cases h2 : u.getAttr nEigval with
  | error _ => simp only [h1, h2] at h; cases h
  | ok vals =>
  cases h3 : u.getAttr nEigvec with
  | error _ => simp only [h1, h2, h3] at h; cases h
  | ok vecs =>
  simp only [h1, h2, h3, cpuS_getAttr h1, cpuS_getAttr h2, cpuS_getAttr h3] at h ⊢
  cases h4 : svdModules L cov vals vecs with
  | error _ => simp only [h4] at h; cases h
  | ok r =>
    simp only [h4, svdModules_cpu hL h4] at h ⊢
    cases h
    rw [cpuS_setAttr, cpuS_setAttr]

theorem dampedCov_cpu [Field K] (x : Tensor K) (d : Dev) (damping : Option K) : dampedCov (x.onDev d) damping = (dampedCov x damping).onDev d := rfl

theorem inverseModes_cpu [Field K] {L : Lib K} (hL : DeviceFree L) (damping : Option K) (m : PyStr) : ∀ {modes inv inv' : StateDict K},
    inverseModes L damping m modes inv = .ok inv' → inverseModes L damping m (cpuD modes) (cpuD inv) = .ok (cpuD inv') := by
  intro modes
  induction modes with
  | nil => intro inv inv' h; cases h; rfl
  | cons p rest ih =>
    intro inv inv' h
    obtain ⟨mode, v⟩ := p
    cases v with
    | node _ => cases h
    | leaf v =>
      cases v with
      | num _ => cases h
      | paths _ => cases h
      | dims _ => cases h
      | tensor x =>
        simp only [inverseModes] at h
        cases he : L.inverse (dampedCov x damping) with
        | error _ => simp only [he] at h; cases h
        | ok i =>
          simp only [he] at h
          simp only [cpuD, cpuN, cpuV, inverseModes, dampedCov_cpu, hL.inverse _ .cpu i he]
          have e1 := set2_cpu inv m mode (.tensor i)
          simp only [cpuV] at e1
          rw [e1]
          exact ih h

theorem inverseModules_cpu [Field K] {L : Lib K} (hL : DeviceFree L) (damping : Option K) : ∀ {cov inv inv' : StateDict K},
    inverseModules L damping cov inv = .ok inv' → inverseModules L damping (cpuD cov) (cpuD inv) = .ok (cpuD inv') := by
  intro cov
  induction cov with
  | nil => intro inv inv' h; cases h; rfl
  | cons p rest ih =>
    intro inv inv' h
    obtain ⟨m, v⟩ := p
    cases v with
    | leaf _ => cases h
    | node modes =>
      simp only [inverseModules] at h
      cases he : inverseModes L damping m modes inv with
      | error _ => simp only [he] at h; cases h
      | ok i =>
        simp only [he] at h
        simp only [cpuD, cpuN, inverseModules, inverseModes_cpu hL damping m he]
        exact ih h

theorem getCovarianceInverse_cpu [Field K] {L : Lib K} (hL : DeviceFree L) {s s' : LState K} {damping : Option K} {inv : StateDict K}
    (h : s.getCovarianceInverse L damping = .ok (s', inv)) : (cpuS s).getCovarianceInverse L damping = .ok (cpuS s', cpuD inv) := by
  have key : ∀ {u : LState K}, (if s.hasAttr nInverse = true then Except.ok s else s.covarianceInverse L damping) = .ok u →
      (if (cpuS s).hasAttr nInverse = true then Except.ok (cpuS s) else (cpuS s).covarianceInverse L damping) = .ok (cpuS u) := by
    intro u hu
    rw [cpuS_hasAttr]
    split at hu
    · next hh => cases hu; rw [if_pos hh]
    · next hh =>
      rw [if_neg hh]
      unfold LState.covarianceInverse at hu ⊢
      simp only [cpuS_registerState]
      dsimp only at hu
      generalize s.registerState nInverse false true false = v at hu ⊢
      cases h1 : v.getAttr nCov with
      | error _ => simp only [h1] at hu; cases hu
      | ok cov =>
      cases h2 : v.getAttr nInverse with
      | error _ => simp only [h1, h2] at hu; cases hu
      | ok inv =>
      simp only [h1, h2, cpuS_getAttr h1, cpuS_getAttr h2] at hu ⊢
      cases h4 : inverseModules L damping cov inv with
      | error _ => simp only [h4] at hu; cases hu
      | ok r =>
        simp only [h4, inverseModules_cpu hL damping h4] at hu ⊢
        cases hu
        rw [cpuS_setAttr]
  unfold LState.getCovarianceInverse at h ⊢
  cases hu : (if s.hasAttr nInverse = true then Except.ok s else s.covarianceInverse L damping) with
  | error _ => simp only [hu] at h; cases h
  | ok u =>
    simp only [hu, key hu] at h ⊢
    cases hg : u.getAttr nInverse with
    | error _ => simp only [hg] at h; cases h
    | ok d =>
      simp only [hg, cpuS_getAttr hg] at h ⊢
      cases h
      rfl

theorem getCovarianceSvd_cpu {L : Lib K} (hL : DeviceFree L) {s s' : LState K} {n : PyStr} (h : s.getCovarianceSvd L = .ok (s', n)) :
    (cpuS s).getCovarianceSvd L = .ok (cpuS s', n) := by
  unfold LState.getCovarianceSvd at h ⊢
  simp only [cpuS_hasAttr]
  split at h
  · cases h
  · next u hu =>
    cases h
    have : (if (s.hasAttr nEigval && s.hasAttr nEigvec) = true then Except.ok (cpuS s) else (cpuS s).covarianceSvd L) = .ok (cpuS s') := by
      split at hu
      · next hh => cases hu; rw [if_pos hh]
      · next hh => rw [if_neg hh]; exact covarianceSvd_cpu hL hu
    rw [this]
    simp only [cpuS_hasAttr]

theorem ekfacPrepare_cpu {L : Lib K} (hL : DeviceFree L) {s s' : LState K} (h : ekfacPrepare L s = .ok s') :
    ekfacPrepare L (cpuS s) = .ok (cpuS s') := by
  unfold ekfacPrepare at h ⊢
  rw [cpuS_hasAttr]
  split at h
  · next hh => cases h; rw [if_pos hh]
  · next hh =>
    rw [if_neg hh]
    cases hs : s.covarianceSvd L with
    | error _ => simp only [hs] at h; cases h
    | ok u =>
      simp only [hs, covarianceSvd_cpu hL hs] at h ⊢
      cases h
      simp only [cpuS_registerState, cpuS_registerNormalizePair]

theorem ekfacAdd_dev [Semiring K] {t data ef eb t' : Tensor K} (h : ekfacAdd t data ef eb = .ok t') :
    t.dev = data.dev ∧ ef.dev = data.dev ∧ eb.dev = data.dev := by
  unfold ekfacAdd at h
  split at h
  · split at h
    · next hh => exact ⟨hh.2.2.2.1, hh.2.2.2.2.1, hh.2.2.2.2.2⟩
    · cases h
  · cases h

theorem correctedEigval_cpu [Semiring K] {L : Lib K} (hL : DeviceFree L) {s s' : LState K} {c : StatCall K}
    (h : correctedEigvalUpdate L s { c with offload := false } = .ok s') :
    correctedEigvalUpdate L (cpuS s) { c with offload := true } = .ok (cpuS s') := by
  unfold correctedEigvalUpdate at h ⊢
  cases h0 : ekfacPrepare L s with
  | error _ => simp only [h0] at h; cases h
  | ok u =>
  simp only [h0, ekfacPrepare_cpu hL h0] at h ⊢
  cases h1 : u.getAttr nEigvec with
  | error _ => simp only [h1] at h; cases h
  | ok vecs =>
  cases h2 : u.getAttr nEigval with
  | error _ => simp only [h1, h2] at h; cases h
  | ok vals =>
  cases h3 : u.getAttr nEkfac with
  | error _ => simp only [h1, h2, h3] at h; cases h
  | ok ek =>
  cases h4 : u.getAttr nEkfacCounter with
  | error _ => simp only [h1, h2, h3, h4] at h; cases h
  | ok cn =>
  simp only [h1, h2, h3, h4, cpuS_getAttr h1, cpuS_getAttr h2, cpuS_getAttr h3, cpuS_getAttr h4] at h ⊢
  cases h5 : ekfacEntry ek cn { c with offload := false } with
  | error _ => simp only [h5] at h; cases h
  | ok r =>
  obtain ⟨v, cn'⟩ := r
  have h5' : ekfacEntry (cpuD ek) (cpuD cn) { c with offload := true } = .ok (cpuN v, cpuD cn') := by
    unfold ekfacEntry at h5 ⊢
    rw [cpuD_get]
    simp only at h5 ⊢
    cases hk : Dict.get? ek c.name with
    | some w => simp only [hk] at h5; cases h5; rfl
    | none =>
      simp only [hk] at h5
      simp only [Option.map_none]
      split at h5
      · cases h5
      · next hh =>
        cases h5
        rw [if_neg hh]
        have := cpuD_set cn c.name (.leaf (.num 0))
        simp only [cpuN, cpuV] at this
        rw [this]
        rfl
  simp only [h5, h5'] at h ⊢
  cases v with
  | node _ => cases h
  | leaf v =>
  cases v with
  | num _ => cases h
  | paths _ => cases h
  | dims _ => cases h
  | tensor t =>
  simp only [cpuN, cpuV] at h ⊢
  cases h6 : item2 vecs c.name (LogType.name .forward) with
  | error _ => simp only [h6] at h; cases h
  | ok f =>
  cases h7 : item2 vecs c.name (LogType.name .backward) with
  | error _ => simp only [h6, h7] at h; cases h
  | ok b =>
  simp only [h6, h7, item2_cpu h6, item2_cpu h7] at h ⊢
  split at h
  · next ef eb he1 he2 =>
    cases he1
    cases he2
    simp only [Option.map_some, cpuV, Bool.false_eq_true, if_false, if_true, Tensor.onDev_onDev] at h ⊢
    cases ha : ekfacAdd t c.data ef eb with
    | error _ => simp only [ha] at h; cases h
    | ok t' =>
      obtain ⟨d1, d2, d3⟩ := ekfacAdd_dev ha
      have e1 : t.onDev c.data.dev = t := by rw [← d1]; rfl
      have e2 : ef.onDev c.data.dev = ef := by rw [← d2]; rfl
      have e3 : eb.onDev c.data.dev = eb := by rw [← d3]; rfl
      rw [e1, e2, e3, ha]
      simp only [ha, Except.map] at h ⊢
      rw [cpuD_get]
      cases hc : Dict.get? cn' c.name with
      | none => simp only [hc] at h; cases h
      | some w =>
        simp only [hc] at h
        cases w with
        | node _ => cases h
        | leaf w =>
          cases w with
          | tensor _ => cases h
          | paths _ => cases h
          | dims _ => cases h
          | num x =>
            cases h
            simp only [Option.map_some, cpuN, cpuV]
            rw [← cpuS_setAttr, ← cpuS_setAttr]
            have e1 := cpuD_set ek c.name (.leaf (.tensor t'))
            have e2 := cpuD_set cn' c.name (.leaf (.num (x + (c.data.size 0 : K))))
            simp only [cpuN, cpuV] at e1 e2
            rw [← e1, ← e2]
  · cases h

mutual
theorem normalizeValue_cpu [Field K] : ∀ (v : Nested (SVal K)) {c : Option (Nested (SVal K))} {w : Nested (SVal K)},
    normalizeValue c v = .ok w → normalizeValue (c.map cpuN) (cpuN v) = .ok (cpuN w)
  | .leaf (.tensor t), c, w, h => by
    simp only [normalizeValue] at h
    split at h
    · cases h; rfl
    · cases h
  | .leaf (.num _), c, w, h => by simp only [normalizeValue] at h; cases h
  | .leaf (.paths _), c, w, h => by simp only [normalizeValue] at h; cases h
  | .leaf (.dims _), c, w, h => by simp only [normalizeValue] at h; cases h
  | .node d, c, w, h => by
    simp only [normalizeValue] at h
    cases c with
    | none =>
      simp only at h
      cases hd : normalizeDict [] d with
      | error _ => simp only [hd] at h; cases h
      | ok d' =>
        simp only [hd] at h
        cases h
        have := normalizeDict_cpu d hd
        simp only [cpuD] at this
        simp only [cpuN, normalizeValue, Option.map_none, this]
    | some c =>
      cases c with
      | node e =>
        simp only at h
        cases hd : normalizeDict e d with
        | error _ => simp only [hd] at h; cases h
        | ok d' =>
          simp only [hd] at h
          cases h
          simp only [cpuN, normalizeValue, Option.map_some, normalizeDict_cpu d hd]
      | leaf a =>
        simp only at h
        cases d with
        | nil => cases h; rfl
        | cons p rest => cases h
theorem normalizeDict_cpu [Field K] : ∀ (d : List (PyStr × Nested (SVal K))) {e d' : StateDict K}, normalizeDict e d = .ok d' →
    normalizeDict (cpuD e) (cpuD d) = .ok (cpuD d')
  | [], e, d', h => by simp only [normalizeDict] at h; cases h; rfl
  | (k, v) :: rest, e, d', h => by
    simp only [normalizeDict] at h
    cases hv : normalizeValue (Dict.get? e k) v with
    | error _ => simp only [hv] at h; cases h
    | ok w =>
      simp only [hv] at h
      cases hr : normalizeDict e rest with
      | error _ => simp only [hr] at h; cases h
      | ok r =>
        simp only [hr] at h
        cases h
        have h1 := normalizeValue_cpu v hv
        simp only [cpuD, normalizeDict, cpuD_get, h1, normalizeDict_cpu rest hr]
end

theorem normalizePairs_cpu [Field K] : ∀ {ps : List (PyStr × PyStr)} {s s' : LState K}, normalizePairs s ps = .ok s' →
    normalizePairs (cpuS s) ps = .ok (cpuS s') := by
  intro ps
  induction ps with
  | nil => intro s s' h; cases h; rfl
  | cons p rest ih =>
    intro s s' h
    obtain ⟨st, cn⟩ := p
    simp only [normalizePairs] at h ⊢
    cases h1 : s.getAttr st with
    | error _ => simp only [h1] at h; cases h
    | ok d =>
    cases h2 : s.getAttr cn with
    | error _ => simp only [h1, h2] at h; cases h
    | ok e =>
    simp only [h1, h2, cpuS_getAttr h1, cpuS_getAttr h2] at h ⊢
    cases h3 : normalizeDict e d with
    | error _ => simp only [h3] at h; cases h
    | ok d' =>
      simp only [h3, normalizeDict_cpu d h3] at h ⊢
      rw [cpuS_setAttr]
      exact ih h

theorem saveStates_cpu {s : LState K} : ∀ {names : List PyStr} {fs gs fs' : Dict PyStr (StateDict K)}, saveStates s names fs = .ok fs' →
    ∃ gs', saveStates (cpuS s) names gs = .ok gs' ∧ ∀ n, (n ∈ names → Dict.get? gs' n = (Dict.get? fs' n).map cpuD) ∧
      (Dict.get? gs n = (Dict.get? fs n).map cpuD → Dict.get? gs' n = (Dict.get? fs' n).map cpuD) := by
  intro names
  induction names with
  | nil => intro fs gs fs' h; cases h; exact ⟨gs, rfl, fun n => ⟨fun hn => absurd hn List.not_mem_nil, id⟩⟩
  | cons k rest ih =>
    intro fs gs fs' h
    simp only [saveStates] at h ⊢
    cases h1 : s.getAttr k with
    | error _ => simp only [h1] at h; cases h
    | ok d =>
      simp only [h1, cpuS_getAttr h1] at h ⊢
      obtain ⟨gs', h2, h3⟩ := ih (gs := Dict.set gs k (cpuD d)) h
      refine ⟨gs', h2, fun n => ⟨fun hn => ?_, fun hn => (h3 n).2 ?_⟩⟩
      · by_cases hk : k = n
        · refine (h3 n).2 ?_
          rw [Dict.get?_set, Dict.get?_set, if_pos hk, if_pos hk]
          rfl
        · rcases List.mem_cons.1 hn with rfl | hn
          · exact absurd rfl hk
          · exact (h3 n).1 hn
      · rw [Dict.get?_set, Dict.get?_set]
        split
        · rfl
        · exact hn

theorem finalize_cpu [Field K] {s s' : LState K} {dir dir' : StateDir K} (h : s.finalize dir = .ok (s', dir')) (dir₂ : StateDir K) :
    ∃ dir₂', (cpuS s).finalize dir₂ = .ok (cpuS s', dir₂') ∧
      ∀ n ∈ s'.toSave, Dict.get? dir₂'.files n = (Dict.get? dir'.files n).map cpuD := by
  unfold LState.finalize LState.normalize at h ⊢
  cases h1 : normalizePairs s s.toNormalize with
  | error _ => simp only [h1] at h; cases h
  | ok u =>
    simp only [h1] at h
    rw [show (cpuS s).toNormalize = s.toNormalize from rfl, normalizePairs_cpu h1]
    simp only
    unfold LState.saveState at h ⊢
    cases h2 : saveStates u u.toSave dir.files with
    | error _ => simp only [h2] at h; cases h
    | ok fs =>
      simp only [h2] at h
      cases h
      obtain ⟨gs', k1, k2⟩ := saveStates_cpu (gs := dir₂.files) h2
      rw [show (cpuS s').toSave = s'.toSave from rfl, k1]
      exact ⟨_, rfl, fun n hn => (k2 n).1 hn⟩

theorem clearNames_cpu : ∀ {names : List PyStr} {s s' : LState K}, clearNames s names = .ok s' → clearNames (cpuS s) names = .ok (cpuS s') := by
  intro names
  induction names with
  | nil => intro s s' h; cases h; rfl
  | cons n rest ih =>
    intro s s' h
    simp only [clearNames] at h ⊢
    rw [show (cpuS s).notClear = s.notClear from rfl]
    split at h
    · next hh => rw [if_pos hh]; exact ih h
    · next hh =>
      rw [if_neg hh]
      cases h1 : s.getAttr n with
      | error _ => simp only [h1] at h; cases h
      | ok d =>
        simp only [h1, cpuS_getAttr h1] at h ⊢
        rw [show ([] : StateDict K) = cpuD [] from rfl, cpuS_setAttr]
        exact ih h

theorem stepOp_cpu [Field K] {L : Lib K} (hL : DeviceFree L) {s s' : LState K} {o : StateOp K}
    (h : stepOp L s (withOffload false o) = .ok s') : stepOp L (cpuS s) (withOffload true o) = .ok (cpuS s') := by
  have add : ∀ (t x t' : Tensor K), t.add_ x.sum0 = .ok t' → t.dev = x.dev := by
    intro t x t' h
    unfold Tensor.add_ at h
    split at h
    · next hh => exact hh.1
    · cases h
  cases o with
  | update p c =>
    cases p with
    | log => cases h; rfl
    | mean => exact statUpdate_cpu (st := nMean) (cn := nMeanCounter) (z := fun w => [w]) (c := c) add h
    | variance => exact statUpdate_cpu (st := nVariance) (cn := nVarianceCounter) (z := fun w => [w]) (c := c) add h
    | covariance =>
      refine statUpdate_cpu (st := nCov) (cn := nCovCounter) (z := fun w => [w, w]) (acc := fun t x => t.addmmT_ x) (c := c) ?_ h
      intro t x t' h
      unfold Tensor.addmmT_ at h
      split at h
      · next hh => exact hh.1
      · cases h
    | correctedEigval => exact correctedEigval_cpu hL h
  | finalize dir =>
    simp only [withOffload, stepOp] at h ⊢
    cases hf : s.finalize dir with
    | error _ => simp only [hf, Except.map] at h; cases h
    | ok r =>
      obtain ⟨u, dir'⟩ := r
      simp only [hf, Except.map] at h
      cases h
      obtain ⟨dir₂, h2, -⟩ := finalize_cpu hf dir
      simp only [h2, Except.map]
  | clear => exact clearNames_cpu h
  | inverse damping =>
    simp only [withOffload, stepOp] at h ⊢
    cases hf : s.getCovarianceInverse L damping with
    | error _ => simp only [hf, Except.map] at h; cases h
    | ok r =>
      obtain ⟨u, i⟩ := r
      simp only [hf, Except.map] at h
      cases h
      simp only [getCovarianceInverse_cpu hL hf, Except.map]
  | svd =>
    simp only [withOffload, stepOp] at h ⊢
    cases hf : s.getCovarianceSvd L with
    | error _ => simp only [hf, Except.map] at h; cases h
    | ok r =>
      obtain ⟨u, i⟩ := r
      simp only [hf, Except.map] at h
      cases h
      simp only [getCovarianceSvd_cpu hL hf, Except.map]

theorem runOps_cpu [Field K] {L : Lib K} (hL : DeviceFree L) : ∀ {ops : List (StateOp K)} {s s' : LState K},
    runOps L s (ops.map (withOffload false)) = .ok s' → runOps L (cpuS s) (ops.map (withOffload true)) = .ok (cpuS s') := by
  intro ops
  induction ops with
  | nil => intro s s' h; cases h; rfl
  | cons o rest ih =>
    intro s s' h
    simp only [List.map_cons, runOps] at h ⊢
    cases h1 : stepOp L s (withOffload false o) with
    | error _ => simp only [h1] at h; cases h
    | ok u =>
      simp only [h1] at h
      simp only [stepOp_cpu hL h1]
      exact ih h

mutual
theorem lookup_cpu : ∀ (v : Nested (SVal K)) (p : Path), (cpuN v).lookup p = (v.lookup p).map cpuV
  | .leaf a, p => by cases p <;> rfl
  | .node d, p => by
    cases p with
    | nil => rfl
    | cons k ks => exact lookupList_cpu d k ks
theorem lookupList_cpu : ∀ (d : List (PyStr × Nested (SVal K))) (k : PyStr) (ks : Path),
    (Nested.node (cpuD d)).lookup (k :: ks) = ((Nested.node d).lookup (k :: ks)).map cpuV
  | [], k, ks => rfl
  | (k', v) :: rest, k, ks => by
    rw [cpuD, lookup_cons_cons, lookup_cons_cons]
    split
    · exact lookup_cpu v ks
    · exact lookupList_cpu rest k ks
end

theorem tensorAt_cpu (attrs : Dict PyStr (StateDict K)) (n : PyStr) (p : Path) [Semiring K] :
    Spec.tensorAt (cpuA attrs) n p = (Spec.tensorAt attrs n p).map (Tensor.onDev · .cpu) := by
  unfold Spec.tensorAt
  rw [cpuA_get]
  cases Dict.get? attrs n with
  | none => rfl
  | some d =>
    simp only [Option.map_some]
    have := lookup_cpu (.node d) p
    simp only [cpuN] at this
    rw [this]
    cases (Nested.node d).lookup p with
    | none => rfl
    | some v => cases v <;> rfl

/-- **C39**: any program that runs without `cpu_offload` also runs with it, and then every tensor of the state has the same shape and the
same entries, and every number is the same; the only difference is that the tensors are on the CPU. The directories given to `finalize`
and the order of operations are arbitrary. -/
theorem C39_offload [Field K] (L : Lib K) (hL : DeviceFree L) {ops : List (StateOp K)} {s : LState K}
    (h : runOps L .init (ops.map (withOffload false)) = .ok s) :
    ∃ s', runOps L .init (ops.map (withOffload true)) = .ok s' ∧ s'.toSave = s.toSave ∧ s'.toNormalize = s.toNormalize ∧
      (∀ n p, Spec.tensorAt s'.attrs n p = (Spec.tensorAt s.attrs n p).map fun t => t.onDev .cpu) ∧
      ∀ n d p x, Dict.get? s.attrs n = some d → (Nested.node d).lookup p = some (.num x) →
        ∃ d', Dict.get? s'.attrs n = some d' ∧ (Nested.node d').lookup p = some (.num x) := by
  refine ⟨cpuS s, runOps_cpu hL h, rfl, rfl, fun n p => tensorAt_cpu _ _ _, fun n d p x hd hx => ⟨cpuD d, ?_, ?_⟩⟩
  · show Dict.get? (cpuA s.attrs) n = _
    rw [cpuA_get, hd]
    rfl
  · have := lookup_cpu (.node d) p
    simp only [cpuN] at this
    rw [this, hx]
    rfl

/-- **C39**: the files that finalize writes hold the same tensors with and without `cpu_offload`. -/
theorem C39_files [Field K] (L : Lib K) (hL : DeviceFree L) {ops : List (StateOp K)} {s s' : LState K} {dir dir' : StateDir K}
    (h : runOps L .init (ops.map (withOffload false)) = .ok s) (hf : s.finalize dir = .ok (s', dir')) (dir₂ : StateDir K) :
    ∃ u u' dir₂', runOps L .init (ops.map (withOffload true)) = .ok u ∧ u.finalize dir₂ = .ok (u', dir₂') ∧
      ∀ n ∈ s'.toSave, ∀ p, Spec.tensorAt dir₂'.files n p = (Spec.tensorAt dir'.files n p).map fun t => t.onDev .cpu := by
  obtain ⟨dir₂', h2, h3⟩ := finalize_cpu hf dir₂
  refine ⟨cpuS s, cpuS s', dir₂', runOps_cpu hL h, h2, fun n hn p => ?_⟩
  rw [← tensorAt_cpu]
  unfold Spec.tensorAt
  rw [h3 n hn, cpuA_get]

/-! ### A concrete run -/

namespace ExOffload

theorem deviceFree : DeviceFree ExEkfac.lib := by
  refine ⟨fun x d w v h => ?_, fun x d i h => by cases h⟩
  simp only [ExEkfac.lib, Except.ok.injEq] at h ⊢
  unfold ExEkfac.eigh at h ⊢
  simp only [Tensor.onDev_shape]
  split at h
  · next hh => simp only [hh, if_true]; cases h; rfl
  · next hh => simp only [hh, if_false]; cases h; rfl

def ops : List (StateOp Rat) :=
  [.update .covariance ExEkfac.fwd, .update .covariance ExEkfac.bwd, .finalize ⟨[], none⟩, .update .correctedEigval ExEkfac.grad]

/-- A run with EKFAC succeeds without offloading, with tensors on a GPU, and with it the tensors are on the CPU. -/
example : ((runOps ExEkfac.lib .init (ops.map (withOffload false))).toOption.bind fun s => Spec.tensorAt s.attrs nEkfac [ExEkfac.nm]) =
      some ⟨.cuda 0, [1, 2], [25, 400], rfl⟩ ∧
    ((runOps ExEkfac.lib .init (ops.map (withOffload true))).toOption.bind fun s => Spec.tensorAt s.attrs nEkfac [ExEkfac.nm]) =
      some ⟨.cpu, [1, 2], [25, 400], rfl⟩ := by
  decide +kernel

end ExOffload
end Logix
