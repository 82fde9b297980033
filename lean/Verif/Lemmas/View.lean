/-
What an influence computation sees of the state: the covariances, and the eigendecompositions and inverses, which may be cached or not.
-/
import Verif.Props.Labels

namespace Logix
variable {K : Type}

/-- The dictionary that an attribute holds after it was registered. -/
def regD (s : LState K) (n : PyStr) : Option (StateDict K) := if n ∈ s.states then Dict.get? s.attrs n else some []

/-- The eigendecompositions, cached or computed. -/
def eigD (L : Lib K) (s : LState K) : Py (StateDict K × StateDict K) :=
  match Dict.get? s.attrs nEigval, Dict.get? s.attrs nEigvec with
  | some a, some b => .ok (a, b)
  | _, _ =>
    match Dict.get? s.attrs nCov, regD s nEigval, regD s nEigvec with
    | some cov, some a, some b => svdModules L cov a b
    | _, _, _ => .error .attributeError

/-- The inverses, cached or computed. -/
def invD [Field K] (L : Lib K) (s : LState K) (c : Option K) : Py (StateDict K) :=
  match Dict.get? s.attrs nInverse with
  | some a => .ok a
  | none =>
    match Dict.get? s.attrs nCov, regD s nInverse with
    | some cov, some a => inverseModules L c cov a
    | _, _ => .error .attributeError

theorem get?_registerState (s : LState K) (n : PyStr) (a b c : Bool) : Dict.get? (s.registerState n a b c).attrs n = regD s n := by
  unfold LState.registerState regD
  split
  · rfl
  · simp

theorem states_registerState (s : LState K) (n n' : PyStr) (a b c : Bool) (h : n' ≠ n) : n' ∈ (s.registerState n a b c).states ↔ n' ∈ s.states := by
  unfold LState.registerState
  split
  · exact Iff.rfl
  · simp [h]

theorem regD_registerState (s : LState K) (n n' : PyStr) (a b c : Bool) (h : n' ≠ n) : regD (s.registerState n a b c) n' = regD s n' := by
  unfold regD
  simp only [states_registerState s n n' a b c h, registerState_frame s n n' a b c h.symm]

/-- `get_covariance_svd_state` in terms of `eigD`. -/
theorem svd_view (L : Lib K) (s : LState K) :
    (∀ e, eigD L s = .error e → s.getCovarianceSvd L = .error e) ∧
    ∀ a b, eigD L s = .ok (a, b) → ∃ s₁, s.getCovarianceSvd L = .ok (s₁, if s.hasAttr nEkfac then nEkfac else nEigval) ∧
      Dict.get? s₁.attrs nEigval = some a ∧ Dict.get? s₁.attrs nEigvec = some b ∧
      (∀ n, n ≠ nEigval → n ≠ nEigvec → Dict.get? s₁.attrs n = Dict.get? s.attrs n ∧ regD s₁ n = regD s n) := by
  unfold LState.getCovarianceSvd
  cases h1 : Dict.get? s.attrs nEigval with
  | some a =>
    cases h2 : Dict.get? s.attrs nEigvec with
    | some b =>
      have e1 : s.hasAttr nEigval = true := by unfold LState.hasAttr; rw [h1]; rfl
      have e2 : s.hasAttr nEigvec = true := by unfold LState.hasAttr; rw [h2]; rfl
      have : eigD L s = .ok (a, b) := by unfold eigD; rw [h1, h2]
      rw [this, e1, e2]
      simp only [Bool.and_self, if_true]
      refine ⟨fun e h => (by cases h), fun a' b' h => ?_⟩
      cases h
      exact ⟨s, rfl, h1, h2, fun n _ _ => ⟨rfl, rfl⟩⟩
    | none => exact svd_view_aux L s (by unfold LState.hasAttr; rw [h2]; simp) (by unfold eigD; rw [h1, h2])
  | none => exact svd_view_aux L s (by unfold LState.hasAttr; rw [h1]; simp) (by unfold eigD; rw [h1])
where
  svd_view_aux (L : Lib K) (s : LState K) (hb : (s.hasAttr nEigval && s.hasAttr nEigvec) = false)
      (he : eigD L s = match Dict.get? s.attrs nCov, regD s nEigval, regD s nEigvec with
        | some cov, some a, some b => svdModules L cov a b
        | _, _, _ => .error .attributeError) :
      (∀ e, eigD L s = .error e → (match (if s.hasAttr nEigval && s.hasAttr nEigvec then .ok s else s.covarianceSvd L) with
        | .error e => .error e
        | .ok s => .ok (s, if s.hasAttr nEkfac then nEkfac else nEigval) : Py (LState K × PyStr)) = .error e) ∧
      ∀ a b, eigD L s = .ok (a, b) → ∃ s₁, (match (if s.hasAttr nEigval && s.hasAttr nEigvec then .ok s else s.covarianceSvd L) with
        | .error e => .error e
        | .ok s => .ok (s, if s.hasAttr nEkfac then nEkfac else nEigval) : Py (LState K × PyStr)) =
          .ok (s₁, if s.hasAttr nEkfac then nEkfac else nEigval) ∧
        Dict.get? s₁.attrs nEigval = some a ∧ Dict.get? s₁.attrs nEigvec = some b ∧
        (∀ n, n ≠ nEigval → n ≠ nEigvec → Dict.get? s₁.attrs n = Dict.get? s.attrs n ∧ regD s₁ n = regD s n) := by
    rw [he, hb]
    simp only [Bool.false_eq_true, if_false]
    have hs : s.covarianceSvd L = match Dict.get? s.attrs nCov, regD s nEigval, regD s nEigvec with
        | some cov, some a, some b =>
          match svdModules L cov a b with
          | .error e => .error e
          | .ok (a, b) => .ok ((((s.registerState nEigval false true false).registerState nEigvec false true false).setAttr nEigval a).setAttr nEigvec b)
        | _, _, _ => .error .attributeError := by
      unfold LState.covarianceSvd
      simp only
      have g1 : Dict.get? ((s.registerState nEigval false true false).registerState nEigvec false true false).attrs nCov = Dict.get? s.attrs nCov := by
        rw [registerState_frame _ _ _ _ _ _ (by decide), registerState_frame _ _ _ _ _ _ (by decide)]
      have g2 : Dict.get? ((s.registerState nEigval false true false).registerState nEigvec false true false).attrs nEigval = regD s nEigval := by
        rw [registerState_frame _ _ _ _ _ _ (by decide), get?_registerState]
      have g3 : Dict.get? ((s.registerState nEigval false true false).registerState nEigvec false true false).attrs nEigvec = regD s nEigvec := by
        rw [get?_registerState, regD_registerState _ _ _ _ _ _ (by decide)]
      unfold LState.getAttr
      rw [g1, g2, g3]
      cases Dict.get? s.attrs nCov with
      | none => rfl
      | some cov =>
        cases regD s nEigval with
        | none => rfl
        | some a =>
          cases regD s nEigvec with
          | none => rfl
          | some b => rfl
    rw [hs]
    cases h1 : Dict.get? s.attrs nCov with
    | none => exact ⟨fun e h => by cases h; rfl, fun a b h => by cases h⟩
    | some cov =>
      cases h2 : regD s nEigval with
      | none => exact ⟨fun e h => by cases h; rfl, fun a b h => by cases h⟩
      | some a =>
        cases h3 : regD s nEigvec with
        | none => exact ⟨fun e h => by cases h; rfl, fun a b h => by cases h⟩
        | some b =>
          simp only
          cases h4 : svdModules L cov a b with
          | error e => exact ⟨fun e h => by cases h; rfl, fun a b h => by cases h⟩
          | ok ab =>
            obtain ⟨a', b'⟩ := ab
            refine ⟨fun e h => (by cases h), fun x y h => ?_⟩
            cases h
            refine ⟨(((s.registerState nEigval false true false).registerState nEigvec false true false).setAttr nEigval a').setAttr nEigvec b',
              ?_, ?_, ?_, fun n hn hn' => ⟨?_, ?_⟩⟩
            · simp only
              have : ((((s.registerState nEigval false true false).registerState nEigvec false true false).setAttr nEigval a').setAttr nEigvec b').hasAttr nEkfac =
                  s.hasAttr nEkfac := by
                unfold LState.hasAttr
                rw [get?_setAttr, if_neg (show nEigvec ≠ nEkfac by decide), get?_setAttr, if_neg (show nEigval ≠ nEkfac by decide),
                  registerState_frame _ _ _ _ _ _ (by decide), registerState_frame _ _ _ _ _ _ (by decide)]
              rw [this]
            · rw [get?_setAttr, if_neg (by decide), get?_setAttr, if_pos rfl]
            · rw [get?_setAttr, if_pos rfl]
            · rw [get?_setAttr, if_neg hn'.symm, get?_setAttr, if_neg hn.symm, registerState_frame _ _ _ _ _ _ hn'.symm, registerState_frame _ _ _ _ _ _ hn.symm]
            · have : ∀ (t : LState K) (k : PyStr) (d : StateDict K), k ≠ n → regD (t.setAttr k d) n = regD t n := by
                intro t k d hk
                unfold regD
                rw [get?_setAttr, if_neg hk]; rfl
              rw [this _ _ _ hn'.symm, this _ _ _ hn.symm, regD_registerState _ _ _ _ _ _ hn', regD_registerState _ _ _ _ _ _ hn]

/-- `get_covariance_inverse_state` in terms of `invD`. -/
theorem inv_view [Field K] (L : Lib K) (s : LState K) (c : Option K) :
    (∀ e, invD L s c = .error e → s.getCovarianceInverse L c = .error e) ∧
    ∀ a, invD L s c = .ok a → ∃ s₁, s.getCovarianceInverse L c = .ok (s₁, a) ∧ Dict.get? s₁.attrs nInverse = some a ∧
      ∀ n, n ≠ nInverse → Dict.get? s₁.attrs n = Dict.get? s.attrs n ∧ regD s₁ n = regD s n := by
  unfold LState.getCovarianceInverse invD
  cases h1 : Dict.get? s.attrs nInverse with
  | some a =>
    have e1 : s.hasAttr nInverse = true := by unfold LState.hasAttr; rw [h1]; rfl
    have e2 : s.getAttr nInverse = .ok a := getAttr_eq.2 h1
    rw [e1]
    simp only [if_true, e2]
    refine ⟨fun e h => (by cases h), fun a' h => ?_⟩
    cases h
    exact ⟨s, rfl, h1, fun n _ => ⟨rfl, rfl⟩⟩
  | none =>
    have e1 : s.hasAttr nInverse = false := by unfold LState.hasAttr; rw [h1]; rfl
    rw [e1]
    simp only [Bool.false_eq_true, if_false]
    have hs : s.covarianceInverse L c = match Dict.get? s.attrs nCov, regD s nInverse with
        | some cov, some a =>
          match inverseModules L c cov a with
          | .error e => .error e
          | .ok a => .ok ((s.registerState nInverse false true false).setAttr nInverse a)
        | _, _ => .error .attributeError := by
      unfold LState.covarianceInverse
      simp only
      have g1 : Dict.get? (s.registerState nInverse false true false).attrs nCov = Dict.get? s.attrs nCov := by
        rw [registerState_frame _ _ _ _ _ _ (by decide)]
      unfold LState.getAttr
      rw [g1, get?_registerState]
      cases Dict.get? s.attrs nCov with
      | none => rfl
      | some cov =>
        cases regD s nInverse with
        | none => rfl
        | some a => rfl
    rw [hs]
    cases h2 : Dict.get? s.attrs nCov with
    | none => exact ⟨fun e h => by cases h; rfl, fun a h => by cases h⟩
    | some cov =>
      cases h3 : regD s nInverse with
      | none => exact ⟨fun e h => by cases h; rfl, fun a h => by cases h⟩
      | some a =>
        simp only
        cases h4 : inverseModules L c cov a with
        | error e => exact ⟨fun e h => by cases h; rfl, fun a h => by cases h⟩
        | ok a' =>
          refine ⟨fun e h => (by cases h), fun x h => ?_⟩
          cases h
          have hg : Dict.get? ((s.registerState nInverse false true false).setAttr nInverse a').attrs nInverse = some a' := by
            rw [get?_setAttr, if_pos rfl]
          refine ⟨(s.registerState nInverse false true false).setAttr nInverse a', ?_, hg, fun n hn => ⟨?_, ?_⟩⟩
          · simp only [getAttr_eq.2 hg]
          · rw [get?_setAttr, if_neg hn.symm, registerState_frame _ _ _ _ _ _ hn.symm]
          · have : ∀ (t : LState K) (k : PyStr) (d : StateDict K), k ≠ n → regD (t.setAttr k d) n = regD t n := by
              intro t k d hk
              unfold regD
              rw [get?_setAttr, if_neg hk]; rfl
            rw [this _ _ _ hn.symm, regD_registerState _ _ _ _ _ _ hn]

/-- Two states that look the same to influence computations whose damping satisfies `P`; no eigenvalues are fitted. -/
structure SameView [Field K] (L : Lib K) (P : Option K → Prop) (s s' : LState K) : Prop where
  ek : s.hasAttr nEkfac = false
  ek' : s'.hasAttr nEkfac = false
  table : ∀ a b, eigD L s = .ok (a, b) → ∀ m, indexable a m = true
  cov : Dict.get? s'.attrs nCov = Dict.get? s.attrs nCov
  path : Dict.get? s'.attrs nModelModule = Dict.get? s.attrs nModelModule
  eig : eigD L s' = eigD L s
  inv : ∀ c, P c → invD L s' c = invD L s c

theorem SameView.symm [Field K] {L : Lib K} {P : Option K → Prop} {s s' : LState K} (h : SameView L P s s') : SameView L P s' s :=
  ⟨h.ek', h.ek, by rw [h.eig]; exact h.table, h.cov.symm, h.path.symm, h.eig.symm, fun c hc => (h.inv c hc).symm⟩

theorem SameView.trans [Field K] {L : Lib K} {P : Option K → Prop} {s s' s'' : LState K} (h : SameView L P s s') (h' : SameView L P s' s'') : SameView L P s s'' :=
  ⟨h.ek, h'.ek', h.table, h'.cov.trans h.cov, h'.path.trans h.path, h'.eig.trans h.eig, fun c hc => (h'.inv c hc).trans (h.inv c hc)⟩

/-- A state reached by a run without fitted eigenvalues looks like itself. -/
theorem SameView.run [Field K] {L : Lib K} {P : Option K → Prop} {ops : List (StateOp K)} {s : LState K} (hrun : runOps L .init ops = .ok s)
    (hek : s.hasAttr nEkfac = false) : SameView L P s s := by
  refine ⟨hek, hek, fun a b h m => ?_, rfl, rfl, rfl, fun _ _ => rfl⟩
  unfold eigD at h
  split at h
  · next h1 h2 => cases h; exact eigTable hrun _ h1 m
  · split at h
    · next cov a' b' h1 h2 h3 =>
      refine svdModules_indexable L h ?_ m
      intro m
      unfold regD at h2
      split at h2
      · exact eigTable hrun _ h2 m
      · cases h2; rfl
    · cases h

theorem eigD_congr {L : Lib K} {s s' : LState K} (h : ∀ n, n = nEigval ∨ n = nEigvec ∨ n = nCov → Dict.get? s'.attrs n = Dict.get? s.attrs n ∧ regD s' n = regD s n) :
    eigD L s' = eigD L s := by
  unfold eigD
  rw [(h nEigval (.inl rfl)).1, (h nEigvec (.inr (.inl rfl))).1, (h nCov (.inr (.inr rfl))).1, (h nEigval (.inl rfl)).2, (h nEigvec (.inr (.inl rfl))).2]

theorem invD_congr [Field K] {L : Lib K} {s s' : LState K} (h : ∀ n, n = nInverse ∨ n = nCov → Dict.get? s'.attrs n = Dict.get? s.attrs n ∧ regD s' n = regD s n)
    (c : Option K) : invD L s' c = invD L s c := by
  unfold invD
  rw [(h nInverse (.inl rfl)).1, (h nCov (.inr rfl)).1, (h nInverse (.inl rfl)).2]

/-- What `precondition` returns, given what it sees of the state. -/
def preOut [Field K] (cov : Option (StateDict K)) (eig : Py (StateDict K × StateDict K)) (inv : Py (StateDict K)) (src : LogArg K) (hessian : Hess)
    (damping : Option K) : Py (LogArg K) :=
  if hessian = .other then .error .assertionError
  else
    match src with
    | .flat _ => .error .attributeError
    | .dict d =>
      match cov with
      | none => .error .attributeError
      | some cov =>
        if d.any fun p => !Dict.contains cov p.1 then .ok (.dict d)
        else
          match usesRaw cov d hessian with
          | .error e => .error e
          | .ok true => match inv with
            | .error e => .error e
            | .ok inv => match rawLoop inv [] d with
              | .error e => .error e
              | .ok out => .ok (.dict out)
          | .ok false => match eig with
            | .error e => .error e
            | .ok (vals, vecs) => match kfacLoop vecs damping vals [] d with
              | .error e => .error e
              | .ok (_, out) => .ok (.dict out)

/-- `precondition` returns the same in states that look the same, and the states after look the same. -/
theorem precondition_view [Field K] {L : Lib K} {P : Option K → Prop} {s : LState K} (hs : SameView L P s s) (src : LogArg K) (hessian : Hess) (damping : Option K)
    (hP : hessian = .kfac ∨ P = fun c => c = damping) :
    (∀ e, preOut (Dict.get? s.attrs nCov) (eigD L s) (invD L s damping) src hessian damping = .error e → precondition L s src hessian damping = .error e) ∧
    ∀ o, preOut (Dict.get? s.attrs nCov) (eigD L s) (invD L s damping) src hessian damping = .ok o →
      ∃ s₁, precondition L s src hessian damping = .ok (s₁, o) ∧ SameView L P s s₁ := by
  unfold preOut precondition
  split
  · exact ⟨fun e h => by cases h; rfl, fun o h => by cases h⟩
  · next hh =>
    cases src with
    | flat t => exact ⟨fun e h => by cases h; rfl, fun o h => by cases h⟩
    | dict d =>
      simp only
      cases hcov : Dict.get? s.attrs nCov with
      | none =>
        have : s.getAttr nCov = .error .attributeError := by unfold LState.getAttr; rw [hcov]
        rw [this]
        exact ⟨fun e h => by cases h; rfl, fun o h => by cases h⟩
      | some cov =>
        have : s.getAttr nCov = .ok cov := getAttr_eq.2 hcov
        rw [this]
        simp only
        split
        · exact ⟨fun e h => (by cases h), fun o h => by cases h; exact ⟨s, rfl, hs⟩⟩
        · cases hr : usesRaw cov d hessian with
          | error e => exact ⟨fun e h => by cases h; rfl, fun o h => by cases h⟩
          | ok raw =>
            cases raw with
            | true =>
              have hk : hessian ≠ .kfac := by
                rintro rfl
                cases hr
              have hP := hP.resolve_left hk
              simp only [if_true]
              unfold preconditionRaw
              obtain ⟨v1, v2⟩ := inv_view L s damping
              cases hi : invD L s damping with
              | error e => rw [v1 e hi]; exact ⟨fun e h => by cases h; rfl, fun o h => by cases h⟩
              | ok inv =>
                obtain ⟨s₁, w1, w2, w3⟩ := v2 inv hi
                rw [w1]
                simp only
                cases rawLoop inv [] d with
                | error e => exact ⟨fun e h => by cases h; rfl, fun o h => by cases h⟩
                | ok out =>
                  refine ⟨fun e h => (by cases h), fun o h => ?_⟩
                  cases h
                  refine ⟨s₁, rfl, hs.ek, ?_, hs.table, (w3 _ (by decide)).1, (w3 _ (by decide)).1, eigD_congr fun n hn => w3 n ?_, fun c hc => ?_⟩
                  · have := hs.ek; unfold LState.hasAttr at this ⊢; rw [(w3 nEkfac (by decide)).1]; exact this
                  · rcases hn with rfl | rfl | rfl <;> decide
                  · rw [hP] at hc
                    subst hc
                    rw [hi]
                    unfold invD
                    rw [w2]
            | false =>
              simp only [Bool.false_eq_true, if_false]
              unfold preconditionKfac
              obtain ⟨v1, v2⟩ := svd_view L s
              cases hi : eigD L s with
              | error e => rw [v1 e hi]; exact ⟨fun e h => by cases h; rfl, fun o h => by cases h⟩
              | ok ab =>
                obtain ⟨vals, vecs⟩ := ab
                obtain ⟨s₁, w1, w2, w3, w4⟩ := v2 vals vecs hi
                rw [w1, hs.ek]
                simp only [Bool.false_eq_true, if_false]
                rw [getAttr_eq.2 w2, getAttr_eq.2 w3]
                simp only
                cases hl : kfacLoop vecs damping vals [] d with
                | error e => exact ⟨fun e h => by cases h; rfl, fun o h => by cases h⟩
                | ok vo =>
                  obtain ⟨vals', out⟩ := vo
                  obtain rfl := kfacLoop_vals (fun m t ht => by
                    have := hs.table _ _ hi m
                    unfold indexable at this
                    rw [ht] at this
                    cases this) hl
                  refine ⟨fun e h => (by cases h), fun o h => ?_⟩
                  cases h
                  simp only [setAttr_self (getAttr_eq.2 w2)]
                  refine ⟨s₁, rfl, hs.ek, ?_, hs.table, (w4 _ (by decide) (by decide)).1, (w4 _ (by decide) (by decide)).1, ?_, fun c hc => invD_congr (fun n hn => w4 n ?_ ?_) c⟩
                  · have := hs.ek; unfold LState.hasAttr at this ⊢; rw [(w4 nEkfac (by decide) (by decide)).1]; exact this
                  · rw [hi]; unfold eigD; rw [w2, w3]
                  · rcases hn with rfl | rfl <;> decide
                  · rcases hn with rfl | rfl <;> decide

/-- The two outcomes are the same result or the same error, and the states after look the same. -/
def SameOut [Field K] {α : Type} (L : Lib K) (P : Option K → Prop) (x y : Py (LState K × α)) : Prop :=
  (∃ e, x = .error e ∧ y = .error e) ∨ ∃ s₁ s₂ a, x = .ok (s₁, a) ∧ y = .ok (s₂, a) ∧ SameView L P s₁ s₂

theorem SameView.left [Field K] {L : Lib K} {P : Option K → Prop} {s s' : LState K} (h : SameView L P s s') : SameView L P s s := h.trans h.symm

theorem precondition_same [Field K] {L : Lib K} {P : Option K → Prop} {s s' : LState K} (hs : SameView L P s s') (src : LogArg K) (hessian : Hess)
    (damping : Option K) (hP : hessian = .kfac ∨ P = fun c => c = damping) :
    SameOut L P (precondition L s src hessian damping) (precondition L s' src hessian damping) ∧
    ∀ s₁ o, precondition L s src hessian damping = .ok (s₁, o) → SameView L P s s₁ := by
  obtain ⟨a1, a2⟩ := precondition_view hs.left src hessian damping hP
  obtain ⟨b1, b2⟩ := precondition_view hs.symm.left src hessian damping hP
  have hq : preOut (Dict.get? s'.attrs nCov) (eigD L s') (invD L s' damping) src hessian damping =
      preOut (Dict.get? s.attrs nCov) (eigD L s) (invD L s damping) src hessian damping := by
    rw [hs.cov, hs.eig]
    rcases hP with rfl | hP
    · unfold preOut
      split
      · rfl
      · cases src with
        | flat t => rfl
        | dict d =>
          simp only
          cases Dict.get? s.attrs nCov with
          | none => rfl
          | some cov => simp only [usesRaw]
    · rw [hs.inv damping (by rw [hP])]
  rw [hq] at b1 b2
  cases h : preOut (Dict.get? s.attrs nCov) (eigD L s) (invD L s damping) src hessian damping with
  | error e =>
    exact ⟨.inl ⟨e, a1 e h, b1 e h⟩, fun s₁ o h' => by rw [a1 e h] at h'; cases h'⟩
  | ok o =>
    obtain ⟨s₁, c1, c2⟩ := a2 o h
    obtain ⟨s₂, d1, d2⟩ := b2 o h
    refine ⟨.inr ⟨s₁, s₂, o, c1, d1, c2.symm.trans (hs.trans d2)⟩, fun x o' h' => ?_⟩
    rw [c1] at h'
    cases h'
    exact c2

theorem pre_same [Field K] {L : Lib K} {P : Option K → Prop} {s s' : LState K} (hs : SameView L P s s') (pre : Bool) (src : LogArg K) (hessian : Hess)
    (damping : Option K) (hP : hessian = .kfac ∨ P = fun c => c = damping) :
    SameOut L P (if pre then precondition L s src hessian damping else .ok (s, src)) (if pre then precondition L s' src hessian damping else .ok (s', src)) ∧
    ∀ s₁ o, (if pre then precondition L s src hessian damping else .ok (s, src)) = .ok (s₁, o) → SameView L P s s₁ := by
  cases pre with
  | true => exact precondition_same hs src hessian damping hP
  | false => exact ⟨.inr ⟨s, s', src, rfl, rfl, hs⟩, fun s₁ o h => by cases h; exact hs.left⟩

theorem computeSelf_same [Field K] {L : Lib K} {P : Option K → Prop} {s s' : LState K} (hs : SameView L P s s') (ids : List PyStr) (src : LogArg K) (pre : Bool)
    (hessian : Hess) (groups : Option (List PyStr)) (damping : Option K) (hP : hessian = .kfac ∨ P = fun c => c = damping) :
    SameOut L P (computeSelf L s ids src pre hessian groups damping) (computeSelf L s' ids src pre hessian groups damping) ∧
    ∀ s₁ o, computeSelf L s ids src pre hessian groups damping = .ok (s₁, o) → SameView L P s s₁ := by
  unfold computeSelf
  cases src with
  | flat t => exact ⟨.inl ⟨_, rfl, rfl⟩, fun _ _ h => by cases h⟩
  | dict d =>
    simp only
    obtain ⟨h1, h2⟩ := pre_same hs pre (.dict d) hessian damping hP
    rcases h1 with ⟨e, e1, e2⟩ | ⟨s₁, s₂, o, e1, e2, e3⟩
    · rw [e1, e2]
      exact ⟨.inl ⟨e, rfl, rfl⟩, fun _ _ h => by cases h⟩
    · have h2 := h2 _ _ e1
      rw [e1, e2]
      cases o with
      | flat t => exact ⟨.inl ⟨_, rfl, rfl⟩, fun _ _ h => by cases h⟩
      | dict p =>
        simp only
        cases selfLoop groups p d (initScores (groups.getD [])) with
        | error e => exact ⟨.inl ⟨_, rfl, rfl⟩, fun _ _ h => by cases h⟩
        | ok sc =>
          simp only
          cases checkScores [ids.length] sc with
          | error e => exact ⟨.inl ⟨_, rfl, rfl⟩, fun _ _ h => by cases h⟩
          | ok sc =>
            simp only
            cases finishScores groups sc with
            | error e => exact ⟨.inl ⟨_, rfl, rfl⟩, fun _ _ h => by cases h⟩
            | ok inf => exact ⟨.inr ⟨_, _, _, rfl, rfl, e3⟩, fun _ _ h => by cases h; exact h2⟩

theorem modeScores_same [Field K] {L : Lib K} {P : Option K → Prop} {s s' : LState K} (hs : SameView L P s s') (sqrt : K → K) (ids : List PyStr) (tgt : LogArg K)
    (mode : Mode) (hessian : Hess) (groups : Option (List PyStr)) (damping : Option K) (sc : Scores K) (hP : hessian = .kfac ∨ P = fun c => c = damping) :
    SameOut L P (modeScores L sqrt s ids tgt mode hessian groups damping sc) (modeScores L sqrt s' ids tgt mode hessian groups damping sc) ∧
    ∀ s₁ o, modeScores L sqrt s ids tgt mode hessian groups damping sc = .ok (s₁, o) → SameView L P s s₁ := by
  unfold modeScores
  split
  · exact ⟨.inr ⟨_, _, _, rfl, rfl, hs⟩, fun _ _ h => by cases h; exact hs.left⟩
  · obtain ⟨h1, h2⟩ := computeSelf_same hs ids tgt true hessian groups damping hP
    rcases h1 with ⟨e, e1, e2⟩ | ⟨s₁, s₂, o, e1, e2, e3⟩
    · rw [e1, e2]
      exact ⟨.inl ⟨e, rfl, rfl⟩, fun _ _ h => by cases h⟩
    · have h2 := h2 _ _ e1
      rw [e1, e2]
      simp only
      cases applyNorm (if mode = .cosine then fun x y => x / sqrt y else fun x y => x - 1 / 2 * y) o.influence sc with
      | error e => exact ⟨.inl ⟨_, rfl, rfl⟩, fun _ _ h => by cases h⟩
      | ok sc => exact ⟨.inr ⟨_, _, _, rfl, rfl, e3⟩, fun _ _ h => by cases h; exact h2⟩

theorem rawScores_same [Field K] {L : Lib K} {P : Option K → Prop} {s s' : LState K} (hs : SameView L P s s') (src tgt : LogArg K) (groups : Option (List PyStr)) :
    rawScores s' src tgt groups = rawScores s src tgt groups := by
  unfold rawScores
  rw [getAttr_congr hs.path]

theorem computeInfluence_same [Field K] {L : Lib K} {P : Option K → Prop} {s s' : LState K} (hs : SameView L P s s') (sqrt : K → K) (srcIds tgtIds : List PyStr)
    (src tgt : LogArg K) (mode : Mode) (pre : Bool) (hessian : Hess) (groups : Option (List PyStr)) (damping : Option K)
    (hP : hessian = .kfac ∨ P = fun c => c = damping) :
    SameOut L P (computeInfluence L sqrt s srcIds src tgtIds tgt mode pre hessian groups damping)
      (computeInfluence L sqrt s' srcIds src tgtIds tgt mode pre hessian groups damping) ∧
    ∀ s₁ o, computeInfluence L sqrt s srcIds src tgtIds tgt mode pre hessian groups damping = .ok (s₁, o) → SameView L P s s₁ := by
  unfold computeInfluence
  split
  · exact ⟨.inl ⟨_, rfl, rfl⟩, fun _ _ h => by cases h⟩
  · obtain ⟨h1, h2⟩ := pre_same hs pre src hessian damping hP
    rcases h1 with ⟨e, e1, e2⟩ | ⟨s₁, s₂, o, e1, e2, e3⟩
    · rw [e1, e2]
      exact ⟨.inl ⟨e, rfl, rfl⟩, fun _ _ h => by cases h⟩
    · have h2 := h2 _ _ e1
      rw [e1, e2]
      simp only
      rw [rawScores_same e3]
      cases rawScores s₁ o tgt groups with
      | error e => exact ⟨.inl ⟨_, rfl, rfl⟩, fun _ _ h => by cases h⟩
      | ok st =>
        obtain ⟨sc, t⟩ := st
        simp only
        obtain ⟨g1, g2⟩ := modeScores_same e3 sqrt tgtIds t mode hessian groups damping sc hP
        rcases g1 with ⟨e, e1, e2⟩ | ⟨x₁, x₂, o, f1, f2, f3⟩
        · rw [e1, e2]
          exact ⟨.inl ⟨e, rfl, rfl⟩, fun _ _ h => by cases h⟩
        · have g2 := g2 _ _ f1
          rw [f1, f2]
          simp only
          cases checkScores [srcIds.length, tgtIds.length] o with
          | error e => exact ⟨.inl ⟨_, rfl, rfl⟩, fun _ _ h => by cases h⟩
          | ok sc =>
            simp only
            cases finishScores groups sc with
            | error e => exact ⟨.inl ⟨_, rfl, rfl⟩, fun _ _ h => by cases h⟩
            | ok inf => exact ⟨.inr ⟨_, _, _, rfl, rfl, f3⟩, fun _ _ h => by cases h; exact h2.trans g2⟩

end Logix
