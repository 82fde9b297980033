/-
C118: only the gradients of the logs matter for influence scores. The property is false: entries of other types in the target log make
preconditioned influence computations fail.
-/
import Verif.Spec.GradOnly
import Verif.Lemmas.SuccessHess

namespace Logix
variable {K : Type}

theorem grads_nil {d : GLog K} (h : Spec.grads d = []) : d = [] := by
  cases d with
  | nil => rfl
  | cons p r => cases h

theorem grads_get? : ∀ {d d' : GLog K}, Spec.grads d = Spec.grads d' → ∀ m,
    (Dict.get? d m).map (fun sub => Dict.get? sub (LogType.name .grad)) = (Dict.get? d' m).map fun sub => Dict.get? sub (LogType.name .grad)
  | [], d', h, m => by rw [grads_nil h.symm]
  | p :: r, [], h, m => by cases h
  | (a, x) :: r, (b, y) :: r', h, m => by
    simp only [Spec.grads, List.map_cons, List.cons.injEq, Prod.mk.injEq] at h
    obtain ⟨⟨rfl, hx⟩, hr⟩ := h
    simp only [Dict.get?_cons]
    split
    · simp [hx]
    · exact grads_get? hr m

theorem grads_logItem {d d' : GLog K} (h : Spec.grads d = Spec.grads d') (m : PyStr) :
    logItem d m (LogType.name .grad) = logItem d' m (LogType.name .grad) := by
  have := grads_get? h m
  unfold logItem
  cases h1 : Dict.get? d m <;> cases h2 : Dict.get? d' m <;> simp only [h1, h2, Option.map_none, Option.map_some, reduceCtorEq, Option.some.injEq] at this ⊢
  rw [this]

theorem kfacLoop_grads [Field K] {vecs : StateDict K} : ∀ {d d' : GLog K}, Spec.grads d = Spec.grads d' → ∀ (c : Option K) (vals : StateDict K) (out : GLog K),
    kfacLoop vecs c vals out d = kfacLoop vecs c vals out d'
  | [], d', h, _, _, _ => by rw [grads_nil h.symm]
  | p :: r, [], h, _, _, _ => by cases h
  | (a, x) :: r, (b, y) :: r', h, c, vals, out => by
    simp only [Spec.grads, List.map_cons, List.cons.injEq, Prod.mk.injEq] at h
    obtain ⟨⟨rfl, hx⟩, hr⟩ := h
    have ih := kfacLoop_grads (vecs := vecs) hr
    simp only [kfacLoop, hx, ih]

theorem rawLoop_grads [Semiring K] {inv : StateDict K} : ∀ {d d' : GLog K}, Spec.grads d = Spec.grads d' → ∀ (out : GLog K),
    rawLoop inv out d = rawLoop inv out d'
  | [], d', h, _ => by rw [grads_nil h.symm]
  | p :: r, [], h, _ => by cases h
  | (a, x) :: r, (b, y) :: r', h, out => by
    simp only [Spec.grads, List.map_cons, List.cons.injEq, Prod.mk.injEq] at h
    obtain ⟨⟨rfl, hx⟩, hr⟩ := h
    have ih := rawLoop_grads (inv := inv) hr
    simp only [rawLoop, hx, ih]

theorem usesRaw_grads (cov : StateDict K) : ∀ {d d' : GLog K}, Spec.grads d = Spec.grads d' → ∀ h : Hess, usesRaw cov d h = usesRaw cov d' h
  | [], d', h, _ => by rw [grads_nil h.symm]
  | p :: r, [], h, _ => by cases h
  | (a, x) :: r, (b, y) :: r', h, hs => by
    simp only [Spec.grads, List.map_cons, List.cons.injEq, Prod.mk.injEq] at h
    obtain ⟨⟨rfl, hx⟩, hr⟩ := h
    cases hs <;> rfl

theorem any_grads (cov : StateDict K) : ∀ {d d' : GLog K}, Spec.grads d = Spec.grads d' →
    (d.any fun p => !Dict.contains cov p.1) = d'.any fun p => !Dict.contains cov p.1
  | [], d', h => by rw [grads_nil h.symm]
  | p :: r, [], h => by cases h
  | (a, x) :: r, (b, y) :: r', h => by
    simp only [Spec.grads, List.map_cons, List.cons.injEq, Prod.mk.injEq] at h
    obtain ⟨⟨rfl, hx⟩, hr⟩ := h
    simp only [List.any_cons, any_grads cov hr]

/-- What comes out of preconditioning has the same gradients, and after actual preconditioning is the same altogether. -/
theorem precondition_grads [Field K] (L : Lib K) (s : LState K) {d d' : GLog K} (h : Spec.grads d = Spec.grads d') (hessian : Hess) (c : Option K) :
    precondition L s (.dict d) hessian c = precondition L s (.dict d') hessian c ∨
      (precondition L s (.dict d) hessian c = .ok (s, .dict d) ∧ precondition L s (.dict d') hessian c = .ok (s, .dict d')) := by
  unfold precondition
  by_cases ho : hessian = .other
  · simp [ho]
  · simp only [if_neg ho]
    cases hc : s.getAttr nCov with
    | error e => simp
    | ok cov =>
      simp only [any_grads cov h]
      split
      · right; simp
      · left
        simp only [usesRaw_grads cov h, preconditionRaw, preconditionKfac, rawLoop_grads h, kfacLoop_grads h]

theorem selfLoop_grads [Semiring K] (groups : Option (List PyStr)) {t t' : GLog K} (ht : Spec.grads t = Spec.grads t') :
    ∀ {d d' : GLog K}, Spec.grads d = Spec.grads d' → ∀ sc, selfLoop groups t d sc = selfLoop groups t' d' sc
  | [], d', h, _ => by rw [grads_nil h.symm]; rfl
  | p :: r, [], h, _ => by cases h
  | (a, x) :: r, (b, y) :: r', h, sc => by
    simp only [Spec.grads, List.map_cons, List.cons.injEq, Prod.mk.injEq] at h
    obtain ⟨⟨rfl, hx⟩, hr⟩ := h
    have ih := selfLoop_grads groups ht hr
    simp only [selfLoop, hx, grads_logItem ht, ih]

theorem moduleLoop_grads [Semiring K] (groups : Option (List PyStr)) {t t' : GLog K} (ht : Spec.grads t = Spec.grads t') :
    ∀ {d d' : GLog K}, Spec.grads d = Spec.grads d' → ∀ sc, moduleLoop groups t d sc = moduleLoop groups t' d' sc
  | [], d', h, _ => by rw [grads_nil h.symm]; rfl
  | p :: r, [], h, _ => by cases h
  | (a, x) :: r, (b, y) :: r', h, sc => by
    simp only [Spec.grads, List.map_cons, List.cons.injEq, Prod.mk.injEq] at h
    obtain ⟨⟨rfl, hx⟩, hr⟩ := h
    have ih := moduleLoop_grads groups ht hr
    simp only [moduleLoop, hx, grads_logItem ht, ih]

/-- The rest of `compute_self_influence` after preconditioning. -/
private def selfTail [Field K] (ids : List PyStr) (groups : Option (List PyStr)) (s : LState K) (p d : GLog K) : Py (LState K × SelfResult K) :=
  match selfLoop groups p d (initScores (groups.getD [])) with
  | .error e => .error e
  | .ok sc =>
    match checkScores [ids.length] sc with
    | .error e => .error e
    | .ok sc =>
      match finishScores groups sc with
      | .error e => .error e
      | .ok inf => .ok (s, ⟨ids, inf⟩)

private theorem self_tail [Field K] (L : Lib K) (s : LState K) (ids : List PyStr) (d : GLog K) (pre : Bool)
    (hessian : Hess) (groups : Option (List PyStr)) (damping : Option K) :
    computeSelf L s ids (.dict d) pre hessian groups damping =
      match (if pre then precondition L s (.dict d) hessian damping else .ok (s, .dict d)) with
      | .error e => .error e
      | .ok (_, .flat _) => .error .typeError
      | .ok (s, .dict p) => selfTail ids groups s p d := rfl

/-- **C118 (self-influence).** Self-influence scores depend on the gradients of the log only: logs with the same modules and gradients get the
same result, be it scores or an exception, and leave the same state. -/
theorem C118_self_partial [Field K] (L : Lib K) (s : LState K) (ids : List PyStr) {d d' : GLog K} (h : Spec.grads d = Spec.grads d') (pre : Bool)
    (hessian : Hess) (groups : Option (List PyStr)) (damping : Option K) :
    computeSelf L s ids (.dict d) pre hessian groups damping = computeSelf L s ids (.dict d') pre hessian groups damping := by
  have key : ∀ (s : LState K) {p p' : GLog K}, Spec.grads p = Spec.grads p' → selfTail ids groups s p d = selfTail ids groups s p' d' := by
    intro s p p' hp
    unfold selfTail
    rw [selfLoop_grads groups hp h]
  rw [self_tail, self_tail]
  cases pre with
  | false => exact key s h
  | true =>
    simp only [if_true]
    rcases precondition_grads L s h hessian damping with he | ⟨h1, h2⟩
    · rw [he]
      cases precondition L s (.dict d') hessian damping with
      | error e => rfl
      | ok r =>
        obtain ⟨s', p⟩ := r
        cases p with
        | flat t => rfl
        | dict p => exact key s' rfl
    · rw [h1, h2]
      exact key s h

/-! ### Moving the targets to the device of the sources -/

/-- The first entry of a log. -/
theorem first_grads : ∀ {t : GLog K}, Spec.GradFirst t →
    (t.flatMap fun p => p.2.map fun q => (p.1, q.1)).head? =
      ((Spec.grads t).find? fun p => p.2.isSome).map fun p => (p.1, LogType.name .grad)
  | [], _ => rfl
  | (m, []) :: r, h => by
    have := first_grads (t := r) fun p hp => h p (by simp [hp])
    simpa [Spec.grads, List.flatMap_cons] using this
  | (m, (k, x) :: sub) :: r, h => by
    have hk : k = LogType.name .grad := h (m, (k, x) :: sub) (by simp) (k, x) (by simp)
    subst hk
    simp [Spec.grads, List.flatMap_cons, Dict.get?_cons]

theorem get?_map_onDev (dev : Dev) (k : PyStr) : ∀ sub : Dict PyStr (Tensor K),
    Dict.get? (sub.map fun q => (q.1, q.2.onDev dev)) k = (Dict.get? sub k).map (·.onDev dev)
  | [] => rfl
  | (a, x) :: r => by
    simp only [List.map_cons, Dict.get?_cons]
    split
    · rfl
    · exact get?_map_onDev dev k r

theorem grads_onDev (dev : Dev) (t : GLog K) :
    Spec.grads (t.map fun p => (p.1, p.2.map fun q => (q.1, q.2.onDev dev))) = (Spec.grads t).map fun p => (p.1, p.2.map (·.onDev dev)) := by
  unfold Spec.grads
  simp only [List.map_map]
  apply List.map_congr_left
  intro p _
  simp [get?_map_onDev]

theorem syncDevice_head (d t : GLog K) : syncDevice d t =
    match (t.flatMap fun p => p.2.map fun q => (p.1, q.1)).head? with
    | none => .ok t
    | some e =>
      match logItem d e.1 e.2 with
      | .error e => .error e
      | .ok x => .ok (t.map fun p => (p.1, p.2.map fun q => (q.1, q.2.onDev x.dev))) := by
  unfold syncDevice
  cases t.flatMap fun p => p.2.map fun q => (p.1, q.1) <;> rfl

theorem syncDevice_grads {d d' t t' : GLog K} (hd : Spec.grads d = Spec.grads d') (ht : Spec.grads t = Spec.grads t') (hf : Spec.GradFirst t)
    (hf' : Spec.GradFirst t') :
    (∃ e, syncDevice d t = .error e ∧ syncDevice d' t' = .error e) ∨
      ∃ u u', syncDevice d t = .ok u ∧ syncDevice d' t' = .ok u' ∧ Spec.grads u = Spec.grads u' := by
  rw [syncDevice_head, syncDevice_head, first_grads hf, first_grads hf', ht]
  cases (Spec.grads t').find? fun p => p.2.isSome with
  | none => exact .inr ⟨t, t', rfl, rfl, ht⟩
  | some p =>
    simp only [Option.map_some, grads_logItem hd]
    cases logItem d' p.1 (LogType.name .grad) with
    | error e => exact .inl ⟨e, rfl, rfl⟩
    | ok x => exact .inr ⟨_, _, rfl, rfl, by rw [grads_onDev, grads_onDev, ht]⟩

/-- The rest of `compute_influence` after preconditioning. -/
private def tailOf [Field K] (L : Lib K) (sqrt : K → K) (srcIds tgtIds : List PyStr) (mode : Mode) (hessian : Hess) (groups : Option (List PyStr))
    (damping : Option K) (s : LState K) (src tgt : LogArg K) : Py (LState K × IFResult K) :=
  match rawScores s src tgt groups with
  | .error e => .error e
  | .ok (sc, tgt) =>
    match modeScores L sqrt s tgtIds tgt mode hessian groups damping sc with
    | .error e => .error e
    | .ok (s, sc) =>
      match checkScores [srcIds.length, tgtIds.length] sc with
      | .error e => .error e
      | .ok sc =>
        match finishScores groups sc with
        | .error e => .error e
        | .ok inf => .ok (s, ⟨srcIds, tgtIds, inf⟩)

theorem modeScores_grads [Field K] (L : Lib K) (sqrt : K → K) (s : LState K) (ids : List PyStr) {t t' : GLog K} (h : Spec.grads t = Spec.grads t')
    (mode : Mode) (hessian : Hess) (groups : Option (List PyStr)) (damping : Option K) (sc : Scores K) :
    modeScores L sqrt s ids (.dict t) mode hessian groups damping sc = modeScores L sqrt s ids (.dict t') mode hessian groups damping sc := by
  unfold modeScores
  rw [C118_self_partial L s ids h]

private theorem tail_synced [Field K] {L : Lib K} {sqrt : K → K} {srcIds tgtIds : List PyStr} {mode : Mode} {hessian : Hess}
    {groups : Option (List PyStr)} {damping : Option K} {s : LState K} {d d' t t' : GLog K} (hd : Spec.grads d = Spec.grads d')
    (hs : (∃ e, syncDevice d t = .error e ∧ syncDevice d' t' = .error e) ∨
      ∃ u u', syncDevice d t = .ok u ∧ syncDevice d' t' = .ok u' ∧ Spec.grads u = Spec.grads u') :
    tailOf L sqrt srcIds tgtIds mode hessian groups damping s (.dict d) (.dict t) =
      tailOf L sqrt srcIds tgtIds mode hessian groups damping s (.dict d') (.dict t') := by
  unfold tailOf rawScores
  rcases hs with ⟨e, h1, h2⟩ | ⟨u, u', h1, h2, hu⟩
  · simp only [h1, h2]
  · simp only [h1, h2, moduleLoop_grads groups hu hd]
    cases moduleLoop groups u' d' (initScores (groups.getD [])) with
    | error e => rfl
    | ok sc => simp only [modeScores_grads L sqrt s tgtIds hu]

private theorem influence_tail [Field K] (L : Lib K) (sqrt : K → K) (s : LState K) (srcIds tgtIds : List PyStr) (d : GLog K) (tgt : LogArg K)
    (mode : Mode) (pre : Bool) (hessian : Hess) (groups : Option (List PyStr)) (damping : Option K) :
    computeInfluence L sqrt s srcIds (.dict d) tgtIds tgt mode pre hessian groups damping =
      if mode = .other then .error .assertionError
      else
        match (if pre then precondition L s (.dict d) hessian damping else .ok (s, .dict d)) with
        | .error e => .error e
        | .ok (s, src) => tailOf L sqrt srcIds tgtIds mode hessian groups damping s src tgt := rfl

theorem influence_synced [Field K] (L : Lib K) (sqrt : K → K) (s : LState K) (srcIds tgtIds : List PyStr) {d d' t t' : GLog K}
    (hd : Spec.grads d = Spec.grads d') (mode : Mode) (pre : Bool) (hessian : Hess) (groups : Option (List PyStr)) (damping : Option K)
    (hs : ∀ p p' : GLog K, Spec.grads p = Spec.grads p' → (p = d ∧ p' = d' ∨ pre = true) →
      (∃ e, syncDevice p t = .error e ∧ syncDevice p' t' = .error e) ∨
      ∃ u u', syncDevice p t = .ok u ∧ syncDevice p' t' = .ok u' ∧ Spec.grads u = Spec.grads u') :
    computeInfluence L sqrt s srcIds (.dict d) tgtIds (.dict t) mode pre hessian groups damping =
      computeInfluence L sqrt s srcIds (.dict d') tgtIds (.dict t') mode pre hessian groups damping := by
  rw [influence_tail, influence_tail]
  split
  · rfl
  · cases pre with
    | false =>
      simp only [Bool.false_eq_true, if_false]
      exact tail_synced hd (hs d d' hd (.inl ⟨rfl, rfl⟩))
    | true =>
      simp only [if_true]
      rcases precondition_grads L s hd hessian damping with he | ⟨h1, h2⟩
      · rw [he]
        cases precondition L s (.dict d') hessian damping with
        | error e => rfl
        | ok r =>
          obtain ⟨s', p⟩ := r
          cases p with
          | flat x => rfl
          | dict p => exact tail_synced rfl (hs p p rfl (.inr rfl))
      · rw [h1, h2]
        exact tail_synced hd (hs d d' hd (.inl ⟨rfl, rfl⟩))

/-- **C118 (gradients logged first).** If the gradients are the first entries of the target logs, influence scores in every mode, with every
Hessian, groups and damping, depend on the gradients of the logs only: logs with the same modules and gradients give the same result, be it
scores or an exception, and leave the same state. -/
theorem C118_first_partial [Field K] (L : Lib K) (sqrt : K → K) (s : LState K) (srcIds tgtIds : List PyStr) {d d' t t' : GLog K}
    (hd : Spec.grads d = Spec.grads d') (ht : Spec.grads t = Spec.grads t') (hf : Spec.GradFirst t) (hf' : Spec.GradFirst t') (mode : Mode)
    (pre : Bool) (hessian : Hess) (groups : Option (List PyStr)) (damping : Option K) :
    computeInfluence L sqrt s srcIds (.dict d) tgtIds (.dict t) mode pre hessian groups damping =
      computeInfluence L sqrt s srcIds (.dict d') tgtIds (.dict t') mode pre hessian groups damping :=
  influence_synced L sqrt s srcIds tgtIds hd mode pre hessian groups damping fun _ _ hp _ => syncDevice_grads hp ht hf hf'

/-! ### Without preconditioning -/

theorem syncDevice_covers {dev : Dev} {d t : GLog K} (h1 : Spec.OneDev dev d) (hc : Spec.Covers d t) :
    ∃ u, syncDevice d t = .ok u ∧ Spec.grads u = (Spec.grads t).map fun p => (p.1, p.2.map (·.onDev dev)) := by
  rw [syncDevice_head]
  cases hh : (t.flatMap fun p => p.2.map fun q => (p.1, q.1)).head? with
  | none =>
    refine ⟨t, rfl, ?_⟩
    have hn : t.flatMap (fun p => p.2.map fun q => (p.1, q.1)) = [] := by simpa using hh
    have he : ∀ p ∈ t, p.2 = [] := by
      intro p hp
      have := List.flatMap_eq_nil_iff.1 hn p hp
      simpa using this
    unfold Spec.grads
    rw [List.map_map]
    apply List.map_congr_left
    intro p hp
    simp [he p hp]
  | some e =>
    obtain ⟨p, hp, he⟩ := List.mem_flatMap.1 (List.mem_of_mem_head? hh)
    obtain ⟨q, hq, rfl⟩ := List.mem_map.1 he
    obtain ⟨x, hx⟩ := hc p hp q hq
    have hi : logItem d p.1 q.1 = .ok x := by
      unfold logItem
      cases hd : Dict.get? d p.1 with
      | none => rw [hd] at hx; cases hx
      | some sub =>
        rw [hd] at hx
        simp only [Option.bind_some] at hx
        simp only [hx]
    have hdev : x.dev = dev := by
      cases hd : Dict.get? d p.1 with
      | none => rw [hd] at hx; cases hx
      | some sub =>
        rw [hd] at hx
        exact h1 _ (Dict.mem_of_get? _ hd) _ (Dict.mem_of_get? _ hx)
    simp only [hi, hdev]
    exact ⟨_, rfl, grads_onDev dev t⟩

/-- **C118 (no preconditioning).** Without preconditioning, with source logs on one device that have all the types of entries of the target
logs, influence scores depend on the gradients of the logs only, whatever was logged first. -/
theorem C118_plain_partial [Field K] (L : Lib K) (sqrt : K → K) (s : LState K) (srcIds tgtIds : List PyStr) {d d' t t' : GLog K} {dev : Dev}
    (hd : Spec.grads d = Spec.grads d') (ht : Spec.grads t = Spec.grads t') (h1 : Spec.OneDev dev d) (h1' : Spec.OneDev dev d')
    (hc : Spec.Covers d t) (hc' : Spec.Covers d' t') (mode : Mode) (hessian : Hess) (groups : Option (List PyStr)) (damping : Option K) :
    computeInfluence L sqrt s srcIds (.dict d) tgtIds (.dict t) mode false hessian groups damping =
      computeInfluence L sqrt s srcIds (.dict d') tgtIds (.dict t') mode false hessian groups damping := by
  refine influence_synced L sqrt s srcIds tgtIds hd mode false hessian groups damping fun p p' _ hp => .inr ?_
  rcases hp with ⟨rfl, rfl⟩ | hp
  · obtain ⟨u, hu, hg⟩ := syncDevice_covers h1 hc
    obtain ⟨u', hu', hg'⟩ := syncDevice_covers h1' hc'
    exact ⟨u, u', hu, hu', by rw [hg, hg', ht]⟩
  · cases hp

/-! ### With preconditioning -/

theorem precondition_only [Field K] {L : Lib K} {s s' : LState K} {d p : GLog K} {hessian : Hess} {c : Option K}
    (hcov : ∀ cov, s.getAttr nCov = .ok cov → ∀ m ∈ Dict.keys d, Dict.contains cov m = true)
    (h : precondition L s (.dict d) hessian c = .ok (s', .dict p)) : ∀ e ∈ p, ∀ q ∈ e.2, q.1 = LogType.name .grad := by
  unfold precondition at h
  split at h
  · cases h
  · simp only at h
    split at h
    · cases h
    · next cov hc =>
      split at h
      · next ha =>
        obtain ⟨e, he, hn⟩ := List.any_eq_true.1 ha
        rw [hcov cov hc e.1 (List.mem_map_of_mem he)] at hn
        cases hn
      · split at h
        · cases h
        · next raw _ =>
          split at h
          · cases h
          · next s1 out hr =>
            have : out = p := by
              have := congrArg Prod.snd (Except.ok.inj h)
              exact LogArg.dict.inj this
            subst this
            cases raw with
            | true =>
              simp only [if_true, preconditionRaw] at hr
              split at hr
              · cases hr
              · split at hr
                · cases hr
                · next hl =>
                  cases hr
                  exact rawLoop_only hl (by simp)
            | false =>
              simp only [Bool.false_eq_true, if_false, preconditionKfac] at hr
              split at hr
              · cases hr
              · split at hr
                · split at hr
                  · cases hr
                  · next hl =>
                    cases hr
                    exact kfacLoop_only hl (by simp)
                · cases hr

/-- **C118 (the exception).** When there are statistics for the modules of the source log, so that it is preconditioned, and something other
than the gradient was logged first in the first module of the target log, `compute_influence` raises: in every mode, with every Hessian, groups
and damping. -/
theorem C118_raises [Field K] (L : Lib K) (sqrt : K → K) (s : LState K) (srcIds tgtIds : List PyStr) {d rest : GLog K} {m k : PyStr}
    {x : Tensor K} {sub : Dict PyStr (Tensor K)}
    (hcov : ∀ cov, s.getAttr nCov = .ok cov → ∀ m ∈ Dict.keys d, Dict.contains cov m = true) (hk : k ≠ LogType.name .grad)
    (mode : Mode) (hessian : Hess) (groups : Option (List PyStr)) (damping : Option K) :
    ∃ e, computeInfluence L sqrt s srcIds (.dict d) tgtIds (.dict ((m, (k, x) :: sub) :: rest)) mode true hessian groups damping = .error e := by
  rw [influence_tail]
  split
  · exact ⟨_, rfl⟩
  · simp only [if_true]
    cases hp : precondition L s (.dict d) hessian damping with
    | error e => exact ⟨e, rfl⟩
    | ok r =>
      obtain ⟨s', p⟩ := r
      cases p with
      | flat t => exact ⟨_, rfl⟩
      | dict p =>
        have honly := precondition_only hcov hp
        have hi : logItem p m k = .error .keyError := by
          unfold logItem
          cases hd : Dict.get? p m with
          | none => rfl
          | some sub' =>
            simp only
            cases hs : Dict.get? sub' k with
            | none => rfl
            | some y => exact absurd (honly _ (Dict.mem_of_get? _ hd) _ (Dict.mem_of_get? _ hs)) hk
        refine ⟨.keyError, ?_⟩
        unfold tailOf rawScores
        simp only [syncDevice_head, List.flatMap_cons, List.map_cons, List.cons_append, List.head?_cons, hi]

theorem get?_filter_self {α : Type} (k : PyStr) : ∀ sub : Dict PyStr α, Dict.get? (sub.filter fun q => decide (q.1 = k)) k = Dict.get? sub k
  | [] => rfl
  | (a, x) :: r => by
    by_cases h : a = k
    · simp [h, Dict.get?_cons]
    · simp only [List.filter_cons, h, decide_false, Bool.false_eq_true, if_false, Dict.get?_cons]
      exact get?_filter_self k r

theorem grads_gradOnly (d : GLog K) : Spec.grads (Spec.gradOnly d) = Spec.grads d := by
  unfold Spec.grads Spec.gradOnly
  rw [List.map_map]
  apply List.map_congr_left
  intro p _
  simp [get?_filter_self]

theorem gradFirst_gradOnly (d : GLog K) : Spec.GradFirst (Spec.gradOnly d) := by
  intro p hp q hq
  obtain ⟨p', _, rfl⟩ := List.mem_map.1 hp
  have := List.mem_of_mem_head? hq
  simpa using (List.mem_filter.1 this).2

/-- **C118 (dropping the other entries).** The entries of other types can be dropped from the logs, if gradients are logged first. -/
theorem C118_drop_partial [Field K] (L : Lib K) (sqrt : K → K) (s : LState K) (srcIds tgtIds : List PyStr) (d : GLog K) {t : GLog K}
    (hf : Spec.GradFirst t) (mode : Mode) (pre : Bool) (hessian : Hess) (groups : Option (List PyStr)) (damping : Option K) :
    computeInfluence L sqrt s srcIds (.dict (Spec.gradOnly d)) tgtIds (.dict (Spec.gradOnly t)) mode pre hessian groups damping =
      computeInfluence L sqrt s srcIds (.dict d) tgtIds (.dict t) mode pre hessian groups damping :=
  C118_first_partial L sqrt s srcIds tgtIds (grads_gradOnly d) (grads_gradOnly t) (gradFirst_gradOnly t) hf mode pre hessian groups damping

end Logix
