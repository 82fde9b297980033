/-
C119: influence scores do not depend on the devices of the logs. The property is false for source logs spread over several devices.
-/
import Verif.Spec.Devices
import Verif.Lemmas.Scores
import Verif.Props.GradOnly

namespace Logix
variable {K : Type}

theorem values_onDev : ∀ {d d' : GLog K}, Spec.values d = Spec.values d' → ∀ c, logOnDev d c = logOnDev d' c := by
  have hsub : ∀ (x y : Dict PyStr (Tensor K)), (x.map fun q => (q.1, q.2.shape, q.2.data)) = (y.map fun q => (q.1, q.2.shape, q.2.data)) →
      ∀ c, (x.map fun q => (q.1, q.2.onDev c)) = y.map fun q => (q.1, q.2.onDev c) := by
    intro x
    induction x with
    | nil => intro y h c; cases y with | nil => rfl | cons a r => cases h
    | cons a r ih =>
      intro y h c
      cases y with
      | nil => cases h
      | cons b r' =>
        simp only [List.map_cons, List.cons.injEq, Prod.mk.injEq] at h ⊢
        obtain ⟨⟨h1, h2, h3⟩, h4⟩ := h
        exact ⟨⟨h1, Tensor.ext rfl h2 h3⟩, ih r' h4 c⟩
  intro d
  induction d with
  | nil => intro d' h c; cases d' with | nil => rfl | cons a r => cases h
  | cons a r ih =>
    intro d' h c
    cases d' with
    | nil => cases h
    | cons b r' =>
      simp only [Spec.values, List.map_cons, List.cons.injEq, Prod.mk.injEq] at h
      obtain ⟨⟨h1, h2⟩, h3⟩ := h
      simp only [logOnDev, List.map_cons, List.cons.injEq, Prod.mk.injEq]
      exact ⟨⟨h1, hsub _ _ h2 c⟩, ih h3 c⟩

theorem get?_subOnDev (sub : Dict PyStr (Tensor K)) (c : Dev) (k : PyStr) :
    Dict.get? (sub.map fun q => (q.1, q.2.onDev c)) k = (Dict.get? sub k).map (·.onDev c) := get?_map_onDev c k sub

theorem logItem_onDev (d : GLog K) (c : Dev) (m t : PyStr) : logItem (logOnDev d c) m t = (logItem d m t).map (·.onDev c) := by
  unfold logItem logOnDev
  rw [get?_map_val (fun sub : Dict PyStr (Tensor K) => (sub.map fun q => (q.1, q.2.onDev c) : Dict PyStr (Tensor K)))]
  cases Dict.get? d m with
  | none => rfl
  | some sub =>
    simp only [Option.map_some, get?_subOnDev]
    cases Dict.get? sub t <;> rfl

theorem logOnDev_set : ∀ (d : GLog K) (c : Dev) (m : PyStr) (p : Tensor K),
    logOnDev (Dict.set d m [(LogType.name .grad, p)]) c = Dict.set (logOnDev d c) m [(LogType.name .grad, p.onDev c)]
  | [], c, m, p => rfl
  | (a, x) :: r, c, m, p => by
    simp only [Dict.set, logOnDev, List.map_cons]
    split
    · rfl
    · simp only [List.map_cons, List.cons.injEq, true_and]
      exact logOnDev_set r c m p

/-! ### Preconditioning -/

theorem kfacSolve_onDev [Field K] (g ef eb full : Tensor K) (c c' : Dev) :
    kfacSolve (g.onDev c) ef eb (full.onDev c') = (kfacSolve g ef eb full).map (·.onDev c) := by
  obtain ⟨dev, shape, data, wf⟩ := g
  unfold kfacSolve
  match shape, wf with
  | [n, o, i], wf =>
    by_cases h : ef.shape = [i, full.size 1] ∧ eb.shape = [o, full.size 0] ∧ full.shape.length = 2
    · refine (if_pos h).trans ?_
      simp only
      rw [if_pos h]
      rfl
    · refine (if_neg h).trans ?_
      simp only
      rw [if_neg h]
      rfl
  | [], wf => rfl
  | [_], wf => rfl
  | [_, _], wf => rfl
  | _ :: _ :: _ :: _ :: _, wf => rfl

theorem fullEigval_onDev [Semiring K] {vals vals' : StateDict K} {m : PyStr} (h : Dict.get? vals m = Dict.get? vals' m) (dev c : Dev) :
    (∃ e, fullEigval vals m dev = .error e ∧ fullEigval vals' m c = .error e) ∨
      ∃ f b b', fullEigval vals m dev = .ok (f, b) ∧ fullEigval vals' m c = .ok (f.onDev c, b') := by
  unfold fullEigval
  rw [← h]
  cases Dict.get? vals m with
  | none => exact .inl ⟨_, rfl, rfl⟩
  | some v =>
    match v with
    | .leaf (.tensor t) => exact .inr ⟨_, _, _, rfl, rfl⟩
    | .node sub =>
      simp only
      split
      · split
        · exact .inr ⟨_, _, _, rfl, rfl⟩
        · exact .inl ⟨_, rfl, rfl⟩
      · exact .inl ⟨_, rfl, rfl⟩
      · exact .inl ⟨_, rfl, rfl⟩
    | .leaf (.num _) => exact .inl ⟨_, rfl, rfl⟩
    | .leaf (.paths _) => exact .inl ⟨_, rfl, rfl⟩
    | .leaf (.dims _) => exact .inl ⟨_, rfl, rfl⟩

/-- The two results agree up to the device. -/
def Moved (c : Dev) (r r' : Py (GLog K)) : Prop := (∃ e, r = .error e ∧ r' = .error e) ∨ ∃ o, r = .ok o ∧ r' = .ok (logOnDev o c)

theorem kfacLoop_onDev [Field K] {vecs : StateDict K} (c : Dev) : ∀ {d out : GLog K} {damping : Option K} {vals vals' : StateDict K},
    (Dict.keys d).Nodup → (∀ m ∈ Dict.keys d, Dict.get? vals m = Dict.get? vals' m) →
    Moved c ((kfacLoop vecs damping vals out d).map Prod.snd) ((kfacLoop vecs damping vals' (logOnDev out c) (logOnDev d c)).map Prod.snd)
  | [], out, damping, vals, vals', _, _ => .inr ⟨out, rfl, rfl⟩
  | (m, sub) :: rest, out, damping, vals, vals', hn, hv => by
    have hn' : m ∉ Dict.keys rest ∧ (Dict.keys rest).Nodup := List.nodup_cons.1 hn
    show Moved c _ ((kfacLoop vecs damping vals' (logOnDev out c) ((m, sub.map fun q => (q.1, q.2.onDev c)) :: logOnDev rest c)).map Prod.snd)
    rw [kfacLoop, kfacLoop, get?_subOnDev]
    cases Dict.get? sub (LogType.name .grad) with
    | none => exact .inl ⟨_, rfl, rfl⟩
    | some g =>
      simp only [Option.map_some]
      split
      · next ef eb h1 h2 =>
        rcases fullEigval_onDev (hv m (by simp [Dict.keys])) g.dev c with ⟨e, he, he'⟩ | ⟨f, b, b', he, he'⟩
        · rw [he]
          simp only [Tensor.onDev_dev, he']
          exact .inl ⟨_, rfl, rfl⟩
        · rw [he]
          simp only [Tensor.onDev_dev, he']
          have hsolve := kfacSolve_onDev g ef eb (Tensor.ofFn f.dev f.shape fun idx => f.el idx + damping.getD (1 / 10 * f.mean)) c c
          have hs2 : kfacSolve (g.onDev c) ef eb (Tensor.ofFn c (f.onDev c).shape fun idx => (f.onDev c).el idx + damping.getD (1 / 10 * (f.onDev c).mean)) =
            kfacSolve (g.onDev c) ef eb ((Tensor.ofFn f.dev f.shape fun idx => f.el idx + damping.getD (1 / 10 * f.mean)).onDev c) := rfl
          rw [hs2, hsolve]
          cases kfacSolve g ef eb (Tensor.ofFn f.dev f.shape fun idx => f.el idx + damping.getD (1 / 10 * f.mean)) with
          | error e => exact .inl ⟨_, rfl, rfl⟩
          | ok p =>
            simp only [Except.map]
            rw [← logOnDev_set]
            refine kfacLoop_onDev c hn'.2 fun m' hm' => ?_
            have hne : m ≠ m' := fun e => hn'.1 (e ▸ hm')
            have := hv m' (by simp only [Dict.keys, List.map_cons, List.mem_cons]; exact .inr hm')
            split <;> split <;> simp [Dict.get?_set_ne _ _ hne, this]
      · exact .inl ⟨_, rfl, rfl⟩

theorem reshape_onDev (t : Tensor K) (sh : List Nat) (c : Dev) : (t.onDev c).reshape sh = (t.reshape sh).map (·.onDev c) := by
  unfold Tensor.reshape
  by_cases h : numel t.shape = numel sh
  · refine (dif_pos h).trans ?_
    rw [dif_pos h]
    rfl
  · refine (dif_neg h).trans ?_
    rw [dif_neg h]
    rfl

theorem reshape_dev {t u : Tensor K} {sh : List Nat} (h : t.reshape sh = .ok u) : u.dev = t.dev := by
  unfold Tensor.reshape at h
  split at h
  · cases h; rfl
  · cases h

theorem rawSolve_onDev [Semiring K] (g inv : Tensor K) (c : Dev) : rawSolve (g.onDev c) inv = (rawSolve g inv).map (·.onDev c) := by
  have h1 : make2d (g.onDev c) none .grad = (make2d g none .grad).map (·.onDev c) := by
    unfold make2d
    simp only [Tensor.onDev_shape]
    split
    · rfl
    · unfold Tensor.reshapeInfer
      simp only [Tensor.onDev_shape, reshape_onDev]
      split <;> rfl
  unfold rawSolve
  rw [h1]
  cases hx : make2d g none .grad with
  | error e => rfl
  | ok x =>
    have hxd : x.dev = g.dev := by
      unfold make2d at hx
      simp only at hx
      split at hx
      · cases hx
      · unfold Tensor.reshapeInfer at hx
        split at hx
        · cases hx
        · exact reshape_dev hx
    have hm : (x.onDev c).matmul (inv.onDev c) = (x.matmul (inv.onDev g.dev)).map (·.onDev c) := by
      unfold Tensor.matmul
      simp only [Tensor.onDev_shape, Tensor.onDev_size, Tensor.onDev_dev, Tensor.onDev_el, hxd, and_true]
      split <;> rfl
    simp only [Except.map, Tensor.onDev_dev, hm]
    cases x.matmul (inv.onDev g.dev) with
    | error e => rfl
    | ok y => exact reshape_onDev y g.shape c

theorem rawLoop_onDev [Semiring K] {inv : StateDict K} (c : Dev) : ∀ {d out : GLog K},
    Moved c (rawLoop inv out d) (rawLoop inv (logOnDev out c) (logOnDev d c))
  | [], out => .inr ⟨out, rfl, rfl⟩
  | (m, sub) :: rest, out => by
    show Moved c _ (rawLoop inv (logOnDev out c) ((m, sub.map fun q => (q.1, q.2.onDev c)) :: logOnDev rest c))
    rw [rawLoop, rawLoop, get?_subOnDev]
    cases Dict.get? sub (LogType.name .grad) with
    | none => exact .inl ⟨_, rfl, rfl⟩
    | some g =>
      simp only [Option.map_some]
      split
      · next i _ =>
        rw [rawSolve_onDev]
        cases rawSolve g i with
        | error e => exact .inl ⟨_, rfl, rfl⟩
        | ok p =>
          simp only [Except.map]
          rw [← logOnDev_set]
          exact rawLoop_onDev c
      · exact .inl ⟨_, rfl, rfl⟩

theorem logOnDev_of_oneDev {dev : Dev} {d : GLog K} (h : Spec.OneDev dev d) : logOnDev d dev = d := by
  unfold logOnDev
  conv_rhs => rw [← List.map_id d]
  apply List.map_congr_left
  intro p hp
  have : (p.2.map fun q => (q.1, q.2.onDev dev)) = p.2 := by
    conv_rhs => rw [← List.map_id p.2]
    apply List.map_congr_left
    intro q hq
    rw [← h p hp q hq]
    rfl
  rw [this]
  rfl

theorem oneDev_logOnDev (dev : Dev) (d : GLog K) : Spec.OneDev dev (logOnDev d dev) := by
  intro p hp q hq
  obtain ⟨p', _, rfl⟩ := List.mem_map.1 hp
  obtain ⟨q', _, rfl⟩ := List.mem_map.1 hq
  rfl

/-- What preconditioning makes of a log on another device: the same exception or the same numbers, on that device. -/
theorem precondition_onDev [Field K] (L : Lib K) (s : LState K) {d : GLog K} (hn : (Dict.keys d).Nodup) (hessian : Hess) (damping : Option K) (c : Dev) :
    (∃ e, precondition L s (.dict d) hessian damping = .error e ∧ precondition L s (.dict (logOnDev d c)) hessian damping = .error e) ∨
      ∃ s₁ s₂ o, precondition L s (.dict d) hessian damping = .ok (s₁, .dict o) ∧
        precondition L s (.dict (logOnDev d c)) hessian damping = .ok (s₂, .dict (logOnDev o c)) := by
  unfold precondition
  by_cases ho : hessian = .other
  · rw [if_pos ho, if_pos ho]; exact .inl ⟨_, rfl, rfl⟩
  · rw [if_neg ho, if_neg ho]
    simp only
    cases s.getAttr nCov with
    | error e => exact .inl ⟨_, rfl, rfl⟩
    | ok cov =>
      have ha : ((logOnDev d c).any fun p => !Dict.contains cov p.1) = d.any fun p => !Dict.contains cov p.1 := by
        unfold logOnDev
        rw [List.any_map]
        rfl
      have hu : usesRaw cov (logOnDev d c) hessian = usesRaw cov d hessian := by
        cases d <;> cases hessian <;> rfl
      simp only [ha, hu]
      split
      · exact .inr ⟨_, _, _, rfl, rfl⟩
      · cases usesRaw cov d hessian with
        | error e => exact .inl ⟨_, rfl, rfl⟩
        | ok raw =>
          cases raw with
          | true =>
            simp only [if_true, preconditionRaw]
            cases s.getCovarianceInverse L damping with
            | error e => exact .inl ⟨_, rfl, rfl⟩
            | ok r =>
              obtain ⟨s₁, inv⟩ := r
              simp only
              rcases rawLoop_onDev (inv := inv) c (d := d) (out := []) with ⟨e, h1, h2⟩ | ⟨o, h1, h2⟩
              · have h2 : rawLoop inv [] (logOnDev d c) = .error e := h2
                rw [h1, h2]; exact .inl ⟨_, rfl, rfl⟩
              · have h2 : rawLoop inv [] (logOnDev d c) = .ok (logOnDev o c) := h2
                rw [h1, h2]; exact .inr ⟨_, _, _, rfl, rfl⟩
          | false =>
            simp only [Bool.false_eq_true, if_false, preconditionKfac]
            cases s.getCovarianceSvd L with
            | error e => exact .inl ⟨_, rfl, rfl⟩
            | ok r =>
              obtain ⟨s₁, n⟩ := r
              simp only
              cases s₁.getAttr n with
              | error e => exact .inl ⟨_, rfl, rfl⟩
              | ok vals =>
                cases s₁.getAttr nEigvec with
                | error e => exact .inl ⟨_, rfl, rfl⟩
                | ok vecs =>
                  simp only
                  have key := kfacLoop_onDev (vecs := vecs) c (d := d) (out := []) (damping := damping) (vals := vals) (vals' := vals) hn fun _ _ => rfl
                  have hnil : logOnDev ([] : GLog K) c = [] := rfl
                  rw [hnil] at key
                  cases h1 : kfacLoop vecs damping vals [] d with
                  | error e =>
                    cases h2 : kfacLoop vecs damping vals [] (logOnDev d c) with
                    | error e' =>
                      rw [h1, h2] at key
                      rcases key with ⟨e'', k1, k2⟩ | ⟨o, k1, k2⟩
                      · cases k1; cases k2; exact .inl ⟨_, rfl, rfl⟩
                      · cases k1
                    | ok r' =>
                      rw [h1, h2] at key
                      rcases key with ⟨e'', k1, k2⟩ | ⟨o, k1, k2⟩
                      · cases k2
                      · cases k1
                  | ok r =>
                    cases h2 : kfacLoop vecs damping vals [] (logOnDev d c) with
                    | error e' =>
                      rw [h1, h2] at key
                      rcases key with ⟨e'', k1, k2⟩ | ⟨o, k1, k2⟩
                      · cases k1
                      · cases k2
                    | ok r' =>
                      rw [h1, h2] at key
                      rcases key with ⟨e'', k1, k2⟩ | ⟨o, k1, k2⟩
                      · cases k1
                      · have k1 := Except.ok.inj k1
                        have k2 := Except.ok.inj k2
                        obtain ⟨v, x⟩ := r
                        obtain ⟨v', x'⟩ := r'
                        simp only at k1 k2
                        subst k1
                        subst k2
                        exact .inr ⟨_, _, _, rfl, rfl⟩

theorem precondition_oneDev [Field K] {L : Lib K} {s s' : LState K} {d p : GLog K} {hessian : Hess} {damping : Option K} {dev : Dev}
    (hn : (Dict.keys d).Nodup) (hd : Spec.OneDev dev d) (h : precondition L s (.dict d) hessian damping = .ok (s', .dict p)) : Spec.OneDev dev p := by
  rcases precondition_onDev L s hn hessian damping dev with ⟨e, h1, _⟩ | ⟨s₁, s₂, o, h1, h2⟩
  · rw [h] at h1; cases h1
  · rw [logOnDev_of_oneDev hd, h] at h2
    have := LogArg.dict.inj (congrArg Prod.snd (Except.ok.inj h2))
    rw [this]
    exact oneDev_logOnDev dev o

/-! ### Scores -/

/-- The scores on another device. -/
def scOnDev (sc : Scores K) (c : Dev) : Scores K := sc.map fun p => (p.1, p.2.map (·.onDev c))

/-- All scores are on this device. -/
def ScDev (dev : Dev) (sc : Scores K) : Prop := ∀ p ∈ sc, ∀ t ∈ p.2, t.dev = dev

theorem scoreOp_onDev [Zero K] (f : K → K → K) (v : Option (Tensor K)) (u : Tensor K) (c : Dev) (h : ∀ t ∈ v, t.dev = u.dev) :
    scoreOp f (v.map (·.onDev c)) (u.onDev c) = (scoreOp f v u).map (·.onDev c) ∧ ∀ x, scoreOp f v u = .ok x → x.dev = u.dev := by
  cases v with
  | none => exact ⟨rfl, fun x hx => by cases hx; rfl⟩
  | some t =>
    have ht : t.dev = u.dev := h t rfl
    simp only [scoreOp, Option.map_some, Tensor.iop, Tensor.onDev_dev, Tensor.onDev_shape, Tensor.onDev_el, ht, true_and]
    constructor
    · split <;> rfl
    · intro x hx
      split at hx
      · cases hx; rfl
      · cases hx

theorem scOnDev_set : ∀ (sc : Scores K) (c : Dev) (k : PyStr) (t : Tensor K), scOnDev (Dict.set sc k (some t)) c = Dict.set (scOnDev sc c) k (some (t.onDev c))
  | [], c, k, t => rfl
  | (a, x) :: r, c, k, t => by
    simp only [Dict.set, scOnDev, List.map_cons]
    split
    · rfl
    · simp only [List.map_cons, List.cons.injEq, true_and]
      exact scOnDev_set r c k t

/-- Results that agree up to the device, the first of them on `dev`. -/
def MovedSc (dev c : Dev) (r r' : Py (Scores K)) : Prop :=
  (∃ e, r = .error e ∧ r' = .error e) ∨ ∃ o, r = .ok o ∧ r' = .ok (scOnDev o c) ∧ ScDev dev o

theorem addScores_onDev [Semiring K] {dev : Dev} (c : Dev) {u : Tensor K} (hu : u.dev = dev) : ∀ {ks : List PyStr} {sc : Scores K}, ScDev dev sc →
    MovedSc dev c (addScores u ks sc) (addScores (u.onDev c) ks (scOnDev sc c))
  | [], sc, h => .inr ⟨sc, rfl, rfl, h⟩
  | k :: ks, sc, h => by
    rw [addScores, addScores]
    have hg : Dict.get? (scOnDev sc c) k = (Dict.get? sc k).map fun v => v.map (·.onDev c) :=
      get?_map_val (fun v : Option (Tensor K) => v.map fun t : Tensor K => t.onDev c) sc k
    rw [hg]
    cases hk : Dict.get? sc k with
    | none => exact .inl ⟨_, rfl, rfl⟩
    | some v =>
      obtain ⟨h1, h2⟩ := scoreOp_onDev (· + ·) v u c fun t ht => (h _ (Dict.mem_of_get? _ hk) t ht).trans hu.symm
      simp only [Option.map_some, h1]
      cases hs : scoreOp (· + ·) v u with
      | error e => exact .inl ⟨_, rfl, rfl⟩
      | ok t =>
        simp only [Except.map]
        rw [← scOnDev_set]
        refine addScores_onDev c hu fun p hp x hx => ?_
        rcases Dict.mem_set hp with rfl | hp
        · simp only [Option.mem_def, Option.some.injEq] at hx
          rw [← hx, h2 t hs, hu]
        · exact h p hp x hx

theorem grad_oneDev {dev : Dev} {d : GLog K} (h : Spec.OneDev dev d) {m t : PyStr} {x : Tensor K} (hx : logItem d m t = .ok x) : x.dev = dev := by
  unfold logItem at hx
  split at hx
  · cases hx
  · next sub hs =>
    split at hx
    · cases hx
    · next y hy =>
      cases hx
      exact h _ (Dict.mem_of_get? _ hs) _ (Dict.mem_of_get? _ hy)

theorem crossDot_onDev [Semiring K] (a b : Tensor K) (c : Dev) (h : a.dev = b.dev) :
    crossDot (a.onDev c) (b.onDev c) = (crossDot a b).map (·.onDev c) ∧ ∀ u, crossDot a b = .ok u → u.dev = a.dev := by
  unfold crossDot
  simp only [Tensor.onDev_shape, Tensor.onDev_dev, Tensor.onDev_el, if_true, h]
  constructor
  · split
    · split <;> rfl
    · rfl
  · intro u hu
    split at hu
    · split at hu
      · cases hu; rfl
      · cases hu
    · cases hu

theorem rowDots_onDev [Semiring K] (a b : Tensor K) (c : Dev) (h : a.dev = b.dev) :
    rowDots (a.onDev c) (b.onDev c) = (rowDots a b).map (·.onDev c) ∧ ∀ u, rowDots a b = .ok u → u.dev = a.dev := by
  unfold rowDots
  simp only [Tensor.onDev_shape, Tensor.onDev_dev, Tensor.onDev_el, and_true, h]
  constructor
  · split
    · split <;> rfl
    · rfl
  · intro u hu
    split at hu
    · split at hu
      · cases hu; rfl
      · cases hu
    · cases hu

theorem moduleLoop_onDev [Semiring K] {dev : Dev} (c : Dev) (groups : Option (List PyStr)) {t : GLog K} (ht : Spec.OneDev dev t) :
    ∀ {d : GLog K} {sc : Scores K}, Spec.OneDev dev d → ScDev dev sc →
    MovedSc dev c (moduleLoop groups t d sc) (moduleLoop groups (logOnDev t c) (logOnDev d c) (scOnDev sc c))
  | [], sc, _, hs => .inr ⟨sc, rfl, rfl, hs⟩
  | (m, sub) :: rest, sc, hd, hs => by
    show MovedSc dev c _ (moduleLoop groups (logOnDev t c) ((m, sub.map fun q => (q.1, q.2.onDev c)) :: logOnDev rest c) (scOnDev sc c))
    rw [moduleLoop, moduleLoop, get?_subOnDev, logItem_onDev]
    cases ha : Dict.get? sub (LogType.name .grad) with
    | none => cases logItem t m (LogType.name .grad) <;> exact .inl ⟨_, rfl, rfl⟩
    | some a =>
      cases hb : logItem t m (LogType.name .grad) with
      | error e => exact .inl ⟨_, rfl, rfl⟩
      | ok b =>
        have had : a.dev = dev := hd (m, sub) (by simp) _ (Dict.mem_of_get? _ ha)
        have hbd : b.dev = dev := grad_oneDev ht hb
        obtain ⟨h1, h2⟩ := crossDot_onDev a b c (had.trans hbd.symm)
        simp only [Option.map_some, Except.map, h1]
        cases hu : crossDot a b with
        | error e => exact .inl ⟨_, rfl, rfl⟩
        | ok u =>
          simp only
          rcases addScores_onDev c ((h2 u hu).trans had) (ks := scoreKeys groups m) hs with ⟨e, k1, k2⟩ | ⟨o, k1, k2, k3⟩
          · rw [k1, k2]; exact .inl ⟨_, rfl, rfl⟩
          · rw [k1, k2]
            exact moduleLoop_onDev c groups ht (fun p hp => hd p (List.mem_cons_of_mem _ hp)) k3

theorem selfLoop_onDev [Semiring K] {dev : Dev} (c : Dev) (groups : Option (List PyStr)) {t : GLog K} (ht : Spec.OneDev dev t) :
    ∀ {d : GLog K} {sc : Scores K}, Spec.OneDev dev d → ScDev dev sc →
    MovedSc dev c (selfLoop groups t d sc) (selfLoop groups (logOnDev t c) (logOnDev d c) (scOnDev sc c))
  | [], sc, _, hs => .inr ⟨sc, rfl, rfl, hs⟩
  | (m, sub) :: rest, sc, hd, hs => by
    show MovedSc dev c _ (selfLoop groups (logOnDev t c) ((m, sub.map fun q => (q.1, q.2.onDev c)) :: logOnDev rest c) (scOnDev sc c))
    rw [selfLoop, selfLoop, get?_subOnDev, logItem_onDev]
    cases ha : Dict.get? sub (LogType.name .grad) with
    | none => cases logItem t m (LogType.name .grad) <;> exact .inl ⟨_, rfl, rfl⟩
    | some a =>
      cases hb : logItem t m (LogType.name .grad) with
      | error e => exact .inl ⟨_, rfl, rfl⟩
      | ok b =>
        have had : a.dev = dev := hd (m, sub) (by simp) _ (Dict.mem_of_get? _ ha)
        have hbd : b.dev = dev := grad_oneDev ht hb
        obtain ⟨h1, h2⟩ := rowDots_onDev a b c (had.trans hbd.symm)
        simp only [Option.map_some, Except.map, h1]
        cases hu : rowDots a b with
        | error e => exact .inl ⟨_, rfl, rfl⟩
        | ok u =>
          simp only
          rcases addScores_onDev c ((h2 u hu).trans had) (ks := scoreKeys groups m) hs with ⟨e, k1, k2⟩ | ⟨o, k1, k2, k3⟩
          · rw [k1, k2]; exact .inl ⟨_, rfl, rfl⟩
          · rw [k1, k2]
            exact selfLoop_onDev c groups ht (fun p hp => hd p (List.mem_cons_of_mem _ hp)) k3

theorem checkScores_onDev (dims : List Nat) (c : Dev) : ∀ sc : Scores K, checkScores dims (scOnDev sc c) = checkScores dims sc
  | [] => rfl
  | (k, none) :: r => rfl
  | (k, some t) :: r => by
    show checkScores dims ((k, some (t.onDev c)) :: scOnDev r c) = _
    rw [checkScores, checkScores, checkScores_onDev dims c r]
    rfl

theorem initScores_none (groups : List PyStr) : ∀ p ∈ (initScores groups : Scores K), p.2 = none := by
  unfold initScores
  have : ∀ (gs : List PyStr) (d : Scores K), (∀ p ∈ d, p.2 = none) → ∀ p ∈ gs.foldl (fun d g => Dict.set d g none) d, p.2 = none := by
    intro gs
    induction gs with
    | nil => intro d h; exact h
    | cons g gs ih =>
      intro d h
      refine ih _ fun p hp => ?_
      rcases Dict.mem_set hp with rfl | hp
      · rfl
      · exact h p hp
  exact this groups _ (by simp)

theorem initScores_onDev (groups : List PyStr) (c : Dev) : scOnDev (initScores groups : Scores K) c = initScores groups := by
  unfold scOnDev
  conv_rhs => rw [← List.map_id (initScores groups : Scores K)]
  apply List.map_congr_left
  intro p hp
  have := initScores_none groups p hp
  obtain ⟨k, v⟩ := p
  simp only at this
  subst this
  rfl

theorem initScores_dev (groups : List PyStr) (dev : Dev) : ScDev dev (initScores groups : Scores K) := by
  intro p hp t ht
  rw [initScores_none groups p hp] at ht
  cases ht

theorem syncDevice_onDev {dev : Dev} {d : GLog K} (hd : Spec.OneDev dev d) (t : GLog K) (c : Dev) :
    (∃ e, syncDevice d t = .error e ∧ syncDevice (logOnDev d c) (logOnDev t c) = .error e) ∨
      ∃ u, syncDevice d t = .ok u ∧ syncDevice (logOnDev d c) (logOnDev t c) = .ok (logOnDev u c) ∧ Spec.OneDev dev u := by
  have hkeys : ((logOnDev t c).flatMap fun p => p.2.map fun q => (p.1, q.1)) = t.flatMap fun p => p.2.map fun q => (p.1, q.1) := by
    unfold logOnDev
    rw [List.flatMap_map]
    congr 1
    funext p
    simp
  rw [syncDevice_head, syncDevice_head, hkeys]
  cases hh : (t.flatMap fun p => p.2.map fun q => (p.1, q.1)).head? with
  | none =>
    refine .inr ⟨t, rfl, rfl, ?_⟩
    have hn : t.flatMap (fun p => p.2.map fun q => (p.1, q.1)) = [] := by simpa using hh
    intro p hp q hq
    have : p.2 = [] := by simpa using List.flatMap_eq_nil_iff.1 hn p hp
    rw [this] at hq
    cases hq
  | some e =>
    simp only [logItem_onDev]
    cases hx : logItem d e.1 e.2 with
    | error e => exact .inl ⟨_, rfl, rfl⟩
    | ok x =>
      have := grad_oneDev hd hx
      subst this
      refine .inr ⟨_, rfl, ?_, oneDev_logOnDev x.dev t⟩
      simp only [Except.map, Tensor.onDev_dev]
      simp [logOnDev]

/-! ### The property -/

theorem influence_cpu [Field K] (L : Lib K) (sqrt : K → K) (s : LState K) (srcIds tgtIds : List PyStr) {dev : Dev} {d : GLog K} (t : GLog K)
    (hn : (Dict.keys d).Nodup) (hd : Spec.OneDev dev d) (pre : Bool) (hessian : Hess) (groups : Option (List PyStr)) (damping : Option K) (c : Dev) :
    (computeInfluence L sqrt s srcIds (.dict d) tgtIds (.dict t) .dot pre hessian groups damping).map Prod.snd =
      (computeInfluence L sqrt s srcIds (.dict (logOnDev d c)) tgtIds (.dict (logOnDev t c)) .dot pre hessian groups damping).map Prod.snd := by
  have key : ∀ (s₁ s₂ : LState K) (p : GLog K), Spec.OneDev dev p →
      ((match rawScores s₁ (.dict p) (.dict t) groups with
        | .error e => .error e
        | .ok (sc, tgt) =>
          match modeScores L sqrt s₁ tgtIds tgt .dot hessian groups damping sc with
          | .error e => .error e
          | .ok (s, sc) =>
            match checkScores [srcIds.length, tgtIds.length] sc with
            | .error e => .error e
            | .ok sc =>
              match finishScores groups sc with
              | .error e => .error e
              | .ok inf => .ok (s, ⟨srcIds, tgtIds, inf⟩) : Py (LState K × IFResult K))).map Prod.snd =
      ((match rawScores s₂ (.dict (logOnDev p c)) (.dict (logOnDev t c)) groups with
        | .error e => .error e
        | .ok (sc, tgt) =>
          match modeScores L sqrt s₂ tgtIds tgt .dot hessian groups damping sc with
          | .error e => .error e
          | .ok (s, sc) =>
            match checkScores [srcIds.length, tgtIds.length] sc with
            | .error e => .error e
            | .ok sc =>
              match finishScores groups sc with
              | .error e => .error e
              | .ok inf => .ok (s, ⟨srcIds, tgtIds, inf⟩) : Py (LState K × IFResult K))).map Prod.snd := by
    intro s₁ s₂ p hp
    unfold rawScores
    simp only
    rcases syncDevice_onDev hp t c with ⟨e, h1, h2⟩ | ⟨u, h1, h2, h3⟩
    · rw [h1, h2]
    · rw [h1, h2]
      simp only
      have hm := moduleLoop_onDev c groups h3 hp (initScores_dev (groups.getD []) dev)
      rw [initScores_onDev] at hm
      rcases hm with ⟨e, k1, k2⟩ | ⟨o, k1, k2, -⟩
      · rw [k1, k2]
      · rw [k1, k2]
        simp only [modeScores, if_true, checkScores_onDev]
        cases checkScores [srcIds.length, tgtIds.length] o with
        | error e => rfl
        | ok sc =>
          simp only
          cases finishScores groups sc <;> rfl
  unfold computeInfluence
  simp only [reduceCtorEq, if_false]
  cases pre with
  | false => exact key s s d hd
  | true =>
    simp only [if_true]
    rcases precondition_onDev L s hn hessian damping c with ⟨e, h1, h2⟩ | ⟨s₁, s₂, o, h1, h2⟩
    · rw [h1, h2]
    · rw [h1, h2]
      exact key s₁ s₂ o (precondition_oneDev hn hd h1)

theorem values_keys {d d' : GLog K} (h : Spec.values d = Spec.values d') : Dict.keys d = Dict.keys d' := by
  have := congrArg (List.map Prod.fst) h
  simpa [Spec.values, Dict.keys, Function.comp_def] using this

/-- **C119 (influence).** If the source log is on one device, scores in mode dot do not depend on that device or on the devices of the target
log, which can be spread over several devices: logs with the same modules, types, shapes and numbers get the same result, be it scores or an
exception. -/
theorem C119_influence_partial [Field K] (L : Lib K) (sqrt : K → K) (s : LState K) (srcIds tgtIds : List PyStr) {dev dev' : Dev} {d d' t t' : GLog K}
    (hn : (Dict.keys d).Nodup) (hd : Spec.OneDev dev d) (hd' : Spec.OneDev dev' d') (hv : Spec.values d = Spec.values d')
    (hv' : Spec.values t = Spec.values t') (pre : Bool) (hessian : Hess) (groups : Option (List PyStr)) (damping : Option K) :
    (computeInfluence L sqrt s srcIds (.dict d) tgtIds (.dict t) .dot pre hessian groups damping).map Prod.snd =
      (computeInfluence L sqrt s srcIds (.dict d') tgtIds (.dict t') .dot pre hessian groups damping).map Prod.snd := by
  rw [influence_cpu L sqrt s srcIds tgtIds t hn hd pre hessian groups damping .cpu,
    influence_cpu L sqrt s srcIds tgtIds t' (values_keys hv ▸ hn) hd' pre hessian groups damping .cpu, values_onDev hv, values_onDev hv']

theorem self_cpu [Field K] (L : Lib K) (s : LState K) (ids : List PyStr) {dev : Dev} {d : GLog K}
    (hn : (Dict.keys d).Nodup) (hd : Spec.OneDev dev d) (pre : Bool) (hessian : Hess) (groups : Option (List PyStr)) (damping : Option K) (c : Dev) :
    (computeSelf L s ids (.dict d) pre hessian groups damping).map Prod.snd =
      (computeSelf L s ids (.dict (logOnDev d c)) pre hessian groups damping).map Prod.snd := by
  have key : ∀ (s₁ s₂ : LState K) (p : GLog K), Spec.OneDev dev p →
      ((match selfLoop groups p d (initScores (groups.getD [])) with
        | .error e => .error e
        | .ok sc =>
          match checkScores [ids.length] sc with
          | .error e => .error e
          | .ok sc =>
            match finishScores groups sc with
            | .error e => .error e
            | .ok inf => .ok (s₁, ⟨ids, inf⟩) : Py (LState K × SelfResult K))).map Prod.snd =
      ((match selfLoop groups (logOnDev p c) (logOnDev d c) (initScores (groups.getD [])) with
        | .error e => .error e
        | .ok sc =>
          match checkScores [ids.length] sc with
          | .error e => .error e
          | .ok sc =>
            match finishScores groups sc with
            | .error e => .error e
            | .ok inf => .ok (s₂, ⟨ids, inf⟩) : Py (LState K × SelfResult K))).map Prod.snd := by
    intro s₁ s₂ p hp
    have hm := selfLoop_onDev c groups hp hd (initScores_dev (groups.getD []) dev)
    rw [initScores_onDev] at hm
    rcases hm with ⟨e, k1, k2⟩ | ⟨o, k1, k2, -⟩
    · rw [k1, k2]
    · rw [k1, k2]
      simp only [checkScores_onDev]
      cases checkScores [ids.length] o with
      | error e => rfl
      | ok sc =>
        simp only
        cases finishScores groups sc <;> rfl
  unfold computeSelf
  cases pre with
  | false => exact key s s d hd
  | true =>
    simp only [if_true]
    rcases precondition_onDev L s hn hessian damping c with ⟨e, h1, h2⟩ | ⟨s₁, s₂, o, h1, h2⟩
    · rw [h1, h2]
    · rw [h1, h2]
      exact key s₁ s₂ o (precondition_oneDev hn hd h1)

/-- **C119 (self-influence).** Self-influence scores of a log on one device do not depend on the device. -/
theorem C119_self_partial [Field K] (L : Lib K) (s : LState K) (ids : List PyStr) {dev dev' : Dev} {d d' : GLog K}
    (hn : (Dict.keys d).Nodup) (hd : Spec.OneDev dev d) (hd' : Spec.OneDev dev' d') (hv : Spec.values d = Spec.values d') (pre : Bool)
    (hessian : Hess) (groups : Option (List PyStr)) (damping : Option K) :
    (computeSelf L s ids (.dict d) pre hessian groups damping).map Prod.snd =
      (computeSelf L s ids (.dict d') pre hessian groups damping).map Prod.snd := by
  rw [self_cpu L s ids hn hd pre hessian groups damping .cpu, self_cpu L s ids (values_keys hv ▸ hn) hd' pre hessian groups damping .cpu, values_onDev hv]

/-! ### Source logs on several devices -/

theorem addScores_devs [Semiring K] {u : Tensor K} : ∀ {ks : List PyStr} {sc sc' : Scores K}, addScores u ks sc = .ok sc' →
    (∀ t, Dict.get? sc nTotal = some (some t) → ∃ t', Dict.get? sc' nTotal = some (some t') ∧ t'.dev = t.dev)
  | [], sc, sc', h => by cases h; exact fun t ht => ⟨t, ht, rfl⟩
  | k :: ks, sc, sc', h => by
    rw [addScores] at h
    split at h
    · cases h
    · next v hv =>
      split at h
      · cases h
      · next t hs =>
        intro t0 h0
        have ih := addScores_devs h
        by_cases hk : k = nTotal
        · subst hk
          rw [hv] at h0
          cases h0
          obtain ⟨t', h1, h2⟩ := ih t (by simp)
          refine ⟨t', h1, h2.trans ?_⟩
          unfold scoreOp Tensor.iop at hs
          simp only at hs
          split at hs
          · cases hs; rfl
          · cases hs
        · exact ih t0 (by rw [Dict.get?_set_ne _ _ hk]; exact h0)

theorem addScores_total [Semiring K] {u : Tensor K} {ks : List PyStr} {sc sc' : Scores K} (h : addScores u (nTotal :: ks) sc = .ok sc') :
    (∃ t', Dict.get? sc' nTotal = some (some t') ∧ t'.dev = u.dev) ∧ ∀ t, Dict.get? sc nTotal = some (some t) → t.dev = u.dev := by
  rw [addScores] at h
  split at h
  · cases h
  · next v hv =>
    split at h
    · cases h
    · next t hs =>
      obtain ⟨t', h1, h2⟩ := addScores_devs h t (by simp)
      cases v with
      | none =>
        cases hs
        exact ⟨⟨t', h1, h2⟩, fun t0 h0 => by rw [hv] at h0; cases h0⟩
      | some w =>
        unfold scoreOp Tensor.iop at hs
        simp only at hs
        split at hs
        · next hc =>
          cases hs
          refine ⟨⟨t', h1, h2.trans hc.1⟩, fun t0 h0 => ?_⟩
          rw [hv] at h0
          cases h0
          exact hc.1
        · cases hs

theorem moduleLoop_devs [Semiring K] {groups : Option (List PyStr)} {dev : Dev} {t : GLog K} (ht : Spec.OneDev dev t) :
    ∀ {d : GLog K} {sc sc' : Scores K}, moduleLoop groups t d sc = .ok sc' → ∀ m g, Spec.grad d m = some g → g.dev = dev
  | [], sc, sc', _, m, g, hg => by cases hg
  | (a, sub) :: rest, sc, sc', h, m, g, hg => by
    rw [moduleLoop] at h
    split at h
    · next x y hx hy =>
      split at h
      · cases h
      · next u hu =>
        split at h
        · cases h
        · by_cases he : a = m
          · subst he
            rw [grad_cons_self, hx] at hg
            cases hg
            have hyd := grad_oneDev ht hy
            unfold crossDot at hu
            split at hu
            · split at hu
              · split at hu
                · next hd => exact hd.trans hyd
                · cases hu
              · cases hu
            · cases hu
          · rw [grad_cons_ne he] at hg
            exact moduleLoop_devs ht h m g hg
    · cases h

theorem selfLoop_devs [Semiring K] {groups : Option (List PyStr)} {t : GLog K} :
    ∀ {d : GLog K} {sc sc' : Scores K}, selfLoop groups t d sc = .ok sc' →
      (∀ x, Dict.get? sc nTotal = some (some x) → ∃ x', Dict.get? sc' nTotal = some (some x') ∧ x'.dev = x.dev) ∧
      ∀ m g, Spec.grad d m = some g → ∃ x', Dict.get? sc' nTotal = some (some x') ∧ g.dev = x'.dev
  | [], sc, sc', h => by cases h; exact ⟨fun x hx => ⟨x, hx, rfl⟩, fun m g hg => by cases hg⟩
  | (a, sub) :: rest, sc, sc', h => by
    rw [selfLoop] at h
    split at h
    · next x y hx hy =>
      split at h
      · cases h
      · next u hu =>
        have hud : u.dev = x.dev := by
          unfold rowDots at hu
          split at hu
          · split at hu
            · cases hu; rfl
            · cases hu
          · cases hu
        split at h
        · cases h
        · next sc1 ha =>
          obtain ⟨⟨w, h1, h2⟩, h3⟩ := addScores_total ha
          obtain ⟨ih1, ih2⟩ := selfLoop_devs h
          obtain ⟨w', k1, k2⟩ := ih1 w h1
          refine ⟨fun z hz => ⟨w', k1, ?_⟩, fun m g hg => ?_⟩
          · rw [k2, h2, h3 z hz]
          · by_cases he : a = m
            · subst he
              rw [grad_cons_self, hx] at hg
              cases hg
              exact ⟨w', k1, by rw [k2, h2, hud]⟩
            · rw [grad_cons_ne he] at hg
              exact ih2 m g hg
    · cases h

/-- **C119 (the exception).** An influence computation that returns had a source log on one device: with gradients of a model spread over
several devices every `compute_influence` raises, in every mode, with and without preconditioning. -/
theorem C119_influence_raises [Field K] {L : Lib K} {sqrt : K → K} {s : LState K} {srcIds tgtIds : List PyStr} {d t : GLog K} {mode : Mode}
    {pre : Bool} {hessian : Hess} {groups : Option (List PyStr)} {damping : Option K} (hn : (Dict.keys d).Nodup) {m m' : PyStr} {g g' : Tensor K}
    (hg : Spec.grad d m = some g) (hg' : Spec.grad d m' = some g') (hne : g.dev ≠ g'.dev) :
    ∃ e, computeInfluence L sqrt s srcIds (.dict d) tgtIds (.dict t) mode pre hessian groups damping = .error e := by
  cases h : computeInfluence L sqrt s srcIds (.dict d) tgtIds (.dict t) mode pre hessian groups damping with
  | error e => exact ⟨e, rfl⟩
  | ok r =>
    exfalso
    unfold computeInfluence at h
    split at h
    · cases h
    · split at h
      · cases h
      · next s₁ src hp =>
        obtain ⟨p, H, rfl, -, ha⟩ := pre_ok hn hp
        obtain ⟨q, hq, -, hqd, -⟩ := ha.2 m g hg
        obtain ⟨q', hq', -, hqd', -⟩ := ha.2 m' g' hg'
        split at h
        · cases h
        · next sc tgt hr =>
          unfold rawScores at hr
          simp only at hr
          split at hr
          · cases hr
          · next u hu =>
            split at hr
            · cases hr
            · next sc1 hm =>
              rw [syncDevice_head] at hu
              split at hu
              · next hh =>
                cases hu
                have hnil : t.flatMap (fun p => p.2.map fun q => (p.1, q.1)) = [] := by simpa using hh
                have hone : ∀ dev, Spec.OneDev dev t := by
                  intro dev p hp q hq
                  have : p.2 = [] := by simpa using List.flatMap_eq_nil_iff.1 hnil p hp
                  rw [this] at hq
                  cases hq
                have h1 := moduleLoop_devs (hone g.dev) hm m' q' hq'
                exact hne (h1.symm.trans hqd')
              · split at hu
                · cases hu
                · next x _ =>
                  cases hu
                  have h1 := moduleLoop_devs (oneDev_logOnDev x.dev t) hm m q hq
                  have h2 := moduleLoop_devs (oneDev_logOnDev x.dev t) hm m' q' hq'
                  exact hne (by rw [← hqd, ← hqd', h1, h2])

/-- **C119 (the exception).** The same for self-influence. -/
theorem C119_self_raises [Field K] {L : Lib K} {s : LState K} {ids : List PyStr} {d : GLog K} {pre : Bool} {hessian : Hess}
    {groups : Option (List PyStr)} {damping : Option K} {m m' : PyStr} {g g' : Tensor K}
    (hg : Spec.grad d m = some g) (hg' : Spec.grad d m' = some g') (hne : g.dev ≠ g'.dev) :
    ∃ e, computeSelf L s ids (.dict d) pre hessian groups damping = .error e := by
  cases h : computeSelf L s ids (.dict d) pre hessian groups damping with
  | error e => exact ⟨e, rfl⟩
  | ok r =>
    exfalso
    unfold computeSelf at h
    simp only at h
    split at h
    · cases h
    · cases h
    · split at h
      · cases h
      · next hl =>
        obtain ⟨-, h2⟩ := selfLoop_devs hl
        obtain ⟨x, k1, k2⟩ := h2 m g hg
        obtain ⟨x', k1', k2'⟩ := h2 m' g' hg'
        rw [k1] at k1'
        cases k1'
        exact hne (k2.trans k2'.symm)

end Logix
