/-
Lemmas about the scores: every entry is the sum of the inner products of the modules.
-/
import Verif.Lemmas.Influence

namespace Logix
variable {K : Type}

theorem bcast_self : ∀ s : List Nat, bcast s s = true
  | [] => rfl
  | a :: s => by simp [bcast, bcast_self s]

theorem bidx_self : ∀ (s idx : List Nat), inRange s idx = true → bidx s idx = idx
  | [], [], _ => rfl
  | [], _ :: _, h => by simp [inRange] at h
  | _ :: _, [], h => by simp [inRange] at h
  | a :: s, i :: idx, h => by
    simp only [inRange, Bool.and_eq_true, decide_eq_true_eq] at h
    rw [bidx, bidx_self s idx h.2]
    split
    · next h1 => subst h1; rw [Nat.lt_one_iff.1 h.1]
    · rfl

/-- The value `v` is the sum of the tensors `us`: the number 0 if there are none; smaller tensors are broadcast. -/
def SumOf [Semiring K] (v : Option (Tensor K)) (us : List (Tensor K)) : Prop :=
  match v with
  | none => us = []
  | some t => (∃ u ∈ us, u.shape = t.shape) ∧ (∀ u ∈ us, bcast u.shape t.shape = true ∧ u.dev = t.dev) ∧
    ∀ idx, inRange t.shape idx = true → t.el idx = (us.map fun u => u.el (bidx u.shape idx)).sum

theorem SumOf.step [Semiring K] {v : Option (Tensor K)} {us : List (Tensor K)} (hv : SumOf v us) {u t : Tensor K}
    (h : scoreOp (· + ·) v u = .ok t) : SumOf (some t) (us ++ [u]) := by
  unfold scoreOp at h
  split at h
  · cases h
    have : us = [] := hv
    subst this
    refine ⟨⟨u, by simp, rfl⟩, fun u' hu' => ?_, fun idx hidx => ?_⟩
    · rw [List.nil_append, List.mem_singleton] at hu'
      subst hu'
      exact ⟨bcast_self _, rfl⟩
    · simp only [Tensor.ofFn_shape] at hidx
      rw [Tensor.el_ofFn, if_pos hidx]
      simp [bidx_self _ _ hidx]
  · next t0 =>
    obtain ⟨h1, h2, h3⟩ := hv
    unfold Tensor.iop at h
    split at h
    · next hc =>
      cases h
      refine ⟨?_, fun u' hu' => ?_, fun idx hidx => ?_⟩
      · obtain ⟨u', hu', hs⟩ := h1
        exact ⟨u', by simp [hu'], hs⟩
      · rw [List.mem_append, List.mem_singleton] at hu'
        rcases hu' with hu' | rfl
        · exact h2 u' hu'
        · exact ⟨hc.2, hc.1.symm⟩
      · simp only [Tensor.ofFn_shape] at hidx
        rw [Tensor.el_ofFn, if_pos hidx, h3 idx hidx, List.map_append, List.sum_append]
        simp
    · cases h

theorem addScores_ok [Semiring K] {u : Tensor K} : ∀ {ks : List PyStr} {d d' : Scores K} {us : PyStr → List (Tensor K)},
    addScores u ks d = .ok d' → (∀ k v, Dict.get? d k = some v → SumOf v (us k)) →
    Dict.keys d' = Dict.keys d ∧ (∀ k ∈ ks, k ∈ Dict.keys d) ∧
      ∀ k v, Dict.get? d' k = some v → SumOf v (us k ++ List.replicate (ks.count k) u) := by
  intro ks
  induction ks with
  | nil =>
    intro d d' us h hd
    cases h
    exact ⟨rfl, by simp, fun k v hv => by simpa using hd k v hv⟩
  | cons k rest ih =>
    intro d d' us h hd
    rw [addScores] at h
    split at h
    · cases h
    · next v hv =>
      split at h
      · cases h
      · next t ht =>
        have hk : k ∈ Dict.keys d := by rw [← Dict.get?_isSome_iff, hv]; rfl
        obtain ⟨i1, i2, i3⟩ := ih (us := fun k' => us k' ++ if k' = k then [u] else []) h (by
          intro k' v' hv'
          by_cases hkk : k' = k
          · subst hkk
            rw [Dict.get?_set_self] at hv'
            cases hv'
            rw [if_pos rfl]
            exact (hd _ _ hv).step ht
          · rw [Dict.get?_set_ne _ _ (Ne.symm hkk)] at hv'
            rw [if_neg hkk, List.append_nil]
            exact hd _ _ hv')
        have hkeys : Dict.keys (Dict.set d k (some t)) = Dict.keys d := Dict.keys_set_of_mem _ _ _ hk
        refine ⟨i1.trans hkeys, fun k' hk' => ?_, fun k' v' hv' => ?_⟩
        · rcases List.mem_cons.1 hk' with rfl | h'
          · exact hk
          · rw [← hkeys]; exact i2 k' h'
        · have := i3 k' v' hv'
          by_cases hkk : k' = k
          · subst hkk
            rw [if_pos rfl, List.append_assoc] at this
            rw [List.count_cons_self, List.replicate_succ]
            exact this
          · rw [if_neg hkk, List.append_nil] at this
            rw [List.count_cons_of_ne (Ne.symm hkk)]
            exact this

/-- The loop over the modules, given the scores of every module. -/
def accLoop [Semiring K] (groups : Option (List PyStr)) : List (PyStr × Tensor K) → Scores K → Py (Scores K)
  | [], d => .ok d
  | (m, u) :: rest, d =>
    match addScores u (scoreKeys groups m) d with
    | .error e => .error e
    | .ok d => accLoop groups rest d

/-- The tensors added under key `k`. -/
def addends (groups : Option (List PyStr)) (us : List (PyStr × Tensor K)) (k : PyStr) : List (Tensor K) :=
  us.flatMap fun p => List.replicate ((scoreKeys groups p.1).count k) p.2

theorem accLoop_ok [Semiring K] {groups : Option (List PyStr)} : ∀ {us : List (PyStr × Tensor K)} {d d' : Scores K} {vs : PyStr → List (Tensor K)},
    accLoop groups us d = .ok d' → (∀ k v, Dict.get? d k = some v → SumOf v (vs k)) →
    Dict.keys d' = Dict.keys d ∧ ∀ k v, Dict.get? d' k = some v → SumOf v (vs k ++ addends groups us k) := by
  intro us
  induction us with
  | nil =>
    intro d d' vs h hd
    cases h
    exact ⟨rfl, fun k v hv => by simpa [addends] using hd k v hv⟩
  | cons a rest ih =>
    obtain ⟨m, u⟩ := a
    intro d d' vs h hd
    rw [accLoop] at h
    split at h
    · cases h
    · next d1 h1 =>
      obtain ⟨a1, -, a3⟩ := addScores_ok h1 hd
      obtain ⟨i1, i2⟩ := ih h a3
      refine ⟨i1.trans a1, fun k v hv => ?_⟩
      have := i2 k v hv
      rw [List.append_assoc] at this
      exact this

theorem initScores_get (groups : List PyStr) : (∀ k v, Dict.get? (initScores groups : Scores K) k = some v → v = none) ∧
    ∀ k, k ∈ Dict.keys (initScores groups : Scores K) ↔ k = nTotal ∨ k ∈ groups := by
  unfold initScores
  have : ∀ (gs : List PyStr) (d : Scores K), (∀ k v, Dict.get? d k = some v → v = none) →
      (∀ k v, Dict.get? (gs.foldl (fun d g => Dict.set d g none) d) k = some v → v = none) ∧
      ∀ k, k ∈ Dict.keys (gs.foldl (fun d g => Dict.set d g none) d) ↔ k ∈ Dict.keys d ∨ k ∈ gs := by
    intro gs
    induction gs with
    | nil => intro d hd; exact ⟨hd, by simp⟩
    | cons g rest ih =>
      intro d hd
      obtain ⟨i1, i2⟩ := ih (Dict.set d g none) (by
        intro k v hv
        by_cases hk : k = g
        · subst hk; rw [Dict.get?_set_self] at hv; cases hv; rfl
        · rw [Dict.get?_set_ne _ _ (Ne.symm hk)] at hv; exact hd k v hv)
      refine ⟨i1, fun k => ?_⟩
      rw [List.foldl_cons, i2, Dict.keys_set, List.mem_cons]
      split
      · next hg => exact ⟨fun h => h.elim .inl fun h => .inr (.inr h), fun h => h.elim .inl fun h => h.elim (fun h => .inl (h ▸ hg)) .inr⟩
      · rw [List.mem_append, List.mem_singleton, or_assoc]
  obtain ⟨h1, h2⟩ := this groups [(nTotal, none)] (by
    intro k v hv
    simp only [Dict.get?_cons] at hv
    split at hv
    · cases hv; rfl
    · simp [Dict.get?] at hv)
  refine ⟨h1, fun k => ?_⟩
  rw [h2]
  simp [Dict.keys]

theorem checkScores_ok {dims : List Nat} : ∀ {sc : Scores K} {d : Dict PyStr (Tensor K)}, checkScores dims sc = .ok d →
    Dict.keys d = Dict.keys sc ∧ ∀ k v, Dict.get? sc k = some v → ∃ t, v = some t ∧ t.shape = dims ∧ Dict.get? d k = some (t.onDev .cpu) := by
  intro sc
  induction sc with
  | nil => intro d h; cases h; exact ⟨rfl, fun k v hv => by cases hv⟩
  | cons a rest ih =>
    obtain ⟨k, v⟩ := a
    intro d h
    cases v with
    | none => cases h
    | some t =>
      rw [checkScores] at h
      split at h
      · next hs =>
        split at h
        · cases h
        · next d' hd' =>
          cases h
          obtain ⟨i1, i2⟩ := ih hd'
          refine ⟨by simp only [Dict.keys, List.map_cons] at i1 ⊢; rw [i1], fun k' v' hv' => ?_⟩
          rw [Dict.get?_cons] at hv' ⊢
          split at hv'
          · next hk => cases hv'; exact ⟨t, rfl, hs, if_pos hk⟩
          · next hk =>
            obtain ⟨t', e1, e2, e3⟩ := i2 k' v' hv'
            exact ⟨t', e1, e2, (if_neg hk).trans e3⟩
      · cases h

theorem finishScores_ok {groups : Option (List PyStr)} {d : Dict PyStr (Tensor K)} {inf : Influence K} (h : finishScores groups d = .ok inf)
    (hk : ∀ k, k ∈ Dict.keys d ↔ k = nTotal ∨ k ∈ groups.getD []) : ∀ k, inf.get? k = Dict.get? d k := by
  intro k
  unfold finishScores at h
  split at h
  · cases h; rfl
  · split at h
    · next t ht =>
      cases h
      simp only [Influence.get?]
      split
      · next hk' => rw [hk', show Dict.get? d ['t', 'o', 't', 'a', 'l'] = some t from ht]
      · next hk' =>
        cases hd : Dict.get? d k with
        | none => rfl
        | some v =>
          have : k ∈ Dict.keys d := by rw [← Dict.get?_isSome_iff, hd]; rfl
          rcases (hk k).1 this with h' | h'
          · exact absurd h' hk'
          · simp at h'
    · cases h

theorem moduleLoop_ok [Semiring K] {groups : Option (List PyStr)} {tgt : GLog K} : ∀ {src : GLog K} {d d' : Scores K},
    moduleLoop groups tgt src d = .ok d' → ∃ us : List (PyStr × Tensor K), accLoop groups us d = .ok d' ∧ us.map (·.1) = Dict.keys src ∧
      ∀ p ∈ us, ∃ sub a b, (p.1, sub) ∈ src ∧ Dict.get? sub (LogType.name .grad) = some a ∧ Spec.grad tgt p.1 = some b ∧ crossDot a b = .ok p.2 := by
  intro src
  induction src with
  | nil => intro d d' h; cases h; exact ⟨[], rfl, rfl, by simp⟩
  | cons a rest ih =>
    obtain ⟨m, sub⟩ := a
    intro d d' h
    rw [moduleLoop] at h
    split at h
    · next a b ha hb =>
      split at h
      · cases h
      · next u hu =>
        split at h
        · cases h
        · next d1 h1 =>
          obtain ⟨us, e1, e2, e3⟩ := ih h
          refine ⟨(m, u) :: us, by rw [accLoop, h1]; exact e1, by simp only [List.map_cons, e2]; rfl, fun p hp => ?_⟩
          rcases List.mem_cons.1 hp with rfl | hp
          · refine ⟨sub, a, b, by simp, ha, ?_, hu⟩
            unfold logItem at hb
            unfold Spec.grad
            split at hb
            · cases hb
            · next sub' hs' =>
              split at hb
              · cases hb
              · next x hx => cases hb; rw [hs']; exact hx
          · obtain ⟨sub', a', b', f1, f2, f3, f4⟩ := e3 p hp
            exact ⟨sub', a', b', by simp [f1], f2, f3, f4⟩
    · cases h

theorem selfLoop_ok [Semiring K] {groups : Option (List PyStr)} {tgt : GLog K} : ∀ {src : GLog K} {d d' : Scores K},
    selfLoop groups tgt src d = .ok d' → ∃ us : List (PyStr × Tensor K), accLoop groups us d = .ok d' ∧ us.map (·.1) = Dict.keys src ∧
      ∀ p ∈ us, ∃ sub a b, (p.1, sub) ∈ src ∧ Dict.get? sub (LogType.name .grad) = some a ∧ Spec.grad tgt p.1 = some b ∧ rowDots a b = .ok p.2 := by
  intro src
  induction src with
  | nil => intro d d' h; cases h; exact ⟨[], rfl, rfl, by simp⟩
  | cons a rest ih =>
    obtain ⟨m, sub⟩ := a
    intro d d' h
    rw [selfLoop] at h
    split at h
    · next a b ha hb =>
      split at h
      · cases h
      · next u hu =>
        split at h
        · cases h
        · next d1 h1 =>
          obtain ⟨us, e1, e2, e3⟩ := ih h
          refine ⟨(m, u) :: us, by rw [accLoop, h1]; exact e1, by simp only [List.map_cons, e2]; rfl, fun p hp => ?_⟩
          rcases List.mem_cons.1 hp with rfl | hp
          · refine ⟨sub, a, b, by simp, ha, ?_, hu⟩
            unfold logItem at hb
            unfold Spec.grad
            split at hb
            · cases hb
            · next sub' hs' =>
              split at hb
              · cases hb
              · next x hx => cases hb; rw [hs']; exact hx
          · obtain ⟨sub', a', b', f1, f2, f3, f4⟩ := e3 p hp
            exact ⟨sub', a', b', by simp [f1], f2, f3, f4⟩
    · cases h

theorem crossDot_ok [Semiring K] {a b u : Tensor K} (h : crossDot a b = .ok u) :
    a.shape.tail = b.shape.tail ∧ a.dev = b.dev ∧ u.dev = a.dev ∧ u.shape = [a.size 0, b.size 0] ∧
      ∀ i j, i < a.size 0 → j < b.size 0 → u.el [i, j] = Spec.dot a.shape.tail (Spec.row a i) (Spec.row b j) := by
  unfold crossDot at h
  split at h
  · next n r m r' hs hs' =>
    split at h
    · next hr =>
      split at h
      · next hdev =>
        cases h
        have h0 : a.size 0 = n := by simp [Tensor.size, hs]
        have h1 : b.size 0 = m := by simp [Tensor.size, hs']
        refine ⟨by rw [hs, hs']; exact hr, hdev, rfl, by rw [Tensor.ofFn2_shape, h0, h1], fun i j hi hj => ?_⟩
        rw [Tensor.el_ofFn2 _ _ _ _ (h0 ▸ hi) (h1 ▸ hj), hs]
        rfl
      · cases h
    · cases h
  · cases h

theorem rowDots_ok [Semiring K] {a b u : Tensor K} (h : rowDots a b = .ok u) :
    b.shape = a.shape ∧ a.shape.length = 3 ∧ a.dev = b.dev ∧ u.dev = a.dev ∧ u.shape = [a.size 0] ∧
      ∀ i, i < a.size 0 → u.el [i] = Spec.dot a.shape.tail (Spec.row a i) (Spec.row b i) := by
  unfold rowDots at h
  split at h
  · next n x y hs =>
    split at h
    · next hc =>
      cases h
      have h0 : a.size 0 = n := by simp [Tensor.size, hs]
      refine ⟨hc.1, by rw [hs]; rfl, hc.2, rfl, by rw [Tensor.ofFn1_shape, h0], fun i hi => ?_⟩
      rw [Tensor.el_ofFn1 _ _ _ (h0 ▸ hi), hs]
      rfl
    · cases h
  · cases h

theorem grad_of_mem {d : GLog K} (hn : (Dict.keys d).Nodup) {m : PyStr} {sub : Dict PyStr (Tensor K)} (h : (m, sub) ∈ d) :
    Spec.grad d m = Dict.get? sub (LogType.name .grad) := by
  unfold Spec.grad
  rw [Dict.get?_of_mem _ hn h]
  rfl

/-- The value of a bilinear form on the gradients of sample `i` of one log and sample `j` of another in one module. -/
def formAt [Zero K] (Q : PyStr → List Nat → (List Nat → K) → (List Nat → K) → K) (d : GLog K) (i : Nat) (e : GLog K) (j : Nat) (m : PyStr) : K :=
  match Spec.grad d m, Spec.grad e m with
  | some g, some h => Q m g.shape.tail (Spec.row g i) (Spec.row h j)
  | _, _ => 0

theorem sum_replicate [Semiring K] (n : Nat) (f : Tensor K → K) (u : Tensor K) : ((List.replicate n u).map f).sum = (n : K) * f u := by
  rw [List.map_replicate, List.sum_replicate, nsmul_eq_mul]

theorem addends_sum [Semiring K] (groups : Option (List PyStr)) (k : PyStr) (f : Tensor K → K) : ∀ us : List (PyStr × Tensor K),
    ((addends groups us k).map f).sum = (us.map fun p => ((scoreKeys groups p.1).count k : K) * f p.2).sum
  | [] => rfl
  | (m, u) :: rest => by
    have ih := addends_sum groups k f rest
    unfold addends at ih ⊢
    rw [List.flatMap_cons, List.map_append, List.sum_append, ih, sum_replicate]
    simp

theorem mem_addends {groups : Option (List PyStr)} {us : List (PyStr × Tensor K)} {k : PyStr} {u : Tensor K} (h : u ∈ addends groups us k) :
    ∃ m, (m, u) ∈ us ∧ k ∈ scoreKeys groups m := by
  unfold addends at h
  obtain ⟨p, hp, hu⟩ := List.mem_flatMap.1 h
  rw [List.mem_replicate] at hu
  exact ⟨p.1, by rw [hu.2]; exact hp, List.count_pos_iff.1 (Nat.pos_of_ne_zero hu.1)⟩

theorem scores_sum [Semiring K] {groups : Option (List PyStr)} {us : List (PyStr × Tensor K)} {k : PyStr} {t : Tensor K} {dims : List Nat}
    {F : PyStr → List Nat → K} (hs : SumOf (some t) (addends groups us k)) (hu : ∀ p ∈ us, p.2.shape = dims ∧ ∀ idx, inRange dims idx = true →
      p.2.el idx = F p.1 idx) : t.shape = dims ∧ ∀ idx, inRange dims idx = true →
      t.el idx = ((us.map (·.1)).map fun m => ((scoreKeys groups m).count k : K) * F m idx).sum := by
  obtain ⟨⟨u, h1, h1'⟩, -, h3⟩ := hs
  obtain ⟨m, hm, -⟩ := mem_addends h1
  have hsh : t.shape = dims := by rw [← h1', (hu _ hm).1]
  refine ⟨hsh, fun idx hidx => ?_⟩
  rw [h3 idx (by rw [hsh]; exact hidx), addends_sum, List.map_map]
  congr 1
  refine List.map_congr_left fun p hp => ?_
  obtain ⟨q1, q2⟩ := hu p hp
  simp only [Function.comp]
  rw [q1, bidx_self _ _ hidx, q2 idx hidx]

/-! ### Moving the targets to the device of the sources -/

/-- All tensors of a log on one device. -/
def logOnDev (e : GLog K) (dev : Dev) : GLog K := e.map fun p => (p.1, p.2.map fun q => (q.1, q.2.onDev dev))

theorem keys_logOnDev (e : GLog K) (dev : Dev) : Dict.keys (logOnDev e dev) = Dict.keys e := by
  simp [Dict.keys, logOnDev]

theorem get?_map_val {α β : Type} (f : α → β) (d : Dict PyStr α) (k : PyStr) : Dict.get? (d.map fun p => (p.1, f p.2) : Dict PyStr β) k = (Dict.get? d k).map f := by
  induction d with
  | nil => rfl
  | cons a rest ih =>
    rw [List.map_cons, Dict.get?_cons, Dict.get?_cons, ih]
    split <;> rfl

theorem grad_logOnDev (e : GLog K) (dev : Dev) (m : PyStr) : Spec.grad (logOnDev e dev) m = (Spec.grad e m).map (·.onDev dev) := by
  unfold Spec.grad logOnDev
  rw [get?_map_val (fun sub : Dict PyStr (Tensor K) => (sub.map fun q => (q.1, q.2.onDev dev) : Dict PyStr (Tensor K)))]
  cases Dict.get? e m with
  | none => rfl
  | some sub => exact get?_map_val (fun t : Tensor K => t.onDev dev) sub _

theorem row_onDev [Zero K] (t : Tensor K) (dev : Dev) (i : Nat) : Spec.row (t.onDev dev) i = Spec.row t i := rfl

theorem syncDevice_ok {src tgt tgt' : GLog K} (h : syncDevice src tgt = .ok tgt') : tgt' = tgt ∨ ∃ dev, tgt' = logOnDev tgt dev := by
  unfold syncDevice at h
  split at h
  · cases h; exact .inl rfl
  · split at h
    · cases h
    · next x hx => cases h; exact .inr ⟨x.dev, rfl⟩

/-- The logs have the same gradients, perhaps on other devices. -/
def SameGrads (e e' : GLog K) : Prop :=
  Dict.keys e' = Dict.keys e ∧ ∀ m, (Spec.grad e m = none ∧ Spec.grad e' m = none) ∨
    ∃ g dev, Spec.grad e m = some g ∧ Spec.grad e' m = some (g.onDev dev)

theorem SameGrads.refl (e : GLog K) : SameGrads e e := by
  refine ⟨rfl, fun m => ?_⟩
  cases h : Spec.grad e m with
  | none => exact .inl ⟨rfl, rfl⟩
  | some g => exact .inr ⟨g, g.dev, rfl, rfl⟩

theorem syncDevice_same {src tgt tgt' : GLog K} (h : syncDevice src tgt = .ok tgt') : SameGrads tgt tgt' := by
  rcases syncDevice_ok h with rfl | ⟨dev, rfl⟩
  · exact .refl _
  · refine ⟨keys_logOnDev _ _, fun m => ?_⟩
    rw [grad_logOnDev]
    cases Spec.grad tgt m with
    | none => exact .inl ⟨rfl, rfl⟩
    | some g => exact .inr ⟨g, dev, rfl, rfl⟩

theorem SameGrads.labelled {e e' : GLog K} {ids : List PyStr} (h : SameGrads e e') (he : Spec.Labelled ids e) : Spec.Labelled ids e' := by
  refine ⟨by rw [h.1]; exact he.nodup, fun m hm => ?_⟩
  obtain ⟨g, h1, h2⟩ := he.rows m (h.1 ▸ hm)
  rcases h.2 m with ⟨h3, -⟩ | ⟨g', dev, h3, h4⟩
  · rw [h1] at h3; cases h3
  · rw [h1] at h3; cases h3
    exact ⟨_, h4, h2⟩

theorem SameGrads.formAt [Zero K] {e e' : GLog K} (h : SameGrads e e') (Q : PyStr → List Nat → (List Nat → K) → (List Nat → K) → K) (d : GLog K)
    (i j : Nat) (m : PyStr) : formAt Q d i e' j m = formAt Q d i e j m := by
  unfold Logix.formAt
  rcases h.2 m with ⟨h3, h4⟩ | ⟨g', dev, h3, h4⟩
  · rw [h3, h4]
  · rw [h3, h4]; cases Spec.grad d m <;> rfl

theorem SameGrads.formAt_left [Zero K] {e e' : GLog K} (h : SameGrads e e') (Q : PyStr → List Nat → (List Nat → K) → (List Nat → K) → K) (d : GLog K)
    (i j : Nat) (m : PyStr) : Logix.formAt Q e' i d j m = Logix.formAt Q e i d j m := by
  unfold Logix.formAt
  rcases h.2 m with ⟨h3, h4⟩ | ⟨g', dev, h3, h4⟩
  · rw [h3, h4]
  · rw [h3, h4]; cases Spec.grad d m <;> rfl

/-! ### The scores -/

/-- The Hessian used by a call, and the state after it: without preconditioning there is none. -/
def PreOf [Field K] (pre : Bool) (L : Lib K) (s : LState K) (keys : List PyStr) (hessian : Hess) (damping : Option K) (s' : LState K) (H : HessKind K) : Prop :=
  if pre then ∃ s₁, hessOf L s keys hessian damping = .ok (s₁, H) ∧ (H.NoShared → s' = s₁) else H = .none ∧ s' = s

theorem Acts.refl [Field K] (d : GLog K) : Acts .none d d := ⟨rfl, fun _ g hg => ⟨g, hg, rfl, rfl, fun _ _ _ => rfl⟩⟩

theorem pre_ok [Field K] {L : Lib K} {pre : Bool} {s s' : LState K} {d : GLog K} {o : LogArg K} {hessian : Hess} {damping : Option K}
    (hn : (Dict.keys d).Nodup) (h : (if pre then precondition L s (.dict d) hessian damping else .ok (s, .dict d)) = .ok (s', o)) :
    ∃ p H, o = .dict p ∧ PreOf pre L s (Dict.keys d) hessian damping s' H ∧ Acts H d p := by
  cases pre with
  | true =>
    rw [if_pos rfl] at h
    obtain ⟨out, s₁, H, h1, -, h2, h3, h4⟩ := precondition_acts hn h
    exact ⟨out, H, h1, ⟨s₁, h2, h4⟩, h3⟩
  | false =>
    simp only [Bool.false_eq_true, if_false] at h
    cases h
    exact ⟨d, .none, rfl, ⟨rfl, rfl⟩, .refl d⟩

theorem dot_comm [CommSemiring K] (r : List Nat) (f g : List Nat → K) : Spec.dot r f g = Spec.dot r g f := by
  unfold Spec.dot
  congr 1
  exact List.map_congr_left fun _ _ => mul_comm _ _

theorem inRange_two {a b : Nat} {idx : List Nat} (h : inRange [a, b] idx = true) : ∃ i j, idx = [i, j] ∧ i < a ∧ j < b := by
  match idx with
  | [] => simp [inRange] at h
  | [i] => simp [inRange] at h
  | [i, j] => exact ⟨i, j, rfl, by simpa [inRange] using h⟩
  | i :: j :: k :: l => simp [inRange] at h

theorem inRange_one {a : Nat} {idx : List Nat} (h : inRange [a] idx = true) : ∃ i, idx = [i] ∧ i < a := by
  match idx with
  | [] => simp [inRange] at h
  | [i] => exact ⟨i, rfl, by simpa [inRange] using h⟩
  | i :: j :: l => simp [inRange] at h

theorem rawScores_ok [Field K] {s : LState K} {H : HessKind K} {d p e : GLog K} {groups : Option (List PyStr)} {sc : Scores K} {tgt : LogArg K}
    {srcIds tgtIds : List PyStr} (h : rawScores s (.dict p) (.dict e) groups = .ok (sc, tgt)) (ha : Acts H d p)
    (hd : Spec.Labelled srcIds d) (he : Spec.Labelled tgtIds e) :
    ∃ e', tgt = .dict e' ∧ SameGrads e e' ∧ (∀ k, k ∈ Dict.keys sc ↔ k = nTotal ∨ k ∈ groups.getD []) ∧
      (∀ m ∈ Dict.keys d, ∃ g h, Spec.grad d m = some g ∧ Spec.grad e m = some h ∧ g.shape.tail = h.shape.tail) ∧
      ∀ k v, Dict.get? sc k = some v → (v = none ∧ ∀ m ∈ Dict.keys d, k ∉ scoreKeys groups m) ∨
        ∃ t, v = some t ∧ t.shape = [srcIds.length, tgtIds.length] ∧ (∃ m ∈ Dict.keys d, k ∈ scoreKeys groups m ∧ ∃ g, Spec.grad d m = some g ∧ t.dev = g.dev) ∧
          ∀ i j, i < srcIds.length → j < tgtIds.length →
            t.el [i, j] = ((Dict.keys d).map fun m => ((scoreKeys groups m).count k : K) * formAt H.form d i e j m).sum := by
  unfold rawScores at h
  simp only at h
  split at h
  · cases h
  · next e' he' =>
    have hsame := syncDevice_same he'
    split at h
    · cases h
    · next sc' hl =>
      cases h
      obtain ⟨us, e1, e2, e3⟩ := moduleLoop_ok hl
      obtain ⟨i1, i2⟩ := initScores_get (K := K) (groups.getD [])
      obtain ⟨a1, a2⟩ := accLoop_ok (vs := fun _ => []) e1 (fun k v hv => by rw [i1 k v hv]; exact rfl)
      have hkeys : us.map (·.1) = Dict.keys d := e2.trans ha.1
      have hpn : (Dict.keys p).Nodup := by rw [ha.1]; exact hd.nodup
      have hu : ∀ q ∈ us, ∃ g h, Spec.grad d q.1 = some g ∧ Spec.grad e q.1 = some h ∧ g.shape.tail = h.shape.tail ∧ q.2.dev = g.dev ∧
          q.2.shape = [srcIds.length, tgtIds.length] ∧ ∀ i j, i < srcIds.length → j < tgtIds.length →
            q.2.el [i, j] = formAt H.form d i e j q.1 := by
        intro q hq
        obtain ⟨sub, a, b, f1, f2, f3, f4⟩ := e3 q hq
        have hm : q.1 ∈ Dict.keys d := by rw [← hkeys]; exact List.mem_map_of_mem (f := Prod.fst) hq
        obtain ⟨g, g1, g2⟩ := hd.rows _ hm
        obtain ⟨p', p1, p2, p3, p4⟩ := ha.2 _ g g1
        rw [grad_of_mem hpn f1, f2] at p1
        cases p1
        obtain ⟨c1, c2, c3, c4, c5⟩ := crossDot_ok f4
        rcases hsame.2 q.1 with ⟨-, h3⟩ | ⟨h', dev, h3, h4⟩
        · rw [f3] at h3; cases h3
        · rw [f3] at h4; cases h4
          have hme : q.1 ∈ Dict.keys e := grad_mem h3
          obtain ⟨h'', q1, q2⟩ := he.rows _ hme
          rw [h3] at q1; cases q1
          have hsz : a.size 0 = srcIds.length := by rw [← g2, Tensor.size, p2]; rfl
          have hsz' : (h'.onDev dev).size 0 = tgtIds.length := q2
          rw [hsz, hsz'] at c4 c5
          refine ⟨g, h', g1, h3, by rw [← p2]; exact c1, c3.trans p3, c4, fun i j hi hj => ?_⟩
          rw [c5 i j hi hj, p2, p4 i (by rw [g2]; exact hi)]
          simp only [formAt, g1, h3]
          rfl
      refine ⟨e', rfl, hsame, fun k => by rw [a1]; exact i2 k, fun m hm => ?_, fun k v hv => ?_⟩
      · rw [← hkeys] at hm
        obtain ⟨q, hq, rfl⟩ := List.mem_map.1 hm
        obtain ⟨g, h', g1, g2, g3, -⟩ := hu q hq
        exact ⟨g, h', g1, g2, g3⟩
      · have hs := a2 k v hv
        rw [List.nil_append] at hs
        cases v with
        | none =>
          refine .inl ⟨rfl, fun m hm hk => ?_⟩
          have hs : addends groups us k = [] := hs
          rw [← hkeys] at hm
          obtain ⟨q, hq, rfl⟩ := List.mem_map.1 hm
          unfold addends at hs
          rw [List.flatMap_eq_nil_iff] at hs
          have := hs q hq
          rw [List.replicate_eq_nil_iff, List.count_eq_zero] at this
          exact this hk
        | some t =>
          obtain ⟨s1, s2⟩ := scores_sum (dims := [srcIds.length, tgtIds.length])
            (F := fun m idx => match idx with | [i, j] => formAt H.form d i e j m | _ => 0) hs (fun q hq => by
              obtain ⟨g, h', -, -, -, -, g5, g6⟩ := hu q hq
              refine ⟨g5, fun idx hidx => ?_⟩
              obtain ⟨i, j, rfl, hi, hj⟩ := inRange_two hidx
              exact g6 i j hi hj)
          refine .inr ⟨t, rfl, s1, ?_, fun i j hi hj => ?_⟩
          · obtain ⟨⟨u, hu1, -⟩, hu2, -⟩ := hs
            obtain ⟨m, hm, hk⟩ := mem_addends hu1
            obtain ⟨g, h', g1, -, -, g4, -⟩ := hu _ hm
            refine ⟨m, by rw [← hkeys]; exact List.mem_map_of_mem (f := Prod.fst) hm, hk, g, g1, ?_⟩
            rw [← (hu2 u hu1).2]; exact g4
          · rw [s2 [i, j] (by simp [inRange, hi, hj]), hkeys]

theorem computeSelf_ok [Field K] {L : Lib K} {s s' : LState K} {ids : List PyStr} {d : GLog K} {pre : Bool} {hessian : Hess}
    {groups : Option (List PyStr)} {damping : Option K} {r : SelfResult K}
    (h : computeSelf L s ids (.dict d) pre hessian groups damping = .ok (s', r)) (hd : Spec.Labelled ids d) :
    ∃ H, PreOf pre L s (Dict.keys d) hessian damping s' H ∧ r.srcIds = ids ∧
      (∀ m ∈ Dict.keys d, ∃ g, Spec.grad d m = some g ∧ g.shape.length = 3) ∧
      ∀ k, k = nTotal ∨ k ∈ groups.getD [] → ∃ t, r.influence.get? k = some t ∧ r.influence.at k = .ok t ∧ t.dev = .cpu ∧ t.shape = [ids.length] ∧
        (∃ m ∈ Dict.keys d, k ∈ scoreKeys groups m) ∧
        ∀ i, i < ids.length → t.el [i] = ((Dict.keys d).map fun m => ((scoreKeys groups m).count k : K) * formAt H.form d i d i m).sum := by
  unfold computeSelf at h
  simp only at h
  split at h
  · cases h
  · cases h
  · next s₁ p hp =>
    obtain ⟨p', H, hpp, hH, ha⟩ := pre_ok hd.nodup hp
    cases hpp
    split at h
    · cases h
    · next sc hl =>
      split at h
      · cases h
      · next scd hc =>
        split at h
        · cases h
        · next inf hf =>
          cases h
          refine ⟨H, hH, rfl, ?_⟩
          obtain ⟨us, e1, e2, e3⟩ := selfLoop_ok hl
          obtain ⟨i1, i2⟩ := initScores_get (K := K) (groups.getD [])
          obtain ⟨a1, a2⟩ := accLoop_ok (vs := fun _ => []) e1 (fun k v hv => by rw [i1 k v hv]; exact rfl)
          obtain ⟨c1, c2⟩ := checkScores_ok hc
          have hu : ∀ q ∈ us, ∃ g, Spec.grad d q.1 = some g ∧ g.shape.length = 3 ∧ q.2.shape = [ids.length] ∧ ∀ i, i < ids.length →
              q.2.el [i] = formAt H.form d i d i q.1 := by
            intro q hq
            obtain ⟨sub, a, b, f1, f2, f3, f4⟩ := e3 q hq
            have hm : q.1 ∈ Dict.keys d := by rw [← e2]; exact List.mem_map_of_mem (f := Prod.fst) hq
            obtain ⟨g, g1, g2⟩ := hd.rows _ hm
            obtain ⟨p', p1, p2, p3, p4⟩ := ha.2 _ g g1
            have g1' := g1
            rw [grad_of_mem hd.nodup f1, f2] at g1'
            cases g1'
            rw [f3] at p1
            cases p1
            obtain ⟨r1, r2, r3, r4, r5, r6⟩ := rowDots_ok f4
            rw [g2] at r5 r6
            refine ⟨a, g1, r2, r5, fun i hi => ?_⟩
            rw [r6 i hi, dot_comm, p4 i (by rw [g2]; exact hi)]
            simp only [formAt, g1]
          refine ⟨fun m hm => ?_, fun k hk => ?_⟩
          · rw [← e2] at hm
            obtain ⟨q, hq, rfl⟩ := List.mem_map.1 hm
            obtain ⟨g, g1, g2, -⟩ := hu q hq
            exact ⟨g, g1, g2⟩
          · have hk' : k ∈ Dict.keys sc := by rw [a1]; exact (i2 k).2 hk
            rw [← Dict.get?_isSome_iff] at hk'
            obtain ⟨v, hv⟩ := Option.isSome_iff_exists.1 hk'
            obtain ⟨t, rfl, t1, t2⟩ := c2 k v hv
            have hs := a2 k _ hv
            rw [List.nil_append] at hs
            obtain ⟨s1, s2⟩ := scores_sum (dims := [ids.length])
              (F := fun m idx => match idx with | [i] => formAt H.form d i d i m | _ => 0) hs (fun q hq => by
                obtain ⟨g, -, -, g5, g6⟩ := hu q hq
                refine ⟨g5, fun idx hidx => ?_⟩
                obtain ⟨i, rfl, hi⟩ := inRange_one hidx
                exact g6 i hi)
            have hget := finishScores_ok hf (fun k => by rw [c1, a1]; exact i2 k)
            refine ⟨t.onDev .cpu, by rw [hget]; exact t2, ?_, rfl, t1, ?_, fun i hi => ?_⟩
            · unfold finishScores at hf
              split at hf
              · cases hf
                simp only [Influence.at, t2]
              · split at hf
                · next t' ht' =>
                  cases hf
                  have : k = nTotal := hk.resolve_right (by simp)
                  subst this
                  rw [t2] at ht'; cases ht'
                  rfl
                · cases hf
            · obtain ⟨⟨u, hu1, -⟩, -, -⟩ := hs
              obtain ⟨m, hm, hk⟩ := mem_addends hu1
              exact ⟨m, by rw [← e2]; exact List.mem_map_of_mem (f := Prod.fst) hm, hk⟩
            · show t.el [i] = _
              rw [s2 [i] (by simp [inRange, hi]), e2]

theorem applyNorm_ok [Zero K] {f : K → K → K} {norm : Influence K} : ∀ {sc sc' : Scores K}, applyNorm f norm sc = .ok sc' →
    Dict.keys sc' = Dict.keys sc ∧ ∀ k v, Dict.get? sc k = some v → ∃ t x, norm.at k = .ok t ∧ scoreOp f v t.unsqueeze0 = .ok x ∧
      Dict.get? sc' k = some (some x) := by
  intro sc
  induction sc with
  | nil => intro sc' h; cases h; exact ⟨rfl, fun k v hv => by cases hv⟩
  | cons a rest ih =>
    obtain ⟨k, v⟩ := a
    intro sc' h
    rw [applyNorm] at h
    split at h
    · cases h
    · next t ht =>
      split at h
      · cases h
      · next x hx =>
        split at h
        · cases h
        · next d hd =>
          cases h
          obtain ⟨i1, i2⟩ := ih hd
          refine ⟨by simp only [Dict.keys, List.map_cons] at i1 ⊢; rw [i1], fun k' v' hv' => ?_⟩
          rw [Dict.get?_cons] at hv'
          split at hv'
          · next hk =>
            subst hk
            cases hv'
            exact ⟨t, x, ht, hx, by rw [Dict.get?_cons, if_pos rfl]⟩
          · next hk =>
            obtain ⟨t', x', j1, j2, j3⟩ := i2 k' v' hv'
            exact ⟨t', x', j1, j2, by rw [Dict.get?_cons, if_neg hk]; exact j3⟩

/-- What a mode makes of the inner product `x` and the self-influence `y` of the target. -/
def modeFn [Field K] (sqrt : K → K) : Mode → K → K → K
  | .cosine, x, y => x / sqrt y
  | .l2, x, y => x - 1 / 2 * y
  | _, x, _ => x

theorem iop_norm [Field K] {f : K → K → K} {t u x : Tensor K} {n m : Nat} (ht : t.shape = [n, m]) (hu : u.shape = [m])
    (h : scoreOp f (some t) u.unsqueeze0 = .ok x) : t.dev = u.dev ∧ x.dev = t.dev ∧ x.shape = [n, m] ∧ ∀ i j, i < n → j < m → x.el [i, j] = f (t.el [i, j]) (u.el [j]) := by
  unfold scoreOp Tensor.iop at h
  simp only at h
  split at h
  · next hc =>
    cases h
    refine ⟨hc.1, rfl, ht, fun i j hi hj => ?_⟩
    rw [Tensor.el_ofFn, if_pos (by rw [ht]; simp [inRange, hi, hj])]
    congr 1
    unfold Tensor.unsqueeze0
    rw [Tensor.el_ofFn, Tensor.ofFn_shape, hu]
    have : (if m = 1 then 0 else j) = j := by split <;> omega
    simp [bidx, inRange, this, hj]
  · cases h

/-- All scores of `compute_influence`, for logs with the same modules. -/
theorem computeInfluence_ok' [Field K] {L : Lib K} {sqrt : K → K} {s s' : LState K} {srcIds tgtIds : List PyStr} {d e : GLog K} {mode : Mode}
    {pre : Bool} {hessian : Hess} {groups : Option (List PyStr)} {damping : Option K} {r : IFResult K}
    (h : computeInfluence L sqrt s srcIds (.dict d) tgtIds (.dict e) mode pre hessian groups damping = .ok (s', r))
    (hd : Spec.Labelled srcIds d) (he : Spec.Labelled tgtIds e) :
    ∃ H H' s₁, (∃ o, (if pre then precondition L s (.dict d) hessian damping else .ok (s, .dict d)) = .ok (s₁, o)) ∧ PreOf pre L s (Dict.keys d) hessian damping s₁ H ∧
      (if mode = .dot then s' = s₁ else PreOf true L s₁ (Dict.keys e) hessian damping s' H') ∧
      r.srcIds = srcIds ∧ r.tgtIds = tgtIds ∧
      (∀ m ∈ Dict.keys d, ∃ g h, Spec.grad d m = some g ∧ Spec.grad e m = some h ∧ g.shape.tail = h.shape.tail) ∧
      (mode ≠ .dot → ∀ m ∈ Dict.keys e, ∃ g, Spec.grad e m = some g ∧ g.shape.length = 3) ∧
      (mode ≠ .dot → Dict.keys d = Dict.keys e → ∃ m ∈ Dict.keys d, ∃ g, Spec.grad d m = some g ∧ g.dev = .cpu) ∧
      ∀ k, k = nTotal ∨ k ∈ groups.getD [] → ∃ t, r.influence.get? k = some t ∧ t.dev = .cpu ∧ t.shape = [srcIds.length, tgtIds.length] ∧
        (mode = .dot ∨ Dict.keys d = Dict.keys e → (∃ m ∈ Dict.keys d, k ∈ scoreKeys groups m) ∧ ∀ i j, i < srcIds.length → j < tgtIds.length →
          t.el [i, j] = modeFn sqrt mode ((Dict.keys d).map fun m => ((scoreKeys groups m).count k : K) * formAt H.form d i e j m).sum
            ((Dict.keys e).map fun m => ((scoreKeys groups m).count k : K) * formAt H'.form e j e j m).sum) := by
  unfold computeInfluence at h
  split at h
  · cases h
  · next hmode =>
    split at h
    · cases h
    · next s₁ src hp =>
      obtain ⟨p, H, rfl, hH, ha⟩ := pre_ok hd.nodup hp
      split at h
      · cases h
      · next sc tgt hraw =>
        obtain ⟨e', rfl, hsame, r1, r2, r3⟩ := rawScores_ok hraw ha hd he
        split at h
        · cases h
        · next s₂ sc₂ hms =>
          split at h
          · cases h
          · next scd hc =>
            split at h
            · cases h
            · next inf hf =>
              cases h
              obtain ⟨c1, c2⟩ := checkScores_ok hc
              unfold modeScores at hms
              split at hms
              · next hdot =>
                subst hdot
                cases hms
                refine ⟨H, .none, s', ⟨_, hp⟩, hH, by rw [if_pos rfl], rfl, rfl, r2, fun hh => absurd rfl hh, fun hh => absurd rfl hh, fun k hk => ?_⟩
                have hget := finishScores_ok hf (fun k => by rw [c1]; exact r1 k)
                have hk' := (r1 k).2 hk
                rw [← Dict.get?_isSome_iff] at hk'
                obtain ⟨v, hv⟩ := Option.isSome_iff_exists.1 hk'
                obtain ⟨t, rfl, t1, t2⟩ := c2 k v hv
                rcases r3 k _ hv with ⟨h0, -⟩ | ⟨t', h0, h1, h2, h3⟩
                · cases h0
                · cases h0
                  refine ⟨t.onDev .cpu, by rw [hget]; exact t2, rfl, t1, fun _ => ⟨?_, fun i j hi hj => h3 i j hi hj⟩⟩
                  obtain ⟨m, m1, m2, -⟩ := h2
                  exact ⟨m, m1, m2⟩
              · next hdot =>
                split at hms
                · cases hms
                · next s₃ norm hself =>
                  obtain ⟨H', hH', q1, q2, q3⟩ := computeSelf_ok hself (hsame.labelled he)
                  split at hms
                  · cases hms
                  · next sc₃ hnorm =>
                    cases hms
                    obtain ⟨n1, n2⟩ := applyNorm_ok hnorm
                    rw [hsame.1] at hH' q2 q3
                    have hget := finishScores_ok hf (fun k => by rw [c1, n1]; exact r1 k)
                    have key : ∀ k, k = nTotal ∨ k ∈ groups.getD [] → ∃ v t x, Dict.get? sc k = some v ∧ norm.influence.at k = .ok t ∧
                        scoreOp (if mode = .cosine then fun x y => x / sqrt y else fun x y => x - 1 / 2 * y) v t.unsqueeze0 = .ok x ∧
                        x.shape = [srcIds.length, tgtIds.length] ∧ inf.get? k = some (x.onDev .cpu) := by
                      intro k hk
                      have hk' := (r1 k).2 hk
                      rw [← Dict.get?_isSome_iff] at hk'
                      obtain ⟨v, hv⟩ := Option.isSome_iff_exists.1 hk'
                      obtain ⟨t, x, t1, t2, t3⟩ := n2 k v hv
                      obtain ⟨x', e1, x1, x2⟩ := c2 k _ t3
                      cases e1
                      exact ⟨v, t, x, hv, t1, t2, x1, by rw [hget]; exact x2⟩
                    have key' : Dict.keys d = Dict.keys e → ∀ k, k = nTotal ∨ k ∈ groups.getD [] → ∃ (v t n x : Tensor K), Dict.get? sc k = some (some v) ∧
                        v.shape = [srcIds.length, tgtIds.length] ∧ (∃ m ∈ Dict.keys d, k ∈ scoreKeys groups m ∧ ∃ g, Spec.grad d m = some g ∧ v.dev = g.dev) ∧
                        t = x.onDev .cpu ∧ inf.get? k = some t ∧ n.dev = .cpu ∧ n.shape = [tgtIds.length] ∧
                        scoreOp (if mode = .cosine then fun x y => x / sqrt y else fun x y => x - 1 / 2 * y) (some v) n.unsqueeze0 = .ok x ∧
                        (∀ i, i < tgtIds.length → n.el [i] = ((Dict.keys e).map fun m => ((scoreKeys groups m).count k : K) * formAt H'.form e i e i m).sum) ∧
                        ∀ i j, i < srcIds.length → j < tgtIds.length →
                          v.el [i, j] = ((Dict.keys d).map fun m => ((scoreKeys groups m).count k : K) * formAt H.form d i e j m).sum := by
                      intro hde k hk
                      obtain ⟨v, n, x, hv, hn, hx, hxs, hi⟩ := key k hk
                      obtain ⟨n', -, hn', nd, ns, ⟨m, m1, m2⟩, nel⟩ := q3 k hk
                      rw [hn'] at hn; cases hn
                      rcases r3 k v hv with ⟨rfl, h1⟩ | ⟨t', rfl, h1, h2, h3⟩
                      · exact absurd m2 (h1 m (by rw [hde]; exact m1))
                      · refine ⟨t', _, n, x, hv, h1, h2, rfl, hi, nd, ns, hx, fun i hi => ?_, h3⟩
                        rw [nel i hi]
                        congr 1
                        refine List.map_congr_left fun m _ => ?_
                        rw [hsame.formAt, hsame.formAt_left]
                    refine ⟨H, H', s₁, ⟨_, hp⟩, hH, by rw [if_neg hdot]; exact hH', rfl, rfl, r2, fun _ m hm => ?_, fun _ hde => ?_, fun k hk => ?_⟩
                    · obtain ⟨g, g1, g2⟩ := q2 m hm
                      rcases hsame.2 m with ⟨-, h3⟩ | ⟨g', dev, h3, h4⟩
                      · rw [g1] at h3; cases h3
                      · rw [g1] at h4; cases h4
                        exact ⟨g', h3, g2⟩
                    · obtain ⟨v, t, n, x, -, k2, ⟨m, m1, -, g, m3, m4⟩, -, -, k6, k7, k8, -⟩ := key' hde nTotal (.inl rfl)
                      obtain ⟨j1, -⟩ := iop_norm k2 k7 k8
                      exact ⟨m, m1, g, m3, by rw [← m4, j1, k6]⟩
                    · obtain ⟨v, n, x, hv, hn, hx, hxs, hi⟩ := key k hk
                      refine ⟨x.onDev .cpu, hi, rfl, hxs, fun hor => ?_⟩
                      obtain ⟨v', t, n', x', k1, k2, ⟨m, m1, m2, -⟩, k4, k5, k6, k7, k8, k9, k10⟩ := key' (hor.resolve_left hdot) k hk
                      refine ⟨⟨m, m1, m2⟩, fun i j hi' hj' => ?_⟩
                      obtain ⟨-, -, -, j4⟩ := iop_norm k2 k7 k8
                      rw [hi] at k5; cases k5
                      rw [k4]
                      show x'.el [i, j] = _
                      rw [j4 i j hi' hj', k9 j hj', k10 i j hi' hj']
                      cases mode with
                      | dot => exact absurd rfl hdot
                      | l2 => rfl
                      | cosine => rfl
                      | other => exact absurd rfl hmode

/-- All scores of `compute_influence`, for logs with the same modules. -/
theorem computeInfluence_ok [Field K] {L : Lib K} {sqrt : K → K} {s s' : LState K} {srcIds tgtIds : List PyStr} {d e : GLog K} {mode : Mode}
    {pre : Bool} {hessian : Hess} {groups : Option (List PyStr)} {damping : Option K} {r : IFResult K}
    (h : computeInfluence L sqrt s srcIds (.dict d) tgtIds (.dict e) mode pre hessian groups damping = .ok (s', r))
    (hd : Spec.Labelled srcIds d) (he : Spec.Labelled tgtIds e) :
    ∃ H H' s₁, PreOf pre L s (Dict.keys d) hessian damping s₁ H ∧
      (if mode = .dot then s' = s₁ else PreOf true L s₁ (Dict.keys e) hessian damping s' H') ∧
      r.srcIds = srcIds ∧ r.tgtIds = tgtIds ∧
      (∀ m ∈ Dict.keys d, ∃ g h, Spec.grad d m = some g ∧ Spec.grad e m = some h ∧ g.shape.tail = h.shape.tail) ∧
      (mode ≠ .dot → ∀ m ∈ Dict.keys e, ∃ g, Spec.grad e m = some g ∧ g.shape.length = 3) ∧
      (mode ≠ .dot → Dict.keys d = Dict.keys e → ∃ m ∈ Dict.keys d, ∃ g, Spec.grad d m = some g ∧ g.dev = .cpu) ∧
      ∀ k, k = nTotal ∨ k ∈ groups.getD [] → ∃ t, r.influence.get? k = some t ∧ t.dev = .cpu ∧ t.shape = [srcIds.length, tgtIds.length] ∧
        (mode = .dot ∨ Dict.keys d = Dict.keys e → (∃ m ∈ Dict.keys d, k ∈ scoreKeys groups m) ∧ ∀ i j, i < srcIds.length → j < tgtIds.length →
          t.el [i, j] = modeFn sqrt mode ((Dict.keys d).map fun m => ((scoreKeys groups m).count k : K) * formAt H.form d i e j m).sum
            ((Dict.keys e).map fun m => ((scoreKeys groups m).count k : K) * formAt H'.form e j e j m).sum) := by
  obtain ⟨H, H', s₁, -, h⟩ := computeInfluence_ok' h hd he
  exact ⟨H, H', s₁, h⟩

end Logix
