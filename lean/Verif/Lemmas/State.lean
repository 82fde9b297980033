/-
Lemmas about the state: lookups, the update of a statistic, normalisation.
-/
import Verif.Lemmas.Stats

namespace Logix
variable {K : Type}

/-! ### Two-level dictionaries -/

theorem indexable_of_item2 {d : StateDict K} {m t : PyStr} {w : Option (SVal K)} (h : item2 d m t = .ok w) : indexable d m = true := by
  unfold item2 at h
  unfold indexable
  split
  · next hd => rw [hd] at h; cases h
  · rfl

theorem item2_set2 {d : StateDict K} {m : PyStr} (h : indexable d m = true) (t : PyStr) (v : SVal K) (m' t' : PyStr) :
    item2 (set2 d m t v) m' t' = if m = m' ∧ t = t' then .ok (some v) else item2 d m' t' := by
  unfold indexable at h
  unfold set2
  cases hd : Dict.get? d m with
  | none =>
    simp only [item2, Dict.get?_set]
    by_cases hm : m = m'
    · subst hm
      by_cases ht : t = t'
      · subst ht; simp
      · simp [hd, ht, Dict.get?]
    · simp [hm]
  | some x =>
    cases x with
    | leaf a => rw [hd] at h; cases h
    | node sub =>
      simp only [item2, Dict.get?_set]
      by_cases hm : m = m'
      · subst hm
        by_cases ht : t = t'
        · subst ht; simp
        · simp [hd, ht, Dict.get?_set]
      · simp [hm]

theorem item2_set2_self (d : StateDict K) (m t : PyStr) (v : SVal K) : item2 (set2 d m t v) m t = .ok (some v) := by
  unfold set2
  cases hd : Dict.get? d m with
  | none => simp [item2, Dict.get?]
  | some x => cases x <;> simp [item2, Dict.get?]

theorem lookup_item2 {d : StateDict K} {m t : PyStr} {v : SVal K} (h : item2 d m t = .ok (some v)) :
    (Nested.node d).lookup [m, t] = some v := by
  unfold item2 at h
  simp only [Nested.lookup]
  cases hd : Dict.get? d m with
  | none => rw [hd] at h; cases h
  | some x =>
    rw [hd] at h
    cases x with
    | leaf a => cases h
    | node sub =>
      simp only at h ⊢
      simp only [Nested.lookup]
      cases hs : Dict.get? sub t with
      | none => rw [hs] at h; cases h
      | some y =>
        rw [hs] at h
        cases y with
        | leaf a => simp only [Except.ok.injEq, Option.some.injEq] at h; simp [Nested.lookup, h]
        | node _ => cases h

/-! ### Attributes -/

theorem getAttr_eq {s : LState K} {n : PyStr} {d : StateDict K} : s.getAttr n = .ok d ↔ Dict.get? s.attrs n = some d := by
  unfold LState.getAttr
  cases Dict.get? s.attrs n <;> simp

theorem getAttr_setAttr (s : LState K) (n n' : PyStr) (d : StateDict K) :
    (s.setAttr n d).getAttr n' = if n = n' then .ok d else s.getAttr n' := by
  unfold LState.getAttr LState.setAttr
  simp only [Dict.get?_set]
  by_cases h : n = n' <;> simp [h]

theorem getAttr_congr {s s' : LState K} {n : PyStr} (h : Dict.get? s'.attrs n = Dict.get? s.attrs n) : s'.getAttr n = s.getAttr n := by
  unfold LState.getAttr; rw [h]

theorem get?_setAttr (s : LState K) (n n' : PyStr) (d : StateDict K) :
    Dict.get? (s.setAttr n d).attrs n' = if n = n' then some d else Dict.get? s.attrs n' := by
  simp [LState.setAttr, Dict.get?_set]

theorem registerState_frame (s : LState K) (n n' : PyStr) (a b c : Bool) (h : n ≠ n') :
    Dict.get? (s.registerState n a b c).attrs n' = Dict.get? s.attrs n' := by
  unfold LState.registerState
  split
  · rfl
  · simp [Dict.get?_set, h]

theorem registerState_norm (s : LState K) (n : PyStr) (a b c : Bool) : (s.registerState n a b c).toNormalize = s.toNormalize := by
  unfold LState.registerState
  split <;> rfl

theorem registerNormalizePair_attrs (s : LState K) (n n' : PyStr) : (s.registerNormalizePair n n').attrs = s.attrs := by
  unfold LState.registerNormalizePair
  split <;> rfl

/-! ### One update of a statistic -/

/-- What an accumulation does to the tensor, in terms of rows. -/
structure AccSpec [Semiring K] (zeroShape : Nat → List Nat) (acc : Tensor K → Tensor K → Py (Tensor K)) (term : (Nat → K) → List Nat → K) :
    Prop where
  ok : ∀ (t x t' : Tensor K), acc t x = .ok t' → t.shape = zeroShape (x.size 1) ∧ t.dev = x.dev ∧ t'.shape = t.shape ∧ t'.dev = t.dev
  val : ∀ (t x t' : Tensor K) (R W : Nat), acc t x = .ok t' → x.shape = [R, W] → ∀ idx, inRange (zeroShape W) idx = true →
    t'.el idx = t.el idx + ∑ i ∈ Finset.range R, term (fun j => x.el [i, j]) idx
  congr : ∀ (r r' : Nat → K) (W : Nat), (∀ j, j < W → r j = r' j) → ∀ idx, inRange (zeroShape W) idx = true → term r idx = term r' idx
  inj : ∀ w w', zeroShape w = zeroShape w' → w = w'
  succ : ∀ (t x : Tensor K) (R W : Nat), x.shape = [R, W] → t.shape = zeroShape W → t.dev = x.dev → ∃ t', acc t x = .ok t'

/-- Sum of the terms of some rows. -/
def rowSum [Semiring K] (term : (Nat → K) → List Nat → K) (rows : List (Nat → K)) (idx : List Nat) : K := (rows.map (term · idx)).sum

theorem rowSum_append [Semiring K] (term : (Nat → K) → List Nat → K) (a b : List (Nat → K)) (idx : List Nat) :
    rowSum term (a ++ b) idx = rowSum term a idx + rowSum term b idx := by simp [rowSum]

theorem rowSum_rows [Semiring K] {z : Nat → List Nat} {acc : Tensor K → Tensor K → Py (Tensor K)} {term : (Nat → K) → List Nat → K}
    (A : AccSpec z acc term) {data x : Tensor K} {m : Option ModKind} {lt : LogType} (h : make2d data m lt = .ok x) (idx : List Nat)
    (hidx : inRange (z (Spec.width data m lt)) idx = true) :
    ∑ i ∈ Finset.range (Spec.rows data m lt).length, term (fun j => x.el [i, j]) idx = rowSum term (Spec.rows data m lt) idx := by
  obtain ⟨_, _, hx⟩ := make2d_rows h
  apply sum_rows
  intro i hi
  apply A.congr _ _ _ _ _ hidx
  intro j hj
  exact hx i j _ (List.getElem?_eq_getElem hi) hj

theorem zeros_el [Zero K] (dev : Dev) (s : List Nat) (idx : List Nat) : (Tensor.zeros dev s : Tensor K).el idx = 0 := by
  unfold Tensor.zeros
  rw [Tensor.el_ofFn]
  split <;> rfl

/-- A successful update of a statistic. -/
theorem statUpdate_ok [Semiring K] {st cn : PyStr} {z : Nat → List Nat} {acc : Tensor K → Tensor K → Py (Tensor K)}
    {term : (Nat → K) → List Nat → K} (A : AccSpec z acc term) {s s' : LState K} {c : StatCall K}
    (h : statUpdate st cn z acc s c = .ok s') :
    ∃ d e t0 n0 t, s.getAttr st = .ok d ∧ s.getAttr cn = .ok e ∧
      ((item2 d c.name c.logType.name = .ok none ∧ (∀ idx, t0.el idx = 0) ∧ n0 = 0 ∧ t0.dev = (if c.offload then .cpu else c.data.dev)) ∨
        (item2 d c.name c.logType.name = .ok (some (.tensor t0)) ∧ item2 e c.name c.logType.name = .ok (some (.num n0)))) ∧
      t0.shape = z (Spec.callWidth c) ∧ t.shape = z (Spec.callWidth c) ∧
      t.dev = (if c.offload then .cpu else c.data.dev) ∧
      (∀ idx, inRange (z (Spec.callWidth c)) idx = true → t.el idx = t0.el idx + rowSum term (Spec.callRows c) idx) ∧
      (∃ e', (e' = e ∨ (indexable e c.name = true ∧ e' = set2 e c.name c.logType.name (.num 0))) ∧
      item2 e' c.name c.logType.name = .ok (some (.num n0)) ∧
      s' = (s.setAttr st (set2 d c.name c.logType.name (.tensor t))).setAttr cn
        (set2 e' c.name c.logType.name (.num (n0 + batchCount c)))) := by
  unfold statUpdate at h
  split at h
  · next d e hd he =>
    split at h
    · cases h
    · next x hx =>
      obtain ⟨hxd, hxs, hxv⟩ := make2d_rows hx
      split at h
      · cases h
      · next v hv =>
        split at h
        · cases h
        next hix =>
        simp only at h
        split at h
        · next t0 ht0 =>
          split at h
          · cases h
          · next t ht =>
            have hw : x.size 1 = Spec.callWidth c := by simp [Tensor.size, hxs, Spec.callWidth]
            have key : t0.shape = z (Spec.callWidth c) ∧ t.shape = z (Spec.callWidth c) ∧
                t.dev = (if c.offload then .cpu else c.data.dev) ∧
                (∀ idx, inRange (z (Spec.callWidth c)) idx = true → t.el idx = t0.el idx + rowSum term (Spec.callRows c) idx) := by
              cases ho : c.offload with
              | false =>
                rw [ho] at ht
                simp only [Bool.false_eq_true, if_false] at ht ⊢
                obtain ⟨h1, h2, h3, h4⟩ := A.ok _ _ _ ht
                refine ⟨by rw [h1, hw], by rw [h3, h1, hw], by rw [h4, h2, hxd], fun idx hidx => ?_⟩
                rw [A.val _ _ _ _ _ ht hxs idx hidx, rowSum_rows A hx idx hidx]
                rfl
              | true =>
                rw [ho] at ht
                simp only [if_true] at ht ⊢
                cases ha : acc (t0.onDev x.dev) x with
                | error err => rw [ha] at ht; cases ht
                | ok t1 =>
                  rw [ha] at ht
                  simp only [Except.map, Except.ok.injEq] at ht
                  obtain ⟨h1, h2, h3, h4⟩ := A.ok _ _ _ ha
                  rw [← ht]
                  refine ⟨?_, ?_, rfl, fun idx hidx => ?_⟩
                  · rw [← hw]; exact h1
                  · rw [Tensor.onDev_shape, h3, h1, hw]
                  · rw [Tensor.onDev_el, A.val _ _ _ _ _ ha hxs idx hidx, rowSum_rows A hx idx hidx]
                    rfl
            obtain ⟨k1, k2, k3, k4⟩ := key
            split at h
            · next n hn =>
              simp only [Except.ok.injEq] at h
              cases v with
              | none =>
                simp only [Option.isNone_none, if_true, item2_set2_self, Except.ok.injEq, Option.some.injEq, SVal.num.injEq] at hn
                simp only [Option.getD_none, SVal.tensor.injEq] at ht0
                refine ⟨d, e, t0, n, t, hd, he, .inl ⟨hv, fun idx => by rw [← ht0, zeros_el], hn.symm, ?_⟩, k1, k2, k3, k4, _,
                  .inr ⟨by simpa using hix, rfl⟩, ?_, ?_⟩
                · rw [← ht0]; cases c.offload <;> simp [Tensor.zeros, hxd]
                · rw [item2_set2_self, hn]
                · rw [← h]; simp
              | some w =>
                simp only [Option.isNone_some, Bool.false_eq_true, if_false] at hn h
                simp only [Option.getD_some] at ht0
                subst ht0
                exact ⟨d, e, t0, n, t, hd, he, .inr ⟨hv, hn⟩, k1, k2, k3, k4, e, .inl rfl, hn, h.symm⟩
            · cases h
        · cases h
  · cases h

theorem logTypeName_inj {a b : LogType} (h : a.name = b.name) : a = b := by
  cases a <;> cases b <;> first | rfl | (exfalso; revert h; decide)

/-- The state of a statistic after some calls of its plugin, from the state before. -/
structure StatInv [Semiring K] (z : Nat → List Nat) (term : (Nat → K) → List Nat → K) (d0 e0 d e : StateDict K) (m : PyStr) (lt : LogType)
    (cs : List (StatCall K)) : Prop where
  nil : cs = [] → item2 d m lt.name = item2 d0 m lt.name ∧ item2 e m lt.name = item2 e0 m lt.name
  cons : cs ≠ [] → ∃ t0 n0 t W,
    ((item2 d0 m lt.name = .ok none ∧ (∀ idx, t0.el idx = 0) ∧ n0 = 0) ∨
      (item2 d0 m lt.name = .ok (some (.tensor t0)) ∧ item2 e0 m lt.name = .ok (some (.num n0)))) ∧
    (∀ c ∈ cs, Spec.callWidth c = W) ∧ t0.shape = z W ∧ t.shape = z W ∧
    item2 d m lt.name = .ok (some (.tensor t)) ∧ item2 e m lt.name = .ok (some (.num (n0 + (cs.map batchCount).sum))) ∧
    ∀ idx, inRange (z W) idx = true → t.el idx = t0.el idx + rowSum term (Spec.allRows cs) idx

theorem callsOf_append [Semiring K] (p : Plugin) (m : PyStr) (lt : LogType) (a b : List (Plugin × StatCall K)) :
    Spec.callsOf p m lt (a ++ b) = Spec.callsOf p m lt a ++ Spec.callsOf p m lt b := by simp [Spec.callsOf]

theorem callsOf_single [Semiring K] (p q : Plugin) (m : PyStr) (lt : LogType) (c : StatCall K) :
    Spec.callsOf p m lt [(q, c)] = if q = p ∧ c.name = m ∧ c.logType = lt then [c] else [] := by
  unfold Spec.callsOf
  by_cases h : q = p ∧ c.name = m ∧ c.logType = lt <;> simp [List.filter, h]

theorem allRows_append [Semiring K] (a b : List (StatCall K)) : Spec.allRows (a ++ b) = Spec.allRows a ++ Spec.allRows b := by
  simp [Spec.allRows]

theorem allRows_single [Semiring K] (c : StatCall K) : Spec.allRows [c] = Spec.callRows c := by simp [Spec.allRows]

/-- One update of the statistic's own plugin preserves the invariant. -/
theorem StatInv.step [Semiring K] {st cn : PyStr} (hne : st ≠ cn) {z : Nat → List Nat} {acc : Tensor K → Tensor K → Py (Tensor K)}
    {term : (Nat → K) → List Nat → K} (A : AccSpec z acc term) {s s' : LState K} {c : StatCall K}
    (h : statUpdate st cn z acc s c = .ok s') {d0 e0 d e : StateDict K} (hd : s.getAttr st = .ok d) (he : s.getAttr cn = .ok e)
    {m : PyStr} {lt : LogType} {cs : List (StatCall K)} (I : StatInv z term d0 e0 d e m lt cs) :
    ∃ d' e', s'.getAttr st = .ok d' ∧ s'.getAttr cn = .ok e' ∧
      StatInv z term d0 e0 d' e' m lt (cs ++ if c.name = m ∧ c.logType = lt then [c] else []) := by
  obtain ⟨d1, e1, t0, n0, t, hd1, he1, hcase, hs0, hst, hdv, hval, e', he', hn', hs'⟩ := statUpdate_ok A h
  obtain rfl : d = d1 := Except.ok.inj (hd.symm.trans hd1)
  obtain rfl : e = e1 := Except.ok.inj (he.symm.trans he1)
  have hdok : ∃ w, item2 d c.name c.logType.name = .ok w := by
    rcases hcase with h | h
    · exact ⟨_, h.1⟩
    · exact ⟨_, h.1⟩
  obtain ⟨w, hw⟩ := hdok
  refine ⟨set2 d c.name c.logType.name (.tensor t), set2 e' c.name c.logType.name (.num (n0 + batchCount c)), ?_, ?_, ?_⟩
  · rw [hs', getAttr_setAttr, if_neg (Ne.symm hne), getAttr_setAttr, if_pos rfl]
  · rw [hs', getAttr_setAttr, if_pos rfl]
  · by_cases hk : c.name = m ∧ c.logType = lt
    · obtain ⟨rfl, rfl⟩ := hk
      simp only [and_self, if_true]
      refine ⟨fun hnil => by simp at hnil, fun _ => ?_⟩
      by_cases hcs : cs = []
      · subst hcs
        obtain ⟨i1, i2⟩ := I.nil rfl
        refine ⟨t0, n0, t, Spec.callWidth c, ?_, by simp, hs0, hst, item2_set2_self _ _ _ _, ?_, ?_⟩
        · rw [← i1, ← i2]
          rcases hcase with h | h
          · exact .inl ⟨h.1, h.2.1, h.2.2.1⟩
          · exact .inr h
        · rw [item2_set2_self]; simp
        · intro idx hidx
          simp only [List.nil_append, allRows_single]
          exact hval idx hidx
      · obtain ⟨T0, N0, T, W, i0, iw, iT0, iT, id, ie, iv⟩ := I.cons hcs
        rcases hcase with h | h
        · rw [h.1] at id; cases id
        · have ht0 : t0 = T := by
            have := h.1.symm.trans id
            simpa using this
          subst ht0
          have hn0 : n0 = N0 + (cs.map batchCount).sum := by
            have := h.2.symm.trans ie
            simpa using this
          have hW : W = Spec.callWidth c := A.inj _ _ (iT.symm.trans hs0)
          refine ⟨T0, N0, t, W, i0, ?_, iT0, hW ▸ hst, item2_set2_self _ _ _ _, ?_, ?_⟩
          · intro c' hc'
            rcases List.mem_append.1 hc' with hc' | hc'
            · exact iw c' hc'
            · simp at hc'; rw [hc', hW]
          · rw [item2_set2_self, hn0]; simp [add_assoc]
          · intro idx hidx
            rw [allRows_append, allRows_single, rowSum_append, hval idx (hW ▸ hidx), iv idx hidx, add_assoc]
    · rw [if_neg hk, List.append_nil]
      have hk' : ¬(c.name = m ∧ c.logType.name = lt.name) := fun hh => hk ⟨hh.1, logTypeName_inj hh.2⟩
      have e1 : item2 (set2 d c.name c.logType.name (.tensor t)) m lt.name = item2 d m lt.name := by rw [item2_set2 (indexable_of_item2 hw), if_neg hk']
      have e2 : item2 (set2 e' c.name c.logType.name (.num (n0 + batchCount c))) m lt.name = item2 e m lt.name := by
        rw [item2_set2 (indexable_of_item2 hn'), if_neg hk']
        rcases he' with rfl | ⟨hix, rfl⟩
        · rfl
        · rw [item2_set2 hix, if_neg hk']
      exact ⟨fun hh => by rw [e1, e2]; exact I.nil hh, fun hh => by
        obtain ⟨T0, N0, T, W, i⟩ := I.cons hh
        exact ⟨T0, N0, T, W, by rw [e1, e2]; exact i⟩⟩

/-! ### The accumulations of mean and covariance -/

theorem sum0_el [Semiring K] (x : Tensor K) {R W j : Nat} (hx : x.shape = [R, W]) (hj : j < W) :
    x.sum0.el [j] = ∑ i ∈ Finset.range R, x.el [i, j] := by
  have s0 : x.size 0 = R := by simp [Tensor.size, hx]
  have s1 : x.size 1 = W := by simp [Tensor.size, hx]
  unfold Tensor.sum0
  rw [s0, s1, Tensor.el_ofFn1 (hi := hj)]

theorem idx1 {W : Nat} {idx : List Nat} (h : inRange [W] idx = true) : ∃ j, j < W ∧ idx = [j] := by
  match idx, h with
  | [j], h => exact ⟨j, by simpa [inRange] using h, rfl⟩
  | _ :: _ :: _, h => simp [inRange] at h

theorem idx2 {W W' : Nat} {idx : List Nat} (h : inRange [W, W'] idx = true) : ∃ i j, i < W ∧ j < W' ∧ idx = [i, j] := by
  match idx, h with
  | [], h => simp [inRange] at h
  | [_], h => simp [inRange] at h
  | [i, j], h => exact ⟨i, j, by simpa [inRange] using h⟩
  | _ :: _ :: _ :: _, h => simp [inRange] at h

/-- The term of a row in the mean. -/
def meanTerm (r : Nat → K) (idx : List Nat) : K := r (idx.getD 0 0)

/-- The term of a row in the covariance. -/
def covTerm [Mul K] (r : Nat → K) (idx : List Nat) : K := r (idx.getD 0 0) * r (idx.getD 1 0)

theorem meanAcc [Semiring K] : AccSpec (K := K) (fun w => [w]) (fun t x => t.add_ x.sum0) meanTerm where
  ok t x t' h := by
    unfold Tensor.add_ at h
    split at h
    · next hc =>
      obtain ⟨h1, h2⟩ := hc
      simp only [Except.ok.injEq] at h
      subst h
      exact ⟨by rw [h2]; rfl, h1, rfl, rfl⟩
    · cases h
  val t x t' R W h hx idx hidx := by
    obtain ⟨j, hj, rfl⟩ := idx1 hidx
    unfold Tensor.add_ at h
    split at h
    · next hc =>
      simp only [Except.ok.injEq] at h
      subst h
      have s1 : x.size 1 = W := by simp [Tensor.size, hx]
      have hs : t.shape = [W] := by rw [hc.2]; simp [Tensor.sum0, s1]
      rw [Tensor.el_ofFn, if_pos (by rw [hs]; exact hidx), sum0_el x hx hj]
      simp [meanTerm]
    · cases h
  congr r r' W h idx hidx := by
    obtain ⟨j, hj, rfl⟩ := idx1 hidx
    simpa [meanTerm] using h j hj
  inj w w' h := by simpa using h
  succ t x R W hx ht hd := by
    have s1 : x.size 1 = W := by simp [Tensor.size, hx]
    exact ⟨_, if_pos ⟨hd, by rw [ht]; simp [Tensor.sum0, s1]⟩⟩

theorem covAcc [Semiring K] : AccSpec (K := K) (fun w => [w, w]) (fun t x => t.addmmT_ x) covTerm where
  ok t x t' h := by
    unfold Tensor.addmmT_ at h
    split at h
    · next hc =>
      obtain ⟨h1, h2⟩ := hc
      simp only [Except.ok.injEq] at h
      subst h
      exact ⟨h2, h1, by rw [h2]; rfl, rfl⟩
    · cases h
  val t x t' R W h hx idx hidx := by
    obtain ⟨i, j, hi, hj, rfl⟩ := idx2 hidx
    unfold Tensor.addmmT_ at h
    split at h
    · next hc =>
      simp only [Except.ok.injEq] at h
      subst h
      have s0 : x.size 0 = R := by simp [Tensor.size, hx]
      have s1 : x.size 1 = W := by simp [Tensor.size, hx]
      rw [Tensor.el_ofFn2 (hi := by rw [s1]; exact hi) (hj := by rw [s1]; exact hj), s0]
      simp [covTerm]
    · cases h
  congr r r' W h idx hidx := by
    obtain ⟨i, j, hi, hj, rfl⟩ := idx2 hidx
    simp [covTerm, h i hi, h j hj]
  inj w w' h := by simpa using h
  succ t x R W hx ht hd := by
    have s1 : x.size 1 = W := by simp [Tensor.size, hx]
    exact ⟨_, if_pos ⟨hd, by rw [ht, s1]⟩⟩

/-! ### Frames -/

theorem statUpdate_frame [Semiring K] {st cn : PyStr} {z : Nat → List Nat} {acc : Tensor K → Tensor K → Py (Tensor K)}
    {term : (Nat → K) → List Nat → K} (A : AccSpec z acc term) {s s' : LState K} {c : StatCall K}
    (h : statUpdate st cn z acc s c = .ok s') : ∃ d e, s' = (s.setAttr st d).setAttr cn e := by
  obtain ⟨d1, e1, t0, n0, t, hd1, he1, hcase, hs0, hst, hdv, hval, e', he', hn', hs'⟩ := statUpdate_ok A h
  exact ⟨_, _, hs'⟩

/-- The attributes a plugin may change. -/
def touched : Plugin → List PyStr
  | .log => []
  | .mean => [nMean, nMeanCounter]
  | .variance => [nVariance, nVarianceCounter]
  | .covariance => [nCov, nCovCounter]
  | .correctedEigval => [nEigval, nEigvec, nEkfac, nEkfacCounter]

theorem covarianceSvd_frame (L : Lib K) {s s' : LState K} (h : s.covarianceSvd L = .ok s') :
    s'.toNormalize = s.toNormalize ∧ ∀ n, n ≠ nEigval → n ≠ nEigvec → Dict.get? s'.attrs n = Dict.get? s.attrs n := by
  unfold LState.covarianceSvd at h
  simp only at h
  split at h
  · split at h
    · cases h
    · simp only [Except.ok.injEq] at h
      subst h
      refine ⟨?_, fun n h1 h2 => ?_⟩
      · show (LState.registerState _ _ _ _ _).toNormalize = _
        rw [registerState_norm, registerState_norm]
      · rw [get?_setAttr, if_neg (Ne.symm h2), get?_setAttr, if_neg (Ne.symm h1), registerState_frame _ _ _ _ _ _ (Ne.symm h2),
          registerState_frame _ _ _ _ _ _ (Ne.symm h1)]
  · cases h

theorem ekfacPrepare_frame (L : Lib K) {s s' : LState K} (h : ekfacPrepare L s = .ok s') :
    (s'.toNormalize = s.toNormalize ∨ ((nEkfac, nEkfacCounter) ∉ s.toNormalize ∧ s'.toNormalize = s.toNormalize ++ [(nEkfac, nEkfacCounter)])) ∧
      ∀ n, n ∉ touched .correctedEigval → Dict.get? s'.attrs n = Dict.get? s.attrs n := by
  unfold ekfacPrepare at h
  split at h
  · cases h; exact ⟨.inl rfl, fun _ _ => rfl⟩
  · split at h
    · cases h
    · next s1 hs1 =>
      simp only [Except.ok.injEq] at h
      subst h
      obtain ⟨h1, h2⟩ := covarianceSvd_frame L hs1
      refine ⟨?_, fun n hn => ?_⟩
      · unfold LState.registerNormalizePair
        split
        · left; rw [registerState_norm, registerState_norm, h1]
        · next hne =>
          rw [registerState_norm, registerState_norm, h1] at hne
          right
          exact ⟨hne, by show (LState.registerState _ _ _ _ _).toNormalize ++ _ = _; rw [registerState_norm, registerState_norm, h1]⟩
      · simp only [touched, List.mem_cons, List.not_mem_nil, or_false, not_or] at hn
        rw [registerNormalizePair_attrs, registerState_frame _ _ _ _ _ _ (Ne.symm hn.2.2.2), registerState_frame _ _ _ _ _ _ (Ne.symm hn.2.2.1)]
        exact h2 n hn.1 hn.2.1

/-- A successful EKFAC update. -/
theorem correctedEigval_ok [Semiring K] (L : Lib K) {s s' : LState K} {c : StatCall K} (h : correctedEigvalUpdate L s c = .ok s') :
    ∃ s1 vecs vals ek cn t cn' ef eb t' x, ekfacPrepare L s = .ok s1 ∧ s1.getAttr nEigvec = .ok vecs ∧ s1.getAttr nEigval = .ok vals ∧
      s1.getAttr nEkfac = .ok ek ∧ s1.getAttr nEkfacCounter = .ok cn ∧ ekfacEntry ek cn c = .ok (.leaf (.tensor t), cn') ∧
      item2 vecs c.name (LogType.name .forward) = .ok (some (.tensor ef)) ∧
      item2 vecs c.name (LogType.name .backward) = .ok (some (.tensor eb)) ∧
      (if c.offload then (ekfacAdd (t.onDev c.data.dev) c.data (ef.onDev c.data.dev) (eb.onDev c.data.dev)).map (Tensor.onDev · .cpu)
        else ekfacAdd t c.data ef eb) = .ok t' ∧
      Dict.get? cn' c.name = some (.leaf (.num x)) ∧
      s' = (s1.setAttr nEkfac (Dict.set ek c.name (.leaf (.tensor t')))).setAttr nEkfacCounter
        (Dict.set cn' c.name (.leaf (.num (x + (c.data.size 0 : K))))) := by
  unfold correctedEigvalUpdate at h
  split at h
  · cases h
  · next s1 hs1 =>
    split at h
    · next vecs vals ek cn h1 h2 h3 h4 =>
      split at h
      · cases h
      · next t cn' h5 =>
        split at h
        · next ef eb h6 h7 =>
          split at h
          · cases h
          · next t' h8 =>
            split at h
            · next x h9 =>
              simp only [Except.ok.injEq] at h
              exact ⟨s1, vecs, vals, ek, cn, t, cn', ef, eb, t', x, hs1, h1, h2, h3, h4, h5, h6, h7, h8, h9, h.symm⟩
            · cases h
        · cases h
      · cases h
    · cases h

/-- A plugin leaves all attributes alone but its own, and may register one more normalisation pair. -/
theorem pluginUpdate_frame [Semiring K] (L : Lib K) {p : Plugin} {s s' : LState K} {c : StatCall K} (h : pluginUpdate L p s c = .ok s') :
    (s'.toNormalize = s.toNormalize ∨ ((nEkfac, nEkfacCounter) ∉ s.toNormalize ∧ s'.toNormalize = s.toNormalize ++ [(nEkfac, nEkfacCounter)])) ∧
      ∀ n, n ∉ touched p → Dict.get? s'.attrs n = Dict.get? s.attrs n := by
  have two : ∀ {st cn : PyStr} {d e : StateDict K}, s' = (s.setAttr st d).setAttr cn e →
      (s'.toNormalize = s.toNormalize ∨ ((nEkfac, nEkfacCounter) ∉ s.toNormalize ∧
        s'.toNormalize = s.toNormalize ++ [(nEkfac, nEkfacCounter)])) ∧
      ∀ n, n ∉ [st, cn] → Dict.get? s'.attrs n = Dict.get? s.attrs n := by
    intro st cn d e hs
    subst hs
    refine ⟨.inl rfl, fun n hn => ?_⟩
    simp only [List.mem_cons, List.not_mem_nil, or_false, not_or] at hn
    rw [get?_setAttr, if_neg (Ne.symm hn.2), get?_setAttr, if_neg (Ne.symm hn.1)]
  cases p with
  | log => cases h; exact ⟨.inl rfl, fun _ _ => rfl⟩
  | mean => obtain ⟨d, e, hs⟩ := statUpdate_frame meanAcc h; exact two hs
  | variance => obtain ⟨d, e, hs⟩ := statUpdate_frame meanAcc h; exact two hs
  | covariance => obtain ⟨d, e, hs⟩ := statUpdate_frame covAcc h; exact two hs
  | correctedEigval =>
    obtain ⟨s1, vecs, vals, ek, cn, t, cn', ef, eb, t', x, h0, -, -, -, -, -, -, -, -, -, hs⟩ := correctedEigval_ok L h
    obtain ⟨f1, f2⟩ := ekfacPrepare_frame L h0
    subst hs
    refine ⟨f1, fun n hn => ?_⟩
    rw [← f2 n hn]
    simp only [touched, List.mem_cons, List.not_mem_nil, or_false, not_or] at hn
    rw [get?_setAttr, if_neg (Ne.symm hn.2.2.2), get?_setAttr, if_neg (Ne.symm hn.2.2.1)]

/-! ### Sequences of updates -/

/-- The names, the shape and the term of the two statistics. -/
structure StatOf [Semiring K] (p : Plugin) (st cn : PyStr) (z : Nat → List Nat) (term : (Nat → K) → List Nat → K) : Prop where
  acc : ∃ acc, AccSpec z acc term ∧ ∀ (L : Lib K) s c, pluginUpdate L p s c = statUpdate st cn z acc s c
  ne : st ≠ cn
  other : ∀ q, q ≠ p → st ∉ touched q ∧ cn ∉ touched q

theorem statOf_mean [Semiring K] : StatOf (K := K) .mean nMean nMeanCounter (fun w => [w]) meanTerm where
  acc := ⟨_, meanAcc, fun _ _ _ => rfl⟩
  ne := by decide
  other q hq := by cases q <;> first | (exact absurd rfl hq) | decide

theorem statOf_cov [Semiring K] : StatOf (K := K) .covariance nCov nCovCounter (fun w => [w, w]) covTerm where
  acc := ⟨_, covAcc, fun _ _ _ => rfl⟩
  ne := by decide
  other q hq := by cases q <;> first | (exact absurd rfl hq) | decide

theorem updates_inv_aux [Semiring K] (L : Lib K) {p : Plugin} {st cn : PyStr} {z : Nat → List Nat} {term : (Nat → K) → List Nat → K}
    (S : StatOf p st cn z term) (d0 e0 : StateDict K) (m : PyStr) (lt : LogType) : ∀ (calls done : List (Plugin × StatCall K)) (s s' : LState K),
      updates L s calls = .ok s' →
      (∃ d e, s.getAttr st = .ok d ∧ s.getAttr cn = .ok e ∧ StatInv z term d0 e0 d e m lt (Spec.callsOf p m lt done)) →
      ∃ d e, s'.getAttr st = .ok d ∧ s'.getAttr cn = .ok e ∧ StatInv z term d0 e0 d e m lt (Spec.callsOf p m lt (done ++ calls)) := by
  intro calls
  induction calls with
  | nil =>
    intro done s s' h I
    cases h
    simpa using I
  | cons a rest ih =>
    obtain ⟨q, c⟩ := a
    intro done s s' h I
    unfold updates at h
    split at h
    · cases h
    · next s1 hs1 =>
      have key := ih (done ++ [(q, c)]) s1 s' h ?_
      · simpa using key
      · obtain ⟨d, e, hd, he, I⟩ := I
        rw [callsOf_append, callsOf_single]
        by_cases hq : q = p
        · subst hq
          obtain ⟨acc, A, hacc⟩ := S.acc
          rw [hacc] at hs1
          obtain ⟨d', e', hd', he', I'⟩ := I.step S.ne A hs1 hd he
          exact ⟨d', e', hd', he', by simpa using I'⟩
        · obtain ⟨o1, o2⟩ := S.other q hq
          have F := (pluginUpdate_frame L hs1).2
          refine ⟨d, e, ?_, ?_, by simpa [hq] using I⟩
          · rw [getAttr_congr (F _ o1)]; exact hd
          · rw [getAttr_congr (F _ o2)]; exact he

/-- A statistic after a sequence of updates, from any state. -/
theorem updates_inv [Semiring K] (L : Lib K) {p : Plugin} {st cn : PyStr} {z : Nat → List Nat} {term : (Nat → K) → List Nat → K}
    (S : StatOf p st cn z term) {calls : List (Plugin × StatCall K)} {s s' : LState K} (h : updates L s calls = .ok s')
    {d0 e0 : StateDict K} (hd : s.getAttr st = .ok d0) (he : s.getAttr cn = .ok e0) :
    ∃ d e, s'.getAttr st = .ok d ∧ s'.getAttr cn = .ok e ∧ ∀ m lt, StatInv z term d0 e0 d e m lt (Spec.callsOf p m lt calls) := by
  have H := fun m lt => updates_inv_aux L S d0 e0 m lt calls [] s s' h
    ⟨d0, e0, hd, he, ⟨fun _ => ⟨rfl, rfl⟩, fun hh => absurd rfl hh⟩⟩
  obtain ⟨d, e, h1, h2, _⟩ := H [] .grad
  refine ⟨d, e, h1, h2, fun m lt => ?_⟩
  obtain ⟨d', e', h1', h2', I⟩ := H m lt
  obtain rfl := Except.ok.inj (h1.symm.trans h1')
  obtain rfl := Except.ok.inj (h2.symm.trans h2')
  simpa using I

theorem updates_frame [Semiring K] (L : Lib K) : ∀ {calls : List (Plugin × StatCall K)} {s s' : LState K}, updates L s calls = .ok s' →
    (s'.toNormalize = s.toNormalize ∨ ((nEkfac, nEkfacCounter) ∉ s.toNormalize ∧ s'.toNormalize = s.toNormalize ++ [(nEkfac, nEkfacCounter)])) := by
  intro calls
  induction calls with
  | nil => intro s s' h; cases h; exact .inl rfl
  | cons a rest ih =>
    intro s s' h
    unfold updates at h
    split at h
    · cases h
    · next s1 hs1 =>
      rcases (pluginUpdate_frame L hs1).1 with h1 | ⟨h1, h2⟩
      · rw [← h1]; exact ih h
      · rcases ih h with h3 | ⟨h3, _⟩
        · right; exact ⟨h1, by rw [h3, h2]⟩
        · exact absurd (by rw [h2]; simp) h3

/-! ### Normalisation -/

theorem normalizeDict_get [Field K] {e : StateDict K} : ∀ {d d' : StateDict K}, normalizeDict e d = .ok d' → ∀ k,
    (Dict.get? d k = none → Dict.get? d' k = none) ∧
    ∀ v, Dict.get? d k = some v → ∃ v', normalizeValue (Dict.get? e k) v = .ok v' ∧ Dict.get? d' k = some v' := by
  intro d
  induction d with
  | nil => intro d' h k; unfold normalizeDict at h; cases h; simp
  | cons a rest ih =>
    obtain ⟨k0, v0⟩ := a
    intro d' h k
    unfold normalizeDict at h
    split at h
    · cases h
    · next v1 hv1 =>
      split at h
      · cases h
      · next rest' hr =>
        cases h
        by_cases hk : k0 = k
        · subst hk
          simp only [Dict.get?_cons_self, Option.some.injEq]
          exact ⟨fun h => (by cases h), fun v hv => ⟨v1, hv ▸ hv1, rfl⟩⟩
        · simp only [Dict.get?_cons, if_neg hk]
          exact ih hr k

theorem normalizeDict_item2 [Field K] {e d d' : StateDict K} (h : normalizeDict e d = .ok d') (m t : PyStr) :
    (∀ x, item2 d m t = .ok (some (.tensor x)) → ∃ c, item2 e m t = .ok (some (.num c)) ∧ item2 d' m t = .ok (some (.tensor (x.divNum c)))) ∧
    (item2 d m t = .ok none → item2 d' m t = .ok none) := by
  obtain ⟨h1, h2⟩ := normalizeDict_get h m
  unfold item2
  cases hd : Dict.get? d m with
  | none => rw [h1 hd]; simp
  | some v =>
    obtain ⟨v', hv, hd'⟩ := h2 v hd
    rw [hd']
    cases v with
    | leaf a => simp
    | node sub =>
      have inner : ∀ (e1 : StateDict K) (sub' : StateDict K), normalizeDict e1 sub = .ok sub' →
          (∀ x, Dict.get? sub t = some (.leaf (.tensor x)) → ∃ c, Dict.get? e1 t = some (.leaf (.num c)) ∧
            Dict.get? sub' t = some (.leaf (.tensor (x.divNum c)))) ∧
          (Dict.get? sub t = none → Dict.get? sub' t = none) := by
        intro e1 sub' hs
        obtain ⟨g1, g2⟩ := normalizeDict_get hs t
        refine ⟨fun x hx => ?_, g1⟩
        obtain ⟨w, hw, hs'⟩ := g2 _ hx
        unfold normalizeValue at hw
        split at hw
        · next c hc => cases hw; exact ⟨c, hc, hs'⟩
        · cases hw
      unfold normalizeValue at hv
      cases he : Dict.get? e m with
      | none =>
        rw [he] at hv
        simp only at hv
        split at hv
        · cases hv
        · next sub' hs' =>
          cases hv
          obtain ⟨g1, g2⟩ := inner _ _ hs'
          simp only
          refine ⟨fun x hx => ?_, fun hx => ?_⟩
          · split at hx
            · cases hx
            · next w hw =>
              simp only [Except.ok.injEq, Option.some.injEq] at hx
              subst hx
              obtain ⟨c, hc, _⟩ := g1 x hw
              simp at hc
            · cases hx
          · split at hx
            · next hw => rw [g2 hw]
            · cases hx
            · cases hx
      | some y =>
        rw [he] at hv
        cases y with
        | leaf b =>
          simp only at hv
          split at hv
          · next hemp =>
            cases hv
            have : sub = [] := by simpa using hemp
            subst this
            simp
          · cases hv
        | node e1 =>
          simp only at hv
          split at hv
          · cases hv
          · next sub' hs' =>
            cases hv
            obtain ⟨g1, g2⟩ := inner _ _ hs'
            simp only
            refine ⟨fun x hx => ?_, fun hx => ?_⟩
            · split at hx
              · cases hx
              · next w hw =>
                simp only [Except.ok.injEq, Option.some.injEq] at hx
                subst hx
                obtain ⟨c, hc, hc'⟩ := g1 x hw
                exact ⟨c, by rw [hc], by rw [hc']⟩
              · cases hx
            · split at hx
              · next hw => rw [g2 hw]
              · cases hx
              · cases hx

theorem normalizePairs_frame [Field K] : ∀ {pairs : List (PyStr × PyStr)} {s s' : LState K}, normalizePairs s pairs = .ok s' →
    ∀ n, n ∉ pairs.map Prod.fst → Dict.get? s'.attrs n = Dict.get? s.attrs n := by
  intro pairs
  induction pairs with
  | nil => intro s s' h n _; cases h; rfl
  | cons a rest ih =>
    obtain ⟨st, cn⟩ := a
    intro s s' h n hn
    simp only [List.map_cons, List.mem_cons, not_or] at hn
    unfold normalizePairs at h
    split at h
    · split at h
      · cases h
      · rw [ih h n hn.2, get?_setAttr, if_neg (Ne.symm hn.1)]
    · cases h

theorem normalizePairs_reg [Field K] : ∀ {pairs : List (PyStr × PyStr)} {s s' : LState K}, normalizePairs s pairs = .ok s' →
    s'.toNormalize = s.toNormalize ∧ s'.toSave = s.toSave ∧ s'.toSync = s.toSync ∧ s'.states = s.states ∧ s'.notClear = s.notClear := by
  intro pairs
  induction pairs with
  | nil => intro s s' h; cases h; exact ⟨rfl, rfl, rfl, rfl, rfl⟩
  | cons a rest ih =>
    intro s s' h
    unfold normalizePairs at h
    split at h
    · split at h
      · cases h
      · have h1 := ih h
        exact h1
    · cases h

/-- Each normalised state is divided by its counter, once. -/
theorem normalizePairs_get [Field K] {pre post : List (PyStr × PyStr)} {st cn : PyStr} {s s' : LState K}
    (h : normalizePairs s (pre ++ (st, cn) :: post) = .ok s') (h1 : st ∉ pre.map Prod.fst) (h2 : st ∉ post.map Prod.fst)
    (h3 : cn ∉ pre.map Prod.fst) : ∃ d e d', s.getAttr st = .ok d ∧ s.getAttr cn = .ok e ∧ normalizeDict e d = .ok d' ∧
      s'.getAttr st = .ok d' := by
  induction pre generalizing s with
  | nil =>
    simp only [List.nil_append] at h
    unfold normalizePairs at h
    split at h
    · next d e hd he =>
      split at h
      · cases h
      · next d' hd' =>
        refine ⟨d, e, d', hd, he, hd', ?_⟩
        rw [getAttr_congr (normalizePairs_frame h _ h2), getAttr_setAttr, if_pos rfl]
    · cases h
  | cons a pre ih =>
    obtain ⟨a1, a2⟩ := a
    simp only [List.map_cons, List.mem_cons, not_or] at h1 h3
    simp only [List.cons_append] at h
    unfold normalizePairs at h
    split at h
    · split at h
      · cases h
      · obtain ⟨d, e, d', g1, g2, g3, g4⟩ := ih h h1.2 h3.2
        rw [getAttr_setAttr, if_neg (Ne.symm h1.1)] at g1
        rw [getAttr_setAttr, if_neg (Ne.symm h3.1)] at g2
        exact ⟨d, e, d', g1, g2, g3, g4⟩
    · cases h

/-! ### From logging to finalize -/

/-- The normalisation pairs registered by `__init__`. -/
def basePairs : List (PyStr × PyStr) := [(nMean, nMeanCounter), (nCov, nCovCounter)]

/-- The pairs are those of `__init__`, possibly with that of EKFAC. -/
def NormReg (s : LState K) : Prop := s.toNormalize = basePairs ∨ s.toNormalize = basePairs ++ [(nEkfac, nEkfacCounter)]

theorem normReg_init : NormReg (LState.init : LState K) := by left; rfl

theorem NormReg.updates [Semiring K] {L : Lib K} {calls : List (Plugin × StatCall K)} {s s' : LState K} (h : NormReg s)
    (hu : updates L s calls = .ok s') : NormReg s' := by
  rcases updates_frame L hu with h1 | ⟨h1, h2⟩
  · unfold NormReg; rw [h1]; exact h
  · rcases h with h | h
    · right; rw [h2, h]
    · rw [h] at h1; exact absurd (by simp) h1

theorem normalize_get [Field K] {st cn : PyStr} {s s' : LState K} (hr : NormReg s) (h : s.normalize = .ok s') (hp : (st, cn) ∈ basePairs) :
    ∃ d e d', s.getAttr st = .ok d ∧ s.getAttr cn = .ok e ∧ normalizeDict e d = .ok d' ∧ s'.getAttr st = .ok d' := by
  unfold LState.normalize at h
  have hp' : (st = nMean ∧ cn = nMeanCounter) ∨ (st = nCov ∧ cn = nCovCounter) := by simpa [basePairs] using hp
  rcases hr with hr | hr <;> rw [hr] at h <;> rcases hp' with ⟨rfl, rfl⟩ | ⟨rfl, rfl⟩
  · exact normalizePairs_get (pre := []) (post := [(nCov, nCovCounter)]) h (by decide) (by decide) (by decide)
  · exact normalizePairs_get (pre := [(nMean, nMeanCounter)]) (post := []) h (by decide) (by decide) (by decide)
  · exact normalizePairs_get (pre := []) (post := [(nCov, nCovCounter), (nEkfac, nEkfacCounter)]) h (by decide) (by decide) (by decide)
  · exact normalizePairs_get (pre := [(nMean, nMeanCounter)]) (post := [(nEkfac, nEkfacCounter)]) h (by decide) (by decide) (by decide)

/-- Counters are never normalised. -/
theorem normalize_counter [Field K] {st cn : PyStr} {s s' : LState K} (hr : NormReg s) (h : s.normalize = .ok s') (hp : (st, cn) ∈ basePairs) :
    s'.getAttr cn = s.getAttr cn := by
  unfold LState.normalize at h
  have hp' : (st = nMean ∧ cn = nMeanCounter) ∨ (st = nCov ∧ cn = nCovCounter) := by simpa [basePairs] using hp
  apply getAttr_congr
  apply normalizePairs_frame h
  rcases hr with hr | hr <;> rw [hr] <;> rcases hp' with ⟨rfl, rfl⟩ | ⟨rfl, rfl⟩ <;> decide

theorem finalize_ok [Field K] {s s' : LState K} {dir dir' : StateDir K} (h : s.finalize dir = .ok (s', dir')) :
    s.normalize = .ok s' ∧ s'.saveState dir = .ok dir' := by
  unfold LState.finalize at h
  split at h
  · cases h
  · next s1 h1 =>
    split at h
    · cases h
    · next d1 hd1 => cases h; exact ⟨h1, hd1⟩

theorem init_getAttr {st cn : PyStr} (hp : (st, cn) ∈ basePairs) :
    (LState.init : LState K).getAttr st = .ok [] ∧ (LState.init : LState K).getAttr cn = .ok [] := by
  have hp' : (st = nMean ∧ cn = nMeanCounter) ∨ (st = nCov ∧ cn = nCovCounter) := by simpa [basePairs] using hp
  rcases hp' with ⟨rfl, rfl⟩ | ⟨rfl, rfl⟩ <;> exact ⟨rfl, rfl⟩

theorem tensorAt_item2 [Semiring K] {s : LState K} {n : PyStr} {d : StateDict K} (hd : s.getAttr n = .ok d) {m t : PyStr} {x : Tensor K}
    (h : item2 d m t = .ok (some (.tensor x))) : Spec.tensorAt s.attrs n [m, t] = some x := by
  unfold Spec.tensorAt
  rw [getAttr_eq.1 hd]
  simp only [lookup_item2 h]

theorem divNum_el [Field K] (t : Tensor K) (c : K) (idx : List Nat) (h : inRange t.shape idx = true) : (t.divNum c).el idx = t.el idx / c := by
  unfold Tensor.divNum
  rw [Tensor.el_ofFn, if_pos h]

/-- A statistic after logging from a new state, and finalize. -/
theorem stat_finalize [Field K] (L : Lib K) {p : Plugin} {st cn : PyStr} {z : Nat → List Nat} {term : (Nat → K) → List Nat → K}
    (S : StatOf p st cn z term) (hp : (st, cn) ∈ basePairs) {calls : List (Plugin × StatCall K)} {s s' : LState K} {dir dir' : StateDir K}
    (h : updates L .init calls = .ok s) (hf : s.finalize dir = .ok (s', dir')) (m : PyStr) (lt : LogType)
    (hne : Spec.callsOf p m lt calls ≠ []) :
    ∃ t W, Spec.tensorAt s'.attrs st [m, lt.name] = some t ∧ t.shape = z W ∧ (∀ c ∈ Spec.callsOf p m lt calls, Spec.callWidth c = W) ∧
      ∀ idx, inRange (z W) idx = true →
        t.el idx = rowSum term (Spec.allRows (Spec.callsOf p m lt calls)) idx / ((Spec.callsOf p m lt calls).map batchCount).sum := by
  obtain ⟨i1, i2⟩ := init_getAttr (K := K) hp
  obtain ⟨d, e, hd, he, I⟩ := updates_inv L S h i1 i2
  obtain ⟨t0, n0, t, W, hz, hw, hs0, hs, h1, h2, hv⟩ := (I m lt).cons hne
  obtain ⟨f1, f2⟩ := finalize_ok hf
  obtain ⟨d1, e1, d', g1, g2, g3, g4⟩ := normalize_get (normReg_init.updates h) f1 hp
  obtain rfl := Except.ok.inj (hd.symm.trans g1)
  obtain rfl := Except.ok.inj (he.symm.trans g2)
  obtain ⟨c, hc, hc'⟩ := (normalizeDict_item2 g3 m lt.name).1 t h1
  have hc0 : c = n0 + ((Spec.callsOf p m lt calls).map batchCount).sum := by
    have := hc.symm.trans h2
    simpa using this
  refine ⟨_, W, tensorAt_item2 g4 hc', hs, hw, fun idx hidx => ?_⟩
  rw [divNum_el _ _ _ (by rw [hs]; exact hidx), hv idx hidx, hc0]
  rcases hz with ⟨_, hz, hn⟩ | ⟨hz, _⟩
  · rw [hz, hn, zero_add, zero_add]
  · cases hz

end Logix
