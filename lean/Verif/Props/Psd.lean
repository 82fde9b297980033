/-
C33: covariances are symmetric and positive semidefinite.
-/
import Verif.Props.Ekfac
import Mathlib.Algebra.Order.BigOperators.Ring.Finset

namespace Logix
variable {K : Type}

/-! ### Tables of states -/

/-- A table of tensors at depth two, all with a property. -/
def TwoLevel (P : Tensor K → Prop) (d : StateDict K) : Prop :=
  ∀ m v, (m, v) ∈ d → ∃ sub, v = .node sub ∧ ∀ t w, (t, w) ∈ sub → ∃ x, w = .leaf (.tensor x) ∧ P x

/-- The numbers in a table of counters are not negative. -/
def CountNonneg [Zero K] [LE K] (e : StateDict K) : Prop :=
  ∀ m e1 t c, (m, Nested.node e1) ∈ e → (t, Nested.leaf (SVal.num c)) ∈ e1 → 0 ≤ c

theorem mem_set2 {d : StateDict K} {m t : PyStr} {v : SVal K} {m' : PyStr} {x : Nested (SVal K)} (h : (m', x) ∈ set2 d m t v) :
    (m', x) ∈ d ∨ ∃ sub, x = .node sub ∧ ∀ t' w, (t', w) ∈ sub → w = .leaf v ∨ ∃ sub0, (m', Nested.node sub0) ∈ d ∧ (t', w) ∈ sub0 := by
  unfold set2 at h
  split at h
  · next sub hs =>
    rcases mem_set h with h | ⟨rfl, rfl⟩
    · exact .inl h
    · right
      refine ⟨_, rfl, fun t' w hw => ?_⟩
      rcases mem_set hw with hw | ⟨_, hw⟩
      · exact .inr ⟨sub, mem_of_get? hs, hw⟩
      · exact .inl hw
  · rcases mem_set h with h | ⟨rfl, rfl⟩
    · exact .inl h
    · right
      refine ⟨_, rfl, fun t' w hw => ?_⟩
      simp at hw
      exact .inl hw.2

theorem TwoLevel.set2 {P : Tensor K → Prop} {d : StateDict K} (h : TwoLevel P d) (m t : PyStr) {x : Tensor K} (hx : P x) :
    TwoLevel P (set2 d m t (.tensor x)) := by
  intro m' v hv
  rcases mem_set2 hv with hv | ⟨sub, rfl, hs⟩
  · exact h m' v hv
  · refine ⟨sub, rfl, fun t' w hw => ?_⟩
    rcases hs t' w hw with rfl | ⟨sub0, h0, hw⟩
    · exact ⟨x, rfl, hx⟩
    · obtain ⟨sub1, he, h1⟩ := h m' _ h0
      cases he
      exact h1 t' w hw

theorem CountNonneg.set2 [Zero K] [LE K] {e : StateDict K} (h : CountNonneg e) (m t : PyStr) {c : K} (hc : 0 ≤ c) :
    CountNonneg (set2 e m t (.num c)) := by
  intro m' e1 t' c' h1 h2
  rcases mem_set2 h1 with h1 | ⟨sub, he, hs⟩
  · exact h m' e1 t' c' h1 h2
  · cases he
    rcases hs t' _ h2 with he | ⟨sub0, h0, hw⟩
    · cases he; exact hc
    · exact h m' sub0 t' c' h0 hw

theorem TwoLevel.item2 {P : Tensor K → Prop} {d : StateDict K} (h : TwoLevel P d) {m t : PyStr} {x : Tensor K}
    (hx : item2 d m t = .ok (some (.tensor x))) : P x := by
  unfold Logix.item2 at hx
  cases hd : Dict.get? d m with
  | none => rw [hd] at hx; cases hx
  | some v =>
    obtain ⟨sub, rfl, hs⟩ := h m v (mem_of_get? hd)
    rw [hd] at hx
    simp only at hx
    cases ht : Dict.get? sub t with
    | none => rw [ht] at hx; cases hx
    | some w =>
      obtain ⟨y, rfl, hy⟩ := hs t w (mem_of_get? ht)
      rw [ht] at hx
      simp only [Except.ok.injEq, Option.some.injEq, SVal.tensor.injEq] at hx
      rw [← hx]; exact hy

theorem CountNonneg.item2 [Zero K] [LE K] {e : StateDict K} (h : CountNonneg e) {m t : PyStr} {c : K}
    (hc : item2 e m t = .ok (some (.num c))) : 0 ≤ c := by
  unfold Logix.item2 at hc
  cases hd : Dict.get? e m with
  | none => rw [hd] at hc; cases hc
  | some v =>
    rw [hd] at hc
    cases v with
    | leaf _ => cases hc
    | node sub =>
      simp only at hc
      cases ht : Dict.get? sub t with
      | none => rw [ht] at hc; cases hc
      | some w =>
        rw [ht] at hc
        cases w with
        | node _ => cases hc
        | leaf a =>
          simp only [Except.ok.injEq, Option.some.injEq] at hc
          subst hc
          exact h m sub t c (mem_of_get? hd) (mem_of_get? ht)

theorem TwoLevel.normalize [Field K] [LE K] {P : Tensor K → Prop} {d e d' : StateDict K} (h : TwoLevel P d) (he : CountNonneg e)
    (hP : ∀ x c, P x → 0 ≤ c → P (x.divNum c)) (hn : normalizeDict e d = .ok d') : TwoLevel P d' := by
  have inner : ∀ (e1 sub sub' : StateDict K), (∀ t w, (t, w) ∈ sub → ∃ x, w = .leaf (.tensor x) ∧ P x) →
      (∀ t c, (t, Nested.leaf (SVal.num c)) ∈ e1 → 0 ≤ c) → normalizeDict e1 sub = .ok sub' →
      ∀ t w, (t, w) ∈ sub' → ∃ x, w = .leaf (.tensor x) ∧ P x := by
    intro e1 sub sub' hs hc hn t w hw
    obtain ⟨w0, h0, hnw⟩ := normalizeDict_mem hn hw
    obtain ⟨x, rfl, hx⟩ := hs t w0 h0
    unfold normalizeValue at hnw
    split at hnw
    · next c hcc =>
      cases hnw
      exact ⟨_, rfl, hP x c hx (hc t c (mem_of_get? hcc))⟩
    · cases hnw
  intro m v hv
  obtain ⟨v0, h0, hnv⟩ := normalizeDict_mem hn hv
  obtain ⟨sub, rfl, hs⟩ := h m v0 h0
  unfold normalizeValue at hnv
  split at hnv
  · split at hnv
    · cases hnv
    · next sub' hsub' => cases hnv; exact ⟨sub', rfl, inner _ _ _ hs (by simp) hsub'⟩
  · next e1 he1 =>
    split at hnv
    · cases hnv
    · next sub' hsub' => cases hnv; exact ⟨sub', rfl, inner _ _ _ hs (fun t c ht => he m e1 t c (mem_of_get? he1) ht) hsub'⟩
  · split at hnv
    · cases hnv; exact ⟨sub, rfl, hs⟩
    · cases hnv

/-- The tensors found under any path of a table. -/
theorem TwoLevel.lookup {P : Tensor K → Prop} {d : StateDict K} (h : TwoLevel P d) {path : Path} {x : Tensor K}
    (hx : (Nested.node d).lookup path = some (.tensor x)) : P x := by
  match path, hx with
  | [], hx => simp [Nested.lookup] at hx
  | m :: rest, hx =>
    simp only [Nested.lookup] at hx
    cases hd : Dict.get? d m with
    | none => rw [hd] at hx; cases hx
    | some v =>
      rw [hd] at hx
      obtain ⟨sub, rfl, hs⟩ := h m v (mem_of_get? hd)
      simp only at hx
      match rest, hx with
      | [], hx => simp [Nested.lookup] at hx
      | t :: rest, hx =>
        simp only [Nested.lookup] at hx
        cases ht : Dict.get? sub t with
        | none => rw [ht] at hx; cases hx
        | some w =>
          rw [ht] at hx
          obtain ⟨y, rfl, hy⟩ := hs t w (mem_of_get? ht)
          simp only at hx
          match rest, hx with
          | [], hx => simp [Nested.lookup] at hx; rw [← hx]; exact hy
          | _ :: _, hx => simp [Nested.lookup] at hx

/-- `clear` empties the registered states that are not excepted. -/
theorem clearNames_get : ∀ {names : List PyStr} {s s' : LState K}, clearNames s names = .ok s' →
    ∀ n, Dict.get? s'.attrs n = if n ∈ names ∧ n ∉ s.notClear then some [] else Dict.get? s.attrs n := by
  intro names
  induction names with
  | nil => intro s s' h n; cases h; simp
  | cons a rest ih =>
    intro s s' h n
    unfold clearNames at h
    split at h
    · next ha =>
      rw [ih h n]
      by_cases hna : n = a
      · subst hna; simp [ha]
      · simp [hna]
    · next ha =>
      split at h
      · cases h
      · next d hd =>
        have h1 := ih h n
        rw [h1, get?_setAttr]
        show (if n ∈ rest ∧ n ∉ s.notClear then _ else _) = _
        by_cases hna : n = a
        · subst hna; simp [ha]
        · have hna' : a ≠ n := Ne.symm hna
          simp [hna, hna']

/-! ### Positive semidefiniteness -/

section
variable [Field K] [LinearOrder K] [IsStrictOrderedRing K]

theorem psd_divNum {t : Tensor K} (h : Spec.PSD t) {c : K} (hc : 0 ≤ c) : Spec.PSD (t.divNum c) := by
  obtain ⟨n, hs, hsym, hq⟩ := h
  have hel : ∀ i j, i < n → j < n → (t.divNum c).el [i, j] = t.el [i, j] / c :=
    fun i j hi hj => divNum_el _ _ _ (by rw [hs]; simp [inRange, hi, hj])
  refine ⟨n, hs, fun i j hi hj => by rw [hel i j hi hj, hel j i hj hi, hsym i j hi hj], fun v => ?_⟩
  have : ∑ i ∈ Finset.range n, ∑ j ∈ Finset.range n, v i * (t.divNum c).el [i, j] * v j =
      (∑ i ∈ Finset.range n, ∑ j ∈ Finset.range n, v i * t.el [i, j] * v j) / c := by
    rw [div_eq_mul_inv, Finset.sum_mul]
    apply Finset.sum_congr rfl
    intro i hi
    rw [Finset.sum_mul]
    apply Finset.sum_congr rfl
    intro j hj
    rw [hel i j (Finset.mem_range.1 hi) (Finset.mem_range.1 hj)]
    ring
  rw [this]
  exact div_nonneg (hq v) hc

omit [LinearOrder K] [IsStrictOrderedRing K] in
/-- The quadratic form of a sum of outer products is a sum of squares. -/
theorem quad_rows (W : Nat) (v : Nat → K) (rows : List (Nat → K)) :
    ∑ i ∈ Finset.range W, ∑ j ∈ Finset.range W, v i * rowSum covTerm rows [i, j] * v j =
      (rows.map fun r => (∑ i ∈ Finset.range W, v i * r i) ^ 2).sum := by
  induction rows with
  | nil => simp [rowSum]
  | cons r rest ih =>
    rw [List.map_cons, List.sum_cons, ← ih, sq, Finset.sum_mul_sum, ← Finset.sum_add_distrib]
    apply Finset.sum_congr rfl
    intro i _
    rw [← Finset.sum_add_distrib]
    apply Finset.sum_congr rfl
    intro j _
    have hc : ∀ q : Nat → K, covTerm q [i, j] = q i * q j := fun _ => rfl
    simp only [rowSum, List.map_cons, List.sum_cons, hc]
    ring

theorem psd_add {t0 t : Tensor K} {W : Nat} (rows : List (Nat → K)) (h0 : (∀ idx, t0.el idx = 0) ∨ Spec.PSD t0) (hs0 : t0.shape = [W, W])
    (hs : t.shape = [W, W]) (hv : ∀ idx, inRange [W, W] idx = true → t.el idx = t0.el idx + rowSum covTerm rows idx) : Spec.PSD t := by
  have hel : ∀ i j, i < W → j < W → t.el [i, j] = t0.el [i, j] + rowSum covTerm rows [i, j] :=
    fun i j hi hj => hv _ (by simp [inRange, hi, hj])
  have hsymr : ∀ i j, rowSum covTerm rows [i, j] = rowSum covTerm rows [j, i] := by
    intro i j
    unfold rowSum
    congr 1
    apply List.map_congr_left
    intro r _
    exact mul_comm _ _
  have h0' : (∀ i j, i < W → j < W → t0.el [i, j] = t0.el [j, i]) ∧
      ∀ v : Nat → K, 0 ≤ ∑ i ∈ Finset.range W, ∑ j ∈ Finset.range W, v i * t0.el [i, j] * v j := by
    rcases h0 with h0 | ⟨n, hn, h1, h2⟩
    · exact ⟨fun i j _ _ => by rw [h0, h0], fun v => by simp [h0]⟩
    · rw [hs0] at hn
      simp only [List.cons.injEq, and_true, and_self] at hn
      subst hn
      exact ⟨h1, h2⟩
  refine ⟨W, hs, fun i j hi hj => by rw [hel i j hi hj, hel j i hj hi, h0'.1 i j hi hj, hsymr], fun v => ?_⟩
  have : ∑ i ∈ Finset.range W, ∑ j ∈ Finset.range W, v i * t.el [i, j] * v j =
      (∑ i ∈ Finset.range W, ∑ j ∈ Finset.range W, v i * t0.el [i, j] * v j) +
      ∑ i ∈ Finset.range W, ∑ j ∈ Finset.range W, v i * rowSum covTerm rows [i, j] * v j := by
    rw [← Finset.sum_add_distrib]
    apply Finset.sum_congr rfl
    intro i hi
    rw [← Finset.sum_add_distrib]
    apply Finset.sum_congr rfl
    intro j hj
    rw [hel i j (Finset.mem_range.1 hi) (Finset.mem_range.1 hj)]
    ring
  rw [this, quad_rows]
  apply add_nonneg (h0'.2 v)
  apply List.sum_nonneg
  intro y hy
  obtain ⟨r, _, rfl⟩ := List.mem_map.1 hy
  exact sq_nonneg _

theorem batchCount_nonneg {p : Plugin} {c : StatCall K} (h : Spec.MaskNonneg (.update p c)) : 0 ≤ batchCount c := by
  unfold batchCount
  split
  · exact Nat.cast_nonneg _
  · next m hm =>
    split
    · exact Nat.cast_nonneg _
    · exact List.sum_nonneg (h m hm)

/-- What is kept about the covariances. -/
structure CovOk (s : LState K) : Prop where
  norm : NormReg s
  cov : ∃ d e, s.getAttr nCov = .ok d ∧ s.getAttr nCovCounter = .ok e ∧ TwoLevel Spec.PSD d ∧ CountNonneg e

omit [IsStrictOrderedRing K] in
theorem covOk_init : CovOk (LState.init : LState K) :=
  ⟨normReg_init, [], [], rfl, rfl, fun m v h => by simp at h, fun m e1 t c h => by simp at h⟩

theorem CovOk.step {L : Lib K} {s s' : LState K} {o : StateOp K} (hs : CovOk s) (hm : Spec.MaskNonneg o) (h : stepOp L s o = .ok s') :
    CovOk s' := by
  refine ⟨hs.norm.step h, ?_⟩
  obtain ⟨d, e, hd, he, hP, hN⟩ := hs.cov
  have frame : Dict.get? s'.attrs nCov = Dict.get? s.attrs nCov → Dict.get? s'.attrs nCovCounter = Dict.get? s.attrs nCovCounter →
      ∃ d e, s'.getAttr nCov = .ok d ∧ s'.getAttr nCovCounter = .ok e ∧ TwoLevel Spec.PSD d ∧ CountNonneg e := by
    intro f1 f2
    exact ⟨d, e, by rw [getAttr_congr f1]; exact hd, by rw [getAttr_congr f2]; exact he, hP, hN⟩
  cases o with
  | update p c =>
    have h : pluginUpdate L p s c = .ok s' := h
    by_cases hp : p = .covariance
    · subst hp
      obtain ⟨d1, e1, t0, n0, t, g1, g2, g3, g4, g5, g6, g7, e', g8, g9, g10⟩ := statUpdate_ok covAcc h
      obtain rfl := Except.ok.inj (hd.symm.trans g1)
      obtain rfl := Except.ok.inj (he.symm.trans g2)
      have hPt : Spec.PSD t := by
        refine psd_add (Spec.callRows c) ?_ g4 g5 g7
        rcases g3 with ⟨_, g3, _⟩ | ⟨g3, _⟩
        · exact .inl g3
        · exact .inr (hP.item2 g3)
      have hN' : CountNonneg e' := by
        rcases g8 with rfl | ⟨_, rfl⟩
        · exact hN
        · exact hN.set2 _ _ le_rfl
      refine ⟨_, _, ?_, ?_, hP.set2 c.name c.logType.name hPt,
        hN'.set2 c.name c.logType.name (add_nonneg (hN'.item2 g9) (batchCount_nonneg hm))⟩
      · rw [g10, getAttr_setAttr, if_neg (by decide), getAttr_setAttr, if_pos rfl]
      · rw [g10, getAttr_setAttr, if_pos rfl]
    · have F := (pluginUpdate_frame L h).2
      exact frame (F _ (by cases p <;> first | (exact absurd rfl hp) | decide)) (F _ (by cases p <;> first | (exact absurd rfl hp) | decide))
  | finalize dir =>
    obtain ⟨⟨a, b⟩, h1, h2⟩ := Except.map_ok h
    subst h2
    have hn := (finalize_ok h1).1
    obtain ⟨d1, e1, d', g1, g2, g3, g4⟩ := normalize_get (st := nCov) (cn := nCovCounter) hs.norm hn (by decide)
    obtain rfl := Except.ok.inj (hd.symm.trans g1)
    obtain rfl := Except.ok.inj (he.symm.trans g2)
    refine ⟨d', e, g4, ?_, hP.normalize hN (fun x c hx hc => psd_divNum hx hc) g3, hN⟩
    show a.getAttr nCovCounter = _
    rw [normalize_counter (st := nCov) (cn := nCovCounter) hs.norm hn (by decide)]
    exact he
  | clear =>
    have G := clearNames_get h
    have c1 : s'.getAttr nCov = .ok d ∨ s'.getAttr nCov = .ok [] := by
      rw [getAttr_eq, getAttr_eq, G]
      split
      · exact .inr rfl
      · exact .inl (getAttr_eq.1 hd)
    have c2 : s'.getAttr nCovCounter = .ok e ∨ s'.getAttr nCovCounter = .ok [] := by
      rw [getAttr_eq, getAttr_eq, G]
      split
      · exact .inr rfl
      · exact .inl (getAttr_eq.1 he)
    have n1 : TwoLevel Spec.PSD ([] : StateDict K) := fun m v h => by simp at h
    have n2 : CountNonneg ([] : StateDict K) := fun m e1 t c h => by simp at h
    rcases c1 with c1 | c1 <;> rcases c2 with c2 | c2
    · exact ⟨_, _, c1, c2, hP, hN⟩
    · exact ⟨_, _, c1, c2, hP, n2⟩
    · exact ⟨_, _, c1, c2, n1, hN⟩
    · exact ⟨_, _, c1, c2, n1, n2⟩
  | inverse damping =>
    obtain ⟨⟨a, b⟩, h1, h2⟩ := Except.map_ok h
    subst h2
    have F := (getCovarianceInverse_frame L h1).2
    exact frame (F _ (by decide)) (F _ (by decide))
  | svd =>
    obtain ⟨⟨a, b⟩, h1, h2⟩ := Except.map_ok h
    subst h2
    have F := (getCovarianceSvd_frame L h1).2
    exact frame (F _ (by decide) (by decide)) (F _ (by decide) (by decide))

theorem covOk_run (L : Lib K) : ∀ {ops : List (StateOp K)} {s s' : LState K}, (∀ o ∈ ops, Spec.MaskNonneg o) → runOps L s ops = .ok s' →
    CovOk s → CovOk s' := by
  intro ops
  induction ops with
  | nil => intro s s' _ h hs; cases h; exact hs
  | cons o rest ih =>
    intro s s' hm h hs
    unfold runOps at h
    split at h
    · cases h
    · next s1 hs1 =>
      exact ih (fun o ho => hm o (List.mem_cons_of_mem _ ho)) h (hs.step (hm o List.mem_cons_self) hs1)

/-- **C33.** After every sequence of updates by any plugins, `finalize`, `clear` and influence computations, every tensor in the covariance
state is square, symmetric and positive semidefinite. Masks must not have negative entries. -/
theorem C33_psd (L : Lib K) {ops : List (StateOp K)} {s : LState K} (h : runOps L .init ops = .ok s) (hmask : ∀ o ∈ ops, Spec.MaskNonneg o)
    (path : Path) (t : Tensor K) (ht : Spec.tensorAt s.attrs nCov path = some t) : Spec.PSD t := by
  obtain ⟨d, e, hd, _, hP, _⟩ := (covOk_run L hmask h covOk_init).cov
  unfold Spec.tensorAt at ht
  rw [getAttr_eq.1 hd] at ht
  simp only at ht
  split at ht
  · next x hx => cases ht; exact hP.lookup hx
  · cases ht

/-- The concrete run of `ExEkfac` with a mask, an influence computation and two finalizes meets the hypotheses. -/
def ExPsd.ops : List (StateOp Rat) :=
  [.update .covariance { ExEkfac.fwd with mask := some ⟨.cuda 0, [2], [1, 0], rfl⟩ }, .update .covariance ExEkfac.bwd, .finalize ⟨[], none⟩, .svd,
    .update .covariance ExEkfac.fwd, .finalize ⟨[], none⟩]

example : (match runOps ExEkfac.lib .init ExPsd.ops with
    | .ok s => Spec.tensorAt s.attrs nCov [ExEkfac.nm, LogType.name .forward]
    | .error _ => none) = some ⟨.cpu, [2, 2], [73 - 73 / 3, -24, -24, 104 / 3], rfl⟩ := by
  decide +kernel

example : ∀ o ∈ ExPsd.ops, Spec.MaskNonneg o := by
  intro o ho
  simp only [ExPsd.ops, List.mem_cons, List.not_mem_nil, or_false] at ho
  rcases ho with rfl | rfl | rfl | rfl | rfl | rfl
  · intro m hm
    cases hm
    decide +kernel
  all_goals first | trivial | (intro m hm; cases hm)

end
end Logix
