/-
Invariants of the eigenvalues in the state, over all runs.
-/
import Verif.Props.Psd
import Verif.Lemmas.Scores

namespace Logix
variable {K : Type}

theorem registerState_attr (s : LState K) (n : PyStr) (a b c : Bool) {n' : PyStr} {d : StateDict K} (h : Dict.get? (s.registerState n a b c).attrs n' = some d) :
    d = [] ∨ Dict.get? s.attrs n' = some d := by
  by_cases hn : n = n'
  · subst hn
    unfold LState.registerState at h
    split at h
    · exact .inr h
    · simp only [Dict.get?_set_self, Option.some.injEq] at h
      exact .inl h.symm
  · rw [registerState_frame _ _ _ _ _ _ hn] at h
    exact .inr h

/-- The eigenvalues are kept per module and per covariance. -/
def EigTable (s : LState K) : Prop := ∀ d, Dict.get? s.attrs nEigval = some d → ∀ m, indexable d m = true

theorem svdModes_indexable (L : Lib K) (m : PyStr) : ∀ {modes vals vecs vals' vecs' : StateDict K}, svdModes L m modes vals vecs = .ok (vals', vecs') →
    (∀ m, indexable vals m = true) → ∀ m, indexable vals' m = true := by
  intro modes
  induction modes with
  | nil => intro vals vecs vals' vecs' h hv; unfold svdModes at h; cases h; exact hv
  | cons a rest ih =>
    intro vals vecs vals' vecs' h hv
    unfold svdModes at h
    split at h
    · next heq => cases heq
    · next heq =>
      obtain ⟨-, rfl⟩ := List.cons.inj heq
      split at h
      · cases h
      · exact ih h (indexable_set2 _ _ _ _ hv)
    · cases h

theorem svdModules_indexable (L : Lib K) : ∀ {cov vals vecs vals' vecs' : StateDict K}, svdModules L cov vals vecs = .ok (vals', vecs') →
    (∀ m, indexable vals m = true) → ∀ m, indexable vals' m = true := by
  intro cov
  induction cov with
  | nil => intro vals vecs vals' vecs' h hv; unfold svdModules at h; cases h; exact hv
  | cons a rest ih =>
    intro vals vecs vals' vecs' h hv
    unfold svdModules at h
    split at h
    · next heq => cases heq
    · next heq =>
      obtain ⟨-, rfl⟩ := List.cons.inj heq
      split at h
      · cases h
      · next h1 => exact ih h (svdModes_indexable L _ h1 hv)
    · cases h

theorem EigTable.covarianceSvd {L : Lib K} {s s' : LState K} (hs : EigTable s) (h : s.covarianceSvd L = .ok s') : EigTable s' := by
  unfold LState.covarianceSvd at h
  simp only at h
  split at h
  · next cov vals vecs h1 h2 h3 =>
    split at h
    · cases h
    · next vals' vecs' hm =>
      cases h
      intro d hd m
      rw [get?_setAttr, if_neg (by decide), get?_setAttr, if_pos rfl] at hd
      cases hd
      refine svdModules_indexable L hm (fun m => ?_) m
      rw [getAttr_eq, registerState_frame _ _ _ _ _ _ (by decide)] at h2
      rcases registerState_attr _ _ _ _ _ h2 with rfl | h2
      · rfl
      · exact hs _ h2 m
  · cases h

theorem EigTable.congr {s s' : LState K} (hs : EigTable s) (h : Dict.get? s'.attrs nEigval = Dict.get? s.attrs nEigval) : EigTable s' := by
  intro d hd; rw [h] at hd; exact hs d hd

theorem EigTable.getCovarianceSvd {L : Lib K} {s s' : LState K} {n : PyStr} (hs : EigTable s) (h : s.getCovarianceSvd L = .ok (s', n)) : EigTable s' := by
  unfold LState.getCovarianceSvd at h
  split at h
  · cases h
  · next s1 h1 =>
    cases h
    split at h1
    · cases h1; exact hs
    · exact hs.covarianceSvd h1

theorem EigTable.prepare {L : Lib K} {s s' : LState K} (hs : EigTable s) (h : ekfacPrepare L s = .ok s') : EigTable s' := by
  unfold ekfacPrepare at h
  split at h
  · cases h; exact hs
  · split at h
    · cases h
    · next s1 h1 =>
      cases h
      refine (hs.covarianceSvd h1).congr ?_
      rw [registerNormalizePair_attrs, registerState_frame _ _ _ _ _ _ (by decide), registerState_frame _ _ _ _ _ _ (by decide)]

theorem eigTable_step [Field K] {L : Lib K} {s s' : LState K} {o : StateOp K} (hr : NormReg s) (hs : EigTable s) (h : stepOp L s o = .ok s') : EigTable s' := by
  cases o with
  | update p c =>
    by_cases hp : p = .correctedEigval
    · subst hp
      obtain ⟨s1, vecs, vals, ek, cn, t, cn', ef, eb, t', x, h0, -, -, -, -, -, -, -, -, -, rfl⟩ := correctedEigval_ok L h
      refine (hs.prepare h0).congr ?_
      rw [get?_setAttr, if_neg (by decide), get?_setAttr, if_neg (by decide)]
    · exact hs.congr ((pluginUpdate_frame L h).2 _ (by cases p <;> first | (exact absurd rfl hp) | decide))
  | finalize dir =>
    obtain ⟨⟨a, b⟩, h1, h2⟩ := Except.map_ok h
    subst h2
    have hn := (finalize_ok h1).1
    refine hs.congr (normalizePairs_frame hn _ ?_)
    rcases hr with hr | hr <;> rw [hr] <;> decide
  | clear =>
    have G := clearNames_get h nEigval
    intro d hd m
    rw [G] at hd
    split at hd
    · cases hd; rfl
    · exact hs d hd m
  | inverse damping =>
    obtain ⟨⟨a, b⟩, h1, h2⟩ := Except.map_ok h
    subst h2
    exact hs.congr ((getCovarianceInverse_frame L h1).2 _ (by decide))
  | svd =>
    obtain ⟨⟨a, b⟩, h1, h2⟩ := Except.map_ok h
    subst h2
    exact hs.getCovarianceSvd h1

theorem eigTable_run [Field K] (L : Lib K) : ∀ {ops : List (StateOp K)} {s s' : LState K}, runOps L s ops = .ok s' → NormReg s → EigTable s → EigTable s' := by
  intro ops
  induction ops with
  | nil => intro s s' h _ hs; cases h; exact hs
  | cons o rest ih =>
    intro s s' h hr hs
    unfold runOps at h
    split at h
    · cases h
    · next s1 hs1 => exact ih h (hr.step hs1) (eigTable_step hr hs hs1)

theorem eigTable [Field K] {L : Lib K} {ops : List (StateOp K)} {s : LState K} (h : runOps L .init ops = .ok s) : EigTable s :=
  eigTable_run L h normReg_init fun d hd => by cases hd

/-! ### Fitted eigenvalues -/

variable [Field K] [LinearOrder K] [IsStrictOrderedRing K]

/-- Fitted eigenvalues (EKFAC) are kept per module and are not negative; neither are their counters. -/
structure EkOk (s : LState K) : Prop where
  vals : ∀ d, Dict.get? s.attrs nEkfac = some d → ∀ m v, (m, v) ∈ d → ∃ t, v = .leaf (.tensor t) ∧ ∀ idx ∈ indices t.shape, 0 ≤ t.el idx
  count : ∀ e, Dict.get? s.attrs nEkfacCounter = some e → ∀ m c, (m, Nested.leaf (SVal.num c)) ∈ e → 0 ≤ c

omit [IsStrictOrderedRing K] in
theorem EkOk.congr {s s' : LState K} (hs : EkOk s) (h : Dict.get? s'.attrs nEkfac = Dict.get? s.attrs nEkfac)
    (h' : Dict.get? s'.attrs nEkfacCounter = Dict.get? s.attrs nEkfacCounter) : EkOk s' :=
  ⟨fun d hd => hs.vals d (h ▸ hd), fun e he => hs.count e (h' ▸ he)⟩

omit [IsStrictOrderedRing K] in
theorem EkOk.prepare {L : Lib K} {s s' : LState K} (hs : EkOk s) (h : ekfacPrepare L s = .ok s') : EkOk s' := by
  unfold ekfacPrepare at h
  split at h
  · cases h; exact hs
  · split at h
    · cases h
    · next s1 h1 =>
      cases h
      have F := (covarianceSvd_frame L h1).2
      refine ⟨fun d hd m v hv => ?_, fun e he m c hc => ?_⟩
      · rw [registerNormalizePair_attrs, registerState_frame _ _ _ _ _ _ (by decide)] at hd
        rcases registerState_attr _ _ _ _ _ hd with rfl | hd
        · cases hv
        · rw [F _ (by decide) (by decide)] at hd
          exact hs.vals d hd m v hv
      · rw [registerNormalizePair_attrs] at he
        rcases registerState_attr _ _ _ _ _ he with rfl | he
        · cases hc
        · rw [registerState_frame _ _ _ _ _ _ (by decide), F _ (by decide) (by decide)] at he
          exact hs.count e he m c hc

theorem ekfacAdd_nonneg {t data ef eb u : Tensor K} (h : ekfacAdd t data ef eb = .ok u) (ht : ∀ idx ∈ indices t.shape, 0 ≤ t.el idx) :
    ∀ idx ∈ indices u.shape, 0 ≤ u.el idx := by
  unfold ekfacAdd at h
  split at h
  · next n o i hs =>
    split at h
    · next hc =>
      cases h
      intro idx hidx
      rw [mem_indices] at hidx
      obtain ⟨a, b, rfl, ha, hb⟩ := inRange_two hidx
      rw [Tensor.el_ofFn2 _ _ _ _ ha hb]
      refine add_nonneg (ht _ ?_) (Finset.sum_nonneg fun k _ => sq_nonneg _)
      rw [mem_indices]
      have hl := hc.2.2.1
      match hts : t.shape with
      | [] => rw [hts] at hl; simp at hl
      | [_] => rw [hts] at hl; simp at hl
      | [x, y] =>
        have ha : a < x := by simpa [Tensor.size, hts] using ha
        have hb : b < y := by simpa [Tensor.size, hts] using hb
        simp [inRange, ha, hb]
      | _ :: _ :: _ :: _ => rw [hts] at hl; simp at hl
    · cases h
  · cases h

theorem ekOk_step {L : Lib K} {s s' : LState K} {o : StateOp K} (hr : NormReg s) (hs : EkOk s) (h : stepOp L s o = .ok s') : EkOk s' := by
  cases o with
  | update p c =>
    by_cases hp : p = .correctedEigval
    · subst hp
      obtain ⟨s1, vecs, vals, ek, cn, t, cn', ef, eb, t', x, h0, -, -, h1, h2, h3, -, -, h4, h5, rfl⟩ := correctedEigval_ok L h
      have h' := hs.prepare h0
      have hek := h'.vals ek (getAttr_eq.1 h1)
      have hcn := h'.count cn (getAttr_eq.1 h2)
      have hz : (∀ idx ∈ indices t.shape, 0 ≤ t.el idx) ∧ ∀ m c, (m, Nested.leaf (SVal.num c)) ∈ cn' → 0 ≤ c := by
        unfold ekfacEntry at h3
        split at h3
        · next v hv =>
          simp only [Except.ok.injEq, Prod.mk.injEq] at h3
          obtain ⟨rfl, rfl⟩ := h3
          obtain ⟨t1, e1, e2⟩ := hek _ _ (mem_of_get? hv)
          cases e1
          exact ⟨e2, hcn⟩
        · dsimp only at h3
          split at h3
          · cases h3
          · simp only [Except.ok.injEq, Prod.mk.injEq, Nested.leaf.injEq, SVal.tensor.injEq] at h3
            obtain ⟨rfl, rfl⟩ := h3
            refine ⟨fun idx _ => ?_, fun m c hc => ?_⟩
            · rw [zeros_el]
            · rcases mem_set hc with hc | ⟨-, hc⟩
              · exact hcn m c hc
              · cases hc; exact le_refl _
      have ht' : ∀ idx ∈ indices t'.shape, 0 ≤ t'.el idx := by
        split at h4
        · obtain ⟨u, hu, rfl⟩ := Except.map_ok h4
          have : ∀ idx ∈ indices u.shape, 0 ≤ u.el idx := ekfacAdd_nonneg hu hz.1
          exact this
        · exact ekfacAdd_nonneg h4 hz.1
      refine ⟨fun d hd m v hv => ?_, fun e he m c hc => ?_⟩
      · rw [get?_setAttr, if_neg (by decide), get?_setAttr, if_pos rfl] at hd
        cases hd
        rcases mem_set hv with hv | ⟨-, rfl⟩
        · exact hek m v hv
        · exact ⟨t', rfl, ht'⟩
      · rw [get?_setAttr, if_pos rfl] at he
        cases he
        rcases mem_set hc with hc | ⟨-, hc⟩
        · exact hz.2 m c hc
        · cases hc
          exact add_nonneg (hz.2 _ _ (mem_of_get? h5)) (Nat.cast_nonneg _)
    · have F := (pluginUpdate_frame L h).2
      exact hs.congr (F _ (by cases p <;> first | (exact absurd rfl hp) | decide)) (F _ (by cases p <;> first | (exact absurd rfl hp) | decide))
  | finalize dir =>
    obtain ⟨⟨a, b⟩, h1, h2⟩ := Except.map_ok h
    subst h2
    have hn := (finalize_ok h1).1
    unfold LState.normalize at hn
    have hcount : Dict.get? a.attrs nEkfacCounter = Dict.get? s.attrs nEkfacCounter := by
      refine normalizePairs_frame hn _ ?_
      rcases hr with hr | hr <;> rw [hr] <;> decide
    rcases hr with hr | hr
    · exact hs.congr (normalizePairs_frame hn _ (by rw [hr]; decide)) hcount
    · rw [hr] at hn
      obtain ⟨d, e, d', g1, g2, g3, g4⟩ := normalizePairs_get (pre := basePairs) (post := []) hn (by decide) (by decide) (by decide)
      refine ⟨fun d1 hd1 m v hv => ?_, fun e1 he1 => hs.count e1 (hcount ▸ he1)⟩
      have : d1 = d' := Option.some.inj (hd1.symm.trans (getAttr_eq.1 g4))
      subst this
      obtain ⟨v0, h0, hv0⟩ := normalizeDict_mem g3 hv
      obtain ⟨t, rfl, ht⟩ := hs.vals d (getAttr_eq.1 g1) m v0 h0
      unfold normalizeValue at hv0
      split at hv0
      · next c hc =>
        cases hv0
        refine ⟨_, rfl, fun idx hidx => ?_⟩
        have hidx' : idx ∈ indices t.shape := hidx
        rw [divNum_el _ _ _ ((mem_indices _ _).1 hidx')]
        exact div_nonneg (ht idx hidx') (hs.count e (getAttr_eq.1 g2) m c (mem_of_get? hc))
      · cases hv0
  | clear =>
    have G := clearNames_get h
    refine ⟨fun d hd m v hv => ?_, fun e he m c hc => ?_⟩
    · rw [G] at hd
      split at hd
      · cases hd; cases hv
      · exact hs.vals d hd m v hv
    · rw [G] at he
      split at he
      · cases he; cases hc
      · exact hs.count e he m c hc
  | inverse damping =>
    obtain ⟨⟨a, b⟩, h1, h2⟩ := Except.map_ok h
    subst h2
    have F := (getCovarianceInverse_frame L h1).2
    exact hs.congr (F _ (by decide)) (F _ (by decide))
  | svd =>
    obtain ⟨⟨a, b⟩, h1, h2⟩ := Except.map_ok h
    subst h2
    have F := (getCovarianceSvd_frame L h1).2
    exact hs.congr (F _ (by decide) (by decide)) (F _ (by decide) (by decide))

theorem ekOk_run (L : Lib K) : ∀ {ops : List (StateOp K)} {s s' : LState K}, runOps L s ops = .ok s' → NormReg s → EkOk s → EkOk s' := by
  intro ops
  induction ops with
  | nil => intro s s' h _ hs; cases h; exact hs
  | cons o rest ih =>
    intro s s' h hr hs
    unfold runOps at h
    split at h
    · cases h
    · next s1 hs1 => exact ih h (hr.step hs1) (ekOk_step hr hs hs1)

theorem ekOk {L : Lib K} {ops : List (StateOp K)} {s : LState K} (h : runOps L .init ops = .ok s) : EkOk s :=
  ekOk_run L h normReg_init ⟨fun d hd => (by cases hd), fun d hd => (by cases hd)⟩

end Logix
