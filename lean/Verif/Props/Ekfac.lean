/-
C36: the corrected eigenvalues of EKFAC; C37 for `corrected_eigval`.
-/
import Verif.Lemmas.Svd
import Mathlib.Algebra.Order.BigOperators.Group.List
import Mathlib.Algebra.Order.Field.Basic
import Mathlib.Algebra.Field.Rat

namespace Logix
variable {K : Type}

/-! ### The registration of the EKFAC states -/

/-- Before the eigendecomposition exists, the EKFAC states are not registered. -/
structure EkReg (s : LState K) : Prop where
  norm : NormReg s
  fresh : s.hasAttr nEigvec = false → nEkfac ∉ s.states ∧ nEkfacCounter ∉ s.states ∧ s.toNormalize = basePairs ∧
    Dict.get? s.attrs nEkfac = none

theorem ekReg_init : EkReg (LState.init : LState K) := by
  have h : (LState.init : LState K).states = [nMean, nMeanCounter, nCov, nCovCounter, nModelModule] := rfl
  refine ⟨normReg_init, fun _ => ⟨?_, ?_, rfl, rfl⟩⟩ <;> rw [h] <;> decide

theorem clearNames_isSome : ∀ {names : List PyStr} {s s' : LState K}, clearNames s names = .ok s' →
    ∀ n, (Dict.get? s'.attrs n).isSome = (Dict.get? s.attrs n).isSome := by
  intro names
  induction names with
  | nil => intro s s' h n; cases h; rfl
  | cons a rest ih =>
    intro s s' h n
    unfold clearNames at h
    split at h
    · exact ih h n
    · split at h
      · cases h
      · next d hd =>
        rw [ih h n, get?_setAttr]
        split
        · next hna => subst hna; rw [getAttr_eq.1 hd]; rfl
        · rfl

theorem registerState_states (s : LState K) (n : PyStr) (a b c : Bool) : ∀ n', n' ≠ n → (n' ∈ (s.registerState n a b c).states ↔ n' ∈ s.states) := by
  intro n' h
  unfold LState.registerState
  split
  · rfl
  · simp [h]

theorem covarianceInverse_states [Field K] (L : Lib K) {s s' : LState K} {damping : Option K} (h : s.covarianceInverse L damping = .ok s') :
    ∀ n, n ≠ nInverse → (n ∈ s'.states ↔ n ∈ s.states) := by
  unfold LState.covarianceInverse at h
  simp only at h
  split at h
  · split at h
    · cases h
    · simp only [Except.ok.injEq] at h
      subst h
      intro n hn
      exact registerState_states s nInverse _ _ _ n hn
  · cases h

theorem covarianceSvd_has (L : Lib K) {s s' : LState K} (h : s.covarianceSvd L = .ok s') : s'.hasAttr nEigvec = true ∧ s'.hasAttr nEigval = true := by
  unfold LState.covarianceSvd at h
  simp only at h
  split at h
  · split at h
    · cases h
    · simp only [Except.ok.injEq] at h
      subst h
      unfold LState.hasAttr
      rw [get?_setAttr, if_pos rfl, get?_setAttr, if_neg (by decide), get?_setAttr, if_pos rfl]
      exact ⟨rfl, rfl⟩
  · cases h

theorem ekfacPrepare_has (L : Lib K) {s s' : LState K} (h : ekfacPrepare L s = .ok s') : s'.hasAttr nEigvec = true := by
  unfold ekfacPrepare at h
  split at h
  · next h0 => cases h; exact h0
  · split at h
    · cases h
    · next s1 hs1 =>
      cases h
      unfold LState.hasAttr
      rw [registerNormalizePair_attrs, registerState_frame _ _ _ _ _ _ (by decide), registerState_frame _ _ _ _ _ _ (by decide)]
      exact (covarianceSvd_has L hs1).1

theorem pluginUpdate_states [Semiring K] (L : Lib K) {p : Plugin} (hp : p ≠ .correctedEigval) {s s' : LState K} {c : StatCall K}
    (h : pluginUpdate L p s c = .ok s') : s'.states = s.states ∧ s'.toNormalize = s.toNormalize ∧ s'.toSave = s.toSave := by
  cases p with
  | log => cases h; exact ⟨rfl, rfl, rfl⟩
  | mean => obtain ⟨d, e, hs⟩ := statUpdate_frame meanAcc h; rw [hs]; exact ⟨rfl, rfl, rfl⟩
  | variance => obtain ⟨d, e, hs⟩ := statUpdate_frame meanAcc h; rw [hs]; exact ⟨rfl, rfl, rfl⟩
  | covariance => obtain ⟨d, e, hs⟩ := statUpdate_frame covAcc h; rw [hs]; exact ⟨rfl, rfl, rfl⟩
  | correctedEigval => exact absurd rfl hp

theorem correctedEigval_has [Semiring K] (L : Lib K) {s s' : LState K} {c : StatCall K} (h : correctedEigvalUpdate L s c = .ok s') :
    s'.hasAttr nEigvec = true := by
  obtain ⟨s1, vecs, vals, ek, cn, t, cn', ef, eb, t', x, h0, -, -, -, -, -, -, -, -, -, hs⟩ := correctedEigval_ok L h
  subst hs
  unfold LState.hasAttr
  rw [get?_setAttr, if_neg (by decide), get?_setAttr, if_neg (by decide)]
  exact ekfacPrepare_has L h0

theorem EkReg.step [Field K] {L : Lib K} {s s' : LState K} {o : StateOp K} (hr : EkReg s) (h : stepOp L s o = .ok s') : EkReg s' := by
  refine ⟨hr.norm.step h, fun hv => ?_⟩
  cases o with
  | update p c =>
    have h : pluginUpdate L p s c = .ok s' := h
    by_cases hp : p = .correctedEigval
    · subst hp
      rw [correctedEigval_has L h] at hv
      cases hv
    · obtain ⟨h1, h2, _⟩ := pluginUpdate_states L hp h
      rw [h1, h2, (pluginUpdate_frame L h).2 nEkfac (by cases p <;> first | (exact absurd rfl hp) | decide)]
      apply hr.fresh
      unfold LState.hasAttr at hv ⊢
      rw [(pluginUpdate_frame L h).2 _ (by cases p <;> first | (exact absurd rfl hp) | decide)] at hv
      exact hv
  | finalize dir =>
    obtain ⟨⟨a, b⟩, h1, h2⟩ := Except.map_ok h
    subst h2
    obtain ⟨g1, g2, g3, g4, g5⟩ := normalizePairs_reg (finalize_ok h1).1
    show nEkfac ∉ a.states ∧ nEkfacCounter ∉ a.states ∧ a.toNormalize = _ ∧ Dict.get? a.attrs nEkfac = none
    have hv : a.hasAttr nEigvec = false := hv
    have hv0 : s.hasAttr nEigvec = false := by
      unfold LState.hasAttr at hv ⊢
      rw [normalizePairs_frame (finalize_ok h1).1 _ (by rcases hr.norm with hr | hr <;> rw [hr] <;> decide)] at hv
      exact hv
    obtain ⟨i1, i2, i3, i4⟩ := hr.fresh hv0
    rw [g4, g1, normalizePairs_frame (finalize_ok h1).1 nEkfac (by rw [i3]; decide)]
    exact ⟨i1, i2, i3, i4⟩
  | clear =>
    obtain ⟨g1, g2, g3, g4, g5⟩ := clearNames_reg h
    have hv0 : s.hasAttr nEigvec = false := by
      unfold LState.hasAttr at hv ⊢
      rw [clearNames_isSome h] at hv
      exact hv
    obtain ⟨i1, i2, i3, i4⟩ := hr.fresh hv0
    rw [g4, g1]
    exact ⟨i1, i2, i3, clearNames_frame h _ i4⟩
  | inverse damping =>
    obtain ⟨⟨a, b⟩, h1, h2⟩ := Except.map_ok h
    subst h2
    show nEkfac ∉ a.states ∧ nEkfacCounter ∉ a.states ∧ a.toNormalize = _ ∧ Dict.get? a.attrs nEkfac = none
    have hv : a.hasAttr nEigvec = false := hv
    obtain ⟨f1, f2⟩ := getCovarianceInverse_frame L h1
    have hs0 : s.hasAttr nEigvec = false := by
      unfold LState.hasAttr at hv ⊢
      rw [f2 _ (by decide)] at hv
      exact hv
    obtain ⟨i1, i2, i3, i4⟩ := hr.fresh hs0
    rw [f1, f2 nEkfac (by decide)]
    unfold LState.getCovarianceInverse at h1
    split at h1
    · cases h1
    · next s1 hs1 =>
      split at h1
      · cases h1
      · cases h1
        split at hs1
        · cases hs1; exact ⟨i1, i2, i3, i4⟩
        · have g := covarianceInverse_states L hs1
          rw [g _ (by decide), g _ (by decide)]
          exact ⟨i1, i2, i3, i4⟩
  | svd =>
    obtain ⟨⟨a, b⟩, h1, h2⟩ := Except.map_ok h
    subst h2
    have hv : a.hasAttr nEigvec = false := hv
    unfold LState.getCovarianceSvd at h1
    split at h1
    · cases h1
    · next s1 hs1 =>
      cases h1
      split at hs1
      · next hc =>
        cases hs1
        rw [hv] at hc
        simp at hc
      · rw [(covarianceSvd_has L hs1).1] at hv
        cases hv

theorem ekReg_run [Field K] (L : Lib K) : ∀ {ops : List (StateOp K)} {s s' : LState K}, runOps L s ops = .ok s' → EkReg s → EkReg s' := by
  intro ops
  induction ops with
  | nil => intro s s' h hs; cases h; exact hs
  | cons o rest ih =>
    intro s s' h hs
    unfold runOps at h
    split at h
    · cases h
    · next s1 hs1 => exact ih h (hs.step hs1)

/-! ### The sums of squares -/

theorem rotated_eq [Semiring K] (ef eb g : Tensor K) (n o i : Nat) (hg : g.shape = [n, o, i]) (k a b : Nat) :
    ∑ p ∈ Finset.range o, eb.el [p, a] * ∑ q ∈ Finset.range i, g.el [k, p, q] * ef.el [q, b] = Spec.rotated ef eb g k a b := by
  have s1 : g.size 1 = o := by simp [Tensor.size, hg]
  have s2 : g.size 2 = i := by simp [Tensor.size, hg]
  unfold Spec.rotated
  rw [s1, s2]
  apply Finset.sum_congr rfl
  intro p _
  rw [Finset.mul_sum]
  apply Finset.sum_congr rfl
  intro q _
  rw [mul_assoc]

theorem ekfacAdd_ok [Semiring K] {t data ef eb t' : Tensor K} (h : ekfacAdd t data ef eb = .ok t') :
    t.shape = [t.size 0, t.size 1] ∧ t'.shape = [t.size 0, t.size 1] ∧ t'.dev = t.dev ∧ t.dev = data.dev ∧ eb.shape = [data.size 1, t.size 0] ∧
      ef.shape = [data.size 2, t.size 1] ∧
      ∀ a b, a < t.size 0 → b < t.size 1 → t'.el [a, b] = t.el [a, b] + ((List.range (data.size 0)).map fun k => Spec.rotated ef eb data k a b ^ 2).sum := by
  unfold ekfacAdd at h
  split at h
  · next n o i hs =>
    split at h
    · next hc =>
      obtain ⟨c1, c2, c3, c4, c5, c6⟩ := hc
      simp only [Except.ok.injEq] at h
      subst h
      have s0 : data.size 0 = n := by simp [Tensor.size, hs]
      have s1 : data.size 1 = o := by simp [Tensor.size, hs]
      have s2 : data.size 2 = i := by simp [Tensor.size, hs]
      refine ⟨?_, rfl, rfl, c4, by rw [c2, s1], by rw [c1, s2], fun a b ha hb => ?_⟩
      · match hsh : t.shape, c3 with
        | [x, y], _ => simp [Tensor.size, hsh]
      · rw [Tensor.el_ofFn2 (hi := ha) (hj := hb), s0, list_sum_range]
        congr 1
        apply Finset.sum_congr rfl
        intro k _
        rw [rotated_eq ef eb data n o i hs]
    · cases h
  · cases h

theorem squares_append [Semiring K] (ef eb : Tensor K) (a b : Nat) (cs cs' : List (StatCall K)) :
    Spec.squares ef eb a b (cs ++ cs') = Spec.squares ef eb a b cs + Spec.squares ef eb a b cs' := by
  simp [Spec.squares]

theorem squares_single [Semiring K] (ef eb : Tensor K) (a b : Nat) (c : StatCall K) :
    Spec.squares ef eb a b [c] = ((List.range (c.data.size 0)).map fun k => Spec.rotated ef eb c.data k a b ^ 2).sum := by
  simp [Spec.squares]

theorem rotated_onDev [Semiring K] (ef eb g : Tensor K) (d : Dev) (k a b : Nat) :
    Spec.rotated (ef.onDev d) (eb.onDev d) g k a b = Spec.rotated ef eb g k a b := rfl

/-- What holds of one module's corrected eigenvalues after some calls. -/
structure EkEntry [Semiring K] (vecs ek cn : StateDict K) (m : PyStr) (cs : List (StatCall K)) : Prop where
  nil : cs = [] → Dict.get? ek m = none
  cons : cs ≠ [] → ∃ ef eb t, item2 vecs m (LogType.name .forward) = .ok (some (.tensor ef)) ∧
    item2 vecs m (LogType.name .backward) = .ok (some (.tensor eb)) ∧ Dict.get? ek m = some (.leaf (.tensor t)) ∧
    Dict.get? cn m = some (.leaf (.num (Spec.samples cs : K))) ∧ t.shape = [eb.size 1, ef.size 1] ∧
    (∀ c ∈ cs, eb.size 0 = c.data.size 1 ∧ ef.size 0 = c.data.size 2) ∧
    ∀ a b, a < eb.size 1 → b < ef.size 1 → t.el [a, b] = Spec.squares ef eb a b cs

theorem size_of_shape {t : Tensor K} {l : List Nat} (h : t.shape = l) (i : Nat) : t.size i = l.getD i 0 := by
  unfold Tensor.size; rw [h]

/-- One EKFAC update, with the eigenvectors already there. -/
theorem ekEntry_step [Semiring K] {vecs ek cn cn' : StateDict K} {c : StatCall K} {t t' ef eb : Tensor K} {x : K}
    (h5 : ekfacEntry ek cn c = .ok (.leaf (.tensor t), cn')) (h6 : item2 vecs c.name (LogType.name .forward) = .ok (some (.tensor ef)))
    (h7 : item2 vecs c.name (LogType.name .backward) = .ok (some (.tensor eb)))
    (h8 : (if c.offload then (ekfacAdd (t.onDev c.data.dev) c.data (ef.onDev c.data.dev) (eb.onDev c.data.dev)).map (Tensor.onDev · .cpu)
      else ekfacAdd t c.data ef eb) = .ok t') (h9 : Dict.get? cn' c.name = some (.leaf (.num x)))
    {m : PyStr} {cs : List (StatCall K)} (I : EkEntry vecs ek cn m cs) :
    EkEntry vecs (Dict.set ek c.name (.leaf (.tensor t'))) (Dict.set cn' c.name (.leaf (.num (x + (c.data.size 0 : K))))) m
      (cs ++ if c.name = m then [c] else []) := by
  have hother : ∀ m', c.name ≠ m' → Dict.get? cn' m' = Dict.get? cn m' := by
    intro m' hm'
    unfold ekfacEntry at h5
    split at h5
    · cases h5; rfl
    · simp only at h5
      split at h5
      · cases h5
      · cases h5; rw [Dict.get?_set_ne _ _ hm']
  by_cases hm : c.name = m
  · subst hm
    simp only [if_true]
    refine ⟨fun h => by simp at h, fun _ => ?_⟩
    -- the addition
    have hadd : t.shape = [t.size 0, t.size 1] ∧ t'.shape = [t.size 0, t.size 1] ∧ eb.shape = [c.data.size 1, t.size 0] ∧
        ef.shape = [c.data.size 2, t.size 1] ∧
        ∀ a b, a < t.size 0 → b < t.size 1 → t'.el [a, b] = t.el [a, b] + Spec.squares ef eb a b [c] := by
      simp only [squares_single]
      cases ho : c.offload with
      | false =>
        rw [ho] at h8
        simp only [Bool.false_eq_true, if_false] at h8
        obtain ⟨a1, a2, a3, a4, a5, a6, a7⟩ := ekfacAdd_ok h8
        exact ⟨a1, a2, a5, a6, a7⟩
      | true =>
        rw [ho] at h8
        simp only [if_true] at h8
        obtain ⟨u, hu, hu'⟩ := Except.map_ok h8
        obtain ⟨a1, a2, a3, a4, a5, a6, a7⟩ := ekfacAdd_ok hu
        rw [← hu']
        exact ⟨a1, a2, a5, a6, a7⟩
    obtain ⟨a1, a2, a3, a4, a5⟩ := hadd
    have e0 : eb.size 0 = c.data.size 1 := by rw [size_of_shape a3]; rfl
    have e1 : eb.size 1 = t.size 0 := by rw [size_of_shape a3]; rfl
    have f0 : ef.size 0 = c.data.size 2 := by rw [size_of_shape a4]; rfl
    have f1 : ef.size 1 = t.size 1 := by rw [size_of_shape a4]; rfl
    refine ⟨ef, eb, t', h6, h7, Dict.get?_set_self _ _ _, ?_⟩
    rw [Dict.get?_set_self, e1, f1]
    by_cases hcs : cs = []
    · subst hcs
      have hz : (∀ a b, t.el [a, b] = 0) ∧ x = 0 := by
        unfold ekfacEntry at h5
        rw [I.nil rfl] at h5
        simp only at h5
        split at h5
        · cases h5
        · simp only [Except.ok.injEq, Prod.mk.injEq, Nested.leaf.injEq, SVal.tensor.injEq] at h5
          obtain ⟨h5, h5'⟩ := h5
          rw [← h5', Dict.get?_set_self] at h9
          simp only [Option.some.injEq, Nested.leaf.injEq, SVal.num.injEq] at h9
          exact ⟨fun a b => by rw [← h5, zeros_el], h9.symm⟩
      refine ⟨?_, a2, ?_, fun a b ha hb => ?_⟩
      · rw [hz.2]; simp [Spec.samples]
      · intro c' hc'; simp at hc'; subst hc'; exact ⟨e0, f0⟩
      · rw [a5 a b ha hb, hz.1]; simp
    · obtain ⟨ef', eb', t1, g1, g2, g3, g4, g5, g6, g7⟩ := I.cons hcs
      have hef : ef' = ef := by have := g1.symm.trans h6; simpa using this
      have heb : eb' = eb := by have := g2.symm.trans h7; simpa using this
      subst hef heb
      have ht : t1 = t ∧ cn' = cn := by
        unfold ekfacEntry at h5
        rw [g3] at h5
        simp only [Except.ok.injEq, Prod.mk.injEq, Nested.leaf.injEq, SVal.tensor.injEq] at h5
        exact ⟨h5.1, h5.2.symm⟩
      obtain ⟨rfl, rfl⟩ := ht
      rw [g4] at h9
      simp only [Option.some.injEq, Nested.leaf.injEq, SVal.num.injEq] at h9
      refine ⟨?_, a2, ?_, fun a b ha hb => ?_⟩
      · rw [← h9]; simp [Spec.samples]
      · intro c' hc'
        rcases List.mem_append.1 hc' with hc' | hc'
        · exact g6 c' hc'
        · simp at hc'; subst hc'; exact ⟨e0, f0⟩
      · rw [a5 a b ha hb, squares_append, g7 a b (by rw [e1]; exact ha) (by rw [f1]; exact hb)]
  · rw [if_neg hm, List.append_nil]
    refine ⟨fun h => ?_, fun h => ?_⟩
    · rw [Dict.get?_set_ne _ _ hm]; exact I.nil h
    · obtain ⟨ef', eb', t1, g⟩ := I.cons h
      refine ⟨ef', eb', t1, ?_⟩
      rw [Dict.get?_set_ne _ _ hm, Dict.get?_set_ne _ _ hm, hother m hm]
      exact g

/-- The state during EKFAC logging that started at a state without eigendecomposition. -/
def EkState [Semiring K] (s : LState K) (done : List (Plugin × StatCall K)) : Prop :=
  ((∀ pc ∈ done, pc.1 ≠ .correctedEigval) ∧ s.hasAttr nEigvec = false ∧ nEkfac ∉ s.states ∧ nEkfacCounter ∉ s.states ∧ s.toNormalize = basePairs) ∨
  (∃ vecs ek cn, s.hasAttr nEigvec = true ∧ s.getAttr nEigvec = .ok vecs ∧ s.getAttr nEkfac = .ok ek ∧ s.getAttr nEkfacCounter = .ok cn ∧
    s.toNormalize = basePairs ++ [(nEkfac, nEkfacCounter)] ∧ ∀ m, EkEntry vecs ek cn m (Spec.ekfacCalls m done))

theorem ekfacCalls_append [Semiring K] (m : PyStr) (a b : List (Plugin × StatCall K)) :
    Spec.ekfacCalls m (a ++ b) = Spec.ekfacCalls m a ++ Spec.ekfacCalls m b := by simp [Spec.ekfacCalls]

theorem ekfacCalls_single [Semiring K] (m : PyStr) (q : Plugin) (c : StatCall K) :
    Spec.ekfacCalls m [(q, c)] = if q = .correctedEigval ∧ c.name = m then [c] else [] := by
  unfold Spec.ekfacCalls
  by_cases h : q = .correctedEigval ∧ c.name = m <;> simp [List.filter, h]

theorem registerState_get (s : LState K) (n : PyStr) (a b c : Bool) (h : n ∉ s.states) :
    (s.registerState n a b c).getAttr n = .ok [] := by
  unfold LState.registerState LState.getAttr
  rw [if_neg h]
  simp

/-- The first EKFAC update registers the states. -/
theorem ekfacPrepare_fresh (L : Lib K) {s s1 : LState K} (h : ekfacPrepare L s = .ok s1) (h0 : s.hasAttr nEigvec = false)
    (h1 : nEkfac ∉ s.states) (h2 : nEkfacCounter ∉ s.states) (h3 : s.toNormalize = basePairs) :
    s1.getAttr nEkfac = .ok [] ∧ s1.getAttr nEkfacCounter = .ok [] ∧ s1.toNormalize = basePairs ++ [(nEkfac, nEkfacCounter)] := by
  unfold ekfacPrepare at h
  rw [h0] at h
  simp only [Bool.false_eq_true, if_false] at h
  split at h
  · cases h
  · next s2 hs2 =>
    have hst : ∀ n, n ≠ nEigval → n ≠ nEigvec → (n ∈ s2.states ↔ n ∈ s.states) := by
      intro n g1 g2
      unfold LState.covarianceSvd at hs2
      simp only at hs2
      split at hs2
      · split at hs2
        · cases hs2
        · simp only [Except.ok.injEq] at hs2
          subst hs2
          show n ∈ (LState.registerState _ _ _ _ _).states ↔ _
          rw [registerState_states _ _ _ _ _ _ g2, registerState_states _ _ _ _ _ _ g1]
      · cases hs2
    have e1 : nEkfac ∉ s2.states := by rw [hst _ (by decide) (by decide)]; exact h1
    have e2 : nEkfacCounter ∉ (s2.registerState nEkfac true true false).states := by
      rw [registerState_states _ _ _ _ _ _ (by decide), hst _ (by decide) (by decide)]; exact h2
    simp only [Except.ok.injEq] at h
    subst h
    refine ⟨?_, ?_, ?_⟩
    · rw [getAttr_congr (s := s2.registerState nEkfac true true false)]
      · exact registerState_get _ _ _ _ _ e1
      · rw [registerNormalizePair_attrs, registerState_frame _ _ _ _ _ _ (by decide)]
    · rw [getAttr_congr (s := (s2.registerState nEkfac true true false).registerState nEkfacCounter true false false)]
      · exact registerState_get _ _ _ _ _ e2
      · rw [registerNormalizePair_attrs]
    · unfold LState.registerNormalizePair
      have hn : ((s2.registerState nEkfac true true false).registerState nEkfacCounter true false false).toNormalize = basePairs := by
        rw [registerState_norm, registerState_norm, (covarianceSvd_frame L hs2).1, h3]
      rw [if_neg (by rw [hn]; decide)]
      show _ ++ _ = _
      rw [hn]

theorem EkState.step [Semiring K] {L : Lib K} {s s' : LState K} {done : List (Plugin × StatCall K)} (hs : EkState s done) {q : Plugin}
    {c : StatCall K} (h : pluginUpdate L q s c = .ok s') : EkState s' (done ++ [(q, c)]) := by
  by_cases hq : q = .correctedEigval
  · subst hq
    obtain ⟨s1, vecs, vals, ek, cn, t, cn', ef, eb, t', x, h0, h1, h2, h3, h4, h5, h6, h7, h8, h9, hs'⟩ := correctedEigval_ok L h
    have I : ∀ m, EkEntry vecs ek cn m (Spec.ekfacCalls m done) := by
      rcases hs with ⟨g0, g1, g2, g3, g4⟩ | ⟨vecs', ek', cn0, g1, g2, g3, g4, g5, g6⟩
      · obtain ⟨p1, p2, p3⟩ := ekfacPrepare_fresh L h0 g1 g2 g3 g4
        have hnil : ∀ m, Spec.ekfacCalls m done = [] := by
          intro m
          unfold Spec.ekfacCalls
          rw [List.map_eq_nil_iff, List.filter_eq_nil_iff]
          intro pc hpc
          simp [g0 pc hpc]
        intro m
        rw [hnil m]
        refine ⟨fun _ => ?_, fun hh => absurd rfl hh⟩
        have : ek = [] := Except.ok.inj (h3.symm.trans p1)
        rw [this]; rfl
      · have hp : s1 = s := by
          unfold ekfacPrepare at h0
          rw [g1] at h0
          simp only [if_true, Except.ok.injEq] at h0
          exact h0.symm
        subst hp
        have e1 : vecs' = vecs := Except.ok.inj (g2.symm.trans h1)
        have e2 : ek' = ek := Except.ok.inj (g3.symm.trans h3)
        have e3 : cn0 = cn := Except.ok.inj (g4.symm.trans h4)
        subst e1 e2 e3
        exact g6
    have hnorm : s1.toNormalize = basePairs ++ [(nEkfac, nEkfacCounter)] := by
      rcases hs with ⟨g0, g1, g2, g3, g4⟩ | ⟨vecs', ek', cn0, g1, g2, g3, g4, g5, g6⟩
      · exact (ekfacPrepare_fresh L h0 g1 g2 g3 g4).2.2
      · unfold ekfacPrepare at h0
        rw [g1] at h0
        simp only [if_true, Except.ok.injEq] at h0
        rw [← h0, g5]
    right
    refine ⟨vecs, Dict.set ek c.name (.leaf (.tensor t')), Dict.set cn' c.name (.leaf (.num (x + (c.data.size 0 : K)))),
      correctedEigval_has L h, ?_, ?_, ?_, ?_, fun m => ?_⟩
    · rw [hs', getAttr_setAttr, if_neg (by decide), getAttr_setAttr, if_neg (by decide)]; exact h1
    · rw [hs', getAttr_setAttr, if_neg (by decide), getAttr_setAttr, if_pos rfl]
    · rw [hs', getAttr_setAttr, if_pos rfl]
    · rw [hs']; exact hnorm
    · rw [ekfacCalls_append, ekfacCalls_single]
      have := ekEntry_step h5 h6 h7 h8 h9 (I m)
      simpa using this
  · obtain ⟨f1, f2, _⟩ := pluginUpdate_states L hq h
    have F := (pluginUpdate_frame L h).2
    have nt : ∀ n, n ∈ touched .correctedEigval → n ∉ touched q := by
      intro n hn
      simp only [touched, List.mem_cons, List.not_mem_nil, or_false] at hn
      rcases hn with rfl | rfl | rfl | rfl <;> cases q <;> first | (exact absurd rfl hq) | decide
    have hsingle : ∀ m, Spec.ekfacCalls m (done ++ [(q, c)]) = Spec.ekfacCalls m done := by
      intro m
      rw [ekfacCalls_append, ekfacCalls_single]; simp [hq]
    rcases hs with ⟨g0, g1, g2, g3, g4⟩ | ⟨vecs, ek, cn, g1, g2, g3, g4, g5, g6⟩
    · left
      refine ⟨fun pc hpc => ?_, ?_, by rw [f1]; exact g2, by rw [f1]; exact g3, by rw [f2]; exact g4⟩
      · rcases List.mem_append.1 hpc with hpc | hpc
        · exact g0 pc hpc
        · simp at hpc; subst hpc; exact hq
      · unfold LState.hasAttr at g1 ⊢
        rw [F _ (nt _ (by decide))]; exact g1
    · right
      refine ⟨vecs, ek, cn, ?_, ?_, ?_, ?_, by rw [f2]; exact g5, fun m => by rw [hsingle]; exact g6 m⟩
      · unfold LState.hasAttr at g1 ⊢
        rw [F _ (nt _ (by decide))]; exact g1
      · rw [getAttr_congr (F _ (nt _ (by decide)))]; exact g2
      · rw [getAttr_congr (F _ (nt _ (by decide)))]; exact g3
      · rw [getAttr_congr (F _ (nt _ (by decide)))]; exact g4

theorem EkState.updates [Semiring K] {L : Lib K} : ∀ {calls done : List (Plugin × StatCall K)} {s s' : LState K}, EkState s done →
    Logix.updates L s calls = .ok s' → EkState s' (done ++ calls) := by
  intro calls
  induction calls with
  | nil => intro done s s' hs h; cases h; simpa using hs
  | cons a rest ih =>
    obtain ⟨q, c⟩ := a
    intro done s s' hs h
    unfold Logix.updates at h
    split at h
    · cases h
    · next s1 hs1 =>
      have := ih (hs.step hs1) h
      simpa using this

/-- **C36.** Start from any state without eigendecomposition that a program can reach, log with any plugins, and finalize. Then for every
module with EKFAC updates the corrected eigenvalue at `(a, b)` is the sum, over all gradients logged for the module, of the squares of
entry `(a, b)` of the gradient rotated by the eigenvectors, divided by their number. -/
theorem C36_ekfac [Field K] (L : Lib K) {ops : List (StateOp K)} {s₀ s s' : LState K} {dir dir' : StateDir K}
    (hpre : runOps L .init ops = .ok s₀) (hfresh : s₀.hasAttr nEigvec = false)
    {calls : List (Plugin × StatCall K)} (hrun : updates L s₀ calls = .ok s) (hfin : s.finalize dir = .ok (s', dir')) (m : PyStr)
    (hne : Spec.ekfacCalls m calls ≠ []) :
    ∃ ef eb t, Spec.tensorAt s.attrs nEigvec [m, LogType.name .forward] = some ef ∧
      Spec.tensorAt s.attrs nEigvec [m, LogType.name .backward] = some eb ∧ Spec.tensorAt s'.attrs nEkfac [m] = some t ∧
      t.shape = [eb.size 1, ef.size 1] ∧ (∀ c ∈ Spec.ekfacCalls m calls, eb.size 0 = c.data.size 1 ∧ ef.size 0 = c.data.size 2) ∧
      ∀ a b, a < eb.size 1 → b < ef.size 1 →
        t.el [a, b] = Spec.squares ef eb a b (Spec.ekfacCalls m calls) / (Spec.samples (Spec.ekfacCalls m calls) : K) := by
  have hreg := ekReg_run L hpre ekReg_init
  obtain ⟨r1, r2, r3, _⟩ := hreg.fresh hfresh
  have hs : EkState s ([] ++ calls) := EkState.updates (.inl ⟨by simp, hfresh, r1, r2, r3⟩) hrun
  rw [List.nil_append] at hs
  rcases hs with ⟨g0, -⟩ | ⟨vecs, ek, cn, g1, g2, g3, g4, g5, g6⟩
  · exfalso
    apply hne
    unfold Spec.ekfacCalls
    rw [List.map_eq_nil_iff, List.filter_eq_nil_iff]
    intro pc hpc
    simp [g0 pc hpc]
  · obtain ⟨ef, eb, t, e1, e2, e3, e4, e5, e6, e7⟩ := (g6 m).cons hne
    obtain ⟨f1, f2⟩ := finalize_ok hfin
    unfold LState.normalize at f1
    rw [g5] at f1
    obtain ⟨d, e, d', k1, k2, k3, k4⟩ := normalizePairs_get (post := []) f1 (by decide) (by decide) (by decide)
    obtain rfl := Except.ok.inj (g3.symm.trans k1)
    obtain rfl := Except.ok.inj (g4.symm.trans k2)
    obtain ⟨v', hv', hd'⟩ := (normalizeDict_get k3 m).2 _ e3
    rw [e4] at hv'
    unfold normalizeValue at hv'
    simp only [Except.ok.injEq] at hv'
    subst hv'
    refine ⟨ef, eb, t.divNum (Spec.samples (Spec.ekfacCalls m calls) : K), tensorAt_item2 g2 e1, tensorAt_item2 g2 e2, ?_, e5, e6,
      fun a b ha hb => ?_⟩
    · unfold Spec.tensorAt
      rw [getAttr_eq.1 k4]
      simp only [Nested.lookup, hd']
    · rw [divNum_el _ _ _ (by rw [e5]; simp [inRange, ha, hb]), e7 a b ha hb]

/-- **C36**, sign: over an ordered field the corrected eigenvalues are never negative. -/
theorem C36_nonneg [Field K] [LinearOrder K] [IsStrictOrderedRing K] (L : Lib K) {ops : List (StateOp K)} {s₀ s s' : LState K}
    {dir dir' : StateDir K} (hpre : runOps L .init ops = .ok s₀) (hfresh : s₀.hasAttr nEigvec = false)
    {calls : List (Plugin × StatCall K)} (hrun : updates L s₀ calls = .ok s) (hfin : s.finalize dir = .ok (s', dir')) (m : PyStr)
    (hne : Spec.ekfacCalls m calls ≠ []) :
    ∃ t, Spec.tensorAt s'.attrs nEkfac [m] = some t ∧ ∀ a b, a < t.size 0 → b < t.size 1 → 0 ≤ t.el [a, b] := by
  obtain ⟨ef, eb, t, h1, h2, h3, h4, h5, h6⟩ := C36_ekfac L hpre hfresh hrun hfin m hne
  refine ⟨t, h3, fun a b ha hb => ?_⟩
  rw [size_of_shape h4] at ha hb
  rw [h6 a b ha hb]
  apply div_nonneg
  · apply List.sum_nonneg
    intro y hy
    simp only [List.mem_flatMap, List.mem_map] at hy
    obtain ⟨c, _, k, _, rfl⟩ := hy
    exact sq_nonneg _
  · exact Nat.cast_nonneg _

/-- **C36**, batching: two runs with the same eigenvectors for a module that logged the same gradients, cut into batches in any way and in
any order, end with the same corrected eigenvalues. The gradients are compared through all their rotated entries. -/
theorem C36_batching [Field K] {cs₁ cs₂ : List (StatCall K)} (ef eb : Tensor K)
    (hperm : ∀ a b, (cs₁.flatMap fun c => (List.range (c.data.size 0)).map fun k => Spec.rotated ef eb c.data k a b).Perm
      (cs₂.flatMap fun c => (List.range (c.data.size 0)).map fun k => Spec.rotated ef eb c.data k a b)) (a b : Nat) :
    Spec.squares ef eb a b cs₁ = Spec.squares ef eb a b cs₂ ∧ Spec.samples cs₁ = Spec.samples cs₂ := by
  have hs : ∀ cs : List (StatCall K), Spec.squares ef eb a b cs =
      ((cs.flatMap fun c => (List.range (c.data.size 0)).map fun k => Spec.rotated ef eb c.data k a b).map (· ^ 2)).sum := by
    intro cs
    unfold Spec.squares
    rw [List.map_flatMap]
    simp only [List.map_map]
    rfl
  have hn : ∀ cs : List (StatCall K), Spec.samples cs =
      (cs.flatMap fun c => (List.range (c.data.size 0)).map fun k => Spec.rotated ef eb c.data k a b).length := by
    intro cs
    induction cs with
    | nil => rfl
    | cons c cs ih => simp only [List.flatMap_cons, List.length_append, ← ih]; simp [Spec.samples]
  rw [hs, hs, hn, hn]
  exact ⟨((hperm a b).map _).sum_eq, (hperm a b).length_eq⟩

/-! ### C37 for `corrected_eigval` -/

/-- With eigenvectors but without EKFAC states the plugin raises. -/
theorem ekfac_error [Semiring K] (L : Lib K) {s : LState K} (h1 : s.hasAttr nEigvec = true) (h2 : Dict.get? s.attrs nEkfac = none)
    (c : StatCall K) : pluginUpdate L .correctedEigval s c = .error .attributeError := by
  show correctedEigvalUpdate L s c = _
  unfold correctedEigvalUpdate ekfacPrepare
  rw [if_pos h1]
  simp only
  have : s.getAttr nEkfac = .error .attributeError := by unfold LState.getAttr; rw [h2]
  rw [this]
  split
  · next h _ => cases h
  · rfl

theorem ekfac_stuck [Field K] (L : Lib K) : ∀ {ops : List (StateOp K)} {s s' : LState K}, runOps L s ops = .ok s' →
    s.toNormalize = basePairs → s.hasAttr nEigvec = true → Dict.get? s.attrs nEkfac = none →
    s'.hasAttr nEigvec = true ∧ Dict.get? s'.attrs nEkfac = none := by
  intro ops
  induction ops with
  | nil => intro s s' h _ h1 h2; cases h; exact ⟨h1, h2⟩
  | cons o rest ih =>
    intro s s' h hn h1 h2
    unfold runOps at h
    split at h
    · cases h
    · next s1 hs1 =>
      have key : s1.toNormalize = basePairs ∧ s1.hasAttr nEigvec = true ∧ Dict.get? s1.attrs nEkfac = none := by
        unfold LState.hasAttr at h1 ⊢
        cases o with
        | update p c =>
          have hs1 : pluginUpdate L p s c = .ok s1 := hs1
          by_cases hp : p = .correctedEigval
          · subst hp
            rw [ekfac_error L h1 h2] at hs1
            cases hs1
          · have F := (pluginUpdate_frame L hs1).2
            rw [(pluginUpdate_states L hp hs1).2.1, F nEigvec (by cases p <;> first | (exact absurd rfl hp) | decide),
              F nEkfac (by cases p <;> first | (exact absurd rfl hp) | decide)]
            exact ⟨hn, h1, h2⟩
        | finalize dir =>
          obtain ⟨⟨a, b⟩, g1, g2⟩ := Except.map_ok hs1
          subst g2
          have F := normalizePairs_frame (finalize_ok g1).1
          show a.toNormalize = _ ∧ (Dict.get? a.attrs nEigvec).isSome = true ∧ Dict.get? a.attrs nEkfac = none
          rw [(normalizePairs_reg (finalize_ok g1).1).1, F nEigvec (by rw [hn]; decide), F nEkfac (by rw [hn]; decide)]
          exact ⟨hn, h1, h2⟩
        | clear =>
          rw [(clearNames_reg hs1).1, clearNames_isSome hs1]
          exact ⟨hn, h1, clearNames_frame hs1 _ h2⟩
        | inverse damping =>
          obtain ⟨⟨a, b⟩, g1, g2⟩ := Except.map_ok hs1
          subst g2
          obtain ⟨f1, f2⟩ := getCovarianceInverse_frame L g1
          show a.toNormalize = _ ∧ (Dict.get? a.attrs nEigvec).isSome = true ∧ Dict.get? a.attrs nEkfac = none
          rw [f1, f2 nEigvec (by decide), f2 nEkfac (by decide)]
          exact ⟨hn, h1, h2⟩
        | svd =>
          obtain ⟨⟨a, b⟩, g1, g2⟩ := Except.map_ok hs1
          subst g2
          obtain ⟨f1, f2⟩ := getCovarianceSvd_frame L g1
          show a.toNormalize = _ ∧ (Dict.get? a.attrs nEigvec).isSome = true ∧ Dict.get? a.attrs nEkfac = none
          rw [f1, f2 nEkfac (by decide) (by decide)]
          refine ⟨hn, ?_, h2⟩
          unfold LState.getCovarianceSvd at g1
          split at g1
          · cases g1
          · next s2 hs2 =>
            cases g1
            split at hs2
            · cases hs2; exact h1
            · exact (covarianceSvd_has L hs2).1
      exact ih h key.1 key.2.1 key.2.2

/-- **C37** is false for `corrected_eigval` too: once an influence computation has made the eigendecomposition before any EKFAC update,
the plugin raises AttributeError on every batch, whatever is done with the state afterwards. -/
theorem C37_corrected_eigval_refuted [Field K] (L : Lib K) {ops ops' : List (StateOp K)} {s₀ s₁ s : LState K} {n : PyStr}
    (h₀ : runOps L .init ops = .ok s₀) (hno : s₀.hasAttr nEigvec = false) (h₁ : s₀.getCovarianceSvd L = .ok (s₁, n))
    (h : runOps L s₁ ops' = .ok s) (c : StatCall K) : pluginUpdate L .correctedEigval s c = .error .attributeError := by
  obtain ⟨i1, i2, i3, i4⟩ := (ekReg_run L h₀ ekReg_init).fresh hno
  obtain ⟨f1, f2⟩ := getCovarianceSvd_frame L h₁
  have hv : s₁.hasAttr nEigvec = true := by
    unfold LState.getCovarianceSvd at h₁
    split at h₁
    · cases h₁
    · next s2 hs2 =>
      cases h₁
      split at hs2
      · next hc => rw [hno] at hc; simp at hc
      · exact (covarianceSvd_has L hs2).1
  obtain ⟨k1, k2⟩ := ekfac_stuck L h (by rw [f1]; exact i3) hv (by rw [f2 _ (by decide) (by decide)]; exact i4)
  exact ekfac_error L k1 k2 c

theorem cov_wf_updates [Semiring K] (L : Lib K) : ∀ {calls : List (Plugin × StatCall K)} {s s' : LState K}, updates L s calls = .ok s' →
    (∃ d, s.getAttr nCov = .ok d ∧ (Nested.node d).WF) → ∃ d, s'.getAttr nCov = .ok d ∧ (Nested.node d).WF := by
  intro calls
  induction calls with
  | nil => intro s s' h hd; cases h; exact hd
  | cons a rest ih =>
    obtain ⟨p, c⟩ := a
    intro s s' h hd
    unfold updates at h
    split at h
    · cases h
    · next s1 hs1 =>
      apply ih h
      by_cases hp : p = .covariance
      · subst hp
        obtain ⟨d, e, t0, n0, t, h1, h2, -, -, -, -, -, e', -, -, hs'⟩ := statUpdate_ok covAcc hs1
        obtain ⟨d', hd', hw⟩ := hd
        obtain rfl := Except.ok.inj (hd'.symm.trans h1)
        refine ⟨set2 d' c.name c.logType.name (.tensor t), ?_, stWF_set2 hw _ _ _⟩
        rw [hs', getAttr_setAttr, if_neg (by decide), getAttr_setAttr, if_pos rfl]
      · rw [getAttr_congr ((pluginUpdate_frame L hs1).2 nCov (by cases p <;> first | (exact absurd rfl hp) | decide))]
        exact hd

theorem updates_states [Semiring K] (L : Lib K) : ∀ {calls : List (Plugin × StatCall K)}, (∀ pc ∈ calls, pc.1 ≠ .correctedEigval) →
    ∀ {s s' : LState K}, updates L s calls = .ok s' → s'.states = s.states ∧ Dict.get? s'.attrs nEigvec = Dict.get? s.attrs nEigvec := by
  intro calls
  induction calls with
  | nil => intro _ s s' h; cases h; exact ⟨rfl, rfl⟩
  | cons a rest ih =>
    obtain ⟨p, c⟩ := a
    intro hp s s' h
    unfold updates at h
    split at h
    · cases h
    · next s1 hs1 =>
      have hp0 : p ≠ .correctedEigval := hp (p, c) List.mem_cons_self
      obtain ⟨g1, g2⟩ := ih (fun pc hpc => hp pc (List.mem_cons_of_mem _ hpc)) h
      rw [g1, g2, (pluginUpdate_states L hp0 hs1).1,
        (pluginUpdate_frame L hs1).2 _ (by cases p <;> first | (exact absurd rfl hp0) | decide)]
      exact ⟨rfl, rfl⟩

theorem normalizeDict_mem [Field K] {e : StateDict K} : ∀ {d d' : StateDict K}, normalizeDict e d = .ok d' → ∀ {k v'}, (k, v') ∈ d' →
    ∃ v, (k, v) ∈ d ∧ normalizeValue (Dict.get? e k) v = .ok v'
  | [], d', h, k, v', hv => by unfold normalizeDict at h; cases h; simp at hv
  | (k0, v0) :: rest, d', h, k, v', hv => by
    unfold normalizeDict at h
    split at h
    · cases h
    · next v1 hv1 =>
      split at h
      · cases h
      · next rest' hr =>
        cases h
        rcases List.mem_cons.1 hv with hv | hv
        · cases hv; exact ⟨v0, List.mem_cons_self, hv1⟩
        · obtain ⟨v, a, b⟩ := normalizeDict_mem hr hv
          exact ⟨v, List.mem_cons_of_mem _ a, b⟩

/-- A normalised covered state is still a table of tensors of the same kind of shape. -/
theorem covered_normalized [Field K] {z : Nat → List Nat} {width : PyStr → LogType → Nat} {dev : PyStr → LogType → Dev} {d e d' : StateDict K}
    (C : Covered z width dev d e) (h : normalizeDict e d = .ok d') :
    ∀ m v, (m, v) ∈ d' → ∃ sub, v = .node sub ∧ ∀ t w, (t, w) ∈ sub → ∃ x n, w = .leaf (.tensor x) ∧ x.shape = z n := by
  intro m v hv
  obtain ⟨v0, h0, hn⟩ := normalizeDict_mem h hv
  obtain ⟨sub, e1, rfl, he, hs⟩ := C.struct m v0 h0
  rw [he] at hn
  unfold normalizeValue at hn
  simp only at hn
  split at hn
  · cases hn
  · next sub' hsub' =>
    cases hn
    refine ⟨sub', rfl, fun t w htw => ?_⟩
    obtain ⟨w0, hw0, hnw⟩ := normalizeDict_mem hsub' htw
    obtain ⟨x, c, rfl, hc, n, hz⟩ := hs t w0 hw0
    rw [hc] at hnw
    unfold normalizeValue at hnw
    simp only [Except.ok.injEq] at hnw
    subst hnw
    exact ⟨_, n, rfl, hz⟩

/-- What makes EKFAC updates of a set of modules go through. -/
structure EkReady (width : PyStr → LogType → Nat) (dev : PyStr → LogType → Dev) (offload : Bool) (P : PyStr → Prop) (vecs ek cn : StateDict K) :
    Prop where
  vec : ∀ m, P m → ∃ ef eb, item2 vecs m (LogType.name .forward) = .ok (some (.tensor ef)) ∧
    item2 vecs m (LogType.name .backward) = .ok (some (.tensor eb)) ∧ ef.shape = [width m .forward, width m .forward] ∧
    eb.shape = [width m .backward, width m .backward] ∧ ef.dev = (if offload then .cpu else dev m .forward) ∧
    eb.dev = (if offload then .cpu else dev m .backward)
  entry : ∀ m, Dict.get? ek m = none ∨ ∃ t x, Dict.get? ek m = some (.leaf (.tensor t)) ∧ Dict.get? cn m = some (.leaf (.num x)) ∧
    t.shape = [width m .backward, width m .forward] ∧ t.dev = (if offload then .cpu else dev m .backward)

theorem ekfacAdd_succ [Semiring K] {t data ef eb : Tensor K} {n o i : Nat} (hd : data.shape = [n, o, i]) (ht : t.shape = [o, i])
    (hf : ef.shape = [i, i]) (hb : eb.shape = [o, o]) (d1 : t.dev = data.dev) (d2 : ef.dev = data.dev) (d3 : eb.dev = data.dev) :
    ∃ t', ekfacAdd t data ef eb = .ok t' ∧ t'.shape = [o, i] ∧ t'.dev = t.dev := by
  have s0 : t.size 0 = o := by simp [Tensor.size, ht]
  have s1 : t.size 1 = i := by simp [Tensor.size, ht]
  unfold ekfacAdd
  rw [hd]
  simp only
  rw [if_pos ⟨by rw [hf, s1], by rw [hb, s0], by rw [ht]; rfl, d1, d2, d3⟩]
  exact ⟨_, rfl, by rw [s0, s1]; rfl, rfl⟩

/-- One EKFAC update goes through once the eigenvectors are there. -/
theorem ekfac_step [Semiring K] (L : Lib K) {width : PyStr → LogType → Nat} {dev : PyStr → LogType → Dev} {offload : Bool} {P : PyStr → Prop}
    {s s1 : LState K} {c : StatCall K} {vecs vals ek cn : StateDict K} (h0 : ekfacPrepare L s = .ok s1) (h1 : s1.getAttr nEigvec = .ok vecs)
    (h2 : s1.getAttr nEigval = .ok vals) (h3 : s1.getAttr nEkfac = .ok ek) (h4 : s1.getAttr nEkfacCounter = .ok cn)
    (R : EkReady width dev offload P vecs ek cn) (hP : P c.name) {n : Nat}
    (hsh : c.data.shape = [n, width c.name .backward, width c.name .forward]) (hdv1 : c.data.dev = dev c.name .backward)
    (hdv2 : c.data.dev = dev c.name .forward) (ho : c.offload = offload) :
    ∃ s' ek' cn', pluginUpdate L .correctedEigval s c = .ok s' ∧ s'.hasAttr nEigvec = true ∧ s'.getAttr nEigvec = .ok vecs ∧
      s'.getAttr nEigval = .ok vals ∧ s'.getAttr nEkfac = .ok ek' ∧ s'.getAttr nEkfacCounter = .ok cn' ∧
      EkReady width dev offload P vecs ek' cn' := by
  obtain ⟨ef, eb, e1, e2, e3, e4, e5, e6⟩ := R.vec c.name hP
  -- the entry
  have hent : ∃ t cn0 x, ekfacEntry ek cn c = .ok (.leaf (.tensor t), cn0) ∧ t.shape = [width c.name .backward, width c.name .forward] ∧
      t.dev = (if offload then .cpu else dev c.name .backward) ∧ Dict.get? cn0 c.name = some (.leaf (.num x)) ∧
      ∀ m, c.name ≠ m → Dict.get? cn0 m = Dict.get? cn m := by
    rcases R.entry c.name with hn | ⟨t, x, g1, g2, g3, g4⟩
    · have g : ekfacEntry ek cn c = .ok (.leaf (.tensor (Tensor.zeros (if c.offload then .cpu else c.data.dev)
          [width c.name .backward, width c.name .forward])), Dict.set cn c.name (.leaf (.num 0))) := by
        unfold ekfacEntry
        rw [hn]
        simp [hsh, Tensor.size]
      exact ⟨_, _, 0, g, rfl, by rw [ho, hdv1]; rfl, Dict.get?_set_self _ _ _, fun m hm => Dict.get?_set_ne _ _ hm⟩
    · refine ⟨t, cn, x, ?_, g3, g4, g2, fun _ _ => rfl⟩
      unfold ekfacEntry
      rw [g1]
  obtain ⟨t, cn0, x, f1, f2, f3, f4, f5⟩ := hent
  have hadd : ∃ t', (if c.offload then (ekfacAdd (t.onDev c.data.dev) c.data (ef.onDev c.data.dev) (eb.onDev c.data.dev)).map (Tensor.onDev · .cpu)
      else ekfacAdd t c.data ef eb) = .ok t' ∧ t'.shape = [width c.name .backward, width c.name .forward] ∧
      t'.dev = (if offload then .cpu else dev c.name .backward) := by
    rw [ho]
    cases offload with
    | true =>
      obtain ⟨t', k1, k2, k3⟩ := ekfacAdd_succ (t := t.onDev c.data.dev) (ef := ef.onDev c.data.dev) (eb := eb.onDev c.data.dev) hsh f2 e3 e4
        rfl rfl rfl
      exact ⟨t'.onDev .cpu, by simp only [if_true, k1]; rfl, k2, rfl⟩
    | false =>
      simp only [Bool.false_eq_true, if_false] at f3 e5 e6 ⊢
      obtain ⟨t', k1, k2, k3⟩ := ekfacAdd_succ hsh f2 e3 e4 (by rw [f3, hdv1]) (by rw [e5, hdv2]) (by rw [e6, hdv1])
      exact ⟨t', k1, k2, by rw [k3, f3]⟩
  obtain ⟨t', k1, k2, k3⟩ := hadd
  have hrun : pluginUpdate L .correctedEigval s c = .ok ((s1.setAttr nEkfac (Dict.set ek c.name (.leaf (.tensor t')))).setAttr nEkfacCounter
      (Dict.set cn0 c.name (.leaf (.num (x + (c.data.size 0 : K)))))) := by
    show correctedEigvalUpdate L s c = _
    unfold correctedEigvalUpdate
    simp only [h0, h1, h2, h3, h4, f1, e1, e2, k1, f4]
  refine ⟨_, Dict.set ek c.name (.leaf (.tensor t')), Dict.set cn0 c.name (.leaf (.num (x + (c.data.size 0 : K)))), hrun,
    correctedEigval_has L hrun, ?_, ?_, ?_, ?_, R.vec, fun m => ?_⟩
  · rw [getAttr_setAttr, if_neg (by decide), getAttr_setAttr, if_neg (by decide)]; exact h1
  · rw [getAttr_setAttr, if_neg (by decide), getAttr_setAttr, if_neg (by decide)]; exact h2
  · rw [getAttr_setAttr, if_neg (by decide), getAttr_setAttr, if_pos rfl]
  · rw [getAttr_setAttr, if_pos rfl]
  · by_cases hm : c.name = m
    · subst hm
      right
      exact ⟨t', _, Dict.get?_set_self _ _ _, Dict.get?_set_self _ _ _, k2, k3⟩
    · rw [Dict.get?_set_ne _ _ hm, Dict.get?_set_ne _ _ hm, f5 m hm]
      exact R.entry m

theorem ekfac_steps [Semiring K] (L : Lib K) {width : PyStr → LogType → Nat} {dev : PyStr → LogType → Dev} {offload : Bool} {P : PyStr → Prop} :
    ∀ {calls : List (Plugin × StatCall K)}, Spec.EkRegular width dev offload calls → (∀ pc ∈ calls, P pc.2.name) →
    ∀ {s : LState K} {vecs vals ek cn : StateDict K}, s.hasAttr nEigvec = true → s.getAttr nEigvec = .ok vecs → s.getAttr nEigval = .ok vals →
      s.getAttr nEkfac = .ok ek → s.getAttr nEkfacCounter = .ok cn → EkReady width dev offload P vecs ek cn → ∃ s', updates L s calls = .ok s' := by
  intro calls
  induction calls with
  | nil => intro _ _ s _ _ _ _ _ _ _ _ _ _; exact ⟨s, rfl⟩
  | cons a rest ih =>
    obtain ⟨p, c⟩ := a
    intro hr hP s vecs vals ek cn h0 h1 h2 h3 h4 R
    obtain rfl : p = .correctedEigval := hr.plugin _ List.mem_cons_self
    obtain ⟨n, hn⟩ := hr.shape _ List.mem_cons_self
    obtain ⟨d1, d2⟩ := hr.dev _ List.mem_cons_self
    obtain ⟨s1, ek', cn', g0, g1, g2, g3, g4, g5, g6⟩ := ekfac_step L (s := s) (s1 := s) (c := c)
      (by unfold ekfacPrepare; rw [if_pos h0]) h1 h2 h3 h4 R (hP _ List.mem_cons_self) hn d1 d2 (hr.offload _ List.mem_cons_self)
    obtain ⟨s', hs'⟩ := ih ⟨fun pc h => hr.plugin pc (List.mem_cons_of_mem _ h), fun pc h => hr.shape pc (List.mem_cons_of_mem _ h),
      fun pc h => hr.dev pc (List.mem_cons_of_mem _ h), fun pc h => hr.offload pc (List.mem_cons_of_mem _ h)⟩
      (fun pc h => hP pc (List.mem_cons_of_mem _ h)) g1 g2 g3 g4 g5 g6
    exact ⟨s', by unfold updates; rw [g0]; exact hs'⟩

/-- **C37** for `corrected_eigval` in the documented order of use (partial: see `C37_corrected_eigval_refuted` for another order): after
logging covariances on any history of well-shaped batches and `finalize`, the plugin processes every list of gradient batches of modules
whose forward and backward covariances were logged. -/
theorem C37_corrected_eigval_partial [Field K] (L : Lib K) (hL : Spec.EighRuns L) {width : PyStr → LogType → Nat} {dev : PyStr → LogType → Dev}
    {offload : Bool} {calls ekcalls : List (Plugin × StatCall K)} (h : Spec.Regular width dev offload calls)
    (hek : Spec.EkRegular width dev offload ekcalls)
    (hcov : ∀ pc ∈ ekcalls, Spec.callsOf .covariance pc.2.name .forward calls ≠ [] ∧ Spec.callsOf .covariance pc.2.name .backward calls ≠ [])
    (dir : StateDir K) :
    ∃ s s' dir' s'', updates L .init calls = .ok s ∧ s.finalize dir = .ok (s', dir') ∧ updates L s' ekcalls = .ok s'' := by
  obtain ⟨s, hs, hready⟩ := ready_updates L h ready_init
  obtain ⟨s', dir', hfin⟩ := ready_finalize hready dir
  refine ⟨s, s', dir', ?_⟩
  suffices hmain : ∃ s'', updates L s' ekcalls = .ok s'' by
    obtain ⟨s'', h''⟩ := hmain
    exact ⟨s'', hs, hfin, h''⟩
  match ekcalls, hek, hcov with
  | [], _, _ => exact ⟨s', rfl⟩
  | (p, c) :: rest, hek, hcov =>
    have hnek : ∀ pc ∈ calls, pc.1 ≠ .correctedEigval := by
      intro pc hpc
      rcases h.plugin pc hpc with h1 | h1 | h1 <;> rw [h1] <;> decide
    obtain ⟨st1, st2⟩ := updates_states L hnek hs
    obtain ⟨nz, _⟩ := finalize_ok hfin
    obtain ⟨r1, r2, r3, r4, r5⟩ := normalizePairs_reg nz
    have hstates : s'.states = [nMean, nMeanCounter, nCov, nCovCounter, nModelModule] := by rw [r4, st1]; rfl
    have hnorm : s'.toNormalize = basePairs := by rw [r1]; exact hready.norm
    have hno : s'.hasAttr nEigvec = false := by
      unfold LState.hasAttr
      rw [normalizePairs_frame nz _ (by rw [hready.norm]; decide), st2]
      rfl
    -- the covariance table
    obtain ⟨d, e, hd, he, C⟩ := hready.cov
    obtain ⟨d1, hd1, hwf⟩ := cov_wf_updates L hs ⟨[], rfl, by rw [Nested.WF]; exact ⟨by simp, trivial⟩⟩
    obtain rfl := Except.ok.inj (hd.symm.trans hd1)
    obtain ⟨d2, e2, d', hd2, he2, hn, hd'⟩ := normalize_get (st := nCov) (cn := nCovCounter) (.inl hready.norm) nz (by decide)
    obtain rfl := Except.ok.inj (hd.symm.trans hd2)
    obtain rfl := Except.ok.inj (he.symm.trans he2)
    have hwf' := WF_normalizeDict _ _ _ hn hwf
    -- the eigendecomposition
    have a1 : nEigval ∉ s'.states := by rw [hstates]; decide
    have a2 : nEigvec ∉ (s'.registerState nEigval false true false).states := by
      rw [registerState_states _ _ _ _ _ _ (by decide), hstates]; decide
    have b1 : ((s'.registerState nEigval false true false).registerState nEigvec false true false).getAttr nCov = .ok d' := by
      rw [getAttr_congr (registerState_frame _ _ _ _ _ _ (by decide)), getAttr_congr (registerState_frame _ _ _ _ _ _ (by decide))]
      exact hd'
    have b2 : ((s'.registerState nEigval false true false).registerState nEigvec false true false).getAttr nEigval = .ok [] := by
      rw [getAttr_congr (registerState_frame _ _ _ _ _ _ (by decide))]
      exact registerState_get _ _ _ _ _ a1
    have b3 : ((s'.registerState nEigval false true false).registerState nEigvec false true false).getAttr nEigvec = .ok [] :=
      registerState_get _ _ _ _ _ a2
    obtain ⟨⟨vals, vecs⟩, hsvd⟩ := svdModules_succ L d' (fun m v hv => by
      obtain ⟨sub, h1, h2⟩ := covered_normalized C hn m v hv
      refine ⟨sub, h1, fun t w ht => ?_⟩
      obtain ⟨x, n, g1, g2⟩ := h2 t w ht
      obtain ⟨w', v', g3, _⟩ := hL x n g2
      exact ⟨x, _, g1, g3⟩) [] []
    obtain ⟨-, -, hv3, -⟩ := svdModules_ok L hsvd hwf' (fun _ => rfl) (fun _ => rfl)
    have hcs : s'.covarianceSvd L = .ok ((((s'.registerState nEigval false true false).registerState nEigvec false true false).setAttr nEigval
        vals).setAttr nEigvec vecs) := by
      unfold LState.covarianceSvd
      simp only [b1, b2, b3, hsvd]
    obtain ⟨s1, hs1⟩ : ∃ s1, ekfacPrepare L s' = .ok s1 := by
      unfold ekfacPrepare
      rw [hno, hcs]
      exact ⟨_, rfl⟩
    obtain ⟨p1, p2, p3⟩ := ekfacPrepare_fresh L hs1 hno (by rw [hstates]; decide) (by rw [hstates]; decide) hnorm
    have p4 : s1.getAttr nEigvec = .ok vecs ∧ s1.getAttr nEigval = .ok vals := by
      unfold ekfacPrepare at hs1
      rw [hno, hcs] at hs1
      simp only [Bool.false_eq_true, if_false, Except.ok.injEq] at hs1
      subst hs1
      have F : ∀ (u : LState K) (n : PyStr), nEkfac ≠ n → nEkfacCounter ≠ n → (((u.registerState nEkfac true true false).registerState nEkfacCounter
          true false false).registerNormalizePair nEkfac nEkfacCounter).getAttr n = u.getAttr n := by
        intro u n g1 g2
        apply getAttr_congr
        rw [registerNormalizePair_attrs, registerState_frame _ _ _ _ _ _ g2, registerState_frame _ _ _ _ _ _ g1]
      constructor
      · rw [F _ _ (by decide) (by decide), getAttr_setAttr, if_pos rfl]
      · rw [F _ _ (by decide) (by decide), getAttr_setAttr, if_neg (by decide), getAttr_setAttr, if_pos rfl]
    -- the eigenvectors fit
    have hvec : ∀ m lt, Spec.callsOf .covariance m lt calls ≠ [] → ∃ v, item2 vecs m (LogType.name lt) = .ok (some (.tensor v)) ∧
        v.shape = [width m lt, width m lt] ∧ v.dev = (if offload then .cpu else dev m lt) := by
      intro m lt hne
      obtain ⟨d3, e3, g1, g2, g3⟩ := updates_inv L statOf_cov hs (d0 := []) (e0 := []) rfl rfl
      obtain rfl := Except.ok.inj (hd.symm.trans g1)
      obtain ⟨t0, n0, t, W, -, -, -, -, k1, k2, -⟩ := (g3 m lt).cons hne
      obtain ⟨cc, k3, k4⟩ := (normalizeDict_item2 hn m lt.name).1 t k1
      obtain ⟨w, v, k5, k6, k7⟩ := hv3 m lt.name _ k4
      obtain ⟨k8, k9⟩ := C.entry m lt t k1
      have hshape : (t.divNum cc).shape = [width m lt, width m lt] := k8
      obtain ⟨w', v', k10, k11, k12⟩ := hL _ _ hshape
      rw [k5] at k10
      simp only [Except.ok.injEq, Prod.mk.injEq] at k10
      obtain ⟨rfl, rfl⟩ := k10
      exact ⟨v, k7, k11, by rw [k12]; exact k9⟩
    have R : EkReady width dev offload (fun m => ∃ pc ∈ (p, c) :: rest, pc.2.name = m) vecs ([] : StateDict K) [] := by
      refine ⟨fun m hm => ?_, fun m => .inl rfl⟩
      obtain ⟨pc, hpc, rfl⟩ := hm
      obtain ⟨ef, f1, f2, f3⟩ := hvec pc.2.name .forward (hcov pc hpc).1
      obtain ⟨eb, f4, f5, f6⟩ := hvec pc.2.name .backward (hcov pc hpc).2
      exact ⟨ef, eb, f1, f4, f2, f5, f3, f6⟩
    obtain rfl : p = .correctedEigval := hek.plugin _ List.mem_cons_self
    obtain ⟨n, hsh⟩ := hek.shape _ List.mem_cons_self
    obtain ⟨v1, v2⟩ := hek.dev _ List.mem_cons_self
    obtain ⟨s2, ek', cn', g0, g1, g2, g3, g4, g5, g6⟩ := ekfac_step L hs1 p4.1 p4.2 p1 p2 R ⟨_, List.mem_cons_self, rfl⟩ hsh v1 v2
      (hek.offload _ List.mem_cons_self)
    obtain ⟨s3, hs3⟩ := ekfac_steps L (calls := rest) ⟨fun pc h => hek.plugin pc (List.mem_cons_of_mem _ h),
      fun pc h => hek.shape pc (List.mem_cons_of_mem _ h), fun pc h => hek.dev pc (List.mem_cons_of_mem _ h),
      fun pc h => hek.offload pc (List.mem_cons_of_mem _ h)⟩ (fun pc h => ⟨pc, List.mem_cons_of_mem _ h, rfl⟩) g1 g2 g3 g4 g5 g6
    exact ⟨s3, by unfold updates; rw [g0]; exact hs3⟩

/-! ### A concrete run

A linear layer with two inputs and one output. The activations `(3, 4)` and `(-8, 6)` have a covariance with the rational eigenvectors
`(3, 4) / 5` and `(-4, 3) / 5`. -/

namespace ExEkfac

/-- `eigh` for the covariances of the example, and for other tensors something of the same shape. -/
def eigh (x : Tensor Rat) : Tensor Rat × Tensor Rat :=
  if x.shape = [2, 2] then (⟨x.dev, [2], [25 / 2, 50], rfl⟩, ⟨x.dev, [2, 2], [3 / 5, -4 / 5, 4 / 5, 3 / 5], rfl⟩)
  else (Tensor.zeros x.dev [x.size 0], Tensor.ofFn2 x.dev (x.size 0) (x.size 0) fun i j => if i = j then 1 else 0)

def lib : Lib Rat := ⟨fun x => .ok (eigh x), fun _ => .error .runtimeError⟩

theorem eighRuns : Spec.EighRuns lib := by
  intro x n hn
  have s0 : x.size 0 = n := by simp [Tensor.size, hn]
  refine ⟨(eigh x).1, (eigh x).2, rfl, ?_, ?_⟩ <;> unfold eigh <;> split
  · next h => rw [hn] at h; rw [h]
  · rw [s0]; rfl
  · rfl
  · rfl

def nm : PyStr := ['f', 'c']
def fwd : StatCall Rat := ⟨some .linear, nm, .forward, ⟨.cuda 0, [2, 2], [3, 4, -8, 6], rfl⟩, none, true⟩
def bwd : StatCall Rat := ⟨some .linear, nm, .backward, ⟨.cuda 0, [2, 1], [1, 2], rfl⟩, none, true⟩
def grad : StatCall Rat := ⟨none, nm, .grad, ⟨.cuda 0, [2, 1, 2], [3, 4, -16, 12], rfl⟩, none, true⟩

def calls : List (Plugin × StatCall Rat) := [(.covariance, fwd), (.covariance, bwd)]
def ekcalls : List (Plugin × StatCall Rat) := [(.correctedEigval, grad)]

def width : PyStr → LogType → Nat := fun _ lt => if lt = .forward then 2 else 1

theorem regular : Spec.Regular width (fun _ _ => .cuda 0) true calls := by
  constructor <;> intro pc hpc <;> simp only [calls, List.mem_cons, List.not_mem_nil, or_false] at hpc <;> rcases hpc with rfl | rfl
  all_goals first | decide +kernel | exact ⟨by decide, by decide⟩

theorem ekRegular : Spec.EkRegular width (fun _ _ => .cuda 0) true ekcalls := by
  constructor <;> intro pc hpc <;> simp only [ekcalls, List.mem_cons, List.not_mem_nil, or_false] at hpc <;> rcases hpc with rfl
  · rfl
  · exact ⟨2, rfl⟩
  · exact ⟨rfl, rfl⟩
  · rfl

/-- The hypotheses of the theorems on `corrected_eigval` are met. -/
example (dir : StateDir Rat) : ∃ s s' dir' s'', updates lib .init calls = .ok s ∧ s.finalize dir = .ok (s', dir') ∧
    updates lib s' ekcalls = .ok s'' :=
  C37_corrected_eigval_partial lib eighRuns regular ekRegular (by
    intro pc hpc
    simp only [ekcalls, List.mem_cons, List.not_mem_nil, or_false] at hpc
    rcases hpc with rfl
    exact ⟨by decide +kernel, by decide +kernel⟩) dir

/-- The corrected eigenvalues of the example: the gradients are `5` times the first and `20` times the second eigenvector. -/
example : (match updates lib .init calls with
    | .ok s => match s.finalize ⟨[], none⟩ with
      | .ok (s, _) => match updates lib s ekcalls with
        | .ok s => match s.finalize ⟨[], none⟩ with
          | .ok (s, _) => Spec.tensorAt s.attrs nEkfac [nm]
          | .error _ => none
        | .error _ => none
      | .error _ => none
    | .error _ => none) = some ⟨.cpu, [1, 2], [25 / 2, 200], rfl⟩ := by
  decide +kernel

end ExEkfac

end Logix
