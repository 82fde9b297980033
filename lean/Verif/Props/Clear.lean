/-
C38: what `clear` does to later statistics.
-/
import Verif.Lemmas.Registry

namespace Logix
variable {K : Type}

/-- A statistic's update depends on its own two attributes only. -/
theorem statUpdate_agree [Semiring K] {st cn : PyStr} {z : Nat → List Nat} {acc : Tensor K → Tensor K → Py (Tensor K)} {s u : LState K}
    {c : StatCall K} (h1 : s.getAttr st = u.getAttr st) (h2 : s.getAttr cn = u.getAttr cn) :
    (∃ d e, statUpdate st cn z acc s c = .ok ((s.setAttr st d).setAttr cn e) ∧ statUpdate st cn z acc u c = .ok ((u.setAttr st d).setAttr cn e)) ∨
      ∃ err, statUpdate st cn z acc s c = .error err ∧ statUpdate st cn z acc u c = .error err := by
  unfold statUpdate
  rw [h1, h2]
  generalize u.getAttr st = a
  generalize u.getAttr cn = b
  cases a with
  | error _ => exact .inr ⟨_, rfl, rfl⟩
  | ok d =>
    cases b with
    | error _ => exact .inr ⟨_, rfl, rfl⟩
    | ok e =>
      simp only
      generalize make2d c.data c.module c.logType = x
      cases x with
      | error _ => exact .inr ⟨_, rfl, rfl⟩
      | ok x =>
        simp only
        generalize item2 d c.name c.logType.name = v
        cases v with
        | error _ => exact .inr ⟨_, rfl, rfl⟩
        | ok v =>
          simp only
          split
          · exact .inr ⟨_, rfl, rfl⟩
          · split
            · split
              · exact .inr ⟨_, rfl, rfl⟩
              · split
                · exact .inl ⟨_, _, rfl, rfl⟩
                · exact .inr ⟨_, rfl, rfl⟩
            · exact .inr ⟨_, rfl, rfl⟩

/-- The four attributes of mean and covariance. -/
def statNames : List PyStr := [nMean, nMeanCounter, nCov, nCovCounter]

/-- Two states that have the same means and covariances. -/
def Agree (s u : LState K) : Prop := ∀ n ∈ statNames, Dict.get? s.attrs n = Dict.get? u.attrs n

theorem Agree.getAttr {s u : LState K} (h : Agree s u) {n : PyStr} (hn : n ∈ statNames) : s.getAttr n = u.getAttr n := getAttr_congr (h n hn)

theorem Agree.set {s u : LState K} (h : Agree s u) (n : PyStr) (d : StateDict K) : Agree (s.setAttr n d) (u.setAttr n d) := by
  intro n' hn'
  rw [get?_setAttr, get?_setAttr, h n' hn']

theorem plugin_agree [Semiring K] (L : Lib K) {p : Plugin} (hp : p = .log ∨ p = .mean ∨ p = .covariance) {s u : LState K} (h : Agree s u)
    (c : StatCall K) : (∃ s' u', pluginUpdate L p s c = .ok s' ∧ pluginUpdate L p u c = .ok u' ∧ Agree s' u' ∧
        s'.toSave = s.toSave ∧ s'.toNormalize = s.toNormalize ∧ (∀ n, n ∉ statNames → Dict.get? s'.attrs n = Dict.get? s.attrs n)) ∨
      ∃ err, pluginUpdate L p s c = .error err ∧ pluginUpdate L p u c = .error err := by
  have frame : ∀ st cn d e, st ∈ statNames → cn ∈ statNames → ∀ n, n ∉ statNames →
      Dict.get? ((s.setAttr st d).setAttr cn e).attrs n = Dict.get? s.attrs n := by
    intro st cn d e h1 h2 n hn
    rw [get?_setAttr, if_neg (fun h => hn (by rw [← h]; exact h2)), get?_setAttr, if_neg (fun h => hn (by rw [← h]; exact h1))]
  rcases hp with rfl | rfl | rfl
  · exact .inl ⟨s, u, rfl, rfl, h, rfl, rfl, fun _ _ => rfl⟩
  · rcases statUpdate_agree (z := fun w => [w]) (acc := fun t x => t.add_ x.sum0) (c := c) (h.getAttr (n := nMean) (by decide))
      (h.getAttr (n := nMeanCounter) (by decide)) with ⟨d, e, h1, h2⟩ | h
    · exact .inl ⟨_, _, h1, h2, (h.set _ _).set _ _, rfl, rfl, frame _ _ _ _ (by decide) (by decide)⟩
    · exact .inr h
  · rcases statUpdate_agree (z := fun w => [w, w]) (acc := fun t x => t.addmmT_ x) (c := c) (h.getAttr (n := nCov) (by decide))
      (h.getAttr (n := nCovCounter) (by decide)) with ⟨d, e, h1, h2⟩ | h
    · exact .inl ⟨_, _, h1, h2, (h.set _ _).set _ _, rfl, rfl, frame _ _ _ _ (by decide) (by decide)⟩
    · exact .inr h

/-- The same updates on states with the same means and covariances. -/
theorem updates_agree [Semiring K] (L : Lib K) : ∀ {calls : List (Plugin × StatCall K)}, (∀ pc ∈ calls, pc.1 = .log ∨ pc.1 = .mean ∨ pc.1 = .covariance) →
    ∀ {s u : LState K}, Agree s u → (∃ s' u', updates L s calls = .ok s' ∧ updates L u calls = .ok u' ∧ Agree s' u' ∧
        s'.toSave = s.toSave ∧ s'.toNormalize = s.toNormalize ∧ (∀ n, n ∉ statNames → Dict.get? s'.attrs n = Dict.get? s.attrs n)) ∨
      ∃ err, updates L s calls = .error err ∧ updates L u calls = .error err := by
  intro calls
  induction calls with
  | nil => intro _ s u h; exact .inl ⟨s, u, rfl, rfl, h, rfl, rfl, fun _ _ => rfl⟩
  | cons pc rest ih =>
    intro hp s u h
    obtain ⟨p, c⟩ := pc
    unfold updates
    rcases plugin_agree L (hp _ List.mem_cons_self) h c with ⟨s1, u1, h1, h2, h3, h4, h5, h6⟩ | ⟨err, h1, h2⟩
    · rw [h1, h2]
      rcases ih (fun pc hpc => hp pc (List.mem_cons_of_mem _ hpc)) h3 with ⟨s2, u2, k1, k2, k3, k4, k5, k6⟩ | k
      · exact .inl ⟨s2, u2, k1, k2, k3, k4.trans h4, k5.trans h5, fun n hn => (k6 n hn).trans (h6 n hn)⟩
      · exact .inr k
    · rw [h1, h2]; exact .inr ⟨err, rfl, rfl⟩

theorem normalizePairs_append [Field K] : ∀ (a b : List (PyStr × PyStr)) (s : LState K),
    normalizePairs s (a ++ b) = match normalizePairs s a with | .error e => .error e | .ok s => normalizePairs s b := by
  intro a b
  induction a with
  | nil => intro s; rfl
  | cons p rest ih =>
    intro s
    obtain ⟨st, cn⟩ := p
    simp only [List.cons_append, normalizePairs]
    split
    · split
      · rfl
      · exact ih _
    · rfl

theorem normalizeBase_agree [Field K] {s u : LState K} (h : Agree s u) :
    (∃ s' u', normalizePairs s basePairs = .ok s' ∧ normalizePairs u basePairs = .ok u' ∧ Agree s' u' ∧
      (∀ n, n ∉ statNames → Dict.get? s'.attrs n = Dict.get? s.attrs n)) ∨
      ∃ err, normalizePairs s basePairs = .error err ∧ normalizePairs u basePairs = .error err := by
  have one : ∀ (st cn : PyStr) (rest : List (PyStr × PyStr)) (s u : LState K), st ∈ statNames → cn ∈ statNames → Agree s u →
      (∃ d, normalizePairs s ((st, cn) :: rest) = normalizePairs (s.setAttr st d) rest ∧
        normalizePairs u ((st, cn) :: rest) = normalizePairs (u.setAttr st d) rest) ∨
      ∃ err, normalizePairs s ((st, cn) :: rest) = .error err ∧ normalizePairs u ((st, cn) :: rest) = .error err := by
    intro st cn rest s u h1 h2 h
    simp only [normalizePairs]
    rw [h.getAttr h1, h.getAttr h2]
    generalize u.getAttr st = a
    generalize u.getAttr cn = b
    cases a with
    | error _ => exact .inr ⟨_, rfl, rfl⟩
    | ok d =>
      cases b with
      | error _ => exact .inr ⟨_, rfl, rfl⟩
      | ok e =>
        simp only
        generalize normalizeDict e d = r
        cases r with
        | error err => exact .inr ⟨err, rfl, rfl⟩
        | ok d' => exact .inl ⟨d', rfl, rfl⟩
  unfold basePairs
  rcases one nMean nMeanCounter [(nCov, nCovCounter)] s u (by decide) (by decide) h with ⟨d, h1, h2⟩ | h
  · rw [h1, h2]
    rcases one nCov nCovCounter [] _ _ (by decide) (by decide) (h.set nMean d) with ⟨d', k1, k2⟩ | k
    · rw [k1, k2]
      refine .inl ⟨_, _, rfl, rfl, (h.set _ _).set _ _, fun n hn => ?_⟩
      rw [get?_setAttr, if_neg (fun h => hn (by rw [← h]; decide)), get?_setAttr, if_neg (fun h => hn (by rw [← h]; decide))]
    · exact .inr k
  · exact .inr h

/-- Saved files of registered states. -/
theorem saveState_get {s : LState K} {dir dir' : StateDir K} (h : s.saveState dir = .ok dir') {n : PyStr} (hn : n ∈ s.toSave) :
    Dict.get? dir'.files n = Dict.get? s.attrs n := by
  unfold LState.saveState at h
  split at h
  · cases h
  · next fs hfs =>
    cases h
    show Dict.get? fs n = _
    rw [saveStates_get hfs n, if_pos hn]

/-- A state whose means and covariances are empty, and whose registries are in order, is like new for these statistics. -/
theorem likeNew [Field K] (L : Lib K) {s₁ : LState K} (hag : Agree s₁ (LState.init : LState K))
    (hnorm : s₁.toNormalize = basePairs ∨ (s₁.toNormalize = basePairs ++ [(nEkfac, nEkfacCounter)] ∧ s₁.getAttr nEkfac = .ok [] ∧
      s₁.getAttr nEkfacCounter = .ok [])) (hsome : ∀ n ∈ s₁.toSave, (Dict.get? s₁.attrs n).isSome = true)
    (hsave : nMean ∈ s₁.toSave ∧ nCov ∈ s₁.toSave) : Spec.LikeNew L s₁ := by
  intro calls hp
  rcases updates_agree L hp hag with ⟨v, u, h1, h2, h3, h4, h5, h6⟩ | ⟨err, h1, h2⟩
  · rw [h1, h2]
    refine ⟨fun err => ⟨nofun, nofun⟩, ?_⟩
    intro v0 u0 hv0 hu0
    cases hv0
    cases hu0
    refine ⟨h3, fun dir => ?_⟩
    have ru := reg_init.updates h2
    have nu : u.toNormalize = basePairs := by
      rcases updates_agree L hp (s := LState.init) (u := LState.init) (fun _ _ => rfl) with ⟨a, b, g1, g2, -, -, g3, -⟩ | ⟨err, g1, g2⟩
      · rw [h2] at g1; cases g1; exact g3
      · rw [h2] at g1; cases g1
    -- the normalisation of `v` is that of the two pairs, followed by that of empty tables
    have key : v.normalize = normalizePairs v basePairs ∨
        (∃ s', normalizePairs v basePairs = .ok s' ∧ v.normalize = .ok (s'.setAttr nEkfac [])) ∨
        ∃ err, normalizePairs v basePairs = .error err ∧ v.normalize = .error err := by
      unfold LState.normalize
      rw [h5]
      rcases hnorm with hn | ⟨hn, e1, e2⟩
      · rw [hn]; exact .inl rfl
      · right
        rw [hn, normalizePairs_append]
        cases hb : normalizePairs v basePairs with
        | error err => exact .inr ⟨err, rfl, rfl⟩
        | ok s' =>
          left
          have hE : ∀ n, n = nEkfac ∨ n = nEkfacCounter → s'.getAttr n = .ok [] := by
            intro n hn'
            rw [getAttr_eq, normalizePairs_frame hb n (by rcases hn' with rfl | rfl <;> decide), h6 n (by rcases hn' with rfl | rfl <;> decide)]
            rcases hn' with rfl | rfl
            · exact getAttr_eq.1 e1
            · exact getAttr_eq.1 e2
          refine ⟨s', rfl, ?_⟩
          simp only [normalizePairs, hE nEkfac (.inl rfl), hE nEkfacCounter (.inr rfl), normalizeDict]
    have nu' : u.normalize = normalizePairs u basePairs := by unfold LState.normalize; rw [nu]
    rcases normalizeBase_agree h3 with ⟨v', u', k1, k2, k3, k4⟩ | ⟨err, k1, k2⟩
    · have ru' : Reg u' := ru.normalizePairs k2
      have hsv : ∀ n ∈ s₁.toSave, (Dict.get? v'.attrs n).isSome = true := by
        intro n hn
        by_cases hns : n ∈ statNames
        · rw [k3 n hns]
          exact (ru'.attrs n).1 (ru'.base n (by clear hn; revert n; decide))
        · rw [k4 n hns, h6 n hns]; exact hsome n hn
      have hv : ∃ v'', v.normalize = .ok v'' ∧ v''.toSave = s₁.toSave ∧ (∀ n ∈ statNames, Dict.get? v''.attrs n = Dict.get? v'.attrs n) ∧
          ∀ n ∈ s₁.toSave, (Dict.get? v''.attrs n).isSome = true := by
        have ht : v'.toSave = s₁.toSave := by rw [(normalizePairs_reg k1).2.1, h4]
        rcases key with key | ⟨s', g1, g2⟩ | ⟨err, g1, g2⟩
        · exact ⟨v', by rw [key, k1], ht, fun _ _ => rfl, hsv⟩
        · rw [k1] at g1
          cases g1
          refine ⟨_, g2, ht, fun n hn => ?_, fun n hn => ?_⟩
          · rw [get?_setAttr, if_neg (by rintro rfl; revert hn; decide)]
          · rw [get?_setAttr]
            split
            · rfl
            · exact hsv n hn
        · rw [k1] at g1; cases g1
      obtain ⟨v'', hv1, hv2, hv3, hv4⟩ := hv
      obtain ⟨dv, hdv⟩ : ∃ d, v.finalize dir = .ok (v'', d) := by
        obtain ⟨fs, hfs⟩ := saveStates_succ (s := v'') (names := v''.toSave) (by rw [hv2]; exact hv4) dir.files
        unfold LState.finalize LState.saveState
        rw [hv1]
        simp only [hfs]
        exact ⟨_, rfl⟩
      obtain ⟨du, hdu⟩ : ∃ d, u.finalize dir = .ok (u', d) := by
        obtain ⟨d, hd⟩ := ru'.save_succ dir
        exact ⟨d, by unfold LState.finalize; rw [nu', k2]; simp only [hd]⟩
      rw [hdv, hdu]
      refine ⟨fun err => ⟨nofun, nofun⟩, ?_⟩
      intro a b c d hac hbd n hn
      cases hac
      cases hbd
      have hns : n ∈ statNames := by revert n; decide
      have heq : Dict.get? v''.attrs n = Dict.get? u'.attrs n := by rw [hv3 n hns, k3 n hns]
      refine ⟨heq, ?_⟩
      have hin : ∀ w : LState K, nMean ∈ w.toSave ∧ nCov ∈ w.toSave → n ∈ w.toSave := by
        intro w hw
        simp only [List.mem_cons, List.not_mem_nil, or_false] at hn
        rcases hn with rfl | rfl
        · exact hw.1
        · exact hw.2
      rw [saveState_get (finalize_ok hdv).2 (hin _ (by rw [hv2]; exact hsave)),
        saveState_get (finalize_ok hdu).2 (hin _ ⟨ru'.saved.1, ru'.saved.2.1⟩), heq]
    · have hu : u.finalize dir = .error err := by unfold LState.finalize; rw [nu', k2]
      have hv : v.finalize dir = .error err := by
        unfold LState.finalize
        rcases key with key | ⟨s', g1, _⟩ | ⟨err', g1, g2⟩
        · rw [key, k1]
        · rw [k1] at g1; cases g1
        · rw [k1] at g1; cases g1; rw [g2]
      rw [hu, hv]
      exact ⟨fun _ => Iff.rfl, nofun⟩
  · rw [h1, h2]
    exact ⟨fun _ => Iff.rfl, nofun⟩

/-- **C38**, the part that holds: after any history, `clear` succeeds and keeps the table of tracked modules; logging means and covariances
then gives the same results as in a new instance. -/
theorem C38_clear_partial [Field K] (L : Lib K) {ops : List (StateOp K)} {s : LState K} (h : runOps L .init ops = .ok s) :
    ∃ s₁, s.clear = .ok s₁ ∧ Dict.get? s₁.attrs nModelModule = Dict.get? s.attrs nModelModule ∧ Spec.LikeNew L s₁ := by
  have hr := reg_init.run h
  obtain ⟨s₁, hs₁⟩ := hr.clear_succ (names := s.states) (fun n hn => hn)
  have hget := clearNames_get hs₁
  rw [hr.keep] at hget
  have r₁ := hr.clearNames hs₁
  refine ⟨s₁, hs₁, by rw [hget, if_neg (by simp)], likeNew L ?_ ?_ (fun n hn => (r₁.attrs n).1 (r₁.save n hn)) ⟨r₁.saved.1, r₁.saved.2.1⟩⟩
  · intro n hn
    have hb : n ∈ s.states := hr.base n (by revert n; decide)
    have hm : n ∉ [nModelModule] := by clear hb; revert n; decide
    rw [hget n, if_pos ⟨hb, hm⟩]
    simp only [statNames, List.mem_cons, List.not_mem_nil, or_false] at hn
    rcases hn with rfl | rfl | rfl | rfl <;> rfl
  · rw [(clearNames_reg hs₁).1]
    rcases normReg_init.run h with hn | hn
    · exact .inl hn
    · have hp := hr.pairs (nEkfac, nEkfacCounter) (by rw [hn]; simp)
      refine .inr ⟨hn, ?_, ?_⟩ <;> rw [getAttr_eq, hget]
      · rw [if_pos ⟨hp.1, by decide⟩]
      · rw [if_pos ⟨hp.2, by decide⟩]

/-! ### What `clear` breaks -/

/-- Without eigenvectors in the table the EKFAC plugin raises. -/
theorem ekfac_empty [Semiring K] (L : Lib K) {s : LState K} (h : Dict.get? s.attrs nEigvec = some []) (c : StatCall K) :
    ∃ e, pluginUpdate L .correctedEigval s c = .error e := by
  cases hu : pluginUpdate L .correctedEigval s c with
  | error e => exact ⟨e, rfl⟩
  | ok s' =>
    obtain ⟨s1, vecs, vals, ek, cn, t, cn', ef, eb, t', x, h0, h1, -, -, -, -, h6, -, -, -, -⟩ := correctedEigval_ok L hu
    unfold ekfacPrepare at h0
    rw [if_pos (by unfold LState.hasAttr; rw [h]; rfl)] at h0
    cases h0
    rw [getAttr_eq, h] at h1
    cases h1
    simp [item2] at h6

theorem eigvec_stays_empty [Field K] (L : Lib K) : ∀ {ops : List (StateOp K)} {s s' : LState K}, runOps L s ops = .ok s' → Reg s → NormReg s →
    Dict.get? s.attrs nEigvec = some [] → Dict.get? s'.attrs nEigvec = some [] := by
  intro ops
  induction ops with
  | nil => intro s s' h _ _ h1; cases h; exact h1
  | cons o rest ih =>
    intro s s' h hr hn h1
    unfold runOps at h
    split at h
    · cases h
    · next s1 hs1 =>
      refine ih h (hr.step hs1) (hn.step hs1) ?_
      cases o with
      | update p c =>
        have hs1 : pluginUpdate L p s c = .ok s1 := hs1
        by_cases hp : p = .correctedEigval
        · subst hp
          obtain ⟨e, he⟩ := ekfac_empty L h1 c
          rw [he] at hs1
          cases hs1
        · rw [(pluginUpdate_frame L hs1).2 nEigvec (by cases p <;> first | (exact absurd rfl hp) | decide)]
          exact h1
      | finalize dir =>
        obtain ⟨⟨a, b⟩, g1, g2⟩ := Except.map_ok hs1
        subst g2
        show Dict.get? a.attrs nEigvec = _
        rw [normalizePairs_frame (finalize_ok g1).1 nEigvec (by rcases hn with hn | hn <;> rw [hn] <;> decide)]
        exact h1
      | clear => rw [clearNames_get hs1]; split <;> first | rfl | exact h1
      | inverse damping =>
        obtain ⟨⟨a, b⟩, g1, g2⟩ := Except.map_ok hs1
        subst g2
        show Dict.get? a.attrs nEigvec = _
        rw [(getCovarianceInverse_frame L g1).2 nEigvec (by decide)]
        exact h1
      | svd =>
        obtain ⟨⟨a, b⟩, g1, g2⟩ := Except.map_ok hs1
        subst g2
        have hv : s.hasAttr nEigvec = true := by unfold LState.hasAttr; rw [h1]; rfl
        have hval : s.hasAttr nEigval = true := (hr.attrs _).1 (hr.eig ((hr.attrs _).2 hv))
        unfold LState.getCovarianceSvd at g1
        rw [hv, hval] at g1
        simp only [Bool.and_self, if_true] at g1
        cases g1
        exact h1

/-- **C38** is false for the eigendecomposition: if the eigenvectors had been computed before `clear`, the table of eigenvectors stays empty
and EKFAC updates fail for ever after, whatever is logged; in a new instance they work (`C37_corrected_eigval_partial`). -/
theorem C38_eigvec_stays_empty [Field K] (L : Lib K) {ops ops' : List (StateOp K)} {s s₁ s₂ : LState K} (h : runOps L .init ops = .ok s)
    (hv : s.hasAttr nEigvec = true) (hc : s.clear = .ok s₁) (h' : runOps L s₁ ops' = .ok s₂) :
    Dict.get? s₂.attrs nEigvec = some [] ∧ ∀ c, ∃ e, pluginUpdate L .correctedEigval s₂ c = .error e := by
  have hr := reg_init.run h
  have h0 : Dict.get? s₁.attrs nEigvec = some [] := by
    rw [clearNames_get hc, if_pos ⟨(hr.attrs _).2 hv, by rw [hr.keep]; decide⟩]
  have r₁ : Reg s₁ := hr.clearNames hc
  have n₁ : NormReg s₁ := by unfold NormReg; rw [(clearNames_reg hc).1]; exact normReg_init.run h
  have := eigvec_stays_empty L h' r₁ n₁ h0
  exact ⟨this, ekfac_empty L this⟩

namespace ExClear

/-- Covariances, then EKFAC. -/
def ops : List (StateOp Rat) :=
  [.update .covariance ExEkfac.fwd, .update .covariance ExEkfac.bwd, .finalize ⟨[], none⟩, .update .correctedEigval ExEkfac.grad]

def run : Option (LState Rat) := match runOps ExEkfac.lib .init ops with | .ok s => some s | .error _ => none

/-- The run works in a new instance, and makes eigenvectors. -/
theorem works : ∃ s, runOps ExEkfac.lib .init ops = .ok s ∧ s.hasAttr nEigvec = true := by
  have h : (match runOps ExEkfac.lib .init ops with | .ok s => s.hasAttr nEigvec | .error _ => false) = true := by decide +kernel
  split at h
  · next s hs => exact ⟨s, hs, h⟩
  · cases h

end ExClear

/-- **C38** is false: a run that works in a new instance fails in a cleared one. -/
theorem C38_refuted : ¬ (∀ (L : Lib Rat) (ops ops' : List (StateOp Rat)) (s s₁ u : LState Rat), runOps L .init ops = .ok s → s.clear = .ok s₁ →
    runOps L .init ops' = .ok u → ∃ v, runOps L s₁ ops' = .ok v) := by
  intro H
  obtain ⟨s, hs, hv⟩ := ExClear.works
  obtain ⟨s₁, hs₁, -⟩ := C38_clear_partial ExEkfac.lib hs
  obtain ⟨v, hv'⟩ := H _ _ _ _ _ _ hs hs₁ hs
  unfold ExClear.ops at hv'
  have split4 : ∀ (a b c d : StateOp Rat), runOps ExEkfac.lib s₁ [a, b, c, d] = .ok v → ∃ w, runOps ExEkfac.lib s₁ [a, b, c] = .ok w ∧
      stepOp ExEkfac.lib w d = .ok v := by
    intro a b c d h
    simp only [runOps] at h ⊢
    split at h
    · cases h
    · split at h
      · cases h
      · split at h
        · cases h
        · next w hw =>
          split at h
          · cases h
          · next v' hv' => cases h; exact ⟨w, by simp_all, hv'⟩
  obtain ⟨w, h1, h2⟩ := split4 _ _ _ _ hv'
  obtain ⟨e, he⟩ := (C38_eigvec_stays_empty ExEkfac.lib hs hv hs₁ h1).2 ExEkfac.grad
  rw [show stepOp ExEkfac.lib w (.update .correctedEigval ExEkfac.grad) = pluginUpdate ExEkfac.lib .correctedEigval w ExEkfac.grad from rfl, he] at h2
  cases h2

end Logix
