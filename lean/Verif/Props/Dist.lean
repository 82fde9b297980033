/-
Several processes: C34, C84.
-/
import Verif.Lemmas.Dist
import Verif.Props.Stats
import Verif.Props.Runs
import Mathlib.Algebra.BigOperators.Group.List.Basic

namespace Logix
variable {K : Type}

theorem mem_firstSeen {α : Type} [DecidableEq α] (a : α) : ∀ l : List α, a ∈ Spec.firstSeen l ↔ a ∈ l := by
  intro l
  induction l with
  | nil => rfl
  | cons b rest ih =>
    simp only [Spec.firstSeen, List.mem_cons, List.mem_filter, ih, ne_eq, decide_not, Bool.not_eq_eq_eq_not, Bool.not_true, decide_eq_false_iff_not]
    by_cases h : a = b <;> simp [h]

theorem mem_order [Semiring K] (p : Plugin) (m : PyStr) (lt : LogType) (calls : List (Plugin × StatCall K)) :
    (m, lt) ∈ Spec.order p calls ↔ Spec.callsOf p m lt calls ≠ [] := by
  unfold Spec.order Spec.callsOf
  rw [mem_grouped _ _ _ (Nat.le_refl _), mem_firstSeen]
  simp only [List.mem_map, List.mem_filter, decide_eq_true_eq, Prod.mk.injEq, ne_eq, List.map_eq_nil_iff, List.filter_eq_nil_iff, not_forall]
  constructor
  · rintro ⟨pc, ⟨h1, h2⟩, h3, h4⟩; exact ⟨pc, h1, by simp [h2, h3, h4]⟩
  · rintro ⟨pc, h1, h2⟩
    simp only [not_not] at h2
    exact ⟨pc, ⟨h1, h2.1⟩, h2.2.1, h2.2.2⟩

/-- The statistics of the base pairs do not touch the registries. -/
theorem updates_toSync [Semiring K] (L : Lib K) : ∀ {calls : List (Plugin × StatCall K)}, (∀ pc ∈ calls, pc.1 = .log ∨ pc.1 = .mean ∨ pc.1 = .covariance) →
    ∀ {s s' : LState K}, updates L s calls = .ok s' → s'.toSync = s.toSync ∧ s'.toNormalize = s.toNormalize ∧ s'.toSave = s.toSave := by
  intro calls
  induction calls with
  | nil => intro _ s s' h; cases h; exact ⟨rfl, rfl, rfl⟩
  | cons a rest ih =>
    intro hp s s' h
    unfold updates at h
    split at h
    · cases h
    · next s1 hs1 =>
      have key : s1.toSync = s.toSync ∧ s1.toNormalize = s.toNormalize ∧ s1.toSave = s.toSave := by
        obtain ⟨p, c⟩ := a
        rcases hp _ List.mem_cons_self with h1 | h1 | h1
        · simp only at h1; subst h1; cases hs1; exact ⟨rfl, rfl, rfl⟩
        · simp only at h1; subst h1
          obtain ⟨d, e, t0, n0, t, -, -, -, -, -, -, -, e', -, -, hs'⟩ := statUpdate_ok meanAcc hs1
          rw [hs']; exact ⟨rfl, rfl, rfl⟩
        · simp only at h1; subst h1
          obtain ⟨d, e, t0, n0, t, -, -, -, -, -, -, -, e', -, -, hs'⟩ := statUpdate_ok covAcc hs1
          rw [hs']; exact ⟨rfl, rfl, rfl⟩
      obtain ⟨i1, i2, i3⟩ := ih (fun pc hpc => hp pc (List.mem_cons_of_mem _ hpc)) h
      exact ⟨i1.trans key.1, i2.trans key.2.1, i3.trans key.2.2⟩

theorem normalizeAll_ok [Field K] : ∀ {ss ss' : List (LState K)}, normalizeAll ss = .ok ss' → ss'.length = ss.length ∧
    ∀ (i : Nat) (s' : LState K), ss'[i]? = some s' → ∃ s, ss[i]? = some s ∧ s.normalize = .ok s' := by
  intro ss
  induction ss with
  | nil => intro ss' h; cases h; exact ⟨rfl, fun i s h => by simp at h⟩
  | cons u rest ih =>
    intro ss' h
    simp only [normalizeAll] at h
    split at h
    · next v vs h1 h2 =>
      cases h
      obtain ⟨i1, i2⟩ := ih h2
      refine ⟨by simp [i1], fun i s' hs => ?_⟩
      cases i with
      | zero => simp only [List.getElem?_cons_zero, Option.some.injEq] at hs ⊢; exact ⟨u, rfl, hs ▸ h1⟩
      | succ i => simpa using i2 i s' (by simpa using hs)
    · cases h
    · cases h

theorem finalizeDist_ok [Field K] {ss ss' : List (LState K)} {dir dir' : StateDir K} (h : finalizeDist ss dir = .ok (ss', dir')) (hw : 1 < ss.length) :
    ∃ ss₁, synchronize ss = .ok ss₁ ∧ normalizeAll ss₁ = .ok ss' ∧ ∀ s rest, ss' = s :: rest → s.saveState dir = .ok dir' := by
  unfold finalizeDist at h
  rw [if_pos hw] at h
  cases h1 : synchronize ss with
  | error _ => simp only [h1] at h; cases h
  | ok ss₁ =>
    simp only [h1] at h
    cases h2 : normalizeAll ss₁ with
    | error _ => simp only [h2] at h; cases h
    | ok ss₂ =>
      simp only [h2] at h
      cases ss₂ with
      | nil => cases h; exact ⟨ss₁, rfl, h2, fun s rest hh => by cases hh⟩
      | cons s rest =>
        simp only at h
        cases h3 : s.saveState dir with
        | error _ => simp only [h3] at h; cases h
        | ok dir₂ =>
          simp only [h3] at h
          cases h
          refine ⟨ss₁, rfl, h2, fun s' rest' hh => ?_⟩
          cases hh
          exact h3

theorem gather {α β γ : Type} {R : α → β → Prop} {P : α → γ → Prop} {f : β → Option γ} : ∀ {as : List α} {bs : List β}, List.Forall₂ R as bs →
    (∀ a ∈ as, ∀ b, R a b → ∃ c, f b = some c ∧ P a c) → ∃ cs, bs.map f = cs.map some ∧ List.Forall₂ P as cs := by
  intro as bs h
  induction h with
  | nil => intro _; exact ⟨[], rfl, .nil⟩
  | cons h1 h2 ih =>
    intro hP
    obtain ⟨c, c1, c2⟩ := hP _ List.mem_cons_self _ h1
    obtain ⟨cs, d1, d2⟩ := ih fun a ha => hP a (List.mem_cons_of_mem _ ha)
    exact ⟨c :: cs, by simp only [List.map_cons, c1, d1], .cons c2 d2⟩

theorem forall₂_sum {α β : Type} [AddCommMonoid K] {P : α → β → Prop} {f : α → K} {g : β → K} : ∀ {as : List α} {bs : List β}, List.Forall₂ P as bs →
    (∀ a ∈ as, ∀ b, P a b → b ∈ bs → g b = f a) → (bs.map g).sum = (as.map f).sum := by
  intro as bs h
  induction h with
  | nil => intro _; rfl
  | cons h1 h2 ih =>
    intro hP
    simp only [List.map_cons, List.sum_cons]
    rw [hP _ List.mem_cons_self _ h1 List.mem_cons_self, ih fun a ha b hb hm => hP a (List.mem_cons_of_mem _ ha) b hb (List.mem_cons_of_mem _ hm)]

theorem callsOf_flatten [Semiring K] (p : Plugin) (m : PyStr) (lt : LogType) (css : List (List (Plugin × StatCall K))) :
    Spec.callsOf p m lt css.flatten = css.flatMap (Spec.callsOf p m lt) := by
  induction css with
  | nil => rfl
  | cons a rest ih => rw [List.flatten_cons, callsOf_append, ih]; simp

theorem rowSum_flatMap [Semiring K] (term : (Nat → K) → List Nat → K) (idx : List Nat) {α : Type} (f : α → List (StatCall K)) (l : List α) :
    rowSum term (Spec.allRows (l.flatMap f)) idx = (l.map fun a => rowSum term (Spec.allRows (f a)) idx).sum := by
  induction l with
  | nil => rfl
  | cons a rest ih => rw [List.flatMap_cons, allRows_append, rowSum_append, ih]; simp

theorem batchCount_flatMap [Semiring K] {α : Type} (f : α → List (StatCall K)) (l : List α) :
    ((l.flatMap f).map batchCount).sum = (l.map fun a => ((f a).map batchCount).sum).sum := by
  induction l with
  | nil => rfl
  | cons a rest ih => rw [List.flatMap_cons, List.map_append, List.sum_append, ih]; simp

/-- States of processes that have logged means and covariances of the same quantities in the same order: what `synchronize` needs. -/
theorem sync_layout [Field K] (L : Lib K) {css : List (List (Plugin × StatCall K))} {ss : List (LState K)}
    (hrun : List.Forall₂ (fun cs s => updates L .init cs = .ok s) css ss)
    (hplug : ∀ cs ∈ css, ∀ pc ∈ cs, pc.1 = .log ∨ pc.1 = .mean ∨ pc.1 = .covariance)
    (hord : ∀ cs ∈ css, ∀ cs' ∈ css, ∀ q ∈ [Plugin.mean, Plugin.covariance], Spec.order q cs = Spec.order q cs') :
    (∀ s ∈ ss, s.toSync = [nMean, nMeanCounter, nCov, nCovCounter]) ∧
    ∀ s ∈ ss, ∀ u ∈ ss, ∀ n ∈ [nMean, nMeanCounter, nCov, nCovCounter], ∀ d e, s.getAttr n = .ok d → u.getAttr n = .ok e → skelD d = skelD e := by
  have hlen := hrun.length_eq
  -- states and calls go together
  have pair : ∀ s ∈ ss, ∃ cs ∈ css, updates L .init cs = .ok s := by
    intro s hs
    obtain ⟨i, hi⟩ := List.getElem?_of_mem hs
    have hi' : i < css.length := by rw [hlen]; exact (List.getElem?_eq_some_iff.1 hi).1
    have := (List.forall₂_iff_get.1 hrun).2 i hi' (by omega)
    refine ⟨css[i], List.getElem_mem hi', ?_⟩
    rw [(List.getElem?_eq_some_iff.1 hi).2.symm]
    simpa using this
  have hsync : ∀ s ∈ ss, s.toSync = [nMean, nMeanCounter, nCov, nCovCounter] := by
    intro s hs
    obtain ⟨cs, h1, h2⟩ := pair s hs
    rw [(updates_toSync L (hplug cs h1) h2).1]
    rfl
  have hskel : ∀ s ∈ ss, ∀ u ∈ ss, ∀ n ∈ [nMean, nMeanCounter, nCov, nCovCounter], ∀ d e, s.getAttr n = .ok d → u.getAttr n = .ok e →
      skelD d = skelD e := by
    intro s hs u hu
    obtain ⟨cs, h1, h2⟩ := pair s hs
    obtain ⟨cs', h1', h2'⟩ := pair u hu
    have main : ∀ {q : Plugin} {a b : PyStr} {z : Nat → List Nat} {term : (Nat → K) → List Nat → K}, StatOf q a b z term → (a, b) ∈ basePairs →
        q ∈ [Plugin.mean, Plugin.covariance] → ∀ n, n = a ∨ n = b → ∀ d e, s.getAttr n = .ok d → u.getAttr n = .ok e → skelD d = skelD e := by
      intro q a b z term S hp hq n hn d e hd he
      obtain ⟨i1, i2⟩ := init_getAttr (K := K) hp
      obtain ⟨d1, e1, a1, a2, a3, a4⟩ := updates_skel L S h2 i1 i2
      obtain ⟨d2, e2, b1, b2, b3, b4⟩ := updates_skel L S h2' i1 i2
      rw [order_foldl] at a3 a4 b3 b4
      rw [hord cs h1 cs' h1' q hq] at a3 a4
      rcases hn with rfl | rfl
      · obtain rfl := Except.ok.inj (hd.symm.trans a1)
        obtain rfl := Except.ok.inj (he.symm.trans b1)
        rw [a3, b3]
      · obtain rfl := Except.ok.inj (hd.symm.trans a2)
        obtain rfl := Except.ok.inj (he.symm.trans b2)
        rw [a4, b4]
    intro n hn
    simp only [List.mem_cons, List.not_mem_nil, or_false] at hn
    rcases hn with h | h | h | h
    · exact main statOf_mean (by decide) (by decide) n (.inl h)
    · exact main statOf_mean (by decide) (by decide) n (.inr h)
    · exact main statOf_cov (by decide) (by decide) n (.inl h)
    · exact main statOf_cov (by decide) (by decide) n (.inr h)
  exact ⟨hsync, hskel⟩

/-- A statistic after the synchronization: the layouts are kept, and a quantity has the sum of the rows of all processes and their count. -/
theorem sync_stat [Field K] (L : Lib K) {p : Plugin} {st cn : PyStr} {z : Nat → List Nat} {term : (Nat → K) → List Nat → K}
    (S : StatOf p st cn z term) (hp : (st, cn) ∈ basePairs) {css : List (List (Plugin × StatCall K))} {ss ss₁ : List (LState K)}
    (hrun : List.Forall₂ (fun cs s => updates L .init cs = .ok s) css ss)
    (hplug : ∀ cs ∈ css, ∀ pc ∈ cs, pc.1 = .log ∨ pc.1 = .mean ∨ pc.1 = .covariance)
    (hord : ∀ cs ∈ css, ∀ cs' ∈ css, ∀ q ∈ [Plugin.mean, Plugin.covariance], Spec.order q cs = Spec.order q cs')
    (f1 : synchronize ss = .ok ss₁) (hp' : p ∈ [Plugin.mean, Plugin.covariance]) :
    ss₁.length = css.length ∧ ∀ (i : Nat) (s₁ : LState K), ss₁[i]? = some s₁ → ∃ cs s d₀ e₀ d₁ e₁, css[i]? = some cs ∧ ss[i]? = some s ∧ updates L .init cs = .ok s ∧
      s.getAttr st = .ok d₀ ∧ s.getAttr cn = .ok e₀ ∧ s₁.getAttr st = .ok d₁ ∧ s₁.getAttr cn = .ok e₁ ∧ skelD d₁ = skelD d₀ ∧ skelD e₁ = skelD e₀ ∧
      ∀ m lt, Spec.callsOf p m lt css.flatten ≠ [] → ∃ t r W, (Nested.node d₀).lookup [m, lt.name] = some (.tensor t) ∧
        (Nested.node d₁).lookup [m, lt.name] = some (.tensor r) ∧ r.dev = t.dev ∧ r.shape = z W ∧
        (Nested.node e₁).lookup [m, lt.name] = some (.num ((Spec.callsOf p m lt css.flatten).map batchCount).sum) ∧
        (∀ c ∈ Spec.callsOf p m lt css.flatten, Spec.callWidth c = W) ∧
        ∀ idx, inRange (z W) idx = true → r.el idx = rowSum term (Spec.allRows (Spec.callsOf p m lt css.flatten)) idx := by
  have hlen := hrun.length_eq
  obtain ⟨hsync, hskel⟩ := sync_layout L hrun hplug hord
  obtain ⟨l1, sync⟩ := synchronize_ok hsync (by decide) hskel f1
  refine ⟨by omega, fun i s₁ n1 => ?_⟩
  obtain ⟨s, k1, k2, k3, k4, k5, k6, kk, k7, k8⟩ := sync i s₁ n1
  have hmem : st ∈ [nMean, nMeanCounter, nCov, nCovCounter] ∧ cn ∈ [nMean, nMeanCounter, nCov, nCovCounter] := by
    simp only [basePairs, List.mem_cons, Prod.mk.injEq, List.not_mem_nil, or_false] at hp
    rcases hp with ⟨rfl, rfl⟩ | ⟨rfl, rfl⟩ <;> decide
  have hi : i < css.length := by rw [hlen]; exact (List.getElem?_eq_some_iff.1 k1).1
  have g2 : updates L .init css[i] = .ok s := by
    have := (List.forall₂_iff_get.1 hrun).2 i hi (by omega)
    rw [(List.getElem?_eq_some_iff.1 k1).2.symm]
    simpa using this
  have g1 : css[i] ∈ css := List.getElem_mem hi
  obtain ⟨d0, d1, p1, p2, psk, p3⟩ := k8 st hmem.1
  obtain ⟨e0, e1, p1', p2', psk', p3'⟩ := k8 cn hmem.2
  refine ⟨css[i], s, d0, e0, d1, e1, List.getElem?_eq_getElem hi, k1, g2, p1, p1', p2, p2', psk, psk', fun m lt hne => ?_⟩
  -- every process logged the quantity
  have hall : ∀ cs ∈ css, Spec.callsOf p m lt cs ≠ [] := by
    rw [callsOf_flatten] at hne
    obtain ⟨c, hc⟩ := List.exists_mem_of_ne_nil _ hne
    obtain ⟨cs₀, h1, h2⟩ := List.mem_flatMap.1 hc
    intro cs hcs
    rw [← mem_order, hord cs hcs cs₀ h1 p hp', mem_order]
    exact List.ne_nil_of_mem h2
  -- what each process has
  have each : ∀ cs ∈ css, ∀ s, updates L .init cs = .ok s → ∃ d e t W, s.getAttr st = .ok d ∧ s.getAttr cn = .ok e ∧
      (Nested.node d).lookup [m, lt.name] = some (.tensor t) ∧
      (Nested.node e).lookup [m, lt.name] = some (.num ((Spec.callsOf p m lt cs).map batchCount).sum) ∧ t.shape = z W ∧
      (∀ c ∈ Spec.callsOf p m lt cs, Spec.callWidth c = W) ∧
      ∀ idx, inRange (z W) idx = true → t.el idx = rowSum term (Spec.allRows (Spec.callsOf p m lt cs)) idx := by
    intro cs hcs s hs
    obtain ⟨i1, i2⟩ := init_getAttr (K := K) hp
    obtain ⟨d, e, hd, he, I⟩ := updates_inv L S hs i1 i2
    obtain ⟨t0, n0, t, W, hz, hw, hs0, hs, h1, h2, hv⟩ := (I m lt).cons (hall cs hcs)
    rcases hz with ⟨_, hz, hn⟩ | ⟨hz, _⟩
    · refine ⟨d, e, t, W, hd, he, lookup_item2 h1, ?_, hs, hw, fun idx hidx => ?_⟩
      · rw [lookup_item2 h2, hn, zero_add]
      · rw [hv idx hidx, hz, zero_add]
    · cases hz
  -- the sums
  obtain ⟨ts, t1, t2⟩ := gather (f := fun u => (Dict.get? u.attrs st).bind fun e => (Nested.node e).lookup [m, lt.name])
    (P := fun cs v => ∃ t W, v = SVal.tensor t ∧ t.shape = z W ∧ (∀ c ∈ Spec.callsOf p m lt cs, Spec.callWidth c = W) ∧
      ∀ idx, inRange (z W) idx = true → t.el idx = rowSum term (Spec.allRows (Spec.callsOf p m lt cs)) idx) hrun
    (fun cs hcs s hs => by
      obtain ⟨d, e, t, W, a1, a2, a3, a4, a5, a6, a7⟩ := each cs hcs s hs
      exact ⟨.tensor t, by rw [getAttr_eq.1 a1]; exact a3, t, W, rfl, a5, a6, a7⟩)
  obtain ⟨cnts, c1, c2⟩ := gather (f := fun u => (Dict.get? u.attrs cn).bind fun e => (Nested.node e).lookup [m, lt.name])
    (P := fun cs v => v = SVal.num ((Spec.callsOf p m lt cs).map batchCount).sum) hrun
    (fun cs hcs s hs => by
      obtain ⟨d, e, t, W, a1, a2, a3, a4, a5, a6, a7⟩ := each cs hcs s hs
      exact ⟨_, by rw [getAttr_eq.1 a2]; exact a4, rfl⟩)
  obtain ⟨d, e, t, W, a1, a2, a3, a4, a5, a6, a7⟩ := each css[i] g1 s g2
  obtain rfl := Except.ok.inj (a1.symm.trans p1)
  obtain ⟨y, ys, r, q1, q2, q3⟩ := p3 _ _ a3
  obtain rfl := Except.ok.inj (a2.symm.trans p1')
  obtain ⟨y', ys', r', q1', q2', q3'⟩ := p3' _ _ a4
  have inj : ∀ {α : Type} {l l' : List α}, l.map some = l'.map some → l = l' := fun h => List.map_injective_iff.2 (Option.some_injective _) h
  obtain rfl := inj (t1.symm.trans q1)
  obtain rfl := inj (c1.symm.trans q1')
  -- the tensor
  have hy : ∃ ty, y = .tensor ty := by
    cases t2 with
    | cons h _ => obtain ⟨t, W, h, _⟩ := h; exact ⟨t, h⟩
  obtain ⟨ty, rfl⟩ := hy
  obtain ⟨us, u, v1, v2, v3, v4, v5⟩ := foldVal_tensor ys ty r q2
  have hy' : ∃ ny, y' = .num ny := by
    cases c2 with
    | cons h _ => exact ⟨_, h⟩
  obtain ⟨ny, rfl⟩ := hy'
  obtain ⟨ns, w1, w2⟩ := foldVal_num ys' ny r' q2'
  subst v1 v2 w1 w2
  have hcnt : ny + ns.sum = ((Spec.callsOf p m lt css.flatten).map batchCount).sum := by
    have := forall₂_sum (g := fun v : SVal K => match v with | .num x => x | _ => 0) (f := fun cs => ((Spec.callsOf p m lt cs).map batchCount).sum) c2
      (fun cs _ v hv _ => by rw [hv])
    rw [callsOf_flatten, batchCount_flatMap, ← this, List.map_cons, List.sum_cons, List.map_map]
    simp [Function.comp_def]
  -- one width
  obtain ⟨acc, A, -⟩ := S.acc
  have hWs : ∀ v ∈ SVal.tensor ty :: us.map SVal.tensor, ∃ t, v = SVal.tensor t ∧ t.shape = ty.shape := by
    intro v hv
    rcases List.mem_cons.1 hv with rfl | hv
    · exact ⟨ty, rfl, rfl⟩
    · obtain ⟨x, x1, x2⟩ := List.mem_map.1 hv
      exact ⟨x, x2.symm, v4 x x1⟩
  obtain ⟨Wy, hWy⟩ : ∃ W, ty.shape = z W := by
    cases t2 with
    | cons h _ => obtain ⟨t, W, h, h', _⟩ := h; cases h; exact ⟨W, h'⟩
  have hmemts : SVal.tensor t ∈ SVal.tensor ty :: us.map SVal.tensor := by
    have : some (SVal.tensor t) ∈ ss.map fun u => (Dict.get? u.attrs st).bind fun e => (Nested.node e).lookup [m, lt.name] :=
      List.mem_map.2 ⟨s, List.mem_of_getElem? k1, by rw [getAttr_eq.1 a1]; exact a3⟩
    rw [t1] at this
    obtain ⟨v, v1, v2⟩ := List.mem_map.1 this
    cases v2
    exact v1
  have hW : W = Wy := by
    obtain ⟨t', h1, h2⟩ := hWs _ hmemts
    cases h1
    exact A.inj _ _ (by rw [← a5, h2, hWy])
  refine ⟨t, u.onDev t.dev, Wy, a3, q3, rfl, by rw [Tensor.onDev_shape, v3, hWy], by rw [q3', ← hcnt]; rfl, ?_, fun idx hidx => ?_⟩
  · rw [callsOf_flatten]
    intro c hc
    obtain ⟨cs', x1, x2⟩ := List.mem_flatMap.1 hc
    have : ∃ v ∈ SVal.tensor ty :: us.map SVal.tensor, ∃ t W, v = SVal.tensor t ∧ t.shape = z W ∧ (∀ c ∈ Spec.callsOf p m lt cs', Spec.callWidth c = W) := by
      obtain ⟨j, hj⟩ := List.getElem?_of_mem x1
      have hj' := (List.getElem?_eq_some_iff.1 hj).1
      have hl := t2.length_eq
      have := (List.forall₂_iff_get.1 t2).2 j hj' (by omega)
      simp only [List.get_eq_getElem] at this
      rw [(List.getElem?_eq_some_iff.1 hj).2] at this
      obtain ⟨t, W, y1, y2, y3, _⟩ := this
      exact ⟨_, List.getElem_mem _, t, W, y1, y2, y3⟩
    obtain ⟨v, hv, t', W', y1, y2, y3⟩ := this
    obtain ⟨t'', z1, z2⟩ := hWs v hv
    rw [y1] at z1
    cases z1
    rw [y3 c x2]
    exact A.inj _ _ (by rw [← y2, z2, hWy])
  · rw [Tensor.onDev_el, v5 idx (by rw [hWy]; exact hidx)]
    have := forall₂_sum (g := fun v : SVal K => match v with | .tensor x => x.el idx | _ => 0)
      (f := fun cs => rowSum term (Spec.allRows (Spec.callsOf p m lt cs)) idx) t2
      (fun cs _ v hv hm => by
        obtain ⟨t', W', y1, y2, _, y4⟩ := hv
        subst y1
        obtain ⟨t'', z1, z2⟩ := hWs _ hm
        cases z1
        have : W' = Wy := A.inj _ _ (by rw [← y2, z2, hWy])
        exact y4 idx (by rw [this]; exact hidx))
    rw [callsOf_flatten, rowSum_flatMap, ← this, List.map_cons, List.sum_cons, List.map_map]
    simp [Function.comp_def]

/-- A statistic after a distributed run. -/
theorem dist_stat [Field K] (L : Lib K) {p : Plugin} {st cn : PyStr} {z : Nat → List Nat} {term : (Nat → K) → List Nat → K}
    (S : StatOf p st cn z term) (hp : (st, cn) ∈ basePairs) {css : List (List (Plugin × StatCall K))} {ss ss' : List (LState K)} {dir dir' : StateDir K}
    (hrun : List.Forall₂ (fun cs s => updates L .init cs = .ok s) css ss) (hw : 1 < css.length)
    (hplug : ∀ cs ∈ css, ∀ pc ∈ cs, pc.1 = .log ∨ pc.1 = .mean ∨ pc.1 = .covariance)
    (hord : ∀ cs ∈ css, ∀ cs' ∈ css, ∀ q ∈ [Plugin.mean, Plugin.covariance], Spec.order q cs = Spec.order q cs')
    (hfin : finalizeDist ss dir = .ok (ss', dir')) (m : PyStr) (lt : LogType) (hne : Spec.callsOf p m lt css.flatten ≠ [])
    (hp' : p ∈ [Plugin.mean, Plugin.covariance]) :
    ss'.length = css.length ∧ ∀ s' ∈ ss', ∃ t W, Spec.tensorAt s'.attrs st [m, lt.name] = some t ∧ t.shape = z W ∧
      (∀ c ∈ Spec.callsOf p m lt css.flatten, Spec.callWidth c = W) ∧
      ∀ idx, inRange (z W) idx = true →
        t.el idx = rowSum term (Spec.allRows (Spec.callsOf p m lt css.flatten)) idx / ((Spec.callsOf p m lt css.flatten).map batchCount).sum := by
  have hlen := hrun.length_eq
  obtain ⟨ss₁, f1, f2, -⟩ := finalizeDist_ok hfin (by omega)
  obtain ⟨hsync, hskel⟩ := sync_layout L hrun hplug hord
  obtain ⟨-, sync⟩ := synchronize_ok hsync (by decide) hskel f1
  obtain ⟨l1, stat⟩ := sync_stat L S hp hrun hplug hord f1 hp'
  obtain ⟨l2, norm⟩ := normalizeAll_ok f2
  refine ⟨by omega, fun s' hs' => ?_⟩
  obtain ⟨i, hi⟩ := List.getElem?_of_mem hs'
  obtain ⟨s₁, n1, n2⟩ := norm i s' hi
  obtain ⟨cs, s, d0, e0, d1, e1, h1, h2, g2, -, -, p2, p2', -, -, hv⟩ := stat i s₁ n1
  obtain ⟨t, r, W, -, q3, -, v3, q3', v4, v5⟩ := hv m lt hne
  -- normalisation
  have hreg : NormReg s₁ := by
    obtain ⟨s0, k1, k2, -⟩ := sync i s₁ n1
    obtain rfl := Option.some.inj (h2.symm.trans k1)
    left
    rw [k2, (updates_toSync L (hplug cs (List.mem_of_getElem? h1)) g2).2.1]
    rfl
  obtain ⟨d2, e2, d', b1, b2, b3, b4⟩ := normalize_get hreg n2 hp
  obtain rfl := Except.ok.inj (p2.symm.trans b1)
  obtain rfl := Except.ok.inj (p2'.symm.trans b2)
  have i1 := item2_of_lookup q3
  have i2 := item2_of_lookup q3'
  obtain ⟨c, hc, hc'⟩ := (normalizeDict_item2 b3 m lt.name).1 _ i1
  obtain rfl : c = ((Spec.callsOf p m lt css.flatten).map batchCount).sum := by
    have := hc.symm.trans i2
    simpa using this
  refine ⟨_, W, tensorAt_item2 b4 hc', v3, v4, fun idx hidx => ?_⟩
  rw [divNum_el _ _ _ (by rw [v3]; exact hidx), v5 idx hidx]

/-- **C34**, mean: on every process the mean of a quantity is the sum of all rows of all processes divided by the number of their samples. The
processes meet the quantities in the same order. -/
theorem C34_mean [Field K] (L : Lib K) {css : List (List (Plugin × StatCall K))} {ss ss' : List (LState K)} {dir dir' : StateDir K}
    (hrun : List.Forall₂ (fun cs s => updates L .init cs = .ok s) css ss) (hw : 1 < css.length)
    (hplug : ∀ cs ∈ css, ∀ pc ∈ cs, pc.1 = .log ∨ pc.1 = .mean ∨ pc.1 = .covariance)
    (hord : ∀ cs ∈ css, ∀ cs' ∈ css, ∀ q ∈ [Plugin.mean, Plugin.covariance], Spec.order q cs = Spec.order q cs')
    (hfin : finalizeDist ss dir = .ok (ss', dir')) (m : PyStr) (lt : LogType) (hne : Spec.callsOf .mean m lt css.flatten ≠ [])
    (hmask : ∀ c ∈ Spec.callsOf .mean m lt css.flatten, c.mask = none ∨ c.logType = .grad) :
    ss'.length = css.length ∧ ∀ s' ∈ ss', ∃ t W, Spec.tensorAt s'.attrs nMean [m, lt.name] = some t ∧ t.shape = [W] ∧
      (∀ c ∈ Spec.callsOf .mean m lt css.flatten, Spec.callWidth c = W) ∧
      ∀ j, j < W → t.el [j] = ((Spec.allRows (Spec.callsOf .mean m lt css.flatten)).map fun r => r j).sum /
        (Spec.samples (Spec.callsOf .mean m lt css.flatten) : K) := by
  obtain ⟨h0, h⟩ := dist_stat L statOf_mean (by decide) hrun hw hplug hord hfin m lt hne (by decide)
  refine ⟨h0, fun s' hs' => ?_⟩
  obtain ⟨t, W, h1, h2, h3, h4⟩ := h s' hs'
  refine ⟨t, W, h1, h2, h3, fun j hj => ?_⟩
  rw [h4 [j] (by simp [inRange, hj]), count_samples _ hmask]
  rfl

/-- **C34**, covariance. -/
theorem C34_covariance [Field K] (L : Lib K) {css : List (List (Plugin × StatCall K))} {ss ss' : List (LState K)} {dir dir' : StateDir K}
    (hrun : List.Forall₂ (fun cs s => updates L .init cs = .ok s) css ss) (hw : 1 < css.length)
    (hplug : ∀ cs ∈ css, ∀ pc ∈ cs, pc.1 = .log ∨ pc.1 = .mean ∨ pc.1 = .covariance)
    (hord : ∀ cs ∈ css, ∀ cs' ∈ css, ∀ q ∈ [Plugin.mean, Plugin.covariance], Spec.order q cs = Spec.order q cs')
    (hfin : finalizeDist ss dir = .ok (ss', dir')) (m : PyStr) (lt : LogType) (hne : Spec.callsOf .covariance m lt css.flatten ≠ [])
    (hmask : ∀ c ∈ Spec.callsOf .covariance m lt css.flatten, c.mask = none ∨ c.logType = .grad) :
    ss'.length = css.length ∧ ∀ s' ∈ ss', ∃ t W, Spec.tensorAt s'.attrs nCov [m, lt.name] = some t ∧ t.shape = [W, W] ∧
      (∀ c ∈ Spec.callsOf .covariance m lt css.flatten, Spec.callWidth c = W) ∧
      ∀ i j, i < W → j < W → t.el [i, j] = ((Spec.allRows (Spec.callsOf .covariance m lt css.flatten)).map fun r => r i * r j).sum /
        (Spec.samples (Spec.callsOf .covariance m lt css.flatten) : K) := by
  obtain ⟨h0, h⟩ := dist_stat L statOf_cov (by decide) hrun hw hplug hord hfin m lt hne (by decide)
  refine ⟨h0, fun s' hs' => ?_⟩
  obtain ⟨t, W, h1, h2, h3, h4⟩ := h s' hs'
  refine ⟨t, W, h1, h2, h3, fun i j hi hj => ?_⟩
  rw [h4 [i, j] (by simp [inRange, hi, hj]), count_samples _ hmask]
  rfl

/-- **C34.** Every process ends with the mean and the covariance that one process computes that logs all the batches. (A process can log
batches of several devices if it offloads the statistics to the CPU.) -/
theorem C34_single [Field K] (L : Lib K) {css : List (List (Plugin × StatCall K))} {ss ss' : List (LState K)} {dir dir' : StateDir K}
    (hrun : List.Forall₂ (fun cs s => updates L .init cs = .ok s) css ss) (hw : 1 < css.length)
    (hplug : ∀ cs ∈ css, ∀ pc ∈ cs, pc.1 = .log ∨ pc.1 = .mean ∨ pc.1 = .covariance)
    (hord : ∀ cs ∈ css, ∀ cs' ∈ css, ∀ q ∈ [Plugin.mean, Plugin.covariance], Spec.order q cs = Spec.order q cs')
    (hfin : finalizeDist ss dir = .ok (ss', dir'))
    {u u' : LState K} {dir₁ dir₁' : StateDir K} (hrun₁ : updates L .init css.flatten = .ok u) (hfin₁ : u.finalize dir₁ = .ok (u', dir₁'))
    (m : PyStr) (lt : LogType) (p : Plugin) (name : PyStr) (hp : (p, name) ∈ [(Plugin.mean, nMean), (Plugin.covariance, nCov)])
    (hne : Spec.callsOf p m lt css.flatten ≠ []) :
    ∀ s' ∈ ss', ∃ t t₁, Spec.tensorAt s'.attrs name [m, lt.name] = some t ∧ Spec.tensorAt u'.attrs name [m, lt.name] = some t₁ ∧
      t.shape = t₁.shape ∧ ∀ idx, inRange t.shape idx = true → t.el idx = t₁.el idx := by
  have main : ∀ {p : Plugin} {st cn : PyStr} {z : Nat → List Nat} {term : (Nat → K) → List Nat → K} (_ : StatOf p st cn z term) (_ : (st, cn) ∈ basePairs)
      (_ : p ∈ [Plugin.mean, Plugin.covariance]) (_ : Spec.callsOf p m lt css.flatten ≠ []), ∀ s' ∈ ss', ∃ t t₁,
      Spec.tensorAt s'.attrs st [m, lt.name] = some t ∧ Spec.tensorAt u'.attrs st [m, lt.name] = some t₁ ∧
      t.shape = t₁.shape ∧ ∀ idx, inRange t.shape idx = true → t.el idx = t₁.el idx := by
    intro p st cn z term S hp hp' hne s' hs'
    obtain ⟨-, h⟩ := dist_stat L S hp hrun hw hplug hord hfin m lt hne hp'
    obtain ⟨t, W, h1, h2, h3, h4⟩ := h s' hs'
    obtain ⟨t₁, W₁, k1, k2, k3, k4⟩ := stat_finalize L S hp hrun₁ hfin₁ m lt hne
    obtain ⟨c, hc⟩ := List.exists_mem_of_ne_nil _ hne
    obtain rfl : W = W₁ := by rw [← h3 c hc, ← k3 c hc]
    refine ⟨t, t₁, h1, k1, by rw [h2, k2], fun idx hidx => ?_⟩
    rw [h2] at hidx
    rw [h4 idx hidx, k4 idx hidx]
  simp only [List.mem_cons, Prod.mk.injEq, List.not_mem_nil, or_false] at hp
  rcases hp with ⟨rfl, rfl⟩ | ⟨rfl, rfl⟩
  · exact main statOf_mean (by decide) (by decide) hne
  · exact main statOf_cov (by decide) (by decide) hne

/-! ### A concrete run of two processes, and one in which they meet two layers in opposite orders -/

namespace ExDist

def nb : PyStr := ['f', 'd']
def a1 : StatCall Rat := ⟨some .linear, ExStats.nm, .forward, ⟨.cuda 0, [2, 2], [1, 2, 3, 4], rfl⟩, none, false⟩
def a2 : StatCall Rat := ⟨some .linear, ExStats.nm, .forward, ⟨.cuda 1, [1, 2], [5, -3], rfl⟩, none, false⟩
def c1 : StatCall Rat := ⟨some .linear, nb, .forward, ⟨.cuda 0, [1, 2], [0, 1], rfl⟩, none, false⟩
def c2 : StatCall Rat := ⟨some .linear, nb, .forward, ⟨.cuda 1, [1, 2], [1, 0], rfl⟩, none, false⟩

def same : List (List (Plugin × StatCall Rat)) :=
  [[(.mean, a1), (.mean, c1), (.covariance, a1), (.covariance, c1)], [(.mean, a2), (.mean, c2), (.covariance, a2), (.covariance, c2)]]
def offl (c : StatCall Rat) : StatCall Rat := { c with offload := true }
def swapped : List (List (Plugin × StatCall Rat)) :=
  [[(.covariance, offl a1), (.covariance, offl c1)], [(.covariance, offl c2), (.covariance, offl a2)]]

/-- All processes log, and finalize together. -/
def run (css : List (List (Plugin × StatCall Rat))) : Option (List (LState Rat)) :=
  (css.mapM fun cs => (updates ExStats.lib .init cs).toOption).bind fun ss => (finalizeDist ss ⟨[], none⟩).toOption.map Prod.fst

/-- The hypotheses of C34 are met by a run of two processes on two devices; the mean over the three rows is on both. -/
example : ((run same).map fun ss => ss.map fun s => Spec.tensorAt s.attrs nMean [ExStats.nm, LogType.name .forward]) =
    some [some ⟨.cuda 0, [2], [3, 1], rfl⟩, some ⟨.cuda 1, [2], [3, 1], rfl⟩] := by
  decide +kernel

example : ∀ cs ∈ same, ∀ cs' ∈ same, ∀ q ∈ [Plugin.mean, Plugin.covariance], Spec.order q cs = Spec.order q cs' := by
  decide +kernel

/-- The hypotheses of `C34_single`: the same run with offloading, and one process that logs all of it. -/
def sameOff : List (List (Plugin × StatCall Rat)) := same.map fun cs => cs.map fun pc => (pc.1, offl pc.2)

example : ((run sameOff).map fun ss => ss.map fun s => Spec.tensorAt s.attrs nCov [nb, LogType.name .forward]) =
      some [some ⟨.cpu, [2, 2], [1 / 2, 0, 0, 1 / 2], rfl⟩, some ⟨.cpu, [2, 2], [1 / 2, 0, 0, 1 / 2], rfl⟩] ∧
    ((updates ExStats.lib .init sameOff.flatten).toOption.bind fun u => (u.finalize ⟨[], none⟩).toOption.bind fun r =>
      Spec.tensorAt r.1.attrs nCov [nb, LogType.name .forward]) = some ⟨.cpu, [2, 2], [1 / 2, 0, 0, 1 / 2], rfl⟩ := by
  decide +kernel

example : Spec.order .covariance swapped[0] ≠ Spec.order .covariance swapped[1] ∧
    (Spec.order .covariance swapped[0]).Perm (Spec.order .covariance swapped[1]) := by
  decide +kernel

end ExDist

/-- **C84** is false: two processes log the same two layers of the same width, in opposite orders; `finalize` succeeds on both, and the
covariance it leaves for a layer is not the one of that layer's rows: `all_reduce` summed it with the other layer's. -/
theorem C84_order_refuted : ¬ ∀ (css : List (List (Plugin × StatCall Rat))) (ss ss' : List (LState Rat)) (dir dir' : StateDir Rat),
    List.Forall₂ (fun cs s => updates ExStats.lib .init cs = .ok s) css ss → 1 < css.length →
    (∀ cs ∈ css, ∀ pc ∈ cs, pc.1 = .covariance) →
    (∀ cs ∈ css, ∀ cs' ∈ css, (Spec.order .covariance cs).Perm (Spec.order .covariance cs')) →
    finalizeDist ss dir = .ok (ss', dir') → ∀ (u u' : LState Rat) (dir₁ dir₁' : StateDir Rat),
    updates ExStats.lib .init css.flatten = .ok u → u.finalize dir₁ = .ok (u', dir₁') →
    ∀ m lt, ∀ s' ∈ ss', ∀ t t₁, Spec.tensorAt s'.attrs nCov [m, LogType.name lt] = some t →
      Spec.tensorAt u'.attrs nCov [m, LogType.name lt] = some t₁ → t.data = t₁.data := by
  intro h
  have key : ((updates ExStats.lib .init ExDist.swapped[0]).toOption.bind fun s0 => (updates ExStats.lib .init ExDist.swapped[1]).toOption.bind fun s1 =>
      (finalizeDist [s0, s1] ⟨[], none⟩).toOption.bind fun r => (updates ExStats.lib .init ExDist.swapped.flatten).toOption.bind fun u =>
      (u.finalize ⟨[], none⟩).toOption.bind fun r' => r.1.head?.bind fun s' =>
      (Spec.tensorAt s'.attrs nCov [ExDist.nb, LogType.name .forward]).bind fun t =>
      (Spec.tensorAt r'.1.attrs nCov [ExDist.nb, LogType.name .forward]).bind fun t₁ => some (t.data, t₁.data)) =
      some ([25 / 2, -15 / 2, -15 / 2, 5], [1 / 2, 0, 0, 1 / 2]) := by
    decide +kernel
  have ok : ∀ {α : Type} {x : Py α} {a : α}, x.toOption = some a → x = .ok a := by
    intro α x a hx
    cases x with
    | error _ => cases hx
    | ok b => cases hx; rfl
  obtain ⟨s0, h0, key⟩ := Option.bind_eq_some_iff.1 key
  obtain ⟨s1, h1, key⟩ := Option.bind_eq_some_iff.1 key
  obtain ⟨r, h2, key⟩ := Option.bind_eq_some_iff.1 key
  obtain ⟨u, h3, key⟩ := Option.bind_eq_some_iff.1 key
  obtain ⟨r', h4, key⟩ := Option.bind_eq_some_iff.1 key
  obtain ⟨s', h5, key⟩ := Option.bind_eq_some_iff.1 key
  obtain ⟨t, h6, key⟩ := Option.bind_eq_some_iff.1 key
  obtain ⟨t₁, h7, key⟩ := Option.bind_eq_some_iff.1 key
  have := h ExDist.swapped [s0, s1] r.1 ⟨[], none⟩ r.2 (.cons (ok h0) (.cons (ok h1) .nil)) (by decide) (by decide +kernel) (by decide +kernel)
    (ok h2) u r'.1 ⟨[], none⟩ r'.2 (ok h3) (ok h4) ExDist.nb .forward s' (List.mem_of_mem_head? h5) t t₁ h6 h7
  rw [Option.some.injEq, Prod.mk.injEq] at key
  rw [key.1, key.2] at this
  revert this
  decide +kernel

end Logix
