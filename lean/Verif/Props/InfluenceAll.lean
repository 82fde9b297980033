/-
C47, C56, C57: influence against a loader, and the saved scores.
-/
import Verif.Lemmas.Results

namespace Logix
variable {K : Type}

/-! ### C47 -/

theorem computeInfluence_split [Field K] {L : Lib K} {s s₁ : LState K} {src src' : LogArg K} {pre : Bool} {hessian : Hess} {damping : Option K}
    (hp : (if pre then precondition L s src hessian damping else .ok (s, src)) = .ok (s₁, src')) (sqrt : K → K) (ids tgtIds : List PyStr) (tgt : LogArg K)
    (mode : Mode) (groups : Option (List PyStr)) :
    computeInfluence L sqrt s ids src tgtIds tgt mode pre hessian groups damping = computeInfluence L sqrt s₁ ids src' tgtIds tgt mode false hessian groups damping := by
  unfold computeInfluence
  rw [hp]
  rfl

/-- All batches as if they were computed in the first state. -/
theorem batchRun_at [Field K] {L : Lib K} {sqrt : K → K} {ids : List PyStr} {src : LogArg K} {mode : Mode} {hessian : Hess}
    {groups : Option (List PyStr)} {damping : Option K} {s₀ : LState K} (R : LState K → LState K → Prop)
    (hR : ∀ s (b : List PyStr × LogArg K) s₁ r, R s₀ s → computeInfluence L sqrt s ids src b.1 b.2 mode false hessian groups damping = .ok (s₁, r) →
      R s₀ s₁ ∧ ∃ s₂, computeInfluence L sqrt s₀ ids src b.1 b.2 mode false hessian groups damping = .ok (s₂, r)) :
    ∀ {batches : List (List PyStr × LogArg K)} {s s' : LState K} {vs : List (IFResult K)}, R s₀ s →
      BatchRun L sqrt ids src mode hessian groups damping s batches s' vs →
      List.Forall₂ (fun b v => ∃ s₂, computeInfluence L sqrt s₀ ids src b.1 b.2 mode false hessian groups damping = .ok (s₂, v)) batches vs
  | [], s, s', vs, _, h => by rw [h.2]; exact .nil
  | b :: bs, s, s', vs, hs, h => by
    obtain ⟨s₁, r, vs', hc, hb, rfl⟩ := h
    obtain ⟨h1, h2⟩ := hR s b s₁ r hs hc
    exact .cons h2 (batchRun_at R hR h1 hb)

theorem dot_state [Field K] {L : Lib K} {sqrt : K → K} {s s₁ : LState K} {ids tgtIds : List PyStr} {src tgt : LogArg K} {hessian : Hess}
    {groups : Option (List PyStr)} {damping : Option K} {r : IFResult K}
    (h : computeInfluence L sqrt s ids src tgtIds tgt .dot false hessian groups damping = .ok (s₁, r)) : s₁ = s := by
  unfold computeInfluence at h
  simp only [reduceCtorEq, if_false, Bool.false_eq_true] at h
  split at h
  · cases h
  · split at h
    · cases h
    · next s₂ sc hm =>
      unfold modeScores at hm
      rw [if_pos rfl] at hm
      simp only [Except.ok.injEq, Prod.mk.injEq] at hm
      split at h
      · cases h
      · split at h
        · cases h
        · cases h; exact hm.1.symm

theorem forall₂_split {α β : Type} {R : α → β → Prop} : ∀ {l : List α} {b : α} {post : List α} {vs : List β}, List.Forall₂ R (l ++ b :: post) vs →
    ∃ l' v post', vs = l' ++ v :: post' ∧ List.Forall₂ R l l' ∧ R b v
  | [], b, post, vs, h => by
    cases h with
    | cons h1 h2 => exact ⟨[], _, _, rfl, .nil, h1⟩
  | a :: l, b, post, vs, h => by
    cases h with
    | cons h1 h2 =>
      obtain ⟨l', v, post', rfl, h3, h4⟩ := forall₂_split h2
      exact ⟨_ :: l', v, post', rfl, .cons h1 h3, h4⟩

theorem forall₂_flatMap {α β γ : Type} {R : α → β → Prop} {f : α → List γ} {g : β → List γ} (hf : ∀ a b, R a b → g b = f a) :
    ∀ {l : List α} {l' : List β}, List.Forall₂ R l l' → l'.flatMap g = l.flatMap f
  | [], _, .nil => rfl
  | a :: l, _, .cons h1 h2 => by rw [List.flatMap_cons, List.flatMap_cons, hf _ _ h1, forall₂_flatMap hf h2]

/-- Where a position of a flattened list comes from. -/
theorem flatMap_pos {α γ : Type} (f : α → List γ) : ∀ {l : List α} {j : Nat}, j < (l.flatMap f).length →
    ∃ l₁ a l₂ j', l = l₁ ++ a :: l₂ ∧ j' < (f a).length ∧ j = (l₁.flatMap f).length + j'
  | [], j, h => by simp at h
  | a :: l, j, h => by
    by_cases hj : j < (f a).length
    · exact ⟨[], a, l, j, rfl, hj, by simp⟩
    · rw [List.flatMap_cons, List.length_append] at h
      obtain ⟨l₁, b, l₂, j', rfl, h1, h2⟩ := flatMap_pos f (l := l) (j := j - (f a).length) (by omega)
      exact ⟨a :: l₁, b, l₂, j', rfl, h1, by rw [List.flatMap_cons, List.length_append]; omega⟩

/-- One score of a batch is the score of the same sample among all targets. -/
theorem entry_same [Field K] {L : Lib K} {sqrt : K → K} {s s₁ s₂ : LState K} {ids ids₁ ids₂ : List PyStr} {p e₁ e₂ : GLog K} {mode : Mode} {hessian : Hess}
    {groups : Option (List PyStr)} {damping : Option K} {v w : IFResult K}
    (hv : computeInfluence L sqrt s ids (.dict p) ids₁ (.dict e₁) mode false hessian groups damping = .ok (s₁, v))
    (hw : computeInfluence L sqrt s ids (.dict p) ids₂ (.dict e₂) mode false hessian groups damping = .ok (s₂, w))
    (hp : Spec.Labelled ids p) (h₁ : Spec.Labelled ids₁ e₁) (h₂ : Spec.Labelled ids₂ e₂)
    (hm : mode = .dot ∨ Dict.keys p = Dict.keys e₂ ∧ Dict.keys e₁ = Dict.keys e₂)
    {k : PyStr} (hk : k = nTotal ∨ k ∈ groups.getD []) {t x : Tensor K} (ht : v.influence.get? k = some t) (hx : w.influence.get? k = some x)
    {i j j' : Nat} (hi : i < ids.length) (hj : j < ids₁.length) (hj' : j' < ids₂.length) (hs : Spec.SameRows e₁ j e₂ j') : t.el [i, j] = x.el [i, j'] := by
  obtain ⟨H, H', s₃, -, a1, a2, -, -, a3, -, -, a4⟩ := computeInfluence_ok' hv hp h₁
  obtain ⟨G, G', s₄, -, b1, b2, -, -, b3, b6, -, b4⟩ := computeInfluence_ok' hw hp h₂
  obtain ⟨t', ht', -, -, a5⟩ := a4 k hk
  obtain ⟨x', hx', -, -, b5⟩ := b4 k hk
  rw [ht] at ht'; cases ht'
  rw [hx] at hx'; cases hx'
  have hHG := preOf_unique a1 b1
  subst hHG
  rw [(a5 (hm.imp id fun h => h.1.trans h.2.symm)).2 i j hi hj, (b5 (hm.imp id And.left)).2 i j' hi hj']
  have e1 : ((Dict.keys p).map fun m => ((scoreKeys groups m).count k : K) * formAt H.form p i e₁ j m) =
      (Dict.keys p).map fun m => ((scoreKeys groups m).count k : K) * formAt H.form p i e₂ j' m := by
    refine List.map_congr_left fun m hm => ?_
    obtain ⟨g, h, c1, c2, c3⟩ := b3 m hm
    rw [hs.formAt H i (grad_mem c2) (fun g' z h1 h2 => by rw [c2] at h1; rw [c1] at h2; cases h1; cases h2; exact c3.symm)]
  rw [e1]
  cases hd : decide (mode = .dot) with
  | true =>
    rw [of_decide_eq_true hd]
    rfl
  | false =>
    have hd := of_decide_eq_false hd
    have hkeys := (hm.resolve_left hd).2
    have hs : Spec.SameSample e₁ j e₂ j' := ⟨hkeys, hs⟩
    rw [if_neg hd] at a2 b2
    have hst : s₃ = s₄ := by
      unfold PreOf at a1 b1
      simp only [Bool.false_eq_true, if_false] at a1 b1
      rw [a1.2, b1.2]
    rw [hst, hs.keys] at a2
    have := preOf_unique a2 b2
    subst this
    congr 2
    rw [hs.keys]
    refine List.map_congr_left fun m hm => ?_
    obtain ⟨g, c1, c2⟩ := b6 hd m hm
    rw [hs.formAt hs H' hm hm (fun g' z h1 h2 => by rw [h1] at h2; cases h2; rfl)]

theorem inRange2 {n m : Nat} {idx : List Nat} (h : inRange [n, m] idx = true) : ∃ i j, idx = [i, j] ∧ i < n ∧ j < m := by
  match idx, h with
  | [i, j], h =>
    simp only [inRange, Bool.and_eq_true, decide_eq_true_eq, and_true] at h
    exact ⟨i, j, rfl, h.1, h.2⟩
  | [], h => simp [inRange] at h
  | [_], h => simp [inRange] at h
  | _ :: _ :: _ :: _, h => simp [inRange] at h

/-- A result of a call has all keys, and its scores are on the CPU. -/
theorem computeInfluence_cpu [Field K] {L : Lib K} {sqrt : K → K} {s s' : LState K} {srcIds tgtIds : List PyStr} {src tgt : LogArg K} {mode : Mode}
    {pre : Bool} {hessian : Hess} {groups : Option (List PyStr)} {damping : Option K} {r : IFResult K}
    (h : computeInfluence L sqrt s srcIds src tgtIds tgt mode pre hessian groups damping = .ok (s', r)) :
    ∀ k t, r.influence.get? k = some t → t.dev = .cpu := by
  obtain ⟨s₁, src', sc, tgt', sc₂, d, -, -, -, hc, hf, h1, h2⟩ := computeInfluence_parts h
  have hcpu : ∀ {sc : Scores K} {d : Dict PyStr (Tensor K)}, checkScores [srcIds.length, tgtIds.length] sc = .ok d → ∀ p ∈ d, p.2.dev = .cpu := by
    intro sc
    induction sc with
    | nil => intro d hd p hp; cases hd; cases hp
    | cons a sc ih =>
      intro d hd p hp
      obtain ⟨k, v⟩ := a
      cases v with
      | none => cases hd
      | some t =>
        unfold checkScores at hd
        split at hd
        · split at hd
          · cases hd
          · next d' hd' =>
            cases hd
            rcases List.mem_cons.1 hp with rfl | hp
            · rfl
            · exact ih hd' p hp
        · cases hd
  intro k t ht
  have : ∃ k, Dict.get? d k = some t := by
    unfold finishScores at hf
    generalize r.influence = inf at ht hf
    split at hf
    · cases hf; exact ⟨k, ht⟩
    · split at hf
      · next t' ht' =>
        cases hf
        unfold Influence.get? at ht
        simp only at ht
        split at ht
        · cases ht; exact ⟨_, ht'⟩
        · cases ht
      · cases hf
  obtain ⟨k', hk'⟩ := this
  exact hcpu hc _ (Dict.mem_of_get? _ hk')

/-- The batches next to each other have the scores of all targets at once, if single scores agree. -/
theorem loader_whole [Field K] {L : Lib K} {sqrt : K → K} {s s₂ : LState K} {ids allIds : List PyStr} {src : LogArg K} {e : LogArg K} {mode : Mode} {hessian : Hess}
    {groups : Option (List PyStr)} {damping : Option K} {loader : List (List PyStr × LogArg K)} {vs : List (IFResult K)} {r w : IFResult K}
    (hvs : List.Forall₂ (fun b v => ∃ s₁, computeInfluence L sqrt s ids src b.1 b.2 mode false hessian groups damping = .ok (s₁, v)) loader vs)
    (hne : vs ≠ []) (hst : Stacked .tgt vs r)
    (hw : computeInfluence L sqrt s ids src allIds e mode false hessian groups damping = .ok (s₂, w)) (hids : allIds = loader.flatMap (·.1)) :
    r.srcIds = w.srcIds ∧ r.tgtIds = w.tgtIds ∧ ∀ k x, w.influence.get? k = some x →
      (∀ b ∈ loader, ∀ s₁ v, computeInfluence L sqrt s ids src b.1 b.2 mode false hessian groups damping = .ok (s₁, v) → ∃ t, v.influence.get? k = some t) →
      (∀ l b post, loader = l ++ b :: post → ∀ s₁ v t, computeInfluence L sqrt s ids src b.1 b.2 mode false hessian groups damping = .ok (s₁, v) →
        v.influence.get? k = some t → ∀ i j, i < ids.length → j < b.1.length → t.el [i, j] = x.el [i, (l.flatMap (·.1)).length + j]) →
      r.influence.get? k = some x := by
  have hids' : ∀ l l', List.Forall₂ (fun (b : List PyStr × LogArg K) v => ∃ s₁, computeInfluence L sqrt s ids src b.1 b.2 mode false hessian groups damping = .ok (s₁, v)) l l' →
      l'.flatMap (·.along .tgt) = l.flatMap (·.1) := fun l l' h => forall₂_flatMap (fun b v ⟨s₁, hv⟩ => (C48_shape hv).2.1) h
  have htgt : r.tgtIds = allIds := by
    have := hst.ids
    rw [hids' _ _ hvs, ← hids] at this
    exact this
  obtain ⟨c1, c2, c3⟩ := C48_shape hw
  have hsrc : r.srcIds = ids := by
    cases hvs with
    | nil => exact absurd rfl hne
    | cons h1 h2 =>
      obtain ⟨s₁, h1⟩ := h1
      exact (hst.other _ rfl).trans (C48_shape h1).1
  refine ⟨hsrc.trans c1.symm, htgt.trans c2.symm, fun k x hx hall hentry => ?_⟩
  obtain ⟨y, hy, hyd⟩ : ∃ y, r.influence.get? k = some y ∧ y.dev = .cpu := by
    cases hvs with
    | nil => exact absurd rfl hne
    | cons h1 h2 =>
      obtain ⟨s₁, h1⟩ := h1
      obtain ⟨t, ht⟩ := hall _ (by simp) _ _ h1
      have := hst.keys _ rfl k
      rw [ht] at this
      obtain ⟨y, hy, hyd⟩ := this
      exact ⟨y, hy, hyd.trans (computeInfluence_cpu h1 k t ht)⟩
  have hys : y.shape = [ids.length, allIds.length] := by rw [hst.good k y hy, hsrc, htgt]
  have hxs := c3 k x hx
  rw [hy, Option.some.injEq]
  refine Tensor.ext_el (hyd.trans (computeInfluence_cpu hw k x hx).symm) (hys.trans hxs.symm) fun idx hidx => ?_
  rw [hys] at hidx
  obtain ⟨i, j, rfl, hi, hj⟩ := inRange2 hidx
  rw [hids] at hj
  obtain ⟨l, b, post, j', rfl, hj', rfl⟩ := flatMap_pos _ hj
  obtain ⟨l', v, post', rfl, f1, s₁, hv⟩ := forall₂_split hvs
  obtain ⟨t, ht, -, hel⟩ := hst.el k y hy l' v post' rfl
  obtain ⟨d1, d2, d3⟩ := C48_shape hv
  have := hel i j' (by rw [d1]; exact hi) (by rw [d2]; exact hj')
  rw [hids' _ _ f1] at this
  simp only [Axis.move] at this
  rw [this]
  exact hentry l b post rfl s₁ v t hv ht i j' hi hj'

/-- The batches next to each other have the scores of all targets at once. -/
theorem batches_whole [Field K] {L : Lib K} {sqrt : K → K} {s s₂ : LState K} {ids allIds : List PyStr} {p e : GLog K} {mode : Mode} {hessian : Hess}
    {groups : Option (List PyStr)} {damping : Option K} {batches : List (List PyStr × GLog K)} {vs : List (IFResult K)} {r w : IFResult K}
    (hvs : List.Forall₂ (fun b v => ∃ s₁, computeInfluence L sqrt s ids (.dict p) b.1 b.2 mode false hessian groups damping = .ok (s₁, v))
      (batches.map fun b => (b.1, LogArg.dict b.2)) vs) (hne : vs ≠ []) (hst : Stacked .tgt vs r)
    (hw : computeInfluence L sqrt s ids (.dict p) allIds (.dict e) mode false hessian groups damping = .ok (s₂, w))
    (hB : Spec.Batches batches allIds e) (hp : Spec.Labelled ids p) (hb : ∀ b ∈ batches, Spec.Labelled b.1 b.2) (he : Spec.Labelled allIds e)
    (hm : mode = .dot ∨ Dict.keys p = Dict.keys e ∧ ∀ b ∈ batches, Dict.keys b.2 = Dict.keys e) :
    r.srcIds = w.srcIds ∧ r.tgtIds = w.tgtIds ∧ ∀ k, k = nTotal ∨ k ∈ groups.getD [] → ∃ t, r.influence.get? k = some t ∧ w.influence.get? k = some t := by
  obtain ⟨hB1, hB2⟩ := hB
  have hfm : ∀ l : List (List PyStr × GLog K), (l.map fun b => (b.1, LogArg.dict b.2)).flatMap (·.1) = l.flatMap (·.1) := fun l => by rw [List.flatMap_map]
  obtain ⟨h1, h2, h3⟩ := loader_whole hvs hne hst hw (by rw [hfm]; exact hB1)
  refine ⟨h1, h2, fun k hk => ?_⟩
  obtain ⟨_, _, _, -, -, -, -, -, -, -, -, b4⟩ := computeInfluence_ok' hw hp he
  obtain ⟨x, hx, -, -, -⟩ := b4 k hk
  refine ⟨x, h3 k x hx (fun b hb' s₁ v hv => ?_) (fun l b post hl s₁ v t hv ht i j hi hj => ?_), hx⟩
  · obtain ⟨b, hmem, rfl⟩ := List.mem_map.1 hb'
    obtain ⟨_, _, _, -, -, -, -, -, -, -, -, b4⟩ := computeInfluence_ok' hv hp (hb b hmem)
    obtain ⟨t, ht, -⟩ := b4 k hk
    exact ⟨t, ht⟩
  · obtain ⟨l₁, l₂, rfl, rfl, hl₂⟩ := List.map_eq_append_iff.1 hl
    obtain ⟨b, post, rfl, rfl, rfl⟩ := List.map_eq_cons_iff.1 hl₂
    rw [hfm]
    have hlt : (l₁.flatMap (·.1)).length + j < allIds.length := by
      rw [hB1, List.flatMap_append, List.flatMap_cons, List.length_append, List.length_append]
      simp only at hj
      omega
    exact entry_same hv hw hp (hb b (by simp)) he (hm.imp id fun h => ⟨h.1, h.2 b (by simp)⟩) hk ht hx hi hj hlt (hB2 l₁ b post rfl j hj)

theorem Acts.labelled [Field K] {H : HessKind K} {d p : GLog K} {ids : List PyStr} (h : Acts H d p) (hd : Spec.Labelled ids d) : Spec.Labelled ids p := by
  refine ⟨by rw [h.1]; exact hd.nodup, fun m hm => ?_⟩
  obtain ⟨g, h1, h2⟩ := hd.rows m (h.1 ▸ hm)
  obtain ⟨q, h3, h4, -⟩ := h.2 m g h1
  exact ⟨q, h3, by unfold Tensor.size at *; rw [h4]; exact h2⟩

/-- The results of a call with a loader that is not empty. -/
theorem all_some [Field K] {L : Lib K} {sqrt : K → K} {o o' : IFObj K} {hist : List (IFResult K)} {ids : List PyStr} {src : LogArg K}
    {loader : List (List PyStr × LogArg K)} {mode : Mode} {pre save : Bool} {hessian : Hess} {groups : Option (List PyStr)} {damping : Option K}
    {r : Option (RRec K)} (hh : Spec.History L sqrt o hist)
    (h : computeInfluenceAll L sqrt o ids src loader mode pre save hessian groups damping = .ok (o', r)) (hne : loader ≠ []) :
    ∃ x s₁ src' vs, r = some x ∧ (if pre then precondition L o.st src hessian damping else .ok (o.st, src)) = .ok (s₁, src') ∧
      BatchRun L sqrt ids src' mode hessian groups damping s₁ loader o'.st vs ∧ vs ≠ [] ∧ Stacked .tgt vs (o'.heap.deref x) := by
  cases r with
  | none =>
    obtain ⟨s₁, src', h₁, vs, a1, a2, a3, -⟩ := all_ok h
    cases loader with
    | nil => exact absurd rfl hne
    | cons b bs =>
      have hgood := batchRun_good a2
      obtain ⟨s₂, r, vs', -, -, rfl⟩ := a2
      rcases catAll_ok a3 hgood with ⟨hx, -⟩ | ⟨-, x, hx, -⟩ <;> cases hx
  | some x =>
    obtain ⟨s₁, src', vs, a1, a2, a3, a4⟩ := all_stacked h (history_has hh)
    exact ⟨x, s₁, src', vs, rfl, a1, a2, a3, a4⟩

theorem all_whole [Field K] {L : Lib K} {sqrt : K → K} {o o' : IFObj K} {hist : List (IFResult K)} {s' : LState K} {ids allIds : List PyStr} {d e : GLog K}
    {batches : List (List PyStr × GLog K)} {mode : Mode} {pre save : Bool} {hessian : Hess} {groups : Option (List PyStr)} {damping : Option K}
    {r : Option (RRec K)} {w : IFResult K} (hh : Spec.History L sqrt o hist)
    (h : computeInfluenceAll L sqrt o ids (.dict d) (batches.map fun b => (b.1, .dict b.2)) mode pre save hessian groups damping = .ok (o', r))
    (hw : computeInfluence L sqrt o.st ids (.dict d) allIds (.dict e) mode pre hessian groups damping = .ok (s', w))
    (hne : batches ≠ []) (hB : Spec.Batches batches allIds e) (hd : Spec.Labelled ids d) (hb : ∀ b ∈ batches, Spec.Labelled b.1 b.2) (he : Spec.Labelled allIds e)
    (hm : mode = .dot ∨ Dict.keys d = Dict.keys e ∧ ∀ b ∈ batches, Dict.keys b.2 = Dict.keys e)
    (hat : ∀ s₁ src' vs, (if pre then precondition L o.st (.dict d) hessian damping else .ok (o.st, .dict d)) = .ok (s₁, src') →
      BatchRun L sqrt ids src' mode hessian groups damping s₁ (batches.map fun b => (b.1, .dict b.2)) o'.st vs →
      List.Forall₂ (fun b v => ∃ s₂, computeInfluence L sqrt s₁ ids src' b.1 b.2 mode false hessian groups damping = .ok (s₂, v))
        (batches.map fun b => (b.1, .dict b.2)) vs) :
    ∃ x, r = some x ∧ (o'.heap.deref x).srcIds = w.srcIds ∧ (o'.heap.deref x).tgtIds = w.tgtIds ∧
      ∀ k, k = nTotal ∨ k ∈ groups.getD [] → ∃ t, (o'.heap.deref x).influence.get? k = some t ∧ w.influence.get? k = some t := by
  obtain ⟨x, s₁, src', vs, rfl, a1, a2, a3, a4⟩ := all_some hh h (by simpa using hne)
  refine ⟨x, rfl, ?_⟩
  obtain ⟨p, H, rfl, -, hact⟩ := pre_ok hd.nodup a1
  rw [computeInfluence_split a1] at hw
  exact batches_whole (hat _ _ _ a1 a2) a3 a4 hw hB (hact.labelled hd) hb he (by rw [hact.1]; exact hm)

/-- **C47**, mode dot: for every batching of the targets, the influence against the loader has the ids and the scores, under every key, of the
influence against all targets at once. The modules of the batches may be in another order. -/
theorem C47_dot [Field K] {L : Lib K} {sqrt : K → K} {o o' : IFObj K} {hist : List (IFResult K)} {s' : LState K} {ids allIds : List PyStr} {d e : GLog K}
    {batches : List (List PyStr × GLog K)} {pre save : Bool} {hessian : Hess} {groups : Option (List PyStr)} {damping : Option K}
    {r : Option (RRec K)} {w : IFResult K} (hh : Spec.History L sqrt o hist)
    (h : computeInfluenceAll L sqrt o ids (.dict d) (batches.map fun b => (b.1, .dict b.2)) .dot pre save hessian groups damping = .ok (o', r))
    (hw : computeInfluence L sqrt o.st ids (.dict d) allIds (.dict e) .dot pre hessian groups damping = .ok (s', w))
    (hne : batches ≠ []) (hB : Spec.Batches batches allIds e) (hd : Spec.Labelled ids d) (hb : ∀ b ∈ batches, Spec.Labelled b.1 b.2)
    (he : Spec.Labelled allIds e) :
    ∃ x, r = some x ∧ (o'.heap.deref x).srcIds = w.srcIds ∧ (o'.heap.deref x).tgtIds = w.tgtIds ∧
      ∀ k, k = ['t', 'o', 't', 'a', 'l'] ∨ k ∈ groups.getD [] → ∃ t, (o'.heap.deref x).influence.get? k = some t ∧ w.influence.get? k = some t :=
  all_whole hh h hw hne hB hd hb he (.inl rfl) fun s₁ src' vs _ h2 => batchRun_at (fun a b => b = a) (fun s b s₂ r hs hc => by
    subst hs
    exact ⟨dot_state hc, s₂, hc⟩) rfl h2

/-- **C47**, every mode: the same for l2 and cosine, for logs with the same modules, in a state without fitted eigenvalues that was reached by
operations of the state and then any influence computations with the same damping. -/
theorem C47_modes [Field K] {L : Lib K} {sqrt : K → K} {o o' : IFObj K} {hist : List (IFResult K)} {s₀ s' : LState K} {ids allIds : List PyStr} {d e : GLog K}
    {batches : List (List PyStr × GLog K)} {mode : Mode} {pre save : Bool} {hessian : Hess} {groups : Option (List PyStr)} {damping : Option K}
    {r : Option (RRec K)} {w : IFResult K} {ops : List (StateOp K)} {calls : List (Spec.Call K)} (hh : Spec.History L sqrt o hist)
    (hrun : runOps L .init ops = .ok s₀) (hek : s₀.hasAttr nEkfac = false) (hc : ∀ c ∈ calls, c.damping = damping)
    (hcalls : Spec.serveAll L sqrt s₀ calls = .ok o.st)
    (h : computeInfluenceAll L sqrt o ids (.dict d) (batches.map fun b => (b.1, .dict b.2)) mode pre save hessian groups damping = .ok (o', r))
    (hw : computeInfluence L sqrt o.st ids (.dict d) allIds (.dict e) mode pre hessian groups damping = .ok (s', w))
    (hne : batches ≠ []) (hB : Spec.Batches batches allIds e) (hd : Spec.Labelled ids d) (hb : ∀ b ∈ batches, Spec.Labelled b.1 b.2)
    (he : Spec.Labelled allIds e) (hk : Dict.keys d = Dict.keys e) (hkb : ∀ b ∈ batches, Dict.keys b.2 = Dict.keys e) :
    ∃ x, r = some x ∧ (o'.heap.deref x).srcIds = w.srcIds ∧ (o'.heap.deref x).tgtIds = w.tgtIds ∧
      ∀ k, k = ['t', 'o', 't', 'a', 'l'] ∨ k ∈ groups.getD [] → ∃ t, (o'.heap.deref x).influence.get? k = some t ∧ w.influence.get? k = some t := by
  have hv := serveAll_same (P := fun x => x = damping) (.run hrun hek) (fun c h => .inr (by rw [hc c h])) hcalls
  refine all_whole hh h hw hne hB hd hb he (.inr ⟨hk, hkb⟩) fun s₁ src' vs h1 h2 => ?_
  have hs₁ : SameView L (fun x => x = damping) s₁ s₁ := by
    cases pre with
    | false => simp only [Bool.false_eq_true, if_false] at h1; cases h1; exact hv.symm.left
    | true =>
      rw [if_pos rfl] at h1
      exact ((precondition_same hv.symm.left (.dict d) hessian damping (.inr rfl)).2 _ _ h1).symm.left
  refine batchRun_at (fun a b => SameView L (fun x => x = damping) a b) (fun s b s₂ r hs hcc => ?_) hs₁ h2
  obtain ⟨a1, -⟩ := computeInfluence_same hs sqrt ids b.1 src' b.2 mode false hessian groups damping (.inr rfl)
  obtain ⟨-, a2⟩ := computeInfluence_same hs.symm.left sqrt ids b.1 src' b.2 mode false hessian groups damping (.inr rfl)
  rcases a1 with ⟨e, -, he⟩ | ⟨s₃, s₄, v, h3, h4, -⟩
  · rw [hcc] at he; cases he
  · rw [hcc] at h4; cases h4
    exact ⟨hs.trans (a2 _ _ hcc), s₃, h3⟩

/-! ### C56 -/

theorem history_stacked [Field K] {L : Lib K} {sqrt : K → K} {o : IFObj K} {vs : List (IFResult K)} (h : Spec.History L sqrt o vs) :
    (vs = [] ∧ o.saved = none) ∨ (vs ≠ [] ∧ ∃ a, o.saved = some a ∧ Stacked .src vs (o.heap.deref a)) := by
  induction h with
  | new => exact .inl ⟨rfl, rfl⟩
  | state s _ ih => exact ih
  | unsaved hh hc ih =>
    obtain ⟨-, -, -, ⟨-, h1, h2⟩ | ⟨h1, -⟩ | ⟨_, _, _, h1, -⟩⟩ := all_cases hc (history_has hh)
    · rw [h1]
      rcases ih with ⟨e1, e2⟩ | ⟨e1, a, e2, e3⟩
      · exact .inl ⟨e1, e2⟩
      · exact .inr ⟨e1, a, e2, by rw [(h2 a e2).1.same]; exact e3⟩
    · cases h1
    · cases h1
  | empty hh hc ih =>
    obtain ⟨-, -, -, ⟨h1, -⟩ | ⟨-, h1, h2⟩ | ⟨_, _, _, -, -, h1, -⟩⟩ := all_cases hc (history_has hh)
    · cases h1
    · rcases ih with ⟨e1, -⟩ | ⟨-, a, e2, -⟩
      · exact .inl ⟨e1, h2⟩
      · rw [h1] at e2; cases e2
    · cases h1
  | saved hh hc ih =>
    obtain ⟨-, -, -, ⟨h1, -⟩ | ⟨-, h1, h2⟩ | ⟨a, x, a', -, h1, h2, h3, -, -, -, -, h4⟩⟩ := all_cases hc (history_has hh)
    · cases h1
    · obtain ⟨_, _, _, -, -, -, hst⟩ := all_stacked hc (history_has hh)
      rcases ih with ⟨rfl, -⟩ | ⟨-, a, e2, -⟩
      · exact .inr ⟨by simp, _, h2, .one .src hst.good⟩
      · rw [h1] at e2; cases e2
    · obtain ⟨_, _, _, -, -, -, hst⟩ := all_stacked hc (history_has hh)
      cases h2
      rcases ih with ⟨-, e2⟩ | ⟨e1, b, e2, e3⟩
      · rw [h1] at e2; cases e2
      · rw [h1] at e2; cases e2
        exact .inr ⟨by simp, _, h3, e3.snoc e1 hst.good h4⟩

/-- **C56.** After any sequence of calls, of which those with `save=True` returned the results `vs`, the saved scores have the source ids of
these in order, the target ids of the first, the keys of the first, and under every key the row of every source is the one returned for it. -/
theorem C56_saved [Field K] {L : Lib K} {sqrt : K → K} {o : IFObj K} {vs : List (IFResult K)} (h : Spec.History L sqrt o vs) (hne : vs ≠ []) :
    ∃ a, o.saved = some a ∧ (o.heap.deref a).srcIds = vs.flatMap (·.srcIds) ∧ (∀ v ∈ vs.head?, (o.heap.deref a).tgtIds = v.tgtIds) ∧
      (∀ v ∈ vs.head?, ∀ k, ((o.heap.deref a).influence.get? k).isSome = (v.influence.get? k).isSome) ∧
      ∀ k x, (o.heap.deref a).influence.get? k = some x → x.shape = [(o.heap.deref a).srcIds.length, (o.heap.deref a).tgtIds.length] ∧
        ∀ before v after, vs = before ++ v :: after → ∃ t, v.influence.get? k = some t ∧ v.tgtIds.length = (o.heap.deref a).tgtIds.length ∧
          ∀ i j, i < v.srcIds.length → j < v.tgtIds.length → x.el [(before.flatMap (·.srcIds)).length + i, j] = t.el [i, j] := by
  rcases history_stacked h with ⟨h1, -⟩ | ⟨-, a, h1, h2⟩
  · exact absurd h1 hne
  · refine ⟨a, h1, h2.ids, h2.other, fun v hv k => ?_, fun k x hx => ⟨h2.good k x hx, h2.el k x hx⟩⟩
    have := h2.keys v hv k
    cases hk : v.influence.get? k with
    | none => rw [hk] at this; simp only at this; rw [this]
    | some t => rw [hk] at this; obtain ⟨x, hx, -⟩ := this; rw [hx]; rfl

/-! ### C57 -/

/-- **C57.** A result that was returned without `save=True`, or when something had been saved before, never changes later. -/
theorem C57_unchanged_partial [Field K] {L : Lib K} {sqrt : K → K} {o o₁ o₂ : IFObj K} {vs : List (IFResult K)} {ids : List PyStr} {src : LogArg K}
    {loader : List (List PyStr × LogArg K)} {mode : Mode} {pre save : Bool} {hessian : Hess} {groups : Option (List PyStr)} {damping : Option K} {r : RRec K}
    (hh : Spec.History L sqrt o vs) (h : computeInfluenceAll L sqrt o ids src loader mode pre save hessian groups damping = .ok (o₁, some r))
    (hs : save = false ∨ vs ≠ []) (hl : Spec.Later L sqrt o₁ o₂) : o₂.heap.deref r = o₁.heap.deref r := by
  obtain ⟨h1, h2, -, h4⟩ := all_cases h (history_has hh)
  refine (later_keeps hl h2 (h1 r rfl) ?_).1.same
  rcases h4 with ⟨-, e1, e2⟩ | ⟨e0, e1, e2⟩ | ⟨a, x, a', -, e1, e2, e3, e4, -⟩
  · intro a ha
    rw [e1] at ha
    exact (e2 a ha).2 r rfl
  · rcases hs with hs | hs
    · rw [hs] at e0; cases e0
    · rcases history_stacked hh with ⟨h5, -⟩ | ⟨-, a, h5, -⟩
      · exact absurd h5 hs
      · rw [e1] at h5; cases h5
  · intro b hb
    cases e2
    rw [e3] at hb
    cases hb
    exact e4

/-- The lists of what is saved stay where they are; the target ids stay and the source ids are extended. -/
theorem later_lists [Field K] {L : Lib K} {sqrt : K → K} {o o' : IFObj K} (h : Spec.Later L sqrt o o') (hs : ∀ a, o.saved = some a → o.heap.Has a)
    {r : RRec K} (hr : o.saved = some r) :
    ∃ a, o'.saved = some a ∧ a.src = r.src ∧ a.tgt = r.tgt ∧ o.heap.list r.src <+: o'.heap.list r.src ∧ o'.heap.list r.tgt = o.heap.list r.tgt := by
  induction h with
  | refl => exact ⟨r, hr, rfl, rfl, List.prefix_refl _, rfl⟩
  | state s _ ih => exact ih
  | call hl hc ih =>
    obtain ⟨a, e1, e2, e3, e4, e5⟩ := ih
    obtain ⟨-, -, -, ⟨-, f1, f2⟩ | ⟨-, f1, -⟩ | ⟨b, x, a', -, f1, -, f2, -, f3, f4, -, f5⟩⟩ := all_cases hc (later_has hl hs)
    · have := (f2 a e1).1.same
      simp only [RHeap.deref, IFResult.mk.injEq, e2, e3] at this
      exact ⟨a, f1.trans e1, e2, e3, by rw [this.1]; exact e4, by rw [this.2.1]; exact e5⟩
    · rw [f1] at e1; cases e1
    · rw [f1] at e1; cases e1
      unfold catResult at f5
      split at f5
      · cases f5
      · simp only [RHeap.deref, Except.ok.injEq, IFResult.mk.injEq, f3, f4, e2, e3] at f5
        exact ⟨a', f2, f3.trans e2, f4.trans e3, by rw [← f5.1]; exact e4.trans (List.prefix_append _ _), by rw [← f5.2.1]; exact e5⟩

/-- **C57.** Of the first result that is saved, too, the target ids and, without groups, the scores never change; its source ids are kept and only
others are added at the end. -/
theorem C57_first_partial [Field K] {L : Lib K} {sqrt : K → K} {o o₁ o₂ : IFObj K} {ids : List PyStr} {src : LogArg K}
    {loader : List (List PyStr × LogArg K)} {mode : Mode} {pre : Bool} {hessian : Hess} {groups : Option (List PyStr)} {damping : Option K} {r : RRec K}
    (hh : Spec.History L sqrt o []) (h : computeInfluenceAll L sqrt o ids src loader mode pre true hessian groups damping = .ok (o₁, some r))
    (hl : Spec.Later L sqrt o₁ o₂) :
    (o₁.heap.deref r).srcIds <+: (o₂.heap.deref r).srcIds ∧ (o₂.heap.deref r).tgtIds = (o₁.heap.deref r).tgtIds ∧
      ∀ t, (o₁.heap.deref r).influence = .one t → (o₂.heap.deref r).influence = .one t := by
  obtain ⟨-, h2, -, h4⟩ := all_cases h (history_has hh)
  have hsv : o₁.saved = some r := by
    rcases history_stacked hh with ⟨-, e⟩ | ⟨hn, -⟩
    · rcases h4 with ⟨e0, -⟩ | ⟨-, -, e2⟩ | ⟨_, _, _, -, e1, -⟩
      · cases e0
      · exact e2
      · rw [e] at e1; cases e1
    · exact absurd rfl hn
  obtain ⟨a, -, -, -, e4, e5⟩ := later_lists hl h2 hsv
  refine ⟨e4, e5, fun t ht => ?_⟩
  unfold RHeap.deref RHeap.inf at *
  cases hi : r.inf with
  | inl u => simp only [hi] at ht ⊢; exact ht
  | inr i => simp only [hi] at ht; cases ht

end Logix
