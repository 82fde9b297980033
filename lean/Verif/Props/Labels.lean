/-
C48: scores are labelled by the right ids. C85: modes l2 and cosine on a GPU.
-/
import Verif.Props.Groups

namespace Logix
variable {K : Type}

/-! ### C48 -/

theorem computeInfluence_parts [Field K] {L : Lib K} {sqrt : K → K} {s s' : LState K} {srcIds tgtIds : List PyStr} {src tgt : LogArg K} {mode : Mode}
    {pre : Bool} {hessian : Hess} {groups : Option (List PyStr)} {damping : Option K} {r : IFResult K}
    (h : computeInfluence L sqrt s srcIds src tgtIds tgt mode pre hessian groups damping = .ok (s', r)) :
    ∃ s₁ src' sc tgt' sc₂ d, (if pre then precondition L s src hessian damping else .ok (s, src)) = .ok (s₁, src') ∧
      rawScores s₁ src' tgt groups = .ok (sc, tgt') ∧ modeScores L sqrt s₁ tgtIds tgt' mode hessian groups damping sc = .ok (s', sc₂) ∧
      checkScores [srcIds.length, tgtIds.length] sc₂ = .ok d ∧ finishScores groups d = .ok r.influence ∧ r.srcIds = srcIds ∧ r.tgtIds = tgtIds := by
  unfold computeInfluence at h
  split at h
  · cases h
  · split at h
    · cases h
    · next s₁ src' hp =>
      split at h
      · cases h
      · next sc tgt' hraw =>
        split at h
        · cases h
        · next s₂ sc₂ hms =>
          split at h
          · cases h
          · next scd hc =>
            split at h
            · cases h
            · next inf hf =>
              cases h
              exact ⟨s₁, src', sc, tgt', sc₂, scd, hp, hraw, hms, hc, hf, rfl, rfl⟩

/-- **C48.** Whatever the arguments: the result carries the ids it was given, and every tensor of scores has one row per source id and one
column per target id. -/
theorem C48_shape [Field K] {L : Lib K} {sqrt : K → K} {s s' : LState K} {srcIds tgtIds : List PyStr} {src tgt : LogArg K} {mode : Mode}
    {pre : Bool} {hessian : Hess} {groups : Option (List PyStr)} {damping : Option K} {r : IFResult K}
    (h : computeInfluence L sqrt s srcIds src tgtIds tgt mode pre hessian groups damping = .ok (s', r)) :
    r.srcIds = srcIds ∧ r.tgtIds = tgtIds ∧ ∀ k t, r.influence.get? k = some t → t.shape = [srcIds.length, tgtIds.length] := by
  obtain ⟨s₁, src', sc, tgt', sc₂, d, -, -, -, hc, hf, h1, h2⟩ := computeInfluence_parts h
  obtain ⟨c1, c2⟩ := checkScores_ok hc
  refine ⟨h1, h2, fun k t ht => ?_⟩
  have : ∃ k, Dict.get? d k = some t := by
    unfold finishScores at hf
    generalize r.influence = inf at ht hf
    split at hf
    · cases hf; exact ⟨k, ht⟩
    · split at hf
      · next u hu =>
        cases hf
        unfold Influence.get? at ht
        simp only at ht
        split at ht
        · cases ht; exact ⟨nTotal, hu⟩
        · cases ht
      · cases hf
  obtain ⟨k', hk'⟩ := this
  have hm : k' ∈ Dict.keys sc₂ := by rw [← c1, ← Dict.get?_isSome_iff, hk']; rfl
  rw [← Dict.get?_isSome_iff] at hm
  obtain ⟨v, hv⟩ := Option.isSome_iff_exists.1 hm
  obtain ⟨u, -, u1, u2⟩ := c2 k' v hv
  rw [hk'] at u2
  cases u2
  exact u1

/-- **C48.** In dot mode an entry is the score of its two samples: two calls give it the same value wherever the samples are, whatever else
the logs hold. -/
theorem C48_entry [Field K] {L : Lib K} {sqrt : K → K} {s s₁ s₂ : LState K} {srcIds tgtIds srcIds' tgtIds' : List PyStr} {d e d' e' : GLog K}
    {pre : Bool} {hessian : Hess} {groups : Option (List PyStr)} {damping : Option K} {r r' : IFResult K}
    (h : computeInfluence L sqrt s srcIds (.dict d) tgtIds (.dict e) .dot pre hessian groups damping = .ok (s₁, r))
    (h' : computeInfluence L sqrt s srcIds' (.dict d') tgtIds' (.dict e') .dot pre hessian groups damping = .ok (s₂, r'))
    (hd : Spec.Labelled srcIds d) (he : Spec.Labelled tgtIds e) (hd' : Spec.Labelled srcIds' d') (he' : Spec.Labelled tgtIds' e')
    {i j i' j' : Nat} (hi : i < srcIds.length) (hj : j < tgtIds.length) (hi' : i' < srcIds'.length) (hj' : j' < tgtIds'.length)
    (hs : Spec.SameSample d i d' i') (ht : Spec.SameSample e j e' j') : ∀ k, k = ['t', 'o', 't', 'a', 'l'] ∨ k ∈ groups.getD [] → ∃ t t',
      r.influence.get? k = some t ∧ r'.influence.get? k = some t' ∧ t.el [i, j] = t'.el [i', j'] := by
  intro k hk
  obtain ⟨H, _, x₁, p1, -, -, -, p2, -, -, p3⟩ := computeInfluence_ok h hd he
  obtain ⟨H', _, x₂, q1, -, -, -, q2, -, -, q3⟩ := computeInfluence_ok h' hd' he'
  rw [← hs.keys] at q1
  obtain rfl := preOf_unique p1 q1
  obtain ⟨t, t1, -, -, t2⟩ := p3 k hk
  obtain ⟨u, u1, -, -, u2⟩ := q3 k hk
  refine ⟨t, u, t1, u1, ?_⟩
  rw [(t2 (.inl rfl)).2 i j hi hj, (u2 (.inl rfl)).2 i' j' hi' hj', ← hs.keys]
  simp only [modeFn]
  congr 1
  refine List.map_congr_left fun m hm => ?_
  obtain ⟨a, b, k1, k2, k3⟩ := q2 m (hs.keys ▸ hm)
  rw [hs.formAt ht H (hs.keys ▸ hm) (grad_mem k2) fun g z hg hz => by rw [k2] at hg; rw [k1] at hz; cases hg; cases hz; exact k3.symm]

/-- **C48**, in all modes, for logs with the same modules in a state without fitted eigenvalues. -/
theorem C48_entry_modes_partial [Field K] {L : Lib K} {sqrt : K → K} {ops : List (StateOp K)} {s s₁ s₂ : LState K} {srcIds tgtIds srcIds' tgtIds' : List PyStr}
    {d e d' e' : GLog K} {mode : Mode} {hessian : Hess} {groups : Option (List PyStr)} {damping : Option K} {r r' : IFResult K}
    (hrun : runOps L .init ops = .ok s) (hek : s.hasAttr nEkfac = false)
    (h : computeInfluence L sqrt s srcIds (.dict d) tgtIds (.dict e) mode true hessian groups damping = .ok (s₁, r))
    (h' : computeInfluence L sqrt s srcIds' (.dict d') tgtIds' (.dict e') mode true hessian groups damping = .ok (s₂, r'))
    (hd : Spec.Labelled srcIds d) (he : Spec.Labelled tgtIds e) (hd' : Spec.Labelled srcIds' d') (he' : Spec.Labelled tgtIds' e')
    (hk : Dict.keys d = Dict.keys e)
    {i j i' j' : Nat} (hi : i < srcIds.length) (hj : j < tgtIds.length) (hi' : i' < srcIds'.length) (hj' : j' < tgtIds'.length)
    (hs : Spec.SameSample d i d' i') (ht : Spec.SameSample e j e' j') : ∀ k, k = ['t', 'o', 't', 'a', 'l'] ∨ k ∈ groups.getD [] → ∃ t t',
      r.influence.get? k = some t ∧ r'.influence.get? k = some t' ∧ t.el [i, j] = t'.el [i', j'] := by
  intro k hk'
  obtain ⟨H, p1, p2, p3⟩ := mode_scores hrun hek h hd he hk
  obtain ⟨H', q1, q2, q3⟩ := mode_scores hrun hek h' hd' he' (hs.keys.symm.trans (hk.trans ht.keys))
  rw [← hs.keys, p1] at q1
  cases q1
  obtain ⟨t, t1, t2⟩ := p3 k hk'
  obtain ⟨u, u1, u2⟩ := q3 k hk'
  refine ⟨t, u, t1, u1, ?_⟩
  rw [t2 i j hi hj, u2 i' j' hi' hj', ← hs.keys]
  congr 1
  · congr 1
    refine List.map_congr_left fun m hm => ?_
    obtain ⟨a, b, k1, k2, k3⟩ := q2 m (hs.keys ▸ hm)
    rw [hs.formAt ht H (hs.keys ▸ hm) (grad_mem k2) fun g z hg hz => by rw [k2] at hg; rw [k1] at hz; cases hg; cases hz; exact k3.symm]
  · congr 1
    refine List.map_congr_left fun m hm => ?_
    obtain ⟨a, b, k1, k2, k3⟩ := q2 m (hs.keys ▸ hm)
    rw [ht.formAt ht H (grad_mem k2) (grad_mem k2) fun g z hg hz => by rw [hg] at hz; cases hz; rfl]

theorem applyNorm_shape [Zero K] {f : K → K → K} {norm : Influence K} {sc sc' : Scores K} (h : applyNorm f norm sc = .ok sc') {k : PyStr} {t : Tensor K}
    (ht : Dict.get? sc k = some (some t)) : ∃ x, Dict.get? sc' k = some (some x) ∧ x.shape = t.shape := by
  obtain ⟨t', x, h1, h2, h3⟩ := (applyNorm_ok h).2 k _ ht
  refine ⟨x, h3, ?_⟩
  unfold scoreOp Tensor.iop at h2
  simp only at h2
  split at h2
  · cases h2; rfl
  · cases h2

/-- **C48.** If all modules of the source have `n` samples and all modules of the target have `n'`, a call returns only if there are as many
ids. -/
theorem C48_mismatch_partial [Field K] {L : Lib K} {sqrt : K → K} {s s' : LState K} {srcIds tgtIds : List PyStr} {d e : GLog K} {mode : Mode}
    {pre : Bool} {hessian : Hess} {groups : Option (List PyStr)} {damping : Option K} {r : IFResult K} {n n' : Nat}
    (h : computeInfluence L sqrt s srcIds (.dict d) tgtIds (.dict e) mode pre hessian groups damping = .ok (s', r))
    (hd : (Dict.keys d).Nodup) (hd' : ∀ m ∈ Dict.keys d, ∃ g, Spec.grad d m = some g ∧ g.size 0 = n) (hne : Dict.keys d ≠ [])
    (he : (Dict.keys e).Nodup) (he' : ∀ m ∈ Dict.keys e, ∃ g, Spec.grad e m = some g ∧ g.size 0 = n') : srcIds.length = n ∧ tgtIds.length = n' := by
  obtain ⟨s₁, src', sc, tgt', sc₂, D, hp, hraw, hms, hc, hf, -, -⟩ := computeInfluence_parts h
  have ld : Spec.Labelled (List.replicate n []) d := ⟨hd, by simpa using hd'⟩
  have le : Spec.Labelled (List.replicate n' []) e := ⟨he, by simpa using he'⟩
  obtain ⟨p, H, rfl, -, ha⟩ := pre_ok hd hp
  obtain ⟨e', rfl, -, r1, r2, r3⟩ := rawScores_ok hraw ha ld le
  have hk := (r1 nTotal).2 (.inl rfl)
  rw [← Dict.get?_isSome_iff] at hk
  obtain ⟨v, hv⟩ := Option.isSome_iff_exists.1 hk
  rcases r3 _ _ hv with ⟨-, h0⟩ | ⟨t, rfl, t1, -⟩
  · obtain ⟨m, hm⟩ := List.exists_mem_of_ne_nil _ hne
    exact absurd (by simp [scoreKeys]) (h0 m hm)
  · have : ∃ x : Tensor K, Dict.get? sc₂ nTotal = some (some x) ∧ x.shape = t.shape := by
      unfold modeScores at hms
      split at hms
      · cases hms; exact ⟨t, hv, rfl⟩
      · split at hms
        · cases hms
        · split at hms
          · cases hms
          · next hn => cases hms; exact applyNorm_shape hn hv
    obtain ⟨x, hx, hxs⟩ := this
    obtain ⟨y, hy, hys, -⟩ := (checkScores_ok hc).2 _ _ hx
    cases hy
    rw [hxs, t1] at hys
    have h1 := List.cons.inj hys
    have h2 := List.cons.inj h1.2
    simp only [List.length_replicate] at h1 h2
    exact ⟨h1.1.symm, h2.1.symm⟩

/-! ### C85 -/

/-- If no gradient of the source is on the CPU, no call in mode l2 or cosine returns: the norms of the targets are on the CPU. -/
theorem C85_gpu_raises [Field K] {L : Lib K} {sqrt : K → K} {s : LState K} {srcIds tgtIds : List PyStr} {d e : GLog K} {mode : Mode} {pre : Bool}
    {hessian : Hess} {groups : Option (List PyStr)} {damping : Option K} (hd : Spec.Labelled srcIds d) (he : Spec.Labelled tgtIds e)
    (hk : Dict.keys d = Dict.keys e) (hm : mode = .l2 ∨ mode = .cosine) (hg : ∀ m g, Spec.grad d m = some g → g.dev ≠ .cpu) :
    ∀ x, computeInfluence L sqrt s srcIds (.dict d) tgtIds (.dict e) mode pre hessian groups damping ≠ .ok x := by
  rintro ⟨s', r⟩ h
  have hm' : mode ≠ .dot := by rcases hm with rfl | rfl <;> decide
  obtain ⟨H, _, s₁, -, -, -, -, -, -, g, -⟩ := computeInfluence_ok h hd he
  obtain ⟨m, -, x, hx, hc⟩ := g hm' hk
  exact hg m x hx hc

end Logix
