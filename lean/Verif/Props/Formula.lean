/-
C94: the scores are the influence function of the logged data.
-/
import Verif.Lemmas.Formula
import Verif.Spec.Formula
import Verif.Props.Determined
import Verif.Props.Influence

set_option linter.unusedSectionVars false

namespace Logix
variable {K : Type} [Field K] [LinearOrder K] [IsStrictOrderedRing K]

/-- A finalized state holds the second moments of what was logged. -/
theorem finalized_cov {L : Lib K} {calls : List (Plugin × StatCall K)} {s : LState K} (h : Spec.Finalized L calls s) {m : PyStr} {lt : LogType}
    (hl : Spec.Logged calls m lt) : ∃ t W, Spec.tensorAt s.attrs nCov [m, lt.name] = some t ∧ t.shape = [W, W] ∧
      ∀ i j, i < W → j < W → t.el [i, j] = Spec.secondMoment calls m lt i j := by
  obtain ⟨-, -, s₀, dir, dir', h2, h3⟩ := h
  obtain ⟨t, W, a1, a2, a3, a4⟩ := C31_covariance L h2 h3 m lt hl.1 fun c hc => by
    refine (hl.2 c hc).imp id fun e => ?_
    rw [← e]
    unfold Spec.callsOf at hc
    obtain ⟨pc, hpc, rfl⟩ := List.mem_map.1 hc
    have := (List.mem_filter.1 hpc).2
    simp only [decide_eq_true_eq] at this
    exact this.2.2
  exact ⟨t, W, a1, a2, a4⟩

/-- The same for many modules at once. -/
theorem finalized_covs {L : Lib K} {calls : List (Plugin × StatCall K)} {s : LState K} (h : Spec.Finalized L calls s) {keys : List PyStr} {lt : LogType}
    (hl : ∀ m ∈ keys, Spec.Logged calls m lt) : ∃ (A : PyStr → Tensor K) (W : PyStr → Nat), ∀ m ∈ keys, Spec.tensorAt s.attrs nCov [m, lt.name] = some (A m) ∧
      (A m).shape = [W m, W m] ∧ ∀ i j, i < W m → j < W m → (A m).el [i, j] = Spec.secondMoment calls m lt i j := by
  have : ∀ m, ∃ (t : Tensor K) (W : Nat), m ∈ keys → Spec.tensorAt s.attrs nCov [m, lt.name] = some t ∧ t.shape = [W, W] ∧
      ∀ i j, i < W → j < W → t.el [i, j] = Spec.secondMoment calls m lt i j := by
    intro m
    by_cases hm : m ∈ keys
    · obtain ⟨t, W, h1⟩ := finalized_cov h (hl m hm)
      exact ⟨t, W, fun _ => h1⟩
    · exact ⟨Tensor.ofFn2 .cpu 0 0 fun _ _ => 0, 0, fun h => absurd h hm⟩
  choose A W hA using this
  exact ⟨A, W, hA⟩

/-- The damped systems of KFAC have solutions, and any solutions give the form of the inverse Hessian. -/
theorem kfac_solutions {L : Lib K} {calls : List (Plugin × StatCall K)} {s s₁ s₂ : LState K} {ids : List PyStr} {d : GLog K} {o : LogArg K} {hessian : Hess} {c : K}
    {H : HessKind K} (hE : Spec.EighOk L) (hI : Spec.InverseOk L) (hf : Spec.Finalized L calls s) (hu : Spec.UsesKfac s (Dict.keys d) hessian)
    {A B : PyStr → Tensor K} {wd ht : PyStr → Nat} {a b : PyStr → Nat → Nat → K}
    (hA : ∀ m ∈ Dict.keys d, Spec.tensorAt s.attrs nCov [m, LogType.name .forward] = some (A m) ∧ (A m).shape = [wd m, wd m] ∧
      ∀ i j, i < wd m → j < wd m → (A m).el [i, j] = a m i j)
    (hB : ∀ m ∈ Dict.keys d, Spec.tensorAt s.attrs nCov [m, LogType.name .backward] = some (B m) ∧ (B m).shape = [ht m, ht m] ∧
      ∀ i j, i < ht m → j < ht m → (B m).el [i, j] = b m i j)
    (hc : 0 < c) (hd : Spec.Labelled ids d) (hpre : precondition L s (.dict d) hessian (some c) = .ok (s₂, o))
    (hH : hessOf L s (Dict.keys d) hessian (some c) = .ok (s₁, H)) :
    (∀ i, i < ids.length → ∃ x : PyStr → List Nat → K, ∀ m ∈ Dict.keys d, Spec.KfacSystem (a m) (b m) c d i m (x m)) ∧
    ∀ i m x, m ∈ Dict.keys d → Spec.KfacSystem (a m) (b m) c d i m x → ∀ g, Spec.grad d m = some g → ∀ f,
      H.form m g.shape.tail (Spec.row g i) f = Spec.dot g.shape.tail x f := by
  have hek : s.hasAttr nEkfac = false := finalized_hasAttr hf (by decide) rfl
  have hP : Spec.PosHessian L s (Dict.keys d) hessian c :=
    posHessian_of_logged hE hI hf hc (.inl ⟨hu, fun m hm => ⟨by rw [(hA m hm).1]; rfl, by rw [(hB m hm).1]; rfl⟩⟩)
  obtain ⟨ops, hrun, hmask⟩ := hP.run
  obtain ⟨out, -, -, hsol⟩ := C43_positive_damping hrun hmask hE hP.svd hek hd.nodup hu (fun m hm => ⟨(hA m hm).1, (hA m hm).2.1⟩)
    (fun m hm => ⟨(hB m hm).1, (hB m hm).2.1⟩) hc hpre
  refine ⟨fun i hi => ⟨fun m => match Spec.grad out m with | some P => Spec.row P i | none => fun _ => 0, fun m hm => ?_⟩, fun i m x hm hx g hg f => ?_⟩
  · obtain ⟨G, P, n, g1, g2, g3, -, -, g4⟩ := hsol m hm
    obtain ⟨G', g1', g5⟩ := hd.rows m hm
    rw [g1] at g1'; cases g1'
    have hn : n = ids.length := by rw [← g5]; simp [Tensor.size, g3]
    refine ⟨G, n, ht m, wd m, g1, g3, fun p q hp hq => ?_⟩
    rw [← g4 i p q (hn ▸ hi) hp hq]
    simp only [g2, Spec.row]
    congr 1
    refine Finset.sum_congr rfl fun p' hp' => Finset.sum_congr rfl fun q' hq' => ?_
    rw [Finset.mem_range] at hp' hq'
    rw [(hB m hm).2.2 p p' hp hp', (hA m hm).2.2 q' q hq' hq]
  · obtain ⟨G, P, n, g1, g2, g3, -, -, -⟩ := hsol m hm
    obtain ⟨G', n', h', w', e1, e2, e3⟩ := hx
    rw [g1] at e1; cases e1
    rw [hg] at g1; cases g1
    rw [g3] at e2
    obtain ⟨e4, e5⟩ := List.cons.inj e2
    obtain ⟨e6, e7⟩ := List.cons.inj e5
    obtain ⟨e8, -⟩ := List.cons.inj e7
    subst e4; subst e6; subst e8
    rw [g3]
    refine kfac_solution hP hd.nodup hek hu hpre hH hm (hA m hm).1 (hB m hm).1 (hA m hm).2.1 (hB m hm).2.1 (fun m hm => by rw [(hA m hm).1]; rfl)
      fun p q hp hq => ?_
    rw [Spec.row, ← e3 p q hp hq]
    congr 1
    refine Finset.sum_congr rfl fun p' hp' => Finset.sum_congr rfl fun q' hq' => ?_
    rw [Finset.mem_range] at hp' hq'
    rw [(hB m hm).2.2 p p' hp hp', (hA m hm).2.2 q' q hq' hq]

/-- The damped systems of the covariance of the gradients have solutions, and any solutions give the form of the inverse Hessian. -/
theorem raw_solutions {L : Lib K} {calls : List (Plugin × StatCall K)} {s s₁ s₂ : LState K} {ids : List PyStr} {d : GLog K} {o : LogArg K} {hessian : Hess} {c : K}
    {H : HessKind K} (hE : Spec.EighOk L) (hI : Spec.InverseOk L) (hf : Spec.Finalized L calls s) (hu : Spec.UsesRaw s (Dict.keys d) hessian)
    {C : PyStr → Tensor K} {wd : PyStr → Nat} {S : PyStr → Nat → Nat → K}
    (hC : ∀ m ∈ Dict.keys d, Spec.tensorAt s.attrs nCov [m, LogType.name .grad] = some (C m) ∧ (C m).shape = [wd m, wd m] ∧
      ∀ i j, i < wd m → j < wd m → (C m).el [i, j] = S m i j)
    (hc : 0 < c) (hd : Spec.Labelled ids d) (hpre : precondition L s (.dict d) hessian (some c) = .ok (s₂, o))
    (hH : hessOf L s (Dict.keys d) hessian (some c) = .ok (s₁, H)) :
    (∀ i, i < ids.length → ∃ x : PyStr → List Nat → K, ∀ m ∈ Dict.keys d, Spec.RawSystem (S m) c d i m (x m)) ∧
    ∀ i m x, m ∈ Dict.keys d → Spec.RawSystem (S m) c d i m x → ∀ g, Spec.grad d m = some g → ∀ f,
      H.form m g.shape.tail (Spec.row g i) f = Spec.dot g.shape.tail x f := by
  have hP : Spec.PosHessian L s (Dict.keys d) hessian c := posHessian_of_logged hE hI hf hc (.inr ⟨hu, fun m hm => by rw [(hC m hm).1]; rfl⟩)
  obtain ⟨ops, hrun, hmask⟩ := hP.run
  obtain ⟨out, -, -, hsol⟩ := C44_raw_solves hrun hI hP.inv hd.nodup hu (fun m hm => ⟨(hC m hm).1, (hC m hm).2.1⟩) hpre
  refine ⟨fun i hi => ⟨fun m => match Spec.grad out m with | some P => Spec.row P i | none => fun _ => 0, fun m hm => ?_⟩, fun i m x hm hx g hg f => ?_⟩
  · obtain ⟨g, p, n, r, g1, g2, g3, -, g5, -, g4⟩ := hsol m hm
    obtain ⟨G', g1', g6⟩ := hd.rows m hm
    rw [g1] at g1'; cases g1'
    have hn : n = ids.length := by rw [← g6]; simp [Tensor.size, g3]
    obtain ⟨n₀, hsym, -⟩ := posHessian_symm hP (hC m hm).1
    have hw := hsym.1
    rw [(hC m hm).2.1] at hw
    obtain rfl := (List.cons.inj hw).1
    refine ⟨g, g1, fun idx hidx => ?_⟩
    rw [g3] at hidx ⊢
    simp only [List.tail_cons, g2, Spec.row] at hidx ⊢
    rw [← g4 i (hn ▸ hi) idx hidx]
    have hlt := ravel_lt r idx ((mem_indices _ _).1 hidx)
    have e1 : ∀ idx' ∈ indices r, p.el (i :: idx') * ((C m).el [ravel r idx', ravel r idx] + if ravel r idx' = ravel r idx then c else 0) =
        S m (ravel r idx) (ravel r idx') * p.el (i :: idx') +
          (fun a => if a = ravel r idx then c * p.el (i :: (indices r).getD a []) else 0) (ravel r idx') := by
      intro idx' h'
      have hlt' := ravel_lt r idx' ((mem_indices _ _).1 h')
      rw [hsym.2 _ _ (by rw [← g5]; exact hlt') (by rw [← g5]; exact hlt), (hC m hm).2.2 _ _ (by rw [← g5]; exact hlt) (by rw [← g5]; exact hlt')]
      simp only
      split
      · rw [getD_ravel r idx' ((mem_indices _ _).1 h')]; ring
      · ring
    rw [List.map_congr_left e1, List.sum_map_add, ← sum_range_numel r (fun a => if a = ravel r idx then c * p.el (i :: (indices r).getD a []) else 0),
      Finset.sum_ite_eq', if_pos (Finset.mem_range.2 hlt), getD_ravel r idx ((mem_indices _ _).1 hidx)]
  · obtain ⟨g', p, n, r, g1, g2, g3, -, g5, -, -⟩ := hsol m hm
    rw [hg] at g1; cases g1
    obtain ⟨G', e1, e3⟩ := hx
    rw [hg] at e1; cases e1
    rw [g3] at e3 ⊢
    simp only [List.tail_cons] at e3 ⊢
    refine raw_solution hP hu hH (fun m hm => by rw [(hC m hm).1]; rfl) (hC m hm).1 (by rw [g5]; exact (hC m hm).2.1) fun idx hidx => ?_
    rw [Spec.row, ← e3 idx hidx]
    congr 1
    congr 1
    refine List.map_congr_left fun idx' hidx' => ?_
    rw [(hC m hm).2.2 _ _ (by rw [← g5]; exact ravel_lt r idx ((mem_indices _ _).1 hidx)) (by rw [← g5]; exact ravel_lt r idx' ((mem_indices _ _).1 hidx'))]

/-- The damped systems have solutions, and any solutions give the form of the inverse Hessian. -/
theorem solutions {L : Lib K} {calls : List (Plugin × StatCall K)} {s s₁ s₂ : LState K} {ids : List PyStr} {d : GLog K} {o : LogArg K} {hessian : Hess} {c : K}
    {H : HessKind K} (hE : Spec.EighOk L) (hI : Spec.InverseOk L) (hf : Spec.Finalized L calls s) (hl : Spec.LoggedAll calls (Dict.keys d) hessian)
    (hc : 0 < c) (hd : Spec.Labelled ids d) (hpre : precondition L s (.dict d) hessian (some c) = .ok (s₂, o))
    (hH : hessOf L s (Dict.keys d) hessian (some c) = .ok (s₁, H)) :
    (∀ i, i < ids.length → ∃ x : PyStr → List Nat → K, ∀ m ∈ Dict.keys d, Spec.Solves calls hessian c d i m (x m)) ∧
    ∀ i m x, m ∈ Dict.keys d → Spec.Solves calls hessian c d i m x → ∀ g, Spec.grad d m = some g → ∀ f,
      H.form m g.shape.tail (Spec.row g i) f = Spec.dot g.shape.tail x f := by
  rcases hl with ⟨hh, hl⟩ | ⟨hh, hl⟩
  · have hu := usesKfac_of_calls hf hh
    obtain ⟨A, wd, hA⟩ := finalized_covs hf fun m hm => (hl m hm).1
    obtain ⟨B, ht, hB⟩ := finalized_covs hf fun m hm => (hl m hm).2
    have hS : ∀ m ∈ Dict.keys d, ∀ i x, Spec.Solves calls hessian c d i m x = Spec.SolvesKfac calls c d i m x := by
      intro m hm i x
      unfold Spec.Solves
      rw [if_neg]
      rintro (h1 | ⟨h1, h2⟩) <;> rcases hh with h3 | ⟨h3, h4⟩
      · rw [h1] at h3; cases h3
      · rw [h1] at h3; cases h3
      · rw [h1] at h3; cases h3
      · exact h2 (h4 m hm)
    obtain ⟨k1, k2⟩ := kfac_solutions hE hI hf hu hA hB hc hd hpre hH
    exact ⟨fun i hi => (k1 i hi).imp fun x hx m hm => by rw [hS m hm]; exact hx m hm, fun i m x hm hx => k2 i m x hm (by rw [hS m hm] at hx; exact hx)⟩
  · have hu := usesRaw_of_calls hf hh fun m hm => (hl m hm).1
    obtain ⟨C, wd, hC⟩ := finalized_covs hf hl
    have hS : ∀ m ∈ Dict.keys d, ∀ i x, Spec.Solves calls hessian c d i m x = Spec.SolvesRaw calls c d i m x := by
      intro m hm i x
      unfold Spec.Solves
      rw [if_pos]
      exact hh.imp id fun h => ⟨h, (hl m hm).1⟩
    obtain ⟨k1, k2⟩ := raw_solutions hE hI hf hu hC hc hd hpre hH
    exact ⟨fun i hi => (k1 i hi).imp fun x hx m hm => by rw [hS m hm]; exact hx m hm, fun i m x hm hx => k2 i m x hm (by rw [hS m hm] at hx; exact hx)⟩

/-- The scores, if there are solutions and any solutions give the form of the inverse Hessian. -/
theorem influence_of_solutions {L : Lib K} {sqrt : K → K} {s u : LState K} {srcIds tgtIds : List PyStr} {d e : GLog K}
    {hessian : Hess} {c : Option K} {r : IFResult K} {S : Nat → PyStr → (List Nat → K) → Prop} (hd : Spec.Labelled srcIds d) (he : Spec.Labelled tgtIds e)
    (hS : ∀ s₁ s₂ o H, precondition L s (.dict d) hessian c = .ok (s₂, o) → hessOf L s (Dict.keys d) hessian c = .ok (s₁, H) →
      (∀ i, i < srcIds.length → ∃ x : PyStr → List Nat → K, ∀ m ∈ Dict.keys d, S i m (x m)) ∧
      ∀ i m x, m ∈ Dict.keys d → S i m x → ∀ g, Spec.grad d m = some g → ∀ f, H.form m g.shape.tail (Spec.row g i) f = Spec.dot g.shape.tail x f)
    (h : computeInfluence L sqrt s srcIds (.dict d) tgtIds (.dict e) .dot true hessian none c = .ok (u, r)) :
    ∃ t, r.influence = .one t ∧ r.srcIds = srcIds ∧ r.tgtIds = tgtIds ∧ t.shape = [srcIds.length, tgtIds.length] ∧ ∀ i, i < srcIds.length →
      (∃ x : PyStr → List Nat → K, ∀ m ∈ Dict.keys d, S i m (x m)) ∧
      ∀ x : PyStr → List Nat → K, (∀ m ∈ Dict.keys d, S i m (x m)) →
        ∀ j, j < tgtIds.length → t.el [i, j] = Spec.against x e j (Dict.keys d) := by
  obtain ⟨H', -, s₂, ⟨o, g0⟩, -⟩ := computeInfluence_ok' h hd he
  obtain ⟨H, t, g1, g2, g3, g4, g5, g6, g7⟩ := dot_scores h hd he
  simp only [if_true] at g0
  simp only [PreOf, if_true] at g1
  obtain ⟨v, hv, -⟩ := g1
  obtain ⟨k1, k2⟩ := hS _ _ _ _ g0 hv
  refine ⟨t, g2, g3, g4, g5, fun i hi => ⟨k1 i hi, fun x hx j hj => ?_⟩⟩
  rw [g7 i j hi hj]
  unfold Spec.against
  congr 1
  refine List.map_congr_left fun m hm => ?_
  obtain ⟨g, f, a1, a2, a3⟩ := g6 m hm
  unfold formAt
  simp only [a1, a2]
  rw [k2 i m (x m) hm (hx m hm) g a1, a3]

/-- The same for self-influence. -/
theorem self_of_solutions {L : Lib K} {s u : LState K} {ids : List PyStr} {d : GLog K}
    {hessian : Hess} {c : Option K} {r : SelfResult K} {S : Nat → PyStr → (List Nat → K) → Prop} (hd : Spec.Labelled ids d)
    (hS : ∀ s₁ s₂ o H, precondition L s (.dict d) hessian c = .ok (s₂, o) → hessOf L s (Dict.keys d) hessian c = .ok (s₁, H) →
      (∀ i, i < ids.length → ∃ x : PyStr → List Nat → K, ∀ m ∈ Dict.keys d, S i m (x m)) ∧
      ∀ i m x, m ∈ Dict.keys d → S i m x → ∀ g, Spec.grad d m = some g → ∀ f, H.form m g.shape.tail (Spec.row g i) f = Spec.dot g.shape.tail x f)
    (h : computeSelf L s ids (.dict d) true hessian none c = .ok (u, r)) :
    ∃ t, r.influence.get? ['t', 'o', 't', 'a', 'l'] = some t ∧ r.srcIds = ids ∧ t.shape = [ids.length] ∧ ∀ i, i < ids.length →
      (∃ x : PyStr → List Nat → K, ∀ m ∈ Dict.keys d, S i m (x m)) ∧
      ∀ x : PyStr → List Nat → K, (∀ m ∈ Dict.keys d, S i m (x m)) →
        t.el [i] = Spec.against x d i (Dict.keys d) := by
  obtain ⟨s₂, o, g0⟩ := computeSelf_pre h
  obtain ⟨H, g1, g3, -, g5⟩ := computeSelf_ok h hd
  obtain ⟨t, t1, -, t2, t3, -, t4⟩ := g5 nTotal (.inl rfl)
  simp only [PreOf, if_true] at g1
  obtain ⟨v, hv, -⟩ := g1
  obtain ⟨k1, k2⟩ := hS _ _ _ _ g0 hv
  refine ⟨t, t1, g3, t3, fun i hi => ⟨k1 i hi, fun x hx => ?_⟩⟩
  rw [t4 i hi]
  unfold Spec.against
  congr 1
  refine List.map_congr_left fun m hm => ?_
  obtain ⟨g, a1, -⟩ := hd.rows m hm
  rw [count_none, Nat.cast_one, one_mul]
  unfold formAt
  simp only [a1]
  exact k2 i m (x m) hm (hx m hm) g a1 _

/-- **C94.** A new instance logs data for the covariances and is finalized. Then the score of `compute_influence` for source `i` and target `j` is the
inner product of the gradient of the target with the solution of the damped linear system for the gradient of the source, summed over the modules. The
matrices of the system are the second moments of the logged data. The system has a solution, and the score is the same for all solutions. -/
theorem C94_influence {L : Lib K} {sqrt : K → K} {calls : List (Plugin × StatCall K)} {s u : LState K} {srcIds tgtIds : List PyStr} {d e : GLog K}
    {hessian : Hess} {c : K} {r : IFResult K} (hE : Spec.EighOk L) (hI : Spec.InverseOk L) (hf : Spec.Finalized L calls s)
    (hl : Spec.LoggedAll calls (Dict.keys d) hessian) (hc : 0 < c) (hd : Spec.Labelled srcIds d) (he : Spec.Labelled tgtIds e)
    (h : computeInfluence L sqrt s srcIds (.dict d) tgtIds (.dict e) .dot true hessian none (some c) = .ok (u, r)) :
    ∃ t, r.influence = .one t ∧ r.srcIds = srcIds ∧ r.tgtIds = tgtIds ∧ t.shape = [srcIds.length, tgtIds.length] ∧ ∀ i, i < srcIds.length →
      (∃ x : PyStr → List Nat → K, ∀ m ∈ Dict.keys d, Spec.Solves calls hessian c d i m (x m)) ∧
      ∀ x : PyStr → List Nat → K, (∀ m ∈ Dict.keys d, Spec.Solves calls hessian c d i m (x m)) →
        ∀ j, j < tgtIds.length → t.el [i, j] = Spec.against x e j (Dict.keys d) := by
  exact influence_of_solutions hd he (fun _ _ _ _ g0 hv => solutions hE hI hf hl hc hd g0 hv) h

/-- **C94**, self-influence: the score of sample `i` is the inner product of its gradient with the solution of the damped linear system for it. -/
theorem C94_self {L : Lib K} {calls : List (Plugin × StatCall K)} {s u : LState K} {ids : List PyStr} {d : GLog K}
    {hessian : Hess} {c : K} {r : SelfResult K} (hE : Spec.EighOk L) (hI : Spec.InverseOk L) (hf : Spec.Finalized L calls s)
    (hl : Spec.LoggedAll calls (Dict.keys d) hessian) (hc : 0 < c) (hd : Spec.Labelled ids d)
    (h : computeSelf L s ids (.dict d) true hessian none (some c) = .ok (u, r)) :
    ∃ t, r.influence.get? ['t', 'o', 't', 'a', 'l'] = some t ∧ r.srcIds = ids ∧ t.shape = [ids.length] ∧ ∀ i, i < ids.length →
      (∃ x : PyStr → List Nat → K, ∀ m ∈ Dict.keys d, Spec.Solves calls hessian c d i m (x m)) ∧
      ∀ x : PyStr → List Nat → K, (∀ m ∈ Dict.keys d, Spec.Solves calls hessian c d i m (x m)) →
        t.el [i] = Spec.against x d i (Dict.keys d) := by
  exact self_of_solutions hd (fun _ _ _ _ g0 hv => solutions hE hI hf hl hc hd g0 hv) h

end Logix
