/-
C46, C48, C49, C50, C53: what influence scores are.
-/
import Verif.Lemmas.HessState
import Verif.Props.InflExample

namespace Logix
variable {K : Type}

/-! ### Results -/

theorem influence_one [Field K] {L : Lib K} {sqrt : K → K} {s s' : LState K} {srcIds tgtIds : List PyStr} {src tgt : LogArg K} {mode : Mode}
    {pre : Bool} {hessian : Hess} {damping : Option K} {r : IFResult K}
    (h : computeInfluence L sqrt s srcIds src tgtIds tgt mode pre hessian none damping = .ok (s', r)) : ∃ t, r.influence = .one t := by
  unfold computeInfluence at h
  split at h
  · cases h
  · split at h
    · cases h
    · split at h
      · cases h
      · split at h
        · cases h
        · split at h
          · cases h
          · split at h
            · cases h
            · next inf hf =>
              cases h
              unfold finishScores at hf
              simp only at hf
              split at hf
              · cases hf; exact ⟨_, rfl⟩
              · cases hf

theorem self_one [Field K] {L : Lib K} {s s' : LState K} {ids : List PyStr} {src : LogArg K} {pre : Bool} {hessian : Hess} {damping : Option K}
    {r : SelfResult K} (h : computeSelf L s ids src pre hessian none damping = .ok (s', r)) : ∃ t, r.influence = .one t := by
  unfold computeSelf at h
  split at h
  · cases h
  · split at h
    · cases h
    · cases h
    · split at h
      · cases h
      · split at h
        · cases h
        · split at h
          · cases h
          · next inf hf =>
            cases h
            unfold finishScores at hf
            simp only at hf
            split at hf
            · cases hf; exact ⟨_, rfl⟩
            · cases hf

theorem preOf_unique [Field K] {pre : Bool} {L : Lib K} {s s₁ s₂ : LState K} {keys : List PyStr} {hessian : Hess} {damping : Option K} {H H' : HessKind K}
    (h : PreOf pre L s keys hessian damping s₁ H) (h' : PreOf pre L s keys hessian damping s₂ H') : H = H' := by
  unfold PreOf at h h'
  cases pre with
  | false => simp only [Bool.false_eq_true, if_false] at h h'; rw [h.1, h'.1]
  | true =>
    simp only [if_true] at h h'
    obtain ⟨a, h1, -⟩ := h
    obtain ⟨b, h2, -⟩ := h'
    rw [h1] at h2
    cases h2; rfl

theorem get?_one {t u : Tensor K} (h : (Influence.one t).get? nTotal = some u) : u = t := by
  have : some t = some u := h
  cases this; rfl

theorem count_none (m : PyStr) : (scoreKeys none m).count nTotal = 1 := by simp [scoreKeys]

/-- The scores in dot mode without groups. -/
theorem dot_scores [Field K] {L : Lib K} {sqrt : K → K} {s s' : LState K} {srcIds tgtIds : List PyStr} {d e : GLog K} {pre : Bool} {hessian : Hess}
    {damping : Option K} {r : IFResult K}
    (h : computeInfluence L sqrt s srcIds (.dict d) tgtIds (.dict e) .dot pre hessian none damping = .ok (s', r))
    (hd : Spec.Labelled srcIds d) (he : Spec.Labelled tgtIds e) : ∃ H t, PreOf pre L s (Dict.keys d) hessian damping s' H ∧ r.influence = .one t ∧
      r.srcIds = srcIds ∧ r.tgtIds = tgtIds ∧ t.shape = [srcIds.length, tgtIds.length] ∧
      (∀ m ∈ Dict.keys d, ∃ g h, Spec.grad d m = some g ∧ Spec.grad e m = some h ∧ g.shape.tail = h.shape.tail) ∧
      ∀ i j, i < srcIds.length → j < tgtIds.length → t.el [i, j] = ((Dict.keys d).map fun m => formAt H.form d i e j m).sum := by
  obtain ⟨H, H', s₁, h1, h2, h3, h4, h5, -, -, h6⟩ := computeInfluence_ok h hd he
  obtain ⟨t, h7, -, h8, h9⟩ := h6 nTotal (.inl rfl)
  obtain ⟨t', ht'⟩ := influence_one h
  rw [ht'] at h7
  obtain rfl := get?_one h7
  rw [if_pos rfl] at h2
  subst h2
  refine ⟨H, t, h1, ht', h3, h4, h8, h5, fun i j hi hj => ?_⟩
  rw [(h9 (.inl rfl)).2 i j hi hj]
  simp only [modeFn, count_none, Nat.cast_one, one_mul]

/-! ### C46 -/

theorem inner_append [Semiring K] : ∀ {x x' : List K} (y y' : List K), x.length = x'.length →
    Spec.inner (x ++ y) (x' ++ y') = Spec.inner x x' + Spec.inner y y'
  | [], [], _, _, _ => by simp [Spec.inner]
  | a :: x, b :: x', y, y', h => by
    have ih := inner_append (x := x) (x' := x') y y' (by simpa using h)
    unfold Spec.inner at ih ⊢
    simp only [List.cons_append, List.zipWith_cons_cons, List.sum_cons, ih, add_assoc]

theorem inner_map [Semiring K] {α : Type} (l : List α) (f g : α → K) : Spec.inner (l.map f) (l.map g) = (l.map fun x => f x * g x).sum := by
  unfold Spec.inner
  rw [List.zipWith_map]
  congr 1
  induction l with
  | nil => rfl
  | cons a l ih => simp

theorem inner_flat [Semiring K] {d e : GLog K} (i j : Nat) : ∀ keys : List PyStr,
    (∀ m ∈ keys, ∃ g h, Spec.grad d m = some g ∧ Spec.grad e m = some h ∧ g.shape.tail = h.shape.tail) →
    Spec.inner (Spec.flatGrad keys d i) (Spec.flatGrad keys e j) = (keys.map fun m => Spec.moduleDot d i e j m).sum
  | [], _ => rfl
  | m :: keys, hk => by
    obtain ⟨g, h, h1, h2, h3⟩ := hk m (by simp)
    have ih := inner_flat i j keys fun m hm => hk m (List.mem_cons_of_mem _ hm)
    unfold Spec.flatGrad at ih ⊢
    rw [List.flatMap_cons, List.flatMap_cons, List.map_cons, List.sum_cons, ← ih]
    simp only [h1, h2]
    rw [inner_append _ _ (by simp [h3]), ← h3, inner_map]
    congr 1
    simp only [Spec.moduleDot, h1, h2]
    rfl

/-- **C46.** In dot mode without preconditioning the score of sample `i` of the source and sample `j` of the target is the inner product of
their gradients, concatenated over all modules. The state is not touched. -/
theorem C46_inner_product [Field K] {L : Lib K} {sqrt : K → K} {s s' : LState K} {srcIds tgtIds : List PyStr} {d e : GLog K} {hessian : Hess}
    {damping : Option K} {r : IFResult K}
    (h : computeInfluence L sqrt s srcIds (.dict d) tgtIds (.dict e) .dot false hessian none damping = .ok (s', r))
    (hd : Spec.Labelled srcIds d) (he : Spec.Labelled tgtIds e) : s' = s ∧ ∃ t, r.influence = .one t ∧ t.shape = [srcIds.length, tgtIds.length] ∧
      ∀ i j, i < srcIds.length → j < tgtIds.length →
        t.el [i, j] = Spec.inner (Spec.flatGrad (Dict.keys d) d i) (Spec.flatGrad (Dict.keys d) e j) := by
  obtain ⟨H, t, h1, h2, -, -, h3, h4, h5⟩ := dot_scores h hd he
  unfold PreOf at h1
  simp only [Bool.false_eq_true, if_false] at h1
  obtain ⟨rfl, rfl⟩ := h1
  refine ⟨rfl, t, h2, h3, fun i j hi hj => ?_⟩
  rw [h5 i j hi hj, inner_flat i j _ h4]
  rfl

/-- **C46**, linearity in the source: if a source gradient is a linear combination of two others, so is its score. The same holds with
preconditioning. -/
theorem C46_linear_source [Field K] {L : Lib K} {sqrt : K → K} {s s₁ s₂ s₃ : LState K} {ids₁ ids₂ ids₃ tgtIds : List PyStr} {d₁ d₂ d₃ e : GLog K}
    {pre : Bool} {hessian : Hess} {damping : Option K} {r₁ r₂ r₃ : IFResult K} {t₁ t₂ t₃ : Tensor K}
    (h₁ : computeInfluence L sqrt s ids₁ (.dict d₁) tgtIds (.dict e) .dot pre hessian none damping = .ok (s₁, r₁))
    (h₂ : computeInfluence L sqrt s ids₂ (.dict d₂) tgtIds (.dict e) .dot pre hessian none damping = .ok (s₂, r₂))
    (h₃ : computeInfluence L sqrt s ids₃ (.dict d₃) tgtIds (.dict e) .dot pre hessian none damping = .ok (s₃, r₃))
    (hd₁ : Spec.Labelled ids₁ d₁) (hd₂ : Spec.Labelled ids₂ d₂) (hd₃ : Spec.Labelled ids₃ d₃) (he : Spec.Labelled tgtIds e)
    (ht₁ : r₁.influence = .one t₁) (ht₂ : r₂.influence = .one t₂) (ht₃ : r₃.influence = .one t₃)
    {a b : K} {i₁ i₂ i₃ j : Nat} (hi₁ : i₁ < ids₁.length) (hi₂ : i₂ < ids₂.length) (hi₃ : i₃ < ids₃.length) (hj : j < tgtIds.length)
    (hc : Spec.SampleComb a d₁ i₁ b d₂ i₂ d₃ i₃) : t₃.el [i₃, j] = a * t₁.el [i₁, j] + b * t₂.el [i₂, j] := by
  obtain ⟨H, u₁, p₁, q₁, -, -, -, -, e₁⟩ := dot_scores h₁ hd₁ he
  obtain ⟨H₂, u₂, p₂, q₂, -, -, -, -, e₂⟩ := dot_scores h₂ hd₂ he
  obtain ⟨H₃, u₃, p₃, q₃, -, -, -, -, e₃⟩ := dot_scores h₃ hd₃ he
  rw [ht₁] at q₁; rw [ht₂] at q₂; rw [ht₃] at q₃
  cases q₁; cases q₂; cases q₃
  rw [hc.left] at p₁ e₁; rw [hc.right] at p₂ e₂
  obtain rfl := preOf_unique p₁ p₂
  obtain rfl := preOf_unique p₁ p₃
  rw [e₁ _ _ hi₁ hj, e₂ _ _ hi₂ hj, e₃ _ _ hi₃ hj, ← sum_map_lin]
  congr 1
  exact List.map_congr_left fun m hm => formAt_comb_left hc H hm

/-- **C46**, linearity in the target. -/
theorem C46_linear_target [Field K] {L : Lib K} {sqrt : K → K} {s s₁ s₂ s₃ : LState K} {srcIds ids₁ ids₂ ids₃ : List PyStr} {d e₁ e₂ e₃ : GLog K}
    {pre : Bool} {hessian : Hess} {damping : Option K} {r₁ r₂ r₃ : IFResult K} {t₁ t₂ t₃ : Tensor K}
    (h₁ : computeInfluence L sqrt s srcIds (.dict d) ids₁ (.dict e₁) .dot pre hessian none damping = .ok (s₁, r₁))
    (h₂ : computeInfluence L sqrt s srcIds (.dict d) ids₂ (.dict e₂) .dot pre hessian none damping = .ok (s₂, r₂))
    (h₃ : computeInfluence L sqrt s srcIds (.dict d) ids₃ (.dict e₃) .dot pre hessian none damping = .ok (s₃, r₃))
    (hd : Spec.Labelled srcIds d) (he₁ : Spec.Labelled ids₁ e₁) (he₂ : Spec.Labelled ids₂ e₂) (he₃ : Spec.Labelled ids₃ e₃)
    (ht₁ : r₁.influence = .one t₁) (ht₂ : r₂.influence = .one t₂) (ht₃ : r₃.influence = .one t₃)
    {a b : K} {i j₁ j₂ j₃ : Nat} (hi : i < srcIds.length) (hj₁ : j₁ < ids₁.length) (hj₂ : j₂ < ids₂.length) (hj₃ : j₃ < ids₃.length)
    (hc : Spec.SampleComb a e₁ j₁ b e₂ j₂ e₃ j₃) : t₃.el [i, j₃] = a * t₁.el [i, j₁] + b * t₂.el [i, j₂] := by
  obtain ⟨H, u₁, p₁, q₁, -, -, -, -, f₁⟩ := dot_scores h₁ hd he₁
  obtain ⟨H₂, u₂, p₂, q₂, -, -, -, -, f₂⟩ := dot_scores h₂ hd he₂
  obtain ⟨H₃, u₃, p₃, q₃, -, -, -, g₃, f₃⟩ := dot_scores h₃ hd he₃
  rw [ht₁] at q₁; rw [ht₂] at q₂; rw [ht₃] at q₃
  cases q₁; cases q₂; cases q₃
  obtain rfl := preOf_unique p₁ p₂
  obtain rfl := preOf_unique p₁ p₃
  rw [f₁ _ _ hi hj₁, f₂ _ _ hi hj₂, f₃ _ _ hi hj₃, ← sum_map_lin]
  congr 1
  refine List.map_congr_left fun m hm => ?_
  obtain ⟨g, h, k1, k2, k3⟩ := g₃ m hm
  refine formAt_comb_right hc H (grad_mem k2) fun x z hx hz => ?_
  rw [k2] at hx; rw [k1] at hz
  cases hx; cases hz
  exact k3.symm

/-! ### C49 -/

/-- The scores of `compute_self_influence`. -/
theorem self_scores [Field K] {L : Lib K} {s s' : LState K} {ids : List PyStr} {d : GLog K} {pre : Bool} {hessian : Hess}
    {damping : Option K} {r : SelfResult K} (h : computeSelf L s ids (.dict d) pre hessian none damping = .ok (s', r)) (hd : Spec.Labelled ids d) :
    ∃ H t, PreOf pre L s (Dict.keys d) hessian damping s' H ∧ r.influence = .one t ∧ r.srcIds = ids ∧ t.shape = [ids.length] ∧
      ∀ i, i < ids.length → t.el [i] = ((Dict.keys d).map fun m => formAt H.form d i d i m).sum := by
  obtain ⟨H, h1, h2, -, h3⟩ := computeSelf_ok h hd
  obtain ⟨t, h4, -, -, h5, -, h6⟩ := h3 nTotal (.inl rfl)
  obtain ⟨t', ht'⟩ := self_one h
  rw [ht'] at h4
  obtain rfl := get?_one h4
  refine ⟨H, t, h1, ht', h2, h5, fun i hi => ?_⟩
  rw [h6 i hi]
  simp only [count_none, Nat.cast_one, one_mul]

/-- **C49.** Under every key, `compute_self_influence` of a log is the diagonal of `compute_influence` of the log with itself. -/
theorem C49_diagonal [Field K] {L : Lib K} {sqrt : K → K} {s s₁ s₂ : LState K} {ids : List PyStr} {d : GLog K} {pre : Bool} {hessian : Hess}
    {groups : Option (List PyStr)} {damping : Option K} {r : SelfResult K} {r' : IFResult K}
    (h : computeSelf L s ids (.dict d) pre hessian groups damping = .ok (s₁, r))
    (h' : computeInfluence L sqrt s ids (.dict d) ids (.dict d) .dot pre hessian groups damping = .ok (s₂, r')) (hd : Spec.Labelled ids d) :
    r.srcIds = r'.srcIds ∧ ∀ k, k = ['t', 'o', 't', 'a', 'l'] ∨ k ∈ groups.getD [] → ∃ t u, r.influence.get? k = some t ∧ r'.influence.get? k = some u ∧
      t.shape = [ids.length] ∧ u.shape = [ids.length, ids.length] ∧ ∀ i, i < ids.length → t.el [i] = u.el [i, i] := by
  obtain ⟨H, h1, h2, -, h3⟩ := computeSelf_ok h hd
  obtain ⟨H', _, s₃, g1, -, g3, -, -, -, -, g6⟩ := computeInfluence_ok h' hd hd
  obtain rfl := preOf_unique h1 g1
  refine ⟨by rw [h2, g3], fun k hk => ?_⟩
  obtain ⟨t, h4, -, -, h5, -, h6⟩ := h3 k hk
  obtain ⟨u, k1, -, k2, k3⟩ := g6 k hk
  refine ⟨t, u, h4, k1, h5, k2, fun i hi => ?_⟩
  rw [h6 i hi, (k3 (.inl rfl)).2 i i hi hi]
  rfl

theorem list_sum_nonneg [Field K] [LinearOrder K] [IsStrictOrderedRing K] {α : Type} {l : List α} {f : α → K} (h : ∀ x ∈ l, 0 ≤ f x) : 0 ≤ (l.map f).sum := by
  refine List.sum_nonneg fun x hx => ?_
  obtain ⟨a, ha, rfl⟩ := List.mem_map.1 hx
  exact h a ha

/-- **C49.** Self-influence is not negative, with positive damping and the covariances of any run; nor without preconditioning. -/
theorem C49_nonneg [Field K] [LinearOrder K] [IsStrictOrderedRing K] {L : Lib K} {s s₁ : LState K} {ids : List PyStr} {d : GLog K} {pre : Bool}
    {hessian : Hess} {groups : Option (List PyStr)} {c : K} {r : SelfResult K}
    (h : computeSelf L s ids (.dict d) pre hessian groups (some c) = .ok (s₁, r)) (hd : Spec.Labelled ids d)
    (hP : pre = true → Spec.PosHessian L s (Dict.keys d) hessian c) : ∀ k, k = ['t', 'o', 't', 'a', 'l'] ∨ k ∈ groups.getD [] → ∃ t,
      r.influence.get? k = some t ∧ t.shape = [ids.length] ∧ ∀ i, i < ids.length → 0 ≤ t.el [i] := by
  obtain ⟨H, h1, h2, -, h3⟩ := computeSelf_ok h hd
  intro k hk
  obtain ⟨t, h4, -, -, h5, -, h6⟩ := h3 k hk
  refine ⟨t, h4, h5, fun i hi => ?_⟩
  rw [h6 i hi]
  refine list_sum_nonneg fun m hm => mul_nonneg (Nat.cast_nonneg _) ?_
  obtain ⟨g, hg, -⟩ := hd.rows m hm
  simp only [formAt, hg]
  have : H.PosAt m := by
    unfold PreOf at h1
    cases pre with
    | false =>
      simp only [Bool.false_eq_true, if_false] at h1
      rw [h1.1]; exact posAt_none m
    | true =>
      simp only [if_true] at h1
      obtain ⟨s₂, h1, -⟩ := h1
      exact (hess_pos (hP rfl) h1 hm).1
  exact this _ _

/-! ### C50 -/

/-- **C50.** In dot mode the influence of `x` on `y` is the influence of `y` on `x`, under every key, for logs with the same modules. With
eigendecompositions (also fitted ones, also stale ones) nothing is asked of the state; with covariances of gradients they must be symmetric
and cached inverses must be theirs. -/
theorem C50_symmetric [Field K] {L : Lib K} {sqrt : K → K} {ops : List (StateOp K)} {s s₁ s₂ : LState K} {idsX idsY : List PyStr} {x y : GLog K}
    {pre : Bool} {hessian : Hess} {groups : Option (List PyStr)} {damping : Option K} {r r' : IFResult K} (hrun : runOps L .init ops = .ok s)
    (h : computeInfluence L sqrt s idsX (.dict x) idsY (.dict y) .dot pre hessian groups damping = .ok (s₁, r))
    (h' : computeInfluence L sqrt s idsY (.dict y) idsX (.dict x) .dot pre hessian groups damping = .ok (s₂, r'))
    (hx : Spec.Labelled idsX x) (hy : Spec.Labelled idsY y) (hk : Dict.keys x = Dict.keys y)
    (hs : pre = true → (Spec.UsesKfac s (Dict.keys x) hessian ∧ ∀ m ∈ Dict.keys x, ∃ t, (Spec.tensorAt s.attrs nCov [m, t]).isSome = true) ∨
      ∃ c, damping = some c ∧ Spec.InverseOk L ∧ Spec.InvFresh s c ∧
        ∀ m ∈ Dict.keys x, ∃ C n, Spec.tensorAt s.attrs nCov [m, LogType.name .grad] = some C ∧ Spec.Symm C n) :
    ∀ k, k = ['t', 'o', 't', 'a', 'l'] ∨ k ∈ groups.getD [] → ∃ t u, r.influence.get? k = some t ∧ r'.influence.get? k = some u ∧
      ∀ i j, i < idsX.length → j < idsY.length → t.el [i, j] = u.el [j, i] := by
  intro k hk'
  obtain ⟨H, _, s₃, g1, -, -, -, g2, -, -, g6⟩ := computeInfluence_ok h hx hy
  obtain ⟨H', _, s₃, f1, -, -, -, -, -, -, f6⟩ := computeInfluence_ok h' hy hx
  rw [← hk] at f1
  obtain rfl := preOf_unique g1 f1
  obtain ⟨t, k1, -, -, k3⟩ := g6 k hk'
  obtain ⟨u, l1, -, -, l3⟩ := f6 k hk'
  refine ⟨t, u, k1, l1, fun i j hi hj => ?_⟩
  rw [(k3 (.inl rfl)).2 i j hi hj, (l3 (.inl rfl)).2 j i hj hi, ← hk]
  simp only [modeFn]
  congr 1
  refine List.map_congr_left fun m hm => ?_
  congr 1
  have : H.SymmAt m := by
    unfold PreOf at g1
    cases pre with
    | false =>
      simp only [Bool.false_eq_true, if_false] at g1
      rw [g1.1]; exact symmAt_none m
    | true =>
      simp only [if_true] at g1
      obtain ⟨s₂, g1, -⟩ := g1
      exact hess_symm hrun g1 (hs rfl) hm
  obtain ⟨a, b, h1, h2, h3⟩ := g2 m hm
  simp only [formAt, h1, h2, h3]
  exact this _ _ _

end Logix
