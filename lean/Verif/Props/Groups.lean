/-
C53: influence of groups of modules.
-/
import Verif.Props.Modes

namespace Logix
variable {K : Type}

theorem isSub_iff (g m : PyStr) : isSub g m = true ↔ g <:+: m := by
  unfold isSub
  rw [List.any_eq_true, List.infix_iff_prefix_suffix]
  constructor
  · rintro ⟨t, h1, h2⟩
    exact ⟨t, List.isPrefixOf_iff_prefix.1 h2, (List.mem_tails _ _).1 h1⟩
  · rintro ⟨t, h1, h2⟩
    exact ⟨t, (List.mem_tails _ _).2 h2, List.isPrefixOf_iff_prefix.2 h1⟩

theorem count_total {groups : List PyStr} (hn : ['t', 'o', 't', 'a', 'l'] ∉ groups) (m : PyStr) : (scoreKeys (some groups) m).count nTotal = 1 := by
  unfold scoreKeys
  have : List.count nTotal (groups.filter fun g => isSub g m) = 0 := List.count_eq_zero.2 fun h => hn (List.mem_of_mem_filter h)
  rw [List.count_cons_self, Option.getD_some, this]

theorem count_group {groups : List PyStr} (hg : groups.Nodup) (hn : ['t', 'o', 't', 'a', 'l'] ∉ groups) {k : PyStr} (hk : k ∈ groups) (m : PyStr) :
    (scoreKeys (some groups) m).count k = if k <:+: m then 1 else 0 := by
  have hne : nTotal ≠ k := fun h => hn (by rw [show (['t', 'o', 't', 'a', 'l'] : PyStr) = k from h]; exact hk)
  unfold scoreKeys
  rw [List.count_cons_of_ne hne]
  split
  · next h =>
    exact List.count_eq_one_of_mem (hg.filter _) (List.mem_filter.2 ⟨hk, (isSub_iff _ _).2 h⟩)
  · next h =>
    exact List.count_eq_zero.2 fun h' => h ((isSub_iff _ _).1 (List.mem_filter.1 h').2)

theorem sum_members [Semiring K] {groups : List PyStr} (hg : groups.Nodup) (hn : ['t', 'o', 't', 'a', 'l'] ∉ groups) {k : PyStr}
    (hk : k = ['t', 'o', 't', 'a', 'l'] ∨ k ∈ groups) (keys : List PyStr) (f : PyStr → K) :
    (keys.map fun m => ((scoreKeys (some groups) m).count k : K) * f m).sum = ((Spec.members keys k).map f).sum := by
  unfold Spec.members
  rcases hk with rfl | hk
  · rw [if_pos rfl]
    congr 1
    refine List.map_congr_left fun m _ => ?_
    have : List.count ['t', 'o', 't', 'a', 'l'] (scoreKeys (some groups) m) = 1 := count_total hn m
    rw [this, Nat.cast_one, one_mul]
  · rw [if_neg fun h : k = ['t', 'o', 't', 'a', 'l'] => hn (h ▸ hk)]
    induction keys with
    | nil => rfl
    | cons m keys ih =>
      rw [List.map_cons, List.sum_cons, ih, count_group hg hn hk, List.filter_cons]
      by_cases h : k <:+: m
      · simp [h]
      · simp [h]

theorem acts_moduleDot [Field K] {H : HessKind K} {d p e : GLog K} (h : Acts H d p) {ids : List PyStr} (hd : Spec.Labelled ids d) {m : PyStr}
    (hm : m ∈ Dict.keys d) {i j : Nat} (hi : i < ids.length) : Spec.moduleDot p i e j m = formAt H.form d i e j m := by
  obtain ⟨g, hg, hl⟩ := hd.rows m hm
  obtain ⟨p', h1, h2, -, h3⟩ := h.2 m g hg
  unfold Spec.moduleDot formAt
  rw [h1, hg]
  cases Spec.grad e m with
  | none => rfl
  | some x =>
    simp only
    rw [h2, h3 i (by rw [hl]; exact hi)]

theorem mem_members {keys : List PyStr} {k m : PyStr} (h : m ∈ Spec.members keys k) : m ∈ keys := by
  unfold Spec.members at h
  split at h
  · exact h
  · exact List.mem_of_mem_filter h

/-- **C53.** With groups, the score under the name of a group is the sum of the scores of the modules whose name contains it, and the total is
the sum over all modules; `p` is the preconditioned source. The names of the groups are all different and none is `total`. -/
theorem C53_members_partial [Field K] {L : Lib K} {sqrt : K → K} {s sp s' : LState K} {srcIds tgtIds : List PyStr} {d p e : GLog K} {pre : Bool}
    {hessian : Hess} {groups : List PyStr} {damping : Option K} {r : IFResult K}
    (hp : (if pre then precondition L s (.dict d) hessian damping else .ok (s, .dict d)) = .ok (sp, .dict p))
    (h : computeInfluence L sqrt s srcIds (.dict d) tgtIds (.dict e) .dot pre hessian (some groups) damping = .ok (s', r))
    (hd : Spec.Labelled srcIds d) (he : Spec.Labelled tgtIds e) (hg : groups.Nodup) (hn : ['t', 'o', 't', 'a', 'l'] ∉ groups) :
    ∀ k, k = ['t', 'o', 't', 'a', 'l'] ∨ k ∈ groups → ∃ t, r.influence.get? k = some t ∧ t.shape = [srcIds.length, tgtIds.length] ∧
      ∀ i j, i < srcIds.length → j < tgtIds.length → t.el [i, j] = ((Spec.members (Dict.keys d) k).map (Spec.moduleDot p i e j)).sum := by
  intro k hk
  obtain ⟨H, _, s₁, g1, -, -, -, -, -, -, g2⟩ := computeInfluence_ok h hd he
  obtain ⟨p', H', hpp, hH', ha⟩ := pre_ok hd.nodup hp
  cases hpp
  obtain rfl := preOf_unique g1 hH'
  obtain ⟨t, t1, -, t2, t3⟩ := g2 k hk
  refine ⟨t, t1, t2, fun i j hi hj => ?_⟩
  rw [(t3 (.inl rfl)).2 i j hi hj, sum_members hg hn hk]
  simp only [modeFn]
  congr 1
  exact List.map_congr_left fun m hm => (acts_moduleDot ha hd (mem_members hm) hi).symm

/-- **C53**, in the other modes: the scores and the norms are summed over the modules of the group; `q` is the preconditioned target. -/
theorem C53_modes_partial [Field K] {L : Lib K} {sqrt : K → K} {s sp s' sq : LState K} {srcIds tgtIds : List PyStr} {d p e q : GLog K} {mode : Mode} {pre : Bool}
    {hessian : Hess} {groups : List PyStr} {damping : Option K} {r : IFResult K}
    (hp : (if pre then precondition L s (.dict d) hessian damping else .ok (s, .dict d)) = .ok (sp, .dict p))
    (hq : precondition L sp (.dict e) hessian damping = .ok (sq, .dict q))
    (h : computeInfluence L sqrt s srcIds (.dict d) tgtIds (.dict e) mode pre hessian (some groups) damping = .ok (s', r))
    (hd : Spec.Labelled srcIds d) (he : Spec.Labelled tgtIds e) (hk : Dict.keys d = Dict.keys e) (hg : groups.Nodup)
    (hn : ['t', 'o', 't', 'a', 'l'] ∉ groups) :
    ∀ k, k = ['t', 'o', 't', 'a', 'l'] ∨ k ∈ groups → ∃ t, r.influence.get? k = some t ∧ t.shape = [srcIds.length, tgtIds.length] ∧
      ∀ i j, i < srcIds.length → j < tgtIds.length →
        let x := ((Spec.members (Dict.keys d) k).map (Spec.moduleDot p i e j)).sum
        let y := ((Spec.members (Dict.keys e) k).map (Spec.moduleDot q j e j)).sum
        (mode = .l2 → t.el [i, j] = x - 1 / 2 * y) ∧ (mode = .cosine → t.el [i, j] = x / sqrt y) := by
  intro k hk'
  obtain ⟨H, H₁, s₁, ⟨o, g0⟩, g1, g1', -, -, -, -, -, g2⟩ := computeInfluence_ok' h hd he
  rw [hp] at g0
  cases g0
  obtain ⟨p', H', hpp, hH', ha⟩ := pre_ok hd.nodup hp
  cases hpp
  obtain rfl := preOf_unique g1 hH'
  obtain ⟨q', H₂, hqq, hH₂, hb⟩ := pre_ok (pre := true) he.nodup (by rw [if_pos rfl]; exact hq)
  cases hqq
  obtain ⟨t, t1, -, t2, t3⟩ := g2 k hk'
  refine ⟨t, t1, t2, fun i j hi hj => ?_⟩
  have t4 := (t3 (.inr hk)).2 i j hi hj
  rw [sum_members hg hn hk', sum_members hg hn hk'] at t4
  have e1 : ((Spec.members (Dict.keys d) k).map fun m => formAt H.form d i e j m) = (Spec.members (Dict.keys d) k).map (Spec.moduleDot p i e j) :=
    List.map_congr_left fun m hm => (acts_moduleDot ha hd (mem_members hm) hi).symm
  have e2 : mode ≠ .dot → ((Spec.members (Dict.keys e) k).map fun m => formAt H₁.form e j e j m) =
      (Spec.members (Dict.keys e) k).map (Spec.moduleDot q j e j) := by
    intro hm
    rw [if_neg hm] at g1'
    obtain rfl := preOf_unique g1' hH₂
    exact List.map_congr_left fun m hm => (acts_moduleDot hb he (mem_members hm) hj).symm
  refine ⟨fun hm => ?_, fun hm => ?_⟩
  · rw [t4, e1, e2 (by rw [hm]; decide), hm]; rfl
  · rw [t4, e1, e2 (by rw [hm]; decide), hm]; rfl

/-- **C53**, for `compute_self_influence`. -/
theorem C53_self_partial [Field K] {L : Lib K} {s sp s' : LState K} {ids : List PyStr} {d p : GLog K} {pre : Bool}
    {hessian : Hess} {groups : List PyStr} {damping : Option K} {r : SelfResult K}
    (hp : (if pre then precondition L s (.dict d) hessian damping else .ok (s, .dict d)) = .ok (sp, .dict p))
    (h : computeSelf L s ids (.dict d) pre hessian (some groups) damping = .ok (s', r))
    (hd : Spec.Labelled ids d) (hg : groups.Nodup) (hn : ['t', 'o', 't', 'a', 'l'] ∉ groups) :
    ∀ k, k = ['t', 'o', 't', 'a', 'l'] ∨ k ∈ groups → ∃ t, r.influence.get? k = some t ∧ t.shape = [ids.length] ∧
      ∀ i, i < ids.length → t.el [i] = ((Spec.members (Dict.keys d) k).map (Spec.moduleDot p i d i)).sum := by
  intro k hk
  obtain ⟨H, g1, -, -, g2⟩ := computeSelf_ok h hd
  obtain ⟨p', H', hpp, hH', ha⟩ := pre_ok hd.nodup hp
  cases hpp
  obtain rfl := preOf_unique g1 hH'
  obtain ⟨t, t1, -, -, t2, -, t3⟩ := g2 k hk
  refine ⟨t, t1, t2, fun i hi => ?_⟩
  rw [t3 i hi, sum_members hg hn hk]
  congr 1
  exact List.map_congr_left fun m hm => (acts_moduleDot ha hd (mem_members hm) hi).symm

theorem sum_split [Semiring K] (groups : List PyStr) (f : PyStr → K) : ∀ keys : List PyStr,
    (∀ m ∈ keys, (groups.filter fun g => decide (g <:+: m)).length = 1) →
    (keys.map f).sum = (groups.map fun g => ((keys.filter fun m => decide (g <:+: m)).map f).sum).sum
  | [], _ => by simp
  | m :: keys, h => by
    have ih := sum_split groups f keys fun m hm => h m (List.mem_cons_of_mem _ hm)
    rw [List.map_cons, List.sum_cons, ih]
    have key : ∀ (gs : List PyStr), (gs.map fun g => (((m :: keys).filter fun m => decide (g <:+: m)).map f).sum).sum =
        ((gs.filter fun g => decide (g <:+: m)).length : K) * f m + (gs.map fun g => ((keys.filter fun m => decide (g <:+: m)).map f).sum).sum := by
      intro gs
      induction gs with
      | nil => simp
      | cons g gs ihg =>
        rw [List.map_cons, List.sum_cons, ihg, List.map_cons, List.sum_cons, List.filter_cons, List.filter_cons]
        by_cases hgm : g <:+: m
        · simp only [hgm, decide_true, if_true, List.map_cons, List.sum_cons, List.length_cons, Nat.cast_succ, add_mul, one_mul]
          rw [add_add_add_comm, add_comm (f m)]
        · simp only [hgm, decide_false, Bool.false_eq_true, if_false]
          exact add_left_comm ..
    rw [key, h m (by simp), Nat.cast_one, one_mul]

/-- **C53.** If every module belongs to exactly one group, the scores of the groups add up to the total. -/
theorem C53_split_partial [Field K] {L : Lib K} {sqrt : K → K} {s sp s' : LState K} {srcIds tgtIds : List PyStr} {d p e : GLog K} {pre : Bool}
    {hessian : Hess} {groups : List PyStr} {damping : Option K} {r : IFResult K}
    (hp : (if pre then precondition L s (.dict d) hessian damping else .ok (s, .dict d)) = .ok (sp, .dict p))
    (h : computeInfluence L sqrt s srcIds (.dict d) tgtIds (.dict e) .dot pre hessian (some groups) damping = .ok (s', r))
    (hd : Spec.Labelled srcIds d) (he : Spec.Labelled tgtIds e) (hg : groups.Nodup) (hn : ['t', 'o', 't', 'a', 'l'] ∉ groups)
    (hs : ∀ m ∈ Dict.keys d, (groups.filter fun g => decide (g <:+: m)).length = 1) :
    ∃ T : PyStr → Tensor K, (∀ k, k = ['t', 'o', 't', 'a', 'l'] ∨ k ∈ groups → r.influence.get? k = some (T k)) ∧
      ∀ i j, i < srcIds.length → j < tgtIds.length → (T ['t', 'o', 't', 'a', 'l']).el [i, j] = (groups.map fun g => (T g).el [i, j]).sum := by
  have key := C53_members_partial hp h hd he hg hn
  obtain ⟨t0, -⟩ := key _ (.inl rfl)
  refine ⟨fun k => (r.influence.get? k).getD t0, fun k hk => ?_, fun i j hi hj => ?_⟩
  · obtain ⟨t, ht, -⟩ := key k hk
    simp only [ht, Option.getD_some]
  · obtain ⟨t, ht, -, ht'⟩ := key _ (.inl rfl)
    simp only
    rw [ht, Option.getD_some, ht' i j hi hj]
    simp only [Spec.members, if_true]
    rw [sum_split groups _ _ hs]
    congr 1
    refine List.map_congr_left fun g hgg => ?_
    obtain ⟨u, hu, -, hu'⟩ := key g (.inr hgg)
    rw [hu, Option.getD_some, hu' i j hi hj, Spec.members, if_neg fun h : g = ['t', 'o', 't', 'a', 'l'] => hn (h ▸ hgg)]

/-- A group without modules makes the call raise. -/
theorem C53_empty_group_raises [Field K] {L : Lib K} {sqrt : K → K} {s : LState K} {srcIds tgtIds : List PyStr} {d e : GLog K} {mode : Mode} {pre : Bool}
    {hessian : Hess} {groups : List PyStr} {damping : Option K} (hd : Spec.Labelled srcIds d) (he : Spec.Labelled tgtIds e) (hk : Dict.keys d = Dict.keys e)
    {g : PyStr} (hg : g ∈ groups) (hn : g ≠ ['t', 'o', 't', 'a', 'l']) (hm : ∀ m ∈ Dict.keys d, ¬ g <:+: m) :
    ∀ x, computeInfluence L sqrt s srcIds (.dict d) tgtIds (.dict e) mode pre hessian (some groups) damping ≠ .ok x := by
  rintro ⟨s', r⟩ h
  obtain ⟨H, _, s₁, -, -, -, -, -, -, -, g2⟩ := computeInfluence_ok h hd he
  obtain ⟨t, -, -, -, t3⟩ := g2 g (.inr hg)
  obtain ⟨⟨m, m1, m2⟩, -⟩ := t3 (.inr hk)
  unfold scoreKeys at m2
  rcases List.mem_cons.1 m2 with h' | h'
  · exact hn h'
  · exact hm m m1 ((isSub_iff _ _).1 (List.mem_filter.1 h').2)

end Logix
