/-
Lemmas about the derived states (eigendecompositions, inverses), and well-formedness of the state dictionaries.
-/
import Verif.Props.Runs

namespace Logix
variable {K : Type}

/-! ### Dictionaries have distinct keys -/

theorem stWFList_mem {α : Type} {d : List (PyStr × Nested α)} (h : Nested.WFList d) {k : PyStr} {v : Nested α} (hv : (k, v) ∈ d) : v.WF := by
  induction d with
  | nil => simp at hv
  | cons a rest ih =>
    obtain ⟨a1, a2⟩ := a
    rw [Nested.WFList] at h
    rcases List.mem_cons.1 hv with h1 | h1
    · cases h1; exact h.1
    · exact ih h.2 h1

theorem stWFList_of {α : Type} {d : List (PyStr × Nested α)} (h : ∀ k v, (k, v) ∈ d → v.WF) : Nested.WFList d := by
  induction d with
  | nil => trivial
  | cons a rest ih =>
    obtain ⟨a1, a2⟩ := a
    rw [Nested.WFList]
    exact ⟨h a1 a2 List.mem_cons_self, ih fun k v hk => h k v (List.mem_cons_of_mem _ hk)⟩

theorem stWF_set {α : Type} {d : List (PyStr × Nested α)} (h : (Nested.node d).WF) (k : PyStr) {v : Nested α} (hv : v.WF) :
    (Nested.node (Dict.set d k v)).WF := by
  rw [Nested.WF] at h ⊢
  refine ⟨Dict.nodup_keys_set d k v h.1, stWFList_of fun k' v' hk => ?_⟩
  rcases mem_set hk with h1 | ⟨_, h1⟩
  · exact stWFList_mem h.2 h1
  · rw [h1]; exact hv

theorem stWF_get {α : Type} {d : List (PyStr × Nested α)} (h : (Nested.node d).WF) {k : PyStr} {v : Nested α} (hv : Dict.get? d k = some v) : v.WF := by
  rw [Nested.WF] at h
  exact stWFList_mem h.2 (mem_of_get? hv)

theorem stWF_set2 {d : StateDict K} (h : (Nested.node d).WF) (m t : PyStr) (v : SVal K) : (Nested.node (set2 d m t v)).WF := by
  unfold set2
  split
  · next sub hs =>
    apply stWF_set h
    apply stWF_set (stWF_get h hs)
    trivial
  · apply stWF_set h
    rw [Nested.WF]
    exact ⟨by simp, by rw [Nested.WFList]; exact ⟨trivial, trivial⟩⟩

mutual
theorem WF_normalizeValue [Field K] : ∀ (v v' : Nested (SVal K)) (c : Option (Nested (SVal K))), normalizeValue c v = .ok v' → v.WF → v'.WF
  | .leaf (.tensor t), v', c, h, _ => by
    unfold normalizeValue at h
    split at h
    · cases h; trivial
    · cases h
  | .leaf (.num _), v', c, h, _ => by unfold normalizeValue at h; cases h
  | .leaf (.paths _), v', c, h, _ => by unfold normalizeValue at h; cases h
  | .leaf (.dims _), v', c, h, _ => by unfold normalizeValue at h; cases h
  | .node d, v', c, h, hw => by
    unfold normalizeValue at h
    split at h
    · split at h
      · cases h
      · next d' hd' => cases h; exact WF_normalizeDict d d' _ hd' hw
    · split at h
      · cases h
      · next d' hd' => cases h; exact WF_normalizeDict d d' _ hd' hw
    · split at h
      · cases h; exact hw
      · cases h
theorem WF_normalizeDict [Field K] : ∀ (d d' e : StateDict K), normalizeDict e d = .ok d' → (Nested.node d).WF → (Nested.node d').WF
  | [], d', e, h, _ => by
    unfold normalizeDict at h
    cases h
    rw [Nested.WF]
    exact ⟨by simp, trivial⟩
  | (k, v) :: rest, d', e, h, hw => by
    unfold normalizeDict at h
    split at h
    · cases h
    · next v' hv' =>
      split at h
      · cases h
      · next rest' hr =>
        cases h
        rw [Nested.WF, Nested.WFList] at hw
        have h1 := WF_normalizeValue v v' _ hv' hw.2.1
        have hn : (Nested.node rest).WF := by
          rw [Nested.WF]
          exact ⟨(List.nodup_cons.1 hw.1).2, hw.2.2⟩
        have h2 := WF_normalizeDict rest rest' e hr hn
        have hk : rest'.map Prod.fst = rest.map Prod.fst := normalizeDict_keys hr
        rw [Nested.WF] at h2 ⊢
        rw [Nested.WFList]
        refine ⟨?_, h1, h2.2⟩
        rw [List.map_cons, hk]
        exact hw.1
theorem normalizeDict_keys [Field K] {e : StateDict K} : ∀ {d d' : StateDict K}, normalizeDict e d = .ok d' → d'.map Prod.fst = d.map Prod.fst
  | [], d', h => by unfold normalizeDict at h; cases h; rfl
  | (k, v) :: rest, d', h => by
    unfold normalizeDict at h
    split at h
    · cases h
    · split at h
      · cases h
      · next rest' hr => cases h; simp [normalizeDict_keys hr]
end

/-! ### The eigendecomposition -/

/-- The loop over the modes of a module. -/
theorem svdModes_ok (L : Lib K) (m : PyStr) : ∀ {modes vals vecs vals' vecs' : StateDict K},
    svdModes L m modes vals vecs = .ok (vals', vecs') → (modes.map Prod.fst).Nodup → (∀ m, indexable vals m = true) → (∀ m, indexable vecs m = true) →
    (∀ m, indexable vals' m = true) ∧ (∀ m, indexable vecs' m = true) ∧
    (∀ t x, (t, .leaf (.tensor x)) ∈ modes → ∃ w v, L.eigh x = .ok (w, v) ∧ item2 vals' m t = .ok (some (.tensor w)) ∧
      item2 vecs' m t = .ok (some (.tensor v))) ∧
    ∀ m' t', (m' ≠ m ∨ t' ∉ modes.map Prod.fst) → item2 vals' m' t' = item2 vals m' t' ∧ item2 vecs' m' t' = item2 vecs m' t' := by
  intro modes
  induction modes with
  | nil =>
    intro vals vecs vals' vecs' h _ h1 h2
    unfold svdModes at h
    cases h
    exact ⟨h1, h2, by simp, fun _ _ _ => ⟨rfl, rfl⟩⟩
  | cons a rest ih =>
    obtain ⟨t, x⟩ := a
    intro vals vecs vals' vecs' h hn h1 h2
    unfold svdModes at h
    split at h
    · next heq => cases heq
    · next t0 cov rest0 heq =>
      simp only [List.cons.injEq, Prod.mk.injEq] at heq
      obtain ⟨⟨rfl, rfl⟩, rfl⟩ := heq
      split at h
      · cases h
      · next w v hwv =>
        simp only [List.map_cons, List.nodup_cons] at hn
        obtain ⟨i1, i2, i3, i4⟩ := ih h hn.2 (indexable_set2 _ _ _ _ h1) (indexable_set2 _ _ _ _ h2)
        refine ⟨i1, i2, fun t' x' hx' => ?_, fun m' t' hmt => ?_⟩
        · rcases List.mem_cons.1 hx' with hx' | hx'
          · simp only [Prod.mk.injEq, Nested.leaf.injEq, SVal.tensor.injEq] at hx'
            obtain ⟨rfl, rfl⟩ := hx'
            obtain ⟨j1, j2⟩ := i4 m t' (.inr hn.1)
            exact ⟨w, v, hwv, by rw [j1, item2_set2_self], by rw [j2, item2_set2_self]⟩
          · exact i3 t' x' hx'
        · have hmt' : ¬(m = m' ∧ t = t') := by
            rintro ⟨rfl, rfl⟩
            rcases hmt with h | h
            · exact h rfl
            · simp at h
          have hmt2 : m' ≠ m ∨ t' ∉ rest.map Prod.fst := by
            rcases hmt with h | h
            · exact .inl h
            · simp only [List.map_cons, List.mem_cons, not_or] at h; exact .inr h.2
          obtain ⟨j1, j2⟩ := i4 m' t' hmt2
          rw [j1, j2, item2_set2 (h1 m), item2_set2 (h2 m), if_neg hmt', if_neg hmt']
          exact ⟨rfl, rfl⟩
    · cases h

/-- The loop over the modules. -/
theorem svdModules_ok (L : Lib K) : ∀ {cov vals vecs vals' vecs' : StateDict K},
    svdModules L cov vals vecs = .ok (vals', vecs') → (Nested.node cov).WF → (∀ m, indexable vals m = true) → (∀ m, indexable vecs m = true) →
    (∀ m, indexable vals' m = true) ∧ (∀ m, indexable vecs' m = true) ∧
    (∀ m t x, item2 cov m t = .ok (some (.tensor x)) → ∃ w v, L.eigh x = .ok (w, v) ∧ item2 vals' m t = .ok (some (.tensor w)) ∧
      item2 vecs' m t = .ok (some (.tensor v))) ∧
    ∀ m t, item2 cov m t = .ok none → item2 vals' m t = item2 vals m t ∧ item2 vecs' m t = item2 vecs m t := by
  have main : ∀ {cov vals vecs vals' vecs' : StateDict K}, svdModules L cov vals vecs = .ok (vals', vecs') → (Nested.node cov).WF →
      (∀ m, indexable vals m = true) → (∀ m, indexable vecs m = true) →
      (∀ m, indexable vals' m = true) ∧ (∀ m, indexable vecs' m = true) ∧
      (∀ m sub, Dict.get? cov m = some (.node sub) → (∀ t x, (t, .leaf (.tensor x)) ∈ sub → ∃ w v, L.eigh x = .ok (w, v) ∧
        item2 vals' m t = .ok (some (.tensor w)) ∧ item2 vecs' m t = .ok (some (.tensor v))) ∧
        ∀ t, t ∉ sub.map Prod.fst → item2 vals' m t = item2 vals m t ∧ item2 vecs' m t = item2 vecs m t) ∧
      ∀ m, Dict.get? cov m = none → ∀ t, item2 vals' m t = item2 vals m t ∧ item2 vecs' m t = item2 vecs m t := by
    intro cov
    induction cov with
    | nil =>
      intro vals vecs vals' vecs' h _ h1 h2
      unfold svdModules at h
      cases h
      exact ⟨h1, h2, by simp, fun _ _ _ => ⟨rfl, rfl⟩⟩
    | cons a rest ih =>
      obtain ⟨m, x⟩ := a
      intro vals vecs vals' vecs' h hw h1 h2
      rw [Nested.WF, Nested.WFList] at hw
      have hrest : (Nested.node rest).WF := by
        rw [Nested.WF]
        exact ⟨(List.nodup_cons.1 hw.1).2, hw.2.2⟩
      have hmr : Dict.get? rest m = none := (Dict.get?_eq_none_iff _ _).2 (List.nodup_cons.1 hw.1).1
      cases x with
      | leaf y => unfold svdModules at h; cases h
      | node modes =>
        unfold svdModules at h
        split at h
        · cases h
        · next vals1 vecs1 hm =>
          have hx := hw.2.1
          rw [Nested.WF] at hx
          obtain ⟨i1, i2, i3, i4⟩ := svdModes_ok L m hm hx.1 h1 h2
          obtain ⟨k1, k2, k3, k4⟩ := ih h hrest i1 i2
          refine ⟨k1, k2, fun m' sub hsub => ?_, fun m' hm' t => ?_⟩
          · rw [Dict.get?_cons] at hsub
            split at hsub
            · next heq =>
              subst heq
              simp only [Option.some.injEq, Nested.node.injEq] at hsub
              subst hsub
              refine ⟨fun t x htx => ?_, fun t ht => ?_⟩
              · obtain ⟨w, v, g1, g2, g3⟩ := i3 t x htx
                obtain ⟨j1, j2⟩ := k4 m hmr t
                exact ⟨w, v, g1, by rw [j1, g2], by rw [j2, g3]⟩
              · obtain ⟨j1, j2⟩ := k4 m hmr t
                obtain ⟨g1, g2⟩ := i4 m t (.inr ht)
                rw [j1, j2, g1, g2]; exact ⟨rfl, rfl⟩
            · next hne =>
              obtain ⟨g1, g2⟩ := k3 m' sub hsub
              refine ⟨g1, fun t ht => ?_⟩
              obtain ⟨j1, j2⟩ := g2 t ht
              obtain ⟨j3, j4⟩ := i4 m' t (.inl (Ne.symm hne))
              rw [j1, j2, j3, j4]; exact ⟨rfl, rfl⟩
          · rw [Dict.get?_cons] at hm'
            split at hm'
            · cases hm'
            · next hne =>
              obtain ⟨j1, j2⟩ := k4 m' hm' t
              obtain ⟨j3, j4⟩ := i4 m' t (.inl (Ne.symm hne))
              rw [j1, j2, j3, j4]; exact ⟨rfl, rfl⟩
  intro cov vals vecs vals' vecs' h hw h1 h2
  obtain ⟨a1, a2, a3, a4⟩ := main h hw h1 h2
  refine ⟨a1, a2, fun m t x hx => ?_, fun m t hx => ?_⟩
  · unfold item2 at hx
    cases hd : Dict.get? cov m with
    | none => rw [hd] at hx; cases hx
    | some y =>
      rw [hd] at hx
      cases y with
      | leaf _ => cases hx
      | node sub =>
        simp only at hx
        cases hs : Dict.get? sub t with
        | none => rw [hs] at hx; cases hx
        | some z =>
          rw [hs] at hx
          cases z with
          | node _ => cases hx
          | leaf b =>
            simp only [Except.ok.injEq, Option.some.injEq] at hx
            subst hx
            exact (a3 m sub hd).1 t x (mem_of_get? hs)
  · unfold item2 at hx
    cases hd : Dict.get? cov m with
    | none => exact a4 m hd t
    | some y =>
      rw [hd] at hx
      cases y with
      | leaf _ => cases hx
      | node sub =>
        simp only at hx
        cases hs : Dict.get? sub t with
        | none => exact (a3 m sub hd).2 t ((Dict.get?_eq_none_iff _ _).1 hs)
        | some z => rw [hs] at hx; cases z <;> cases hx

/-- The eigendecomposition of a table of tensors succeeds if `eigh` does. -/
theorem svdModules_succ (L : Lib K) : ∀ (cov : StateDict K),
    (∀ m v, (m, v) ∈ cov → ∃ sub, v = .node sub ∧ ∀ t w, (t, w) ∈ sub → ∃ x wv, w = .leaf (.tensor x) ∧ L.eigh x = .ok wv) →
    ∀ vals vecs, ∃ r, svdModules L cov vals vecs = .ok r := by
  have inner : ∀ (m : PyStr) (sub : StateDict K), (∀ t w, (t, w) ∈ sub → ∃ x wv, w = .leaf (.tensor x) ∧ L.eigh x = .ok wv) → ∀ vals vecs,
      ∃ r, svdModes L m sub vals vecs = .ok r := by
    intro m sub
    induction sub with
    | nil => intro _ vals vecs; exact ⟨_, rfl⟩
    | cons a rest ih =>
      obtain ⟨t, w⟩ := a
      intro h vals vecs
      obtain ⟨x, ⟨w, v⟩, rfl, hwv⟩ := h t w List.mem_cons_self
      unfold svdModes
      simp only [hwv]
      exact ih (fun t w ht => h t w (List.mem_cons_of_mem _ ht)) _ _
  intro cov
  induction cov with
  | nil => intro _ vals vecs; exact ⟨_, rfl⟩
  | cons a rest ih =>
    obtain ⟨m, v⟩ := a
    intro h vals vecs
    obtain ⟨sub, rfl, hs⟩ := h m v List.mem_cons_self
    obtain ⟨⟨a, b⟩, hab⟩ := inner m sub hs vals vecs
    unfold svdModules
    simp only [hab]
    exact ih (fun m v hm => h m v (List.mem_cons_of_mem _ hm)) _ _

end Logix
