import Verif.Model.Collate
import Verif.Lemmas.Saver

namespace Logix
open Spec

/-! ### structure of nested dictionaries -/

theorem WF_node_iff {d : List (PyStr × Nested α)} : (Nested.node d).WF ↔ (Dict.keys d).Nodup ∧ ∀ kv ∈ d, kv.2.WF := by
  have : ∀ d : List (PyStr × Nested α), Nested.WFList d ↔ ∀ kv ∈ d, kv.2.WF := by
    intro d
    induction d with
    | nil => simp [Nested.WFList]
    | cons x d ih => obtain ⟨k, v⟩ := x; simp [Nested.WFList, ih]
  rw [Nested.WF, this]; rfl

theorem WF_set {d : List (PyStr × Nested α)} (h : (Nested.node d).WF) (k : PyStr) {v : Nested α} (hv : v.WF) :
    (Nested.node (Dict.set d k v)).WF := by
  rw [WF_node_iff] at h ⊢
  refine ⟨Dict.nodup_keys_set _ _ _ h.1, ?_⟩
  intro kv hkv
  rcases Dict.mem_set hkv with h2 | h2
  · rw [h2]; exact hv
  · exact h.2 kv h2

mutual
/-- No dictionary inside is empty. -/
def Nested.Solid : Nested α → Prop
  | .leaf _ => True
  | .node d => d ≠ [] ∧ Nested.SolidList d
def Nested.SolidList : List (PyStr × Nested α) → Prop
  | [] => True
  | (_, v) :: rest => v.Solid ∧ Nested.SolidList rest
end

theorem solidList_iff {d : List (PyStr × Nested α)} : Nested.SolidList d ↔ ∀ kv ∈ d, kv.2.Solid := by
  induction d with
  | nil => simp [Nested.SolidList]
  | cons x d ih => obtain ⟨k, v⟩ := x; simp [Nested.SolidList, ih]

theorem solid_set {d : List (PyStr × Nested α)} (h : Nested.SolidList d) (k : PyStr) {v : Nested α} (hv : v.Solid) :
    Nested.SolidList (Dict.set d k v) := by
  rw [solidList_iff] at h ⊢
  intro kv hkv
  rcases Dict.mem_set hkv with h2 | h2
  · rw [h2]; exact hv
  · exact h kv h2

theorem setPath_structure (p : Path) : ∀ (d d' : List (PyStr × Nested α)) (a : α), setPath d p a = .ok d' →
    (Nested.node d).WF → Nested.SolidList d → (Nested.node d').WF ∧ Nested.SolidList d' ∧ d' ≠ [] := by
  induction p with
  | nil => intro d d' a h; simp [setPath] at h
  | cons k ks ih =>
    intro d d' a h hwf hs
    cases ks with
    | nil =>
      simp only [setPath, Except.ok.injEq] at h
      subst h
      exact ⟨WF_set hwf k (by simp [Nested.WF]), solid_set hs k (by simp [Nested.Solid]), Dict.set_ne_nil _ _ _⟩
    | cons k' ks =>
      simp only [setPath] at h
      cases hg : Dict.get? d k with
      | none =>
        rw [hg] at h
        simp only at h
        split at h
        · cases h
        · next sub hsub =>
          simp only [Except.ok.injEq] at h
          subst h
          obtain ⟨h1, h2, h3⟩ := ih [] sub a hsub (by simp [Nested.WF, Nested.WFList]) (by simp [Nested.SolidList])
          exact ⟨WF_set hwf k h1, solid_set hs k (by simp only [Nested.Solid]; exact ⟨h3, h2⟩), Dict.set_ne_nil _ _ _⟩
      | some v =>
        rw [hg] at h
        cases v with
        | leaf b => simp at h
        | node m =>
          simp only at h
          split at h
          · cases h
          · next sub hsub =>
            simp only [Except.ok.injEq] at h
            subst h
            have hm := Dict.mem_of_get? _ hg
            have hmw := (WF_node_iff.1 hwf).2 _ hm
            have hms := (solidList_iff.1 hs) _ hm
            simp only [Nested.Solid] at hms
            obtain ⟨h1, h2, h3⟩ := ih m sub a hsub hmw hms.2
            exact ⟨WF_set hwf k h1, solid_set hs k (by simp only [Nested.Solid]; exact ⟨h3, h2⟩), Dict.set_ne_nil _ _ _⟩

theorem unflattenLoop_structure (flat : Arr) (ps : List Path) : ∀ (ss : List (List Nat)) (start : Nat)
    (d : List (PyStr × Nested Arr)) (st' : Nat) (d' : List (PyStr × Nested Arr)),
    unflattenLoop flat ps ss start d = .ok (st', d') →
    (Nested.node d).WF → Nested.SolidList d → (Nested.node d').WF ∧ Nested.SolidList d' := by
  induction ps with
  | nil =>
    intro ss start d st' d' h hw hs
    simp only [unflattenLoop, Except.ok.injEq, Prod.mk.injEq] at h
    rw [← h.2]; exact ⟨hw, hs⟩
  | cons p ps ih =>
    intro ss start d st' d' h hw hs
    cases ss with
    | nil => simp [unflattenLoop] at h
    | cons s ss =>
      simp only [unflattenLoop] at h
      split at h
      · cases h
      · split at h
        · cases h
        · next hset =>
          obtain ⟨h1, h2, _⟩ := setPath_structure _ _ _ _ hset hw hs
          exact ih _ _ _ _ _ h h1 h2

/-- Every item of a dataset is a dictionary with distinct keys and without empty dictionaries inside. -/
theorem getItem_structure {ds : Dataset} {i : Nat} {id : PyStr} {nd : Nested Arr} (h : ds.getItem i = .ok (id, nd)) :
    ∃ d, nd = .node d ∧ (Nested.node d).WF ∧ Nested.SolidList d := by
  unfold Dataset.getItem at h
  split at h
  · cases h
  · split at h
    · cases h
    · next hl =>
      split at h
      · simp only [Except.ok.injEq, Prod.mk.injEq] at h
        obtain ⟨h1, h2⟩ := unflattenLoop_structure _ _ _ _ _ _ _ hl (by simp [Nested.WF, Nested.WFList])
          (by simp [Nested.SolidList])
        exact ⟨_, h.2.symm, h1, h2⟩
      · cases h

mutual
theorem Nested.Solid.hasLeaf : ∀ v : Nested α, v.WF → v.Solid → ∃ p a, v.lookup p = some a
  | .leaf a, _, _ => ⟨[], a, rfl⟩
  | .node d, hw, hs => by
    cases d with
    | nil => simp [Nested.Solid] at hs
    | cons x d =>
      obtain ⟨k, v⟩ := x
      simp only [Nested.Solid, Nested.SolidList] at hs
      obtain ⟨p, a, h⟩ := Nested.Solid.hasLeaf v ((WF_node_iff.1 hw).2 (k, v) (by simp)) hs.2.1
      exact ⟨k :: p, a, by rw [lookup_node_cons, Dict.get?_cons_self]; exact h⟩
end

theorem lookup_cons_cons (k : PyStr) (v : Nested α) (rest : List (PyStr × Nested α)) (k' : PyStr) (q : Path) :
    (Nested.node ((k, v) :: rest)).lookup (k' :: q) = if k = k' then v.lookup q else (Nested.node rest).lookup (k' :: q) := by
  rw [lookup_node_cons, Dict.get?_cons]
  split
  · rfl
  · rw [lookup_node_cons]

theorem lookup_set (d : List (PyStr × Nested α)) (k : PyStr) (v : Nested α) (k' : PyStr) (q : Path) :
    (Nested.node (Dict.set d k v)).lookup (k' :: q) = if k = k' then v.lookup q else (Nested.node d).lookup (k' :: q) := by
  rw [lookup_node_cons, Dict.get?_set]
  split
  · rfl
  · rw [lookup_node_cons]

/-! ### `_init_collate_structure` -/

mutual
theorem initCollate_lookup : ∀ (v : Nested Arr) (p : Path), (initCollate v).lookup p = (v.lookup p).map fun _ => []
  | .leaf a, p => by cases p <;> simp [initCollate, Nested.lookup]
  | .node d, p => by
    cases p with
    | nil => simp [initCollate, Nested.lookup]
    | cons k q => simp only [initCollate]; exact initCollateList_lookup d k q
theorem initCollateList_lookup : ∀ (d : List (PyStr × Nested Arr)) (k : PyStr) (q : Path),
    (Nested.node (initCollateList d)).lookup (k :: q) = ((Nested.node d).lookup (k :: q)).map fun _ => []
  | [], k, q => by simp [initCollateList, lookup_empty]
  | (k', v) :: rest, k, q => by
    simp only [initCollateList]
    rw [lookup_cons_cons, lookup_cons_cons]
    split
    · exact initCollate_lookup v q
    · exact initCollateList_lookup rest k q
end

theorem initCollateList_keys (d : List (PyStr × Nested Arr)) : Dict.keys (initCollateList d) = Dict.keys d := by
  induction d with
  | nil => rfl
  | cons x d ih => obtain ⟨k, v⟩ := x; simp only [initCollateList, Dict.keys, List.map_cons]; congr 1

mutual
theorem initCollate_WF : ∀ (v : Nested Arr), v.WF → (initCollate v).WF
  | .leaf a, _ => by simp [initCollate, Nested.WF]
  | .node d, h => by
    simp only [initCollate]
    rw [WF_node_iff] at h ⊢
    rw [initCollateList_keys]
    exact ⟨h.1, initCollateList_WF d h.2⟩
theorem initCollateList_WF : ∀ (d : List (PyStr × Nested Arr)), (∀ kv ∈ d, kv.2.WF) → ∀ kv ∈ initCollateList d, kv.2.WF
  | [], _ => by simp [initCollateList]
  | (k, v) :: rest, h => by
    intro kv hkv
    simp only [initCollateList, List.mem_cons] at hkv
    rcases hkv with rfl | hkv
    · exact initCollate_WF v (h (k, v) (by simp))
    · exact initCollateList_WF rest (fun x hx => h x (by simp [hx])) kv hkv
end

/-! ### `_merge_dicts` -/

mutual
theorem mergeValue_ok : ∀ (v : Nested Arr) (acc : List (PyStr × Nested (List Arr))) (k : PyStr), v.WF → v.Solid →
    (Nested.node acc).WF → (∀ p a, v.lookup p = some a → ∃ l, (Nested.node acc).lookup (k :: p) = some l) →
    ∃ acc', mergeValue acc k v = .ok acc' ∧ (Nested.node acc').WF ∧ ∀ k' q, (Nested.node acc').lookup (k' :: q) =
      if k = k' then
        match v.lookup q with
        | some a => ((Nested.node acc).lookup (k' :: q)).map (· ++ [a])
        | none => (Nested.node acc).lookup (k' :: q)
      else (Nested.node acc).lookup (k' :: q)
  | .leaf a, acc, k, _, _, hacc, h => by
    obtain ⟨l, hl⟩ := h [] a rfl
    rw [lookup_node_cons] at hl
    cases hg : Dict.get? acc k with
    | none => rw [hg] at hl; simp at hl
    | some x =>
      rw [hg] at hl
      cases x with
      | node m => simp [Nested.lookup] at hl
      | leaf l' =>
        simp only [Option.bind_some, Nested.lookup, Option.some.injEq] at hl
        subst hl
        refine ⟨Dict.set acc k (.leaf (l' ++ [a])), by simp only [mergeValue, hg], WF_set hacc k (by simp [Nested.WF]), ?_⟩
        intro k' q
        rw [lookup_set]
        by_cases e : k = k'
        · subst e
          simp only [if_true]
          rw [lookup_node_cons, hg]
          cases q with
          | nil => simp [Nested.lookup]
          | cons x q => simp [Nested.lookup]
        · simp [e]
  | .node m, acc, k, hw, hs, hacc, h => by
    obtain ⟨p, a, hp⟩ := Nested.Solid.hasLeaf _ hw hs
    obtain ⟨l, hl⟩ := h p a hp
    rw [lookup_node_cons] at hl
    cases hg : Dict.get? acc k with
    | none => rw [hg] at hl; simp at hl
    | some x =>
      rw [hg] at hl
      cases x with
      | leaf l' =>
        cases p with
        | nil => simp [Nested.lookup] at hp
        | cons y p => simp [Nested.lookup] at hl
      | node sub =>
        have hsub := (WF_node_iff.1 hacc).2 _ (Dict.mem_of_get? _ hg)
        simp only [Nested.Solid] at hs
        obtain ⟨sub', h1, h2, h3⟩ := mergeDicts_ok m sub hw hs.2 hsub (by
          intro p a hpa
          obtain ⟨l, hl⟩ := h p a hpa
          rw [lookup_node_cons, hg] at hl
          exact ⟨l, hl⟩)
        refine ⟨_, by simp only [mergeValue, hg, h1], WF_set hacc k h2, ?_⟩
        intro k' q
        rw [lookup_set]
        by_cases e : k = k'
        · subst e
          simp only [if_true]
          rw [lookup_node_cons, hg]
          cases q with
          | nil => simp [Nested.lookup]
          | cons x q => exact h3 (x :: q)
        · simp [e]
theorem mergeDicts_ok : ∀ (m : List (PyStr × Nested Arr)) (acc : List (PyStr × Nested (List Arr))), (Nested.node m).WF →
    Nested.SolidList m → (Nested.node acc).WF →
    (∀ p a, (Nested.node m).lookup p = some a → ∃ l, (Nested.node acc).lookup p = some l) →
    ∃ acc', mergeDicts acc m = .ok acc' ∧ (Nested.node acc').WF ∧ ∀ p, (Nested.node acc').lookup p =
      match (Nested.node m).lookup p with
      | some a => ((Nested.node acc).lookup p).map (· ++ [a])
      | none => (Nested.node acc).lookup p
  | [], acc, _, _, hacc, _ => ⟨acc, by simp [mergeDicts], hacc, fun p => by simp [lookup_empty]⟩
  | (k, v) :: rest, acc, hw, hs, hacc, h => by
    have hw' := WF_node_iff.1 hw
    simp only [Nested.SolidList] at hs
    have hnk : k ∉ Dict.keys rest := by
      have := hw'.1
      simp only [Dict.keys, List.map_cons, List.nodup_cons] at this
      exact this.1
    obtain ⟨acc1, h1, h2, h3⟩ := mergeValue_ok v acc k (hw'.2 (k, v) (by simp)) hs.1 hacc (by
      intro p a hpa
      exact h (k :: p) a (by rw [lookup_cons_cons, if_pos rfl]; exact hpa))
    have hrest : ∀ q, (Nested.node rest).lookup (k :: q) = none := by
      intro q; rw [lookup_node_cons, (Dict.get?_eq_none_iff _ _).2 hnk]; rfl
    obtain ⟨acc2, g1, g2, g3⟩ := mergeDicts_ok rest acc1
      (WF_node_iff.2 ⟨by
        have := hw'.1
        simp only [Dict.keys, List.map_cons, List.nodup_cons] at this
        exact this.2, fun kv hkv => hw'.2 kv (by simp [hkv])⟩) hs.2 h2 (by
      intro p a hpa
      cases p with
      | nil => simp [Nested.lookup] at hpa
      | cons k' q =>
        have hne : k ≠ k' := by intro e; subst e; rw [hrest] at hpa; cases hpa
        rw [h3, if_neg hne]
        exact h (k' :: q) a (by rw [lookup_cons_cons, if_neg hne]; exact hpa))
    refine ⟨acc2, by simp only [mergeDicts, h1, g1], g2, ?_⟩
    intro p
    rw [g3]
    cases p with
    | nil => simp [Nested.lookup]
    | cons k' q =>
      rw [h3, lookup_cons_cons]
      by_cases e : k = k'
      · subst e; simp [hrest]
      · simp [e]
end

theorem mergeAll_ok (items : List (List (PyStr × Nested Arr))) : ∀ (acc : List (PyStr × Nested (List Arr))),
    (∀ m ∈ items, (Nested.node m).WF ∧ Nested.SolidList m) → (Nested.node acc).WF →
    (∀ m ∈ items, ∀ p a, (Nested.node m).lookup p = some a → ∃ l, (Nested.node acc).lookup p = some l) →
    ∃ acc', mergeAll acc items = .ok acc' ∧ (Nested.node acc').WF ∧ ∀ p, (Nested.node acc').lookup p =
      ((Nested.node acc).lookup p).map (· ++ items.filterMap fun m => (Nested.node m).lookup p) := by
  induction items with
  | nil => intro acc _ hacc _; exact ⟨acc, rfl, hacc, fun p => by simp⟩
  | cons m items ih =>
    intro acc hm hacc h
    obtain ⟨acc1, h1, h2, h3⟩ := mergeDicts_ok m acc (hm m (by simp)).1 (hm m (by simp)).2 hacc (h m (by simp))
    obtain ⟨acc2, g1, g2, g3⟩ := ih acc1 (fun x hx => hm x (by simp [hx])) h2 (by
      intro x hx p a hpa
      obtain ⟨l, hl⟩ := h x (by simp [hx]) p a hpa
      rw [h3, hl]
      split <;> simp)
    refine ⟨acc2, by simp only [mergeAll, h1, g1], g2, ?_⟩
    intro p
    rw [g3, h3, List.filterMap_cons]
    cases hl : (Nested.node m).lookup p with
    | none => simp
    | some a => simp [Option.map_map, Function.comp_def]

/-! ### `_collate_tensors_in_structure` -/

mutual
theorem collateValue_ok : ∀ (v : Nested (List Arr)) (f : Path → Arr), v.WF →
    (∀ p l, v.lookup p = some l → stackArrs l = .ok (f p)) →
    ∃ v', collateValue v = .ok v' ∧ ∀ p, v'.lookup p = (v.lookup p).map fun _ => f p
  | .leaf l, f, _, h => by
    refine ⟨.leaf (f []), by simp only [collateValue, h [] l rfl], ?_⟩
    intro p; cases p <;> simp [Nested.lookup]
  | .node d, f, hw, h => by
    obtain ⟨d', h1, h2⟩ := collateStructure_ok d f hw h
    exact ⟨.node d', by simp only [collateValue, h1], h2⟩
theorem collateStructure_ok : ∀ (d : List (PyStr × Nested (List Arr))) (f : Path → Arr), (Nested.node d).WF →
    (∀ p l, (Nested.node d).lookup p = some l → stackArrs l = .ok (f p)) →
    ∃ d', collateStructure d = .ok d' ∧ ∀ p, (Nested.node d').lookup p = ((Nested.node d).lookup p).map fun _ => f p
  | [], f, _, _ => ⟨[], by simp [collateStructure], fun p => by simp [lookup_empty]⟩
  | (k, v) :: rest, f, hw, h => by
    have hw' := WF_node_iff.1 hw
    have hnk := hw'.1
    simp only [Dict.keys, List.map_cons, List.nodup_cons] at hnk
    obtain ⟨v', h1, h2⟩ := collateValue_ok v (fun p => f (k :: p)) (hw'.2 (k, v) (by simp)) (by
      intro p l hl
      exact h (k :: p) l (by rw [lookup_cons_cons, if_pos rfl]; exact hl))
    obtain ⟨rest', g1, g2⟩ := collateStructure_ok rest f
      (WF_node_iff.2 ⟨hnk.2, fun kv hkv => hw'.2 kv (by simp [hkv])⟩) (by
      intro p l hl
      cases p with
      | nil => simp [Nested.lookup] at hl
      | cons k' q =>
        have hne : k ≠ k' := by
          intro e; subst e
          rw [lookup_node_cons, (Dict.get?_eq_none_iff _ _).2 hnk.1] at hl; simp at hl
        exact h (k' :: q) l (by rw [lookup_cons_cons, if_neg hne]; exact hl))
    refine ⟨(k, v') :: rest', by simp only [collateStructure, h1, g1], ?_⟩
    intro p
    cases p with
    | nil => simp [Nested.lookup]
    | cons k' q =>
      rw [lookup_cons_cons, lookup_cons_cons]
      by_cases e : k = k'
      · subst e; simp [h2]
      · simp only [if_neg e]; exact g2 (k' :: q)
end

/-! ### stacking -/

theorem flatMap_drop_take (l : List Arr) (n : Nat) (h : ∀ b ∈ l, b.bytes.length = n) (i : Nat) (hi : i < l.length) :
    ((l.flatMap Arr.bytes).drop (i * n)).take n = l[i].bytes := by
  induction l generalizing i with
  | nil => simp at hi
  | cons a l ih =>
    have ha := h a (by simp)
    rw [List.flatMap_cons]
    cases i with
    | zero => simp [← ha]
    | succ i =>
      have : (i + 1) * n = a.bytes.length + i * n := by rw [ha, Nat.add_mul]; omega
      rw [this, List.drop_append]
      simp only [List.getElem_cons_succ]
      rw [List.drop_eq_nil_of_le (by omega)]
      simp only [Nat.add_sub_cancel_left, List.nil_append]
      exact ih (fun b hb => h b (by simp [hb])) i (by simpa using hi)

theorem stackArrs_wf (a : Arr) (as : List Arr) (h : ∀ b ∈ as, b.shape = a.shape ∧ b.dtype = a.dtype) :
    (a.bytes ++ as.flatMap Arr.bytes).length = numel ((as.length + 1) :: a.shape) * a.dtype.itemsize := by
  have : ∃ t, stackArrs (a :: as) = .ok t ∧ t.bytes = a.bytes ++ as.flatMap Arr.bytes ∧ t.shape = (as.length + 1) :: a.shape ∧
      t.dtype = a.dtype := by
    simp only [stackArrs, dif_pos h]
    exact ⟨_, rfl, rfl, rfl, rfl⟩
  obtain ⟨t, _, h1, h2, h3⟩ := this
  rw [← h1, t.wf, h2, h3]

/-- Rows of a stacked tensor are the tensors. -/
theorem stackArrs_ok {l : List Arr} (hne : l ≠ []) {s : List Nat} {dt : DType} (h : ∀ a ∈ l, a.shape = s ∧ a.dtype = dt) :
    ∃ t, stackArrs l = .ok t ∧ t.shape = l.length :: s ∧ t.dtype = dt ∧ t.bytes = l.flatMap Arr.bytes ∧
      ∀ i (hi : i < l.length), t.row i = .ok l[i] := by
  cases l with
  | nil => exact absurd rfl hne
  | cons a as =>
    have ha := h a (by simp)
    have hall : ∀ b ∈ as, b.shape = a.shape ∧ b.dtype = a.dtype := by
      intro b hb
      have := h b (by simp [hb])
      exact ⟨by rw [this.1, ha.1], by rw [this.2, ha.2]⟩
    simp only [stackArrs, dif_pos hall]
    refine ⟨_, rfl, by simp [ha.1], ha.2, by simp, ?_⟩
    intro i hi
    have hi' : i < as.length + 1 := by simpa using hi
    have hb : ((a :: as)[i]).shape = s ∧ ((a :: as)[i]).dtype = dt := h _ (List.getElem_mem hi)
    have hlen : ∀ b ∈ (a :: as), b.bytes.length = numel a.shape * a.dtype.itemsize := by
      intro b hb
      rw [b.wf]
      have := h b hb
      rw [this.1, this.2, ha.1, ha.2]
    have hbytes := flatMap_drop_take (a :: as) _ hlen i hi
    rw [List.flatMap_cons] at hbytes
    obtain ⟨r, hr⟩ := (row_ok_iff (t := ⟨a.dtype, (as.length + 1) :: a.shape, a.bytes ++ as.flatMap Arr.bytes, by
      have := (stackArrs_wf a as hall); exact this⟩) (i := i)).2 ⟨_, _, rfl, hi'⟩
    obtain ⟨r1, r2, r3⟩ := row_spec hr
    rw [hr]
    congr 1
    apply Arr.ext
    · rw [r1, hb.2, ha.2]
    · rw [r2, hb.1, ← ha.1]; rfl
    · rw [r3]; exact hbytes

/-! ### groups of indices -/

theorem batchIndices_spec {b : Nat} (hb : 0 < b) (fuel : Nat) : ∀ (l : List Nat), l.length ≤ fuel →
    (batchIndices b fuel l).flatten = l ∧
    ∀ j, (batchIndices b fuel l)[j]? = if j * b < l.length then some ((l.drop (j * b)).take b) else none := by
  induction fuel with
  | zero =>
    intro l hl
    have : l = [] := List.eq_nil_of_length_eq_zero (by omega)
    subst this
    simp [batchIndices]
  | succ fuel ih =>
    intro l hl
    cases l with
    | nil => simp [batchIndices]
    | cons x l =>
      simp only [batchIndices]
      obtain ⟨h1, h2⟩ := ih ((x :: l).drop b) (by simp only [List.length_drop, List.length_cons] at hl ⊢; omega)
      refine ⟨by rw [List.flatten_cons, h1, List.take_append_drop], ?_⟩
      intro j
      cases j with
      | zero => simp
      | succ j =>
        rw [List.getElem?_cons_succ, h2]
        have e : (j + 1) * b = b + j * b := by rw [Nat.add_mul]; omega
        rw [e, List.drop_drop]
        simp only [List.length_drop]
        by_cases hlt : b + j * b < (x :: l).length
        · rw [if_pos hlt, if_pos (by omega)]
        · rw [if_neg hlt, if_neg (by omega)]

theorem mapPy_ok (f : α → Py β) (l : List α) (g : α → β) (h : ∀ a ∈ l, f a = .ok (g a)) : mapPy f l = .ok (l.map g) := by
  induction l with
  | nil => rfl
  | cons a l ih =>
    simp only [mapPy, h a (by simp), ih (fun x hx => h x (by simp [hx])), List.map_cons]

theorem mapPy_ok_exists (f : α → Py β) (l : List α) (P : α → β → Prop) (h : ∀ a ∈ l, ∃ b, f a = .ok b ∧ P a b) :
    ∃ bs, mapPy f l = .ok bs ∧ bs.length = l.length ∧ ∀ j (hj : j < l.length) (hj' : j < bs.length), P l[j] bs[j] := by
  induction l with
  | nil => exact ⟨[], rfl, rfl, fun j hj => absurd hj (by simp)⟩
  | cons a l ih =>
    obtain ⟨b, h1, h2⟩ := h a (by simp)
    obtain ⟨bs, g1, g2, g3⟩ := ih (fun x hx => h x (by simp [hx]))
    refine ⟨b :: bs, by simp only [mapPy, h1, g1], by simp [g2], ?_⟩
    intro j hj hj'
    cases j with
    | zero => exact h2
    | succ j => exact g3 j (by simpa using hj) (by simpa using hj')

end Logix
