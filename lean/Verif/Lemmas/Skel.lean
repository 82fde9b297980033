/-
The skeleton of a nested dictionary: its keys, without what is stored. Collation keeps it.
-/
import Verif.Lemmas.Collate

namespace Logix

mutual
def Nested.skel : Nested α → Nested Unit
  | .leaf _ => .leaf ()
  | .node d => .node (Nested.skelList d)
def Nested.skelList : List (PyStr × Nested α) → List (PyStr × Nested Unit)
  | [] => []
  | (k, v) :: rest => (k, v.skel) :: Nested.skelList rest
end

theorem skelList_eq (d : List (PyStr × Nested α)) : Nested.skelList d = d.map fun p => (p.1, p.2.skel) := by
  induction d with
  | nil => rfl
  | cons p d ih => obtain ⟨k, v⟩ := p; simp [Nested.skelList, ih]

theorem skelList_keys (d : List (PyStr × Nested α)) : Dict.keys (Nested.skelList d) = Dict.keys d := by
  rw [skelList_eq]; simp [Dict.keys]

mutual
theorem skel_initCollate : ∀ v : Nested Arr, (initCollate v).skel = v.skel
  | .leaf _ => rfl
  | .node d => by simp only [initCollate, Nested.skel, skel_initCollateList d]
theorem skel_initCollateList : ∀ d : List (PyStr × Nested Arr), Nested.skelList (initCollateList d) = Nested.skelList d
  | [] => rfl
  | (k, v) :: rest => by simp only [initCollateList, Nested.skelList, skel_initCollate v, skel_initCollateList rest]
end

theorem skelList_set {d : List (PyStr × Nested α)} {k : PyStr} {v v' : Nested α} (h : Dict.get? d k = some v) (hs : v'.skel = v.skel) :
    Nested.skelList (Dict.set d k v') = Nested.skelList d := by
  induction d with
  | nil => cases h
  | cons p d ih =>
    obtain ⟨a, w⟩ := p
    by_cases ha : a = k
    · subst ha
      simp only [Dict.get?, Dict.set] at h ⊢
      simp at h
      subst h
      simp [Nested.skelList, hs]
    · have h' : Dict.get? d k = some v := by
        rw [← h]; simp [Dict.get?, ha]
      simp only [Dict.set, if_neg ha, Nested.skelList, ih h']

mutual
theorem skel_mergeValue : ∀ (v : Nested Arr) (acc acc' : List (PyStr × Nested (List Arr))) (k : PyStr), mergeValue acc k v = .ok acc' →
    Nested.skelList acc' = Nested.skelList acc
  | .leaf a, acc, acc', k, h => by
    unfold mergeValue at h
    split at h
    · cases h
    · cases h
    · next l hl => cases h; exact skelList_set hl rfl
  | .node m, acc, acc', k, h => by
    unfold mergeValue at h
    split at h
    · cases h
    · split at h
      · cases h; rfl
      · cases h
    · next sub hsub =>
      split at h
      · cases h
      · next sub' hs => cases h; exact skelList_set hsub (by simp only [Nested.skel, skel_mergeDicts m sub sub' hs])
theorem skel_mergeDicts : ∀ (m : List (PyStr × Nested Arr)) (acc acc' : List (PyStr × Nested (List Arr))), mergeDicts acc m = .ok acc' →
    Nested.skelList acc' = Nested.skelList acc
  | [], acc, acc', h => by cases h; rfl
  | (k, v) :: rest, acc, acc', h => by
    unfold mergeDicts at h
    split at h
    · cases h
    · next acc₁ h₁ => rw [skel_mergeDicts rest acc₁ acc' h, skel_mergeValue v acc acc₁ k h₁]
end

theorem skel_mergeAll : ∀ (items : List (List (PyStr × Nested Arr))) (acc acc' : List (PyStr × Nested (List Arr))), mergeAll acc items = .ok acc' →
    Nested.skelList acc' = Nested.skelList acc
  | [], acc, acc', h => by cases h; rfl
  | d :: rest, acc, acc', h => by
    unfold mergeAll at h
    split at h
    · cases h
    · next acc₁ h₁ => rw [skel_mergeAll rest acc₁ acc' h, skel_mergeDicts d acc acc₁ h₁]

mutual
theorem skel_collateValue : ∀ (v : Nested (List Arr)) (v' : Nested Arr), collateValue v = .ok v' → v'.skel = v.skel
  | .leaf l, v', h => by
    unfold collateValue at h
    split at h
    · cases h
    · cases h; rfl
  | .node d, v', h => by
    unfold collateValue at h
    split at h
    · cases h
    · next d' hd => cases h; simp only [Nested.skel, skel_collateStructure d d' hd]
theorem skel_collateStructure : ∀ (d : List (PyStr × Nested (List Arr))) (d' : List (PyStr × Nested Arr)), collateStructure d = .ok d' →
    Nested.skelList d' = Nested.skelList d
  | [], d', h => by cases h; rfl
  | (k, v) :: rest, d', h => by
    unfold collateStructure at h
    split at h
    · cases h
    · next v' hv =>
      split at h
      · cases h
      · next rest' hr => cases h; simp only [Nested.skelList, skel_collateValue v v' hv, skel_collateStructure rest rest' hr]
end

theorem skel_collateNested {first : PyStr × List (PyStr × Nested Arr)} {rest : List (PyStr × List (PyStr × Nested Arr))}
    {out : List PyStr × List (PyStr × Nested Arr)} (h : collateNested (first :: rest) = .ok out) : Nested.skelList out.2 = Nested.skelList first.2 := by
  unfold collateNested at h
  dsimp only at h
  split at h
  · cases h
  · next acc hacc =>
    split at h
    · cases h
    · next d hd =>
      cases h
      rw [skel_collateStructure _ _ hd, skel_mergeAll _ _ _ hacc, skel_initCollateList]

mutual
theorem skel_WF : ∀ v : Nested α, v.skel.WF ↔ v.WF
  | .leaf _ => Iff.rfl
  | .node d => by
    simp only [Nested.skel, Nested.WF, skel_WFList d]
    have := skelList_keys d
    unfold Dict.keys at this
    rw [this]
theorem skel_WFList : ∀ d : List (PyStr × Nested α), Nested.WFList (Nested.skelList d) ↔ Nested.WFList d
  | [] => Iff.rfl
  | (k, v) :: rest => by simp only [Nested.skelList, Nested.WFList, skel_WF v, skel_WFList rest]
end

mutual
theorem skel_Solid : ∀ v : Nested α, v.skel.Solid ↔ v.Solid
  | .leaf _ => Iff.rfl
  | .node d => by
    simp only [Nested.skel, Nested.Solid, skel_SolidList d]
    cases d with
    | nil => simp [Nested.skelList]
    | cons p d => obtain ⟨k, v⟩ := p; simp [Nested.skelList]
theorem skel_SolidList : ∀ d : List (PyStr × Nested α), Nested.SolidList (Nested.skelList d) ↔ Nested.SolidList d
  | [] => Iff.rfl
  | (k, v) :: rest => by simp only [Nested.skelList, Nested.SolidList, skel_Solid v, skel_SolidList rest]
end

theorem mapPy_mem {f : α → Py β} : ∀ {l : List α} {bs : List β}, mapPy f l = .ok bs → ∀ b ∈ bs, ∃ a ∈ l, f a = .ok b
  | [], bs, h, b, hb => by cases h; cases hb
  | a :: l, bs, h, b, hb => by
    unfold mapPy at h
    split at h
    · cases h
    · next c hc =>
      split at h
      · cases h
      · next cs hcs =>
        cases h
        rcases List.mem_cons.1 hb with rfl | hb
        · exact ⟨a, by simp, hc⟩
        · obtain ⟨a', h1, h2⟩ := mapPy_mem hcs b hb
          exact ⟨a', by simp [h1], h2⟩

theorem fetchItems_head {ds : Dataset} {is : List Nat} {x : PyStr × List (PyStr × Nested Arr)} {rest : List (PyStr × List (PyStr × Nested Arr))}
    (h : fetchItems ds is = .ok (x :: rest)) : ∃ i, ds.getItem i = .ok (x.1, .node x.2) := by
  cases is with
  | nil => cases h
  | cons i is =>
    unfold fetchItems at h
    split at h
    · cases h
    · cases h
    · next id d hg =>
      split at h
      · cases h
      · cases h; exact ⟨i, hg⟩

/-- The dictionary of a batch has the keys of a stored item. -/
theorem batch_skel {ds : Dataset} {b : Nat} {bs : List (List PyStr × List (PyStr × Nested Arr))} (h : loadBatches ds b = .ok bs)
    (x : List PyStr × List (PyStr × Nested Arr)) (hx : x ∈ bs) : ∃ i id d, ds.getItem i = .ok (id, .node d) ∧ Nested.skelList x.2 = Nested.skelList d := by
  unfold loadBatches at h
  split at h
  · cases h
  · obtain ⟨is, -, h2⟩ := mapPy_mem h x hx
    split at h2
    · cases h2
    · next items hi =>
      cases items with
      | nil => cases h2
      | cons first rest =>
        obtain ⟨i, hg⟩ := fetchItems_head hi
        exact ⟨i, first.1, first.2, hg, skel_collateNested h2⟩

/-- The dictionary of a batch is a dictionary, and has no empty ones inside. -/
theorem batch_structure {ds : Dataset} {b : Nat} {bs : List (List PyStr × List (PyStr × Nested Arr))} (h : loadBatches ds b = .ok bs)
    (x : List PyStr × List (PyStr × Nested Arr)) (hx : x ∈ bs) : (Nested.node x.2).WF ∧ Nested.SolidList x.2 := by
  obtain ⟨i, id, d, h1, h2⟩ := batch_skel h x hx
  obtain ⟨d', h3, h4, h5⟩ := getItem_structure h1
  cases h3
  constructor
  · rw [← skel_WF] at h4 ⊢
    simpa only [Nested.skel, h2] using h4
  · rw [← skel_SolidList] at h5 ⊢
    rw [h2]; exact h5

end Logix
