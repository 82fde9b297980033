/-
C141: what a loop over the log loader that reaches its end has read.
-/
import Verif.Lemmas.Skel
import Verif.Spec.ReadAll
import Verif.Props.Collate

namespace Logix
open Spec

private theorem getFlat_id {ds : Dataset} {i : Nat} {id : PyStr} {e : MetaEntry} {a : Arr} (h : ds.getFlat i = .ok (id, e, a)) :
    ∃ hi : i < ds.index.length, ds.index[i].1 = id := by
  unfold Dataset.getFlat at h
  split at h
  · cases h
  · rename_i dataId chunk entry hx
    obtain ⟨hi, hv⟩ := List.getElem?_eq_some_iff.1 hx
    refine ⟨hi, ?_⟩
    split at h
    · cases h
    · split at h
      · cases h
      · cases h; rw [hv]

private theorem getItem_id {ds : Dataset} {i : Nat} {id : PyStr} {d : Nested Arr} (h : ds.getItem i = .ok (id, d)) :
    ∃ hi : i < ds.index.length, ds.index[i].1 = id := by
  unfold Dataset.getItem at h
  split at h
  · cases h
  · rename_i dataId entry flat hx
    split at h
    · cases h
    · split at h
      · cases h; exact getFlat_id hx
      · cases h

private theorem getItemFlat_id {ds : Dataset} {i : Nat} {id : PyStr} {a : Arr} (h : ds.getItemFlat i = .ok (id, a)) :
    ∃ hi : i < ds.index.length, ds.index[i].1 = id := by
  unfold Dataset.getItemFlat at h
  split at h
  · cases h
  · rename_i dataId entry flat hx
    cases h; exact getFlat_id hx

/-- The id at a position of the index. -/
private def idAt (ds : Dataset) (i : Nat) : PyStr := (ds.index[i]?.map Prod.fst).getD []

private theorem idAt_eq {ds : Dataset} {i : Nat} (hi : i < ds.index.length) : idAt ds i = ds.index[i].1 := by
  simp [idAt, List.getElem?_eq_getElem hi]

private theorem fetchItems_ids {ds : Dataset} : ∀ {is : List Nat} {items : List (PyStr × List (PyStr × Nested Arr))},
    fetchItems ds is = .ok items →
    items.map Prod.fst = is.map (idAt ds) ∧ ∀ i ∈ is, ∃ d, ds.getItem i = .ok (idAt ds i, d)
  | [], items, h => by cases h; simp
  | i :: is, items, h => by
    unfold fetchItems at h
    split at h
    · cases h
    · cases h
    · rename_i id d hi
      split at h
      · cases h
      · rename_i rest hr
        cases h
        obtain ⟨hlt, hid⟩ := getItem_id hi
        obtain ⟨h1, h2⟩ := fetchItems_ids hr
        have he : idAt ds i = id := by rw [idAt_eq hlt, hid]
        refine ⟨by simp [h1, he], ?_⟩
        intro j hj
        rcases List.mem_cons.1 hj with rfl | hj
        · exact ⟨.node d, by rw [he]; exact hi⟩
        · exact h2 j hj

private theorem fetchFlat_ids {ds : Dataset} : ∀ {is : List Nat} {items : List (PyStr × Arr)},
    fetchFlat ds is = .ok items →
    items.map Prod.fst = is.map (idAt ds) ∧ (∀ i ∈ is, ∃ a, ds.getItemFlat i = .ok (idAt ds i, a)) ∧
      ∀ (k : Nat) (hk : k < is.length) (hk' : k < items.length), ds.getItemFlat is[k] = .ok items[k]
  | [], items, h => by cases h; simp
  | i :: is, items, h => by
    unfold fetchFlat at h
    split at h
    · cases h
    · rename_i x hi
      split at h
      · cases h
      · rename_i rest hr
        cases h
        obtain ⟨id, a⟩ := x
        obtain ⟨hlt, hid⟩ := getItemFlat_id hi
        obtain ⟨h1, h2, h3⟩ := fetchFlat_ids hr
        have he : idAt ds i = id := by rw [idAt_eq hlt, hid]
        refine ⟨by simp [h1, he], ?_, ?_⟩
        · intro j hj
          rcases List.mem_cons.1 hj with rfl | hj
          · exact ⟨a, by rw [he]; exact hi⟩
          · exact h2 j hj
        · intro k hk hk'
          cases k with
          | zero => exact hi
          | succ k => exact h3 k (by simpa using hk) (by simpa using hk')

private theorem collateNested_ids {items : List (PyStr × List (PyStr × Nested Arr))} {out : List PyStr × List (PyStr × Nested Arr)}
    (h : collateNested items = .ok out) : out.1 = items.map Prod.fst := by
  unfold collateNested at h
  split at h
  · cases h
  · split at h
    · cases h
    · split at h
      · cases h
      · cases h; rfl

private theorem collateFlat_ids {items : List (PyStr × Arr)} {out : List PyStr × Arr}
    (h : collateFlat items = .ok out) : out.1 = items.map Prod.fst ∧ stackArrs (items.map Prod.snd) = .ok out.2 := by
  unfold collateFlat at h
  split at h
  · cases h
  · rename_i t ht
    cases h; exact ⟨rfl, ht⟩

private theorem mapPy_each {f : α → Py β} : ∀ {l : List α} {bs : List β}, mapPy f l = .ok bs →
    bs.length = l.length ∧ ∀ j (hj : j < l.length) (hj' : j < bs.length), f l[j] = .ok bs[j]
  | [], bs, h => by cases h; simp
  | a :: l, bs, h => by
    unfold mapPy at h
    split at h
    · cases h
    · rename_i b hb
      split at h
      · cases h
      · rename_i bs' hr
        cases h
        obtain ⟨h1, h2⟩ := mapPy_each hr
        refine ⟨by simp [h1], ?_⟩
        intro j hj hj'
        cases j with
        | zero => exact hb
        | succ j => exact h2 j (by simpa using hj) (by simpa using hj')

private theorem stackArrs_same {l : List Arr} {t : Arr} (h : stackArrs l = .ok t) :
    ∃ s dt, ∀ a ∈ l, a.shape = s ∧ a.dtype = dt := by
  cases l with
  | nil => cases h
  | cons a as =>
    simp only [stackArrs] at h
    split at h
    · rename_i hall
      refine ⟨a.shape, a.dtype, ?_⟩
      intro x hx
      rcases List.mem_cons.1 hx with rfl | hx
      · exact ⟨rfl, rfl⟩
      · exact hall x hx
    · cases h

/-- The frame shared by both views. -/
private theorem readAll {ds : Dataset} {b : Nat} (hb : 0 < b) {read : Nat → PyStr → Prop} {γ : Type}
    {bs : List (List PyStr × γ)} (hl : bs.length = (batchIndices b ds.len (List.range ds.len)).length)
    (h : ∀ j (hj : j < (batchIndices b ds.len (List.range ds.len)).length) (hj' : j < bs.length),
      bs[j].1 = (batchIndices b ds.len (List.range ds.len))[j].map (idAt ds) ∧
      ∀ i ∈ (batchIndices b ds.len (List.range ds.len))[j], read i (idAt ds i)) :
    ReadAll ds b read (bs.map Prod.fst) := by
  obtain ⟨h1, h2⟩ := batchIndices_spec hb ds.len (List.range ds.len) (by simp)
  generalize hG : batchIndices b ds.len (List.range ds.len) = G at *
  have hmap : bs.map Prod.fst = G.map (List.map (idAt ds)) := by
    apply List.ext_getElem (by simp [hl])
    intro j hj hj'
    simp only [List.length_map] at hj hj'
    simp only [List.getElem_map, (h j hj' hj).1]
  have hrange : (List.range ds.len).map (idAt ds) = ds.index.map Prod.fst := by
    apply List.ext_getElem (by simp [Dataset.len])
    intro j hj hj'
    simp only [List.length_map] at hj'
    simp [idAt_eq hj']
  refine ⟨?_, ?_, ?_⟩
  · rw [hmap, ← List.map_flatten, h1, hrange]
  · intro i hi
    have : i ∈ G.flatten := by rw [h1]; exact List.mem_range.2 hi
    obtain ⟨g, hg, hig⟩ := List.mem_flatten.1 this
    obtain ⟨j, hj, rfl⟩ := List.mem_iff_getElem.1 hg
    rw [← idAt_eq hi]
    exact (h j hj (by omega)).2 i hig
  · intro j hj
    have hj' : j < G.length := by simpa [hl] using hj
    have h3 := h2 j
    rw [List.getElem?_eq_getElem hj'] at h3
    split at h3
    · rename_i hlt
      simp only [List.length_range] at hlt
      have h4 := Option.some.inj h3
      have hlen : (bs.map Prod.fst)[j].length = min b (ds.index.length - j * b) := by
        simp only [hmap, List.getElem_map, List.length_map, h4, List.length_take, List.length_drop, List.length_range, Dataset.len]
      refine ⟨hlen, ?_⟩
      intro e
      rw [e] at hlen
      simp only [List.length_nil, Dataset.len] at hlen hlt
      omega
    · cases h3

private theorem loadBatches_pos {ds : Dataset} {b : Nat} {bs} (h : loadBatches ds b = .ok bs) : 0 < b := by
  unfold loadBatches at h
  split at h
  · cases h
  · omega

/-- **C141 (what holds for the nested view).** A loop over the log loader that reaches its end went over all samples of the directory,
in order, and read each of them under its id. There is no assumption on the contents of the directory. -/
theorem C141_nested_partial (ds : Dataset) (b : Nat) (bs : List (List PyStr × List (PyStr × Nested Arr)))
    (h : loadBatches ds b = .ok bs) :
    ReadAll ds b (fun i id => ∃ d, ds.getItem i = .ok (id, d)) (bs.map Prod.fst) := by
  have hb := loadBatches_pos h
  unfold loadBatches at h
  rw [if_neg (by omega)] at h
  obtain ⟨h1, h2⟩ := mapPy_each h
  refine readAll hb h1 ?_
  intro j hj hj'
  have h3 := h2 j hj hj'
  split at h3
  · cases h3
  · rename_i items hi
    obtain ⟨g1, g2⟩ := fetchItems_ids hi
    exact ⟨by rw [collateNested_ids h3, g1], g2⟩

/-- **C141 (a damaged sample).** If some sample of the directory cannot be read, the loop raises, whatever the batch size. -/
theorem C141_damaged_partial (ds : Dataset) (b i : Nat) (hi : i < ds.index.length) (e : PyErr) (he : ds.getItem i = .error e) :
    ∃ e', loadBatches ds b = .error e' := by
  cases h : loadBatches ds b with
  | error e' => exact ⟨e', rfl⟩
  | ok bs =>
    obtain ⟨d, hd⟩ := (C141_nested_partial ds b bs h).items i hi
    rw [he] at hd
    cases hd

/-- **C141 (flattened view).** The same with `flatten=True`; and there, row `i` of the tensor of a batch is always the sample of the
`i`-th id of the batch. -/
theorem C141_flat_partial (ds : Dataset) (b : Nat) (bs : List (List PyStr × Arr)) (h : loadFlatBatches ds b = .ok bs) :
    ReadAll ds b (fun i id => ∃ a, ds.getItemFlat i = .ok (id, a)) (bs.map Prod.fst) ∧
    ∀ j (hj : j < bs.length), bs[j].2.shape.head? = some bs[j].1.length ∧
      ∀ i (hi : i < bs[j].1.length), ∃ a, ds.getItemFlat (j * b + i) = .ok (bs[j].1[i], a) ∧ bs[j].2.row i = .ok a := by
  have hb : 0 < b := by
    unfold loadFlatBatches at h
    split at h
    · cases h
    · omega
  unfold loadFlatBatches at h
  rw [if_neg (by omega)] at h
  obtain ⟨h1, h2⟩ := mapPy_each h
  refine ⟨?_, ?_⟩
  · refine readAll hb h1 ?_
    intro j hj hj'
    have h3 := h2 j hj hj'
    split at h3
    · cases h3
    · rename_i items hi
      obtain ⟨g1, g2, _⟩ := fetchFlat_ids hi
      exact ⟨by rw [(collateFlat_ids h3).1, g1], g2⟩
  · intro j hj
    obtain ⟨_, s2⟩ := batchIndices_spec hb ds.len (List.range ds.len) (by simp)
    have hj' : j < (batchIndices b ds.len (List.range ds.len)).length := by omega
    have h3 := h2 j hj' hj
    have h4 := s2 j
    rw [List.getElem?_eq_getElem hj'] at h4
    generalize hg : (batchIndices b ds.len (List.range ds.len))[j] = g at *
    split at h3
    · cases h3
    · rename_i items hi
      obtain ⟨g1, g2, g3⟩ := fetchFlat_ids hi
      obtain ⟨k1, k2⟩ := collateFlat_ids h3
      have hne : items.map Prod.snd ≠ [] := by
        intro e; rw [e] at k2; cases k2
      obtain ⟨s, dt, hall⟩ := stackArrs_same k2
      obtain ⟨t, t1, t2, _, _, t5⟩ := stackArrs_ok hne hall
      rw [k2] at t1
      cases t1
      have hlen : items.length = g.length := by
        have := congrArg List.length g1
        simpa using this
      split at h4
      · have h5 := Option.some.inj h4
        refine ⟨by rw [t2, k1]; simp, ?_⟩
        intro i hi
        rw [k1, List.length_map] at hi
        have hig : i < g.length := by omega
        have hval : g[i] = j * b + i := by
          simp only [h5, List.getElem_take, List.getElem_drop, List.getElem_range]
        have h6 := g3 i hig hi
        rw [hval] at h6
        refine ⟨items[i].2, by rw [h6]; simp only [k1, List.getElem_map], ?_⟩
        have := t5 i (by simpa using hi)
        simpa using this
      · cases h4

end Logix
