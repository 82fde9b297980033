/-
C14: batches served by the log data loader.
-/
import Verif.Lemmas.Skel
import Verif.Spec.Collate
import Verif.Props.SaverFaults

namespace Logix
open Spec

/-- The samples at a list of positions. -/
private def pick (samples : List α) (is : List Nat) : List α := is.filterMap fun i => samples[i]?

private theorem pick_range (samples : List α) (k b : Nat) :
    pick samples (((List.range samples.length).drop k).take b) = (samples.drop k).take b := by
  have h : ∀ l : List α, pick l (List.range l.length) = l := by
    intro l
    induction l with
    | nil => rfl
    | cons a l ih =>
      simp only [pick, List.length_cons, List.range_succ_eq_map, List.filterMap_cons, List.getElem?_cons_zero,
        List.filterMap_map]
      congr 1
  have h2 : ∀ (is : List Nat), (∀ i ∈ is, i < samples.length) → ∀ n,
      pick samples (is.take n) = (pick samples is).take n ∧ pick samples (is.drop n) = (pick samples is).drop n := by
    intro is
    induction is with
    | nil => intro _ n; simp [pick]
    | cons i is ih =>
      intro hi n
      have hi0 := hi i (by simp)
      have hc : pick samples (i :: is) = samples[i] :: pick samples is := by
        simp [pick, List.getElem?_eq_getElem hi0]
      cases n with
      | zero => simp [pick]
      | succ n =>
        obtain ⟨h1, h2⟩ := ih (fun j hj => hi j (by simp [hj])) n
        rw [hc]
        constructor
        · have : pick samples ((i :: is).take (n + 1)) = samples[i] :: pick samples (is.take n) := by
            simp [pick, List.getElem?_eq_getElem hi0]
          rw [this, h1]; rfl
        · simpa using h2
  rw [(h2 _ (fun i hi => by simpa using List.mem_range.1 (List.mem_of_mem_drop hi)) b).1,
    (h2 _ (fun i hi => by simpa using hi) k).2, h]

private theorem fetchItems_ok {ds : Dataset} {order : List Path} {samples : List (PyStr × Nested Arr)}
    (hds : Holds ds order samples) (is : List Nat) (his : ∀ i ∈ is, i < samples.length) :
    ∃ items, fetchItems ds is = .ok items ∧ items.map Prod.fst = (pick samples is).map Prod.fst ∧
      (∀ m ∈ items.map Prod.snd, (Nested.node m).WF ∧ Nested.SolidList m) ∧
      ∀ p, (items.map Prod.snd).map (fun m => (Nested.node m).lookup p) =
        (pick samples is).map fun x => if p ∈ order then x.2.lookup p else none := by
  induction is with
  | nil => exact ⟨[], rfl, rfl, by simp, by simp [pick]⟩
  | cons i is ih =>
    have hi := his i (by simp)
    obtain ⟨items, h1, h2, h3, h4⟩ := ih (fun j hj => his j (by simp [hj]))
    obtain ⟨nd, g1, g2⟩ := hds.nested i hi
    obtain ⟨d, rfl, w1, w2⟩ := getItem_structure g1
    have hc : pick samples (i :: is) = samples[i] :: pick samples is := by
      simp [pick, List.getElem?_eq_getElem hi]
    refine ⟨(samples[i].1, d) :: items, by simp only [fetchItems, g1, h1], ?_, ?_, ?_⟩
    · rw [hc]; simp [h2]
    · intro m hm
      simp only [List.map_cons, List.mem_cons] at hm
      rcases hm with rfl | hm
      · exact ⟨w1, w2⟩
      · exact h3 m hm
    · intro p
      rw [hc, List.map_cons, List.map_cons, List.map_cons, h4 p, g2 p]

private theorem fetchFlat_ok {ds : Dataset} {order : List Path} {samples : List (PyStr × Nested Arr)}
    (hds : Holds ds order samples) (is : List Nat) (his : ∀ i ∈ is, i < samples.length) :
    ∃ items, fetchFlat ds is = .ok items ∧ items.map Prod.fst = (pick samples is).map Prod.fst ∧
      items.map (fun x => x.2.bytes) = (pick samples is).map (fun x => (arrays order x.2).flatMap Arr.bytes) ∧
      ∀ x ∈ items, ∃ y ∈ pick samples is, x.2.shape = [((arrays order y.2).map Arr.size).sum] ∧
        ∀ b ∈ arrays order y.2, b.dtype = x.2.dtype := by
  induction is with
  | nil => exact ⟨[], rfl, rfl, rfl, by simp⟩
  | cons i is ih =>
    have hi := his i (by simp)
    obtain ⟨items, h1, h2, h3, h4⟩ := ih (fun j hj => his j (by simp [hj]))
    obtain ⟨a, g1, g2, g3, g4⟩ := hds.flat i hi
    have hc : pick samples (i :: is) = samples[i] :: pick samples is := by
      simp [pick, List.getElem?_eq_getElem hi]
    refine ⟨(samples[i].1, a) :: items, by simp only [fetchFlat, g1, h1], ?_, ?_, ?_⟩
    · rw [hc]; simp [h2]
    · rw [hc]; simp [h3, g2]
    · intro x hx
      simp only [List.mem_cons] at hx
      rw [hc]
      rcases hx with rfl | hx
      · exact ⟨samples[i], by simp, g3, g4⟩
      · obtain ⟨y, hy, r⟩ := h4 x hx
        exact ⟨y, by simp [hy], r⟩

private theorem collate_ok {order : List Path} {group : List (PyStr × Nested Arr)} (hg : group ≠ [])
    (hom : Homogeneous order group) {items : List (PyStr × List (PyStr × Nested Arr))}
    (h2 : items.map Prod.fst = group.map Prod.fst)
    (h3 : ∀ m ∈ items.map Prod.snd, (Nested.node m).WF ∧ Nested.SolidList m)
    (h4 : ∀ p, (items.map Prod.snd).map (fun m => (Nested.node m).lookup p) =
        group.map fun x => if p ∈ order then x.2.lookup p else none) :
    ∃ out, collateNested items = .ok out ∧ out.1 = group.map Prod.fst ∧
      (∀ p, p ∉ order → (Nested.node out.2).lookup p = none) ∧
      ∀ p ∈ order, ∃ t, (Nested.node out.2).lookup p = some t ∧ t.shape.head? = some group.length ∧
        ∀ i (hi : i < group.length), ∃ a, group[i].2.lookup p = some a ∧ t.row i = .ok a := by
  cases items with
  | nil => simp at h2; exact absurd h2 hg
  | cons first rest =>
    obtain ⟨x, group, rfl⟩ := List.exists_cons_of_ne_nil hg
    -- the tensors gathered at each path
    have hgather : ∀ p ∈ order, ∃ (s : List Nat) (dt : DType) (l : List Arr),
        ((first :: rest).map Prod.snd).filterMap (fun m => (Nested.node m).lookup p) = l ∧
        l.map some = (x :: group).map (fun y => y.2.lookup p) ∧ ∀ a ∈ l, a.shape = s ∧ a.dtype = dt := by
      intro p hp
      obtain ⟨s, dt, hs⟩ := hom p hp
      have h4p := h4 p
      simp only [if_pos hp] at h4p
      refine ⟨s, dt, _, rfl, ?_, ?_⟩
      · rw [← h4p]
        have hall : ∀ o ∈ ((first :: rest).map Prod.snd).map (fun m => (Nested.node m).lookup p), ∃ a, o = some a := by
          rw [h4p]
          intro o ho
          obtain ⟨y, hy, rfl⟩ := List.mem_map.1 ho
          obtain ⟨a, ha, _⟩ := hs y hy
          exact ⟨a, ha⟩
        generalize (first :: rest).map Prod.snd = ms at hall
        clear h4p
        induction ms with
        | nil => rfl
        | cons m ms ih =>
          obtain ⟨a, ha⟩ := hall _ (by simp [List.mem_map]; left; rfl)
          rw [List.filterMap_cons, ha]
          simp only [List.map_cons, ha]
          rw [ih (fun o ho => hall o (by simp only [List.map_cons, List.mem_cons]; right; exact ho))]
      · intro a ha
        obtain ⟨m, hm, hma⟩ := List.mem_filterMap.1 ha
        have : some a ∈ (x :: group).map (fun y => y.2.lookup p) := by
          rw [← h4p, ← hma]; exact List.mem_map_of_mem hm
        obtain ⟨y, hy, hya⟩ := List.mem_map.1 this
        obtain ⟨a', ha', r⟩ := hs y hy
        rw [ha'] at hya
        cases hya
        exact r
    have hkeys : ∀ m ∈ (first :: rest).map Prod.snd, ∀ p a, (Nested.node m).lookup p = some a → p ∈ order := by
      intro m hm p a hpa
      by_contra hp
      have h4p := h4 p
      simp only [if_neg hp] at h4p
      have : some a ∈ (x :: group).map (fun _ => (none : Option Arr)) := by
        rw [← h4p, ← hpa]; exact List.mem_map_of_mem hm
      simp at this
    have hfirst : ∀ p, ((Nested.node first.2).lookup p).isSome ↔ p ∈ order := by
      intro p
      constructor
      · intro h
        obtain ⟨a, ha⟩ := Option.isSome_iff_exists.1 h
        exact hkeys first.2 (by simp) p a ha
      · intro hp
        have h4p := h4 p
        simp only [if_pos hp, List.map_cons, List.cons.injEq] at h4p
        obtain ⟨s, dt, hs⟩ := hom p hp
        obtain ⟨a, ha, _⟩ := hs x (by simp)
        rw [h4p.1, ha]; rfl
    have hinit : ∀ p, (Nested.node (initCollateList first.2)).lookup p = if p ∈ order then some [] else none := by
      intro p
      have h := initCollate_lookup (.node first.2) p
      simp only [initCollate] at h
      rw [h]
      by_cases hp : p ∈ order
      · obtain ⟨a, ha⟩ := Option.isSome_iff_exists.1 ((hfirst p).2 hp)
        rw [ha]; simp [hp]
      · have : (Nested.node first.2).lookup p = none := by
          cases hl : (Nested.node first.2).lookup p with
          | none => rfl
          | some a => exact absurd ((hfirst p).1 (by rw [hl]; rfl)) hp
        rw [this]; simp [hp]
    have hwf : (Nested.node (initCollateList first.2)).WF := by
      have := initCollate_WF (.node first.2) (h3 first.2 (by simp)).1
      simpa only [initCollate] using this
    obtain ⟨acc, a1, a2, a3⟩ := mergeAll_ok ((first :: rest).map Prod.snd) _ h3 hwf (by
      intro m hm p a hpa
      exact ⟨[], by rw [hinit, if_pos (hkeys m hm p a hpa)]⟩)
    -- choose the stacked tensors
    have hstack : ∀ p, ∃ t, p ∈ order → ∃ l, (Nested.node acc).lookup p = some l ∧ stackArrs l = .ok t ∧
        t.shape.head? = some (x :: group).length ∧
        ∀ i (hi : i < (x :: group).length), ∃ a, (x :: group)[i].2.lookup p = some a ∧ t.row i = .ok a := by
      intro p
      by_cases hp : p ∈ order
      · obtain ⟨s, dt, l, hl, hl2, hl3⟩ := hgather p hp
        have hlen : l.length = (x :: group).length := by
          have := congrArg List.length hl2; simpa using this
        obtain ⟨t, t1, t2, _, _, t5⟩ := stackArrs_ok (l := l) (by intro e; rw [e] at hlen; simp at hlen) hl3
        refine ⟨t, fun _ => ⟨l, ?_, t1, by rw [t2, hlen]; rfl, ?_⟩⟩
        · rw [a3, hinit, if_pos hp, hl]; simp
        · intro i hi
          refine ⟨l[i]'(by omega), ?_, t5 i (by omega)⟩
          have : (l.map some)[i]? = ((x :: group).map (fun y => y.2.lookup p))[i]? := by rw [hl2]
          rw [List.getElem?_map, List.getElem?_map, List.getElem?_eq_getElem (by omega : i < l.length),
            List.getElem?_eq_getElem hi] at this
          simp only [Option.map_some, Option.some.injEq] at this
          exact this.symm
      · exact ⟨⟨.float32, [], List.replicate 4 0, by decide⟩, fun h => absurd h hp⟩
    choose f hf using hstack
    have hnone : ∀ p, p ∉ order → (Nested.node acc).lookup p = none := by
      intro p hp; rw [a3, hinit, if_neg hp]; rfl
    obtain ⟨d, d1, d2⟩ := collateStructure_ok acc f a2 (by
      intro p l hl
      by_cases hp : p ∈ order
      · obtain ⟨l', e1, e2, _⟩ := hf p hp
        rw [e1] at hl; cases hl; exact e2
      · rw [hnone p hp] at hl; cases hl)
    refine ⟨((first :: rest).map Prod.fst, d), ?_, h2, ?_, ?_⟩
    · simp only [collateNested, a1, d1]
    · intro p hp; simp only; rw [d2, hnone p hp]; rfl
    · intro p hp
      obtain ⟨l, e1, e2, e3, e4⟩ := hf p hp
      exact ⟨f p, by simp only; rw [d2, e1]; rfl, e3, e4⟩

private theorem collateFlat_ok {order : List Path} {group : List (PyStr × Nested Arr)} (hg : group ≠ [])
    (hom : Homogeneous order group) (hord : order ≠ []) {items : List (PyStr × Arr)}
    (h2 : items.map Prod.fst = group.map Prod.fst)
    (h3 : items.map (fun x => x.2.bytes) = group.map (fun x => (arrays order x.2).flatMap Arr.bytes))
    (h4 : ∀ x ∈ items, ∃ y ∈ group, x.2.shape = [((arrays order y.2).map Arr.size).sum] ∧
        ∀ b ∈ arrays order y.2, b.dtype = x.2.dtype) :
    ∃ out, collateFlat items = .ok out ∧ out.1 = group.map Prod.fst ∧ out.2.shape.head? = some group.length ∧
      ∀ i (hi : i < group.length), ∃ r, out.2.row i = .ok r ∧ r.bytes = (arrays order group[i].2).flatMap Arr.bytes ∧
        r.shape = [((arrays order group[i].2).map Arr.size).sum] ∧ ∀ a ∈ arrays order group[i].2, a.dtype = r.dtype := by
  have hlen : items.length = group.length := by have := congrArg List.length h2; simpa using this
  -- all flat arrays have one shape and one element type
  have hsizes : ∀ y ∈ group, ∀ z ∈ group, (arrays order y.2).map Arr.size = (arrays order z.2).map Arr.size := by
    intro y hy z hz
    have : ∀ o : List Path, (∀ p ∈ o, p ∈ order) →
        (o.filterMap y.2.lookup).map Arr.size = (o.filterMap z.2.lookup).map Arr.size := by
      intro o
      induction o with
      | nil => intro _; rfl
      | cons p o ih =>
        intro ho
        obtain ⟨s, dt, hs⟩ := hom p (ho p (by simp))
        obtain ⟨a, ha, ha1, _⟩ := hs y hy
        obtain ⟨b, hb, hb1, _⟩ := hs z hz
        rw [List.filterMap_cons, List.filterMap_cons, ha, hb]
        simp only [List.map_cons]
        rw [ih (fun q hq => ho q (by simp [hq]))]
        simp only [Arr.size, ha1, hb1]
    exact this order (fun p hp => hp)
  obtain ⟨p0, order', rfl⟩ := List.exists_cons_of_ne_nil hord
  obtain ⟨s0, dt0, hs0⟩ := hom p0 (by simp)
  obtain ⟨x0, group', rfl⟩ := List.exists_cons_of_ne_nil hg
  have hdt : ∀ x ∈ items, x.2.dtype = dt0 := by
    intro x hx
    obtain ⟨y, hy, _, hd⟩ := h4 x hx
    obtain ⟨a, ha, _, ha2⟩ := hs0 y hy
    rw [← hd a (by simp only [arrays]; exact List.mem_filterMap.2 ⟨p0, by simp, ha⟩), ha2]
  have hall : ∀ a ∈ items.map Prod.snd,
      a.shape = [((arrays (p0 :: order') x0.2).map Arr.size).sum] ∧ a.dtype = dt0 := by
    intro a ha
    obtain ⟨x, hx, rfl⟩ := List.mem_map.1 ha
    obtain ⟨y, hy, hsh, _⟩ := h4 x hx
    exact ⟨by rw [hsh, hsizes y hy x0 (by simp)], hdt x hx⟩
  obtain ⟨t, t1, t2, _, _, t5⟩ := stackArrs_ok (l := items.map Prod.snd)
    (by intro e; rw [List.map_eq_nil_iff] at e; rw [e] at hlen; simp at hlen) hall
  refine ⟨(items.map Prod.fst, t), by simp only [collateFlat, t1], h2, ?_, ?_⟩
  · simp only; rw [t2]; simp [hlen]
  · intro i hi
    have hi' : i < items.length := by omega
    have hi2 := hall items[i].2 (List.mem_map_of_mem (List.getElem_mem hi'))
    refine ⟨items[i].2, ?_, ?_, ?_, ?_⟩
    · have := t5 i (by simpa using hi')
      simpa using this
    · have : (items.map (fun x => x.2.bytes))[i]? = _ := congrArg (fun l => l[i]?) h3
      rw [List.getElem?_map, List.getElem?_map, List.getElem?_eq_getElem hi', List.getElem?_eq_getElem hi] at this
      simpa using this
    · rw [hi2.1, hsizes _ (List.getElem_mem hi) x0 (by simp)]
    · intro a ha
      obtain ⟨p, hp, hpa⟩ := List.mem_filterMap.1 ha
      rw [hi2.2]
      obtain ⟨y, hy, -, hd⟩ := h4 _ (List.getElem_mem (l := items) (n := 0) (by omega))
      obtain ⟨s, dt, hs⟩ := hom p hp
      obtain ⟨c, hc, -, hc2⟩ := hs _ (List.getElem_mem hi)
      obtain ⟨c', hc', -, hc2'⟩ := hs y hy
      rw [hc] at hpa
      cases hpa
      rw [hc2, ← hc2', hd c' (List.mem_filterMap.2 ⟨p, hp, hc'⟩), hdt _ (List.getElem_mem _)]

/-- The groups of positions the loader asks for, seen on the samples. -/
private theorem groups {samples : List (PyStr × Nested Arr)} {b : Nat} (hb : 0 < b) :
    let G := batchIndices b samples.length (List.range samples.length)
    G.flatten = List.range samples.length ∧
    ∀ j (hj : j < G.length), j * b < samples.length ∧
      G[j] = ((List.range samples.length).drop (j * b)).take b := by
  intro G
  obtain ⟨h1, h2⟩ := batchIndices_spec hb samples.length (List.range samples.length) (by simp)
  refine ⟨h1, ?_⟩
  intro j hj
  have h := h2 j
  rw [List.getElem?_eq_getElem hj] at h
  simp only [List.length_range] at h
  by_cases hlt : j * b < samples.length
  · rw [if_pos hlt] at h
    exact ⟨hlt, Option.some.inj h⟩
  · rw [if_neg hlt] at h; cases h

private theorem flatten_ids {β : Type} {samples : List (PyStr × Nested Arr)} (G : List (List Nat))
    (hG : G.flatten = List.range samples.length) (bs : List (List PyStr × β)) (hlen : bs.length = G.length)
    (h : ∀ j (hj : j < G.length) (hj' : j < bs.length), bs[j].1 = (pick samples G[j]).map Prod.fst) :
    (bs.map Prod.fst).flatten = samples.map Prod.fst := by
  have h1 : bs.map Prod.fst = G.map (fun is => (pick samples is).map Prod.fst) := by
    apply List.ext_getElem
    · simp [hlen]
    · intro j hj hj'
      simp only [List.getElem_map]
      exact h j (by simpa using hj') (by simpa using hj)
  have h2 : ∀ G : List (List Nat), (G.map (fun is => (pick samples is).map Prod.fst)).flatten =
      (pick samples G.flatten).map Prod.fst := by
    intro G
    induction G with
    | nil => rfl
    | cons g G ih =>
      rw [List.map_cons, List.flatten_cons, ih, List.flatten_cons]
      simp only [pick, List.filterMap_append, List.map_append]
  rw [h1, h2, hG]
  have := pick_range samples 0 samples.length
  simp only [List.drop_zero] at this
  rw [List.take_of_length_le (by simp)] at this
  rw [this, List.take_of_length_le (by simp)]

private theorem pick_mem {samples : List α} {is : List Nat} {x : α} (h : x ∈ pick samples is) : x ∈ samples := by
  obtain ⟨i, _, hi⟩ := List.mem_filterMap.1 h
  exact List.mem_of_getElem? hi

/-- **C14.** Iterating the log data loader over homogeneous samples yields every sample exactly once in dataset order, in batches of the
requested size (the last one possibly shorter), and row `i` of every tensor of a batch is the array of the batch's `i`-th id. -/
theorem C14_loader_batches (ds : Dataset) (order : List Path) (samples : List (PyStr × Nested Arr)) (b : Nat) (hb : 0 < b)
    (hds : Holds ds order samples) (hom : Homogeneous order samples) :
    ∃ bs, loadBatches ds b = .ok bs ∧ Yields order samples b bs := by
  obtain ⟨hG1, hG2⟩ := groups (samples := samples) hb
  generalize hG : batchIndices b samples.length (List.range samples.length) = G at hG1 hG2
  obtain ⟨bs, e1, e2, e3⟩ := mapPy_ok_exists (fun is =>
      match fetchItems ds is with
      | .error e => .error e
      | .ok items => collateNested items) G
    (fun is out => out.1 = (pick samples is).map Prod.fst ∧
      (∀ p, p ∉ order → (Nested.node out.2).lookup p = none) ∧
      ∀ p ∈ order, ∃ t, (Nested.node out.2).lookup p = some t ∧ t.shape.head? = some (pick samples is).length ∧
        ∀ i (hi : i < (pick samples is).length), ∃ a, (pick samples is)[i].2.lookup p = some a ∧ t.row i = .ok a) (by
      intro is his
      obtain ⟨j, hj, rfl⟩ := List.getElem_of_mem his
      obtain ⟨hlt, hGj⟩ := hG2 j hj
      obtain ⟨items, f1, f2, f3, f4⟩ := fetchItems_ok hds G[j] (by
        intro i hi
        rw [hGj] at hi
        simpa using List.mem_of_mem_drop (List.mem_of_mem_take hi))
      simp only [f1]
      refine collate_ok ?_ ?_ f2 f3 f4
      · rw [hGj, pick_range]
        intro e
        have := congrArg List.length e
        simp only [List.length_take, List.length_drop, List.length_nil] at this
        omega
      · intro p hp
        obtain ⟨s, dt, h⟩ := hom p hp
        exact ⟨s, dt, fun x hx => h x (pick_mem hx)⟩)
  have hload : loadBatches ds b = .ok bs := by
    unfold loadBatches
    rw [if_neg (by omega), hds.len, hG]
    exact e1
  refine ⟨bs, hload, ?_⟩
  · have hpick : ∀ j (hj : j < bs.length), pick samples (G[j]'(by omega)) = (samples.drop (j * b)).take b ∧ j * b < samples.length := by
      intro j hj
      obtain ⟨hlt, hGj⟩ := hG2 j (by omega)
      rw [hGj, pick_range]
      exact ⟨rfl, hlt⟩
    refine ⟨flatten_ids G hG1 bs e2 (fun j hj hj' => (e3 j hj hj').1), ?_, ?_, ?_, ?_⟩
    · intro j hj
      obtain ⟨h1, hlt⟩ := hpick j hj
      have hl : bs[j].1.length = min b (samples.length - j * b) := by
        rw [(e3 j (by omega) hj).1, h1]; simp
      refine ⟨hl, ?_⟩
      intro e
      rw [e] at hl
      simp only [List.length_nil] at hl
      omega
    · intro j hj i hi
      obtain ⟨g1, g2, g3⟩ := e3 j (by omega) hj
      obtain ⟨h1, hlt⟩ := hpick j hj
      have hil : i < (pick samples (G[j]'(by omega))).length := by
        have := congrArg List.length g1
        rw [List.length_map] at this
        omega
      have hil2 := hil
      rw [h1] at hil2
      simp only [List.length_take, List.length_drop] at hil2
      have hin : j * b + i < samples.length := by omega
      have hget : (pick samples (G[j]'(by omega)))[i] = samples[j * b + i] := by
        simp only [h1, List.getElem_take, List.getElem_drop]
      refine ⟨hin, ?_, ?_⟩
      · simp only [g1, List.getElem_map, hget]
      · intro p hp
        obtain ⟨t, t1, t2, t3⟩ := g3 p hp
        obtain ⟨a, a1, a2⟩ := t3 i hil
        rw [hget] at a1
        refine ⟨t, a, t1, ?_, a1, a2⟩
        rw [t2, g1, List.length_map]
    · intro j hj p hp
      exact (e3 j (by omega) hj).2.1 p hp
    · intro j hj
      obtain ⟨i, id, d, h1, h2⟩ := batch_skel hload _ (List.getElem_mem hj)
      rw [← hds.keys i id _ h1, ← skelList_keys, h2, skelList_keys]
      rfl

/-- **C14, flat view.** -/
theorem C14_loader_batches_flat (ds : Dataset) (order : List Path) (samples : List (PyStr × Nested Arr)) (b : Nat) (hb : 0 < b)
    (hord : order ≠ []) (hds : Holds ds order samples) (hom : Homogeneous order samples) :
    ∃ bs, loadFlatBatches ds b = .ok bs ∧ YieldsFlat order samples b bs := by
  obtain ⟨hG1, hG2⟩ := groups (samples := samples) hb
  generalize hG : batchIndices b samples.length (List.range samples.length) = G at hG1 hG2
  obtain ⟨bs, e1, e2, e3⟩ := mapPy_ok_exists (fun is =>
      match fetchFlat ds is with
      | .error e => .error e
      | .ok items => collateFlat items) G
    (fun is out => out.1 = (pick samples is).map Prod.fst ∧ out.2.shape.head? = some (pick samples is).length ∧
      ∀ i (hi : i < (pick samples is).length), ∃ r, out.2.row i = .ok r ∧
        r.bytes = (arrays order (pick samples is)[i].2).flatMap Arr.bytes ∧
        r.shape = [((arrays order (pick samples is)[i].2).map Arr.size).sum] ∧ ∀ a ∈ arrays order (pick samples is)[i].2, a.dtype = r.dtype) (by
      intro is his
      obtain ⟨j, hj, rfl⟩ := List.getElem_of_mem his
      obtain ⟨hlt, hGj⟩ := hG2 j hj
      obtain ⟨items, f1, f2, f3, f4⟩ := fetchFlat_ok hds G[j] (by
        intro i hi
        rw [hGj] at hi
        simpa using List.mem_of_mem_drop (List.mem_of_mem_take hi))
      simp only [f1]
      refine collateFlat_ok ?_ ?_ hord f2 f3 f4
      · rw [hGj, pick_range]
        intro e
        have := congrArg List.length e
        simp only [List.length_take, List.length_drop, List.length_nil] at this
        omega
      · intro p hp
        obtain ⟨s, dt, h⟩ := hom p hp
        exact ⟨s, dt, fun x hx => h x (pick_mem hx)⟩)
  refine ⟨bs, ?_, ?_⟩
  · unfold loadFlatBatches
    rw [if_neg (by omega), hds.len, hG]
    exact e1
  · have hpick : ∀ j (hj : j < bs.length), pick samples (G[j]'(by omega)) = (samples.drop (j * b)).take b ∧ j * b < samples.length := by
      intro j hj
      obtain ⟨hlt, hGj⟩ := hG2 j (by omega)
      rw [hGj, pick_range]
      exact ⟨rfl, hlt⟩
    refine ⟨flatten_ids G hG1 bs e2 (fun j hj hj' => (e3 j hj hj').1), ?_, ?_⟩
    · intro j hj
      obtain ⟨g1, g2, g3⟩ := e3 j (by omega) hj
      obtain ⟨h1, hlt⟩ := hpick j hj
      have hl : bs[j].1.length = min b (samples.length - j * b) := by
        rw [g1, h1]; simp
      refine ⟨hl, ?_, ?_⟩
      · intro e
        rw [e] at hl
        simp only [List.length_nil] at hl
        omega
      · rw [g2, g1, List.length_map]
    · intro j hj i hi
      obtain ⟨g1, g2, g3⟩ := e3 j (by omega) hj
      obtain ⟨h1, hlt⟩ := hpick j hj
      have hil : i < (pick samples (G[j]'(by omega))).length := by
        have := congrArg List.length g1
        rw [List.length_map] at this
        omega
      have hil2 := hil
      rw [h1] at hil2
      simp only [List.length_take, List.length_drop] at hil2
      have hin : j * b + i < samples.length := by omega
      have hget : (pick samples (G[j]'(by omega)))[i] = samples[j * b + i] := by
        simp only [h1, List.getElem_take, List.getElem_drop]
      obtain ⟨r, r1, r2⟩ := g3 i hil
      refine ⟨hin, by simp only [g1, List.getElem_map, hget], r, r1, ?_⟩
      rw [hget] at r2
      exact r2

namespace Example

/-- Three samples of one shape. -/
def three : List (PyStr × Nested Arr) :=
  [("a".toList, sample [1, 2] [3]), ("b".toList, sample [4, 5] [6]), ("c".toList, sample [7, 8] [9])]

/-- C14's hypotheses hold for three stored samples read with batch size 2. -/
example : ∃ ds bs, openDataset (runActions [] (writeChunk (Spec.dataFileName 3 12).toList three order).1)
      (Dict.keys (runActions [] (writeChunk (Spec.dataFileName 3 12).toList three order).1)) = .ok ds ∧
    loadBatches ds 2 = .ok bs ∧ Yields order three 2 bs := by
  obtain ⟨ds, h1, h2⟩ := (C01_round_trip [] (by simp [Dict.keys]) (by intro f hf; simp [Dict.keys] at hf) 3 12 order goodOrder
    three (by simp [three]) (by
      intro e he
      simp only [three, List.mem_cons, List.not_mem_nil, or_false] at he
      rcases he with rfl | rfl | rfl <;> exact hasAll _ _)
    ⟨_, List.mem_cons_self .., _, List.mem_cons_self .., _, (lookups _ _).1, by simp [arr]⟩).2 _ (List.Perm.refl _)
  obtain ⟨bs, h3, h4⟩ := C14_loader_batches ds order three 2 (by decide) h2 (by
    intro p hp
    simp only [order, List.mem_cons, List.not_mem_nil, or_false] at hp
    rcases hp with rfl | rfl
    · refine ⟨[1, 2], .uint8, ?_⟩
      intro x hx
      simp only [three, List.mem_cons, List.not_mem_nil, or_false] at hx
      rcases hx with rfl | rfl | rfl <;> exact ⟨_, (lookups _ _).1, rfl, rfl⟩
    · refine ⟨[1, 1], .uint8, ?_⟩
      intro x hx
      simp only [three, List.mem_cons, List.not_mem_nil, or_false] at hx
      rcases hx with rfl | rfl | rfl <;> exact ⟨_, (lookups _ _).2, rfl, rfl⟩)
  exact ⟨ds, bs, h1, h3, h4⟩

end Example

end Logix
