import Verif.Lemmas.Storage
import Mathlib.Data.List.Induction

namespace Logix
open Spec

/-! ### first occurrences -/

theorem firstOcc_append_singleton (key : α → PyStr) (l : List α) (a : α) :
    firstOcc key (l ++ [a]) =
      if key a ∈ (firstOcc key l).map key then firstOcc key l else firstOcc key l ++ [a] := by
  simp [firstOcc, List.foldl_append]

theorem firstOcc_map (key : β → PyStr) (f : α → β) (l : List α) :
    firstOcc key (l.map f) = (firstOcc (fun a => key (f a)) l).map f := by
  suffices h : ∀ acc : List α,
      (l.map f).foldl (fun acc a => if key a ∈ acc.map key then acc else acc ++ [a]) (acc.map f)
      = (l.foldl (fun acc a => if key (f a) ∈ acc.map (fun a => key (f a)) then acc else acc ++ [a]) acc).map f by
    simpa [firstOcc] using h []
  induction l with
  | nil => intro acc; rfl
  | cons a l ih =>
    intro acc
    simp only [List.map_cons, List.foldl_cons, List.map_map]
    by_cases h : key (f a) ∈ acc.map (fun a => key (f a))
    · have h' : key (f a) ∈ List.map (key ∘ f) acc := h
      rw [if_pos h, if_pos h', ih acc]
    · have h' : ¬ key (f a) ∈ List.map (key ∘ f) acc := h
      rw [if_neg h, if_neg h', ← ih (acc ++ [a])]; simp

theorem firstOcc_of_nodup (key : α → PyStr) (l : List α) (h : (l.map key).Nodup) : firstOcc key l = l := by
  induction l using List.reverseRecOn with
  | nil => rfl
  | append_singleton l a ih =>
    rw [List.map_append, List.nodup_append] at h
    rw [firstOcc_append_singleton, ih h.1, if_neg]
    intro hm
    exact h.2.2 _ hm _ (by simp) rfl

theorem firstOcc_keys_nodup (key : α → PyStr) (l : List α) : ((firstOcc key l).map key).Nodup := by
  induction l using List.reverseRecOn with
  | nil => simp [firstOcc]
  | append_singleton l a ih =>
    rw [firstOcc_append_singleton]
    split
    · exact ih
    · next h =>
      rw [List.map_append, List.nodup_append]
      refine ⟨ih, by simp, ?_⟩
      intro x hx y hy
      simp at hy; subst hy
      exact fun e => h (e ▸ hx)

theorem mem_keys_firstOcc (key : α → PyStr) (l : List α) (k : PyStr) :
    k ∈ (firstOcc key l).map key ↔ k ∈ l.map key := by
  induction l using List.reverseRecOn with
  | nil => simp [firstOcc]
  | append_singleton l a ih =>
    rw [firstOcc_append_singleton]
    split
    · next h =>
      rw [ih, List.map_append, List.mem_append]
      constructor
      · exact Or.inl
      · rintro (h1 | h1)
        · exact h1
        · simp at h1; subst h1; exact ih.1 h
    · next h => rw [List.map_append, List.map_append, List.mem_append, List.mem_append, ih]

theorem firstOcc_sublist (key : α → PyStr) (l : List α) : (firstOcc key l).Sublist l := by
  induction l using List.reverseRecOn with
  | nil => simp [firstOcc]
  | append_singleton l a ih =>
    rw [firstOcc_append_singleton]
    split
    · exact ih.trans (List.sublist_append_left _ _)
    · exact ih.append (List.Sublist.refl _)

/-- The surviving occurrence of an id is the first one. -/
theorem firstOcc_find (key : α → PyStr) (l : List α) (k : PyStr) :
    (firstOcc key l).find? (fun a => decide (key a = k)) = l.find? (fun a => decide (key a = k)) := by
  induction l using List.reverseRecOn with
  | nil => simp [firstOcc]
  | append_singleton l a ih =>
    rw [firstOcc_append_singleton, List.find?_append]
    split
    · next h =>
      rw [ih]
      cases hf : l.find? (fun a => decide (key a = k)) with
      | some x => rfl
      | none =>
        by_cases e : key a = k
        · rw [mem_keys_firstOcc] at h
          rw [List.mem_map] at h
          obtain ⟨b, hb, hbe⟩ := h
          have := List.find?_eq_none.1 hf b hb
          simp [hbe, e] at this
        · simp [e]
    · next h => rw [List.find?_append, ih]

/-! ### rebuilding the nested dictionary -/

theorem lookup_node_nil (m : List (PyStr × Nested α)) : (Nested.node m).lookup [] = none := rfl

theorem lookup_node_cons (m : List (PyStr × Nested α)) (k : PyStr) (ks : Path) :
    (Nested.node m).lookup (k :: ks) = (Dict.get? m k).bind fun v => v.lookup ks := by
  simp only [Nested.lookup]
  cases Dict.get? m k <;> rfl

theorem lookup_leaf_cons (a : α) (k : PyStr) (ks : Path) : (Nested.leaf a).lookup (k :: ks) = none := rfl

theorem lookup_empty (q : Path) : (Nested.node ([] : List (PyStr × Nested α))).lookup q = none := by
  cases q with
  | nil => rfl
  | cons k ks => simp [lookup_node_cons]

theorem setPath_ok (p : Path) (hp : p ≠ []) (d : List (PyStr × Nested α)) (a : α)
    (h : ∀ q b, (Nested.node d).lookup q = some b → ¬ q <+: p ∧ ¬ p <+: q) :
    ∃ d', setPath d p a = .ok d' ∧
      ∀ q, (Nested.node d').lookup q = if q = p then some a else (Nested.node d).lookup q := by
  induction p generalizing d with
  | nil => exact absurd rfl hp
  | cons k ks ih =>
    cases ks with
    | nil =>
      refine ⟨_, rfl, ?_⟩
      intro q
      cases q with
      | nil => rfl
      | cons k2 ks2 =>
        simp only [lookup_node_cons, Dict.get?_set]
        by_cases hk : k = k2
        · subst hk
          simp only [if_true, Option.bind_some]
          cases ks2 with
          | nil => simp [Nested.lookup]
          | cons x xs =>
            rw [if_neg (by simp), lookup_leaf_cons]
            cases hg : (Dict.get? d k).bind fun v => v.lookup (x :: xs) with
            | none => rfl
            | some b =>
              have h1 := h (k :: x :: xs) b (by rw [lookup_node_cons]; exact hg)
              exact absurd (by simp) h1.2
        · rw [if_neg hk, if_neg (by intro e; cases e; exact hk rfl)]
    | cons k' ks =>
      -- a sub-dictionary `m` under `k`
      have key : ∀ m : List (PyStr × Nested α),
          (∀ q, (Nested.node m).lookup q = (Nested.node d).lookup (k :: q)) →
          ∃ sub, setPath m (k' :: ks) a = .ok sub ∧
            ∀ q, (Nested.node (Dict.set d k (.node sub))).lookup q
              = if q = k :: k' :: ks then some a else (Nested.node d).lookup q := by
        intro m hm
        obtain ⟨sub, hs, hsub⟩ := ih (by simp) m (by
          intro q b hq
          rw [hm] at hq
          have := h _ _ hq
          rwa [List.cons_prefix_cons, List.cons_prefix_cons, eq_self, true_and, true_and] at this)
        refine ⟨sub, hs, ?_⟩
        intro q
        cases q with
        | nil => simp [Nested.lookup]
        | cons k2 ks2 =>
          rw [lookup_node_cons, Dict.get?_set]
          by_cases hk : k = k2
          · subst hk
            simp only [if_true, Option.bind_some, hsub, List.cons.injEq, true_and, hm]
          · rw [if_neg hk, if_neg (by intro e; cases e; exact hk rfl), lookup_node_cons]
      simp only [setPath]
      cases hg : Dict.get? d k with
      | none =>
        obtain ⟨sub, hs, hl⟩ := key [] (by intro q; rw [lookup_empty, lookup_node_cons, hg]; rfl)
        simp only [hs]
        exact ⟨_, rfl, hl⟩
      | some v =>
        cases v with
        | leaf b =>
          have := h [k] b (by rw [lookup_node_cons, hg]; rfl)
          exact absurd (by simp) this.1
        | node m =>
          obtain ⟨sub, hs, hl⟩ := key m (by intro q; rw [lookup_node_cons, hg]; rfl)
          simp only [hs]
          exact ⟨_, rfl, hl⟩

theorem unflattenTensor_ok (flat : Arr) (a : Arr) (start : Nat) (pre post : List UInt8)
    (hdt : a.dtype = flat.dtype) (hs : a.shape ≠ [])
    (hb : flat.bytes = pre ++ a.bytes ++ post) (hpre : pre.length = start * flat.dtype.itemsize) :
    unflattenTensor flat a.shape start = .ok (a, start + a.size) := by
  have hlen : a.bytes.length = numel a.shape * flat.dtype.itemsize := by rw [a.wf, hdt]
  have hslice : (flat.bytes.drop (start * flat.dtype.itemsize)).take (numel a.shape * flat.dtype.itemsize)
      = a.bytes := by
    rw [hb, ← hpre, List.append_assoc, List.drop_left, ← hlen, List.take_left]
  unfold unflattenTensor
  rw [reduceMul_eq hs]
  simp only [hslice]
  rw [dif_pos hlen]
  simp only [Except.ok.injEq, Prod.mk.injEq]
  exact ⟨Arr.ext hdt.symm rfl rfl, rfl⟩

theorem unflattenLoop_ok (flat : Arr) (src : Nested Arr) (order : List Path) (start : Nat)
    (d : List (PyStr × Nested Arr)) (pre post : List UInt8)
    (hp : ∀ p ∈ order, p ≠ []) (hpf : order.Pairwise fun p q => ¬ p <+: q ∧ ¬ q <+: p)
    (hall : HasAll order src) (hdt : ∀ p ∈ order, ∀ a, src.lookup p = some a → a.dtype = flat.dtype)
    (hb : flat.bytes = pre ++ (arrays order src).flatMap Arr.bytes ++ post)
    (hpre : pre.length = start * flat.dtype.itemsize)
    (hd : ∀ q b, (Nested.node d).lookup q = some b → ∀ p ∈ order, ¬ q <+: p ∧ ¬ p <+: q) :
    ∃ d', unflattenLoop flat order ((arrays order src).map Arr.shape) start d
        = .ok (start + ((arrays order src).map Arr.size).sum, d') ∧
      ∀ q, (Nested.node d').lookup q = if q ∈ order then src.lookup q else (Nested.node d).lookup q := by
  induction order generalizing start d pre with
  | nil => exact ⟨d, by simp [unflattenLoop, arrays], by simp⟩
  | cons p ps ih =>
    obtain ⟨a, ha, hs, harr, hps⟩ := hall.arrays_cons
    rw [harr] at hb ⊢
    rw [List.pairwise_cons] at hpf
    simp only [List.flatMap_cons] at hb
    have hda : a.dtype = flat.dtype := hdt p (by simp) a ha
    have hu := unflattenTensor_ok flat a start pre ((arrays ps src).flatMap Arr.bytes ++ post) hda hs
      (by rw [hb]; simp) hpre
    obtain ⟨d1, hset, hl1⟩ := setPath_ok p (hp p (by simp)) d a (fun q b hq => hd q b hq p (by simp))
    obtain ⟨d', hloop, hl⟩ := ih (start + a.size) d1 (pre ++ a.bytes) (fun q hq => hp q (by simp [hq])) hpf.2 hps
      (fun q hq => hdt q (by simp [hq])) (by rw [hb]; simp)
      (by rw [List.length_append, hpre, a.wf, hda, Arr.size, Nat.add_mul])
      (by
        intro q b hq r hr
        rw [hl1] at hq
        by_cases e : q = p
        · subst e; exact hpf.1 r hr
        · rw [if_neg e] at hq; exact hd q b hq r (by simp [hr]))
    refine ⟨d', ?_, ?_⟩
    · simp only [List.map_cons, unflattenLoop, hu, hset, hloop, List.sum_cons, Nat.add_assoc]
    · intro q
      rw [hl, hl1]
      by_cases e : q = p
      · subst e
        have : q ∉ ps := by
          intro hq
          exact (hpf.1 q hq).1 (List.prefix_refl _)
        simp [this, ha]
      · simp [e]

/-! ### reading one sample -/

theorem arrays_bytes_length {order : List Path} {d : Nested Arr} {dt : DType}
    (h : ∀ p ∈ order, ∀ a, d.lookup p = some a → a.dtype = dt) :
    ((arrays order d).flatMap Arr.bytes).length = ((arrays order d).map Arr.size).sum * dt.itemsize := by
  have : ∀ a ∈ arrays order d, a.dtype = dt := by
    intro a ha
    unfold arrays at ha
    rw [List.mem_filterMap] at ha
    obtain ⟨p, hp, hpa⟩ := ha
    exact h p hp a hpa
  generalize arrays order d = l at this
  induction l with
  | nil => simp
  | cons a l ih =>
    simp only [List.flatMap_cons, List.length_append, List.map_cons, List.sum_cons, Nat.add_mul]
    rw [ih (fun b hb => this b (by simp [hb])), a.wf, this a (by simp)]
    rfl

theorem lastDtype_eq {order : List Path} {d : Nested Arr} {dt : DType} (hne : order ≠ [])
    (hall : HasAll order d) (h : ∀ p ∈ order, ∀ a, d.lookup p = some a → a.dtype = dt) :
    lastDtype order d = dt := by
  have : ∀ a ∈ arrays order d, a.dtype = dt := by
    intro a ha
    unfold arrays at ha
    rw [List.mem_filterMap] at ha
    obtain ⟨p, hp, hpa⟩ := ha
    exact h p hp a hpa
  cases order with
  | nil => exact absurd rfl hne
  | cons p ps =>
    obtain ⟨a, _, _, harr, _⟩ := hall.arrays_cons
    unfold lastDtype
    rw [harr, List.getLast?_eq_some_getLast (by simp)]
    simp only [Option.map_some, Option.getD_some]
    apply this
    rw [harr]
    exact List.getLast_mem _

/-- A sample as it lies in a data file. -/
structure SampleAt (order : List Path) (mmap : List UInt8) (e : PyStr × Nested Arr) (m : MetaEntry) : Prop where
  metadata : ∃ off, m = metaOf order off e ∧
    ∃ pre post, mmap = pre ++ sampleBytes order e ++ post ∧ pre.length = off

theorem getFlattenItem_ok {order : List Path} {mmap : List UInt8} {e : PyStr × Nested Arr} {m : MetaEntry} {dt : DType}
    (hne : order ≠ []) (hall : HasAll order e.2)
    (hdt : ∀ p ∈ order, ∀ a, e.2.lookup p = some a → a.dtype = dt)
    (h : SampleAt order mmap e m) :
    ∃ flat : Arr, getFlattenItem mmap m.offset m.blockSize m.dtype = .ok flat ∧ flat.dtype = dt ∧
      flat.bytes = sampleBytes order e ∧ flat.shape = [((arrays order e.2).map Arr.size).sum] := by
  obtain ⟨off, rfl, pre, post, hm, hpre⟩ := h.metadata
  have hld := lastDtype_eq hne hall hdt
  have hlen := arrays_bytes_length hdt
  have hlen' : (sampleBytes order e).length = ((arrays order e.2).map Arr.size).sum * dt.itemsize := hlen
  unfold getFlattenItem
  simp only [metaOf, hld]
  have hfit : off + ((arrays order e.2).map Arr.size).sum * dt.itemsize ≤ mmap.length := by
    rw [hm, ← hlen']; simp; omega
  rw [dif_pos hfit]
  refine ⟨_, rfl, rfl, ?_, rfl⟩
  simp only
  rw [hm, ← hpre, List.append_assoc, List.drop_left, ← hlen', List.take_left]

theorem SampleAt.get {order : List Path} (ho : GoodOrder order) {mmap : List UInt8} {e : PyStr × Nested Arr}
    {m : MetaEntry} (hall : HasAll order e.2) (hone : OneDtype order e.2) (h : SampleAt order mmap e m)
    {ds : Dataset} {i c : Nat} (hi : ds.index[i]? = some (e.1, c, m)) (hc : ds.memmaps[c]? = some mmap) :
    (∃ nd, ds.getItem i = .ok (e.1, nd) ∧ ∀ p, nd.lookup p = if p ∈ order then e.2.lookup p else none) ∧
    (∃ a, ds.getItemFlat i = .ok (e.1, a) ∧ a.bytes = (arrays order e.2).flatMap Arr.bytes ∧
      a.shape = [((arrays order e.2).map Arr.size).sum] ∧ ∀ b ∈ arrays order e.2, b.dtype = a.dtype) := by
  obtain ⟨dt, hdt⟩ := hone
  obtain ⟨flat, hf, hfd, hfb, hfs⟩ := getFlattenItem_ok ho.nonempty hall hdt h
  have hgf : ds.getFlat i = .ok (e.1, m, flat) := by
    unfold Dataset.getFlat
    simp only [hi, hc, hf]
  obtain ⟨off, rfl, _⟩ := h.metadata
  obtain ⟨d', hloop, hl⟩ := unflattenLoop_ok flat e.2 order 0 [] [] [] ho.paths_nonempty ho.prefix_free hall
    (by intro p hp a ha; rw [hfd]; exact hdt p hp a ha) (by simpa [sampleBytes] using hfb) (by simp)
    (by intro q b hq; rw [lookup_empty] at hq; cases hq)
  refine ⟨⟨.node d', ?_, ?_⟩, ⟨flat, ?_, hfb, hfs, ?_⟩⟩
  · unfold Dataset.getItem
    simp only [hgf, metaOf, hloop, Nat.zero_add, if_true]
  · intro p; rw [hl, lookup_empty]
  · unfold Dataset.getItemFlat
    simp only [hgf]
  · intro b hb
    unfold arrays at hb
    rw [List.mem_filterMap] at hb
    obtain ⟨p, hp, hpa⟩ := hb
    rw [hfd]; exact hdt p hp b hpa

/-! ### reading a directory -/

/-- A chunk lies completely in the directory. -/
structure OnDisk (fs : FS) (order : List Path) (key : PyStr) (es : List (PyStr × Nested Arr)) : Prop where
  data : Dict.get? fs (loaderDataFile key) = some (.data (chunkData order es))
  nonempty : chunkData order es ≠ []
  metadata : Dict.get? fs (loaderMetaFile key) = some (.metadata (metasFrom order 0 es))

theorem openData_ok {fs : FS} {order : List Path} {key : PyStr} {es : List (PyStr × Nested Arr)}
    (h : OnDisk fs order key es) : openData fs (loaderDataFile key) = .ok (chunkData order es) := by
  unfold openData
  rw [h.data]
  cases hc : chunkData order es with
  | nil => exact absurd hc h.nonempty
  | cons a l => rfl

/-- The dataset index as first occurrences. -/
theorem addMetadata_eq (all : List (PyStr × Nat × MetaEntry)) (c : Nat) (ms : List MetaEntry) :
    addMetadata (firstOcc Prod.fst all) c ms
      = firstOcc Prod.fst (all ++ ms.map fun m => (m.dataId, c, m)) := by
  induction ms generalizing all with
  | nil => simp [addMetadata]
  | cons m ms ih =>
    have hstep := firstOcc_append_singleton Prod.fst all (m.dataId, c, m)
    simp only [addMetadata, List.map_cons]
    have hassoc : all ++ ((m.dataId, c, m) :: ms.map fun m => (m.dataId, c, m))
        = (all ++ [(m.dataId, c, m)]) ++ ms.map fun m => (m.dataId, c, m) := by simp
    rw [hassoc, ← ih (all ++ [(m.dataId, c, m)]), hstep]
    by_cases hm : m.dataId ∈ (firstOcc Prod.fst all).map Prod.fst
    · rw [if_pos ((Dict.contains_iff _ _).2 hm), if_pos hm]
    · have : Dict.contains (firstOcc Prod.fst all) m.dataId = false := (Dict.contains_eq_false_iff _ _).2 hm
      rw [if_neg (by simp [this]), if_neg hm, Dict.set_of_not_mem _ _ _ hm]

/-- Every sample of the chunks `cs` with the number of its chunk and its metadata. -/
def located (order : List Path) : Nat → List (List (PyStr × Nested Arr)) →
    List ((PyStr × Nested Arr) × Nat × MetaEntry)
  | _, [] => []
  | c, es :: cs => (es.zip (metasFrom order 0 es)).map (fun em => (em.1, c, em.2)) ++ located order (c + 1) cs

theorem metasFrom_length (order : List Path) (off : Nat) (es : List (PyStr × Nested Arr)) :
    (metasFrom order off es).length = es.length := by
  induction es generalizing off with
  | nil => rfl
  | cons e es ih => simp [metasFrom, ih]

theorem located_fst (order : List Path) (c : Nat) (cs : List (List (PyStr × Nested Arr))) :
    (located order c cs).map Prod.fst = cs.flatten := by
  induction cs generalizing c with
  | nil => rfl
  | cons es cs ih =>
    simp only [located, List.map_append, ih, List.map_map, List.flatten_cons]
    congr 1
    have : (Prod.fst ∘ fun em : (PyStr × Nested Arr) × MetaEntry => (em.1, c, em.2)) = Prod.fst := rfl
    rw [this, List.map_fst_zip (by rw [metasFrom_length])]

theorem zip_metasFrom_ids (order : List Path) (off : Nat) (es : List (PyStr × Nested Arr)) :
    ∀ x ∈ es.zip (metasFrom order off es), x.2.dataId = x.1.1 := by
  induction es generalizing off with
  | nil => simp
  | cons e es ih =>
    simp only [metasFrom, List.zip_cons_cons, List.mem_cons]
    rintro x (rfl | hx)
    · rfl
    · exact ih _ x hx

theorem zip_metasFrom_at (order : List Path) (es : List (PyStr × Nested Arr)) (pre post : List UInt8) :
    ∀ x ∈ es.zip (metasFrom order pre.length es),
      SampleAt order (pre ++ es.flatMap (sampleBytes order) ++ post) x.1 x.2 := by
  induction es generalizing pre with
  | nil => simp
  | cons e es ih =>
    simp only [metasFrom, List.zip_cons_cons, List.mem_cons]
    rintro x (rfl | hx)
    · exact ⟨pre.length, rfl, pre, es.flatMap (sampleBytes order) ++ post, by simp, rfl⟩
    · have := ih (pre ++ sampleBytes order e) x (by simpa using hx)
      simpa using this

theorem fetchData_ok (fs : FS) (order : List Path) (cs : List (PyStr × List (PyStr × Nested Arr)))
    (h : ∀ c ∈ cs, OnDisk fs order c.1 c.2) (ds : Dataset)
    (all : List (PyStr × Nat × MetaEntry)) (hds : ds.index = firstOcc Prod.fst all) :
    fetchData fs (cs.map Prod.fst) ds = .ok
      ⟨ds.memmaps ++ cs.map (fun c => chunkData order c.2),
       firstOcc Prod.fst (all ++ (located order ds.memmaps.length (cs.map Prod.snd)).map
        fun x => (x.1.1, x.2))⟩ := by
  induction cs generalizing ds all with
  | nil => cases ds; simp_all [fetchData, located]
  | cons c cs ih =>
    have hc := h c (by simp)
    simp only [List.map_cons, fetchData, openData_ok hc]
    have hm : readMetafile fs (loaderMetaFile c.1) = .ok (metasFrom order 0 c.2) := by
      unfold readMetafile; rw [hc.metadata]
    simp only [hm]
    rw [ih (fun c hc => h c (by simp [hc])) _ (all ++ (metasFrom order 0 c.2).map
      fun m => (m.dataId, ds.memmaps.length, m)) (by
        simp only [hds]; exact addMetadata_eq _ _ _)]
    simp only [List.append_assoc, List.length_append, List.length_cons, List.length_nil, located,
      List.map_append, List.map_map, List.singleton_append, Nat.zero_add]
    congr 4
    congr 1
    have h2 : (metasFrom order 0 c.2) = (c.2.zip (metasFrom order 0 c.2)).map Prod.snd := by
      rw [List.map_snd_zip (by rw [metasFrom_length])]
    conv_lhs => rw [h2, List.map_map]
    apply List.map_congr_left
    intro x hx
    simp [zip_metasFrom_ids order 0 c.2 x hx]

theorem located_spec (order : List Path) (cs : List (List (PyStr × Nested Arr)))
    (c : Nat) (mm : List (List UInt8)) (hc : mm.length = c) :
    ∀ x ∈ located order c cs, x.1 ∈ cs.flatten ∧ ∃ mmap,
      (mm ++ cs.map (chunkData order))[x.2.1]? = some mmap ∧ SampleAt order mmap x.1 x.2.2 := by
  induction cs generalizing c mm with
  | nil => simp [located]
  | cons es cs ih =>
    intro x hx
    simp only [located, List.mem_append, List.mem_map] at hx
    rcases hx with ⟨em, hem, rfl⟩ | hx
    · refine ⟨?_, chunkData order es, ?_, ?_⟩
      · have := List.of_mem_zip hem
        simp [this.1]
      · simp [← hc]
      · have := zip_metasFrom_at order es [] (List.replicate (totalSize es - (es.flatMap (sampleBytes order)).length) 0)
          em (by simpa using hem)
        simpa [chunkData] using this
    · obtain ⟨h1, mmap, h2, h3⟩ := ih (c + 1) (mm ++ [chunkData order es]) (by simp [hc]) x hx
      refine ⟨by simp [List.mem_flatten] at h1 ⊢; right; exact h1, mmap, ?_, h3⟩
      simpa using h2

theorem setPath_keys {p : Path} {d d' : List (PyStr × Nested α)} {a : α} (h : setPath d p a = .ok d') :
    ∃ k ks, p = k :: ks ∧ Dict.keys d' = if k ∈ Dict.keys d then Dict.keys d else Dict.keys d ++ [k] := by
  match p, h with
  | [], h => cases h
  | [k], h => cases h; exact ⟨k, [], rfl, by rw [Dict.keys_set]; congr⟩
  | k :: k' :: ks, h =>
    unfold setPath at h
    refine ⟨k, k' :: ks, rfl, ?_⟩
    split at h
    · split at h
      · cases h
      · cases h; exact by rw [Dict.keys_set]; congr
    · split at h
      · cases h
      · cases h; exact by rw [Dict.keys_set]; congr
    · cases h

/-- The keys of a rebuilt dictionary are the first components of the paths, in this order. -/
theorem unflattenLoop_keys (flat : Arr) : ∀ (ps : List Path) (ss : List (List Nat)) (start st' : Nat) (pre : List PyStr) (d d' : List (PyStr × Nested Arr)),
    unflattenLoop flat ps ss start d = .ok (st', d') → Dict.keys d = firstOcc id pre → Dict.keys d' = firstOcc id (pre ++ ps.filterMap List.head?) := by
  intro ps
  induction ps with
  | nil => intro ss start st' pre d d' h hd; cases h; simpa using hd
  | cons p ps ih =>
    intro ss start st' pre d d' h hd
    cases ss with
    | nil => cases h
    | cons s ss =>
      simp only [unflattenLoop] at h
      split at h
      · cases h
      · split at h
        · cases h
        · next hset =>
          obtain ⟨k, ks, rfl, hk⟩ := setPath_keys hset
          have := ih _ _ _ (pre ++ [k]) _ _ h (by
            rw [hk, firstOcc_append_singleton, List.map_id, id, hd])
          rw [this]
          simp

/-- Opening a directory whose chunks are complete: the dataset holds the samples of the chunks in the visiting
order, the first occurrence of every id. -/
theorem fetchData_holds (fs : FS) (order : List Path) (ho : GoodOrder order)
    (cs : List (PyStr × List (PyStr × Nested Arr)))
    (h : ∀ c ∈ cs, OnDisk fs order c.1 c.2)
    (hall : ∀ c ∈ cs, ∀ e ∈ c.2, HasAll order e.2 ∧ OneDtype order e.2) :
    ∃ ds, fetchData fs (cs.map Prod.fst) ⟨[], []⟩ = .ok ds ∧
      Holds ds order (firstOcc Prod.fst (cs.flatMap Prod.snd)) := by
  refine ⟨_, fetchData_ok fs order cs h ⟨[], []⟩ [] rfl, ?_⟩
  simp only [List.nil_append, List.length_nil]
  generalize hbig : located order 0 (cs.map Prod.snd) = big
  have hidx : firstOcc Prod.fst (big.map fun x => (x.1.1, x.2))
      = (firstOcc (fun x => x.1.1) big).map fun x => (x.1.1, x.2) :=
    firstOcc_map Prod.fst (fun x : (PyStr × Nested Arr) × Nat × MetaEntry => (x.1.1, x.2)) big
  have hsam : firstOcc Prod.fst (cs.flatMap Prod.snd) = (firstOcc (fun x => x.1.1) big).map Prod.fst := by
    rw [List.flatMap_def, ← located_fst order 0, hbig]
    exact firstOcc_map Prod.fst (fun x : (PyStr × Nested Arr) × Nat × MetaEntry => x.1) big
  have hspec := located_spec order (cs.map Prod.snd) 0 [] rfl
  rw [hbig] at hspec
  have hsub := firstOcc_sublist (fun x : (PyStr × Nested Arr) × Nat × MetaEntry => x.1.1) big
  rw [hidx, hsam]
  generalize hres : firstOcc (fun x : (PyStr × Nested Arr) × Nat × MetaEntry => x.1.1) big = res at *
  have hget : ∀ (i : Nat) (hi : i < (res.map Prod.fst).length),
      let e := (res.map Prod.fst)[i]
      (∃ nd, (Dataset.mk (cs.map fun c => chunkData order c.2) (res.map fun x => (x.1.1, x.2))).getItem i
          = .ok (e.1, nd) ∧ ∀ p, nd.lookup p = if p ∈ order then e.2.lookup p else none) ∧
      (∃ a, (Dataset.mk (cs.map fun c => chunkData order c.2) (res.map fun x => (x.1.1, x.2))).getItemFlat i
          = .ok (e.1, a) ∧ a.bytes = (arrays order e.2).flatMap Arr.bytes ∧
        a.shape = [((arrays order e.2).map Arr.size).sum] ∧ ∀ b ∈ arrays order e.2, b.dtype = a.dtype) := by
    intro i hi
    have hi' : i < res.length := by simpa using hi
    have hx : res[i] ∈ big := hsub.subset (List.getElem_mem hi')
    obtain ⟨h1, mmap, h2, h3⟩ := hspec _ hx
    have hmem : ∃ c ∈ cs, res[i].1 ∈ c.2 := by
      rw [List.mem_flatten] at h1
      obtain ⟨l, hl, hm⟩ := h1
      rw [List.mem_map] at hl
      obtain ⟨c, hc, rfl⟩ := hl
      exact ⟨c, hc, hm⟩
    obtain ⟨c, hc, hm⟩ := hmem
    have hg := hall c hc _ hm
    have := SampleAt.get ho hg.1 hg.2 h3 (ds := ⟨cs.map fun c => chunkData order c.2, res.map fun x => (x.1.1, x.2)⟩)
      (i := i) (c := res[i].2.1) (by simp [hi']) (by simpa using h2)
    simpa using this
  refine ⟨by simp [Dataset.len], fun i hi => (hget i hi).1, fun i hi => (hget i hi).2, ?_, ?_⟩
  · intro i id' nd hi
    unfold Dataset.getItem at hi
    split at hi
    · cases hi
    · next dataId entry flat hgf =>
      split at hi
      · cases hi
      · next start d hl =>
        split at hi
        · cases hi
          have hpath : entry.path = order := by
            unfold Dataset.getFlat at hgf
            split at hgf
            · cases hgf
            · next dataId' chunk entry' hix =>
              split at hgf
              · cases hgf
              · split at hgf
                · cases hgf
                · cases hgf
                  have hx := List.mem_of_getElem? hix
                  obtain ⟨y, hy, he⟩ := List.mem_map.1 hx
                  obtain ⟨-, mmap, -, h3⟩ := hspec _ (hsub.subset hy)
                  obtain ⟨off, h4, -⟩ := h3.metadata
                  have : y.2.2 = entry := congrArg (fun z => z.2.2) he
                  rw [← this, h4]
                  rfl
          rw [hpath] at hl
          exact unflattenLoop_keys flat order _ _ _ [] [] d hl rfl
        · cases hi
  intro i hi
  have : (res.map fun x : (PyStr × Nested Arr) × Nat × MetaEntry => (x.1.1, x.2))[i]? = none := by
    simpa using hi
  simp only [Dataset.getItem, Dataset.getFlat, this]

end Logix
