/-
C01, C11, C12 (storage part), C15 and C78: the chunk file format.
-/
import Verif.Lemmas.Directory

namespace Logix
open Spec

/-- The directory contains no log data file. -/
def Spec.NoLogs (fs : FS) : Prop :=
  ∀ f ∈ Dict.keys fs, (∃ a, f = a ++ ".mmap".toList) → ¬ ∃ b, f = "log_".toList ++ b

theorem DirHas.of_noLogs {fs : FS} (h : NoLogs fs) (order : List Path) : DirHas fs order [] :=
  ⟨by simp, by simp, fun f hf ha hb => absurd hb (h f hf ha)⟩

theorem totalSize_ne_zero {order : List Path} (ho : order.Nodup) {es : List (PyStr × Nested Arr)}
    (h : ∃ e ∈ es, ∃ p ∈ order, ∃ a, e.2.lookup p = some a ∧ a.bytes ≠ []) : totalSize es ≠ 0 := by
  obtain ⟨e, he, p, hp, a, ha, hb⟩ := h
  have h1 := chunk_bytes_le_total ho es
  have h2 : 0 < (es.flatMap (sampleBytes order)).length := by
    apply List.length_pos_of_ne_nil
    intro hnil
    rw [List.flatMap_eq_nil_iff] at hnil
    have := hnil e he
    unfold sampleBytes at this
    rw [List.flatMap_eq_nil_iff] at this
    exact hb (this a (List.mem_filterMap.2 ⟨p, hp, ha⟩))
  omega

/-- **C01.** Write any list of samples with distinct ids as a chunk of any rank and number into a directory without other
log chunks. The write succeeds and, whatever order the directory is listed in, the dataset opened on it holds exactly these
samples: same order, same ids, at every path of the write order exactly the array written (shape, dtype, bytes), and no
other array. -/
theorem C01_round_trip (fs : FS) (hfs : (Dict.keys fs).Nodup) (hclean : NoLogs fs) (rank k : Nat)
    (order : List Path) (ho : GoodOrder order) (es : List (PyStr × Nested Arr))
    (hids : (es.map Prod.fst).Nodup)
    (hall : ∀ e ∈ es, HasAll order e.2 ∧ OneDtype order e.2)
    (hpos : ∃ e ∈ es, ∃ p ∈ order, ∃ a, e.2.lookup p = some a ∧ a.bytes ≠ []) :
    (writeChunk (Spec.dataFileName rank k).toList es order).2 = .ok () ∧
    ∀ listing : List PyStr,
      listing.Perm (Dict.keys (runActions fs (writeChunk (Spec.dataFileName rank k).toList es order).1)) →
      ∃ ds, openDataset (runActions fs (writeChunk (Spec.dataFileName rank k).toList es order).1) listing = .ok ds ∧
        Holds ds order es := by
  rw [dataFileName_eq]
  have htot := totalSize_ne_zero ho.nodup hpos
  obtain ⟨h1, h2⟩ := writeChunk_ok fs rank k es order ho.nodup ho.nonempty (fun e he => (hall e he).1) htot
  refine ⟨h1, ?_⟩
  intro listing hl
  have hd := (DirHas.of_noLogs hclean order).addChunk_last rank k es (chunkData_ne_nil ho.nodup htot) (by simp)
  rw [h2] at hl ⊢
  obtain ⟨ds, hds, hh⟩ := openDataset_holds ho hd (addChunk_nodup hfs order rank k es) hl
    (by intro c hc; simp at hc; subst hc; exact hall)
  refine ⟨ds, hds, ?_⟩
  have e : ([] ++ [((rank, k), es)] : List ((Nat × Nat) × List (PyStr × Nested Arr))).flatMap Prod.snd = es := by
    simp
  rw [e, firstOcc_of_nodup _ _ hids] at hh
  exact hh

/-! ### success of a write implies completeness -/

theorem getFromNested_atDepth {n : Nat} {d : Nested α} (hd : AtDepth n d) {p : Path} (hp : p.length ≤ n)
    {a : α} (h : getFromNested d p = .leaf a) : p.length = n ∧ d.lookup p = some a := by
  induction p generalizing d n with
  | nil =>
    simp only [getFromNested] at h
    subst h
    cases n with
    | zero => exact ⟨rfl, rfl⟩
    | succ n => exact absurd hd (by simp [AtDepth])
  | cons k ks ih =>
    cases n with
    | zero => simp at hp
    | succ n =>
      cases d with
      | leaf b => exact absurd hd (by simp [AtDepth])
      | node m =>
        simp only [List.length_cons, Nat.add_le_add_iff_right] at hp
        simp only [getFromNested] at h
        cases hg : Dict.get? m k with
        | none =>
          rw [hg] at h
          have := (ih hd (by omega) h).1
          omega
        | some v =>
          rw [hg] at h
          have hv : AtDepth n v := hd (k, v) (Dict.mem_of_get? m hg)
          obtain ⟨h1, h2⟩ := ih hv hp h
          refine ⟨by simp [h1], ?_⟩
          rw [lookup_node_cons, hg]
          exact h2

theorem reduceMul_ok_iff {s : List Nat} {n : Nat} (h : reduceMul s = .ok n) : s ≠ [] := by
  intro e; subst e; simp [reduceMul] at h

theorem writeKeys_ok_leaf (name : PyStr) (total : Nat) (d : Nested Arr) (order : List Path) (acc acc' : WriteAcc)
    (h : (writeKeys name total d order acc).2 = .ok acc') :
    ∀ p ∈ order, ∃ a, getFromNested d p = .leaf a ∧ a.shape ≠ [] := by
  induction order generalizing acc with
  | nil => simp
  | cons p ps ih =>
    simp only [writeKeys] at h
    cases hg : getFromNested d p with
    | node m => rw [hg] at h; simp at h
    | leaf a =>
      rw [hg] at h
      simp only at h
      cases hr : reduceMul a.shape with
      | error e => rw [hr] at h; simp at h
      | ok n =>
        rw [hr] at h
        simp only at h
        cases hs : storeSlice total acc.offset a.bytes with
        | error e => rw [hs] at h; simp at h
        | ok bs =>
          rw [hs] at h
          simp only at h
          intro q hq
          rcases List.mem_cons.1 hq with rfl | hq
          · exact ⟨a, hg, reduceMul_ok_iff hr⟩
          · exact ih _ h q hq

theorem writeKeys_lastDtype (name : PyStr) (total : Nat) (d : Nested Arr) (acc : WriteAcc) :
    writeKeys name total d [] acc = ([], .ok acc) := rfl

theorem writeEntries_ok_leaf (name : PyStr) (total : Nat) (order : List Path) (es : List (PyStr × Nested Arr))
    (off : Nat) (ms : List MetaEntry) (h : (writeEntries name total order es off).2 = .ok ms) :
    (es ≠ [] → order ≠ []) ∧ ∀ e ∈ es, ∀ p ∈ order, ∃ a, getFromNested e.2 p = .leaf a ∧ a.shape ≠ [] := by
  induction es generalizing off ms with
  | nil => simp
  | cons e es ih =>
    obtain ⟨i, d⟩ := e
    simp only [writeEntries] at h
    cases hk : writeKeys name total d order ⟨off, 0, [], none⟩ with
    | mk acts r =>
      rw [hk] at h
      cases r with
      | error e => simp at h
      | ok acc =>
        simp only at h
        cases hd : acc.lastDtype with
        | none => rw [hd] at h; simp at h
        | some dt =>
          rw [hd] at h
          simp only at h
          cases hr : (writeEntries name total order es acc.offset).2 with
          | error e => rw [hr] at h; simp at h
          | ok ms' =>
            have h1 := writeKeys_ok_leaf name total d order ⟨off, 0, [], none⟩ acc (by rw [hk])
            refine ⟨?_, ?_⟩
            · intro _ e
              subst e
              simp only [writeKeys, Prod.mk.injEq, Except.ok.injEq] at hk
              rw [← hk.2] at hd
              cases hd
            · intro e he
              rcases List.mem_cons.1 he with rfl | he
              · exact h1
              · exact (ih _ _ hr).2 e he

/-- A write that does not raise had at least one sample, a non-empty write order, and an array for every
sample and path. -/
theorem writeChunk_ok_complete {filename : PyStr} {es : List (PyStr × Nested Arr)} {order : List Path} {n : Nat}
    (hdepth : ∀ e ∈ es, AtDepth n e.2) (hlen : ∀ p ∈ order, p.length = n)
    (h : (writeChunk filename es order).2 = .ok ()) :
    totalSize es ≠ 0 ∧ order ≠ [] ∧ ∀ e ∈ es, HasAll order e.2 := by
  unfold writeChunk at h
  simp only at h
  by_cases htot : totalSize es = 0
  · simp [htot] at h
  · simp only [htot, if_false] at h
    cases hw : (writeEntries (writeNames filename).1 (totalSize es) order es 0).2 with
    | error e => rw [hw] at h; simp at h
    | ok ms =>
      have hes : es ≠ [] := by
        intro e; subst e; exact htot rfl
      obtain ⟨h1, h2⟩ := writeEntries_ok_leaf _ _ _ _ _ _ hw
      refine ⟨htot, h1 hes, ?_⟩
      intro e he p hp
      obtain ⟨a, ha, hs⟩ := h2 e he p hp
      exact ⟨a, (getFromNested_atDepth (hdepth e he) (by rw [hlen p hp]) ha).2, hs⟩

/-! ### C12 -/

/-- An action that only concerns the given file. -/
def Spec.Touches (name : PyStr) : Action → Prop
  | .create n _ => n = name
  | .store n _ _ => n = name

theorem writeKeys_touches (name : PyStr) (total : Nat) (d : Nested Arr) (order : List Path) (acc : WriteAcc) :
    ∀ a ∈ (writeKeys name total d order acc).1, Touches name a := by
  induction order generalizing acc with
  | nil => simp [writeKeys]
  | cons p ps ih =>
    simp only [writeKeys]
    split
    · simp
    · split
      · simp
      · split
        · simp
        · intro a ha
          rcases List.mem_cons.1 ha with rfl | ha
          · rfl
          · exact ih _ a ha

theorem writeEntries_touches (name : PyStr) (total : Nat) (order : List Path) (es : List (PyStr × Nested Arr))
    (off : Nat) : ∀ a ∈ (writeEntries name total order es off).1, Touches name a := by
  induction es generalizing off with
  | nil => simp [writeEntries]
  | cons e es ih =>
    obtain ⟨i, d⟩ := e
    simp only [writeEntries]
    have hk := writeKeys_touches name total d order ⟨off, 0, [], none⟩
    split
    · next acts e heq => rw [heq] at hk; exact hk
    · next acts acc heq =>
      rw [heq] at hk
      split
      · exact hk
      · intro a ha
        rcases List.mem_append.1 ha with ha | ha
        · exact hk a ha
        · exact ih _ a ha

/-- A failing write only touches its data file. -/
theorem writeChunk_error_touches {filename : PyStr} {es : List (PyStr × Nested Arr)} {order : List Path} {e : PyErr}
    (h : (writeChunk filename es order).2 = .error e) :
    ∀ a ∈ (writeChunk filename es order).1, Touches (writeNames filename).1 a := by
  unfold writeChunk at h ⊢
  simp only at h ⊢
  by_cases htot : totalSize es = 0
  · simp only [htot, if_true] at h ⊢
    simp [Touches]
  · simp only [htot, if_false] at h ⊢
    have ht := writeEntries_touches (writeNames filename).1 (totalSize es) order es 0
    cases hw : (writeEntries (writeNames filename).1 (totalSize es) order es 0).2 with
    | ok ms => rw [hw] at h; simp at h
    | error e' =>
      intro a ha
      rcases List.mem_cons.1 ha with rfl | ha
      · rfl
      · exact ht a ha

theorem runActions_frame (fs : FS) (acts : List Action) (name other : PyStr) (hne : other ≠ name)
    (h : ∀ a ∈ acts, Touches name a) : Dict.get? (runActions fs acts) other = Dict.get? fs other := by
  induction acts generalizing fs with
  | nil => rfl
  | cons a acts ih =>
    have : runActions fs (a :: acts) = runActions (a.run fs) acts := rfl
    rw [this, ih _ (fun b hb => h b (by simp [hb]))]
    have ha := h a (by simp)
    cases a with
    | create n c =>
      simp only [Touches] at ha; subst ha
      simp only [Action.run]
      rw [Dict.get?_set_ne _ _ (Ne.symm hne)]
    | store n off bs =>
      simp only [Touches] at ha; subst ha
      simp only [Action.run]
      split
      · rw [Dict.get?_set_ne _ _ (Ne.symm hne)]
      · rfl

/-- **C12** (write). If some sample lacks an array for some path of the write order, the write raises and every file
other than the chunk's data file, in particular its metadata file, is as before. (The saver's part, that the buffer keeps its samples, is
`C12_flush_keeps_buffer`.) -/
theorem C12_incomplete_rejected (fs : FS) (rank k : Nat) (es : List (PyStr × Nested Arr)) (order : List Path) (n : Nat)
    (hdepth : ∀ e ∈ es, AtDepth n e.2) (hlen : ∀ p ∈ order, p.length = n)
    (hmiss : ∃ e ∈ es, ∃ p ∈ order, e.2.lookup p = none) :
    (∃ err, (writeChunk (Spec.dataFileName rank k).toList es order).2 = .error err) ∧
    ∀ name, name ≠ (Spec.dataFileName rank k).toList →
      Dict.get? (runActions fs (writeChunk (Spec.dataFileName rank k).toList es order).1) name
        = Dict.get? fs name := by
  rw [dataFileName_eq]
  have herr : ∃ err, (writeChunk (chunkFile rank k) es order).2 = .error err := by
    cases h : (writeChunk (chunkFile rank k) es order).2 with
    | error e => exact ⟨e, rfl⟩
    | ok u =>
      obtain ⟨_, _, hall⟩ := writeChunk_ok_complete hdepth hlen h
      obtain ⟨e, he, p, hp, hn⟩ := hmiss
      obtain ⟨a, ha, _⟩ := hall e he p hp
      rw [hn] at ha; cases ha
  refine ⟨herr, ?_⟩
  obtain ⟨err, he⟩ := herr
  intro name hne
  have ht := writeChunk_error_touches he
  rw [writeNames_chunkFile, loaderDataFile_chunkKey] at ht
  exact runActions_frame fs _ _ _ hne ht

/-! ### C11 -/

theorem metasFrom_getElem (order : List Path) (off : Nat) (es : List (PyStr × Nested Arr)) (i : Nat) (h : i < es.length) :
    (metasFrom order off es)[i]'(by rw [metasFrom_length]; exact h)
      = metaOf order (off + ((es.take i).flatMap (sampleBytes order)).length) es[i] := by
  induction es generalizing off i with
  | nil => simp at h
  | cons e es ih =>
    cases i with
    | zero => simp [metasFrom]
    | succ i =>
      simp only [metasFrom, List.getElem_cons_succ]
      rw [ih _ i (by simpa using h)]
      simp [Nat.add_assoc]

/-- **C11.** Whenever a write of samples of any content (any shapes and dtypes) succeeds, the directory has the data and
metadata files of the chunk, there is one metadata entry per sample in order, the first offset is 0, each entry starts where the
sample before it ends, the bytes of a sample lie in the data file from its offset on, and the last sample ends inside the file. -/
theorem C11_metadata_tiles (fs : FS) (rank k : Nat) (es : List (PyStr × Nested Arr)) (order : List Path) (n : Nat)
    (hdepth : ∀ e ∈ es, AtDepth n e.2) (hlen : ∀ p ∈ order, p.length = n) (hnd : order.Nodup)
    (hok : (writeChunk (Spec.dataFileName rank k).toList es order).2 = .ok ()) :
    ∃ (data : List UInt8) (ms : List MetaEntry),
      Dict.get? (runActions fs (writeChunk (Spec.dataFileName rank k).toList es order).1)
        (Spec.dataFileName rank k).toList = some (.data data) ∧
      Dict.get? (runActions fs (writeChunk (Spec.dataFileName rank k).toList es order).1)
        (Spec.metaFileName rank k).toList = some (.metadata ms) ∧
      ms.length = es.length ∧
      ∀ (i : Nat) (hi : i < es.length) (hm : i < ms.length),
        ms[i].dataId = es[i].1 ∧
        ms[i].shape = (arrays order es[i].2).map Arr.shape ∧
        ms[i].blockSize = ((arrays order es[i].2).map Arr.size).sum ∧
        (i = 0 → ms[i].offset = 0) ∧
        (∀ hm' : i + 1 < ms.length,
          ms[i + 1].offset = ms[i].offset + ((arrays order es[i].2).flatMap Arr.bytes).length) ∧
        ms[i].offset + ((arrays order es[i].2).flatMap Arr.bytes).length ≤ data.length ∧
        (data.drop ms[i].offset).take ((arrays order es[i].2).flatMap Arr.bytes).length
          = (arrays order es[i].2).flatMap Arr.bytes := by
  rw [dataFileName_eq] at hok ⊢
  rw [metaFileName_eq]
  obtain ⟨htot, hne, hall⟩ := writeChunk_ok_complete hdepth hlen hok
  obtain ⟨_, h2⟩ := writeChunk_ok fs rank k es order hnd hne hall htot
  rw [h2]
  refine ⟨chunkData order es, metasFrom order 0 es, ?_, ?_, metasFrom_length _ _ _, ?_⟩
  · rw [Dict.get?_set_ne _ _ (loaderMetaFile_ne_dataFile (chunkKey rank k) (chunkKey rank k) |> fun h => by
      rw [loaderDataFile_chunkKey] at h; exact h), ← loaderDataFile_chunkKey, Dict.get?_set_self]
  · rw [Dict.get?_set_self]
  · intro i hi hm
    have hg := metasFrom_getElem order 0 es i hi
    rw [Nat.zero_add] at hg
    have hsplit : es.flatMap (sampleBytes order) = (es.take i).flatMap (sampleBytes order) ++ sampleBytes order es[i]
        ++ (es.drop (i + 1)).flatMap (sampleBytes order) := by
      have e : es = es.take i ++ es[i] :: es.drop (i + 1) := by
        rw [← List.drop_eq_getElem_cons hi, List.take_append_drop]
      have h3 := congrArg (List.flatMap (sampleBytes order)) e
      rw [List.flatMap_append, List.flatMap_cons] at h3
      rw [List.append_assoc]; exact h3
    have hdata : chunkData order es = (es.take i).flatMap (sampleBytes order) ++ (sampleBytes order es[i]
        ++ ((es.drop (i + 1)).flatMap (sampleBytes order)
        ++ List.replicate (totalSize es - (es.flatMap (sampleBytes order)).length) 0)) := by
      unfold chunkData
      rw [hsplit]; simp
    rw [hg]
    refine ⟨rfl, rfl, rfl, ?_, ?_, ?_, ?_⟩
    · intro h0; subst h0; simp [metaOf]
    · intro hm'
      have hi' : i + 1 < es.length := by rw [metasFrom_length] at hm'; exact hm'
      rw [metasFrom_getElem order 0 es (i + 1) hi', Nat.zero_add]
      simp only [metaOf]
      rw [← List.take_append_getElem hi, List.flatMap_append, List.length_append]
      simp [sampleBytes]
    · simp only [metaOf]
      rw [hdata]
      simp only [List.length_append, sampleBytes]
      omega
    · simp only [metaOf]
      rw [hdata, List.drop_left]
      exact List.take_left

/-- Leaf paths of a nested dictionary are distinct, and looking one up gives the array. -/
theorem leaves_spec (d : Nested α) : d.WF →
    (d.leaves.map Prod.fst).Nodup ∧ ∀ pa ∈ d.leaves, d.lookup pa.1 = some pa.2 := by
  refine Nested.rec (motive_1 := fun d => d.WF →
      (d.leaves.map Prod.fst).Nodup ∧ ∀ pa ∈ d.leaves, d.lookup pa.1 = some pa.2)
    (motive_2 := fun m => ((m.map Prod.fst).Nodup ∧ Nested.WFList m) →
      ((Nested.leavesList m).map Prod.fst).Nodup ∧
      ∀ pa ∈ Nested.leavesList m, (Nested.node m).lookup pa.1 = some pa.2 ∧ ∃ k p, pa.1 = k :: p ∧ k ∈ m.map Prod.fst)
    (motive_3 := fun kv => kv.2.WF →
      (kv.2.leaves.map Prod.fst).Nodup ∧ ∀ pa ∈ kv.2.leaves, kv.2.lookup pa.1 = some pa.2)
    ?_ ?_ ?_ ?_ ?_ d
  · intro a _; simp [Nested.leaves, Nested.lookup]
  · intro m ih hwf
    simp only [Nested.WF] at hwf
    obtain ⟨h1, h2⟩ := ih hwf
    simp only [Nested.leaves]
    exact ⟨h1, fun pa hpa => (h2 pa hpa).1⟩
  · intro _; simp [Nested.leavesList]
  · intro kv rest ihv ihr hwf
    obtain ⟨k, v⟩ := kv
    simp only [List.map_cons, List.nodup_cons, Nested.WFList] at hwf
    obtain ⟨⟨hk, hn⟩, hv, hr⟩ := hwf
    obtain ⟨v1, v2⟩ := ihv hv
    obtain ⟨r1, r2⟩ := ihr ⟨hn, hr⟩
    simp only [Nested.leavesList, List.map_append, List.map_map]
    refine ⟨?_, ?_⟩
    · rw [List.nodup_append]
      refine ⟨?_, r1, ?_⟩
      · have : (Prod.fst ∘ fun pa : Path × α => (k :: pa.1, pa.2)) = (fun p => k :: p) ∘ Prod.fst := rfl
        rw [this, ← List.map_map]
        exact List.Pairwise.map _ (fun a b hab e => hab (by simpa using e)) v1
      · intro p hp q hq e
        subst e
        rw [List.mem_map] at hp hq
        obtain ⟨pa, _, rfl⟩ := hp
        obtain ⟨pb, hpb, he⟩ := hq
        obtain ⟨_, k', p', hk', hmem⟩ := r2 pb hpb
        simp only [Function.comp] at he
        rw [hk'] at he
        simp only [List.cons.injEq] at he
        exact hk (he.1 ▸ hmem)
    · intro pa hpa
      rw [List.mem_append, List.mem_map] at hpa
      rcases hpa with ⟨pb, hpb, rfl⟩ | hpa
      · refine ⟨?_, k, pb.1, rfl, by simp⟩
        rw [lookup_node_cons, Dict.get?_cons_self]
        exact v2 pb hpb
      · obtain ⟨h1, k', p', hk', hmem⟩ := r2 pa hpa
        refine ⟨?_, k', p', hk', by simp [hmem]⟩
        rw [hk'] at h1 ⊢
        rw [lookup_node_cons] at h1 ⊢
        have : k ≠ k' := fun e => hk (e ▸ hmem)
        rw [Dict.get?_cons, if_neg this]
        exact h1
  · intro k v ih; exact ih

/-- When every array of a sample is in the write order, its watched bytes are all its bytes. -/
theorem arrays_bytes_eq {order : List Path} (hnd : order.Nodup) {d : Nested Arr} (hwf : d.WF)
    (h : ∀ pa ∈ d.leaves, pa.1 ∈ order) :
    ((arrays order d).flatMap Arr.bytes).length = (d.leaves.map fun pa => pa.2.nbytes).sum := by
  apply Nat.le_antisymm (arrays_bytes_le hnd d)
  obtain ⟨h1, h2⟩ := leaves_spec d hwf
  have hsub : d.leaves ⊆ arrPairs order d := by
    intro pa hpa
    unfold arrPairs
    rw [List.mem_filterMap]
    exact ⟨pa.1, h pa hpa, by rw [h2 pa hpa]; rfl⟩
  have hln : d.leaves.Nodup := List.Pairwise.of_map _ (fun a b hab e => hab (by rw [e])) h1
  have := sum_le_of_subperm (fun pa : Path × Arr => pa.2.nbytes) (hln.subperm hsub)
  have h3 : ((arrPairs order d).map fun pa => pa.2.nbytes) = (arrays order d).map Arr.nbytes := by
    rw [← arrPairs_snd, List.map_map]; rfl
  rw [h3] at this
  rw [List.length_flatMap]
  exact this

/-- **C11** (end of file). If moreover every logged array is in the write order, the samples fill the data file exactly. -/
theorem C11_tiles_exactly (fs : FS) (rank k : Nat) (es : List (PyStr × Nested Arr)) (order : List Path) (n : Nat)
    (hdepth : ∀ e ∈ es, AtDepth n e.2) (hlen : ∀ p ∈ order, p.length = n) (hnd : order.Nodup)
    (hwf : ∀ e ∈ es, e.2.WF) (hcover : ∀ e ∈ es, ∀ pa ∈ e.2.leaves, pa.1 ∈ order)
    (hok : (writeChunk (Spec.dataFileName rank k).toList es order).2 = .ok ()) :
    Dict.get? (runActions fs (writeChunk (Spec.dataFileName rank k).toList es order).1)
      (Spec.dataFileName rank k).toList
      = some (.data (es.flatMap fun e => (arrays order e.2).flatMap Arr.bytes)) := by
  rw [dataFileName_eq] at hok ⊢
  obtain ⟨htot, hne, hall⟩ := writeChunk_ok_complete hdepth hlen hok
  obtain ⟨h1', h2⟩ := writeChunk_ok fs rank k es order hnd hne hall htot
  rw [h2, Dict.get?_set_ne _ _ (loaderMetaFile_ne_dataFile (chunkKey rank k) (chunkKey rank k) |> fun h => by
      rw [loaderDataFile_chunkKey] at h; exact h), ← loaderDataFile_chunkKey, Dict.get?_set_self]
  have htotal : totalSize es = (es.flatMap (sampleBytes order)).length := by
    clear hok htot hall h2 hdepth h1'
    induction es with
    | nil => rfl
    | cons e es ih =>
      have he := arrays_bytes_eq hnd (hwf e (by simp)) (hcover e (by simp))
      have hi := ih (fun e he => hwf e (by simp [he])) (fun e he => hcover e (by simp [he]))
      simp only [totalSize, List.map_cons, List.sum_cons, List.flatMap_cons, List.length_append] at hi ⊢
      rw [← he, ← hi]; rfl
  have : chunkData order es = es.flatMap (sampleBytes order) := by
    unfold chunkData; rw [htotal]; simp
  rw [this]; rfl

/-! ### C15 -/

theorem setPath_spec (p : Path) (d d' : List (PyStr × Nested α)) (a : α) (h : setPath d p a = .ok d') :
    ∀ q, ¬ q <+: p → ¬ p <+: q → (Nested.node d').lookup q = (Nested.node d).lookup q := by
  induction p generalizing d d' with
  | nil => simp [setPath] at h
  | cons k ks ih =>
    intro q h1 h2
    cases q with
    | nil => simp at h1
    | cons k2 ks2 =>
      cases ks with
      | nil =>
        simp only [setPath, Except.ok.injEq] at h
        subst h
        have : k ≠ k2 := by
          intro e; subst e; exact h2 (by simp)
        rw [lookup_node_cons, lookup_node_cons, Dict.get?_set_ne _ _ this]
      | cons k' ks =>
        by_cases hk : k = k2
        · subst hk
          rw [List.cons_prefix_cons, eq_self, true_and] at h1 h2
          simp only [setPath] at h
          cases hg : Dict.get? d k with
          | none =>
            rw [hg] at h
            simp only at h
            cases hs : setPath [] (k' :: ks) a with
            | error e => rw [hs] at h; simp at h
            | ok sub =>
              rw [hs] at h
              simp only [Except.ok.injEq] at h
              subst h
              rw [lookup_node_cons, lookup_node_cons, Dict.get?_set_self, hg]
              have := ih [] sub hs ks2 h1 h2
              rw [lookup_empty] at this
              simpa using this
          | some v =>
            rw [hg] at h
            cases v with
            | leaf b => simp at h
            | node m =>
              simp only at h
              cases hs : setPath m (k' :: ks) a with
              | error e => rw [hs] at h; simp at h
              | ok sub =>
                rw [hs] at h
                simp only [Except.ok.injEq] at h
                subst h
                rw [lookup_node_cons, lookup_node_cons, Dict.get?_set_self, hg]
                exact ih m sub hs ks2 h1 h2
        · simp only [setPath] at h
          have hgoal : ∀ sub : List (PyStr × Nested α),
              (Nested.node (Dict.set d k (.node sub))).lookup (k2 :: ks2) = (Nested.node d).lookup (k2 :: ks2) := by
            intro sub
            rw [lookup_node_cons, lookup_node_cons, Dict.get?_set_ne _ _ hk]
          cases hg : Dict.get? d k with
          | none =>
            rw [hg] at h
            simp only at h
            cases hs : setPath [] (k' :: ks) a with
            | error e => rw [hs] at h; simp at h
            | ok sub =>
              rw [hs] at h
              simp only [Except.ok.injEq] at h
              subst h; exact hgoal sub
          | some v =>
            rw [hg] at h
            cases v with
            | leaf b => simp at h
            | node m =>
              simp only at h
              cases hs : setPath m (k' :: ks) a with
              | error e => rw [hs] at h; simp at h
              | ok sub =>
                rw [hs] at h
                simp only [Except.ok.injEq] at h
                subst h; exact hgoal sub

theorem setPath_self (p : Path) (d d' : List (PyStr × Nested α)) (a : α) (h : setPath d p a = .ok d') :
    (Nested.node d').lookup p = some a := by
  induction p generalizing d d' with
  | nil => simp [setPath] at h
  | cons k ks ih =>
    cases ks with
    | nil =>
      simp only [setPath, Except.ok.injEq] at h
      subst h
      rw [lookup_node_cons, Dict.get?_set_self]; rfl
    | cons k' ks =>
      have hgoal : ∀ m sub : List (PyStr × Nested α), setPath m (k' :: ks) a = .ok sub →
          (Nested.node (Dict.set d k (.node sub))).lookup (k :: k' :: ks) = some a := by
        intro m sub hs
        rw [lookup_node_cons, Dict.get?_set_self]
        exact ih m sub hs
      simp only [setPath] at h
      cases hg : Dict.get? d k with
      | none =>
        rw [hg] at h
        simp only at h
        cases hs : setPath [] (k' :: ks) a with
        | error e => rw [hs] at h; simp at h
        | ok sub =>
          rw [hs] at h
          simp only [Except.ok.injEq] at h
          subst h; exact hgoal _ _ hs
      | some v =>
        rw [hg] at h
        cases v with
        | leaf b => simp at h
        | node m =>
          simp only at h
          cases hs : setPath m (k' :: ks) a with
          | error e => rw [hs] at h; simp at h
          | ok sub =>
            rw [hs] at h
            simp only [Except.ok.injEq] at h
            subst h; exact hgoal _ _ hs

theorem unflattenLoop_frame (flat : Arr) (order : List Path) (shapes : List (List Nat)) (start start' : Nat)
    (d d' : List (PyStr × Nested Arr)) (h : unflattenLoop flat order shapes start d = .ok (start', d'))
    (q : Path) (hq : ∀ p ∈ order, ¬ p <+: q ∧ ¬ q <+: p) :
    (Nested.node d').lookup q = (Nested.node d).lookup q := by
  induction order generalizing shapes start d with
  | nil => simp only [unflattenLoop, Except.ok.injEq, Prod.mk.injEq] at h; rw [h.2]
  | cons p ps ih =>
    cases shapes with
    | nil => simp [unflattenLoop] at h
    | cons s ss =>
      simp only [unflattenLoop] at h
      cases hu : unflattenTensor flat s start with
      | error e => rw [hu] at h; simp at h
      | ok ts =>
        rw [hu] at h
        obtain ⟨t, st⟩ := ts
        simp only at h
        cases hs : setPath d p t with
        | error e => rw [hs] at h; simp at h
        | ok d1 =>
          rw [hs] at h
          rw [ih _ _ _ h (fun p hp => hq p (by simp [hp]))]
          have := hq p (by simp)
          exact setPath_spec p d d1 t hs q this.2 this.1

theorem unflattenLoop_concat (flat : Arr) (order : List Path) (shapes : List (List Nat)) (start start' : Nat)
    (d d' : List (PyStr × Nested Arr))
    (hpf : order.Pairwise fun p q => ¬ p <+: q ∧ ¬ q <+: p)
    (h : unflattenLoop flat order shapes start d = .ok (start', d')) :
    start ≤ start' ∧
    (order.filterMap (Nested.node d').lookup).flatMap Arr.bytes
      = (flat.bytes.drop (start * flat.dtype.itemsize)).take ((start' - start) * flat.dtype.itemsize) := by
  induction order generalizing shapes start d with
  | nil =>
    simp only [unflattenLoop, Except.ok.injEq, Prod.mk.injEq] at h
    simp [h.1]
  | cons p ps ih =>
    rw [List.pairwise_cons] at hpf
    cases shapes with
    | nil => simp [unflattenLoop] at h
    | cons s ss =>
      simp only [unflattenLoop] at h
      cases hu : unflattenTensor flat s start with
      | error e => rw [hu] at h; simp at h
      | ok ts =>
        rw [hu] at h
        obtain ⟨t, st⟩ := ts
        simp only at h
        cases hs : setPath d p t with
        | error e => rw [hs] at h; simp at h
        | ok d1 =>
          rw [hs] at h
          simp only at h
          obtain ⟨hle, hcat⟩ := ih _ _ _ hpf.2 h
          have hp : (Nested.node d').lookup p = some t := by
            rw [unflattenLoop_frame flat ps ss st start' d1 d' h p (fun q hq => (hpf.1 q hq).symm)]
            exact setPath_self p d d1 t hs
          -- the tensor is the slice
          unfold unflattenTensor at hu
          cases hr : reduceMul s with
          | error e => rw [hr] at hu; simp at hu
          | ok n =>
            rw [hr] at hu
            simp only at hu
            split at hu
            · next hlen =>
              simp only [Except.ok.injEq, Prod.mk.injEq] at hu
              obtain ⟨ht, hst⟩ := hu
              subst ht; subst hst
              refine ⟨by omega, ?_⟩
              simp only [List.filterMap_cons, hp, List.flatMap_cons]
              rw [hcat]
              have e1 : (start' - start) * flat.dtype.itemsize
                  = n * flat.dtype.itemsize + (start' - (start + n)) * flat.dtype.itemsize := by
                rw [← Nat.add_mul]; congr 1; omega
              rw [e1, List.take_add, List.drop_drop, Nat.add_mul]
            · simp at hu

/-- **C15.** For every dataset and index whose metadata lists non-overlapping paths: if the nested view can be read, so can the flat
view, under the same id, and the flat data are the concatenation, in write order, of the arrays of the nested view. -/
theorem C15_flat_matches_nested (ds : Dataset) (i : Nat) (dataId : PyStr) (nd : Nested Arr)
    (hpf : ∀ e ∈ ds.index, GoodOrder e.2.2.path)
    (h : ds.getItem i = .ok (dataId, nd)) :
    ∃ (order : List Path) (a : Arr), ds.index[i]?.map (fun e => e.2.2.path) = some order ∧
      ds.getItemFlat i = .ok (dataId, a) ∧
      a.bytes = (order.filterMap nd.lookup).flatMap Arr.bytes := by
  unfold Dataset.getItem at h
  cases hf : ds.getFlat i with
  | error e => rw [hf] at h; simp at h
  | ok r =>
    obtain ⟨did, entry, flat⟩ := r
    rw [hf] at h
    simp only at h
    cases hu : unflattenLoop flat entry.path entry.shape 0 [] with
    | error e => rw [hu] at h; simp at h
    | ok sd =>
      obtain ⟨start, d⟩ := sd
      rw [hu] at h
      simp only at h
      split at h
      · next hb =>
        simp only [Except.ok.injEq, Prod.mk.injEq] at h
        obtain ⟨rfl, rfl⟩ := h
        -- unfold the flat read
        have hidx : ds.index[i]? = some (did, (ds.index[i]?.map fun e => e.2.1).getD 0, entry) ∧
            flat.bytes.length = entry.blockSize * flat.dtype.itemsize := by
          unfold Dataset.getFlat at hf
          cases hi : ds.index[i]? with
          | none => rw [hi] at hf; simp at hf
          | some e =>
            obtain ⟨did', c, m⟩ := e
            rw [hi] at hf
            simp only at hf
            cases hm : ds.memmaps[c]? with
            | none => rw [hm] at hf; simp at hf
            | some mm =>
              rw [hm] at hf
              simp only at hf
              cases hg : getFlattenItem mm m.offset m.blockSize m.dtype with
              | error e => rw [hg] at hf; simp at hf
              | ok fl =>
                rw [hg] at hf
                simp only [Except.ok.injEq, Prod.mk.injEq] at hf
                obtain ⟨rfl, rfl, rfl⟩ := hf
                refine ⟨rfl, ?_⟩
                unfold getFlattenItem at hg
                simp only at hg
                split at hg
                · simp only [Except.ok.injEq] at hg
                  subst hg
                  simp only [List.length_take, List.length_drop]
                  omega
                · simp at hg
        have hgood : GoodOrder entry.path := hpf _ (List.mem_of_getElem? hidx.1)
        obtain ⟨_, hcat⟩ := unflattenLoop_concat flat entry.path entry.shape 0 start [] d hgood.prefix_free hu
        refine ⟨entry.path, flat, by rw [hidx.1]; rfl, ?_, ?_⟩
        · unfold Dataset.getItemFlat; rw [hf]
        · rw [hcat, ← hb]
          simp only [Nat.zero_mul, List.drop_zero, Nat.sub_zero]
          rw [← hidx.2, List.take_length]
      · simp at h

/-! ### C78: mixed dtypes -/

theorem setPath_values (p : Path) (d d' : List (PyStr × Nested α)) (a : α) (h : setPath d p a = .ok d') :
    ∀ q b, (Nested.node d').lookup q = some b → b = a ∨ (Nested.node d).lookup q = some b := by
  induction p generalizing d d' with
  | nil => simp [setPath] at h
  | cons k ks ih =>
    intro q b hq
    cases q with
    | nil => simp [lookup_node_nil] at hq
    | cons k2 ks2 =>
      by_cases hk : k = k2
      · subst hk
        cases ks with
        | nil =>
          simp only [setPath, Except.ok.injEq] at h
          subst h
          rw [lookup_node_cons, Dict.get?_set_self] at hq
          cases ks2 with
          | nil => simp [Nested.lookup] at hq; exact Or.inl hq.symm
          | cons x xs => simp [Nested.lookup] at hq
        | cons k' ks =>
          simp only [setPath] at h
          cases hg : Dict.get? d k with
          | none =>
            rw [hg] at h
            simp only at h
            cases hs : setPath [] (k' :: ks) a with
            | error e => rw [hs] at h; simp at h
            | ok sub =>
              rw [hs] at h
              simp only [Except.ok.injEq] at h
              subst h
              rw [lookup_node_cons, Dict.get?_set_self] at hq
              rcases ih [] sub hs ks2 b hq with h1 | h1
              · exact Or.inl h1
              · rw [lookup_empty] at h1; cases h1
          | some v =>
            rw [hg] at h
            cases v with
            | leaf b => simp at h
            | node m =>
              simp only at h
              cases hs : setPath m (k' :: ks) a with
              | error e => rw [hs] at h; simp at h
              | ok sub =>
                rw [hs] at h
                simp only [Except.ok.injEq] at h
                subst h
                rw [lookup_node_cons, Dict.get?_set_self] at hq
                rcases ih m sub hs ks2 b hq with h1 | h1
                · exact Or.inl h1
                · right; rw [lookup_node_cons, hg]; exact h1
      · right
        have hset : ∃ v, d' = Dict.set d k v := by
          cases ks with
          | nil => simp only [setPath, Except.ok.injEq] at h; exact ⟨_, h.symm⟩
          | cons k' ks =>
            simp only [setPath] at h
            cases hg : Dict.get? d k with
            | none =>
              rw [hg] at h
              simp only at h
              cases hs : setPath [] (k' :: ks) a with
              | error e => rw [hs] at h; simp at h
              | ok sub => rw [hs] at h; simp only [Except.ok.injEq] at h; exact ⟨_, h.symm⟩
            | some v =>
              rw [hg] at h
              cases v with
              | leaf b => simp at h
              | node m =>
                simp only at h
                cases hs : setPath m (k' :: ks) a with
                | error e => rw [hs] at h; simp at h
                | ok sub => rw [hs] at h; simp only [Except.ok.injEq] at h; exact ⟨_, h.symm⟩
        obtain ⟨v, rfl⟩ := hset
        rw [lookup_node_cons, Dict.get?_set_ne _ _ hk] at hq
        rw [lookup_node_cons]; exact hq

theorem unflattenLoop_dtype (flat : Arr) (order : List Path) (shapes : List (List Nat)) (start start' : Nat)
    (d d' : List (PyStr × Nested Arr)) (h : unflattenLoop flat order shapes start d = .ok (start', d'))
    (hd : ∀ q b, (Nested.node d).lookup q = some b → b.dtype = flat.dtype) :
    ∀ q b, (Nested.node d').lookup q = some b → b.dtype = flat.dtype := by
  induction order generalizing shapes start d with
  | nil => simp only [unflattenLoop, Except.ok.injEq, Prod.mk.injEq] at h; rw [← h.2]; exact hd
  | cons p ps ih =>
    cases shapes with
    | nil => simp [unflattenLoop] at h
    | cons s ss =>
      simp only [unflattenLoop] at h
      cases hu : unflattenTensor flat s start with
      | error e => rw [hu] at h; simp at h
      | ok ts =>
        rw [hu] at h
        obtain ⟨t, st⟩ := ts
        simp only at h
        have ht : t.dtype = flat.dtype := by
          unfold unflattenTensor at hu
          cases hr : reduceMul s with
          | error e => rw [hr] at hu; simp at hu
          | ok n =>
            rw [hr] at hu
            simp only at hu
            split at hu
            · simp only [Except.ok.injEq, Prod.mk.injEq] at hu
              rw [← hu.1]
            · simp at hu
        cases hs : setPath d p t with
        | error e => rw [hs] at h; simp at h
        | ok d1 =>
          rw [hs] at h
          refine ih _ _ _ h ?_
          intro q b hq
          rcases setPath_values p d d1 t hs q b hq with rfl | h1
          · exact ht
          · exact hd q b h1

/-- **C78** is false, in general: whatever directory, dataset and index, all arrays of an item have one dtype. So a sample whose
watched arrays have two dtypes can never be read back as it was written. -/
theorem C78_mixed_dtypes_refuted (ds : Dataset) (i : Nat) (dataId : PyStr) (sample : Nested Arr)
    (p q : Path) (a b : Arr) (ha : sample.lookup p = some a) (hb : sample.lookup q = some b)
    (hdt : a.dtype ≠ b.dtype) :
    ¬ ∃ nd, ds.getItem i = .ok (dataId, nd) ∧ nd.lookup p = sample.lookup p ∧ nd.lookup q = sample.lookup q := by
  rintro ⟨nd, h, hp, hq⟩
  unfold Dataset.getItem at h
  cases hf : ds.getFlat i with
  | error e => rw [hf] at h; simp at h
  | ok r =>
    obtain ⟨did, entry, flat⟩ := r
    rw [hf] at h
    simp only at h
    cases hu : unflattenLoop flat entry.path entry.shape 0 [] with
    | error e => rw [hu] at h; simp at h
    | ok sd =>
      obtain ⟨start, d⟩ := sd
      rw [hu] at h
      simp only at h
      split at h
      · simp only [Except.ok.injEq, Prod.mk.injEq] at h
        obtain ⟨_, rfl⟩ := h
        have hall := unflattenLoop_dtype flat _ _ _ _ _ _ hu (by
          intro q b hq; rw [lookup_empty] at hq; cases hq)
        rw [ha] at hp
        rw [hb] at hq
        exact hdt ((hall _ _ hp).trans (hall _ _ hq).symm)
      · simp at h

/-! ### Non-vacuity -/

namespace Example

/-- A write order with two modules. -/
def order : List Path := [["fc1".toList, "grad".toList], ["fc2".toList, "grad".toList]]

/-- A byte array of shape (1, n). -/
def arr (bs : List UInt8) : Arr := ⟨.uint8, [1, bs.length], bs, by simp [numel, DType.itemsize]⟩

/-- A sample with an array for both modules (of different sizes) and one that is not watched. -/
def sample (x y : List UInt8) : Nested Arr :=
  .node [("fc2".toList, .node [("forward".toList, .leaf (arr [9])), ("grad".toList, .leaf (arr y))]),
         ("fc1".toList, .node [("grad".toList, .leaf (arr x))])]

theorem goodOrder : GoodOrder order := by
  refine ⟨by simp [order], by simp [order], ?_⟩
  simp [order]

theorem lookups (x y : List UInt8) : (sample x y).lookup ["fc1".toList, "grad".toList] = some (arr x) ∧
    (sample x y).lookup ["fc2".toList, "grad".toList] = some (arr y) := by
  constructor <;> simp [sample, Nested.lookup, Dict.get?]

theorem hasAll (x y : List UInt8) : HasAll order (sample x y) ∧ OneDtype order (sample x y) := by
  obtain ⟨h1, h2⟩ := lookups x y
  constructor
  · intro p hp
    simp only [order, List.mem_cons, List.not_mem_nil, or_false] at hp
    rcases hp with rfl | rfl
    · exact ⟨_, h1, by simp [arr]⟩
    · exact ⟨_, h2, by simp [arr]⟩
  · refine ⟨.uint8, ?_⟩
    intro p hp a ha
    simp only [order, List.mem_cons, List.not_mem_nil, or_false] at hp
    rcases hp with rfl | rfl
    · rw [h1] at ha; cases ha; rfl
    · rw [h2] at ha; cases ha; rfl

theorem atDepth (x y : List UInt8) : AtDepth 2 (sample x y) := by
  simp [sample, AtDepth]

/-- Two samples of different content. -/
def entries : List (PyStr × Nested Arr) := [("a".toList, sample [1, 2] [3]), ("b".toList, sample [4] [5, 6])]

/-- C01's hypotheses hold for two samples with unequal shapes, and an unwatched array. -/
example : ∃ ds, openDataset (runActions [] (writeChunk (Spec.dataFileName 3 12).toList entries order).1)
    (Dict.keys (runActions [] (writeChunk (Spec.dataFileName 3 12).toList entries order).1)) = .ok ds ∧
    Holds ds order entries := by
  refine (C01_round_trip [] (by simp [Dict.keys]) (by intro f hf; simp [Dict.keys] at hf) 3 12 order goodOrder
    entries (by simp [entries]) ?_ ?_).2 _ (List.Perm.refl _)
  · intro e he
    simp only [entries, List.mem_cons, List.not_mem_nil, or_false] at he
    rcases he with rfl | rfl <;> exact hasAll _ _
  · exact ⟨_, List.mem_cons_self .., _, List.mem_cons_self .., _, (lookups _ _).1, by simp [arr]⟩

/-- C11's hypotheses hold for the same samples. -/
example : (∀ e ∈ entries, AtDepth 2 e.2) ∧ (∀ p ∈ order, p.length = 2) ∧ order.Nodup ∧
    (writeChunk (Spec.dataFileName 3 12).toList entries order).2 = .ok () := by
  refine ⟨?_, by simp [order], goodOrder.nodup, rfl⟩
  intro e he
  simp only [entries, List.mem_cons, List.not_mem_nil, or_false] at he
  rcases he with rfl | rfl <;> exact atDepth _ _

/-- C12's hypotheses hold when the second sample lacks `fc1`. -/
example : ∃ err, (writeChunk (Spec.dataFileName 0 0).toList [("a".toList, sample [1, 2] [3]),
    ("b".toList, .node [("fc2".toList, .node [("grad".toList, .leaf (arr [7]))])])] order).2 = .error err := by
  refine (C12_incomplete_rejected [] 0 0 _ order 2 ?_ (by simp [order]) ?_).1
  · intro e he
    simp only [List.mem_cons, List.not_mem_nil, or_false] at he
    rcases he with rfl | rfl
    · exact atDepth _ _
    · simp [AtDepth]
  · refine ⟨_, List.mem_cons_of_mem _ (List.mem_cons_self ..), _, List.mem_cons_self .., ?_⟩
    simp [Nested.lookup, Dict.get?]

/-- C78: a sample with a float64 and a float32 array is written without complaint; the item read back has the first
array wrong (its dtype is float32). -/
def mixed : Nested Arr :=
  .node [("fc1".toList, .node [("grad".toList, .leaf ⟨.float64, [1], [0, 0, 0, 0, 0, 0, 0, 1], rfl⟩)]),
         ("fc2".toList, .node [("grad".toList, .leaf ⟨.float32, [1], [2, 2, 2, 2], rfl⟩)])]

example : (writeChunk (Spec.dataFileName 0 0).toList [("a".toList, mixed)] order).2 = .ok () := rfl

example : ((openDataset (runActions [] (writeChunk (Spec.dataFileName 0 0).toList [("a".toList, mixed)] order).1)
      (Dict.keys (runActions [] (writeChunk (Spec.dataFileName 0 0).toList [("a".toList, mixed)] order).1))).toOption.bind
    fun ds => (ds.getItem 0).toOption.bind fun x => x.2.lookup ["fc1".toList, "grad".toList])
    = some ⟨.float32, [1], [0, 0, 0, 0], rfl⟩ := rfl

end Example

end Logix
