import Verif.Lemmas.Loader
import Verif.Props.Names

namespace Logix
open Spec

/-- The log chunks in a directory are exactly these, listed in increasing (rank, flush number) order. -/
structure DirHas (fs : FS) (order : List Path) (chunks : List ((Nat × Nat) × List (PyStr × Nested Arr))) :
    Prop where
  sorted : chunks.Pairwise fun a b => PairLt a.1 b.1
  onDisk : ∀ c ∈ chunks, OnDisk fs order (chunkKey c.1.1 c.1.2) c.2
  only : ∀ f ∈ Dict.keys fs, (∃ a, f = a ++ ".mmap".toList) → (∃ b, f = "log_".toList ++ b) →
      ∃ c ∈ chunks, f = chunkFile c.1.1 c.1.2

theorem dataFileName_eq (r k : Nat) : (Spec.dataFileName r k).toList = chunkFile r k := by
  have := C05_written_names r k
  rw [writeNames_chunkFile, loaderDataFile_chunkKey] at this
  exact (congrArg Prod.fst this).symm

theorem metaFileName_eq (r k : Nat) : (Spec.metaFileName r k).toList = loaderMetaFile (chunkKey r k) := by
  have := C05_written_names r k
  rw [writeNames_chunkFile, loaderDataFile_chunkKey] at this
  exact (congrArg Prod.snd this).symm

/-- `find_chunk_indices` on a directory whose log data files are exactly those of the given pairs. -/
theorem findChunkIndices_files {fs : FS} {pairs : List (Nat × Nat)} (hsorted : pairs.Pairwise PairLt)
    (hin : ∀ c ∈ pairs, chunkFile c.1 c.2 ∈ Dict.keys fs)
    (honly : ∀ f ∈ Dict.keys fs, (∃ a, f = a ++ ".mmap".toList) → (∃ b, f = "log_".toList ++ b) →
      ∃ c ∈ pairs, f = chunkFile c.1 c.2)
    (hnd : (Dict.keys fs).Nodup) {listing : List PyStr} (hl : listing.Perm (Dict.keys fs)) :
    findChunkIndices listing = .ok (pairs.map fun c => chunkKey c.1 c.2) := by
  have hln : listing.Nodup := hl.nodup_iff.2 hnd
  obtain ⟨keys, qs, hk, hq, hs, hm⟩ := C05_chunk_names listing pairs hln
    (by
      intro p hp
      rw [dataFileName_eq, hl.mem_iff]
      exact hin p hp)
    (by
      intro f hf ha hb
      obtain ⟨c, hc, hfc⟩ := honly f (hl.mem_iff.1 hf) ha hb
      exact ⟨c, hc, by rw [dataFileName_eq]; exact hfc⟩)
  have hqs : qs = pairs := eq_of_pairLt_of_mem_iff hs hsorted hq
  rw [hk]
  congr 1
  have hkeys : keys.map loaderDataFile = (pairs.map fun c => chunkKey c.1 c.2).map loaderDataFile := by
    have := congrArg (List.map Prod.fst) hm
    rw [List.map_map, List.map_map, hqs] at this
    have e1 : (Prod.fst ∘ fun key => (loaderDataFile key, loaderMetaFile key)) = loaderDataFile := rfl
    rw [e1] at this
    rw [this, List.map_map]
    apply List.map_congr_left
    intro c _
    simp only [Function.comp]
    rw [dataFileName_eq, loaderDataFile_chunkKey]
  exact (List.map_injective_iff.2 (fun a b hab => loaderDataFile_inj hab)) hkeys

/-- `find_chunk_indices` lists exactly the chunks of the directory, in order. -/
theorem findChunkIndices_dir {fs : FS} {order : List Path}
    {chunks : List ((Nat × Nat) × List (PyStr × Nested Arr))} (h : DirHas fs order chunks)
    (hnd : (Dict.keys fs).Nodup) {listing : List PyStr} (hl : listing.Perm (Dict.keys fs)) :
    findChunkIndices listing = .ok (chunks.map fun c => chunkKey c.1.1 c.1.2) := by
  have := findChunkIndices_files (pairs := chunks.map Prod.fst) (List.pairwise_map.2 h.sorted)
    (by
      intro p hp
      rw [List.mem_map] at hp
      obtain ⟨c, hc, rfl⟩ := hp
      rw [← Dict.get?_isSome_iff, ← loaderDataFile_chunkKey, (h.onDisk c hc).data]
      rfl)
    (by
      intro f hf ha hb
      obtain ⟨c, hc, hfc⟩ := h.only f hf ha hb
      exact ⟨c.1, List.mem_map_of_mem hc, hfc⟩) hnd hl
  rw [List.map_map] at this
  exact this

/-- Opening a directory of complete chunks. -/
theorem openDataset_holds {fs : FS} {order : List Path} (ho : GoodOrder order)
    {chunks : List ((Nat × Nat) × List (PyStr × Nested Arr))} (h : DirHas fs order chunks)
    (hnd : (Dict.keys fs).Nodup) {listing : List PyStr} (hl : listing.Perm (Dict.keys fs))
    (hall : ∀ c ∈ chunks, ∀ e ∈ c.2, HasAll order e.2 ∧ OneDtype order e.2) :
    ∃ ds, openDataset fs listing = .ok ds ∧
      Holds ds order (firstOcc Prod.fst (chunks.flatMap Prod.snd)) := by
  obtain ⟨ds, hds, hh⟩ := fetchData_holds fs order ho
    (chunks.map fun c => (chunkKey c.1.1 c.1.2, c.2))
    (by
      intro c hc
      rw [List.mem_map] at hc
      obtain ⟨c', hc', rfl⟩ := hc
      exact h.onDisk c' hc')
    (by
      intro c hc
      rw [List.mem_map] at hc
      obtain ⟨c', hc', rfl⟩ := hc
      exact hall c' hc')
  refine ⟨ds, ?_, ?_⟩
  · unfold openDataset
    rw [findChunkIndices_dir h hnd hl]
    rw [List.map_map] at hds
    exact hds
  · rw [List.flatMap_map] at hh
    exact hh

/-! ### adding one chunk to a directory -/

theorem chunkKey_ne {r k r' k' : Nat} (h : (r, k) ≠ (r', k')) : chunkKey r k ≠ chunkKey r' k' := by
  intro e
  obtain ⟨h1, h2⟩ := chunkKey_inj e
  exact h (by rw [h1, h2])

/-- The directory after a chunk was written. -/
def addChunk (fs : FS) (order : List Path) (r k : Nat) (es : List (PyStr × Nested Arr)) : FS :=
  Dict.set (Dict.set fs (loaderDataFile (chunkKey r k)) (.data (chunkData order es)))
    (loaderMetaFile (chunkKey r k)) (.metadata (metasFrom order 0 es))

theorem addChunk_nodup {fs : FS} (h : (Dict.keys fs).Nodup) (order : List Path) (r k : Nat)
    (es : List (PyStr × Nested Arr)) : (Dict.keys (addChunk fs order r k es)).Nodup :=
  Dict.nodup_keys_set _ _ _ (Dict.nodup_keys_set _ _ _ h)

theorem addChunk_onDisk_self (fs : FS) (order : List Path) (r k : Nat) (es : List (PyStr × Nested Arr))
    (hne : chunkData order es ≠ []) : OnDisk (addChunk fs order r k es) order (chunkKey r k) es := by
  refine ⟨?_, hne, ?_⟩
  · unfold addChunk
    rw [Dict.get?_set_ne _ _ (loaderMetaFile_ne_dataFile _ _), Dict.get?_set_self]
  · unfold addChunk
    rw [Dict.get?_set_self]

theorem addChunk_get?_other (fs : FS) (order : List Path) (r k : Nat) (es : List (PyStr × Nested Arr))
    {key : PyStr} (hne : key ≠ chunkKey r k) :
    Dict.get? (addChunk fs order r k es) (loaderDataFile key) = Dict.get? fs (loaderDataFile key) ∧
    Dict.get? (addChunk fs order r k es) (loaderMetaFile key) = Dict.get? fs (loaderMetaFile key) := by
  unfold addChunk
  constructor
  · rw [Dict.get?_set_ne _ _ (loaderMetaFile_ne_dataFile _ _),
      Dict.get?_set_ne _ _ (fun e => hne (loaderDataFile_inj e).symm)]
  · rw [Dict.get?_set_ne _ _ (fun e => hne (loaderMetaFile_inj e).symm),
      Dict.get?_set_ne _ _ (fun e => loaderMetaFile_ne_dataFile _ _ e.symm)]

theorem addChunk_onDisk_other (fs : FS) (order : List Path) (r k : Nat) (es : List (PyStr × Nested Arr))
    {key : PyStr} (hne : key ≠ chunkKey r k) {es' : List (PyStr × Nested Arr)}
    (h : OnDisk fs order key es') : OnDisk (addChunk fs order r k es) order key es' := by
  have := addChunk_get?_other fs order r k es hne
  exact ⟨by rw [this.1]; exact h.data, h.nonempty, by rw [this.2]; exact h.metadata⟩

theorem mem_keys_addChunk {fs : FS} {order : List Path} {r k : Nat} {es : List (PyStr × Nested Arr)}
    {f : PyStr} (h : f ∈ Dict.keys (addChunk fs order r k es)) :
    f ∈ Dict.keys fs ∨ f = chunkFile r k ∨ f = loaderMetaFile (chunkKey r k) := by
  unfold addChunk at h
  rw [Dict.keys_set] at h
  have key : ∀ f, f ∈ Dict.keys (Dict.set fs (loaderDataFile (chunkKey r k)) (.data (chunkData order es))) →
      f ∈ Dict.keys fs ∨ f = chunkFile r k := by
    intro f hf
    rw [Dict.keys_set] at hf
    split at hf
    · exact Or.inl hf
    · rw [List.mem_append] at hf
      rcases hf with hf | hf
      · exact Or.inl hf
      · right; rw [loaderDataFile_chunkKey] at hf; simpa using hf
  split at h
  · rcases key f h with h | h
    · exact Or.inl h
    · exact Or.inr (Or.inl h)
  · rw [List.mem_append] at h
    rcases h with h | h
    · rcases key f h with h | h
      · exact Or.inl h
      · exact Or.inr (Or.inl h)
    · right; right; simpa using h

theorem chunkFile_shape (r k : Nat) :
    (∃ a, chunkFile r k = a ++ ".mmap".toList) ∧ (∃ b, chunkFile r k = "log_".toList ++ b) := by
  have h := chunkFile_selected r k
  simp only [Bool.and_eq_true] at h
  exact ⟨(endsWith_iff _ _).1 h.1, (startsWith_iff _ _).1 h.2⟩

theorem metaFile_shape (key : PyStr) : ¬ ∃ a, loaderMetaFile key = a ++ ".mmap".toList := by
  intro h
  have h1 := loaderMetaFile_not_selected key
  have : endsWith (loaderMetaFile key) ['.', 'm', 'm', 'a', 'p'] = true := (endsWith_iff _ _).2 h
  rw [this] at h1
  cases h1

/-- Writing a chunk after all present ones. -/
theorem DirHas.addChunk_last {fs : FS} {order : List Path}
    {chunks : List ((Nat × Nat) × List (PyStr × Nested Arr))} (h : DirHas fs order chunks)
    (r k : Nat) (es : List (PyStr × Nested Arr)) (hne : chunkData order es ≠ [])
    (hlast : ∀ c ∈ chunks, PairLt c.1 (r, k)) :
    DirHas (addChunk fs order r k es) order (chunks ++ [((r, k), es)]) := by
  refine ⟨?_, ?_, ?_⟩
  · rw [List.pairwise_append]
    refine ⟨h.sorted, by simp, ?_⟩
    intro a ha b hb
    simp at hb; subst hb
    exact hlast a ha
  · intro c hc
    rw [List.mem_append] at hc
    rcases hc with hc | hc
    · apply addChunk_onDisk_other _ _ _ _ _ _ (h.onDisk c hc)
      intro e
      obtain ⟨h1, h2⟩ := chunkKey_inj e
      have := hlast c hc
      unfold PairLt at this
      simp only at this
      omega
    · simp at hc; subst hc
      exact addChunk_onDisk_self _ _ _ _ _ hne
  · intro f hf ha hb
    rcases mem_keys_addChunk hf with hf | hf | hf
    · obtain ⟨c, hc, e⟩ := h.only f hf ha hb
      exact ⟨c, by simp [hc], e⟩
    · exact ⟨((r, k), es), by simp, hf⟩
    · subst hf; exact absurd ha (metaFile_shape _)

theorem chunkData_ne_nil {order : List Path} (h : order.Nodup) {es : List (PyStr × Nested Arr)}
    (htot : totalSize es ≠ 0) : chunkData order es ≠ [] := by
  intro e
  have := chunkData_length h es
  rw [e] at this
  exact htot this.symm

end Logix
