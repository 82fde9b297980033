/-
C05: chunk files are found again under exactly the names they were written with, in numeric order.
-/
import Verif.Lemmas.Names

namespace Logix

/-- Specification: the name of the data file of chunk `k` of rank `r`, as a format string. -/
def Spec.dataFileName (r k : Nat) : String := s!"log_rank_{r}_chunk_{k}.mmap"

/-- Specification: the name of the metadata file of chunk `k` of rank `r`. -/
def Spec.metaFileName (r k : Nat) : String := s!"log_rank_{r}_chunk_{k}_metadata.json"

/-- The saver writes the files with the specified names. -/
theorem C05_written_names (r k : Nat) :
    writeNames (chunkFile r k)
      = ((Spec.dataFileName r k).toList, (Spec.metaFileName r k).toList) := by
  rw [writeNames_chunkFile]
  simp [Spec.dataFileName, Spec.metaFileName, loaderDataFile, loaderMetaFile, chunkKey, decimal,
    toString]

/-- Different (rank, flush number) pairs never share a file, and no data file is a metadata file. -/
theorem C05_names_injective {r k r' k' : Nat} :
    ((Spec.dataFileName r k = Spec.dataFileName r' k' ∨
      Spec.metaFileName r k = Spec.metaFileName r' k') → r = r' ∧ k = k') ∧
    Spec.dataFileName r k ≠ Spec.metaFileName r' k' := by
  have h1 := C05_written_names r k
  have h2 := C05_written_names r' k'
  rw [writeNames_chunkFile] at h1 h2
  simp only [Prod.mk.injEq] at h1 h2
  refine ⟨?_, ?_⟩
  · rintro (h | h)
    · refine chunkKey_inj (loaderDataFile_inj ?_)
      rw [h1.1, h2.1, h]
    · refine chunkKey_inj (loaderMetaFile_inj ?_)
      rw [h1.2, h2.2, h]
  · intro h
    apply loaderMetaFile_ne_dataFile (chunkKey r' k') (chunkKey r k)
    rw [h1.1, h2.2, h]

theorem endsWith_iff (s t : PyStr) : endsWith s t = true ↔ ∃ a, s = a ++ t := by
  unfold endsWith
  rw [List.isPrefixOf_iff_prefix]
  constructor
  · rintro ⟨u, hu⟩
    refine ⟨u.reverse, ?_⟩
    have := congrArg List.reverse hu
    simpa using this.symm
  · rintro ⟨a, rfl⟩
    simp

theorem startsWith_iff (s t : PyStr) : startsWith s t = true ↔ ∃ a, s = t ++ a := by
  unfold startsWith
  rw [List.isPrefixOf_iff_prefix]
  constructor
  · rintro ⟨u, hu⟩; exact ⟨u, hu.symm⟩
  · rintro ⟨a, rfl⟩; exact ⟨a, rfl⟩

/-- **C05.** Take any directory listing, in any order, whose files of the form `log_….mmap` are the data files of a
set `ps` of (rank, flush number) pairs. The loader then opens, for exactly these pairs and in
increasing order of the pairs compared as numbers, exactly the data and metadata files that the saver
wrote for the pair. -/
theorem C05_chunk_names (listing : List PyStr) (ps : List (Nat × Nat))
    (hnd : listing.Nodup)
    (hall : ∀ p ∈ ps, (Spec.dataFileName p.1 p.2).toList ∈ listing)
    (honly : ∀ f ∈ listing, (∃ a, f = a ++ ".mmap".toList) → (∃ b, f = "log_".toList ++ b) →
      ∃ p ∈ ps, f = (Spec.dataFileName p.1 p.2).toList) :
    ∃ (keys : List PyStr) (qs : List (Nat × Nat)), findChunkIndices listing = .ok keys ∧
      (∀ p, p ∈ qs ↔ p ∈ ps) ∧
      qs.Pairwise (fun a b => a.1 < b.1 ∨ (a.1 = b.1 ∧ a.2 < b.2)) ∧
      keys.map (fun key => (loaderDataFile key, loaderMetaFile key))
        = qs.map (fun p => ((Spec.dataFileName p.1 p.2).toList, (Spec.metaFileName p.1 p.2).toList)) := by
  have hname : ∀ r k, (Spec.dataFileName r k).toList = chunkFile r k := by
    intro r k
    have := C05_written_names r k
    rw [writeNames_chunkFile, loaderDataFile_chunkKey] at this
    exact (congrArg Prod.fst this).symm
  -- the selected files are the images of a list of pairs
  have hex : ∃ l : List (Nat × Nat),
      (listing.filter fun f => endsWith f ['.', 'm', 'm', 'a', 'p'] && startsWith f ['l', 'o', 'g', '_'])
        = l.map fun p => chunkFile p.1 p.2 := by
    have : ∀ fs : List PyStr, (∀ f ∈ fs, ∃ p : Nat × Nat, f = chunkFile p.1 p.2) →
        ∃ l : List (Nat × Nat), fs = l.map fun p => chunkFile p.1 p.2 := by
      intro fs
      induction fs with
      | nil => intro _; exact ⟨[], rfl⟩
      | cons f fs ih =>
        intro h
        obtain ⟨p, hp⟩ := h f (by simp)
        obtain ⟨l, hl⟩ := ih (fun g hg => h g (by simp [hg]))
        exact ⟨p :: l, by simp [hp, hl]⟩
    apply this
    intro f hf
    simp only [List.mem_filter, Bool.and_eq_true] at hf
    obtain ⟨p, _, hp⟩ := honly f hf.1 ((endsWith_iff _ _).1 hf.2.1) ((startsWith_iff _ _).1 hf.2.2)
    exact ⟨p, by rw [hp, hname]⟩
  obtain ⟨l, hl⟩ := hex
  have hlmem : ∀ p, p ∈ l ↔ p ∈ ps := by
    intro p
    constructor
    · intro hp
      have : chunkFile p.1 p.2 ∈ l.map fun p => chunkFile p.1 p.2 := List.mem_map_of_mem hp
      rw [← hl, List.mem_filter] at this
      have h2 := this.2
      simp only [Bool.and_eq_true] at h2
      obtain ⟨q, hq, hpq⟩ := honly _ this.1 ((endsWith_iff _ _).1 h2.1) ((startsWith_iff _ _).1 h2.2)
      rw [hname] at hpq
      obtain ⟨e1, e2⟩ := chunkFile_inj hpq
      have : p = q := Prod.ext e1 e2
      rw [this]; exact hq
    · intro hp
      have h1 := hall p hp
      rw [hname] at h1
      have : chunkFile p.1 p.2 ∈ listing.filter fun f =>
          endsWith f ['.', 'm', 'm', 'a', 'p'] && startsWith f ['l', 'o', 'g', '_'] := by
        rw [List.mem_filter]; exact ⟨h1, chunkFile_selected _ _⟩
      rw [hl, List.mem_map] at this
      obtain ⟨q, hq, hqp⟩ := this
      obtain ⟨e1, e2⟩ := chunkFile_inj hqp
      have : q = p := Prod.ext e1 e2
      rw [← this]; exact hq
  have hlnd : l.Nodup := by
    have h1 : (l.map fun p : Nat × Nat => chunkFile p.1 p.2).Nodup := by
      rw [← hl]; exact hnd.filter _
    exact List.Pairwise.of_map _ (fun a b hab e => hab (by rw [e])) h1
  refine ⟨_, pySorted pairLe l, findChunkIndices_eq listing l hl, ?_, ?_, ?_⟩
  · intro p; rw [mem_pySorted, hlmem]
  · refine pairwise_pairLt_of_nodup (pairwise_pySorted pairLe_trans pairLe_total _) ?_
    exact (pySorted_perm pairLe l).nodup_iff.2 hlnd
  · rw [List.map_map]
    apply List.map_congr_left
    intro p _
    simp only [Function.comp]
    rw [← C05_written_names, writeNames_chunkFile]

/-- Non-vacuity: a listing in non-numeric order, with an unrelated file, chunk 10 before chunk 9. -/
example : findChunkIndices
    ["log_rank_1_chunk_0.mmap".toList, "log_rank_0_chunk_10.mmap".toList,
     "log_rank_0_chunk_10_metadata.json".toList, "log_rank_0_chunk_9.mmap".toList, "state".toList]
    = .ok ["rank_0_chunk_9".toList, "rank_0_chunk_10".toList, "rank_1_chunk_0".toList] := by
  rfl

end Logix
