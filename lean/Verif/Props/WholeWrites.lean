/-
C156: a chunk write that returns has stored every array completely.
-/
import Verif.Lemmas.Storage

namespace Logix

theorem storeSlice_whole {total off : Nat} {bs b : List UInt8} (h : storeSlice total off bs = .ok b) (h1 : bs.length ≠ 1) :
    b = bs ∧ (off ≤ total → off + bs.length ≤ total) := by
  simp only [storeSlice] at h
  split at h
  · cases h
    refine ⟨rfl, fun _ => ?_⟩
    omega
  · split at h
    · simp at h1
    · cases h

theorem writeKeys_whole (name : PyStr) (total : Nat) (d : Nested Arr) (order : List Path) (acc acc' : WriteAcc)
    (h1 : ∀ p ∈ order, ∀ a, getFromNested d p = .leaf a → a.bytes.length ≠ 1)
    (h : (writeKeys name total d order acc).2 = .ok acc') :
    ∃ xs : List Arr, order.map (getFromNested d) = xs.map .leaf ∧
      (writeKeys name total d order acc).1 = storesAt name acc.offset (xs.map Arr.bytes) ∧
      acc'.offset = acc.offset + (xs.map Arr.bytes).flatten.length ∧ (acc.offset ≤ total → acc'.offset ≤ total) := by
  induction order generalizing acc with
  | nil =>
    simp only [writeKeys, Except.ok.injEq] at h
    subst h
    exact ⟨[], rfl, rfl, by simp, id⟩
  | cons p ps ih =>
    simp only [writeKeys] at h ⊢
    cases hg : getFromNested d p with
    | node m => rw [hg] at h; simp at h
    | leaf a =>
      rw [hg] at h
      simp only at h ⊢
      cases hr : reduceMul a.shape with
      | error e => rw [hr] at h; simp at h
      | ok n =>
        rw [hr] at h
        simp only at h ⊢
        cases hs : storeSlice total acc.offset a.bytes with
        | error e => rw [hs] at h; simp at h
        | ok bs =>
          rw [hs] at h
          simp only at h ⊢
          obtain ⟨rfl, hfit⟩ := storeSlice_whole hs (h1 p (by simp) a hg)
          obtain ⟨xs, e1, e2, e3, e4⟩ := ih _ (fun q hq => h1 q (by simp [hq])) h
          refine ⟨a :: xs, by simp [hg, e1], ?_, ?_, fun hle => e4 (hfit hle)⟩
          · rw [e2]; rfl
          · rw [e3]
            simp only [Arr.nbytes, List.map_cons, List.flatten_cons, List.length_append]
            omega

theorem writeEntries_whole (name : PyStr) (total : Nat) (order : List Path) (es : List (PyStr × Nested Arr)) (off : Nat) (ms : List MetaEntry)
    (h1 : ∀ e ∈ es, ∀ p ∈ order, ∀ a, getFromNested e.2 p = .leaf a → a.bytes.length ≠ 1)
    (h : (writeEntries name total order es off).2 = .ok ms) :
    ∃ xs : List Arr, es.flatMap (fun e => order.map (getFromNested e.2)) = xs.map .leaf ∧
      (writeEntries name total order es off).1 = storesAt name off (xs.map Arr.bytes) ∧
      (off ≤ total → off + (xs.map Arr.bytes).flatten.length ≤ total) := by
  induction es generalizing off ms with
  | nil => exact ⟨[], rfl, rfl, by simp⟩
  | cons e es ih =>
    obtain ⟨i, d⟩ := e
    simp only [writeEntries] at h ⊢
    have hk0 := writeKeys_whole name total d order ⟨off, 0, [], none⟩
    cases hk : writeKeys name total d order ⟨off, 0, [], none⟩ with
    | mk acts r =>
      rw [hk] at h hk0
      cases r with
      | error e => simp at h
      | ok acc =>
        obtain ⟨xs, e1, e2, e3, e4⟩ := hk0 acc (h1 (i, d) (by simp)) rfl
        simp only at h e2 e3 e4 ⊢
        cases hd : acc.lastDtype with
        | none => rw [hd] at h; simp at h
        | some dt =>
          rw [hd] at h
          simp only at h ⊢
          cases hr : (writeEntries name total order es acc.offset).2 with
          | error e => rw [hr] at h; simp at h
          | ok ms' =>
            obtain ⟨ys, f1, f2, f3⟩ := ih acc.offset ms' (fun e he => h1 e (by simp [he])) hr
            refine ⟨xs ++ ys, ?_, ?_, fun hle => ?_⟩
            · rw [List.flatMap_cons, e1, f1, List.map_append]
            · rw [e2, f2, e3, List.map_append, storesAt_append]
            · have := f3 (e4 hle)
              rw [e3] at this
              simp only [List.map_append, List.flatten_append, List.length_append]
              omega

/-- **C156.** When the write of a chunk returns, whatever the samples and the write order were (names missing in a sample, named twice, arrays of any shape): the write
order names an array in every sample, and the data file contains the bytes of all these arrays, complete and in this order, and only zeros after them, in a file of
the size of all the data. Nothing was cut off. (Arrays of more or less than one byte: NumPy broadcasts a single byte.) -/
theorem C156_complete (fs : FS) (rank k : Nat) (es : List (PyStr × Nested Arr)) (order : List Path)
    (h1 : ∀ e ∈ es, ∀ p ∈ order, ∀ a, getFromNested e.2 p = .leaf a → a.bytes.length ≠ 1)
    (h : (writeChunk (chunkFile rank k) es order).2 = .ok ()) :
    ∃ (xs : List Arr) (n : Nat), es.flatMap (fun e => order.map (getFromNested e.2)) = xs.map .leaf ∧
      Dict.get? (runActions fs (writeChunk (chunkFile rank k) es order).1) (loaderDataFile (chunkKey rank k)) =
        some (.data ((xs.map Arr.bytes).flatten ++ List.replicate n 0)) ∧
      (xs.map Arr.bytes).flatten.length + n = (es.map fun e => (e.2.leaves.map fun pa => pa.2.bytes.length).sum).sum := by
  simp only [writeChunk, writeNames_chunkFile] at h ⊢
  by_cases htot : totalSize es = 0
  · simp [htot] at h
  simp only [htot, if_false] at h ⊢
  cases hr : (writeEntries (loaderDataFile (chunkKey rank k)) (totalSize es) order es 0).2 with
  | error e => rw [hr] at h; simp at h
  | ok ms =>
    obtain ⟨xs, e1, e2, e3⟩ := writeEntries_whole _ _ _ _ _ _ h1 hr
    have hle := e3 (Nat.zero_le _)
    rw [Nat.zero_add] at hle
    refine ⟨xs, totalSize es - (xs.map Arr.bytes).flatten.length, e1, ?_, ?_⟩
    · simp only [e2, List.cons_append]
      have hstep : ∀ (a : Action) (l : List Action), runActions fs (a :: l) = runActions (a.run fs) l :=
        fun _ _ => rfl
      rw [hstep, runActions_append]
      simp only [Action.run]
      rw [runActions_storesAt _ _ (List.replicate (totalSize es) 0) _ _ (by simp) (by simpa using hle), Dict.set_set]
      simp only [runActions, List.foldl_cons, List.foldl_nil, Action.run, Dict.set_set]
      rw [Dict.get?_set_ne _ (h := loaderMetaFile_ne_dataFile _ _)]
      simp [overwrite]
    · have : totalSize es = (es.map fun e => (e.2.leaves.map fun pa => pa.2.bytes.length).sum).sum := rfl
      omega

namespace ExWhole

/-- A float16 array of two elements. -/
def arr (a b c d : UInt8) : Arr := ⟨.float16, [2], [a, b, c, d], rfl⟩

def sample (a : UInt8) : Nested Arr := .node [(['m'], .node [(['x'], .leaf (arr a 1 2 3)), (['y'], .leaf (arr a 4 5 6))])]

/-- Two samples, of which the write order names one array each: the write returns. -/
example : (writeChunk (chunkFile 0 0) [(['i'], sample 7), (['j'], sample 8)] [[['m'], ['y']]]).2 = .ok () := by decide +kernel

/-- Its arrays have more than one byte. -/
example : ∀ e ∈ [((['i'] : PyStr), sample 7), (['j'], sample 8)], ∀ p ∈ ([[['m'], ['y']]] : List Path), ∀ a, getFromNested e.2 p = .leaf a → a.bytes.length ≠ 1 := by
  intro e he p hp a h
  simp only [List.mem_cons, List.not_mem_nil, or_false] at he hp
  subst hp
  rcases he with rfl | rfl <;> (cases h; decide)

/-- An order that names an array three times does not fit: the write raises. -/
example : (writeChunk (chunkFile 0 0) [(['i'], sample 7)] [[['m'], ['y']], [['m'], ['y']], [['m'], ['y']]]).2 = .error .valueError := by decide +kernel

end ExWhole

end Logix
