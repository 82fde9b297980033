/-
C158: the metadata of a chunk write that returns describes what was stored.
-/
import Verif.Props.WholeWrites
import Verif.Props.Storage
import Verif.Spec.WholeMetadata

namespace Logix

theorem writeKeys_described (name : PyStr) (total : Nat) (d : Nested Arr) (order : List Path) (acc acc' : WriteAcc)
    (h : (writeKeys name total d order acc).2 = .ok acc') :
    ∃ xs : List Arr, order.map (getFromNested d) = xs.map .leaf ∧ acc'.offset = acc.offset + (xs.map fun a => a.bytes.length).sum ∧
      acc'.shapes = acc.shapes ++ xs.map Arr.shape ∧ acc'.blockSize = acc.blockSize + (xs.map fun a => numel a.shape).sum ∧
      acc'.lastDtype = (xs.getLast?.map Arr.dtype).or acc.lastDtype := by
  induction order generalizing acc with
  | nil =>
    simp only [writeKeys, Except.ok.injEq] at h
    subst h
    exact ⟨[], rfl, by simp, by simp, by simp, by simp⟩
  | cons p ps ih =>
    simp only [writeKeys] at h
    cases hg : getFromNested d p with
    | node m => rw [hg] at h; simp at h
    | leaf a =>
      rw [hg] at h
      simp only at h
      cases hr : reduceMul a.shape with
      | error e => rw [hr] at h; simp at h
      | ok n =>
        rw [hr] at h
        simp only at h
        cases hs : storeSlice total acc.offset a.bytes with
        | error e => rw [hs] at h; simp at h
        | ok bs =>
          rw [hs] at h
          simp only at h
          obtain ⟨xs, e1, e2, e3, e4, e5⟩ := ih _ h
          have hn : n = numel a.shape := by
            have := reduceMul_eq (reduceMul_ok_iff hr)
            rw [hr] at this
            exact Except.ok.inj this
          refine ⟨a :: xs, by simp [hg, e1], ?_, ?_, ?_, ?_⟩
          · rw [e2]; simp only [Arr.nbytes, List.map_cons, List.sum_cons]; omega
          · rw [e3]; simp
          · rw [e4, hn]; simp only [List.map_cons, List.sum_cons]; omega
          · rw [e5]
            cases xs with
            | nil => simp
            | cons b xs => simp [List.getLast?_eq_some_getLast]

theorem writeEntries_described (name : PyStr) (total : Nat) (order : List Path) (es : List (PyStr × Nested Arr)) (off : Nat) (ms : List MetaEntry)
    (h : (writeEntries name total order es off).2 = .ok ms) :
    ∃ xss : List (List Arr), es.map (fun e => order.map (getFromNested e.2)) = xss.map (fun xs => xs.map .leaf) ∧ ms.length = es.length ∧
      (∀ k e xs m, es[k]? = some e → xss[k]? = some xs → ms[k]? = some m → Describes order m e.1 xs ∧
        m.offset = off + ((xss.take k).map fun xs => (xs.map fun a => a.bytes.length).sum).sum) := by
  induction es generalizing off ms with
  | nil =>
    simp only [writeEntries, Except.ok.injEq] at h
    subst h
    exact ⟨[], rfl, rfl, fun k e xs m h => by simp at h⟩
  | cons e es ih =>
    obtain ⟨i, d⟩ := e
    simp only [writeEntries] at h
    have hk0 := writeKeys_described name total d order ⟨off, 0, [], none⟩
    cases hk : writeKeys name total d order ⟨off, 0, [], none⟩ with
    | mk acts r =>
      rw [hk] at h hk0
      cases r with
      | error e => simp at h
      | ok acc =>
        obtain ⟨xs, e1, e2, e3, e4, e5⟩ := hk0 acc rfl
        simp only at h e2 e3 e4 e5
        cases hd : acc.lastDtype with
        | none => rw [hd] at h; simp at h
        | some dt =>
          rw [hd] at h
          simp only at h
          cases hr : (writeEntries name total order es acc.offset).2 with
          | error e => rw [hr] at h; simp at h
          | ok ms' =>
            rw [hr] at h
            simp only [Except.ok.injEq] at h
            subst h
            obtain ⟨xss, f1, f2, f3⟩ := ih acc.offset ms' hr
            refine ⟨xs :: xss, by simp [e1, f1], by simp [f2], fun k e ys m g1 g2 g3 => ?_⟩
            cases k with
            | zero =>
              simp only [List.getElem?_cons_zero, Option.some.injEq] at g1 g2 g3
              subst g1 g2 g3
              refine ⟨⟨rfl, rfl, by simpa using e3, by simpa using e4, ?_⟩, by simp⟩
              rw [hd] at e5
              cases hl : xs.getLast? with
              | none => rw [hl] at e5; simp at e5
              | some a =>
                rw [hl] at e5
                simp only [Option.map_some, Option.some_or, Option.some.injEq] at e5
                exact ⟨a, rfl, e5⟩
            | succ k =>
              simp only [List.getElem?_cons_succ] at g1 g2 g3
              obtain ⟨q1, q2⟩ := f3 k e ys m g1 g2 g3
              refine ⟨q1, ?_⟩
              rw [q2, e2]
              simp only [List.take_succ_cons, List.map_cons, List.sum_cons]
              omega

/-- **C158.** When the write of a chunk returns, whatever the samples and the write order were: the write order names an array in every sample, and the metadata has exactly
one entry for every sample, in the same order, with its id, the write order, the shapes of all its arrays, their number of elements, the dtype of the last of them, and
the number of bytes of the arrays of all samples before it as offset. -/
theorem C158_metadata (fs : FS) (rank k : Nat) (es : List (PyStr × Nested Arr)) (order : List Path)
    (h : (writeChunk (chunkFile rank k) es order).2 = .ok ()) :
    ∃ (xss : List (List Arr)) (ms : List MetaEntry), es.map (fun e => order.map (getFromNested e.2)) = xss.map (fun xs => xs.map .leaf) ∧
      Dict.get? (runActions fs (writeChunk (chunkFile rank k) es order).1) (loaderMetaFile (chunkKey rank k)) = some (.metadata ms) ∧ ms.length = es.length ∧
      ∀ j e xs m, es[j]? = some e → xss[j]? = some xs → ms[j]? = some m → Describes order m e.1 xs ∧
        m.offset = ((xss.take j).map fun xs => (xs.map fun a => a.bytes.length).sum).sum := by
  simp only [writeChunk, writeNames_chunkFile] at h ⊢
  by_cases htot : totalSize es = 0
  · simp [htot] at h
  simp only [htot, if_false] at h ⊢
  cases hr : (writeEntries (loaderDataFile (chunkKey rank k)) (totalSize es) order es 0).2 with
  | error e => rw [hr] at h; simp at h
  | ok ms =>
    obtain ⟨xss, e1, e2, e3⟩ := writeEntries_described _ _ _ _ _ _ hr
    refine ⟨xss, ms, e1, ?_, e2, fun j e xs m g1 g2 g3 => ?_⟩
    · simp only
      rw [runActions_append]
      simp only [runActions, List.foldl_cons, List.foldl_nil, Action.run, Dict.get?_set_self]
    · simpa using e3 j e xs m g1 g2 g3

namespace ExWhole

/-- The metadata of the write of two samples that returns: the second sample begins after the four bytes of the first. -/
example : Dict.get? (runActions [] (writeChunk (chunkFile 0 0) [(['i'], sample 7), (['j'], sample 8)] [[['m'], ['y']]]).1) (loaderMetaFile (chunkKey 0 0)) =
    some (.metadata [⟨['i'], [[['m'], ['y']]], 0, [[2]], 2, .float16⟩, ⟨['j'], [[['m'], ['y']]], 4, [[2]], 2, .float16⟩]) := by decide +kernel

end ExWhole

end Logix
