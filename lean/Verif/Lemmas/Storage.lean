import Verif.Spec.Storage
import Verif.Lemmas.Names
import Mathlib.Data.List.Perm.Subperm
import Mathlib.Algebra.Order.BigOperators.Group.List
import Mathlib.Algebra.Order.Group.Nat

namespace Logix
open Spec

/-! ### dictionaries -/

theorem Dict.set_set {κ : Type u} {α : Type v} [DecidableEq κ] (d : Dict κ α) (k : κ) (v v' : α) :
    Dict.set (Dict.set d k v) k v' = Dict.set d k v' := by
  induction d with
  | nil => simp [Dict.set]
  | cons p rest ih =>
    obtain ⟨a, b⟩ := p
    by_cases h : a = k
    · simp [Dict.set, h]
    · simp [Dict.set, h, ih]

theorem Dict.set_get?_self {κ : Type u} {α : Type v} [DecidableEq κ] (d : Dict κ α) (k : κ) (v : α)
    (h : Dict.get? d k = some v) : Dict.set d k v = d := by
  induction d with
  | nil => simp at h
  | cons p rest ih =>
    obtain ⟨a, b⟩ := p
    by_cases e : a = k
    · subst e; simp at h; simp [Dict.set, h]
    · simp [Dict.get?, e] at h; simp [Dict.set, e, ih h]

/-! ### sizes -/

theorem foldl_mul_eq (l : List Nat) (a : Nat) : l.foldl (· * ·) a = a * l.foldl (· * ·) 1 := by
  induction l generalizing a with
  | nil => simp
  | cons x xs ih => simp only [List.foldl_cons]; rw [ih (a * x), ih (1 * x)]; simp [Nat.mul_assoc]

theorem reduceMul_eq {s : List Nat} (h : s ≠ []) : reduceMul s = .ok (numel s) := by
  cases s with
  | nil => exact absurd rfl h
  | cons x xs => simp [reduceMul, numel]

/-! ### lookup -/

theorem getFromNested_leaf (a : α) (p : Path) : getFromNested (.leaf a) p = .leaf a := by
  induction p with
  | nil => rfl
  | cons k ks ih => simpa [getFromNested] using ih

theorem getFromNested_of_lookup {d : Nested α} {p : Path} {a : α} (h : d.lookup p = some a) :
    getFromNested d p = .leaf a := by
  induction p generalizing d with
  | nil =>
    cases d with
    | leaf b => simp [Nested.lookup] at h; simp [getFromNested, h]
    | node m => simp [Nested.lookup] at h
  | cons k ks ih =>
    cases d with
    | leaf b => simp [Nested.lookup] at h
    | node m =>
      simp only [Nested.lookup] at h
      simp only [getFromNested]
      cases hk : Dict.get? m k with
      | none => rw [hk] at h; simp at h
      | some v => rw [hk] at h; exact ih h

theorem mem_leavesList_of_get? {m : List (PyStr × Nested α)} {k : PyStr} {v : Nested α}
    (h : Dict.get? m k = some v) {p : Path} {a : α} (hp : (p, a) ∈ v.leaves) :
    (k :: p, a) ∈ Nested.leavesList m := by
  induction m with
  | nil => simp at h
  | cons x rest ih =>
    obtain ⟨k', v'⟩ := x
    simp only [Nested.leavesList, List.mem_append, List.mem_map]
    by_cases e : k' = k
    · subst e
      simp at h; subst h
      exact Or.inl ⟨(p, a), hp, rfl⟩
    · simp [Dict.get?, e] at h
      exact Or.inr (ih h)

theorem mem_leaves_of_lookup {d : Nested α} {p : Path} {a : α} (h : d.lookup p = some a) :
    (p, a) ∈ d.leaves := by
  induction p generalizing d with
  | nil =>
    cases d with
    | leaf b => simp [Nested.lookup] at h; simp [Nested.leaves, h]
    | node m => simp [Nested.lookup] at h
  | cons k ks ih =>
    cases d with
    | leaf b => simp [Nested.lookup] at h
    | node m =>
      simp only [Nested.lookup] at h
      simp only [Nested.leaves]
      cases hk : Dict.get? m k with
      | none => rw [hk] at h; simp at h
      | some v => rw [hk] at h; exact mem_leavesList_of_get? hk (ih h)

/-- The watched arrays as (path, array) pairs. -/
def arrPairs (order : List Path) (d : Nested Arr) : List (Path × Arr) :=
  order.filterMap fun p => (d.lookup p).map fun a => (p, a)

theorem arrPairs_snd (order : List Path) (d : Nested Arr) :
    (arrPairs order d).map Prod.snd = arrays order d := by
  unfold arrPairs arrays
  rw [List.map_filterMap]
  congr 1
  funext p
  cases d.lookup p <;> rfl

theorem arrPairs_nodup {order : List Path} (h : order.Nodup) (d : Nested Arr) :
    (arrPairs order d).Nodup := by
  induction order with
  | nil => simp [arrPairs]
  | cons p ps ih =>
    rw [List.nodup_cons] at h
    simp only [arrPairs, List.filterMap_cons]
    cases hl : d.lookup p with
    | none => exact ih h.2
    | some a =>
      simp only [Option.map_some, List.nodup_cons]
      refine ⟨?_, ih h.2⟩
      intro hmem
      rw [List.mem_filterMap] at hmem
      obtain ⟨q, hq, he⟩ := hmem
      cases hq2 : d.lookup q with
      | none => rw [hq2] at he; simp at he
      | some b =>
        rw [hq2] at he
        simp only [Option.map_some, Option.some.injEq, Prod.mk.injEq] at he
        exact h.1 (he.1 ▸ hq)

theorem arrPairs_subset (order : List Path) (d : Nested Arr) : arrPairs order d ⊆ d.leaves := by
  intro x hx
  unfold arrPairs at hx
  rw [List.mem_filterMap] at hx
  obtain ⟨q, _, he⟩ := hx
  cases hq2 : d.lookup q with
  | none => rw [hq2] at he; simp at he
  | some b =>
    rw [hq2] at he
    simp at he
    subst he
    exact mem_leaves_of_lookup hq2

theorem sum_le_of_subperm {l m : List α} (f : α → Nat) (h : l.Subperm m) :
    (l.map f).sum ≤ (m.map f).sum := by
  obtain ⟨l', hp, hs⟩ := h
  rw [← (hp.map f).sum_eq]
  exact (hs.map f).sum_le_sum (fun _ _ => Nat.zero_le _)

/-- The watched arrays of a sample fit into the bytes counted for it. -/
theorem arrays_bytes_le {order : List Path} (h : order.Nodup) (d : Nested Arr) :
    ((arrays order d).flatMap Arr.bytes).length ≤ (d.leaves.map fun pa => pa.2.nbytes).sum := by
  have h1 := (arrPairs_nodup h d).subperm (arrPairs_subset order d)
  have h2 := sum_le_of_subperm (fun pa : Path × Arr => pa.2.nbytes) h1
  have h3 : ((arrPairs order d).map fun pa => pa.2.nbytes) = (arrays order d).map Arr.nbytes := by
    rw [← arrPairs_snd, List.map_map]; rfl
  rw [h3] at h2
  rw [List.length_flatMap]
  exact h2

theorem Spec.GoodOrder.nodup {order : List Path} (h : GoodOrder order) : order.Nodup := by
  refine h.prefix_free.imp ?_
  intro p q hpq e
  subst e
  exact hpq.1 (List.prefix_refl _)

/-! ### stores -/

theorem overwrite_append {old : List UInt8} {off : Nat} {b1 b2 : List UInt8}
    (h : off + b1.length ≤ old.length) :
    overwrite (overwrite old off b1) (off + b1.length) b2 = overwrite old off (b1 ++ b2) := by
  unfold overwrite
  have ht : (old.take off).length = off := by rw [List.length_take]; omega
  have h1 : (old.take off ++ b1 ++ old.drop (off + b1.length)).take (off + b1.length)
      = old.take off ++ b1 := by
    rw [List.take_append_of_le_length (by simp [ht]), List.take_of_length_le (by simp [ht])]
  have h2 : (old.take off ++ b1 ++ old.drop (off + b1.length)).drop (off + b1.length + b2.length)
      = old.drop (off + (b1.length + b2.length)) := by
    have e : off + b1.length + b2.length = (old.take off ++ b1).length + b2.length := by simp [ht]
    rw [e, ← List.drop_drop, List.drop_left, List.drop_drop]
    congr 1; omega
  rw [h1, h2]
  simp

theorem overwrite_nil (old : List UInt8) (off : Nat) : overwrite old off [] = old := by
  simp [overwrite]

theorem overwrite_length {old : List UInt8} {off : Nat} {b : List UInt8}
    (h : off + b.length ≤ old.length) : (overwrite old off b).length = old.length := by
  unfold overwrite
  simp; omega

/-- Stores of byte strings at consecutive offsets. -/
def storesAt (name : PyStr) : Nat → List (List UInt8) → List Action
  | _, [] => []
  | off, b :: bs => .store name off b :: storesAt name (off + b.length) bs

theorem storesAt_append (name : PyStr) (off : Nat) (xs ys : List (List UInt8)) :
    storesAt name off (xs ++ ys) = storesAt name off xs ++ storesAt name (off + xs.flatten.length) ys := by
  induction xs generalizing off with
  | nil => simp [storesAt]
  | cons x xs ih =>
    simp only [List.cons_append, storesAt, ih, List.flatten_cons, List.length_append]
    rw [Nat.add_assoc]

theorem runActions_append (fs : FS) (xs ys : List Action) :
    runActions fs (xs ++ ys) = runActions (runActions fs xs) ys := by
  simp [runActions]

theorem runActions_storesAt (fs : FS) (name : PyStr) (old : List UInt8) (off : Nat) (bs : List (List UInt8))
    (hg : Dict.get? fs name = some (.data old)) (h : off + bs.flatten.length ≤ old.length) :
    runActions fs (storesAt name off bs) = Dict.set fs name (.data (overwrite old off bs.flatten)) := by
  induction bs generalizing fs off old with
  | nil =>
    simp only [storesAt, List.flatten_nil, overwrite_nil]
    rw [Dict.set_get?_self fs name _ hg]; rfl
  | cons b bs ih =>
    simp only [storesAt, List.flatten_cons, List.length_append] at *
    have hr : Action.run fs (.store name off b) = Dict.set fs name (.data (overwrite old off b)) := by
      simp [Action.run, hg]
    have : runActions fs (Action.store name off b :: storesAt name (off + b.length) bs)
        = runActions (Dict.set fs name (.data (overwrite old off b))) (storesAt name (off + b.length) bs) := by
      rw [← hr]; rfl
    rw [this, ih _ (overwrite old off b) _ (by simp) (by rw [overwrite_length (by omega)]; omega),
      Dict.set_set, overwrite_append (by omega)]

/-! ### the write loops -/

theorem storeSlice_ok {total off : Nat} {bs : List UInt8} (h : off + bs.length ≤ total) :
    storeSlice total off bs = .ok bs := by
  unfold storeSlice
  have : min (off + bs.length) total - min off total = bs.length := by omega
  simp [this]

theorem Spec.HasAll.arrays_cons {p : Path} {ps : List Path} {d : Nested Arr} (h : HasAll (p :: ps) d) :
    ∃ a, d.lookup p = some a ∧ a.shape ≠ [] ∧ arrays (p :: ps) d = a :: arrays ps d ∧ HasAll ps d := by
  obtain ⟨a, ha, hs⟩ := h p (by simp)
  refine ⟨a, ha, hs, ?_, fun q hq => h q (by simp [hq])⟩
  simp [arrays, ha]

theorem writeKeys_ok (name : PyStr) (total : Nat) (d : Nested Arr) (order : List Path) (acc : WriteAcc)
    (h : HasAll order d) (hfit : acc.offset + ((arrays order d).flatMap Arr.bytes).length ≤ total) :
    writeKeys name total d order acc =
      (storesAt name acc.offset ((arrays order d).map Arr.bytes),
       .ok ⟨acc.offset + ((arrays order d).flatMap Arr.bytes).length,
        acc.blockSize + ((arrays order d).map Arr.size).sum,
        acc.shapes ++ (arrays order d).map Arr.shape,
        ((arrays order d).getLast?.map Arr.dtype).or acc.lastDtype⟩) := by
  induction order generalizing acc with
  | nil => simp [writeKeys, arrays, storesAt]
  | cons p ps ih =>
    obtain ⟨a, ha, hs, harr, hps⟩ := h.arrays_cons
    rw [harr] at hfit ⊢
    simp only [List.flatMap_cons, List.length_append] at hfit
    simp only [writeKeys, getFromNested_of_lookup ha, reduceMul_eq hs,
      storeSlice_ok (show acc.offset + a.bytes.length ≤ total by omega)]
    rw [ih _ hps (by simp only [Arr.nbytes]; omega)]
    simp only [List.map_cons, storesAt, Arr.nbytes, List.flatMap_cons, List.length_append, List.sum_cons,
      Arr.size]
    refine Prod.ext rfl ?_
    simp only [Except.ok.injEq, WriteAcc.mk.injEq]
    refine ⟨by omega, by omega, by simp, ?_⟩
    cases hl : (arrays ps d).getLast? with
    | none =>
      have : arrays ps d = [] := by simpa using hl
      simp [this]
    | some b =>
      have : (a :: arrays ps d).getLast? = some b := by
        rw [List.getLast?_cons, hl]; rfl
      rw [this]; rfl

/-- The dtype recorded for a sample: that of its last watched array. -/
def lastDtype (order : List Path) (d : Nested Arr) : DType :=
  (((arrays order d).getLast?).map Arr.dtype).getD .uint8

/-- The metadata of a sample stored at the given offset. -/
def metaOf (order : List Path) (offset : Nat) (e : PyStr × Nested Arr) : MetaEntry :=
  ⟨e.1, order, offset, (arrays order e.2).map Arr.shape, ((arrays order e.2).map Arr.size).sum,
    lastDtype order e.2⟩

/-- The bytes of a sample. -/
def sampleBytes (order : List Path) (e : PyStr × Nested Arr) : List UInt8 :=
  (arrays order e.2).flatMap Arr.bytes

/-- The metadata of consecutive samples. -/
def metasFrom (order : List Path) : Nat → List (PyStr × Nested Arr) → List MetaEntry
  | _, [] => []
  | off, e :: es => metaOf order off e :: metasFrom order (off + (sampleBytes order e).length) es

theorem writeEntries_ok (name : PyStr) (total : Nat) (order : List Path) (hne : order ≠ [])
    (es : List (PyStr × Nested Arr)) (off : Nat) (h : ∀ e ∈ es, HasAll order e.2)
    (hfit : off + (es.flatMap (sampleBytes order)).length ≤ total) :
    writeEntries name total order es off =
      (storesAt name off (es.flatMap fun e => (arrays order e.2).map Arr.bytes),
        .ok (metasFrom order off es)) := by
  induction es generalizing off with
  | nil => simp [writeEntries, storesAt, metasFrom]
  | cons e es ih =>
    obtain ⟨i, d⟩ := e
    simp only [List.flatMap_cons, List.length_append, sampleBytes] at hfit
    have hd := h (i, d) (by simp)
    have hk := writeKeys_ok name total d order ⟨off, 0, [], none⟩ hd (by simp only; omega)
    simp only [writeEntries, hk]
    have hlast : ∃ b, (arrays order d).getLast? = some b := by
      cases order with
      | nil => exact absurd rfl hne
      | cons p ps =>
        obtain ⟨a, _, _, harr, _⟩ := hd.arrays_cons
        rw [harr]
        exact ⟨_, List.getLast?_eq_some_getLast (by simp)⟩
    obtain ⟨b, hb⟩ := hlast
    simp only [hb, Option.map_some, Option.or]
    rw [ih _ (fun e he => h e (by simp [he])) (by omega)]
    refine Prod.ext ?_ ?_
    · rw [List.flatMap_cons, storesAt_append]
      simp only [List.flatMap_def]
    · simp [metasFrom, metaOf, sampleBytes, lastDtype, hb]

theorem chunk_bytes_le_total {order : List Path} (h : order.Nodup) (es : List (PyStr × Nested Arr)) :
    (es.flatMap (sampleBytes order)).length ≤ totalSize es := by
  induction es with
  | nil => simp
  | cons e es ih =>
    have := arrays_bytes_le h e.2
    simp only [List.flatMap_cons, List.length_append, totalSize, List.map_cons, List.sum_cons, sampleBytes] at *
    omega

/-- The content of the data file of a chunk: the samples one after the other, then zeros for what is not in the write order. -/
def chunkData (order : List Path) (es : List (PyStr × Nested Arr)) : List UInt8 :=
  es.flatMap (sampleBytes order) ++ List.replicate (totalSize es - (es.flatMap (sampleBytes order)).length) 0

theorem chunkData_length {order : List Path} (h : order.Nodup) (es : List (PyStr × Nested Arr)) :
    (chunkData order es).length = totalSize es := by
  have := chunk_bytes_le_total h es
  simp only [chunkData, List.length_append, List.length_replicate]; omega

/-- A write of complete samples succeeds and leaves exactly the data and metadata files. -/
theorem writeChunk_ok (fs : FS) (rank k : Nat) (es : List (PyStr × Nested Arr)) (order : List Path)
    (ho : order.Nodup) (hne : order ≠ []) (h : ∀ e ∈ es, HasAll order e.2) (htot : totalSize es ≠ 0) :
    (writeChunk (chunkFile rank k) es order).2 = .ok () ∧
    runActions fs (writeChunk (chunkFile rank k) es order).1 =
      Dict.set (Dict.set fs (loaderDataFile (chunkKey rank k)) (.data (chunkData order es)))
        (loaderMetaFile (chunkKey rank k)) (.metadata (metasFrom order 0 es)) := by
  have hb := chunk_bytes_le_total ho es
  have hw := writeEntries_ok (loaderDataFile (chunkKey rank k)) (totalSize es) order hne es 0 h (by omega)
  have hdef : writeChunk (chunkFile rank k) es order =
      (Action.create (loaderDataFile (chunkKey rank k)) (.data (List.replicate (totalSize es) 0)) ::
        storesAt (loaderDataFile (chunkKey rank k)) 0 (es.flatMap fun e => (arrays order e.2).map Arr.bytes)
        ++ [.create (loaderMetaFile (chunkKey rank k)) .incomplete,
            .create (loaderMetaFile (chunkKey rank k)) (.metadata (metasFrom order 0 es))], .ok ()) := by
    simp only [writeChunk, writeNames_chunkFile, htot, if_false, hw]
  rw [hdef]
  refine ⟨rfl, ?_⟩
  have hflat : (es.flatMap fun e => (arrays order e.2).map Arr.bytes).flatten
      = es.flatMap (sampleBytes order) := by
    clear hdef hw hb htot h
    induction es with
    | nil => rfl
    | cons e es ih =>
      rw [List.flatMap_cons, List.flatten_append, ih, List.flatMap_cons]; rfl
  simp only [List.cons_append]
  have hstep : ∀ (a : Action) (l : List Action), runActions fs (a :: l) = runActions (a.run fs) l :=
    fun _ _ => rfl
  rw [hstep, runActions_append]
  simp only [Action.run]
  rw [runActions_storesAt _ _ (List.replicate (totalSize es) 0) _ _ (by simp) (by rw [hflat]; simpa using hb),
    Dict.set_set, hflat]
  have hov : overwrite (List.replicate (totalSize es) 0) 0 (es.flatMap (sampleBytes order)) = chunkData order es := by
    simp [overwrite, chunkData]
  rw [hov]
  simp only [runActions, List.foldl_cons, List.foldl_nil, Action.run, Dict.set_set]

end Logix
