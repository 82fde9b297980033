/-
Batching of stored logs: logix/logging/log_loader_utils.py (collation) and the data loader of logix/logix.py:331-363.
-/
import Verif.Model.Storage

namespace Logix

/-- `default_collate(list of tensors)` (PyTorch): `torch.stack` along a new first dimension. An empty list raises IndexError
(`batch[0]`), different shapes raise RuntimeError. Simplification: different element types are treated as RuntimeError too (PyTorch
promotes them). -/
def stackArrs : List Arr → Py Arr
  | [] => .error .indexError
  | a :: as =>
    if h : ∀ b ∈ as, b.shape = a.shape ∧ b.dtype = a.dtype then
      .ok ⟨a.dtype, (as.length + 1) :: a.shape, a.bytes ++ as.flatMap Arr.bytes, by
        have hf : ∀ (l : List Nat) (x : Nat), l.foldl (· * ·) x = x * l.foldl (· * ·) 1 := by
          intro l
          induction l with
          | nil => simp
          | cons y ys ih => intro x; simp only [List.foldl_cons]; rw [ih (x * y), ih (1 * y)]; simp [Nat.mul_assoc]
        have hn : ∀ (b : Nat) (s : List Nat), numel (b :: s) = b * numel s := by
          intro b s; simp only [numel, List.foldl_cons]; rw [hf]; simp
        have hl : ∀ l : List Arr, (∀ b ∈ l, b.shape = a.shape ∧ b.dtype = a.dtype) →
            (l.flatMap Arr.bytes).length = l.length * (numel a.shape * a.dtype.itemsize) := by
          intro l
          induction l with
          | nil => simp
          | cons b l ih =>
            intro hb
            have h1 := hb b (by simp)
            rw [List.flatMap_cons, List.length_append, ih (fun c hc => hb c (by simp [hc])), b.wf, h1.1, h1.2,
              List.length_cons, Nat.add_mul]
            omega
        rw [List.length_append, hl as h, a.wf, hn, Nat.add_mul, Nat.add_mul, Nat.mul_assoc, Nat.one_mul]
        omega⟩
    else .error .runtimeError

mutual
/-- logix/logging/log_loader_utils.py:139-144 `_init_collate_structure` -/
def initCollate : Nested Arr → Nested (List Arr)
  | .leaf _ => .leaf []
  | .node d => .node (initCollateList d)
/-- The dictionary comprehension of logix/logging/log_loader_utils.py:97-99 and 142. -/
def initCollateList : List (PyStr × Nested Arr) → List (PyStr × Nested (List Arr))
  | [] => []
  | (k, v) :: rest => (k, initCollate v) :: initCollateList rest
end

mutual
/-- logix/logging/log_loader_utils.py:149-155: one iteration of the loop of `_merge_dicts`. -/
def mergeValue (acc : List (PyStr × Nested (List Arr))) (key : PyStr) : Nested Arr → Py (List (PyStr × Nested (List Arr)))
  | .leaf a =>
    match Dict.get? acc key with
    | none => .error .keyError
    | some (.node _) => .error .attributeError
    | some (.leaf l) => .ok (Dict.set acc key (.leaf (l ++ [a])))
  | .node m =>
    match Dict.get? acc key with
    | none => .error .keyError
    | some (.leaf _) => if m.isEmpty then .ok acc else .error .typeError
    | some (.node sub) =>
      match mergeDicts sub m with
      | .error e => .error e
      | .ok sub' => .ok (Dict.set acc key (.node sub'))
/-- logix/logging/log_loader_utils.py:147-155 `_merge_dicts` -/
def mergeDicts (acc : List (PyStr × Nested (List Arr))) : List (PyStr × Nested Arr) → Py (List (PyStr × Nested (List Arr)))
  | [] => .ok acc
  | (k, v) :: rest =>
    match mergeValue acc k v with
    | .error e => .error e
    | .ok acc' => mergeDicts acc' rest
end

mutual
/-- logix/logging/log_loader_utils.py:160-166: the value stored under one key. -/
def collateValue : Nested (List Arr) → Py (Nested Arr)
  | .leaf l =>
    match stackArrs l with
    | .error e => .error e
    | .ok t => .ok (.leaf t)
  | .node d =>
    match collateStructure d with
    | .error e => .error e
    | .ok d' => .ok (.node d')
/-- logix/logging/log_loader_utils.py:158-166 `_collate_tensors_in_structure` -/
def collateStructure : List (PyStr × Nested (List Arr)) → Py (List (PyStr × Nested Arr))
  | [] => .ok []
  | (k, v) :: rest =>
    match collateValue v with
    | .error e => .error e
    | .ok v' =>
      match collateStructure rest with
      | .error e => .error e
      | .ok rest' => .ok ((k, v') :: rest')
end

/-- logix/logging/log_loader_utils.py:102-103: the loop over the items. -/
def mergeAll (acc : List (PyStr × Nested (List Arr))) : List (List (PyStr × Nested Arr)) → Py (List (PyStr × Nested (List Arr)))
  | [] => .ok acc
  | d :: rest =>
    match mergeDicts acc d with
    | .error e => .error e
    | .ok acc' => mergeAll acc' rest

/-- logix/logging/log_loader_utils.py:90-108 `collate_nested_dicts`. -/
def collateNested (batch : List (PyStr × List (PyStr × Nested Arr))) : Py (List PyStr × List (PyStr × Nested Arr)) :=
  match batch with
  | [] => .error .indexError
  | first :: _ =>
    match mergeAll (initCollateList first.2) (batch.map Prod.snd) with
    | .error e => .error e
    | .ok acc =>
      match collateStructure acc with
      | .error e => .error e
      | .ok d => .ok (batch.map Prod.fst, d)

/-- `default_collate` on (id, flat tensor) pairs: the list of ids and the stacked tensors. Used with `flatten=True`
(logix/logix.py:354). -/
def collateFlat (batch : List (PyStr × Arr)) : Py (List PyStr × Arr) :=
  match stackArrs (batch.map Prod.snd) with
  | .error e => .error e
  | .ok t => .ok (batch.map Prod.fst, t)

/-- The items of a dataset fetched at consecutive indices; a stored item is a dictionary. -/
def fetchItems (ds : Dataset) : List Nat → Py (List (PyStr × List (PyStr × Nested Arr)))
  | [] => .ok []
  | i :: is =>
    match ds.getItem i with
    | .error e => .error e
    | .ok (_, .leaf _) => .error .attributeError
    | .ok (id, .node d) =>
      match fetchItems ds is with
      | .error e => .error e
      | .ok rest => .ok ((id, d) :: rest)

/-- The same for the flat view. -/
def fetchFlat (ds : Dataset) : List Nat → Py (List (PyStr × Arr))
  | [] => .ok []
  | i :: is =>
    match ds.getItemFlat i with
    | .error e => .error e
    | .ok x =>
      match fetchFlat ds is with
      | .error e => .error e
      | .ok rest => .ok (x :: rest)

/-- PyTorch's `BatchSampler(SequentialSampler)` without `drop_last`: consecutive groups of `b` indices, the last one possibly
shorter. `fuel` bounds the number of groups. -/
def batchIndices (b : Nat) : Nat → List Nat → List (List Nat)
  | 0, _ => []
  | _ + 1, [] => []
  | fuel + 1, l => l.take b :: batchIndices b fuel (l.drop b)

/-- Collate every group of indices. -/
def mapPy (f : α → Py β) : List α → Py (List β)
  | [] => .ok []
  | a :: as =>
    match f a with
    | .error e => .error e
    | .ok b =>
      match mapPy f as with
      | .error e => .error e
      | .ok bs => .ok (b :: bs)

/-- Iterating the `DataLoader` of logix/logix.py:331-363 with `shuffle=False`, `flatten=False` to its end; `DataLoader` raises ValueError
unless the batch size is positive. Worker processes are not modelled (they keep the order). -/
def loadBatches (ds : Dataset) (b : Nat) : Py (List (List PyStr × List (PyStr × Nested Arr))) :=
  if b = 0 then .error .valueError
  else mapPy (fun is =>
    match fetchItems ds is with
    | .error e => .error e
    | .ok items => collateNested items) (batchIndices b ds.len (List.range ds.len))

/-- The same with `flatten=True`. -/
def loadFlatBatches (ds : Dataset) (b : Nat) : Py (List (List PyStr × Arr)) :=
  if b = 0 then .error .valueError
  else mapPy (fun is =>
    match fetchFlat ds is with
    | .error e => .error e
    | .ok items => collateFlat items) (batchIndices b ds.len (List.range ds.len))

end Logix
