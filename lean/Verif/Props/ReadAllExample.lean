/-
C141: a directory in which the loader serves tensors with fewer rows than ids; a readable and a damaged directory.
-/
import Verif.Props.ReadAll

namespace Logix
open Spec

namespace ReadAllExample

/-- The first sample, logged while `fc1` and `fc2` are watched. -/
def first : List Action × Py Unit :=
  writeChunk "log_rank_0_chunk_0.mmap".toList [("a".toList, Example.sample [1, 2] [3])] Example.order

/-- The second sample, logged while only `fc1` is watched (`clear` and `watch` again in the same run). -/
def second : List Action × Py Unit :=
  writeChunk "log_rank_0_chunk_1.mmap".toList [("b".toList, Example.sample [4, 5] [6])] [["fc1".toList, "grad".toList]]

/-- The directory. -/
def written : FS := runActions (runActions [] first.1) second.1

/-- The dataset opened on it. -/
def opened : Dataset := ((openDataset written (Dict.keys written)).toOption).getD ⟨[], []⟩

theorem opened_ok : openDataset written (Dict.keys written) = .ok opened := by
  unfold opened
  cases h : openDataset written (Dict.keys written) with
  | ok ds => rfl
  | error e =>
    have h2 : (openDataset written (Dict.keys written)).toOption.isSome = true := by decide +kernel
    rw [h] at h2; cases h2

/-- The batches that are served. -/
def served (b : Nat) : List (List PyStr × List (PyStr × Nested Arr)) := ((loadBatches opened b).toOption).getD []

theorem served_ok : loadBatches opened 2 = .ok (served 2) := by
  unfold served
  cases h : loadBatches opened 2 with
  | ok ds => rfl
  | error e =>
    have h2 : (loadBatches opened 2).toOption.isSome = true := by decide +kernel
    rw [h] at h2; cases h2

/-- The same directory after the last data file lost its contents. -/
def damaged : Dataset := { opened with memmaps := opened.memmaps.take 1 ++ [[0]] }

end ReadAllExample

open ReadAllExample in
/-- **C141 fails for the nested view.** Two samples are written one after the other into one directory, both writes succeed, the
dataset opens, and the loop over the loader ends without an error; but the batch has two ids and a tensor with a single row. -/
theorem C141_refuted :
    ¬ ∀ (es₁ es₂ : List (PyStr × Nested Arr)) (o₁ o₂ : List Path) (ds : Dataset) (b : Nat)
      (bs : List (List PyStr × List (PyStr × Nested Arr))),
      let w₁ := writeChunk "log_rank_0_chunk_0.mmap".toList es₁ o₁
      let w₂ := writeChunk "log_rank_0_chunk_1.mmap".toList es₂ o₂
      let fs := runActions (runActions [] w₁.1) w₂.1
      GoodOrder o₁ → GoodOrder o₂ → w₁.2 = .ok () → w₂.2 = .ok () → openDataset fs (Dict.keys fs) = .ok ds →
      loadBatches ds b = .ok bs → RowPerId bs := by
  intro h
  have h1 := h [("a".toList, Example.sample [1, 2] [3])] [("b".toList, Example.sample [4, 5] [6])] Example.order
    [["fc1".toList, "grad".toList]] opened 2 (served 2) Example.goodOrder (by refine ⟨by simp, by simp, ?_⟩; simp) rfl rfl
    opened_ok served_ok
  have h2 : ∃ x ∈ served 2, ∃ t, (Nested.node x.2).lookup ["fc2".toList, "grad".toList] = some t ∧
      t.shape.head? ≠ some x.1.length := by
    have : (served 2).any (fun x => match (Nested.node x.2).lookup ["fc2".toList, "grad".toList] with
      | some t => t.shape.head? != some x.1.length
      | none => false) = true := by decide +kernel
    obtain ⟨x, hx, hx'⟩ := List.any_eq_true.1 this
    refine ⟨x, hx, ?_⟩
    split at hx'
    · rename_i t ht; exact ⟨t, ht, by simpa using hx'⟩
    · cases hx'
  obtain ⟨x, hx, t, ht, hne⟩ := h2
  exact hne (h1 x hx _ t ht)

namespace ReadAllExample

/-- The loop over the directory ends and has both samples (C141_nested_partial). -/
example : ReadAll opened 2 (fun i id => ∃ d, opened.getItem i = .ok (id, d)) ((served 2).map Prod.fst) ∧
    opened.index.map Prod.fst = ["a".toList, "b".toList] :=
  ⟨C141_nested_partial _ _ _ served_ok, by decide +kernel⟩

/-- With `flatten=True` the samples have different sizes: the loop raises for batches of two and ends for batches of one. -/
example : (loadFlatBatches opened 2).toOption.isNone = true ∧ (loadFlatBatches opened 1).toOption.isSome = true := by
  decide +kernel

/-- A damaged directory: the second sample cannot be read, and the loop raises (C141_damaged_partial). -/
example : ∃ e', loadBatches damaged 2 = .error e' := by
  cases h : damaged.getItem 1 with
  | error e => exact C141_damaged_partial damaged 2 1 (by decide +kernel) e h
  | ok x =>
    have h2 : (damaged.getItem 1).toOption.isNone = true := by decide +kernel
    rw [h] at h2; cases h2

end ReadAllExample

end Logix
