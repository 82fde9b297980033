/-
Merging accumulated logs: logix/utils.py `merge_log_dict`, `merge_logs`, and the Hugging Face callback that uses them.
-/
import Verif.Model.Saver

namespace Logix

/-- `torch.cat([a, b], dim=0)`. Zero-dimensional tensors and tensors that differ beyond the first dimension raise RuntimeError.
Simplifications: different element types raise too (PyTorch promotes them), and the special treatment of one-dimensional empty tensors
is left out. -/
def catArrs (a b : Arr) : Py Arr :=
  match ha : a.shape, hb : b.shape with
  | n :: s, m :: s' =>
    if h : s = s' ∧ a.dtype = b.dtype then
      .ok ⟨a.dtype, (n + m) :: s, a.bytes ++ b.bytes, by
        have hf : ∀ (l : List Nat) (x : Nat), l.foldl (· * ·) x = x * l.foldl (· * ·) 1 := by
          intro l
          induction l with
          | nil => simp
          | cons y ys ih => intro x; simp only [List.foldl_cons]; rw [ih (x * y), ih (1 * y)]; simp [Nat.mul_assoc]
        have hn : ∀ (b : Nat) (s : List Nat), numel (b :: s) = b * numel s := by
          intro b s; simp only [numel, List.foldl_cons]; rw [hf]; simp
        rw [List.length_append, a.wf, b.wf, ha, hb, hn, hn, hn, ← h.1, ← h.2, ← Nat.add_mul, ← Nat.add_mul]⟩
    else .error .runtimeError
  | _, _ => .error .runtimeError

mutual
/-- logix/utils.py:167-174: one iteration of the loop. `merged_log_dict` is a nested defaultdict: a missing key starts as an empty
dictionary. Merging a non-empty dictionary into a tensor and a tensor into a dictionary raise. -/
def mergeLogValue (merged : List (PyStr × Nested Arr)) (key : PyStr) : Nested Arr → Py (List (PyStr × Nested Arr))
  | .leaf a =>
    match Dict.get? merged key with
    | none => .ok (Dict.set merged key (.leaf a))
    | some (.node _) => .error .typeError
    | some (.leaf t) =>
      match catArrs t a with
      | .error e => .error e
      | .ok c => .ok (Dict.set merged key (.leaf c))
  | .node m =>
    match Dict.get? merged key with
    | none =>
      match mergeLogDict [] m with
      | .error e => .error e
      | .ok sub => .ok (Dict.set merged key (.node sub))
    | some (.leaf _) => if m.isEmpty then .ok merged else .error .runtimeError
    | some (.node sub) =>
      match mergeLogDict sub m with
      | .error e => .error e
      | .ok sub' => .ok (Dict.set merged key (.node sub'))
/-- logix/utils.py:166-174 `merge_log_dict` -/
def mergeLogDict (merged : List (PyStr × Nested Arr)) : List (PyStr × Nested Arr) → Py (List (PyStr × Nested Arr))
  | [] => .ok merged
  | (k, v) :: rest =>
    match mergeLogValue merged k v with
    | .error e => .error e
    | .ok merged' => mergeLogDict merged' rest
end

/-- logix/utils.py:181-183: the loop of `merge_logs`. -/
def mergeLogsFrom (ids : List PyStr) (merged : List (PyStr × Nested Arr)) :
    List (List PyStr × List (PyStr × Nested Arr)) → Py (List PyStr × List (PyStr × Nested Arr))
  | [] => .ok (ids, merged)
  | (dataId, log) :: rest =>
    match mergeLogDict merged log with
    | .error e => .error e
    | .ok merged' => mergeLogsFrom (ids ++ dataId) merged' rest

/-- logix/utils.py:177-184 `merge_logs` -/
def mergeLogs (logs : List (List PyStr × List (PyStr × Nested Arr))) : Py (List PyStr × List (PyStr × Nested Arr)) :=
  mergeLogsFrom [] [] logs

end Logix
