/-
The ids of token sequences in the Hugging Face integration: logix/huggingface/patch.py:192-199.
-/
import Verif.Model.BatchIds

namespace Logix

/-- The eight bytes of an `int64`, little-endian, for a number that is not negative (token ids). -/
def int64Bytes (t : Nat) : List UInt8 := (List.range 8).map fun k => UInt8.ofNat (t / 256 ^ k)

/-- A batch of token ids: rows of the same length. -/
structure TokBatch where
  len : Nat
  rows : List (List Nat)
  wf : ∀ r ∈ rows, r.length = len

theorem flat_length (len : Nat) : ∀ rows : List (List Nat), (∀ r ∈ rows, r.length = len) → (rows.flatMap fun r => r.flatMap int64Bytes).length = rows.length * len * 8
  | [], _ => by simp
  | r :: rows, h => by
    have h8 : (r.flatMap int64Bytes).length = r.length * 8 := by
      clear h
      induction r with
      | nil => rfl
      | cons t r ih => rw [List.flatMap_cons, List.length_append, ih]; simp only [int64Bytes, List.length_map, List.length_range, List.length_cons]; omega
    rw [List.flatMap_cons, List.length_append, flat_length len rows fun r hr => h r (by simp [hr]), h8, h r (by simp), List.length_cons, Nat.succ_mul, Nat.add_mul,
      Nat.add_comm]

/-- The batch as an `int64` tensor. -/
def TokBatch.arr (b : TokBatch) : Arr where
  dtype := .int64
  shape := [b.rows.length, b.len]
  bytes := b.rows.flatMap fun r => r.flatMap int64Bytes
  wf := by rw [flat_length b.len b.rows b.wf]; simp [numel, DType.itemsize]

/-- logix/huggingface/patch.py:192-199 `get_data_id`. `decode` is what the tokenizer returns for one row, with `skip_special_tokens=True` (`none`: no
tokenizer); `g` is the generator of line 63, `logic` is `logix_args.data_id`. For other values of `logic` the method returns None. Decoding `None` raises
TypeError. -/
def getDataId (H : List UInt8 → PyStr) (g : IdGen) (decode : Option (List Nat → PyStr)) (logic inputKey : PyStr) (inputs : List (PyStr × TokBatch)) :
    IdGen × Py (Option (List PyStr)) :=
  if logic = "detokenize".toList then
    match decode with
    | none => (g, .error .assertionError)
    | some dec =>
      match Dict.get? inputs inputKey with
      | none => (g, .error .typeError)
      | some b => (g, .ok (some (b.rows.map dec)))
  else if logic = "hash".toList then
    ((hfIds H g inputKey (inputs.map fun p => (p.1, p.2.arr))).1, (hfIds H g inputKey (inputs.map fun p => (p.1, p.2.arr))).2.map some)
  else (g, .ok none)

end Logix
