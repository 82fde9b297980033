/-
Vocabulary for the ids of token sequences.
-/
import Verif.Model.TokenIds

namespace Logix.Spec

/-- A sequence filled up with the padding token to the given length, on the left or on the right. -/
def padTo (left : Bool) (p n : Nat) (x : List Nat) : List Nat :=
  if left then List.replicate (n - x.length) p ++ x else x ++ List.replicate (n - x.length) p

/-- The length of the longest sequence. -/
def longest (xs : List (List Nat)) : Nat := (xs.map List.length).foldr max 0

/-- The batch that a padding collator makes of some sequences: all filled up to the same length, at least that of the longest. -/
def IsPadded (left : Bool) (p : Nat) (xs : List (List Nat)) (b : TokBatch) : Prop := longest xs ≤ b.len ∧ b.rows = xs.map (padTo left p b.len)

/-- A tokenizer that skips special tokens: what it returns depends on the other tokens only. -/
def SkipsSpecial (special : Nat → Bool) (decode : List Nat → PyStr) : Prop := ∀ x, decode x = decode (x.filter fun t => !special t)

/-- The ids that one batch gets. -/
def idsOf (H : List UInt8 → PyStr) (decode : Option (List Nat → PyStr)) (logic key : PyStr) (b : TokBatch) : Py (Option (List PyStr)) :=
  (getDataId H (IdGen.init "hash".toList) decode logic key [(key, b)]).2

/-- Two sequences in two batches get the same id exactly if they are the same sequence. -/
def Identify (ids ids' : List PyStr) (xs ys : List (List Nat)) : Prop :=
  ids.length = xs.length ∧ ids'.length = ys.length ∧ ∀ (i j : Nat) a b x y, ids[i]? = some a → ids'[j]? = some b → xs[i]? = some x → ys[j]? = some y → (a = b ↔ x = y)

end Logix.Spec
