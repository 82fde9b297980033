/-
Specification for C155: which files of a log directory are data files, and which names tell a rank and a chunk number.
-/
import Verif.Model.Names

namespace Logix

/-- A name of the form `log_….mmap`. -/
def IsDataName (f : PyStr) : Prop := (∃ a, f = a ++ ".mmap".toList) ∧ ∃ b, f = "log_".toList ++ b

/-- The name contains `rank_<digits>_chunk_<digits>`. -/
def NamesChunk (f : PyStr) : Prop :=
  ∃ a r k b : PyStr, f = a ++ "rank_".toList ++ r ++ "_chunk_".toList ++ k ++ b ∧ r ≠ [] ∧ k ≠ [] ∧
    (∀ c ∈ r, c.isDigit = true) ∧ ∀ c ∈ k, c.isDigit = true

end Logix
