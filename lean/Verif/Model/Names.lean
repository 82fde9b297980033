/-
Names of the chunk files: how the saver builds them and how the loader parses them.
Python strings are lists of characters here.
-/
import Verif.Py.Basic

namespace Logix

abbrev PyStr := List Char

/-- `f"{n}"` for a non-negative int. -/
def decimal (n : Nat) : PyStr := Nat.toDigits 10 n

/-- logix/logging/log_saver.py:28  `self.file_prefix = f"log_rank_{get_rank()}_chunk_"`. -/
def filePrefix (rank : Nat) : PyStr :=
  ['l', 'o', 'g', '_', 'r', 'a', 'n', 'k', '_'] ++ decimal rank ++ ['_', 'c', 'h', 'u', 'n', 'k', '_']

/-- logix/logging/log_saver.py:62 and :92  `self.file_prefix + f"{flush_count}.mmap"`. -/
def chunkFile (rank flushCount : Nat) : PyStr :=
  filePrefix rank ++ decimal flushCount ++ ['.', 'm', 'm', 'a', 'p']

/-- `os.path.splitext(filename)`: split at the last dot.
Simplification: Python ignores leading dots of the base name (`".mmap"` has no extension);
no chunk name starts with a dot, so leading dots are not treated specially. -/
def splitExt (s : PyStr) : PyStr × PyStr :=
  match s.reverse.takeWhile (· ≠ '.'), s.reverse.dropWhile (· ≠ '.') with
  | _, [] => (s, [])
  | ext, d :: root => (root.reverse, d :: ext.reverse)

/-- logix/logging/mmap.py:42-47: the pair (data file, metadata file) that
`MemoryMapHandler.write(save_path, filename, ...)` writes (the directory is left out). -/
def writeNames (filename : PyStr) : PyStr × PyStr :=
  let (root, ext) := splitExt filename
  ((if ext = [] then filename ++ ['.', 'm', 'm', 'a', 'p'] else filename), root ++ ['_', 'm', 'e', 't', 'a', 'd', 'a', 't', 'a', '.', 'j', 's', 'o', 'n'])

/-- `s.endswith(t)` -/
def endsWith (s t : PyStr) : Bool := t.reverse.isPrefixOf s.reverse

/-- `s.startswith(t)` -/
def startsWith (s t : PyStr) : Bool := t.isPrefixOf s

/-- `s.rstrip(chars)`: remove trailing characters that belong to the *set* `chars`. -/
def rstrip (s chars : PyStr) : PyStr := (s.reverse.dropWhile (chars.contains ·)).reverse

/-- `s.lstrip(chars)` -/
def lstrip (s chars : PyStr) : PyStr := s.dropWhile (chars.contains ·)

/-- `s.strip(chars)`: remove leading and trailing characters that belong to the set. -/
def strip (s chars : PyStr) : PyStr := rstrip (lstrip s chars) chars

/-- Match `\d+` greedily: the digits read and the rest; `none` if there is no digit.
(`\d` is taken as the ASCII digits.) -/
def matchDigits (s : PyStr) : Option (PyStr × PyStr) :=
  match s.takeWhile Char.isDigit, s.dropWhile Char.isDigit with
  | [], _ => none
  | ds, rest => some (ds, rest)

/-- Match a literal prefix. -/
def matchLit (lit s : PyStr) : Option PyStr :=
  if lit.isPrefixOf s then some (s.drop lit.length) else none

/-- The pattern `rank_(\d+)_chunk_(\d+)` of log_loader_utils.py:39 at one position. Greedy matching
of `\d+` never has to backtrack because `_` is not a digit. -/
def matchRankChunkHere (s : PyStr) : Option (Nat × Nat) := do
  let s ← matchLit ['r', 'a', 'n', 'k', '_'] s
  let (r, s) ← matchDigits s
  let s ← matchLit ['_', 'c', 'h', 'u', 'n', 'k', '_'] s
  let (c, _) ← matchDigits s
  return (Nat.ofDigitChars 10 r 0, Nat.ofDigitChars 10 c 0)

/-- `re.search`: the leftmost position where the pattern matches. -/
def searchRankChunk (s : PyStr) : Option (Nat × Nat) :=
  match s with
  | [] => matchRankChunkHere []
  | c :: rest => (matchRankChunkHere (c :: rest)).or (searchRankChunk rest)

/-- logix/logging/log_loader_utils.py:29-40 `extract_rank_and_chunk`.
`match.group` on `None` raises AttributeError. -/
def extractRankAndChunk (s : PyStr) : Py (Nat × Nat) :=
  match searchRankChunk s with
  | some rc => .ok rc
  | none => .error .attributeError

/-- Tuple comparison `a <= b` of two pairs of ints, as Python's `sorted` uses. -/
def pairLe (a b : Nat × Nat) : Bool := decide (a.1 < b.1 ∨ (a.1 = b.1 ∧ a.2 ≤ b.2))

/-- Insert before the first element that is not smaller. -/
def insertBy (le : α → α → Bool) (a : α) : List α → List α
  | [] => [a]
  | b :: rest => if le a b then a :: b :: rest else b :: insertBy le a rest

/-- Python's `sorted`: a stable sort (here by insertion; the result of a stable sort by a total preorder is unique). -/
def pySorted (le : α → α → Bool) (l : List α) : List α := l.foldr (insertBy le) []

/-- Decorate every key with its sort key; any key without a match raises. -/
def decorate : List PyStr → Py (List ((Nat × Nat) × PyStr))
  | [] => .ok []
  | s :: rest => do
    let rc ← extractRankAndChunk s
    let tl ← decorate rest
    return ((rc, s) :: tl)

/-- logix/logging/log_loader_utils.py:43-59 `find_chunk_indices`; `listing` is `os.listdir(path)` in
whatever order the OS returns it. `sorted(..., key=...)` is a stable sort by the key. -/
def findChunkIndices (listing : List PyStr) : Py (List PyStr) := do
  let cands := (listing.filter fun f => endsWith f ['.', 'm', 'm', 'a', 'p'] && startsWith f ['l', 'o', 'g', '_']).map
    fun f => strip (rstrip f ['.', 'm', 'm', 'a', 'p']) ['l', 'o', 'g', '_']
  let dec ← decorate cands
  return (pySorted (fun a b => pairLe a.1 b.1) dec).map Prod.snd

/-- logix/logging/log_loader.py:45-46: the data file opened for a chunk key. -/
def loaderDataFile (chunkIndex : PyStr) : PyStr := ['l', 'o', 'g', '_'] ++ chunkIndex ++ ['.', 'm', 'm', 'a', 'p']

/-- logix/logging/log_loader.py:45,53: the metadata file opened for a chunk key. -/
def loaderMetaFile (chunkIndex : PyStr) : PyStr :=
  ['l', 'o', 'g', '_'] ++ chunkIndex ++ ['_', 'm', 'e', 't', 'a', 'd', 'a', 't', 'a', '.', 'j', 's', 'o', 'n']

end Logix
