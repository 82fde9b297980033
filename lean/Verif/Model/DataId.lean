/-
Data ids: `DataIDGenerator` of logix/utils.py.
-/
import Verif.Model.Nested

namespace Logix

/-- One element of a batch: something `to_numpy` (logix/utils.py:67-79) accepts, or not. -/
inductive Sample where
  | arr (a : Arr)
  | unsupported
  deriving DecidableEq

/-- Attributes of `DataIDGenerator`; `count` is only set in mode "index". -/
structure IdGen where
  mode : PyStr
  count : Option Nat
  deriving DecidableEq

/-- logix/utils.py:228-231 `__init__` -/
def IdGen.init (mode : PyStr) : IdGen := ⟨mode, if mode = ['i', 'n', 'd', 'e', 'x'] then some 0 else none⟩

/-- logix/utils.py:241-250 `generate_hash_id`. `H` is `hashlib.sha256(_).hexdigest()`. The read-only flag set on the array is not
modelled. -/
def hashIds (H : List UInt8 → PyStr) : List Sample → Py (List PyStr)
  | [] => .ok []
  | .unsupported :: _ => .error .valueError
  | .arr a :: rest =>
    match hashIds H rest with
    | .error e => .error e
    | .ok ids => .ok (H a.bytes :: ids)

/-- logix/utils.py:233-239 `__call__` and 252-259 `generate_index_id`. `np.arange` counts without overflow. Reading `count` when it was
never set raises AttributeError. -/
def IdGen.call (H : List UInt8 → PyStr) (g : IdGen) (data : List Sample) : IdGen × Py (List PyStr) :=
  if g.mode = ['h', 'a', 's', 'h'] then (g, hashIds H data)
  else if g.mode = ['i', 'n', 'd', 'e', 'x'] then
    match g.count with
    | none => (g, .error .attributeError)
    | some c => ({ g with count := some (c + data.length) }, .ok ((List.range' c data.length).map decimal))
  else (g, .error .valueError)

/-- A sequence of calls: the result of each. -/
def IdGen.calls (H : List UInt8 → PyStr) : IdGen → List (List Sample) → List (Py (List PyStr))
  | _, [] => []
  | g, b :: bs => (g.call H b).2 :: IdGen.calls H (g.call H b).1 bs

end Logix
