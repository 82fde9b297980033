/-
Specification vocabulary for the setting `log_dtype`.
-/
import Verif.Model.LogDtype
import Verif.Model.Session

namespace Logix.Spec
variable {K : Type}

/-- The names of element types in PyTorch (attributes of the module `torch`) and the types they stand for. -/
def torchNames : List (String × TorchDType) :=
  [("float64", .np .float64), ("double", .np .float64), ("float32", .np .float32), ("float", .np .float32), ("float16", .np .float16),
   ("half", .np .float16), ("bfloat16", .bfloat16), ("int8", .np .int8), ("uint8", .np .uint8), ("int16", .np .int16), ("short", .np .int16),
   ("int32", .np .int32), ("int", .np .int32), ("int64", .np .int64), ("long", .np .int64), ("bool", .np .bool)]

/-- The tensors that an event of the model is about. -/
def tensorsOf : SOp K → List Nat
  | .forward _ x y => [x, y]
  | .gradAt y g => [y, g]
  | .backward y g => [y, g]
  | .watchActivation d => d.map Prod.snd
  | _ => []

/-- The events of the program are about tensors that exist at that time; `n` exist at its start. -/
def OnlyExisting : Nat → List (SOp K) → Prop
  | _, [] => True
  | n, .alloc _ :: rest => OnlyExisting (n + 1) rest
  | n, o :: rest => (∀ i ∈ tensorsOf o, i < n) ∧ OnlyExisting n rest

/-- Every tensor of the batch log has the element type `d`. -/
def LogHas (d : DType) (s : Sess K) : Prop :=
  ∀ m tys t r, Dict.get? s.log m = some tys → Dict.get? tys t = some r → ∃ o, s.obj r = some o ∧ o.dtype = d

/-- Every tensor of the copy that `get_log(copy=True)` returns has the element type `d`. -/
def CopyHas (d : DType) (s : Sess K) : Prop :=
  ∀ ids log, s.getLogCopy.2 = .ok (ids, log) → LogHas d { s.getLogCopy.1 with log := log }

/-- Every array that waits in the save buffer has the element type `d`. -/
def BufferHas [Zero K] (E : SEnv K) (d : DType) (s : Sess K) : Prop :=
  ∀ i mods m v t a, Dict.get? (s.readBuffer E) i = some mods → Dict.get? mods m = some (.node v) → Dict.get? v t = some (.leaf a) → a.dtype = d

/-- Sessions with the setting `name` log and save in the element type `t`: `name` is one of the names `known`, `E` is the environment of a session
whose logger got `name` from the configuration, and the program may do anything with tensors that exist. -/
def LogsIn (K : Type) [Field K] (known : List String) : Prop :=
  ∀ (name : String) (d : DType), name ∈ known → (name, .np d) ∈ torchNames →
    ∀ E : SEnv K, getDtype (.str name.toList) = E.dtype.map .np →
      ∀ (workers : Nat) (threshold : Int) (fs : FS) (ops : List (SOp K)), OnlyExisting 0 ops →
        let s := runHistory E ops (Sess.init workers threshold fs)
        LogHas d s ∧ CopyHas d s ∧ BufferHas E d s

end Logix.Spec
