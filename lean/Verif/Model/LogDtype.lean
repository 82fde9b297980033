/-
The setting `log_dtype`.
-/
import Verif.Model.Config
import Verif.Model.Nested

namespace Logix

/-- The element types of PyTorch that the setting can select: those that NumPy has too, and `torch.bfloat16`. -/
inductive TorchDType where
  | np (d : DType)
  | bfloat16
  deriving DecidableEq

/-- logix/config.py:70-81 `LoggingConfig.get_dtype` for the value of the field `log_dtype`, which the logger asks once
(logix/logging/logger.py:46). Any value that is none of the names gives float32. -/
def getDtype : Yaml → Option TorchDType
  | .str n =>
    if n = "none".toList then none
    else if n = "float64".toList then some (.np .float64)
    else if n = "float16".toList then some (.np .float16)
    else if n = "bfloat16".toList then some .bfloat16
    else if n = "int8".toList then some (.np .int8)
    else some (.np .float32)
  | _ => some (.np .float32)

end Logix
