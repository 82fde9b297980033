/-
Specification: a sample in two different batches, of two different runs.
-/
import Verif.Spec.Batching
import Verif.Spec.SessionSaves
import Verif.Spec.Codec

namespace Logix.Spec
variable {K : Type}

/-- Input and output gradient of a layer belong to the same batch: their shapes are those of a linear layer, or of a convolution that the image fits, and they are on the same device. -/
def LayerFits : ModKind → Tensor K → Tensor K → Prop
  | .linear, x, g => ∃ n mid i j, x.shape = n :: (mid ++ [j]) ∧ g.shape = n :: (mid ++ [i]) ∧ g.dev = x.dev
  | .conv2d geo o, x, g => ∃ n c h w, Fits geo h w ∧ 0 < n ∧ 0 < o ∧ x.shape = [n, c, h, w] ∧
      g.shape = [n, o, outSize geo.kernel.1 geo.stride.1 geo.padding.1 geo.dilation.1 h, outSize geo.kernel.2 geo.stride.2 geo.padding.2 geo.dilation.2 w] ∧
      g.dev = x.dev
  | _, _, _ => False

variable [Field K]

/-- Two uses of a layer whose batches have the same sample at positions `i` and `i'`. -/
def SameSampleUse (kind : ModKind) (tensors : List (TObj K)) (i : Nat) (tensors' : List (TObj K)) (i' : Nat) (u u' : Nat × Nat) : Prop :=
  ∃ x g x' g', tensors[u.1]? = some x ∧ tensors[u.2]? = some g ∧ tensors'[u'.1]? = some x' ∧ tensors'[u'.2]? = some g' ∧
    LayerFits kind x.val g.val ∧ LayerFits kind x'.val g'.val ∧ i < x.val.size 0 ∧ i' < x'.val.size 0 ∧
    oneSample x.val i = oneSample x'.val i' ∧ oneSample g.val i = oneSample g'.val i'

/-- A run that logs gradients into its log directory: the environment and how numbers are read back, the configuration and the program, and the end of the run with the
order in which the directory is listed. -/
structure LoggingRun (K : Type) where
  env : SEnv K
  dec : DType → List UInt8 → K
  dtype : DType
  setup : List (SOp K)
  workers : Nat
  threshold : Int
  files : FS
  ctx : List (SOp K)
  ids : List PyStr
  mask : Option (Tensor K)
  body : List (SOp K)
  mods : PyStr → Nat
  dir : StateDir K
  final : Sess K
  listing : List PyStr

namespace LoggingRun

/-- The run when it is configured. -/
def before (r : LoggingRun K) : Sess K := runHistory r.env r.setup (Sess.init r.workers r.threshold r.files)

/-- The batches that the program saves. -/
def saved (r : LoggingRun K) : List (List PyStr × (Nat → List (Nat × Nat))) := savedBatches (Saving.after (r.setup ++ r.ctx)) (fun _ => ⟨r.mask, [], [], []⟩) r.body

/-- The run logs gradients of the modules of these names, of these shapes, and ends without an exception; the conditions are those of C111. -/
structure Completes (r : LoggingRun K) (keys : List PyStr) (shape : PyStr → List Nat) : Prop where
  configures : ∀ o ∈ r.setup, Configures o
  context : Context r.ctx r.ids r.mask
  logs : ∀ o ∈ r.body, ∀ nm ∈ keys, Logs nm o
  dtype : r.env.dtype = some r.dtype ∨ (r.env.dtype = none ∧ ∀ o ∈ allocs (r.setup ++ r.body), o.dtype = r.dtype)
  stats : OnlyStatistics r.before.opt
  grad : r.before.opt.grad.head? = some .log
  watches : ∀ nm ∈ keys, Watches r.before (r.mods nm) nm
  nodup : keys.Nodup
  paths : r.before.paths = gradOrder keys
  dims : ∀ nm ∈ keys, shape nm ≠ []
  some : ∃ nm ∈ keys, numel (shape nm) ≠ 0
  tidy : Tidy false (r.ctx ++ r.body)
  storable : ∀ u ∈ r.saved, ∀ nm ∈ keys, Storable ⟨r.env.encode, r.dec⟩ r.dtype (allocs r.body) (r.env.kind (r.mods nm)) (u.2 (r.mods nm)) u.1.length (shape nm)
  ids : (r.saved.flatMap (·.1)).Nodup
  files : (Dict.keys r.files).Nodup
  clean : NoLogs r.files
  workers : r.workers ≤ 1
  runs : SAct.each (SOp.run r.env) (r.ctx ++ r.body.map (shift r.before.user.length) ++ [.finalize r.dir]) r.before = (r.final, none)
  listing : r.listing.Perm (Dict.keys r.final.fs)

end LoggingRun
end Logix.Spec
