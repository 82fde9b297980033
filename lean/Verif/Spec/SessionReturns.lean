/-
Specification: programs that log batches of tensors that fit together, read off the program that the user wrote.
-/
import Verif.Spec.SessionInfluence
import Verif.Spec.SessionSaves

namespace Logix.Spec
variable {K : Type} [Field K]

/-- What the modules are like, by name: the device they are on, and the numbers of rows and columns of their per-sample gradients (output features and input
features; for a convolution output channels and the size of an input patch). -/
structure Layout where
  dev : PyStr → Dev
  rows : PyStr → Nat
  cols : PyStr → Nat

/-- A tensor for `n` samples that a module of this kind can be called with: for a linear layer the last dimension is its number of input features and
there are some positions; for a convolution there are images that its kernel fits into. -/
def IsInput (lay : Layout) (nm : PyStr) (n : Nat) (x : Tensor K) : ModKind → Prop
  | .linear => x.dev = lay.dev nm ∧ ∃ mid, 0 ∉ mid ∧ x.shape = n :: (mid ++ [lay.cols nm])
  | .conv2d g _ => x.dev = lay.dev nm ∧ 0 < g.dilation.1 ∧ 0 < g.dilation.2 ∧ ∃ c h w, x.shape = [n, c, h, w] ∧ Fits g h w ∧
      c * g.kernel.1 * g.kernel.2 = lay.cols nm
  | _ => False

/-- `g` has the shape of the output of the module for the input `x` of `n` samples. -/
def IsOutGrad (lay : Layout) (nm : PyStr) (n : Nat) (x g : Tensor K) : ModKind → Prop
  | .linear => g.dev = lay.dev nm ∧ ∃ mid, x.shape = n :: (mid ++ [lay.cols nm]) ∧ g.shape = n :: (mid ++ [lay.rows nm])
  | .conv2d geo O => g.dev = lay.dev nm ∧ O = lay.rows nm ∧ ∃ c h w, x.shape = [n, c, h, w] ∧
      g.shape = [n, O, outSize geo.kernel.1 geo.stride.1 geo.padding.1 geo.dilation.1 h, outSize geo.kernel.2 geo.stride.2 geo.padding.2 geo.dilation.2 w]
  | _ => False

/-- The mask of the batch, if there is one, has an entry for every position of the input. -/
def MaskFits (mask : Option (Tensor K)) (x : Tensor K) : Prop := ∀ mk, mask = some mk → mk.shape = x.shape.dropLast ∧ mk.dev = x.dev

/-- One operation of a program that fits together, where `tensors` are the tensors made so far, `f` and `b` what the reader keeps in mind about saving and
about the modules. A module is called with an input and an output that requires gradients. The gradients that arrive at outputs have the shapes of the
outputs, with one row for each id of the batch; so have the gradients of the backward pass, with any number of rows. When a batch is saved, gradients
are logged and some gradient has arrived for every module. The configuration is not changed, no custom activations are logged and the statistics are
left alone. -/
def OpFits (E : SEnv K) (opt : LogOption) (keys : List PyStr) (mods : PyStr → Nat) (lay : Layout) (tensors : List (TObj K)) (f : Saving) (b : Nat → Book K) :
    SOp K → Prop
  | .forward m x y => x < tensors.length ∧ y < tensors.length ∧ ∀ nm ∈ keys, mods nm = m →
      (∃ n a, tensors[x]? = some a ∧ 0 < n ∧ IsInput lay nm n a.val (E.kind m) ∧ MaskFits (b m).mask a.val) ∧ ∃ o, tensors[y]? = some o ∧ o.reqGrad = true
  | .gradAt y g => ∀ nm ∈ keys, ∀ c ∈ (b (mods nm)).fresh, c.2 = y → ∃ x o, tensors[c.1]? = some x ∧ tensors[g]? = some o ∧ f.ids ≠ [] ∧
      IsOutGrad lay nm f.ids.length x.val o.val (E.kind (mods nm))
  | .backward y g => ∀ nm ∈ keys, ∀ c ∈ (b (mods nm)).uses, c.2 = y → ∃ n x o, tensors[c.1]? = some x ∧ tensors[g]? = some o ∧ 0 < n ∧
      IsOutGrad lay nm n x.val o.val (E.kind (mods nm))
  | .exit => f.ends (K := K) .exit = true → opt.grad ≠ [] ∧ ∀ nm ∈ keys, (b (mods nm)).arrived ≠ []
  | .end save => f.ends (K := K) (.end save) = true → opt.grad ≠ [] ∧ ∀ nm ∈ keys, (b (mods nm)).arrived ≠ []
  | .watchActivation _ => False
  | .setup _ => False
  | .watch _ => False
  | .analysis _ => False
  | .finalize _ => False
  | .clear => False
  | _ => True

/-- A program that fits together. -/
def ProgramFits (E : SEnv K) (opt : LogOption) (keys : List PyStr) (mods : PyStr → Nat) (lay : Layout) :
    List (TObj K) → Saving → (Nat → Book K) → List (SOp K) → Prop
  | _, _, _, [] => True
  | tensors, f, b, o :: rest => OpFits E opt keys mods lay tensors f b o ∧
      ProgramFits E opt keys mods lay (tensors ++ allocs [o]) (f.step o) (fun m => (b m).step m o) rest

/-- A configured run: nothing but logs, means and covariances is configured, for gradients the log first, for inputs and output gradients no log; the
modules `mods nm` are watched under the names `keys`, each once and no others, and their gradients are not empty. -/
structure Configured (s : Sess K) (keys : List PyStr) (mods : PyStr → Nat) (lay : Layout) : Prop where
  stats : OnlyStatistics s.opt
  plain : PlainStats s.opt
  grad : s.opt.grad = [] ∨ s.opt.grad.head? = some .log
  nonempty : keys ≠ []
  nodup : keys.Nodup
  watches : ∀ nm ∈ keys, Watches s (mods nm) nm
  all : ∀ m ∈ s.modules, ∃ nm ∈ keys, m = mods nm
  paths : s.paths = gradOrder keys
  pos : ∀ nm ∈ keys, 0 < lay.rows nm ∧ 0 < lay.cols nm

end Logix.Spec
