/-
Specification for models, their submodules and the selection of modules.
-/
import Verif.Model.Modules

namespace Logix
variable {K : Type}

/-- Module `p` has the submodule `c` as attribute `k`. -/
def Entry (h : MHeap K) (p : Nat) (k : PyStr) (c : Nat) : Prop := ∃ m, h.mods[p]? = some m ∧ (k, c) ∈ m.children

/-- `root.k₁.k₂. … .kₙ` is the module `id`. -/
inductive Reach (h : MHeap K) (root : Nat) : List PyStr → Nat → Prop
  | nil : Reach h root [] root
  | snoc {ks p k c} : Reach h root ks p → Entry h p k c → Reach h root (ks ++ [k]) c

/-- The attribute names joined by dots. -/
def dotted : List PyStr → PyStr
  | [] => []
  | [k] => k
  | k :: k' :: ks => k ++ '.' :: dotted (k' :: ks)

/-- What PyTorch guarantees of modules, for models without cycles: attribute names are distinct, not empty and without dots; all references are to
objects that exist; going to a submodule some number decreases. -/
structure WFModel (h : MHeap K) : Prop where
  keys : ∀ (p : Nat) (m : MObj), h.mods[p]? = some m → (m.children.map Prod.fst).Nodup
  names : ∀ p k c, Entry h p k c → k ≠ [] ∧ '.' ∉ k
  inside : ∀ p k c, Entry h p k c → c < h.mods.length
  acyclic : ∃ d : Nat → Nat, ∀ p k c, Entry h p k c → d c < d p
  params : ∀ (p : Nat) (m : MObj) k i, h.mods[p]? = some m → (k, i) ∈ m.params → i < h.params.length

/-- A filter that is given (not `None` or empty) holds. -/
def Passes (f : Option (List PyStr)) (test : PyStr → Prop) : Prop := ∀ l, f = some l → l ≠ [] → ∃ x ∈ l, test x

/-- A leaf of a supported type that passes the filters for types and names. -/
def Selected (h : MHeap K) (typeFilter nameFilter : Option (List PyStr)) (name : PyStr) (id : Nat) : Prop :=
  ∃ m, h.mods[id]? = some m ∧ m.children = [] ∧ (nLinear ∈ m.mro ∨ nConv1d ∈ m.mro ∨ nConv2d ∈ m.mro) ∧
    Passes typeFilter (· ∈ m.mro) ∧ Passes nameFilter (· <:+: name)

/-- A module without submodules. -/
def IsLeaf (h : MHeap K) (id : Nat) : Prop := ∃ m, h.mods[id]? = some m ∧ m.children = []

/-- The model contains LoRA bottlenecks, by the names `named_modules` gives. -/
def HasLora (h : MHeap K) (root : Nat) : Prop := ∃ e ∈ h.namedModules root, nB <:+: e.1

/-- The filter in effect: the new one, or the old one if the new one is not given or empty. -/
def InEffect (new old : Option (List PyStr)) : Option (List PyStr) := if new = none ∨ new = some [] then old else new

/-- The module is to be tracked: selected by the filters and, in a model with LoRA bottlenecks, one of those. -/
def ToTrack (h : MHeap K) (root : Nat) (typeFilter nameFilter : Option (List PyStr)) (name : PyStr) (id : Nat) : Prop :=
  (name, id) ∈ h.namedModules root ∧ Selected h typeFilter nameFilter name id ∧ (HasLora h root → nB <:+: name)

/-- The parameter with number `i` belongs to module `id` itself (not to a submodule). -/
def OwnsParam (h : MHeap K) (id i : Nat) : Prop := ∃ m k, h.mods[id]? = some m ∧ (k, i) ∈ m.params

/-- Parameter `i` requires a gradient. -/
def RequiresGrad (h : MHeap K) (i : Nat) : Prop := ∃ p, h.params[i]? = some p ∧ p.reqGrad = true

/-- `w` is a LoRA wrapper of the module `orig`: it has an encoder, a bottleneck, a decoder and the module itself. -/
def IsWrapper (h : MHeap K) (w orig : Nat) : Prop :=
  ∃ a b c, h.mods[w]? = some ⟨[nLoraLinear, nModule], .loraLinear, [(nA, a), (nB, b), (nC, c), (nLin, orig)], []⟩ ∨
    h.mods[w]? = some ⟨[nLoraConv2d, nModule], .loraConv2d, [(nA, a), (nB, b), (nC, c), (nConv, orig)], []⟩

/-- No module of the model has two names. -/
def Unshared (h : MHeap K) (root : Nat) : Prop := ∀ ks ks' id, Reach h root ks id → Reach h root ks' id → ks = ks'

/-- Module `p` and attribute `k` through which the model `h` has the module `c` under the name `name` lead in `h'` to `w`. -/
def Becomes (h h' : MHeap K) (root : Nat) (name : PyStr) (c w : Nat) : Prop :=
  ∃ ks p k, Reach h root ks p ∧ Entry h p k c ∧ name = dotted (ks ++ [k]) ∧ Entry h' p k w

/-- The two names belong to the same sharing group; without a list of groups there is only one. -/
def SameGroup (groups : Option (List PyStr)) (n n' : PyStr) : Prop := ∀ gs, groups = some gs → ∃ g ∈ gs, g <:+: n ∧ g <:+: n'

/-- The layer is what its class says, and its weight has the sizes of the layer: `nn.Linear` and `nn.Conv2d` as PyTorch makes them. -/
def LayerFits (h : MHeap K) (id : Nat) : Prop :=
  ∃ m t, h.mods[id]? = some m ∧ h.paramVal id nWeight = some t ∧
    ((nLinear ∈ m.mro ∧ ∃ i o, m.layer = .linear i o ∧ t.shape = [o, i]) ∨
      (nLinear ∉ m.mro ∧ ∃ i o g groups j, m.layer = .conv2d i o g groups ∧ t.shape = [o, j, g.kernel.1, g.kernel.2] ∧ j * groups = i))

/-- If the module is a convolution, its dilation has no effect. -/
def NotDilated (h : MHeap K) (id : Nat) : Prop :=
  ∀ m i o g groups, h.mods[id]? = some m → m.layer = .conv2d i o g groups →
    (g.dilation.1 = 1 ∨ g.kernel.1 = 1) ∧ (g.dilation.2 = 1 ∨ g.kernel.2 = 1)

/-- The layer has at least `rank` inputs and outputs. -/
def RankFits (h : MHeap K) (rank id : Nat) : Prop :=
  ∀ m i o, h.mods[id]? = some m → (m.layer = .linear i o ∨ ∃ g groups, m.layer = .conv2d i o g groups) → rank ≤ i ∧ rank ≤ o

/-- Both modules are linear layers or neither is. -/
def SameKind (h : MHeap K) (id id' : Nat) : Prop :=
  ∀ m m', h.mods[id]? = some m → h.mods[id']? = some m' → (nLinear ∈ m.mro ↔ nLinear ∈ m'.mro)

/-- All parameters are on one device. -/
def OneDevice (h : MHeap K) : Prop := ∃ dev, ∀ p ∈ h.params, p.val.dev = dev

end Logix
