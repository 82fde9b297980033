/-
Specification for saving and restoring LoRA weights.
-/
import Verif.Model.LoraIO
import Verif.Spec.Modules

namespace Logix
variable {K : Type}

/-- The shapes of all parameters. -/
def MHeap.shapes (h : MHeap K) : List (List Nat) := h.params.map fun p => p.val.shape

/-- Two models that are built alike: the same modules and parameters of the same shapes. Values and devices may differ. -/
def SameModel (h h' : MHeap K) : Prop := h.mods = h'.mods ∧ h.shapes = h'.shapes

/-- What PyTorch guarantees of the names of parameters (`register_parameter`). -/
def WFParams (h : MHeap K) : Prop :=
  ∀ (p : Nat) (m : MObj), h.mods[p]? = some m → (m.params.map Prod.fst).Nodup ∧ ∀ k i, (k, i) ∈ m.params → '.' ∉ k

/-- `root.k₁. … .kₙ.a`, written `name`, is a parameter with this shape and these entries. -/
def ParamIs (h : MHeap K) (root : Nat) (name : PyStr) (shape : List Nat) (data : List K) : Prop :=
  ∃ ks id m a i p, Reach h root ks id ∧ h.mods[id]? = some m ∧ (a, i) ∈ m.params ∧ name = dotted (ks ++ [a]) ∧ h.params[i]? = some p ∧
    p.val.shape = shape ∧ p.val.data = data

/-- The two models have the same LoRA parameters with the same values. -/
def SameLora (h h' : MHeap K) (root : Nat) : Prop :=
  ∀ name, ['l', 'o', 'g', 'i', 'x', '_', 'l', 'o', 'r', 'a'] <:+: name → ∀ shape data, ParamIs h root name shape data ↔ ParamIs h' root name shape data

/-- The configuration `add_lora` goes by: that of the first call if there was one, else the one given, else that of the configuration file. -/
def ConfigUsed (s : LRun K) (a : LRun.Args) : LoraCfg :=
  match s.handler, a.loraConfig with
  | some c, _ => c
  | none, some c => c
  | none, none => s.cfg

/-- Two calls of `add_lora` go by the same rank, sharing and groups, and select the same modules. The initialisation may differ. -/
structure SameSetup (s₁ s₂ : LRun K) (a₁ a₂ : LRun.Args) : Prop where
  rank : (ConfigUsed s₁ a₁).rank = (ConfigUsed s₂ a₂).rank
  sharing : (ConfigUsed s₁ a₁).sharing = (ConfigUsed s₂ a₂).sharing
  groups : (ConfigUsed s₁ a₁).groups = (ConfigUsed s₂ a₂).groups
  types : InEffect a₁.typeFilter s₁.watched.typeFilter = InEffect a₂.typeFilter s₂.watched.typeFilter
  names : InEffect a₁.nameFilter s₁.watched.nameFilter = InEffect a₂.nameFilter s₂.watched.nameFilter

/-- A model that is well formed and whose root is a container. -/
structure GoodModel (h : MHeap K) (root : Nat) : Prop where
  model : WFModel h
  params : WFParams h
  container : ¬ IsLeaf h root
  inside : root < h.mods.length

/-- The weight of the module `id` has this shape. -/
def WeightShape (h : MHeap K) (id : Nat) (shape : List Nat) : Prop := ∃ t, h.paramVal id nWeight = some t ∧ t.shape = shape

/-- The wrapper `w` of a layer has an encoder and a decoder of the given rank, or of the layer's own size if that is smaller. -/
def HasRank (h : MHeap K) (w rank : Nat) : Layer → Prop
  | .linear i o => (∃ a, Entry h w nA a ∧ WeightShape h a [min rank (min i o), i]) ∧ ∃ c, Entry h w nC c ∧ WeightShape h c [o, min rank (min i o)]
  | .conv2d i o g _ => (∃ a, Entry h w nA a ∧ WeightShape h a [min rank (min i o), i, g.kernel.1, g.kernel.2]) ∧
      ∃ c, Entry h w nC c ∧ WeightShape h c [o, min rank (min i o), 1, 1]
  | _ => False

/-- The module `id` with name `n` is selected by a call of `add_lora`, and after it there is the module `w` in its place. -/
def LoraPlace (s s' : LRun K) (a : LRun.Args) (root : Nat) (n : PyStr) (id w : Nat) : Prop :=
  (n, id) ∈ s.heap.namedModules root ∧
    Selected s.heap (InEffect a.typeFilter s.watched.typeFilter) (InEffect a.nameFilter s.watched.nameFilter) n id ∧
    Becomes s.heap s'.heap root n id w

/-- What a LoRA configuration says about the layers that a call of `add_lora` makes: their ranks, and which of them have the same bottleneck. -/
structure FollowsConfig (s s' : LRun K) (a : LRun.Args) (root : Nat) (c : LoraCfg) : Prop where
  rank : ∀ n id w, LoraPlace s s' a root n id w → ∃ m, s.heap.mods[id]? = some m ∧ HasRank s'.heap w c.rank m.layer
  share : c.sharing = true → ∀ n id w b n' id' w' b', LoraPlace s s' a root n id w → LoraPlace s s' a root n' id' w' →
    Entry s'.heap w nB b → Entry s'.heap w' nB b' → (b = b' ↔ SameGroup c.groups n n')
  own : c.sharing = false → ∀ n id w b n' id' w' b', LoraPlace s s' a root n id w → LoraPlace s s' a root n' id' w' →
    Entry s'.heap w nB b → Entry s'.heap w' nB b' → id ≠ id' → b ≠ b'

/-- The same session and disk, but for what `lora/lora_state_dict.pt` in the log directory contains. -/
def LRun.withFile (s : LRun K) (sd : Dict PyStr (Tensor K)) : LRun K :=
  { s with dirs := fun d => if d = s.logDir then { s.dirs d with lora := some sd } else s.dirs d }

end Logix
