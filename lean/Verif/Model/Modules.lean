/-
Models as PyTorch modules, LoRA wrappers and the selection of modules: logix/lora/*.py, logix/utils.py:124-156, logix/logix.py:101-148.
-/
import Verif.Model.Grad
import Verif.Model.Influence

namespace Logix
variable {K : Type}

/-- `torch.nn.Parameter`: its value and `requires_grad`. -/
structure Param (K : Type) where
  val : Tensor K
  reqGrad : Bool
  deriving DecidableEq

/-- What a module computes. `user`: its `forward` is code of the user's program (all containers; also `nn.Conv1d`). -/
inductive Layer where
  | linear (inF outF : Nat)
  | conv2d (inC outC : Nat) (g : ConvGeom) (groups : Nat)
  | loraLinear
  | loraConv2d
  | user
  deriving DecidableEq

/-- A `torch.nn.Module` object: the names of its classes (`type(m).__mro__`), its layer, the attributes `_modules` and `_parameters`
(references to objects; an object may be referred to from several places). Entries that are `None` are not modelled. -/
structure MObj where
  mro : List PyStr
  layer : Layer
  children : Dict PyStr Nat
  params : Dict PyStr Nat
  deriving DecidableEq

/-- All module and parameter objects of the program. -/
structure MHeap (K : Type) where
  mods : List MObj
  params : List (Param K)
  deriving DecidableEq

def nLinear : PyStr := ['L', 'i', 'n', 'e', 'a', 'r']
def nConv1d : PyStr := ['C', 'o', 'n', 'v', '1', 'd']
def nConv2d : PyStr := ['C', 'o', 'n', 'v', '2', 'd']
def nModule : PyStr := ['M', 'o', 'd', 'u', 'l', 'e']
def nLoraLinear : PyStr := ['L', 'o', 'r', 'a', 'L', 'i', 'n', 'e', 'a', 'r']
def nLoraConv2d : PyStr := ['L', 'o', 'r', 'a', 'C', 'o', 'n', 'v', '2', 'd']
def nA : PyStr := ['l', 'o', 'g', 'i', 'x', '_', 'l', 'o', 'r', 'a', '_', 'A']
def nB : PyStr := ['l', 'o', 'g', 'i', 'x', '_', 'l', 'o', 'r', 'a', '_', 'B']
def nC : PyStr := ['l', 'o', 'g', 'i', 'x', '_', 'l', 'o', 'r', 'a', '_', 'C']
def nLin : PyStr := ['_', 'l', 'i', 'n', 'e', 'a', 'r']
def nConv : PyStr := ['_', 'c', 'o', 'n', 'v']
def nWeight : PyStr := ['w', 'e', 'i', 'g', 'h', 't']
def nBias : PyStr := ['b', 'i', 'a', 's']
def nNoGroup : PyStr := ['l', 'o', 'g', 'i', 'x', '_', 'l', 'o', 'r', 'a', '_', 'n', 'o', 'n', 'e']

namespace MHeap

/-- `m._modules` -/
def kids (h : MHeap K) (id : Nat) : Dict PyStr Nat := (h.mods[id]?).elim [] MObj.children

/-- `setattr(parent, name, module)` for a module: an existing entry keeps its place (`torch.nn.Module.__setattr__`). -/
def setChild (h : MHeap K) (p : Nat) (k : PyStr) (c : Nat) : MHeap K :=
  { h with mods := h.mods.modify p fun m => { m with children := Dict.set m.children k c } }

def newMod (h : MHeap K) (m : MObj) : MHeap K × Nat := ({ h with mods := h.mods ++ [m] }, h.mods.length)

def newParam (h : MHeap K) (p : Param K) : MHeap K × Nat := ({ h with params := h.params ++ [p] }, h.params.length)

/-- In-place change of a parameter's value. -/
def mapParam (h : MHeap K) (i : Nat) (f : Tensor K → Tensor K) : MHeap K :=
  { h with params := h.params.modify i fun p => { p with val := f p.val } }

/-- A parameter of a module by name. -/
def paramId (h : MHeap K) (id : Nat) (k : PyStr) : Option Nat := (h.mods[id]?).bind fun m => Dict.get? m.params k

/-- The value of a parameter of a module. -/
def paramVal (h : MHeap K) (id : Nat) (k : PyStr) : Option (Tensor K) := ((h.paramId id k).bind fun i => h.params[i]?).map Param.val

end MHeap

/-- `prefix + ("." if prefix else "") + name` in `torch.nn.Module.named_modules`. -/
def childName (pre k : PyStr) : PyStr := if pre = [] then k else pre ++ '.' :: k

/-- `for name, module in model.named_modules(): body(name, module)`. `named_modules` is a generator that goes through the modules depth first and
omits modules it has yielded before (`memo`); the body runs between two steps of it and may change the modules. Iterating over a
dictionary whose size changed raises RuntimeError. The number bounds the depth (RecursionError is not modelled). -/
def walk {σ : Type} (kids : σ → Nat → Dict PyStr Nat) (body : PyStr → Nat → σ → Py σ) :
    Nat → PyStr → Nat → σ × List Nat → Py (σ × List Nat)
  | 0, _, _, _ => .error .runtimeError
  | n + 1, pre, id, (s, memo) =>
    if id ∈ memo then .ok (s, memo) else
    match body pre id s with
    | .error e => .error e
    | .ok s =>
      let ks := Dict.keys (kids s id)
      match ks.foldlM (m := Py) (fun (st : σ × List Nat) (k : PyStr) =>
        if (kids st.1 id).length ≠ ks.length then (.error .runtimeError : Py (σ × List Nat)) else
        match Dict.get? (kids st.1 id) k with
        | none => .error .runtimeError
        | some c => walk kids body n (childName pre k) c st) (s, id :: memo) with
      | .error e => .error e
      | .ok st => if (kids st.1 id).length ≠ ks.length then .error .runtimeError else .ok st

/-- `named_modules` when nothing changes meanwhile: the pairs yielded, and the modules visited. -/
def visits (kids : Nat → Dict PyStr Nat) : Nat → PyStr → Nat → List Nat → List (PyStr × Nat) × List Nat
  | 0, _, _, memo => ([], memo)
  | n + 1, pre, id, memo =>
    if id ∈ memo then ([], memo) else
    (kids id).foldl (fun acc e =>
      let r := visits kids n (childName pre e.1) e.2 acc.2
      (acc.1 ++ r.1, r.2)) ([(pre, id)], id :: memo)

/-- `list(model.named_modules())`. More levels than there are modules are never needed. -/
def MHeap.namedModules (h : MHeap K) (root : Nat) : List (PyStr × Nat) := (visits h.kids (h.mods.length + 1) [] root []).1

/-- `name.split(".")` -/
def splitDot : PyStr → List PyStr
  | [] => [[]]
  | c :: s => if c = '.' then [] :: splitDot s else
    match splitDot s with
    | [] => [[c]]
    | p :: ps => (c :: p) :: ps

/-- `torch.nn.Module.get_submodule` for the path split at the dots. -/
def MHeap.getPath (h : MHeap K) : Nat → List PyStr → Py Nat
  | id, [] => .ok id
  | id, k :: ks =>
    match Dict.get? (h.kids id) k with
    | none => .error .attributeError
    | some c => h.getPath c ks

/-- logix/lora/utils.py:49-58 `_get_submodules`: the parent and the last part of the name. (`get_submodule("")` is the module itself; the path of
a name without dots is therefore empty.) -/
def MHeap.parentOf (h : MHeap K) (root : Nat) (name : PyStr) : Py (Nat × PyStr) :=
  match h.getPath root (splitDot name).dropLast with
  | .error e => .error e
  | .ok p => .ok (p, (splitDot name).getLast?.getD [])

/-- logix/utils.py:124-156 `module_check`. An empty list of supported types or of filters counts as none. -/
def moduleCheck (m : MObj) (name : PyStr) (supported : List PyStr) (typeFilter nameFilter : Option (List PyStr)) (isLora : Bool) : Bool :=
  m.children.isEmpty &&
  (supported.isEmpty || supported.any fun c => c ∈ m.mro) &&
  ((typeFilter.getD []).isEmpty || (typeFilter.getD []).any fun c => c ∈ m.mro) &&
  ((nameFilter.getD []).isEmpty || (nameFilter.getD []).any fun k => isSub k name) &&
  (!isLora || isSub nB name)

/-- logix/logix.py:59 and logix/lora/lora.py:31 `_SUPPORTED_MODULES` -/
def supportedModules : List PyStr := [nLinear, nConv1d, nConv2d]

/-- logix/lora/utils.py:20-24 `is_lora` -/
def MHeap.isLora (h : MHeap K) (root : Nat) : Bool := (h.namedModules root).any fun e => isSub nB e.1

/-- logix/lora/utils.py:37-46 `find_parameter_sharing_group` -/
def findGroup (name : PyStr) : Option (List PyStr) → Py PyStr
  | none => .ok nNoGroup
  | some gs =>
    match gs.filter fun g => isSub g name with
    | [g] => .ok g
    | _ => .error .assertionError

/-- What PCA initialisation uses: `torch.linalg.svd` (`U`, `S`, `Vh`; not modelled in detail) and the covariance state. -/
structure Pca (K : Type) where
  svd : Tensor K → Py (Tensor K × Tensor K × Tensor K)
  cov : StateDict K

/-- What `add_lora` uses besides the model: the configuration, the values random initialisation gives to the parameter with number `i`
(`rand i`), and what PCA initialisation uses, if it is chosen. -/
structure LoraEnv (K : Type) where
  rank : Nat
  sharing : Bool
  groups : Option (List PyStr)
  rand : Nat → List Nat → K
  pca : Option (Pca K)

def nPca : PyStr := ['p', 'c', 'a']

/-- logix/lora/lora.py:33-39, 50-55: the handler's attributes and the choice of the initialisation; with an empty covariance state it is random. -/
def LoraEnv.ofState (rank : Nat) (sharing : Bool) (groups : Option (List PyStr)) (rand : Nat → List Nat → K) (init : PyStr)
    (svd : Tensor K → Py (Tensor K × Tensor K × Tensor K)) (s : LState K) : Py (LoraEnv K) :=
  match s.getAttr nCov with
  | .error e => .error e
  | .ok cov => .ok ⟨rank, sharing, groups, rand, if init = nPca ∧ ¬ cov.isEmpty then some ⟨svd, cov⟩ else none⟩

/-- logix/lora/utils.py:27-34 `compute_top_k_singular_vectors`, the vectors: `U[:, :k]`. -/
def Pca.topVectors [Zero K] (P : Pca K) (x : Tensor K) (k : Nat) : Py (Tensor K) :=
  match P.svd x with
  | .error e => .error e
  | .ok (u, _, _) =>
    match u.shape with
    | [m, n] => .ok (Tensor.ofFn2 u.dev m (min k n) fun i j => u.el [i, j])
    | _ => .error .indexError

/-- `t.T` of a matrix. -/
def Tensor.transpose2 [Zero K] (t : Tensor K) : Tensor K := Tensor.ofFn2 t.dev (t.size 1) (t.size 0) fun i j => t.el [j, i]

/-- `weight.data.copy_(t)` for a weight of shape `[a, b]`: a matrix of another size is expanded or rejected. The device is that of the weight. -/
def copyMatrix [Zero K] (dev : Dev) (a b : Nat) (t : Tensor K) : Py (Tensor K) :=
  match t.shape with
  | [m, n] =>
    if (m = a ∨ m = 1) ∧ (n = b ∨ n = 1) then .ok (Tensor.ofFn2 dev a b fun i j => t.el [if m = 1 then 0 else i, if n = 1 then 0 else j])
    else .error .runtimeError
  | _ => .error .runtimeError

/-- logix/lora/modules.py:54-70 and 106-133 `pca_init_weight`, up to the copying: the top singular vectors of the forward and of the backward covariance
of the module. A missing covariance is an empty dictionary, which `svd` rejects. -/
def Pca.vectors [Zero K] (P : Pca K) (name : PyStr) (r : Nat) : Py (Tensor K × Tensor K) :=
  match item2 P.cov name (LogType.name .forward) with
  | .error e => .error e
  | .ok (some (.tensor f)) =>
    match P.topVectors f r with
    | .error e => .error e
    | .ok uf =>
      match item2 P.cov name (LogType.name .backward) with
      | .error e => .error e
      | .ok (some (.tensor b)) =>
        match P.topVectors b r with
        | .error e => .error e
        | .ok ub => .ok (uf, ub)
      | .ok _ => .error .typeError
  | .ok _ => .error .typeError

/-- `nn.Linear(inF, outF, bias=False)` on the device, with the given weight. -/
def MHeap.newLinear (h : MHeap K) (dev : Dev) (inF outF : Nat) (w : List Nat → K) : MHeap K × Nat :=
  let (h, p) := h.newParam ⟨Tensor.ofFn dev [outF, inF] w, true⟩
  h.newMod ⟨[nLinear, nModule], .linear inF outF, [], [(nWeight, p)]⟩

/-- `nn.Conv2d(inC, outC, kernel, stride, padding, bias=False)`: dilation 1 and one group. -/
def MHeap.newConv2d (h : MHeap K) (dev : Dev) (inC outC : Nat) (kernel stride padding : Nat × Nat) (w : List Nat → K) : MHeap K × Nat :=
  let (h, p) := h.newParam ⟨Tensor.ofFn dev [outC, inC, kernel.1, kernel.2] w, true⟩
  h.newMod ⟨[nConv2d, nModule], .conv2d inC outC ⟨kernel, stride, padding, (1, 1)⟩ 1, [], [(nWeight, p)]⟩

/-- `nn.init.zeros_(module.weight)` -/
def MHeap.zeroWeight [Zero K] (h : MHeap K) (id : Nat) : MHeap K :=
  match h.paramId id nWeight with
  | none => h
  | some i => h.mapParam i fun t => Tensor.zeros t.dev t.shape

/-- `module.to(device)` for a leaf. -/
def MHeap.toDev (h : MHeap K) (id : Nat) (dev : Dev) : MHeap K :=
  ((h.mods[id]?).elim [] MObj.params).foldl (fun h e => h.mapParam e.2 fun t => t.onDev dev) h

/-- logix/lora/modules.py:69-70: the weights of encoder and decoder of a linear layer, if the initialisation is PCA. -/
def LoraEnv.pcaLinear [Zero K] (E : LoraEnv K) (dev : Dev) (name : PyStr) (r inF outF : Nat) : Py (Option (Tensor K × Tensor K)) :=
  match E.pca with
  | none => .ok none
  | some P =>
    match P.vectors name r with
    | .error e => .error e
    | .ok (uf, ub) =>
      match copyMatrix dev r inF uf.transpose2 with
      | .error e => .error e
      | .ok a =>
        match copyMatrix dev outF r ub with
        | .error e => .error e
        | .ok c => .ok (some (a, c))

/-- logix/lora/modules.py:126-133: likewise for a convolution. `view` is modelled as for contiguous tensors: `U` comes from LAPACK, in column-major order. -/
def LoraEnv.pcaConv2d [Zero K] (E : LoraEnv K) (dev : Dev) (name : PyStr) (r inC outC : Nat) (kernel : Nat × Nat) : Py (Option (Tensor K × Tensor K)) :=
  match E.pca with
  | none => .ok none
  | some P =>
    match P.vectors name r with
    | .error e => .error e
    | .ok (uf, ub) =>
      match uf.transpose2.reshape [r, inC, kernel.1, kernel.2] with
      | .error e => .error e
      | .ok a =>
        match ub.reshape [outC, r, 1, 1] with
        | .error e => .error e
        | .ok c => .ok (some (a.onDev dev, c.onDev dev))

/-- The entries of the encoder's weight: of the parameter with number `i`, unless the initialisation is PCA. -/
def LoraEnv.encoder [Zero K] (E : LoraEnv K) (i : Nat) (pca : Option (Tensor K × Tensor K)) : List Nat → K :=
  match pca with
  | none => E.rand i
  | some u => u.1.el

/-- The entries of the decoder's weight. -/
def LoraEnv.decoder [Zero K] (E : LoraEnv K) (i : Nat) (pca : Option (Tensor K × Tensor K)) : List Nat → K :=
  match pca with
  | none => E.rand i
  | some u => u.2.el

/-- logix/lora/modules.py:23-46 `LoraLinear.__init__`, with the PCA initialisation and `lora_module.to(device)` (logix/lora/lora.py:96-99). The
bottleneck is `shared` or a new layer. Returns the wrapper. The parameters are made on the device at once; the default initialisation of
the layers, overwritten before it can be seen, is left out. -/
def makeLoraLinear [Zero K] (E : LoraEnv K) (dev : Dev) (h : MHeap K) (name : PyStr) (id inF outF : Nat) (shared : Option Nat) :
    Py (MHeap K × Nat) :=
  let r := min E.rank (min inF outF)
  match E.pcaLinear dev name r inF outF with
  | .error e => .error e
  | .ok pca =>
    let (h, a) := h.newLinear dev inF r (E.encoder h.params.length pca)
    let (h, b) := match shared with
      | some b => (h, b)
      | none => h.newLinear dev r r (E.rand h.params.length)
    let (h, c) := h.newLinear dev r outF (E.decoder h.params.length pca)
    let h := ((h.zeroWeight b).toDev b dev).toDev id dev
    .ok (h.newMod ⟨[nLoraLinear, nModule], .loraLinear, [(nA, a), (nB, b), (nC, c), (nLin, id)], []⟩)

/-- logix/lora/modules.py:73-104 `LoraConv2d.__init__`, likewise. Dilation and groups of the convolution are not taken over. -/
def makeLoraConv2d [Zero K] (E : LoraEnv K) (dev : Dev) (h : MHeap K) (name : PyStr) (id inC outC : Nat) (g : ConvGeom) (shared : Option Nat) :
    Py (MHeap K × Nat) :=
  let r := min E.rank (min inC outC)
  match E.pcaConv2d dev name r inC outC g.kernel with
  | .error e => .error e
  | .ok pca =>
    let (h, a) := h.newConv2d dev inC r g.kernel g.stride g.padding (E.encoder h.params.length pca)
    let (h, b) := match shared with
      | some b => (h, b)
      | none => h.newConv2d dev r r (1, 1) (1, 1) (0, 0) (E.rand h.params.length)
    let (h, c) := h.newConv2d dev r outC (1, 1) (1, 1) (0, 0) (E.decoder h.params.length pca)
    let h := ((h.zeroWeight b).toDev b dev).toDev id dev
    .ok (h.newMod ⟨[nLoraConv2d, nModule], .loraConv2d, [(nA, a), (nB, b), (nC, c), (nConv, id)], []⟩)

/-- logix/lora/lora.py:95-99: the wrapper for the layer. Simplification: a class derived from `nn.Linear` or `nn.Conv2d` computes what the base class
computes. -/
def makeLora [Zero K] (E : LoraEnv K) (dev : Dev) (h : MHeap K) (name : PyStr) (id : Nat) (layer : Layer) (shared : Option Nat) : Py (MHeap K × Nat) :=
  match layer with
  | .linear inF outF => makeLoraLinear E dev h name id inF outF shared
  | .conv2d inC outC g _ => makeLoraConv2d E dev h name id inC outC g shared
  | _ => .error .attributeError

/-- The state of the loop in `add_lora`: the modules, and `shared_modules`. -/
structure LoraSt (K : Type) where
  heap : MHeap K
  shared : Dict PyStr Nat

/-- logix/lora/lora.py:84-95: a bottleneck for the sharing group, unless there is one. It is made for the type of the first module of the group
and with the configured rank. -/
def shareFor (E : LoraEnv K) (dev : Dev) (m : MObj) (psg : PyStr) (s : LoraSt K) : LoraSt K :=
  if E.sharing ∧ Dict.get? s.shared psg = none then
    let (h, b) := if nLinear ∈ m.mro then s.heap.newLinear dev E.rank E.rank (E.rand s.heap.params.length)
      else s.heap.newConv2d dev E.rank E.rank (1, 1) (1, 1) (0, 0) (E.rand s.heap.params.length)
    ⟨h, Dict.set s.shared psg b⟩
  else s

/-- logix/lora/lora.py:59-102: the body of the loop of `add_lora`. -/
def loraStep [Zero K] (E : LoraEnv K) (dev : Dev) (root : Nat) (typeFilter nameFilter : Option (List PyStr)) (name : PyStr) (id : Nat)
    (s : LoraSt K) : Py (LoraSt K) :=
  match s.heap.mods[id]? with
  | none => .error .runtimeError
  | some m =>
    if moduleCheck m name supportedModules typeFilter nameFilter false then
      if nLinear ∉ m.mro ∧ nConv1d ∈ m.mro then .error .notImplementedError else
      match findGroup name E.groups with
      | .error e => .error e
      | .ok psg =>
        let s := shareFor E dev m psg s
        let shared := Dict.get? s.shared psg
        match makeLora E dev s.heap name id m.layer shared with
        | .error e => .error e
        | .ok (h, w) =>
          match h.parentOf root name with
          | .error e => .error e
          | .ok (p, k) => .ok ⟨h.setChild p k w, s.shared⟩
    else .ok s

/-- `next(model.parameters()).device`: of the first parameter in the order of `named_modules`. -/
def MHeap.firstDev (h : MHeap K) (root : Nat) : Py Dev :=
  match ((h.namedModules root).flatMap fun e => (h.mods[e.2]?).elim [] fun m => m.params.filterMap fun p => h.params[p.2]?).head? with
  | none => .error .stopIteration
  | some p => .ok p.val.dev

/-- logix/lora/lora.py:41-102 `LoRAHandler.add_lora`. The state of the model after an exception is not modelled. -/
def addLora [Zero K] (E : LoraEnv K) (h : MHeap K) (root : Nat) (typeFilter nameFilter : Option (List PyStr)) : Py (MHeap K) :=
  match h.firstDev root with
  | .error e => .error e
  | .ok dev =>
    match walk (fun s : LoraSt K => s.heap.kids) (loraStep E dev root typeFilter nameFilter) (h.mods.length + 1) [] root (⟨h, []⟩, []) with
    | .error e => .error e
    | .ok (s, _) => .ok s.heap

/-! ### Watching -/

/-- What `LogIX.watch` keeps: the filters, `logger.modules_to_hook`, `logger.modules_to_name`, and the names and sizes of `model_module` in the
state (the log type of the paths is always "grad"). -/
structure WatchSt where
  typeFilter : Option (List PyStr)
  nameFilter : Option (List PyStr)
  hooked : List Nat
  names : Dict Nat PyStr
  path : List PyStr
  dims : List Nat
  deriving DecidableEq

/-- `LogIX(...)`: logix/logix.py:97-99, logix/logging/logger.py:52-53. -/
def WatchSt.fresh : WatchSt := ⟨none, none, [], [], [], []⟩

/-- `LogIX.clear`, logix/logix.py:558-563: the filters stay, and so does `model_module` (logix/state.py:42-44, `not_clear=True`). -/
def WatchSt.clear (w : WatchSt) : WatchSt := { w with hooked := [], names := [] }

/-- `filter or self.filter`: `None` and the empty list count as false. -/
def orFilter (new old : Option (List PyStr)) : Option (List PyStr) :=
  match new with
  | none => old
  | some [] => old
  | some l => some l

/-- `for p in module.parameters(): p.requires_grad = False`, for a leaf module. -/
def MHeap.freeze (h : MHeap K) (m : MObj) : MHeap K :=
  m.params.foldl (fun h e => { h with params := h.params.modify e.2 fun p => { p with reqGrad := false } }) h

/-- logix/logix.py:130-144: the body of the loop of `watch`. -/
def watchStep (tf nf : Option (List PyStr)) (lora : Bool) (s : MHeap K × WatchSt) (e : PyStr × Nat) : MHeap K × WatchSt :=
  match s.1.mods[e.2]? with
  | none => s
  | some m =>
    if moduleCheck m e.1 supportedModules tf nf lora then
      (s.1, { s.2 with hooked := s.2.hooked ++ [e.2], names := Dict.set s.2.names e.2 e.1 })
    else if m.children.isEmpty then (s.1.freeze m, s.2)
    else s

/-- logix/logix.py:101-148 `LogIX.watch` and logix/utils.py:106-113 `get_repr_dim`, with what is left if it raises. `model` is the unwrapped model
(one process). A module without `weight` raises AttributeError; `reduce` of no sizes raises TypeError. -/
def watch (h : MHeap K) (root : Nat) (typeFilter nameFilter : Option (List PyStr)) (w : WatchSt) : (MHeap K × WatchSt) × Option PyErr :=
  let tf := orFilter typeFilter w.typeFilter
  let nf := orFilter nameFilter w.nameFilter
  let s := (h.namedModules root).foldl (watchStep tf nf (h.isLora root)) (h, { w with typeFilter := tf, nameFilter := nf })
  match s.2.names.mapM fun e => s.1.paramVal e.1 nWeight with
  | none => (s, some .attributeError)
  | some ts =>
    if ts.isEmpty then (s, some .typeError)
    else ((s.1, { s.2 with path := s.2.names.map Prod.snd, dims := ts.map fun t => numel t.shape }), none)

/-! ### What modules compute -/

/-- `F.linear(x, w, b)` -/
def linearForward [Semiring K] (w : Tensor K) (b : Option (Tensor K)) (x : Tensor K) : Py (Tensor K) :=
  match w.shape, x.shape.getLast? with
  | [outF, inF], some d =>
    if d = inF ∧ x.dev = w.dev ∧ (∀ b', b = some b' → b'.dev = x.dev) then
      .ok (Tensor.ofFn x.dev (x.shape.dropLast ++ [outF]) fun idx =>
        (∑ j ∈ Finset.range inF, x.el (idx.dropLast ++ [j]) * w.el [idx.getLast?.getD 0, j]) +
          b.elim 0 fun b => b.el [idx.getLast?.getD 0])
    else .error .runtimeError
  | _, _ => .error .runtimeError

/-- `F.conv2d(x, w, b, stride, padding, dilation, groups)` with zero padding. -/
def conv2dForward [Semiring K] (g : ConvGeom) (groups : Nat) (w : Tensor K) (b : Option (Tensor K)) (x : Tensor K) : Py (Tensor K) :=
  match w.shape, x.shape with
  | [O, Cg, k0, k1], [n, C, h, w'] =>
    let spanH := g.dilation.1 * (g.kernel.1 - 1) + 1
    let spanW := g.dilation.2 * (g.kernel.2 - 1) + 1
    if (k0, k1) = g.kernel ∧ C = Cg * groups ∧ O % groups = 0 ∧ x.dev = w.dev ∧ (∀ b', b = some b' → b'.dev = x.dev) ∧
        spanH ≤ h + 2 * g.padding.1 ∧ spanW ≤ w' + 2 * g.padding.2 ∧ 0 < k0 ∧ 0 < k1 ∧ 0 < g.stride.1 ∧ 0 < g.stride.2 then
      let oh := (h + 2 * g.padding.1 - spanH) / g.stride.1 + 1
      let ow := (w' + 2 * g.padding.2 - spanW) / g.stride.2 + 1
      let t := x.pad2d g.padding
      .ok (Tensor.ofFn4 x.dev n O oh ow fun n o y z =>
        (∑ c ∈ Finset.range Cg, ∑ i ∈ Finset.range k0, ∑ j ∈ Finset.range k1, w.el [o, c, i, j] *
          t.el [n, o / (O / groups) * Cg + c, y * g.stride.1 + i * g.dilation.1, z * g.stride.2 + j * g.dilation.2]) +
          b.elim 0 fun b => b.el [o])
    else .error .runtimeError
  | _, _ => .error .runtimeError

/-- The `forward` code of the user's modules: for every module a function of its input that may call the module's submodules by name. -/
abbrev Code (K : Type) := Nat → (PyStr → Tensor K → Py (Tensor K)) → Tensor K → Py (Tensor K)

/-- Calling a module; the number bounds the depth of calls. logix/lora/modules.py:48-52, 99-103 for the wrappers. -/
def MHeap.callN [Semiring K] (h : MHeap K) (code : Code K) : Nat → Nat → Tensor K → Py (Tensor K)
  | 0, _, _ => .error .runtimeError
  | n + 1, id, x =>
    match h.mods[id]? with
    | none => .error .runtimeError
    | some m =>
      let call := fun k y =>
        match Dict.get? m.children k with
        | none => .error .attributeError
        | some c => h.callN code n c y
      let lora := fun orig =>
        match call orig x with
        | .error e => .error e
        | .ok result =>
          match call nA x with
          | .error e => .error e
          | .ok y =>
            match call nB y with
            | .error e => .error e
            | .ok y =>
              match call nC y with
              | .error e => .error e
              | .ok y => result.add_ y
      match m.layer with
      | .linear _ _ =>
        match h.paramVal id nWeight with
        | none => .error .attributeError
        | some w => linearForward w (h.paramVal id nBias) x
      | .conv2d _ _ g groups =>
        match h.paramVal id nWeight with
        | none => .error .attributeError
        | some w => conv2dForward g groups w (h.paramVal id nBias) x
      | .loraLinear => lora nLin
      | .loraConv2d => lora nConv
      | .user => code id call x

/-- `model(x)`. No call chain of an acyclic model is longer than the number of modules. -/
def MHeap.call [Semiring K] (h : MHeap K) (code : Code K) (id : Nat) (x : Tensor K) : Py (Tensor K) := h.callN code (h.mods.length + 1) id x

end Logix
