/-
Specification of compression by LoRA with PCA initialisation.
-/
import Verif.Spec.Pca
import Verif.Spec.Modules
import Verif.Spec.Influence

namespace Logix
namespace Spec
variable {K : Type} [Field K] [LinearOrder K]

/-- Statistics were collected by `calls` and finalized, and then `add_lora` with PCA initialisation replaced the module `name` of the model `h`, a layer `l`, by the
wrapper `w` in `h'`. What was logged for the module are the inputs and output gradients of that layer, without masks. -/
structure PcaRun (calls : List (Plugin × StatCall K)) (rank : Nat) (h h' : MHeap K) (name : PyStr) (l : Layer) (w : Nat) : Prop where
  ex : ∃ (L : Lib K) (s s' : LState K) (dir dir' : StateDir K) (sharing : Bool) (groups : Option (List PyStr)) (rand : Nat → List Nat → K)
    (svd : Tensor K → Py (Tensor K × Tensor K × Tensor K)) (E : LoraEnv K) (root : Nat) (tf nf : Option (List PyStr)) (c : Nat) (m : MObj),
    updates L .init calls = .ok s ∧ s.finalize dir = .ok (s', dir') ∧ SvdOk svd ∧ LoraEnv.ofState rank sharing groups rand nPca svd s' = .ok E ∧
    WFModel h ∧ ¬ IsLeaf h root ∧ root < h.mods.length ∧ addLora E h root tf nf = .ok h' ∧
    (name, c) ∈ h.namedModules root ∧ Selected h tf nf name c ∧ Becomes h h' root name c w ∧ h.mods[c]? = some m ∧ m.layer = l
  kernel : HasKernel l
  fpos : 0 < samples (callsOf .covariance name .forward calls)
  bpos : 0 < samples (callsOf .covariance name .backward calls)
  fwd : ∀ x ∈ callsOf .covariance name .forward calls, callWidth x = fanIn l ∧ x.mask = none
  bwd : ∀ x ∈ callsOf .covariance name .backward calls, callWidth x = fanOut l ∧ x.mask = none

/-- `A` and `D` are the weights of the encoder and the decoder of wrapper `w`. -/
def Weights (h : MHeap K) (w : Nat) (A D : Tensor K) : Prop :=
  ∃ a d, Entry h w nA a ∧ Entry h w nC d ∧ h.paramVal a nWeight = some A ∧ h.paramVal d nWeight = some D

/-- The data that was logged for the module has at most as many dimensions as the wrapper has, for the inputs and for the gradients of the outputs. -/
def LowRank (calls : List (Plugin × StatCall K)) (rank : Nat) (name : PyStr) (l : Layer) : Prop :=
  RankAtMost (fanIn l) (loraRank rank l) (allRows (callsOf .covariance name .forward calls)) ∧
    RankAtMost (fanOut l) (loraRank rank l) (allRows (callsOf .covariance name .backward calls))

/-- `x` and `g` are among the inputs and output gradients that were logged for the module. -/
def LoggedPair (calls : List (Plugin × StatCall K)) (name : PyStr) (kind : ModKind) (x g : Tensor K) : Prop :=
  (∃ c ∈ callsOf .covariance name .forward calls, c.data = x ∧ c.module = some kind) ∧
    ∃ c ∈ callsOf .covariance name .backward calls, c.data = g ∧ c.module = some kind

/-- The per-sample gradients `G` of a linear layer for inputs `x` and output gradients `g`, and the per-sample gradients `GB` that are logged for the bottleneck of its
wrapper with encoder `A` and decoder `D`. -/
def LinearGrads (A D x g G GB : Tensor K) (N J O : Nat) : Prop :=
  (∃ mid, x.shape = N :: (mid ++ [J]) ∧ g.shape = N :: (mid ++ [O])) ∧ A.dev = x.dev ∧ D.dev = x.dev ∧ g.dev = x.dev ∧
    computePerSampleGradient x g .linear = .ok G ∧
    ∃ u gB, linearForward A none x = .ok u ∧ IsBackward (linearForward D none) u.shape u.dev g gB ∧ computePerSampleGradient u gB .linear = .ok GB

/-- The same for a convolution without dilation and groups; its per-sample gradients are matrices with one row for each output channel. -/
def ConvGrads (A D x g G GB : Tensor K) (N C O R : Nat) (geo : ConvGeom) : Prop :=
  (∃ h v, Fits geo h v ∧ x.shape = [N, C, h, v] ∧ g.shape = [N, O, outSize geo.kernel.1 geo.stride.1 geo.padding.1 1 h, outSize geo.kernel.2 geo.stride.2 geo.padding.2 1 v]) ∧
    geo.dilation = (1, 1) ∧ A.dev = x.dev ∧ D.dev = x.dev ∧ g.dev = x.dev ∧ computePerSampleGradient x g (.conv2d geo O) = .ok G ∧
    ∃ u gB, conv2dForward geo 1 A none x = .ok u ∧ IsBackward (conv2dForward ⟨(1, 1), (1, 1), (0, 0), (1, 1)⟩ 1 D none) u.shape u.dev g gB ∧
      computePerSampleGradient u gB (.conv2d ⟨(1, 1), (1, 1), (0, 0), (1, 1)⟩ R) = .ok GB

/-- How the logger knows a layer. -/
def kindOf : Layer → ModKind
  | .conv2d _ o geo _ => .conv2d geo o
  | .linear _ _ => .linear
  | _ => .other

/-- The per-sample gradients of a layer and those of the bottleneck of its wrapper, for linear layers and convolutions. -/
def LayerGrads (rank : Nat) (l : Layer) (A D x g G GB : Tensor K) (N : Nat) : Prop :=
  match l with
  | .linear J O => LinearGrads A D x g G GB N J O
  | .conv2d C O geo _ => ConvGrads A D x g G GB N C O (loraRank rank l) geo
  | _ => False

/-- In the log `d` the gradient of sample `i` for module `m` is that of one sample of a batch, and `dB` has for `mB` the compressed gradient of the same sample. -/
def Recorded (rank : Nat) (l : Layer) (A D : Tensor K) (batch : Tensor K → Tensor K → Prop) (d dB : GLog K) (m mB : PyStr) (i : Nat) : Prop :=
  ∃ (t tB x g G GB : Tensor K) (N n : Nat), grad d m = some t ∧ grad dB mB = some tB ∧ t.shape.tail = [fanOut l, fanIn l] ∧
    tB.shape.tail = [loraRank rank l, loraRank rank l] ∧ batch x g ∧ LayerGrads rank l A D x g G GB N ∧ n < N ∧
    (∀ o j, t.el [i, o, j] = G.el [n, o, j]) ∧ ∀ o j, tB.el [i, o, j] = GB.el [n, o, j]

/-- The inner product of sample `n` of `G` and sample `n'` of `G'`, matrices with `a` rows and `b` columns. -/
def sampleDot (a b : Nat) (G : Tensor K) (n : Nat) (G' : Tensor K) (n' : Nat) : K :=
  ∑ i ∈ Finset.range a, ∑ j ∈ Finset.range b, G.el [n, i, j] * G'.el [n', i, j]

end Spec
end Logix
