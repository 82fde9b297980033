/-
C117: the trainers only look at the model.
-/
import Verif.Spec.Trainers

namespace Logix
open Spec
variable {K X O σ : Type}

theorem hfBatch_keeps (P : Pass K X O) (hP : EvalPure P) (clip : Dict PyStr (Tensor K) → Dict PyStr (Tensor K)) {t : Train K σ O} (ht : t.opt = dummyOptimizer)
    (b : Bool × X) :
    (t.hfBatch P clip b).opt = dummyOptimizer ∧ (t.hfBatch P clip b).net.params = t.net.params ∧ (t.hfBatch P clip b).net.buffers = t.net.buffers ∧
      (t.hfBatch P clip b).seen = t.seen ++ [P.seen false t.net.params t.net.buffers b.2] ∧ (t.hfBatch P clip b).net.training = false := by
  unfold Train.hfBatch
  cases b.1
  · exact ⟨ht, rfl, hP _ _ _, rfl, rfl⟩
  · refine ⟨ht, ?_, hP _ _ _, rfl, rfl⟩
    simp only [if_true, Train.optStep, Train.pass, Pass.run, ht, dummyOptimizer]

/-- **C117 for the Hugging Face trainer**: whatever the model, the optimizer it was given, clipping, accumulation and number of epochs, the patched trainer leaves
parameters and buffers as they were, and LogIX sees every batch through the unchanged model in evaluation mode. (The model stays in evaluation mode.) -/
theorem C117_hugging_face_partial (P : Pass K X O) (hP : EvalPure P) (clip : Dict PyStr (Tensor K) → Dict PyStr (Tensor K)) (n : Net K) (opt : Optim K σ) (st : σ)
    (data : List (Bool × X)) :
    OnlyLooks P n ((⟨n, opt, st, []⟩ : Train K σ O).hfTrain P clip data).net (data.map Prod.snd) ((⟨n, opt, st, []⟩ : Train K σ O).hfTrain P clip data).seen ∧
      (data ≠ [] → ((⟨n, opt, st, []⟩ : Train K σ O).hfTrain P clip data).net.training = false) := by
  have main : ∀ (data : List (Bool × X)) (t : Train K σ O), t.opt = dummyOptimizer → (data.foldl (Train.hfBatch P clip) t).net.params = t.net.params ∧
      (data.foldl (Train.hfBatch P clip) t).net.buffers = t.net.buffers ∧
      (data.foldl (Train.hfBatch P clip) t).seen = t.seen ++ (data.map Prod.snd).map (P.seen false t.net.params t.net.buffers) ∧
      (data ≠ [] ∨ t.net.training = false → (data.foldl (Train.hfBatch P clip) t).net.training = false) := by
    intro data
    induction data with
    | nil => intro t _; exact ⟨rfl, rfl, by simp, fun h => h.resolve_left fun h => h rfl⟩
    | cons b data ih =>
      intro t ht
      obtain ⟨h1, h2, h3, h4, h5⟩ := hfBatch_keeps P hP clip ht b
      obtain ⟨g1, g2, g3, g4⟩ := ih _ h1
      refine ⟨g1.trans h2, g2.trans h3, ?_, fun _ => g4 (.inr h5)⟩
      rw [List.foldl_cons, g3, h4, h2, h3, List.append_assoc]
      rfl
  obtain ⟨h1, h2, h3, h4⟩ := main data { net := n, opt := dummyOptimizer, st := st, seen := [] } rfl
  exact ⟨⟨h1, h2, by simpa [Train.hfTrain] using h3⟩, fun h => h4 (.inl h)⟩

theorem lightBatch_keeps (P : Pass K X O) {names : List PyStr} {clip : Dict PyStr (Tensor K) → Dict PyStr (Tensor K)} (hc : ClipOk clip) {t : Train K σ O}
    (ht : OptimOk names t.opt) (b : Bool × X) :
    (t.lightBatch P clip b).opt = t.opt ∧ (t.lightBatch P clip b).net.params = t.net.params ∧
      (t.lightBatch P clip b).net.buffers = P.buf t.net.training t.net.params t.net.buffers b.2 ∧
      (t.lightBatch P clip b).seen = t.seen ++ [P.seen t.net.training t.net.params t.net.buffers b.2] ∧ (t.lightBatch P clip b).net.training = t.net.training := by
  unfold Train.lightBatch
  cases b.1
  · exact ⟨rfl, rfl, rfl, rfl, rfl⟩
  · exact ⟨rfl, ht.skips _ _ _ fun k hk => hc _ _ (ht.clears _ k hk), rfl, rfl, rfl⟩

/-- **C117 for Lightning, parameters** (partial: the property is false, see `C117_refuted`): the parameters stay as they were, for every optimizer that leaves parameters
without gradients alone, whatever its state, and every accumulation and clipping. -/
theorem C117_lightning_params_partial (P : Pass K X O) {names : List PyStr} {clip : Dict PyStr (Tensor K) → Dict PyStr (Tensor K)} (hc : ClipOk clip) (n : Net K)
    {opt : Optim K σ} (ho : OptimOk names opt) (st : σ) (data : List (Bool × X)) : ((⟨n, opt, st, []⟩ : Train K σ O).fit P clip data).net.params = n.params := by
  have main : ∀ (data : List (Bool × X)) (t : Train K σ O), OptimOk names t.opt → (data.foldl (Train.lightBatch P clip) t).net.params = t.net.params := by
    intro data
    induction data with
    | nil => intro t _; rfl
    | cons b data ih =>
      intro t ht
      obtain ⟨h1, h2, -⟩ := lightBatch_keeps P hc ht b
      exact (ih _ (h1.symm ▸ ht)).trans h2
  exact main data ⟨{ n with training := true }, opt, st, []⟩ ho

/-- **C117 for Lightning** (partial): for models that are the same in training and in evaluation mode. -/
theorem C117_lightning_partial (P : Pass K X O) (hP : ModeFree P) {names : List PyStr} {clip : Dict PyStr (Tensor K) → Dict PyStr (Tensor K)} (hc : ClipOk clip) (n : Net K)
    {opt : Optim K σ} (ho : OptimOk names opt) (st : σ) (data : List (Bool × X)) :
    OnlyLooks P n ((⟨n, opt, st, []⟩ : Train K σ O).fit P clip data).net (data.map Prod.snd) ((⟨n, opt, st, []⟩ : Train K σ O).fit P clip data).seen := by
  have main : ∀ (data : List (Bool × X)) (t : Train K σ O), OptimOk names t.opt → t.net.training = true →
      (data.foldl (Train.lightBatch P clip) t).net.params = t.net.params ∧ (data.foldl (Train.lightBatch P clip) t).net.buffers = t.net.buffers ∧
      (data.foldl (Train.lightBatch P clip) t).seen = t.seen ++ (data.map Prod.snd).map (P.seen false t.net.params t.net.buffers) := by
    intro data
    induction data with
    | nil => intro t _ _; exact ⟨rfl, rfl, by simp⟩
    | cons b data ih =>
      intro t ht htr
      obtain ⟨h1, h2, h3, h4, h5⟩ := lightBatch_keeps P hc ht b
      rw [htr] at h3 h4 h5
      rw [hP.2.1] at h3
      rw [hP.2.2] at h4
      obtain ⟨g1, g2, g3⟩ := ih _ (h1.symm ▸ ht) h5
      refine ⟨g1.trans h2, g2.trans h3, ?_⟩
      rw [List.foldl_cons, g3, h4, h2, h3, List.append_assoc]
      rfl
  obtain ⟨h1, h2, h3⟩ := main data ⟨{ n with training := true }, opt, st, []⟩ ho rfl
  exact ⟨h1, h2, by simpa [Train.fit] using h3⟩

/-! ### Lightning and batch normalization -/

namespace ExTrain

def one (x : ℚ) : Tensor ℚ := Tensor.ofFn .cpu [] fun _ => x
def val (d : Dict PyStr (Tensor ℚ)) (k : PyStr) : ℚ := ((Dict.get? d k).map fun t => t.el []).getD 0

/-- A model with one parameter `w` and a running average `m` (momentum 1/2) of its inputs, which it subtracts: in evaluation mode from memory, in training mode it is the
mean of the batch. The hooks see the inputs of `w`. -/
def bn : Pass ℚ (List ℚ) (List ℚ) where
  seen tr _ b x := x.map fun v => v - if tr then x.sum / x.length else val b ['m']
  grad tr _ b x g := [(['w'], one (val g ['w'] + (x.map fun v => v - if tr then x.sum / x.length else val b ['m']).sum))]
  buf tr _ b x := if tr then [(['m'], one ((val b ['m'] + x.sum / x.length) / 2))] else b

def net : Net ℚ := ⟨[(['w'], one 3)], [], [(['m'], one 0)], false⟩

/-- SGD with weight decay for the parameter `w`. -/
def sgd (zero : Dict PyStr (Tensor ℚ) → Dict PyStr (Tensor ℚ)) : Optim ℚ Unit where
  step s p g := (s, match Dict.get? g ['w'] with
    | none => p
    | some d => Dict.set p ['w'] (one (val p ['w'] - 1 / 10 * (d.el [] + 1 / 2 * val p ['w']))))
  zeroGrad := zero

/-- With the `zero_grad()` of PyTorch 2, which sets gradients to None. -/
theorem sgd_ok : OptimOk [['w']] (sgd fun _ => []) where
  skips s p g h := by simp [sgd, h ['w'] (by simp)]
  clears _ _ _ := rfl

theorem bn_pure : EvalPure bn := fun _ _ _ => rfl
theorem clip_ok : ClipOk (K := ℚ) id := fun _ _ h => h

def data : List (Bool × List ℚ) := [(true, [1, 3]), (true, [4])]

/-- **C117, refuted** for Lightning, which leaves the model in training mode. With batch normalization the running average is changed, and what is logged is not what
evaluating the model shows: the second sample, alone in its batch, is seen as 0 instead of 4. -/
theorem C117_refuted : ¬ (∀ (P : Pass ℚ (List ℚ) (List ℚ)), EvalPure P → ∀ (names : List PyStr) (opt : Optim ℚ Unit), OptimOk names opt → ∀ (n : Net ℚ) data,
      OnlyLooks P n ((⟨n, opt, (), []⟩ : Train ℚ Unit (List ℚ)).fit P id data).net (data.map Prod.snd)
        ((⟨n, opt, (), []⟩ : Train ℚ Unit (List ℚ)).fit P id data).seen) ∧
    val ((⟨net, sgd fun _ => [], (), []⟩ : Train ℚ Unit (List ℚ)).fit bn id data).net.buffers ['m'] ≠ val net.buffers ['m'] ∧
    ((⟨net, sgd fun _ => [], (), []⟩ : Train ℚ Unit (List ℚ)).fit bn id data).seen = [[-1, 1], [0]] ∧
    (data.map Prod.snd).map (bn.seen false net.params net.buffers) = [[1, 3], [4]] := by
  have h1 : val ((⟨net, sgd fun _ => [], (), []⟩ : Train ℚ Unit (List ℚ)).fit bn id data).net.buffers ['m'] ≠ val net.buffers ['m'] := by decide +kernel
  refine ⟨fun h => h1 ?_, h1, by decide +kernel, by decide +kernel⟩
  rw [(h bn bn_pure _ _ sgd_ok net data).buffers]

/-- **C117, why `zero_grad()` has to remove the gradients**: if it fills them with zeros (PyTorch before version 2), weight decay changes the parameters. -/
theorem C117_zeros_refuted : val ((⟨net, sgd fun g => g.map fun e => (e.1, one 0), (), []⟩ : Train ℚ Unit (List ℚ)).fit bn id data).net.params ['w'] ≠
    val net.params ['w'] := by decide +kernel

/-- The same model, data and optimizer with the Hugging Face trainer: nothing is changed, and without the dummy optimizer and evaluation mode it would be. -/
example : ((⟨net, sgd id, (), []⟩ : Train ℚ Unit (List ℚ)).hfTrain bn id data).net.params = net.params ∧
    ((⟨net, sgd id, (), []⟩ : Train ℚ Unit (List ℚ)).hfTrain bn id data).seen = [[1, 3], [4]] := by
  obtain ⟨h, -⟩ := C117_hugging_face_partial bn bn_pure id net (sgd id) () data
  exact ⟨h.params, h.seen.trans (by decide +kernel)⟩

/-- A model without normalization, with Lightning. -/
def plain : Pass ℚ (List ℚ) (List ℚ) where
  seen _ _ _ x := x
  grad _ _ _ x g := [(['w'], one (val g ['w'] + x.sum))]
  buf _ _ b _ := b

example : ((⟨net, sgd fun _ => [], (), []⟩ : Train ℚ Unit (List ℚ)).fit plain id data).net.params = net.params ∧
    ((⟨net, sgd fun _ => [], (), []⟩ : Train ℚ Unit (List ℚ)).fit plain id data).seen = [[1, 3], [4]] := by
  have h := C117_lightning_partial plain ⟨fun _ _ _ => rfl, fun _ _ _ => rfl, fun _ _ _ => rfl⟩ clip_ok net sgd_ok () data
  exact ⟨h.params, h.seen.trans (by decide +kernel)⟩

end ExTrain
end Logix
