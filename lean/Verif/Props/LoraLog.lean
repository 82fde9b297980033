/-
C132: the log of a run with LoRA is the projected log of the run without.
-/
import Verif.Spec.LoraLog
import Verif.Props.LoraGrad
import Verif.Props.SampleAlone

namespace Logix
open Spec Sess
variable {K : Type} [Field K]

/-- **C132, one use of a layer.** The per-sample gradient of the bottleneck is `Dᵀ G Aᵀ`. -/
theorem C132_gradient (r : Nat) (l : Layer) (A D x g y k G GB : Tensor K) (N : Nat) (h : ThroughWrapper r l A D x g y k N)
    (hG : computePerSampleGradient x g (layerKind l) = .ok G) (hGB : computePerSampleGradient y k (bottleneckKind r l) = .ok GB) :
    GB.shape = [N, r, r] ∧ ∀ n s t, n < N → s < r → t < r → GB.el [n, s, t] = projected l A D (fun o j => G.el [n, o, j]) s t := by
  obtain ⟨h1, h2, h3, h⟩ := h
  match l, h, hG, hGB with
  | .linear J O, ⟨a1, a2, ⟨mid, a3, a4⟩, a5, a6⟩, hG, hGB =>
    obtain ⟨G', GB', e1, e2, e3, e4⟩ := C64_linear_partial x A D g k y N J r O mid a3 a4 a1 a2 h1 h2 h3 a5 a6
    obtain rfl := Except.ok.inj (hG.symm.trans e1)
    obtain rfl := Except.ok.inj (hGB.symm.trans e2)
    exact ⟨e3, e4⟩
  | .conv2d C O geo gr, ⟨b1, b2, b3, b4, a1, a2, ⟨h, v, a0, a3, a4⟩, a5, a6⟩, hG, hGB =>
    obtain ⟨G', GB', e1, e2, e3, e4⟩ := C64_conv_partial x A D g k y N C r O h v geo a0 ⟨Or.inl (by rw [b1]), Or.inl (by rw [b1])⟩ b2 b3 b4 a3
      (by rw [b1]; exact a4) a1 a2 h1 h2 h3 (by rw [← b1]; exact a5) a6
    obtain rfl := Except.ok.inj (hG.symm.trans e1)
    obtain rfl := Except.ok.inj (hGB.symm.trans e2)
    exact ⟨e3, e4⟩

theorem projected_zero (l : Layer) (A D : Tensor K) (s t : Nat) : projected l A D (fun _ _ => 0) s t = 0 := by
  unfold projected
  split <;> simp

theorem projected_add (l : Layer) (A D : Tensor K) (G H : Nat → Nat → K) (s t : Nat) :
    projected l A D (fun o j => G o j + H o j) s t = projected l A D G s t + projected l A D H s t := by
  unfold projected
  split <;> simp only [mul_add, add_mul, Finset.sum_add_distrib, add_zero]

theorem projected_sum (l : Layer) (A D : Tensor K) (Gs : List (Nat → Nat → K)) (s t : Nat) :
    projected l A D (fun o j => (Gs.map fun G => G o j).sum) s t = (Gs.map fun G => projected l A D G s t).sum := by
  induction Gs with
  | nil => exact projected_zero l A D s t
  | cons G Gs ih =>
    simp only [List.map_cons, List.sum_cons]
    rw [projected_add, ih]

/-- **C132, a batch.** The layer is used several times in a batch, and the bottleneck of its wrapper correspondingly; then the gradient that is logged for the bottleneck is,
for every sample, the projection of the gradient of the layer. -/
theorem C132_batch (r : Nat) (l : Layer) (A D : Tensor K) (N : Nat) (tensors tensors' : List (TObj K)) (arrived arrived' : List (Nat × Nat)) (T T' : Tensor K)
    (hT : BatchGrad tensors (layerKind l) arrived T) (hT' : BatchGrad tensors' (bottleneckKind r l) arrived' T')
    (h : List.Forall₂ (WrappedUse r l A D N tensors tensors') arrived arrived') :
    T'.shape = [N, r, r] ∧ ∀ n s t, n < N → s < r → t < r → T'.el [n, s, t] = projected l A D (fun o j => T.el [n, o, j]) s t := by
  obtain ⟨vs, h1, h2, h3, h4⟩ := hT
  obtain ⟨vs', g1, g2, g3, g4⟩ := hT'
  have key : List.Forall₂ (fun v v' => v'.shape = [N, r, r] ∧ ∀ n s t, n < N → s < r → t < r → v'.el [n, s, t] = projected l A D (fun o j => v.el [n, o, j]) s t) vs vs' := by
    clear h2 h3 h4 g2 g3 g4
    induction h generalizing vs vs' with
    | nil => cases h1; cases g1; exact .nil
    | cons hu _ ih =>
      cases h1 with
      | cons a1 a2 =>
        cases g1 with
        | cons b1 b2 =>
          refine .cons ?_ (ih _ a2 _ b2)
          obtain ⟨x, g, y, k, e1, e2, e3, e4, e5⟩ := hu
          obtain ⟨_, _, c1, c2, c3⟩ := a1
          obtain ⟨_, _, d1, d2, d3⟩ := b1
          obtain rfl := Option.some.inj (e1.symm.trans c1)
          obtain rfl := Option.some.inj (e2.symm.trans c2)
          obtain rfl := Option.some.inj (e3.symm.trans d1)
          obtain rfl := Option.some.inj (e4.symm.trans d2)
          exact C132_gradient r l A D _ _ _ _ _ _ N e5 c3 d3
  refine ⟨?_, fun n s t hn hs ht => ?_⟩
  · cases key with
    | nil => exact absurd rfl g2
    | cons hu _ =>
      rw [← g3 _ List.mem_cons_self]
      exact hu.1
  · rw [g4]
    simp only [h4]
    have e := projected_sum l A D (vs.map fun v o j => v.el [n, o, j]) s t
    simp only [List.map_map, Function.comp_def] at e
    rw [e]
    congr 1
    clear h1 h2 h3 h4 g1 g2 g3 g4 h e
    induction key with
    | nil => rfl
    | cons hu _ ih => rw [List.map_cons, List.map_cons, ih, hu.2 n s t hn hs ht]

/-- **C132, the log directory.** A run logs the gradients of layers, and another run logs the gradients of the bottlenecks of their wrappers, under names of their own. If in a
batch of the one and a batch of the other, of equally many samples, the bottlenecks see what comes through the wrappers, then the arrays that the second directory holds for a
sample are the projections `Dᵀ G Aᵀ` of those in the first. -/
theorem C132_stored (run lora : LoggingRun K) (keys : List PyStr) (name : PyStr → PyStr) (shape shape' : PyStr → List Nat) (rank : PyStr → Nat) (layer : PyStr → Layer)
    (A D : PyStr → Tensor K) (h : run.Completes keys shape) (h' : lora.Completes (keys.map name) shape')
    (hkind : ∀ nm ∈ keys, run.env.kind (run.mods nm) = layerKind (layer nm) ∧ lora.env.kind (lora.mods (name nm)) = bottleneckKind (rank nm) (layer nm)) :
    ∃ ds ds', openDataset run.final.fs run.listing = .ok ds ∧ openDataset lora.final.fs lora.listing = .ok ds' ∧
      ∀ p u rest, run.saved = p ++ u :: rest → ∀ p' u' rest', lora.saved = p' ++ u' :: rest' → ∀ (j : Nat) (hj : j < u.1.length) (hj' : j < u'.1.length),
        (∀ nm ∈ keys, List.Forall₂ (WrappedUse (rank nm) (layer nm) (A nm) (D nm) u'.1.length (allocs run.body) (allocs lora.body)) (u.2 (run.mods nm)) (u'.2 (lora.mods (name nm)))) →
        ∃ v v', ds.getItem ((p.flatMap (·.1)).length + j) = .ok (u.1[j], v) ∧ ds'.getItem ((p'.flatMap (·.1)).length + j) = .ok (u'.1[j], v') ∧
          ∀ nm ∈ keys, ∃ a a', v.lookup [nm, LogType.name .grad] = some a ∧ v'.lookup [name nm, LogType.name .grad] = some a' ∧ a'.shape = [rank nm, rank nm] ∧
            ∀ s t, s < rank nm → t < rank nm → (Codec.tensor ⟨lora.env.encode, lora.dec⟩ a').el [s, t] =
              projected (layer nm) (A nm) (D nm) (fun o i => (Codec.tensor ⟨run.env.encode, run.dec⟩ a).el [o, i]) s t := by
  obtain ⟨ds, d1, -, d3⟩ := C111_samples run.env run.dec run.dtype run.setup h.configures run.workers run.threshold run.files run.ctx run.ids run.mask h.context run.body keys
    run.mods h.logs shape run.dir h.dtype h.stats h.grad h.watches h.nodup h.paths h.dims h.some h.tidy h.storable h.ids h.files h.clean h.workers run.final h.runs run.listing
    h.listing
  obtain ⟨ds', e1, -, e3⟩ := C111_samples lora.env lora.dec lora.dtype lora.setup h'.configures lora.workers lora.threshold lora.files lora.ctx lora.ids lora.mask h'.context
    lora.body (keys.map name) lora.mods h'.logs shape' lora.dir h'.dtype h'.stats h'.grad h'.watches h'.nodup h'.paths h'.dims h'.some h'.tidy h'.storable h'.ids h'.files
    h'.clean h'.workers lora.final h'.runs lora.listing h'.listing
  refine ⟨ds, ds', d1, e1, fun p u rest hs p' u' rest' hs' j hj hj' hw => ?_⟩
  obtain ⟨v, k1, k2⟩ := d3 p u rest hs j hj
  obtain ⟨v', k1', k2'⟩ := e3 p' u' rest' hs' j hj'
  refine ⟨v, v', k1, k1', fun nm hm => ?_⟩
  obtain ⟨T, a, m1, m2, -, m4, m5⟩ := k2 nm hm
  obtain ⟨T', a', m1', m2', -, m4', m5'⟩ := k2' (name nm) (List.mem_map_of_mem hm)
  have q := (h.storable u (by rw [hs]; simp) nm hm).rows T m1
  have q' := (h'.storable u' (by rw [hs']; simp) (name nm) (List.mem_map_of_mem hm)).rows T' m1'
  rw [(hkind nm hm).1] at m1
  rw [(hkind nm hm).2] at m1'
  obtain ⟨b1, b2⟩ := C132_batch _ _ (A nm) (D nm) _ _ _ _ _ T T' m1 m1' (hw nm hm)
  have hsh : shape' (name nm) = [rank nm, rank nm] := (List.cons.inj (q'.symm.trans b1)).2
  refine ⟨a, a', m2, m2', by rw [m4', hsh], fun s t hs ht => ?_⟩
  rw [m5' [s, t] (by rw [hsh]; simp [inRange, hs, ht]), b2 j s t hj' hs ht]
  congr 1
  funext o i
  by_cases hr : inRange (shape nm) [o, i] = true
  · rw [m5 [o, i] hr]
  · rw [Tensor.el_of_not _ _ (by rw [q]; simpa [inRange] using fun _ => hr), Tensor.el_of_not _ _ ?_]
    rw [show (Codec.tensor _ a).shape = _ from m4]
    simpa using hr

end Logix
