/-
C131: what is logged for a sample does not depend on the rest of its batch.
-/
import Verif.Spec.SampleAlone
import Verif.Lemmas.Batching
import Verif.Props.Grad
import Verif.Props.SessionSamples

namespace Logix
open Spec Sess
variable {K : Type} [Field K]

theorem oneSample_ext {t t' : Tensor K} {i i' : Nat} (hs : t.shape.tail = t'.shape.tail) (h : ∀ idx, inRange t.shape.tail idx = true → t.el (i :: idx) = t'.el (i' :: idx)) :
    oneSample t i = oneSample t' i' := by
  unfold oneSample
  rw [← hs]
  unfold Tensor.ofFn
  congr 1
  refine List.map_congr_left fun idx hidx => ?_
  rw [indices, List.range_one, List.flatMap_singleton, List.mem_map] at hidx
  obtain ⟨p, hp, rfl⟩ := hidx
  exact h p ((mem_indices _ _).1 hp)

theorem oneSample_tail {t t' : Tensor K} {i i' : Nat} (h : oneSample t i = oneSample t' i') : t.shape.tail = t'.shape.tail :=
  (List.cons.inj (congrArg Tensor.shape h)).2

theorem oneSample_el_eq {t t' : Tensor K} {i i' : Nat} (hi : i < t.size 0) (hi' : i' < t'.size 0) (h : oneSample t i = oneSample t' i') (idx : List Nat) :
    t.el (i :: idx) = t'.el (i' :: idx) := by rw [← oneSample_el hi, ← oneSample_el hi', h]

/-- **C131, the gradient of a layer.** The gradient that is computed for sample `i` of a batch is determined by sample `i` of the input and of the output gradient. -/
theorem C131_gradient (kind : ModKind) (x g x' g' G G' : Tensor K) (i i' : Nat) (hf : LayerFits kind x g) (hf' : LayerFits kind x' g')
    (hi : i < x.size 0) (hi' : i' < x'.size 0) (hx : oneSample x i = oneSample x' i') (hg : oneSample g i = oneSample g' i')
    (hG : computePerSampleGradient x g kind = .ok G) (hG' : computePerSampleGradient x' g' kind = .ok G') :
    oneSample G i = oneSample G' i' ∧ G.size 0 = x.size 0 := by
  have tx := oneSample_tail hx
  have tg := oneSample_tail hg
  have ex := oneSample_el_eq hi hi' hx
  match kind, hf, hf', hG, hG' with
  | .linear, ⟨n, mid, a, b, s1, s2, s3⟩, ⟨n', mid', a', b', s1', s2', s3'⟩, hG, hG' =>
    have eg := oneSample_el_eq (t := g) (t' := g') (by unfold Tensor.size at hi ⊢; rw [s1] at hi; rw [s2]; exact hi)
      (by unfold Tensor.size at hi' ⊢; rw [s1'] at hi'; rw [s2']; exact hi') hg
    rw [s1, s1'] at tx
    rw [s2, s2'] at tg
    obtain ⟨rfl, hb⟩ := List.append_inj' tx rfl
    obtain rfl := (List.cons.inj hb).1
    obtain ⟨-, ha⟩ := List.append_inj' tg rfl
    obtain rfl := (List.cons.inj ha).1
    obtain ⟨H, h1, h2, -, h4⟩ := outerSum_ok g x n a b mid s2 s1 s3
    obtain ⟨H', h1', h2', -, h4'⟩ := outerSum_ok g' x' n' a b mid s2' s1' s3'
    obtain rfl := Except.ok.inj (hG.symm.trans h1)
    obtain rfl := Except.ok.inj (hG'.symm.trans h1')
    have ni : i < n := by unfold Tensor.size at hi; rw [s1] at hi; exact hi
    have ni' : i' < n' := by unfold Tensor.size at hi'; rw [s1'] at hi'; exact hi'
    refine ⟨oneSample_ext (by rw [h2, h2']; rfl) fun idx hidx => ?_, by unfold Tensor.size; rw [h2, s1]; rfl⟩
    rw [h2] at hidx
    match idx, hidx with
    | [], hidx => exact absurd hidx (by simp [inRange])
    | [_], hidx => exact absurd hidx (by simp [inRange])
    | _ :: _ :: _ :: _, hidx => exact absurd hidx (by simp [inRange])
    | [p, q], hidx =>
      simp only [List.tail_cons, inRange, Bool.and_true, Bool.and_eq_true, decide_eq_true_eq] at hidx
      rw [h4 i p q ni hidx.1 hidx.2, h4' i' p q ni' hidx.1 hidx.2]
      congr 1
      refine List.map_congr_left fun r _ => ?_
      rw [eg, ex]
  | .conv2d geo o, ⟨n, c, h, w, f1, f2, f3, s1, s2, s3⟩, ⟨n', c', h', w', f1', f2', f3', s1', s2', s3'⟩, hG, hG' =>
    have eg := oneSample_el_eq (t := g) (t' := g') (by unfold Tensor.size at hi ⊢; rw [s1] at hi; rw [s2]; exact hi)
      (by unfold Tensor.size at hi' ⊢; rw [s1'] at hi'; rw [s2']; exact hi') hg
    rw [s1, s1'] at tx
    simp only [List.tail_cons, List.cons.injEq, and_true] at tx
    obtain ⟨rfl, rfl, rfl⟩ := tx
    obtain ⟨H, h1, h2, h4⟩ := convGrad_ok x g n c o h w geo f1 f2 f3 s1 s2 s3
    obtain ⟨H', h1', h2', h4'⟩ := convGrad_ok x' g' n' c o h w geo f1' f2' f3' s1' s2' s3'
    obtain rfl := Except.ok.inj (hG.symm.trans h1)
    obtain rfl := Except.ok.inj (hG'.symm.trans h1')
    have ni : i < n := by unfold Tensor.size at hi; rw [s1] at hi; exact hi
    have ni' : i' < n' := by unfold Tensor.size at hi'; rw [s1'] at hi'; exact hi'
    refine ⟨oneSample_ext (by rw [h2, h2']; rfl) fun idx hidx => ?_, by unfold Tensor.size; rw [h2, s1]; rfl⟩
    rw [h2] at hidx
    match idx, hidx with
    | [], hidx => exact absurd hidx (by simp [inRange])
    | [_], hidx => exact absurd hidx (by simp [inRange])
    | _ :: _ :: _ :: _, hidx => exact absurd hidx (by simp [inRange])
    | [p, q], hidx =>
      simp only [List.tail_cons, inRange, Bool.and_true, Bool.and_eq_true, decide_eq_true_eq] at hidx
      have k1 := f1.kernel1
      have k2 := f1.kernel2
      have e : q = (q / geo.kernel.2 / geo.kernel.1 * geo.kernel.1 + q / geo.kernel.2 % geo.kernel.1) * geo.kernel.2 + q % geo.kernel.2 := by
        rw [Nat.div_add_mod', Nat.div_add_mod']
      have hq1 : q / geo.kernel.2 / geo.kernel.1 < c := by
        rw [Nat.div_lt_iff_lt_mul k1, Nat.div_lt_iff_lt_mul k2]
        exact hidx.2
      rw [e, h4 i p _ _ _ ni hidx.1 hq1 (Nat.mod_lt _ k1) (Nat.mod_lt _ k2), h4' i' p _ _ _ ni' hidx.1 hq1 (Nat.mod_lt _ k1) (Nat.mod_lt _ k2)]
      refine Finset.sum_congr rfl fun y _ => Finset.sum_congr rfl fun z _ => ?_
      rw [eg]
      unfold pixel
      rw [ex]

/-- **C131, the gradient of a batch.** When a module is used several times and its uses have the same sample at positions `i` and `i'` in two batches, the summed
gradients agree there. -/
theorem C131_batch (kind : ModKind) (tensors tensors' : List (TObj K)) (arrived arrived' : List (Nat × Nat)) (i i' : Nat) (T T' : Tensor K)
    (hT : BatchGrad tensors kind arrived T) (hT' : BatchGrad tensors' kind arrived' T')
    (h : List.Forall₂ (SameSampleUse kind tensors i tensors' i') arrived arrived') : oneSample T i = oneSample T' i' := by
  obtain ⟨vs, h1, h2, h3, h4⟩ := hT
  obtain ⟨vs', g1, g2, g3, g4⟩ := hT'
  have key : List.Forall₂ (fun v v' => i < v.size 0 ∧ i' < v'.size 0 ∧ oneSample v i = oneSample v' i') vs vs' := by
    clear h2 h3 h4 g2 g3 g4
    induction h generalizing vs vs' with
    | nil => cases h1; cases g1; exact .nil
    | cons hu _ ih =>
      cases h1 with
      | cons a1 a2 =>
        cases g1 with
        | cons b1 b2 =>
          refine .cons ?_ (ih _ a2 _ b2)
          obtain ⟨x, g, x', g', e1, e2, e3, e4, e5, e6, e7, e8, e9, e10⟩ := hu
          obtain ⟨y, k, c1, c2, c3⟩ := a1
          obtain ⟨y', k', d1, d2, d3⟩ := b1
          obtain rfl := Option.some.inj (e1.symm.trans c1)
          obtain rfl := Option.some.inj (e2.symm.trans c2)
          obtain rfl := Option.some.inj (e3.symm.trans d1)
          obtain rfl := Option.some.inj (e4.symm.trans d2)
          have r1 := C131_gradient kind _ _ _ _ _ _ i i' e5 e6 e7 e8 e9 e10 c3 d3
          have r2 := C131_gradient kind _ _ _ _ _ _ i' i e6 e5 e8 e7 e9.symm e10.symm d3 c3
          exact ⟨by rw [r1.2]; exact e7, by rw [r2.2]; exact e8, r1.1⟩
  have hsum : ∀ idx, (vs.map fun v => v.el (i :: idx)) = vs'.map fun v => v.el (i' :: idx) := by
    intro idx
    clear h1 h2 h3 h4 g1 g2 g3 g4 h
    induction key with
    | nil => rfl
    | cons hu _ ih => rw [List.map_cons, List.map_cons, ih, oneSample_el_eq hu.1 hu.2.1 hu.2.2]
  refine oneSample_ext ?_ fun idx _ => ?_
  · cases key with
    | nil => exact absurd rfl h2
    | cons hu _ =>
      rw [← h3 _ List.mem_cons_self, ← g3 _ List.mem_cons_self]
      exact oneSample_tail hu.2.2
  · rw [h4, g4, hsum]

/-- **C131, the log directory.** Two runs log gradients of modules of the same names and kinds; their models, batches, batch sizes, stored number formats and the order of
their samples can be different. If a sample of the one and a sample of the other have the same inputs and output gradients in every use of the modules, then the two
log directories hold, at the places of the two samples, arrays of the same values for every module. -/
theorem C131_stored (r r' : LoggingRun K) (keys : List PyStr) (shape shape' : PyStr → List Nat) (h : r.Completes keys shape) (h' : r'.Completes keys shape')
    (hkind : ∀ nm ∈ keys, r.env.kind (r.mods nm) = r'.env.kind (r'.mods nm)) :
    ∃ ds ds', openDataset r.final.fs r.listing = .ok ds ∧ openDataset r'.final.fs r'.listing = .ok ds' ∧
      ∀ l u rest, r.saved = l ++ u :: rest → ∀ l' u' rest', r'.saved = l' ++ u' :: rest' → ∀ (j j' : Nat) (hj : j < u.1.length) (hj' : j' < u'.1.length),
        (∀ nm ∈ keys, List.Forall₂ (SameSampleUse (r.env.kind (r.mods nm)) (allocs r.body) j (allocs r'.body) j') (u.2 (r.mods nm)) (u'.2 (r'.mods nm))) →
        ∃ v v', ds.getItem ((l.flatMap (·.1)).length + j) = .ok (u.1[j], v) ∧ ds'.getItem ((l'.flatMap (·.1)).length + j') = .ok (u'.1[j'], v') ∧
          ∀ nm ∈ keys, ∃ a a', v.lookup [nm, LogType.name .grad] = some a ∧ v'.lookup [nm, LogType.name .grad] = some a' ∧ a.shape = shape nm ∧ a'.shape = a.shape ∧
            ∀ idx, inRange a.shape idx = true → (Codec.tensor ⟨r.env.encode, r.dec⟩ a).el idx = (Codec.tensor ⟨r'.env.encode, r'.dec⟩ a').el idx := by
  obtain ⟨ds, d1, -, d3⟩ := C111_samples r.env r.dec r.dtype r.setup h.configures r.workers r.threshold r.files r.ctx r.ids r.mask h.context r.body keys r.mods h.logs
    shape r.dir h.dtype h.stats h.grad h.watches h.nodup h.paths h.dims h.some h.tidy h.storable h.ids h.files h.clean h.workers r.final h.runs r.listing h.listing
  obtain ⟨ds', e1, -, e3⟩ := C111_samples r'.env r'.dec r'.dtype r'.setup h'.configures r'.workers r'.threshold r'.files r'.ctx r'.ids r'.mask h'.context r'.body keys
    r'.mods h'.logs shape' r'.dir h'.dtype h'.stats h'.grad h'.watches h'.nodup h'.paths h'.dims h'.some h'.tidy h'.storable h'.ids h'.files h'.clean h'.workers
    r'.final h'.runs r'.listing h'.listing
  refine ⟨ds, ds', d1, e1, fun l u rest hs l' u' rest' hs' j j' hj hj' hsame => ?_⟩
  obtain ⟨v, k1, k2⟩ := d3 l u rest hs j hj
  obtain ⟨v', k1', k2'⟩ := e3 l' u' rest' hs' j' hj'
  refine ⟨v, v', k1, k1', fun nm hm => ?_⟩
  obtain ⟨T, a, m1, m2, -, m4, m5⟩ := k2 nm hm
  obtain ⟨T', a', m1', m2', -, m4', m5'⟩ := k2' nm hm
  rw [← hkind nm hm] at m1'
  have hT := C131_batch _ _ _ _ _ j j' T T' m1 m1' (hsame nm hm)
  have q := (h.storable u (by rw [hs]; simp) nm hm).rows T m1
  have q' := (h'.storable u' (by rw [hs']; simp) nm hm).rows T' (by rw [← hkind nm hm]; exact m1')
  have hsh : shape nm = shape' nm := by
    have := oneSample_tail hT
    rw [q, q'] at this
    exact this
  refine ⟨a, a', m2, m2', m4, by rw [m4', m4, hsh], fun idx hidx => ?_⟩
  rw [m4] at hidx
  rw [m5 idx hidx, m5' idx (by rw [← hsh]; exact hidx)]
  exact oneSample_el_eq (by unfold Tensor.size; rw [q]; exact hj) (by unfold Tensor.size; rw [q']; exact hj') hT idx

end Logix
