/-
What a LoRA wrapper with a zero bottleneck computes.
-/
import Verif.Lemmas.LoraInv
import Verif.Lemmas.Tensor

set_option linter.unusedSectionVars false

namespace Logix
variable {K : Type}

theorem Tensor.el_of_zero [Zero K] {t : Tensor K} (h : ∀ x ∈ t.data, x = 0) (idx : List Nat) : t.el idx = 0 := by
  unfold Tensor.el
  split
  · rw [List.getD_eq_getElem?_getD]
    cases hg : t.data[ravel t.shape idx]? with
    | none => rfl
    | some x => exact h x (List.mem_of_getElem? hg)
  · rfl

theorem Tensor.data_zero_of_el [Zero K] {f : List Nat → K} (hf : ∀ idx, f idx = 0) (dev : Dev) (s : List Nat) :
    ∀ x ∈ (Tensor.ofFn dev s f).data, x = 0 := by
  intro x hx
  unfold Tensor.ofFn at hx
  obtain ⟨idx, _, rfl⟩ := List.mem_map.1 hx
  exact hf idx

variable [Semiring K]

theorem Tensor.add_zero_ok {t u : Tensor K} (hd : t.dev = u.dev) (hs : t.shape = u.shape) (hz : ∀ x ∈ u.data, x = 0) : t.add_ u = .ok t := by
  unfold Tensor.add_
  rw [if_pos ⟨hd, hs⟩]
  congr 1
  have : (fun idx => t.el idx + u.el idx) = t.el := by
    funext idx
    rw [Tensor.el_of_zero hz, add_zero]
  rw [this, Tensor.ofFn_el]

/-- A linear layer without bias runs on every input of the right size. -/
theorem linearForward_ok {w x : Tensor K} {o i : Nat} (hw : w.shape = [o, i]) (hx : x.shape.getLast? = some i) (hd : x.dev = w.dev) :
    ∃ y, linearForward w none x = .ok y ∧ y.dev = x.dev ∧ y.shape = x.shape.dropLast ++ [o] ∧
      ((∀ z ∈ w.data, z = 0) ∨ (∀ z ∈ x.data, z = 0) → ∀ z ∈ y.data, z = 0) := by
  unfold linearForward
  rw [hw, hx]
  dsimp only
  rw [if_pos ⟨rfl, hd, fun b hb => by cases hb⟩]
  refine ⟨_, rfl, rfl, rfl, ?_⟩
  intro hz
  refine Tensor.data_zero_of_el (fun idx => ?_) _ _
  rw [Finset.sum_eq_zero]
  · simp
  · intro j _
    rcases hz with h | h
    · rw [Tensor.el_of_zero h, mul_zero]
    · rw [Tensor.el_of_zero h, zero_mul]

theorem linearForward_some {w x y : Tensor K} {b : Option (Tensor K)} {o i : Nat} (hw : w.shape = [o, i]) (h : linearForward w b x = .ok y) :
    x.shape.getLast? = some i ∧ x.dev = w.dev ∧ y.dev = x.dev ∧ y.shape = x.shape.dropLast ++ [o] := by
  unfold linearForward at h
  rw [hw] at h
  split at h
  · next outF inF d e1 e2 =>
    split at h
    · next hc =>
      cases h
      cases e1
      rw [e2, hc.1]
      exact ⟨rfl, hc.2.1, rfl, rfl⟩
    · cases h
  · cases h

/-- The LoRA path of a linear layer gives zeros of the shape of the output. -/
theorem lora_linear_zero {w a b c x y : Tensor K} {bias : Option (Tensor K)} {dev : Dev} {r i o : Nat} (hw : w.shape = [o, i]) (hwd : w.dev = dev)
    (ha : a.shape = [r, i]) (had : a.dev = dev) (hb : b.shape = [r, r]) (hbd : b.dev = dev) (hbz : ∀ z ∈ b.data, z = 0) (hc : c.shape = [o, r])
    (hcd : c.dev = dev) (h : linearForward w bias x = .ok y) :
    ∃ u v t, linearForward a none x = .ok u ∧ linearForward b none u = .ok v ∧ linearForward c none v = .ok t ∧ y.add_ t = .ok y := by
  obtain ⟨h1, h2, h3, h4⟩ := linearForward_some hw h
  obtain ⟨u, u1, u2, u3, _⟩ := linearForward_ok (x := x) ha h1 (by rw [had, h2, hwd])
  obtain ⟨v, v1, v2, v3, v4⟩ := linearForward_ok (x := u) hb (by rw [u3]; simp) (by rw [u2, hbd, h2, hwd])
  obtain ⟨t, t1, t2, t3, t4⟩ := linearForward_ok (x := v) hc (by rw [v3]; simp) (by rw [v2, u2, hcd, h2, hwd])
  refine ⟨u, v, t, u1, v1, t1, Tensor.add_zero_ok ?_ ?_ (t4 (Or.inr (v4 (Or.inl hbz))))⟩
  · rw [h3, t2, v2, u2]
  · rw [h4, t3, v3, u3]; simp

/-- The size of the output of a convolution in one dimension. -/
def convOut (n pad k s d : Nat) : Nat := (n + 2 * pad - (d * (k - 1) + 1)) / s + 1

/-- A convolution without bias, dilation and groups runs on every input that is large enough. -/
theorem conv2dForward_ok {w x : Tensor K} {o i n h1 h2 : Nat} {k s p : Nat × Nat} (hw : w.shape = [o, i, k.1, k.2]) (hx : x.shape = [n, i, h1, h2])
    (hd : x.dev = w.dev) (hk : 0 < k.1 ∧ 0 < k.2) (hs : 0 < s.1 ∧ 0 < s.2) (hsp : k.1 ≤ h1 + 2 * p.1 ∧ k.2 ≤ h2 + 2 * p.2) :
    ∃ y, conv2dForward ⟨k, s, p, (1, 1)⟩ 1 w none x = .ok y ∧ y.dev = x.dev ∧ y.shape = [n, o, convOut h1 p.1 k.1 s.1 1, convOut h2 p.2 k.2 s.2 1] ∧
      ((∀ z ∈ w.data, z = 0) ∨ (∀ z ∈ x.data, z = 0) → ∀ z ∈ y.data, z = 0) := by
  unfold conv2dForward
  rw [hw, hx]
  dsimp only
  rw [if_pos ⟨rfl, by omega, Nat.mod_one _, hd, fun b hb => (by cases hb), by omega, by omega, hk.1, hk.2, hs.1, hs.2⟩]
  refine ⟨_, rfl, rfl, rfl, ?_⟩
  intro hz
  refine Tensor.data_zero_of_el (fun idx => ?_) _ _
  have key : ∀ n o y z, ((∑ c ∈ Finset.range i, ∑ a ∈ Finset.range k.1, ∑ b ∈ Finset.range k.2, w.el [o, c, a, b] *
      (x.pad2d p).el [n, o / (w.shape.headD 0 / 1) * i + c, y * s.1 + a * 1, z * s.2 + b * 1]) + 0 : K) = 0 := by
    intro n o y z
    rw [add_zero]
    refine Finset.sum_eq_zero fun c _ => Finset.sum_eq_zero fun a _ => Finset.sum_eq_zero fun b _ => ?_
    rcases hz with h | h
    · rw [Tensor.el_of_zero h, zero_mul]
    · have : (x.pad2d p).el [n, o / (w.shape.headD 0 / 1) * i + c, y * s.1 + a * 1, z * s.2 + b * 1] = 0 := by
        refine Tensor.el_of_zero ?_ _
        unfold Tensor.pad2d Tensor.ofFn4
        refine Tensor.data_zero_of_el (fun idx => ?_) _ _
        split
        · dsimp only
          split
          · exact Tensor.el_of_zero h _
          · rfl
        · rfl
      rw [this, mul_zero]
  rw [hw] at key
  split
  · exact key _ _ _ _
  · rfl

theorem conv2dForward_some {g : ConvGeom} {gr : Nat} {w x y : Tensor K} {b : Option (Tensor K)} {o i k0 k1 : Nat} (hw : w.shape = [o, i, k0, k1])
    (h : conv2dForward g gr w b x = .ok y) :
    ∃ n h1 h2, x.shape = [n, i * gr, h1, h2] ∧ x.dev = w.dev ∧ y.dev = x.dev ∧ (k0, k1) = g.kernel ∧ 0 < k0 ∧ 0 < k1 ∧ 0 < g.stride.1 ∧ 0 < g.stride.2 ∧
      g.dilation.1 * (g.kernel.1 - 1) + 1 ≤ h1 + 2 * g.padding.1 ∧ g.dilation.2 * (g.kernel.2 - 1) + 1 ≤ h2 + 2 * g.padding.2 ∧
      y.shape = [n, o, convOut h1 g.padding.1 g.kernel.1 g.stride.1 g.dilation.1, convOut h2 g.padding.2 g.kernel.2 g.stride.2 g.dilation.2] := by
  unfold conv2dForward at h
  rw [hw] at h
  split at h
  · next O Cg a0 a1 n C h1 h2 e1 e2 =>
    cases e1
    dsimp only at h
    split at h
    · next hc =>
      obtain ⟨c1, c2, c3, c4, c5, c6, c7, c8, c9, c10, c11⟩ := hc
      cases h
      exact ⟨n, h1, h2, by rw [e2, c2], c4, rfl, c1, c8, c9, c10, c11, c6, c7, rfl⟩
    · cases h
  · cases h

/-- The LoRA path of a convolution without dilation gives zeros of the shape of the output. -/
theorem lora_conv_zero {g : ConvGeom} {gr : Nat} {w a b c x y : Tensor K} {bias : Option (Tensor K)} {dev : Dev} {r i j o : Nat}
    (hw : w.shape = [o, j, g.kernel.1, g.kernel.2]) (hi : j * gr = i) (hwd : w.dev = dev)
    (hdil : (g.dilation.1 = 1 ∨ g.kernel.1 = 1) ∧ (g.dilation.2 = 1 ∨ g.kernel.2 = 1))
    (ha : a.shape = [r, i, g.kernel.1, g.kernel.2]) (had : a.dev = dev) (hb : b.shape = [r, r, 1, 1]) (hbd : b.dev = dev) (hbz : ∀ z ∈ b.data, z = 0)
    (hc : c.shape = [o, r, 1, 1]) (hcd : c.dev = dev) (h : conv2dForward g gr w bias x = .ok y) :
    ∃ u v t, conv2dForward ⟨g.kernel, g.stride, g.padding, (1, 1)⟩ 1 a none x = .ok u ∧ conv2dForward ⟨(1, 1), (1, 1), (0, 0), (1, 1)⟩ 1 b none u = .ok v ∧
      conv2dForward ⟨(1, 1), (1, 1), (0, 0), (1, 1)⟩ 1 c none v = .ok t ∧ y.add_ t = .ok y := by
  obtain ⟨n, h1, h2, e1, e2, e3, e4, e5, e6, e7, e8, e9, e10, e11⟩ := conv2dForward_some hw h
  have d1 : g.dilation.1 * (g.kernel.1 - 1) = g.kernel.1 - 1 := by rcases hdil.1 with h | h <;> rw [h] <;> simp
  have d2 : g.dilation.2 * (g.kernel.2 - 1) = g.kernel.2 - 1 := by rcases hdil.2 with h | h <;> rw [h] <;> simp
  rw [d1] at e9
  rw [d2] at e10
  rw [hi] at e1
  obtain ⟨u, u1, u2, u3, _⟩ := conv2dForward_ok (p := g.padding) (s := g.stride) ha e1 (by rw [had, e2, hwd]) ⟨e5, e6⟩ ⟨e7, e8⟩ ⟨by omega, by omega⟩
  have one : ∀ m, 1 ≤ m → convOut m 0 1 1 1 = m := by intro m hm; unfold convOut; simp; omega
  have pos : ∀ n p k s d, 1 ≤ convOut n p k s d := by intro n p k s d; exact Nat.le_add_left 1 _
  obtain ⟨v, v1, v2, v3, v4⟩ := conv2dForward_ok (k := (1, 1)) (p := (0, 0)) (s := (1, 1)) hb u3 (by rw [u2, hbd, e2, hwd]) ⟨by decide, by decide⟩
    ⟨by decide, by decide⟩ ⟨pos _ _ _ _ _, pos _ _ _ _ _⟩
  dsimp only at v3
  rw [one _ (pos _ _ _ _ _), one _ (pos _ _ _ _ _)] at v3
  obtain ⟨t, t1, t2, t3, t4⟩ := conv2dForward_ok (k := (1, 1)) (p := (0, 0)) (s := (1, 1)) hc v3 (by rw [v2, u2, hcd, e2, hwd]) ⟨by decide, by decide⟩
    ⟨by decide, by decide⟩ ⟨pos _ _ _ _ _, pos _ _ _ _ _⟩
  dsimp only at t3
  rw [one _ (pos _ _ _ _ _), one _ (pos _ _ _ _ _)] at t3
  refine ⟨u, v, t, u1, v1, t1, Tensor.add_zero_ok ?_ ?_ (t4 (Or.inr (v4 (Or.inl hbz))))⟩
  · rw [e3, t2, v2, u2]
  · rw [e11, t3]
    unfold convOut
    rw [d1, d2, one_mul, one_mul]

/-! ### Calling wrappers -/

theorem callN_linear {h : MHeap K} {code : Code K} {n id : Nat} {m : MObj} {i o : Nat} (hm : h.mods[id]? = some m) (hl : m.layer = .linear i o) (x : Tensor K) :
    h.callN code (n + 1) id x = match h.paramVal id nWeight with
      | none => .error .attributeError
      | some w => linearForward w (h.paramVal id nBias) x := by
  unfold MHeap.callN
  rw [hm]
  dsimp only
  rw [hl]
  rfl

theorem callN_conv {h : MHeap K} {code : Code K} {n id : Nat} {m : MObj} {i o : Nat} {g : ConvGeom} {gr : Nat} (hm : h.mods[id]? = some m)
    (hl : m.layer = .conv2d i o g gr) (x : Tensor K) :
    h.callN code (n + 1) id x = match h.paramVal id nWeight with
      | none => .error .attributeError
      | some w => conv2dForward g gr w (h.paramVal id nBias) x := by
  unfold MHeap.callN
  rw [hm]
  dsimp only
  rw [hl]
  rfl

theorem LinAt.call {P : Nat} {dev : Dev} {h : MHeap K} {id i o : Nat} (hl : LinAt P dev h id i o) (code : Code K) :
    ∃ t, t.dev = dev ∧ t.shape = [o, i] ∧ h.paramVal id nWeight = some t ∧ ∀ n x, h.callN code (n + 1) id x = linearForward t none x := by
  obtain ⟨p, q, h0, h1, h2, h3, h4⟩ := hl
  have e1 : h.paramVal id nWeight = some q.val := by
    unfold MHeap.paramVal
    rw [paramId_of h1]
    show Option.map Param.val (Option.bind (some p) fun i => h.params[i]?) = _
    rw [Option.bind_some, h2]
    rfl
  have e2 : h.paramVal id nBias = none := by
    unfold MHeap.paramVal
    rw [paramId_of h1]
    rfl
  refine ⟨q.val, h3, h4, e1, fun n x => ?_⟩
  rw [callN_linear h1 rfl, e1, e2]

theorem ConvAt.call {P : Nat} {dev : Dev} {h : MHeap K} {id i o : Nat} {k s pd : Nat × Nat} (hl : ConvAt P dev h id i o k s pd) (code : Code K) :
    ∃ t, t.dev = dev ∧ t.shape = [o, i, k.1, k.2] ∧ h.paramVal id nWeight = some t ∧
      ∀ n x, h.callN code (n + 1) id x = conv2dForward ⟨k, s, pd, (1, 1)⟩ 1 t none x := by
  obtain ⟨p, q, h0, h1, h2, h3, h4⟩ := hl
  have e1 : h.paramVal id nWeight = some q.val := by
    unfold MHeap.paramVal
    rw [paramId_of h1]
    show Option.map Param.val (Option.bind (some p) fun i => h.params[i]?) = _
    rw [Option.bind_some, h2]
    rfl
  have e2 : h.paramVal id nBias = none := by
    unfold MHeap.paramVal
    rw [paramId_of h1]
    rfl
  refine ⟨q.val, h3, h4, e1, fun n x => ?_⟩
  rw [callN_conv h1 rfl, e1, e2]

theorem ZeroAt.val {h : MHeap K} {id : Nat} (hz : ZeroAt h id) {t : Tensor K} (ht : h.paramVal id nWeight = some t) : ∀ z ∈ t.data, z = 0 := by
  obtain ⟨p, q, h1, h2, h3⟩ := hz
  unfold MHeap.paramVal at ht
  rw [h1, Option.bind_some, h2] at ht
  cases ht
  exact h3

/-- A wrapper of a linear layer with a bottleneck that fits computes what the layer computes. -/
theorem WrapLin.call {P : Nat} {dev : Dev} {h : MHeap K} {w orig b r i o : Nat} (hw : WrapLin P dev h w orig b r i o) (hb : LinAt P dev h b r r) {m : MObj}
    (hm : h.mods[orig]? = some m) (hl : m.layer = .linear i o) {t : Tensor K} (ht : h.paramVal orig nWeight = some t) (hs : t.shape = [o, i])
    (hd : t.dev = dev) (code : Code K) (n : Nat) (x : Tensor K) : h.callN code (n + 2) w x = h.callN code (n + 1) orig x := by
  obtain ⟨a, c, h1, h2, h3, h4⟩ := hw
  obtain ⟨ta, a1, a2, a3, a4⟩ := h2.call code
  obtain ⟨tb, b1, b2, b3, b4⟩ := hb.call code
  obtain ⟨tc, c1, c2, c3, c4⟩ := h3.call code
  have hB : Dict.get? [(nA, a), (nB, b), (nC, c), (nLin, orig)] nB = some b := rfl
  have hA : Dict.get? [(nA, a), (nB, b), (nC, c), (nLin, orig)] nA = some a := rfl
  have hC : Dict.get? [(nA, a), (nB, b), (nC, c), (nLin, orig)] nC = some c := rfl
  have hO : Dict.get? [(nA, a), (nB, b), (nC, c), (nLin, orig)] nLin = some orig := rfl
  rw [MHeap.callN]
  rw [h1]
  dsimp only
  rw [hA, hB, hC, hO]
  dsimp only
  have e : h.callN code (n + 1) orig x = linearForward t (h.paramVal orig nBias) x := by rw [callN_linear hm hl, ht]
  rw [e]
  cases hf : linearForward t (h.paramVal orig nBias) x with
  | error e => rfl
  | ok y =>
    dsimp only
    obtain ⟨u, v, z, u1, v1, z1, y1⟩ := lora_linear_zero hs hd a2 a1 b2 b1 (h4.val b3) c2 c1 hf
    rw [a4, u1]
    dsimp only
    rw [b4, v1]
    dsimp only
    rw [c4, z1]
    exact y1

/-- A wrapper of a convolution without dilation, with a bottleneck that fits, computes what the convolution computes. -/
theorem WrapConv.call {P : Nat} {dev : Dev} {h : MHeap K} {w orig b r i o : Nat} {g : ConvGeom} (hw : WrapConv P dev h w orig b r i o g)
    (hb : ConvAt P dev h b r r (1, 1) (1, 1) (0, 0)) {m : MObj} {gr j : Nat}
    (hm : h.mods[orig]? = some m) (hl : m.layer = .conv2d i o g gr) {t : Tensor K} (ht : h.paramVal orig nWeight = some t)
    (hs : t.shape = [o, j, g.kernel.1, g.kernel.2]) (hj : j * gr = i)
    (hdil : (g.dilation.1 = 1 ∨ g.kernel.1 = 1) ∧ (g.dilation.2 = 1 ∨ g.kernel.2 = 1))
    (hd : t.dev = dev) (code : Code K) (n : Nat) (x : Tensor K) : h.callN code (n + 2) w x = h.callN code (n + 1) orig x := by
  obtain ⟨a, c, h1, h2, h3, h4⟩ := hw
  obtain ⟨ta, a1, a2, a3, a4⟩ := h2.call code
  obtain ⟨tb, b1, b2, b3, b4⟩ := hb.call code
  obtain ⟨tc, c1, c2, c3, c4⟩ := h3.call code
  have hB : Dict.get? [(nA, a), (nB, b), (nC, c), (nConv, orig)] nB = some b := rfl
  have hA : Dict.get? [(nA, a), (nB, b), (nC, c), (nConv, orig)] nA = some a := rfl
  have hC : Dict.get? [(nA, a), (nB, b), (nC, c), (nConv, orig)] nC = some c := rfl
  have hO : Dict.get? [(nA, a), (nB, b), (nC, c), (nConv, orig)] nConv = some orig := rfl
  rw [MHeap.callN]
  rw [h1]
  dsimp only
  rw [hA, hB, hC, hO]
  dsimp only
  have e : h.callN code (n + 1) orig x = conv2dForward g gr t (h.paramVal orig nBias) x := by rw [callN_conv hm hl, ht]
  rw [e]
  cases hf : conv2dForward g gr t (h.paramVal orig nBias) x with
  | error e => rfl
  | ok y =>
    dsimp only
    obtain ⟨u, v, z, u1, v1, z1, y1⟩ := lora_conv_zero hs hj hd hdil a2 a1 b2 b1 (h4.val b3) c2 c1 hf
    rw [a4, u1]
    dsimp only
    rw [b4, v1]
    dsimp only
    rw [c4, z1]
    exact y1

end Logix
