/-
C27, C28, C29: per-sample gradients and covariance coordinates of linear and convolutional layers.
-/
import Verif.Spec.Grad
import Verif.Lemmas.Tensor

namespace Logix
variable {K : Type}

theorem dropLast_append_single (mid : List Nat) (d : Nat) : ∃ i s, mid ++ [d] = i :: s := by
  cases mid with
  | nil => exact ⟨d, [], rfl⟩
  | cons a m => exact ⟨a, m ++ [d], rfl⟩

/-- Entries of `outerSum`. -/
theorem outerSum_ok [Semiring K] (bwd fwd : Tensor K) (N I J : Nat) (mid : List Nat) (hb : bwd.shape = N :: (mid ++ [I]))
    (hf : fwd.shape = N :: (mid ++ [J])) (hd : bwd.dev = fwd.dev) :
    ∃ g, outerSum bwd fwd = .ok g ∧ g.shape = [N, I, J] ∧ g.dev = bwd.dev ∧ ∀ n i j, n < N → i < I → j < J →
      g.el [n, i, j] = ((indices mid).map fun p => bwd.el (n :: (p ++ [i])) * fwd.el (n :: (p ++ [j]))).sum := by
  obtain ⟨i0, s0, h0⟩ := dropLast_append_single mid I
  obtain ⟨j0, t0, h1⟩ := dropLast_append_single mid J
  have hn : ∀ d : Nat, numel (N :: (mid ++ [d])) = numel [N, numel mid, d] := by
    intro d; simp only [numel_cons, numel_append]
  obtain ⟨b, hb1, hb2, _⟩ := reshape_eq_ok (t := bwd) (s := [N, numel mid, I]) (by rw [hb, hn])
  obtain ⟨f, hf1, hf2, _⟩ := reshape_eq_ok (t := fwd) (s := [N, numel mid, J]) (by rw [hf, hn])
  have key : ∀ (t u : Tensor K) (d : Nat), t.shape = N :: (mid ++ [d]) → t.reshape [N, numel mid, d] = .ok u → ∀ n p i, n < N →
      inRange mid p = true → i < d → u.el [n, ravel mid p, i] = t.el (n :: (p ++ [i])) := by
    intro t u d ht hu n p i hn hp hi
    have hr : inRange (mid ++ [d]) (p ++ [i]) = true := inRange_append _ _ _ _ hp (by simp [inRange, hi])
    apply el_reshape hu
    · rw [ht]; simp only [inRange, hr, Bool.and_true, decide_eq_true_eq]; exact hn
    · simp [inRange, hn, hi, ravel_lt mid p hp]
    · rw [ht]
      simp only [ravel, ravel_append mid [d] p [i] hp, numel_append, numel_cons, numel_nil]
  refine ⟨Tensor.ofFn3 bwd.dev N I J fun n a c => ∑ t ∈ Finset.range (numel mid), b.el [n, t, a] * f.el [n, t, c],
    ?_, rfl, rfl, ?_⟩
  · unfold outerSum
    have e1 : (i0 :: s0).dropLast = mid := by rw [← h0]; simp
    have e2 : (j0 :: t0).dropLast = mid := by rw [← h1]; simp
    have e3 : (i0 :: s0).getLast (by simp) = I := by simp [← h0]
    have e4 : (j0 :: t0).getLast (by simp) = J := by simp [← h1]
    rw [hb, hf, h0, h1]
    simp only [e1, e2, e3, e4, and_self, hd, if_true]
    rw [hd] at *
    simp only [hb1, hf1]
  · intro n i j hn hi hj
    rw [Tensor.el_ofFn3 _ _ _ _ _ hn hi hj, sum_range_numel mid]
    apply congrArg
    apply List.map_congr_left
    intro p hp
    have hp' := (mem_indices mid p).1 hp
    rw [key bwd b I hb hb1 n p i hn hp' hi, key fwd f J hf hf1 n p j hn hp' hj]

theorem list_sum_finset {ι : Type} [AddCommMonoid K] (l : List ι) (m : Nat) (f : ι → Nat → K) :
    ∑ i ∈ Finset.range m, (l.map fun p => f p i).sum = (l.map fun p => ∑ i ∈ Finset.range m, f p i).sum := by
  induction l with
  | nil => simp
  | cons a l ih => simp only [List.map_cons, List.sum_cons, Finset.sum_add_distrib, ih]

/-- C27. For a linear layer, inputs `[N, ..., J]` and output gradients `[N, ..., I]` with any middle dimensions `mid`, the logged tensor
has shape `[N, I, J]` and its slice of sample `n` is the gradient with respect to the weight of that sample's part of the loss: paired with
any weight perturbation `H` it gives the sum over positions and output features of the output gradient times the output of a layer with
weight `H`. -/
theorem C27_linear_gradient [CommSemiring K] (fwd bwd : Tensor K) (N I J : Nat) (mid : List Nat)
    (hf : fwd.shape = N :: (mid ++ [J])) (hb : bwd.shape = N :: (mid ++ [I])) (hd : bwd.dev = fwd.dev) :
    ∃ g, computePerSampleGradient fwd bwd .linear = .ok g ∧ g.shape = [N, I, J] ∧
      ∀ n < N, ∀ H : Nat → Nat → K,
        ∑ i ∈ Finset.range I, ∑ j ∈ Finset.range J, g.el [n, i, j] * H i j =
          ((indices mid).map fun p => ∑ i ∈ Finset.range I, bwd.el (n :: p ++ [i]) * Spec.linearOut H J fwd (n :: p) i).sum := by
  obtain ⟨g, h1, h2, _, h3⟩ := outerSum_ok bwd fwd N I J mid hb hf hd
  refine ⟨g, h1, h2, ?_⟩
  intro n hn H
  rw [← list_sum_finset]
  apply Finset.sum_congr rfl
  intro i hi
  have hi' := Finset.mem_range.1 hi
  have : ∀ p, bwd.el (n :: p ++ [i]) * Spec.linearOut H J fwd (n :: p) i =
      ∑ j ∈ Finset.range J, bwd.el (n :: (p ++ [i])) * (H i j * fwd.el (n :: (p ++ [j]))) := by
    intro p
    rw [Spec.linearOut, Finset.mul_sum]
    rfl
  simp only [this]
  rw [← list_sum_finset]
  apply Finset.sum_congr rfl
  intro j hj
  rw [h3 n i j hn hi' (Finset.mem_range.1 hj), ← List.sum_map_mul_right]
  apply congrArg
  apply List.map_congr_left
  intro p _
  ring

/-- C27, second part: summed over the samples, the logged tensor is the gradient of the whole batch. -/
theorem C27_batch_gradient [CommSemiring K] (fwd bwd : Tensor K) (N I J : Nat) (mid : List Nat)
    (hf : fwd.shape = N :: (mid ++ [J])) (hb : bwd.shape = N :: (mid ++ [I])) (hd : bwd.dev = fwd.dev) :
    ∃ g, computePerSampleGradient fwd bwd .linear = .ok g ∧ ∀ H : Nat → Nat → K,
        ∑ i ∈ Finset.range I, ∑ j ∈ Finset.range J, (∑ n ∈ Finset.range N, g.el [n, i, j]) * H i j =
          ((indices (N :: mid)).map fun p => ∑ i ∈ Finset.range I, bwd.el (p ++ [i]) * Spec.linearOut H J fwd p i).sum := by
  obtain ⟨g, h1, _, h3⟩ := C27_linear_gradient fwd bwd N I J mid hf hb hd
  refine ⟨g, h1, fun H => ?_⟩
  have e : ((indices (N :: mid)).map fun p => ∑ i ∈ Finset.range I, bwd.el (p ++ [i]) * Spec.linearOut H J fwd p i).sum
      = ∑ n ∈ Finset.range N, ∑ i ∈ Finset.range I, ∑ j ∈ Finset.range J, g.el [n, i, j] * H i j := by
    rw [← list_sum_range, indices, List.map_flatMap, List.flatMap_def, List.sum_flatten, List.map_map]
    apply congrArg
    apply List.map_congr_left
    intro n hn
    rw [h3 n (List.mem_range.1 hn) H]
    simp only [Function.comp, List.map_map]
    rfl
  rw [e]
  symm
  rw [Finset.sum_comm]
  apply Finset.sum_congr rfl
  intro i _
  rw [Finset.sum_comm]
  apply Finset.sum_congr rfl
  intro j _
  rw [Finset.sum_mul]


theorem sum_range_mul' [AddCommMonoid K] (a b : Nat) (f : Nat → K) :
    ∑ r ∈ Finset.range (a * b), f r = ∑ i ∈ Finset.range a, ∑ j ∈ Finset.range b, f (i * b + j) := by
  induction a with
  | zero => simp
  | succ a ih => rw [Nat.succ_mul, Finset.sum_range_add, ih, Finset.sum_range_succ]

theorem pad2d_el [Semiring K] (t : Tensor K) (N C h w : Nat) (ht : t.shape = [N, C, h, w]) (p : Nat × Nat) {n c Y X : Nat}
    (hn : n < N) (hc : c < C) (hY : Y < h + 2 * p.1) (hX : X < w + 2 * p.2) :
    (t.pad2d p).el [n, c, Y, X] = Spec.pixel t n c ((Y : Int) - p.1) ((X : Int) - p.2) := by
  have s0 : t.size 0 = N := by simp [Tensor.size, ht]
  have s1 : t.size 1 = C := by simp [Tensor.size, ht]
  have s2 : t.size 2 = h := by simp [Tensor.size, ht]
  have s3 : t.size 3 = w := by simp [Tensor.size, ht]
  unfold Tensor.pad2d Spec.pixel
  rw [Tensor.el_ofFn4 _ _ _ _ _ _ (by omega) (by omega) (by omega) (by omega)]
  by_cases hp : p.1 ≤ Y ∧ p.2 ≤ X
  · rw [if_pos hp, if_pos (by omega)]
    have e1 : ((Y : Int) - p.1).toNat = Y - p.1 := by omega
    have e2 : ((X : Int) - p.2).toNat = X - p.2 := by omega
    rw [e1, e2]
  · rw [if_neg hp, if_neg (by omega)]

theorem window_lt {k s p d h y i : Nat} (hk : 0 < k) (hs : 0 < s) (hfit : d * (k - 1) + 1 ≤ h + 2 * p)
    (hy : y < Spec.outSize k s p d h) (hi : i < k) : y * s + i * d < h + 2 * p := by
  unfold Spec.outSize at hy
  have h1 : y ≤ (h + 2 * p - (d * (k - 1) + 1)) / s := by omega
  have h2 : y * s ≤ h + 2 * p - (d * (k - 1) + 1) := (Nat.le_div_iff_mul_le hs).1 h1
  have h3 : d * i ≤ d * (k - 1) := Nat.mul_le_mul_left d (by omega)
  rw [Nat.mul_comm i d]
  omega

theorem flat3_lt {c i j C k0 k1 : Nat} (hc : c < C) (hi : i < k0) (hj : j < k1) : (c * k0 + i) * k1 + j < C * k0 * k1 := by
  have h1 : (c + 1) * k0 ≤ C * k0 := Nat.mul_le_mul_right _ hc
  have h2 : (c * k0 + i + 1) * k1 ≤ C * k0 * k1 := Nat.mul_le_mul_right _ (by rw [Nat.add_mul] at h1; omega)
  have h3 : (c * k0 + i + 1) * k1 = (c * k0 + i) * k1 + k1 := by ring
  omega

theorem flat2_lt {i j a b : Nat} (hi : i < a) (hj : j < b) : i * b + j < a * b := by
  have h1 : (i + 1) * b ≤ a * b := Nat.mul_le_mul_right _ hi
  have h2 : (i + 1) * b = i * b + b := by ring
  omega

theorem flat_div {i j b : Nat} (hj : j < b) : (i * b + j) / b = i := by
  rw [Nat.mul_comm, Nat.mul_add_div (by omega), Nat.div_eq_of_lt hj, Nat.add_zero]

theorem flat_mod {i j b : Nat} (hj : j < b) : (i * b + j) % b = j := by
  rw [Nat.mul_comm, Nat.mul_add_mod, Nat.mod_eq_of_lt hj]

/-- The columns of `F.unfold` are the input patches. -/
theorem unfoldImages_ok [Semiring K] (x : Tensor K) (N C h w : Nat) (hx : x.shape = [N, C, h, w]) (g : ConvGeom) (hg : Spec.Fits g h w) :
    ∃ u, unfoldImages x g = .ok u ∧ u.dev = x.dev ∧
      u.shape = [N, C * g.kernel.1 * g.kernel.2, Spec.outSize g.kernel.1 g.stride.1 g.padding.1 g.dilation.1 h *
        Spec.outSize g.kernel.2 g.stride.2 g.padding.2 g.dilation.2 w] ∧
      ∀ n c i j y z, n < N → c < C → i < g.kernel.1 → j < g.kernel.2 →
        y < Spec.outSize g.kernel.1 g.stride.1 g.padding.1 g.dilation.1 h →
        z < Spec.outSize g.kernel.2 g.stride.2 g.padding.2 g.dilation.2 w →
        u.el [n, (c * g.kernel.1 + i) * g.kernel.2 + j, y * Spec.outSize g.kernel.2 g.stride.2 g.padding.2 g.dilation.2 w + z] =
          Spec.pixel x n c (y * g.stride.1 + i * g.dilation.1 - g.padding.1) (z * g.stride.2 + j * g.dilation.2 - g.padding.2) := by
  obtain ⟨hk1, hk2, hs1, hs2, hh, hw⟩ := hg
  let u : Tensor K := Tensor.ofFn3 x.dev N (C * g.kernel.1 * g.kernel.2)
    (((h + 2 * g.padding.1 - (g.dilation.1 * (g.kernel.1 - 1) + 1)) / g.stride.1 + 1) *
      ((w + 2 * g.padding.2 - (g.dilation.2 * (g.kernel.2 - 1) + 1)) / g.stride.2 + 1)) fun n r l =>
    (x.pad2d g.padding).el [n, r / (g.kernel.1 * g.kernel.2),
      l / ((w + 2 * g.padding.2 - (g.dilation.2 * (g.kernel.2 - 1) + 1)) / g.stride.2 + 1) * g.stride.1 +
        r / g.kernel.2 % g.kernel.1 * g.dilation.1,
      l % ((w + 2 * g.padding.2 - (g.dilation.2 * (g.kernel.2 - 1) + 1)) / g.stride.2 + 1) * g.stride.2 +
        r % g.kernel.2 * g.dilation.2]
  have hu : unfoldImages x g = .ok u := by
    unfold unfoldImages
    rw [hx]
    simp only
    rw [if_pos ⟨hh, hw, hk1, hk2, hs1, hs2⟩]
  refine ⟨u, hu, rfl, rfl, ?_⟩
  intro n c i j y z hn hc hi hj hy hz
  refine (Tensor.el_ofFn3 _ _ _ _ _ hn (flat3_lt hc hi hj) (flat2_lt hy hz)).trans ?_
  have e1 : ((c * g.kernel.1 + i) * g.kernel.2 + j) / (g.kernel.1 * g.kernel.2) = c := by
    rw [Nat.mul_comm g.kernel.1, ← Nat.div_div_eq_div_mul, flat_div hj, flat_div hi]
  have e2 : ((c * g.kernel.1 + i) * g.kernel.2 + j) / g.kernel.2 % g.kernel.1 = i := by rw [flat_div hj, flat_mod hi]
  have e3 : ((c * g.kernel.1 + i) * g.kernel.2 + j) % g.kernel.2 = j := flat_mod hj
  have e4 : (y * Spec.outSize g.kernel.2 g.stride.2 g.padding.2 g.dilation.2 w + z) / ((w + 2 * g.padding.2 - (g.dilation.2 * (g.kernel.2 - 1) + 1)) / g.stride.2 + 1) = y :=
    flat_div hz
  have e5 : (y * Spec.outSize g.kernel.2 g.stride.2 g.padding.2 g.dilation.2 w + z) % ((w + 2 * g.padding.2 - (g.dilation.2 * (g.kernel.2 - 1) + 1)) / g.stride.2 + 1) = z :=
    flat_mod hz
  rw [e1, e2, e3, e4, e5, pad2d_el x N C h w hx g.padding hn hc (window_lt hk1 hs1 hh hy hi) (window_lt hk2 hs2 hw hz hj)]
  push_cast
  rfl

/-- Entries of the per-sample gradient of a convolution. -/
theorem convGrad_ok [CommSemiring K] (fwd bwd : Tensor K) (N C O h w : Nat) (g : ConvGeom) (hg : Spec.Fits g h w) (hN : 0 < N) (hO : 0 < O)
    (hf : fwd.shape = [N, C, h, w])
    (hb : bwd.shape = [N, O, Spec.outSize g.kernel.1 g.stride.1 g.padding.1 g.dilation.1 h,
      Spec.outSize g.kernel.2 g.stride.2 g.padding.2 g.dilation.2 w]) (hd : bwd.dev = fwd.dev) :
    ∃ G, computePerSampleGradient fwd bwd (.conv2d g O) = .ok G ∧ G.shape = [N, O, C * g.kernel.1 * g.kernel.2] ∧
      ∀ n o c i j, n < N → o < O → c < C → i < g.kernel.1 → j < g.kernel.2 →
        G.el [n, o, (c * g.kernel.1 + i) * g.kernel.2 + j] =
          ∑ y ∈ Finset.range (Spec.outSize g.kernel.1 g.stride.1 g.padding.1 g.dilation.1 h),
            ∑ z ∈ Finset.range (Spec.outSize g.kernel.2 g.stride.2 g.padding.2 g.dilation.2 w),
              bwd.el [n, o, y, z] *
                Spec.pixel fwd n c (y * g.stride.1 + i * g.dilation.1 - g.padding.1) (z * g.stride.2 + j * g.dilation.2 - g.padding.2) := by
  obtain ⟨u, hu1, hud, hu2, hu3⟩ := unfoldImages_ok fwd N C h w hf g hg
  generalize hoh : Spec.outSize g.kernel.1 g.stride.1 g.padding.1 g.dilation.1 h = oh at *
  generalize how : Spec.outSize g.kernel.2 g.stride.2 g.padding.2 g.dilation.2 w = ow at *
  have hoh0 : 0 < oh := by rw [← hoh]; simp [Spec.outSize]
  have how0 : 0 < ow := by rw [← how]; simp [Spec.outSize]
  have hL : 0 < oh * ow := Nat.mul_pos hoh0 how0
  have hu2' : u.size 2 = oh * ow := by simp [Tensor.size, hu2]
  have hu1' : u.size 1 = C * g.kernel.1 * g.kernel.2 := by simp [Tensor.size, hu2]
  have hf0 : fwd.size 0 = N := by simp [Tensor.size, hf]
  have hnum : numel bwd.shape = numel [N] * numel [oh * ow] * O := by rw [hb]; simp [numel]; ring
  have hinf := reshapeInfer_eq bwd [N] [oh * ow] O (by simp only [numel_singleton]; exact (Nat.mul_pos hN hL).ne') hnum
  obtain ⟨b, hb1, hb2, hbd⟩ := reshape_eq_ok (t := bwd) (s := [N] ++ O :: [oh * ow]) (by rw [hnum]; simp [numel]; ring)
  have hb2' : b.size 1 = O := by simp [Tensor.size, hb2]
  let G0 : Tensor K := Tensor.ofFn3 bwd.dev N O (C * g.kernel.1 * g.kernel.2) fun n j l =>
    ∑ k ∈ Finset.range (oh * ow), b.el [n, j, k] * u.el [n, l, k]
  have hinf2 := reshapeInfer_eq G0 [N, O] [] (C * g.kernel.1 * g.kernel.2)
    (by simp only [numel_cons, numel_nil, Nat.mul_one]; exact (Nat.mul_pos hN hO).ne') (by simp [G0, numel])
  obtain ⟨G, hG1, hG2, _⟩ := reshape_eq_ok (t := G0) (s := [N, O] ++ (C * g.kernel.1 * g.kernel.2) :: []) (by simp [G0])
  refine ⟨G, ?_, hG2, ?_⟩
  · unfold computePerSampleGradient
    simp only [hu1, hf0, hu2', hinf, hb1, hu1', hb2']
    rw [if_pos (by rw [hbd, hd, hud])]
    exact hinf2.trans hG1
  · intro n o c i j hn ho hc hi hj
    rw [el_reshape hG1 [n, o, (c * g.kernel.1 + i) * g.kernel.2 + j] _ (by simp [G0, inRange, hn, ho, flat3_lt hc hi hj])
      (by simp [inRange, hn, ho, flat3_lt hc hi hj]) (by simp [G0]), Tensor.el_ofFn3 _ _ _ _ _ hn ho (flat3_lt hc hi hj), sum_range_mul']
    apply Finset.sum_congr rfl
    intro y hy
    apply Finset.sum_congr rfl
    intro z hz
    have hy := Finset.mem_range.1 hy
    have hz := Finset.mem_range.1 hz
    rw [hu3 n c i j y z hn hc hi hj hy hz]
    congr 1
    apply el_reshape hb1
    · rw [hb]; simp [inRange, hn, ho, hy, hz]
    · simp [inRange, hn, ho, flat2_lt hy hz]
    · rw [hb]; simp only [List.cons_append, List.nil_append, ravel, numel_cons, numel_nil]; ring

/-- C28. For a `Conv2d` (groups = 1) of any geometry that fits the image, the logged tensor has shape `[N, O, C*k0*k1]`, its last dimension
enumerating the weight's `(c, i, j)` in C order, and its slice of sample `n` is the gradient with respect to the weight: paired with any
weight perturbation `H` it gives the sum over output channels and pixels of the output gradient times the convolution of the input
by `H`. -/
theorem C28_conv_gradient [CommSemiring K] (fwd bwd : Tensor K) (N C O h w : Nat) (g : ConvGeom) (hg : Spec.Fits g h w) (hN : 0 < N)
    (hO : 0 < O) (hf : fwd.shape = [N, C, h, w])
    (hb : bwd.shape = [N, O, Spec.outSize g.kernel.1 g.stride.1 g.padding.1 g.dilation.1 h,
      Spec.outSize g.kernel.2 g.stride.2 g.padding.2 g.dilation.2 w]) (hd : bwd.dev = fwd.dev) :
    ∃ G, computePerSampleGradient fwd bwd (.conv2d g O) = .ok G ∧ G.shape = [N, O, C * g.kernel.1 * g.kernel.2] ∧
      ∀ n < N, ∀ H : Nat → Nat → Nat → Nat → K,
        ∑ o ∈ Finset.range O, ∑ c ∈ Finset.range C, ∑ i ∈ Finset.range g.kernel.1, ∑ j ∈ Finset.range g.kernel.2,
            G.el [n, o, (c * g.kernel.1 + i) * g.kernel.2 + j] * H o c i j =
          ∑ o ∈ Finset.range O, ∑ y ∈ Finset.range (Spec.outSize g.kernel.1 g.stride.1 g.padding.1 g.dilation.1 h),
            ∑ z ∈ Finset.range (Spec.outSize g.kernel.2 g.stride.2 g.padding.2 g.dilation.2 w),
              bwd.el [n, o, y, z] * Spec.convOut H g C fwd n o y z := by
  obtain ⟨G, h1, h2, h3⟩ := convGrad_ok fwd bwd N C O h w g hg hN hO hf hb hd
  refine ⟨G, h1, h2, ?_⟩
  intro n hn H
  apply Finset.sum_congr rfl
  intro o ho
  have ho := Finset.mem_range.1 ho
  generalize Spec.outSize g.kernel.1 g.stride.1 g.padding.1 g.dilation.1 h = oh at *
  generalize Spec.outSize g.kernel.2 g.stride.2 g.padding.2 g.dilation.2 w = ow at *
  -- both sides are sums of the same terms over c, i, j, y, z
  have hl : ∀ c ∈ Finset.range C, ∑ i ∈ Finset.range g.kernel.1, ∑ j ∈ Finset.range g.kernel.2,
      G.el [n, o, (c * g.kernel.1 + i) * g.kernel.2 + j] * H o c i j =
      ∑ y ∈ Finset.range oh, ∑ z ∈ Finset.range ow, ∑ i ∈ Finset.range g.kernel.1, ∑ j ∈ Finset.range g.kernel.2,
        bwd.el [n, o, y, z] * (H o c i j * Spec.pixel fwd n c (y * g.stride.1 + i * g.dilation.1 - g.padding.1)
          (z * g.stride.2 + j * g.dilation.2 - g.padding.2)) := by
    intro c hc
    have hc := Finset.mem_range.1 hc
    have : ∀ i ∈ Finset.range g.kernel.1, ∑ j ∈ Finset.range g.kernel.2,
        G.el [n, o, (c * g.kernel.1 + i) * g.kernel.2 + j] * H o c i j =
        ∑ y ∈ Finset.range oh, ∑ z ∈ Finset.range ow, ∑ j ∈ Finset.range g.kernel.2,
        bwd.el [n, o, y, z] * (H o c i j * Spec.pixel fwd n c (y * g.stride.1 + i * g.dilation.1 - g.padding.1)
          (z * g.stride.2 + j * g.dilation.2 - g.padding.2)) := by
      intro i hi
      have hi := Finset.mem_range.1 hi
      have : ∀ j ∈ Finset.range g.kernel.2, G.el [n, o, (c * g.kernel.1 + i) * g.kernel.2 + j] * H o c i j =
          ∑ y ∈ Finset.range oh, ∑ z ∈ Finset.range ow,
          bwd.el [n, o, y, z] * (H o c i j * Spec.pixel fwd n c (y * g.stride.1 + i * g.dilation.1 - g.padding.1)
            (z * g.stride.2 + j * g.dilation.2 - g.padding.2)) := by
        intro j hj
        rw [h3 n o c i j hn ho hc hi (Finset.mem_range.1 hj), Finset.sum_mul]
        refine Finset.sum_congr rfl fun y _ => ?_
        rw [Finset.sum_mul]
        refine Finset.sum_congr rfl fun z _ => ?_
        ring
      rw [Finset.sum_congr rfl this, Finset.sum_comm]
      refine Finset.sum_congr rfl fun y _ => ?_
      rw [Finset.sum_comm]
    rw [Finset.sum_congr rfl this, Finset.sum_comm]
    refine Finset.sum_congr rfl fun y _ => ?_
    rw [Finset.sum_comm]
  rw [Finset.sum_congr rfl hl, Finset.sum_comm]
  refine Finset.sum_congr rfl fun y _ => ?_
  rw [Finset.sum_comm]
  refine Finset.sum_congr rfl fun z _ => ?_
  unfold Spec.convOut
  simp only [Finset.mul_sum]

/-- Entries of the rows that enter the forward covariance of a convolution (the dilation plays no role). -/
theorem makeForward2d_conv [Semiring K] (x : Tensor K) (N C h w O : Nat) (hx : x.shape = [N, C, h, w]) (g : ConvGeom)
    (hk1 : 0 < g.kernel.1) (hk2 : 0 < g.kernel.2) (hs1 : 0 < g.stride.1) (hs2 : 0 < g.stride.2)
    (hh : g.kernel.1 ≤ h + 2 * g.padding.1) (hw : g.kernel.2 ≤ w + 2 * g.padding.2) (hC : 0 < C) :
    ∃ P, makeForward2d x (.conv2d g O) = .ok P ∧
      P.shape = [N * (Spec.outSize g.kernel.1 g.stride.1 g.padding.1 1 h * Spec.outSize g.kernel.2 g.stride.2 g.padding.2 1 w),
        C * g.kernel.1 * g.kernel.2] ∧
      ∀ n c i j y z, n < N → c < C → i < g.kernel.1 → j < g.kernel.2 → y < Spec.outSize g.kernel.1 g.stride.1 g.padding.1 1 h →
        z < Spec.outSize g.kernel.2 g.stride.2 g.padding.2 1 w →
        P.el [n * (Spec.outSize g.kernel.1 g.stride.1 g.padding.1 1 h * Spec.outSize g.kernel.2 g.stride.2 g.padding.2 1 w) +
            (y * Spec.outSize g.kernel.2 g.stride.2 g.padding.2 1 w + z), (c * g.kernel.1 + i) * g.kernel.2 + j] =
          Spec.pixel x n c (y * g.stride.1 + i - g.padding.1) (z * g.stride.2 + j - g.padding.2) := by
  let t : Tensor K := if g.padding.1 + g.padding.2 > 0 then x.pad2d g.padding else x
  have ht2 : t.size 2 = h + 2 * g.padding.1 := by
    by_cases hp : g.padding.1 + g.padding.2 > 0
    · simp only [t, if_pos hp]; simp [Tensor.size, Tensor.pad2d, hx]
    · simp only [t, if_neg hp]; simp [Tensor.size, hx]; omega
  have ht3 : t.size 3 = w + 2 * g.padding.2 := by
    by_cases hp : g.padding.1 + g.padding.2 > 0
    · simp only [t, if_pos hp]; simp [Tensor.size, Tensor.pad2d, hx]
    · simp only [t, if_neg hp]; simp [Tensor.size, hx]; omega
  have htel : ∀ n c Y X, n < N → c < C → Y < h + 2 * g.padding.1 → X < w + 2 * g.padding.2 →
      t.el [n, c, Y, X] = Spec.pixel x n c ((Y : Int) - g.padding.1) ((X : Int) - g.padding.2) := by
    intro n c Y X hn hc hY hX
    by_cases hp : g.padding.1 + g.padding.2 > 0
    · simp only [t, if_pos hp]; exact pad2d_el x N C h w hx g.padding hn hc hY hX
    · simp only [t, if_neg hp]
      have h1 : g.padding.1 = 0 := by omega
      have h2 : g.padding.2 = 0 := by omega
      unfold Spec.pixel
      rw [h1, h2, if_pos (by omega)]
      simp
  have eoh : (h + 2 * g.padding.1 - g.kernel.1) / g.stride.1 + 1 = Spec.outSize g.kernel.1 g.stride.1 g.padding.1 1 h := by
    unfold Spec.outSize
    have : 1 * (g.kernel.1 - 1) + 1 = g.kernel.1 := by omega
    rw [this]
  have eow : (w + 2 * g.padding.2 - g.kernel.2) / g.stride.2 + 1 = Spec.outSize g.kernel.2 g.stride.2 g.padding.2 1 w := by
    unfold Spec.outSize
    have : 1 * (g.kernel.2 - 1) + 1 = g.kernel.2 := by omega
    rw [this]
  have hwy : ∀ y i, y < Spec.outSize g.kernel.1 g.stride.1 g.padding.1 1 h → i < g.kernel.1 → y * g.stride.1 + i < h + 2 * g.padding.1 := by
    intro y i hy hi
    have := window_lt (d := 1) hk1 hs1 (by omega) hy hi
    rwa [Nat.mul_one] at this
  have hwz : ∀ y i, y < Spec.outSize g.kernel.2 g.stride.2 g.padding.2 1 w → i < g.kernel.2 → y * g.stride.2 + i < w + 2 * g.padding.2 := by
    intro y i hy hi
    have := window_lt (d := 1) hk2 hs2 (by omega) hy hi
    rwa [Nat.mul_one] at this
  generalize Spec.outSize g.kernel.1 g.stride.1 g.padding.1 1 h = oh at *
  generalize Spec.outSize g.kernel.2 g.stride.2 g.padding.2 1 w = ow at *
  let T6 : Tensor K := Tensor.ofFn6 t.dev N oh ow C g.kernel.1 g.kernel.2 fun n y x c i j =>
    t.el [n, c, y * g.stride.1 + i, x * g.stride.2 + j]
  obtain ⟨Q, hQ1, hQ2, _⟩ := reshape_eq_ok (t := T6) (s := [N, oh, ow, C * g.kernel.1 * g.kernel.2]) (by simp [T6, numel]; ring)
  have hR : 0 < C * g.kernel.1 * g.kernel.2 := Nat.mul_pos (Nat.mul_pos hC hk1) hk2
  have hinf := reshapeInfer_eq Q [] [C * g.kernel.1 * g.kernel.2] (N * (oh * ow)) (by simp only [numel_nil, numel_singleton, Nat.one_mul]; omega)
    (by rw [hQ2]; simp [numel]; ring)
  obtain ⟨P, hP1, hP2, _⟩ := reshape_eq_ok (t := Q) (s := [] ++ (N * (oh * ow)) :: [C * g.kernel.1 * g.kernel.2])
    (by rw [hQ2]; simp only [List.nil_append, numel_cons, numel_nil]; ring)
  refine ⟨P, ?_, hP2, ?_⟩
  · have hq3 : Q.size 3 = C * g.kernel.1 * g.kernel.2 := by simp [Tensor.size, hQ2]
    have hE : extractPatches x g = .ok Q := by
      unfold extractPatches
      rw [hx]
      show (if g.kernel.1 ≤ t.size 2 ∧ g.kernel.2 ≤ t.size 3 ∧ 0 < g.stride.1 ∧ 0 < g.stride.2 then _ else _) = _
      rw [if_pos ⟨by omega, by omega, hs1, hs2⟩, ht2, ht3, eoh, eow]
      exact hQ1
    unfold makeForward2d
    simp only [hE, hq3]
    exact hinf.trans hP1
  · intro n c i j y z hn hc hi hj hy hz
    have hr := flat3_lt hc hi hj
    have hl := flat2_lt hy hz
    rw [el_reshape hP1 [n, y, z, (c * g.kernel.1 + i) * g.kernel.2 + j] _ (by rw [hQ2]; simp [inRange, hn, hy, hz, hr])
      (by simp [inRange, hr, flat2_lt hn hl]) (by rw [hQ2]; simp only [List.nil_append, ravel, numel_cons, numel_nil]; ring),
      el_reshape hQ1 [n, y, z, c, i, j] _ (by simp [T6, inRange, hn, hy, hz, hc, hi, hj]) (by simp [inRange, hn, hy, hz, hr])
        (by simp only [T6, Tensor.ofFn6_shape, ravel, numel_cons, numel_nil]; ring),
      Tensor.el_ofFn6 _ _ _ _ _ _ _ _ hn hy hz hc hi hj, htel n c _ _ hn hc (hwy y i hy hi) (hwz z j hz hj)]
    push_cast
    rfl

/-- The rows that enter the backward covariance of a convolution. -/
theorem makeBackward2d_conv [Semiring K] (b : Tensor K) (N O oh ow : Nat) (g : ConvGeom) (O' : Nat) (hb : b.shape = [N, O, oh, ow]) (hO : 0 < O) :
    ∃ B, makeBackward2d b (.conv2d g O') = .ok B ∧ B.shape = [N * (oh * ow), O] ∧
      ∀ n o y z, n < N → o < O → y < oh → z < ow → B.el [n * (oh * ow) + (y * ow + z), o] = b.el [n, o, y, z] := by
  have s0 : b.size 0 = N := by simp [Tensor.size, hb]
  have s1 : b.size 1 = O := by simp [Tensor.size, hb]
  have s2 : b.size 2 = oh := by simp [Tensor.size, hb]
  have s3 : b.size 3 = ow := by simp [Tensor.size, hb]
  have hs : b.permute0231.shape = [N, oh, ow, O] := by simp [Tensor.permute0231, s0, s1, s2, s3]
  have hinf := reshapeInfer_eq b.permute0231 [] [O] (N * (oh * ow)) (by simp [numel]; omega) (by rw [hs]; simp [numel]; ring)
  obtain ⟨B, hB1, hB2, _⟩ := reshape_eq_ok (t := b.permute0231) (s := [] ++ (N * (oh * ow)) :: [O])
    (by rw [hs]; simp only [List.nil_append, numel_cons, numel_nil]; ring)
  refine ⟨B, ?_, hB2, ?_⟩
  · unfold makeBackward2d
    simp only [hb]
    exact hinf.trans hB1
  · intro n o y z hn ho hy hz
    have hl := flat2_lt hy hz
    rw [el_reshape hB1 [n, y, z, o] _ (by rw [hs]; simp [inRange, hn, hy, hz, ho]) (by simp [inRange, ho, flat2_lt hn hl])
      (by rw [hs]; simp only [List.nil_append, ravel, numel_cons, numel_nil]; ring)]
    unfold Tensor.permute0231
    rw [s0, s1, s2, s3, Tensor.el_ofFn4 _ _ _ _ _ _ hn hy hz ho]

theorem exists_flat3 {C k0 k1 r : Nat} (h : r < C * k0 * k1) : ∃ c i j, c < C ∧ i < k0 ∧ j < k1 ∧ r = (c * k0 + i) * k1 + j := by
  have hk1 : 0 < k1 := by
    rcases Nat.eq_zero_or_pos k1 with h0 | h0
    · subst h0; simp at h
    · exact h0
  have hk0 : 0 < k0 := by
    rcases Nat.eq_zero_or_pos k0 with h0 | h0
    · subst h0; simp at h
    · exact h0
  have h2 : r / k1 < C * k0 := (Nat.div_lt_iff_lt_mul hk1).2 h
  refine ⟨r / k1 / k0, r / k1 % k0, r % k1, (Nat.div_lt_iff_lt_mul hk0).2 h2, Nat.mod_lt _ hk0, Nat.mod_lt _ hk1, ?_⟩
  rw [Nat.div_add_mod', Nat.div_add_mod']

/-- C29, the part that holds: with dilation 1, whatever the kernel, stride, padding and image size. -/
theorem C29_coordinates_partial [CommSemiring K] (fwd bwd : Tensor K) (N C O h w : Nat) (g : ConvGeom) (hg : Spec.Fits g h w) (hN : 0 < N)
    (hC : 0 < C) (hO : 0 < O) (hdil : g.dilation = (1, 1)) (hf : fwd.shape = [N, C, h, w])
    (hb : bwd.shape = [N, O, Spec.outSize g.kernel.1 g.stride.1 g.padding.1 g.dilation.1 h,
      Spec.outSize g.kernel.2 g.stride.2 g.padding.2 g.dilation.2 w]) (hd : bwd.dev = fwd.dev) :
    Spec.SharedCoordinates fwd bwd g N O (C * g.kernel.1 * g.kernel.2) := by
  obtain ⟨G, hG1, hG2, hG3⟩ := convGrad_ok fwd bwd N C O h w g hg hN hO hf hb hd
  obtain ⟨hk1, hk2, hs1, hs2, hh, hw⟩ := hg
  have d1 : g.dilation.1 = 1 := by rw [hdil]
  have d2 : g.dilation.2 = 1 := by rw [hdil]
  rw [d1] at hh
  rw [d2] at hw
  obtain ⟨P, hP1, hP2, hP3⟩ := makeForward2d_conv fwd N C h w O hf g hk1 hk2 hs1 hs2 (by omega) (by omega) hC
  obtain ⟨B, hB1, hB2, hB3⟩ := makeBackward2d_conv bwd N O _ _ g O hb hO
  rw [d1, d2] at hG3 hb hB2 hB3
  refine ⟨P, B, G, hP1, hB1, hG1, _, hP2, hB2, hG2, ?_⟩
  intro n o r hn ho hr
  obtain ⟨c, i, j, hc, hi, hj, rfl⟩ := exists_flat3 hr
  rw [hG3 n o c i j hn ho hc hi hj, sum_range_mul']
  refine Finset.sum_congr rfl fun y hy => Finset.sum_congr rfl fun z hz => ?_
  have hy := Finset.mem_range.1 hy
  have hz := Finset.mem_range.1 hz
  rw [hB3 n o y z hn ho hy hz, hP3 n c i j y z hn hc hi hj hy hz]
  simp

/-- C29 is false for the code when the dilation is not 1: for every batch of images and every convolution with stride 1 that is dilated in
its first dimension, the forward covariance is fed with more rows than there are output pixels. -/
theorem C29_dilation_refuted [CommSemiring K] (fwd bwd : Tensor K) (N C O h w : Nat) (g : ConvGeom) (hg : Spec.Fits g h w) (hN : 0 < N)
    (hC : 0 < C) (hO : 0 < O) (hs : g.stride = (1, 1)) (hk : 2 ≤ g.kernel.1) (hdil : 2 ≤ g.dilation.1) (hdil2 : 1 ≤ g.dilation.2)
    (hf : fwd.shape = [N, C, h, w])
    (hb : bwd.shape = [N, O, Spec.outSize g.kernel.1 g.stride.1 g.padding.1 g.dilation.1 h,
      Spec.outSize g.kernel.2 g.stride.2 g.padding.2 g.dilation.2 w]) :
    ¬ Spec.SharedCoordinates fwd bwd g N O (C * g.kernel.1 * g.kernel.2) := by
  rintro ⟨P, B, G, hP, hB, _, L, hPs, hBs, _⟩
  obtain ⟨hk1, hk2, hs1, hs2, hh, hw⟩ := hg
  have m1 : 2 * (g.kernel.1 - 1) ≤ g.dilation.1 * (g.kernel.1 - 1) := Nat.mul_le_mul_right _ hdil
  have m2 : 1 * (g.kernel.2 - 1) ≤ g.dilation.2 * (g.kernel.2 - 1) := Nat.mul_le_mul_right _ hdil2
  obtain ⟨P', hP1, hP2, _⟩ := makeForward2d_conv fwd N C h w O hf g hk1 hk2 hs1 hs2 (by omega) (by omega) hC
  obtain ⟨B', hB1, hB2, _⟩ := makeBackward2d_conv bwd N O _ _ g O hb hO
  have e1 : P' = P := Except.ok.inj (hP1.symm.trans hP)
  have e2 : B' = B := Except.ok.inj (hB1.symm.trans hB)
  subst e1 e2
  rw [hPs] at hP2
  rw [hBs] at hB2
  have h1 := (List.cons.inj hP2).1
  have h2 := (List.cons.inj hB2).1
  have h3 := Nat.eq_of_mul_eq_mul_left hN (h2.symm.trans h1)
  have s1 : g.stride.1 = 1 := by rw [hs]
  have s2 : g.stride.2 = 1 := by rw [hs]
  have a1 : Spec.outSize g.kernel.1 g.stride.1 g.padding.1 g.dilation.1 h < Spec.outSize g.kernel.1 g.stride.1 g.padding.1 1 h := by
    unfold Spec.outSize; rw [s1, Nat.div_one, Nat.div_one]; omega
  have a2 : Spec.outSize g.kernel.2 g.stride.2 g.padding.2 g.dilation.2 w ≤ Spec.outSize g.kernel.2 g.stride.2 g.padding.2 1 w := by
    unfold Spec.outSize; rw [s2, Nat.div_one, Nat.div_one]; omega
  have a3 : 0 < Spec.outSize g.kernel.2 g.stride.2 g.padding.2 1 w := by simp [Spec.outSize]
  have := Nat.mul_lt_mul_of_lt_of_le a1 a2 a3
  omega

namespace GradExample

/-- A geometry with padding and stride, and one with dilation, that fit a 4×5 image. -/
def g1 : ConvGeom := ⟨(2, 3), (2, 1), (1, 0), (1, 1)⟩
def g2 : ConvGeom := ⟨(2, 2), (1, 1), (0, 0), (2, 1)⟩
example : Spec.Fits g1 4 5 := by constructor <;> decide
example : Spec.Fits g2 4 5 := by constructor <;> decide

/-- Inputs and output gradients as required by C28 and C29 exist for every number of samples and channels. -/
example (N C O : Nat) (f : List Nat → Int) : ∃ fwd bwd : Tensor Int, fwd.shape = [N, C, 4, 5] ∧
    bwd.shape = [N, O, Spec.outSize g1.kernel.1 g1.stride.1 g1.padding.1 g1.dilation.1 4,
      Spec.outSize g1.kernel.2 g1.stride.2 g1.padding.2 g1.dilation.2 5] ∧ bwd.dev = fwd.dev :=
  ⟨Tensor.ofFn .cpu _ f, Tensor.ofFn .cpu _ f, rfl, rfl, rfl⟩

/-- The gradient of a linear layer over a sequence of length 2: a concrete value. -/
example : (computePerSampleGradient (K := Int) ⟨.cpu, [1, 2, 2], [1, 2, 3, 4], rfl⟩ ⟨.cpu, [1, 2, 1], [10, 100], rfl⟩ .linear) =
    .ok ⟨.cpu, [1, 1, 2], [310, 420], rfl⟩ := by decide +kernel

/-- The property fails for the dilated convolution `g2`. -/
theorem C29_witness_refuted : ¬ Spec.SharedCoordinates (K := Int) (Tensor.zeros .cpu [1, 1, 4, 5]) (Tensor.zeros .cpu [1, 1, 2, 4]) g2 1 1 4 :=
  C29_dilation_refuted _ _ 1 1 1 4 5 g2 (by constructor <;> decide) (by decide) (by decide) (by decide) rfl (by decide) (by decide) (by decide)
    rfl rfl

end GradExample
end Logix
