/-
C64: the gradient logged for a LoRA bottleneck.
-/
import Verif.Lemmas.LoraCall
import Verif.Props.Grad

set_option linter.unusedSectionVars false

namespace Logix
variable {K : Type}

theorem indices_nodup (s : List Nat) : (indices s).Nodup := by
  induction s with
  | nil => simp [indices]
  | cons m s ih =>
    rw [indices, List.nodup_flatMap]
    constructor
    · intro i _
      exact ih.map (fun a b h => (List.cons.inj h).2)
    · apply (List.nodup_range (n := m)).imp
      intro a b hab l h1 h2
      simp only [List.mem_map] at h1 h2
      obtain ⟨x, _, rfl⟩ := h1
      obtain ⟨y, _, hy⟩ := h2
      exact hab (List.cons.inj hy).1.symm

theorem indices_snoc (d : Nat) : ∀ s, indices (s ++ [d]) = (indices s).flatMap fun p => (List.range d).map fun i => p ++ [i]
  | [] => by simp [indices, List.map_eq_flatMap]
  | n :: s => by
    rw [List.cons_append, indices, indices_snoc d s, indices, List.flatMap_assoc]
    congr 1
    funext i
    rw [List.map_flatMap, List.flatMap_map]
    congr 1
    funext p
    simp

theorem sum_flatMap [AddCommMonoid K] {α : Type} (l : List α) (f : α → List K) : (l.flatMap f).sum = (l.map fun a => (f a).sum).sum := by
  induction l with
  | nil => rfl
  | cons a l ih => rw [List.flatMap_cons, List.sum_append, ih, List.map_cons, List.sum_cons]

theorem sum_range_list [AddCommMonoid K] (d : Nat) (f : Nat → K) : ((List.range d).map f).sum = ∑ i ∈ Finset.range d, f i := by
  rw [← List.sum_toFinset _ (List.nodup_range), List.toFinset_range]

theorem sum_indices_snoc [AddCommMonoid K] (s : List Nat) (d : Nat) (f : List Nat → K) :
    ((indices (s ++ [d])).map f).sum = ((indices s).map fun p => ∑ i ∈ Finset.range d, f (p ++ [i])).sum := by
  rw [indices_snoc, List.map_flatMap, sum_flatMap]
  congr 1
  apply List.map_congr_left
  intro p _
  rw [List.map_map, ← sum_range_list]
  rfl

theorem sum_indices_cons [AddCommMonoid K] (s : List Nat) (d : Nat) (f : List Nat → K) :
    ((indices (d :: s)).map f).sum = ∑ i ∈ Finset.range d, ((indices s).map fun p => f (i :: p)).sum := by
  rw [indices, List.map_flatMap, sum_flatMap, ← sum_range_list]
  congr 1
  apply List.map_congr_left
  intro p _
  rw [List.map_map]
  rfl

theorem sum_indices_single [AddCommMonoid K] {s p : List Nat} (hp : inRange s p = true) (f : List Nat → K) (hf : ∀ q, q ≠ p → f q = 0) :
    ((indices s).map f).sum = f p := by
  rw [← List.sum_toFinset _ (indices_nodup s)]
  refine Finset.sum_eq_single p (fun q _ hq => hf q hq) (fun h => ?_)
  rw [List.mem_toFinset, mem_indices] at h
  exact absurd hp h

variable [CommSemiring K]

/-- The tensor that is 1 at one place and 0 elsewhere. -/
def Tensor.single (dev : Dev) (s p : List Nat) : Tensor K := Tensor.ofFn dev s fun q => if q = p then 1 else 0

theorem Tensor.single_el {dev : Dev} {s p : List Nat} (hp : inRange s p = true) (q : List Nat) : (Tensor.single (K := K) dev s p).el q = if q = p then 1 else 0 := by
  unfold Tensor.single
  rw [Tensor.el_ofFn]
  by_cases hq : q = p
  · subst hq; rw [if_pos hp]
  · rw [if_neg hq]; simp

/-- An entry of the gradient of the input. -/
theorem IsBackward.el {F : Tensor K → Py (Tensor K)} {s : List Nat} {dev : Dev} {g gin : Tensor K} (hb : Spec.IsBackward F s dev g gin) {p : List Nat}
    (hp : inRange s p = true) : ∃ y, F (Tensor.single dev s p) = .ok y ∧ y.shape = g.shape ∧ gin.el p = Spec.pairing y g := by
  obtain ⟨_, _, h⟩ := hb
  obtain ⟨y, h1, h2, h3⟩ := h (Tensor.single dev s p) rfl rfl
  refine ⟨y, h1, h2, ?_⟩
  rw [h3]
  unfold Spec.pairing
  show _ = ((indices s).map _).sum
  rw [sum_indices_single hp]
  · rw [Tensor.single_el hp, if_pos rfl, one_mul]
  · intro q hq
    rw [Tensor.single_el hp, if_neg hq, zero_mul]

theorem inRange_snoc : ∀ {s p : List Nat} {d i : Nat}, inRange s p = true → i < d → inRange (s ++ [d]) (p ++ [i]) = true
  | [], [], _, _, _, hi => by simp [inRange, hi]
  | [], _ :: _, _, _, h, _ => by simp [inRange] at h
  | _ :: _, [], _, _, h, _ => by simp [inRange] at h
  | n :: s, j :: p, d, i, h, hi => by
    simp only [inRange, List.cons_append, Bool.and_eq_true] at h ⊢
    exact ⟨h.1, inRange_snoc h.2 hi⟩

theorem linearForward_el {w x : Tensor K} {o i : Nat} {pre : List Nat} (hw : w.shape = [o, i]) (hx : x.shape = pre ++ [i]) (hd : x.dev = w.dev) :
    ∃ y, linearForward w none x = .ok y ∧ y.dev = x.dev ∧ y.shape = pre ++ [o] ∧
      ∀ p a, inRange pre p = true → a < o → y.el (p ++ [a]) = ∑ j ∈ Finset.range i, x.el (p ++ [j]) * w.el [a, j] := by
  unfold linearForward
  rw [hw, hx]
  rw [List.getLast?_concat, List.dropLast_concat]
  dsimp only
  rw [if_pos ⟨rfl, hd, fun b hb => by cases hb⟩]
  refine ⟨_, rfl, rfl, rfl, ?_⟩
  intro p a hp ha
  rw [Tensor.el_ofFn, if_pos (inRange_snoc hp ha)]
  simp

/-- The gradient of the input of a linear layer. -/
theorem linear_backward {c g gin : Tensor K} {R O : Nat} {pre : List Nat} {dev : Dev} (hc : c.shape = [O, R]) (hcd : c.dev = dev)
    (hb : Spec.IsBackward (linearForward c none) (pre ++ [R]) dev g gin) {p : List Nat} {s : Nat} (hp : inRange pre p = true) (hs : s < R) :
    gin.el (p ++ [s]) = ∑ o ∈ Finset.range O, g.el (p ++ [o]) * c.el [o, s] := by
  obtain ⟨y, h1, h2, h3⟩ := IsBackward.el hb (inRange_snoc hp hs)
  rw [h3]
  obtain ⟨y', k1, _, k3, k4⟩ := linearForward_el (x := Tensor.single dev (pre ++ [R]) (p ++ [s])) hc rfl hcd.symm
  rw [h1] at k1
  cases k1
  unfold Spec.pairing
  rw [k3, sum_indices_snoc]
  have : ∀ q ∈ indices pre, (∑ i ∈ Finset.range O, y.el (q ++ [i]) * g.el (q ++ [i])) =
      if q = p then ∑ o ∈ Finset.range O, g.el (p ++ [o]) * c.el [o, s] else 0 := by
    intro q hq
    have hq := (mem_indices _ _).1 hq
    by_cases hqp : q = p
    · subst hqp
      rw [if_pos rfl]
      refine Finset.sum_congr rfl fun o ho => ?_
      rw [k4 q o hq (Finset.mem_range.1 ho), Finset.sum_eq_single s]
      · rw [Tensor.single_el (inRange_snoc hp hs), if_pos rfl, one_mul, mul_comm]
      · intro j _ hj
        rw [Tensor.single_el (inRange_snoc hp hs), if_neg (by intro h; exact hj (by simpa using h)), zero_mul]
      · intro h; exact absurd (Finset.mem_range.2 hs) h
    · rw [if_neg hqp]
      refine Finset.sum_eq_zero fun o ho => ?_
      rw [k4 q o hq (Finset.mem_range.1 ho), Finset.sum_eq_zero, zero_mul]
      intro j _
      rw [Tensor.single_el (inRange_snoc hp hs), if_neg (by intro h; exact hqp (by simpa using (List.append_inj' h rfl).1)), zero_mul]
  rw [List.map_congr_left this, sum_indices_single hp]
  · rw [if_pos rfl]
  · intro q hq; rw [if_neg hq]

/-- That gradient exists. -/
theorem linear_backward_exists {c g : Tensor K} {R O : Nat} {pre : List Nat} (hc : c.shape = [O, R]) (hg : g.shape = pre ++ [O]) :
    ∃ gin, Spec.IsBackward (linearForward c none) (pre ++ [R]) c.dev g gin := by
  refine ⟨Tensor.ofFn c.dev (pre ++ [R]) fun idx => ∑ o ∈ Finset.range O, g.el (idx.dropLast ++ [o]) * c.el [o, idx.getLast?.getD 0], rfl, rfl, ?_⟩
  intro v hv hvd
  obtain ⟨y, k1, _, k3, k4⟩ := linearForward_el (x := v) hc hv hvd
  refine ⟨y, k1, by rw [k3, hg], ?_⟩
  unfold Spec.pairing
  rw [k3, hv, sum_indices_snoc, sum_indices_snoc]
  congr 1
  apply List.map_congr_left
  intro p hp
  have hp := (mem_indices _ _).1 hp
  have e1 : ∀ i ∈ Finset.range O, y.el (p ++ [i]) * g.el (p ++ [i]) = ∑ j ∈ Finset.range R, v.el (p ++ [j]) * (g.el (p ++ [i]) * c.el [i, j]) := by
    intro i hi
    rw [k4 p i hp (Finset.mem_range.1 hi), Finset.sum_mul]
    exact Finset.sum_congr rfl fun j _ => by ring
  have e2 : ∀ j ∈ Finset.range R, v.el (p ++ [j]) * (Tensor.ofFn c.dev (pre ++ [R]) fun idx =>
      ∑ o ∈ Finset.range O, g.el (idx.dropLast ++ [o]) * c.el [o, idx.getLast?.getD 0]).el (p ++ [j]) =
      ∑ i ∈ Finset.range O, v.el (p ++ [j]) * (g.el (p ++ [i]) * c.el [i, j]) := by
    intro j hj
    rw [Tensor.el_ofFn, if_pos (inRange_snoc hp (Finset.mem_range.1 hj))]
    simp [Finset.mul_sum]
  rw [Finset.sum_congr rfl e1, Finset.sum_congr rfl e2, Finset.sum_comm]

/-- C64 for linear layers: `x` is the layer's input (any number of positions `mid`), `g` the gradient of its output, which is also the gradient of the decoder's
output, as the two outputs are added; `gB` is the gradient of the bottleneck's output that belongs to it. The gradient logged for the bottleneck, from its input
`u = A x` and `gB`, is `Cᵀ G Aᵀ`, where `G` is the gradient of the layer's weight. -/
theorem C64_linear_partial (x a c g gB u : Tensor K) (N J R O : Nat) (mid : List Nat) (hx : x.shape = N :: (mid ++ [J])) (hg : g.shape = N :: (mid ++ [O]))
    (ha : a.shape = [R, J]) (hc : c.shape = [O, R]) (had : a.dev = x.dev) (hcd : c.dev = x.dev) (hgd : g.dev = x.dev)
    (hu : linearForward a none x = .ok u) (hgB : Spec.IsBackward (linearForward c none) u.shape u.dev g gB) :
    ∃ G GB, computePerSampleGradient x g .linear = .ok G ∧ computePerSampleGradient u gB .linear = .ok GB ∧ GB.shape = [N, R, R] ∧
      ∀ n s r, n < N → s < R → r < R →
        GB.el [n, s, r] = ∑ o ∈ Finset.range O, ∑ j ∈ Finset.range J, c.el [o, s] * G.el [n, o, j] * a.el [r, j] := by
  have hx' : x.shape = (N :: mid) ++ [J] := by rw [hx]; simp
  have hg' : g.shape = (N :: mid) ++ [O] := by rw [hg]; simp
  obtain ⟨u', u1, u2, u3, u4⟩ := linearForward_el ha hx' had.symm
  rw [hu] at u1
  cases u1
  rw [u3] at hgB
  have hgBs : gB.shape = N :: (mid ++ [R]) := by rw [hgB.1]; simp
  have hcd' : c.dev = u.dev := by rw [hcd, u2]
  obtain ⟨G, G1, _, _, G4⟩ := outerSum_ok g x N O J mid hg hx hgd
  obtain ⟨GB, B1, B2, _, B4⟩ := outerSum_ok gB u N R R mid hgBs (by rw [u3]; simp) hgB.2.1
  refine ⟨G, GB, G1, B1, B2, ?_⟩
  intro n s r hn hs hr
  rw [B4 n s r hn hs hr]
  have e1 : ∀ o ∈ Finset.range O, ∑ j ∈ Finset.range J, c.el [o, s] * G.el [n, o, j] * a.el [r, j] =
      ((indices mid).map fun p => ∑ j ∈ Finset.range J, g.el (n :: (p ++ [o])) * c.el [o, s] * (x.el (n :: (p ++ [j])) * a.el [r, j])).sum := by
    intro o ho
    rw [← list_sum_finset]
    refine Finset.sum_congr rfl fun j hj => ?_
    rw [G4 n o j hn (Finset.mem_range.1 ho) (Finset.mem_range.1 hj), mul_comm (c.el _), mul_assoc, ← List.sum_map_mul_right]
    congr 1
    apply List.map_congr_left
    intro p _
    ring
  rw [Finset.sum_congr rfl e1, list_sum_finset]
  congr 1
  apply List.map_congr_left
  intro p hp
  have hp := (mem_indices _ _).1 hp
  have hpn : inRange (N :: mid) (n :: p) = true := by simp [inRange, hn, hp]
  have e2 := linear_backward hc hcd' hgB hpn hs
  have e3 := u4 (n :: p) r hpn hr
  rw [List.cons_append] at e2 e3
  rw [e2, e3, Finset.sum_mul]
  refine Finset.sum_congr rfl fun o _ => ?_
  rw [Finset.mul_sum]
  rfl

/-! ### Convolutions -/

theorem conv2dForward_el {w x : Tensor K} {N C O h v : Nat} {g : ConvGeom} (hg : Spec.Fits g h v) (hw : w.shape = [O, C, g.kernel.1, g.kernel.2])
    (hx : x.shape = [N, C, h, v]) (hd : x.dev = w.dev) :
    ∃ y, conv2dForward g 1 w none x = .ok y ∧ y.dev = x.dev ∧
      y.shape = [N, O, Spec.outSize g.kernel.1 g.stride.1 g.padding.1 g.dilation.1 h, Spec.outSize g.kernel.2 g.stride.2 g.padding.2 g.dilation.2 v] ∧
      ∀ n o a b, n < N → o < O → a < Spec.outSize g.kernel.1 g.stride.1 g.padding.1 g.dilation.1 h →
        b < Spec.outSize g.kernel.2 g.stride.2 g.padding.2 g.dilation.2 v → y.el [n, o, a, b] = Spec.convOut (fun o c i j => w.el [o, c, i, j]) g C x n o a b := by
  obtain ⟨hk1, hk2, hs1, hs2, hh, hv⟩ := hg
  unfold conv2dForward
  rw [hw, hx]
  dsimp only
  rw [if_pos ⟨rfl, by omega, Nat.mod_one _, hd, fun b hb => (by cases hb), hh, hv, hk1, hk2, hs1, hs2⟩]
  refine ⟨_, rfl, rfl, rfl, ?_⟩
  intro n o a b hn ho ha hb
  refine (Tensor.el_ofFn4 _ _ _ _ _ _ hn ho ha hb).trans ?_
  unfold Spec.convOut
  have hz : o / (O / 1) = 0 := by rw [Nat.div_one]; exact Nat.div_eq_of_lt ho
  rw [hz, Nat.zero_mul]
  simp only [Option.elim_none, add_zero, zero_add]
  refine Finset.sum_congr rfl fun c hc => Finset.sum_congr rfl fun i hi => Finset.sum_congr rfl fun j hj => ?_
  have hc := Finset.mem_range.1 hc
  have hi := Finset.mem_range.1 hi
  have hj := Finset.mem_range.1 hj
  rw [pad2d_el x N C h v hx g.padding hn hc (window_lt hk1 hs1 hh ha hi) (window_lt hk2 hs2 hv hb hj)]
  push_cast
  rfl

/-- The geometry of the bottleneck and the decoder. -/
def pointwise : ConvGeom := ⟨(1, 1), (1, 1), (0, 0), (1, 1)⟩

theorem pointwise_fits {h v : Nat} (hh : 0 < h) (hv : 0 < v) : Spec.Fits pointwise h v := by
  constructor <;> simp [pointwise] <;> omega

theorem pointwise_out {h : Nat} (hh : 0 < h) : Spec.outSize 1 1 0 1 h = h := by
  unfold Spec.outSize; simp; omega

theorem pixel_nat (x : Tensor K) (n c y z : Nat) : Spec.pixel x n c (y * (1 : Nat) + (0 : Nat) * (1 : Nat) - (0 : Nat)) (z * (1 : Nat) + (0 : Nat) * (1 : Nat) - (0 : Nat)) = x.el [n, c, y, z] := by
  unfold Spec.pixel
  rw [if_pos ⟨by simp, by simp⟩]
  simp

theorem pointwise_el {w x : Tensor K} {N C O h v : Nat} (hh : 0 < h) (hv : 0 < v) (hw : w.shape = [O, C, 1, 1]) (hx : x.shape = [N, C, h, v])
    (hd : x.dev = w.dev) :
    ∃ y, conv2dForward pointwise 1 w none x = .ok y ∧ y.dev = x.dev ∧ y.shape = [N, O, h, v] ∧
      ∀ n o a b, n < N → o < O → a < h → b < v → y.el [n, o, a, b] = ∑ c ∈ Finset.range C, w.el [o, c, 0, 0] * x.el [n, c, a, b] := by
  obtain ⟨y, y1, y2, y3, y4⟩ := conv2dForward_el (pointwise_fits hh hv) hw hx hd
  rw [show Spec.outSize pointwise.kernel.1 pointwise.stride.1 pointwise.padding.1 pointwise.dilation.1 h = h from pointwise_out hh,
    show Spec.outSize pointwise.kernel.2 pointwise.stride.2 pointwise.padding.2 pointwise.dilation.2 v = v from pointwise_out hv] at y3 y4
  refine ⟨y, y1, y2, y3, fun n o a b hn ho ha hb => ?_⟩
  rw [y4 n o a b hn ho ha hb]
  unfold Spec.convOut
  refine Finset.sum_congr rfl fun c _ => ?_
  show ∑ i ∈ Finset.range 1, ∑ j ∈ Finset.range 1, _ = _
  rw [Finset.sum_range_one, Finset.sum_range_one]
  congr 1
  exact pixel_nat x n c a b

theorem sum_indices4 {L : Type} [AddCommMonoid L] (N O h v : Nat) (f : List Nat → L) : ((indices [N, O, h, v]).map f).sum =
    ∑ n ∈ Finset.range N, ∑ o ∈ Finset.range O, ∑ a ∈ Finset.range h, ∑ b ∈ Finset.range v, f [n, o, a, b] := by
  rw [sum_indices_cons]
  refine Finset.sum_congr rfl fun n _ => ?_
  rw [sum_indices_cons]
  refine Finset.sum_congr rfl fun o _ => ?_
  rw [sum_indices_cons]
  refine Finset.sum_congr rfl fun a _ => ?_
  rw [sum_indices_cons]
  refine Finset.sum_congr rfl fun b _ => ?_
  simp [indices]

/-- The gradient of the input of a pointwise convolution. -/
theorem pointwise_backward {c g gin : Tensor K} {N R O h v : Nat} {dev : Dev} (hh : 0 < h) (hv : 0 < v) (hc : c.shape = [O, R, 1, 1]) (hcd : c.dev = dev)
    (hb : Spec.IsBackward (conv2dForward pointwise 1 c none) [N, R, h, v] dev g gin) {n s a b : Nat} (hn : n < N) (hs : s < R) (ha : a < h) (hbv : b < v) :
    gin.el [n, s, a, b] = ∑ o ∈ Finset.range O, g.el [n, o, a, b] * c.el [o, s, 0, 0] := by
  have hp : inRange [N, R, h, v] [n, s, a, b] = true := by simp [inRange, hn, hs, ha, hbv]
  obtain ⟨y, h1, h2, h3⟩ := IsBackward.el hb hp
  rw [h3]
  obtain ⟨y', k1, _, k3, k4⟩ := pointwise_el (x := Tensor.single dev [N, R, h, v] [n, s, a, b]) hh hv hc rfl hcd.symm
  rw [h1] at k1
  cases k1
  unfold Spec.pairing
  rw [k3, sum_indices4]
  have key : ∀ n' o a' b', n' < N → o < O → a' < h → b' < v → y.el [n', o, a', b'] = if n' = n ∧ a' = a ∧ b' = b then c.el [o, s, 0, 0] else 0 := by
    intro n' o a' b' hn' ho ha' hb'
    rw [k4 n' o a' b' hn' ho ha' hb']
    by_cases hq : n' = n ∧ a' = a ∧ b' = b
    · obtain ⟨rfl, rfl, rfl⟩ := hq
      rw [if_pos ⟨rfl, rfl, rfl⟩, Finset.sum_eq_single s]
      · rw [Tensor.single_el hp, if_pos rfl, mul_one]
      · intro t _ ht
        rw [Tensor.single_el hp, if_neg (by intro h; simp at h; exact ht h), mul_zero]
      · intro h; exact absurd (Finset.mem_range.2 hs) h
    · rw [if_neg hq]
      refine Finset.sum_eq_zero fun t _ => ?_
      rw [Tensor.single_el hp, if_neg (by intro h; simp at h; exact hq ⟨h.1, h.2.2⟩), mul_zero]
  rw [Finset.sum_eq_single n]
  · refine Finset.sum_congr rfl fun o ho => ?_
    have ho := Finset.mem_range.1 ho
    rw [Finset.sum_eq_single a]
    · rw [Finset.sum_eq_single b]
      · rw [key n o a b hn ho ha hbv, if_pos ⟨rfl, rfl, rfl⟩, mul_comm]
      · intro b' hb' hne
        rw [key n o a b' hn ho ha (Finset.mem_range.1 hb'), if_neg (fun h => hne h.2.2), zero_mul]
      · intro h; exact absurd (Finset.mem_range.2 hbv) h
    · intro a' ha' hne
      refine Finset.sum_eq_zero fun b' hb' => ?_
      rw [key n o a' b' hn ho (Finset.mem_range.1 ha') (Finset.mem_range.1 hb'), if_neg (fun h => hne h.2.1), zero_mul]
    · intro h; exact absurd (Finset.mem_range.2 ha) h
  · intro n' hn' hne
    refine Finset.sum_eq_zero fun o ho => Finset.sum_eq_zero fun a' ha' => Finset.sum_eq_zero fun b' hb' => ?_
    rw [key n' o a' b' (Finset.mem_range.1 hn') (Finset.mem_range.1 ho) (Finset.mem_range.1 ha') (Finset.mem_range.1 hb'), if_neg (fun h => hne h.1), zero_mul]
  · intro h; exact absurd (Finset.mem_range.2 hn) h

/-- That gradient exists. -/
theorem pointwise_backward_exists {c g : Tensor K} {N R O h v : Nat} (hh : 0 < h) (hv : 0 < v) (hc : c.shape = [O, R, 1, 1]) (hg : g.shape = [N, O, h, v]) :
    ∃ gin, Spec.IsBackward (conv2dForward pointwise 1 c none) [N, R, h, v] c.dev g gin := by
  refine ⟨Tensor.ofFn4 c.dev N R h v fun n s a b => ∑ o ∈ Finset.range O, g.el [n, o, a, b] * c.el [o, s, 0, 0], rfl, rfl, ?_⟩
  intro x hx hxd
  obtain ⟨y, k1, _, k3, k4⟩ := pointwise_el (x := x) hh hv hc hx hxd
  refine ⟨y, k1, by rw [k3, hg], ?_⟩
  unfold Spec.pairing
  rw [k3, hx, sum_indices4, sum_indices4]
  refine Finset.sum_congr rfl fun n hn => ?_
  have e1 : ∀ o ∈ Finset.range O, (∑ a ∈ Finset.range h, ∑ b ∈ Finset.range v, y.el [n, o, a, b] * g.el [n, o, a, b]) =
      ∑ s ∈ Finset.range R, ∑ a ∈ Finset.range h, ∑ b ∈ Finset.range v, x.el [n, s, a, b] * (g.el [n, o, a, b] * c.el [o, s, 0, 0]) := by
    intro o ho
    symm
    rw [Finset.sum_comm]
    refine Finset.sum_congr rfl fun a ha => ?_
    rw [Finset.sum_comm]
    refine Finset.sum_congr rfl fun b hb => ?_
    rw [k4 n o a b (Finset.mem_range.1 hn) (Finset.mem_range.1 ho) (Finset.mem_range.1 ha) (Finset.mem_range.1 hb), Finset.sum_mul]
    exact Finset.sum_congr rfl fun s _ => by ring
  rw [Finset.sum_congr rfl e1, Finset.sum_comm]
  refine Finset.sum_congr rfl fun s hs => ?_
  rw [Finset.sum_comm]
  refine Finset.sum_congr rfl fun a ha => ?_
  rw [Finset.sum_comm]
  refine Finset.sum_congr rfl fun b hb => ?_
  rw [Tensor.el_ofFn4 _ _ _ _ _ _ (Finset.mem_range.1 hn) (Finset.mem_range.1 hs) (Finset.mem_range.1 ha) (Finset.mem_range.1 hb), Finset.mul_sum]

/-- C64 for two-dimensional convolutions whose dilation has no effect: the gradient logged for the bottleneck is `Cᵀ G Aᵀ`, where `G` is the gradient logged for the
convolution's weight (as a matrix), with the encoder's weight as a matrix in the same order. -/
theorem C64_conv_partial (x a c g gB u : Tensor K) (N C R O h v : Nat) (geo : ConvGeom) (hfit : Spec.Fits geo h v)
    (hdil : (geo.dilation.1 = 1 ∨ geo.kernel.1 = 1) ∧ (geo.dilation.2 = 1 ∨ geo.kernel.2 = 1)) (hN : 0 < N) (hO : 0 < O) (hR : 0 < R)
    (hx : x.shape = [N, C, h, v])
    (hg : g.shape = [N, O, Spec.outSize geo.kernel.1 geo.stride.1 geo.padding.1 geo.dilation.1 h, Spec.outSize geo.kernel.2 geo.stride.2 geo.padding.2 geo.dilation.2 v])
    (ha : a.shape = [R, C, geo.kernel.1, geo.kernel.2]) (hc : c.shape = [O, R, 1, 1]) (had : a.dev = x.dev) (hcd : c.dev = x.dev) (hgd : g.dev = x.dev)
    (hu : conv2dForward ⟨geo.kernel, geo.stride, geo.padding, (1, 1)⟩ 1 a none x = .ok u)
    (hgB : Spec.IsBackward (conv2dForward pointwise 1 c none) u.shape u.dev g gB) :
    ∃ G GB, computePerSampleGradient x g (.conv2d geo O) = .ok G ∧ computePerSampleGradient u gB (.conv2d pointwise R) = .ok GB ∧ GB.shape = [N, R, R] ∧
      ∀ n s r, n < N → s < R → r < R →
        GB.el [n, s, r] = ∑ o ∈ Finset.range O, ∑ i ∈ Finset.range C, ∑ p ∈ Finset.range geo.kernel.1, ∑ q ∈ Finset.range geo.kernel.2,
          c.el [o, s, 0, 0] * G.el [n, o, (i * geo.kernel.1 + p) * geo.kernel.2 + q] * a.el [r, i, p, q] := by
  have d1 : geo.dilation.1 * (geo.kernel.1 - 1) = 1 * (geo.kernel.1 - 1) := by rcases hdil.1 with h | h <;> rw [h]; simp
  have d2 : geo.dilation.2 * (geo.kernel.2 - 1) = 1 * (geo.kernel.2 - 1) := by rcases hdil.2 with h | h <;> rw [h]; simp
  have o1 : Spec.outSize geo.kernel.1 geo.stride.1 geo.padding.1 geo.dilation.1 h = Spec.outSize geo.kernel.1 geo.stride.1 geo.padding.1 1 h := by
    unfold Spec.outSize; rw [d1]
  have o2 : Spec.outSize geo.kernel.2 geo.stride.2 geo.padding.2 geo.dilation.2 v = Spec.outSize geo.kernel.2 geo.stride.2 geo.padding.2 1 v := by
    unfold Spec.outSize; rw [d2]
  obtain ⟨G, G1, _, G3⟩ := convGrad_ok x g N C O h v geo hfit hN hO hx hg hgd
  have hfit' : Spec.Fits ⟨geo.kernel, geo.stride, geo.padding, (1, 1)⟩ h v := by
    obtain ⟨f1, f2, f3, f4, f5, f6⟩ := hfit
    rw [d1] at f5
    rw [d2] at f6
    exact ⟨f1, f2, f3, f4, f5, f6⟩
  obtain ⟨u', u1, u2, u3, u4⟩ := conv2dForward_el (g := ⟨geo.kernel, geo.stride, geo.padding, (1, 1)⟩) hfit' ha hx had.symm
  rw [hu] at u1
  cases u1
  dsimp only at u3 u4
  rw [o1, o2] at G3 hg
  generalize ha' : Spec.outSize geo.kernel.1 geo.stride.1 geo.padding.1 1 h = oh at *
  generalize hb' : Spec.outSize geo.kernel.2 geo.stride.2 geo.padding.2 1 v = ow at *
  have hoh : 0 < oh := by rw [← ha']; exact Nat.succ_pos _
  have how : 0 < ow := by rw [← hb']; exact Nat.succ_pos _
  rw [u3] at hgB
  have p1 : Spec.outSize pointwise.kernel.1 pointwise.stride.1 pointwise.padding.1 pointwise.dilation.1 oh = oh := pointwise_out hoh
  have p2 : Spec.outSize pointwise.kernel.2 pointwise.stride.2 pointwise.padding.2 pointwise.dilation.2 ow = ow := pointwise_out how
  obtain ⟨GB, B1, B2, B3⟩ := convGrad_ok u gB N R R oh ow pointwise (pointwise_fits hoh how) hN hR u3 (by rw [p1, p2]; exact hgB.1) hgB.2.1
  rw [p1, p2] at B3
  refine ⟨G, GB, G1, B1, by rw [B2]; simp [pointwise], ?_⟩
  intro n s r hn hs hr
  have hB := B3 n s r 0 0 hn hs hr (by decide) (by decide)
  have hidx : (r * pointwise.kernel.1 + 0) * pointwise.kernel.2 + 0 = r := by simp [pointwise]
  rw [hidx] at hB
  rw [hB]
  have hcd' : c.dev = u.dev := by rw [hcd, u2]
  have lhs : ∀ y ∈ Finset.range oh, ∀ z ∈ Finset.range ow, gB.el [n, s, y, z] *
      Spec.pixel u n r (y * pointwise.stride.1 + ((0 : Nat) : Int) * pointwise.dilation.1 - pointwise.padding.1)
        (z * pointwise.stride.2 + ((0 : Nat) : Int) * pointwise.dilation.2 - pointwise.padding.2) =
      ∑ o ∈ Finset.range O, ∑ i ∈ Finset.range C, ∑ p ∈ Finset.range geo.kernel.1, ∑ q ∈ Finset.range geo.kernel.2,
        c.el [o, s, 0, 0] * (g.el [n, o, y, z] * Spec.pixel x n i (y * geo.stride.1 + p * geo.dilation.1 - geo.padding.1)
          (z * geo.stride.2 + q * geo.dilation.2 - geo.padding.2)) * a.el [r, i, p, q] := by
    intro y hy z hz
    have hy := Finset.mem_range.1 hy
    have hz := Finset.mem_range.1 hz
    have e1 : Spec.pixel u n r (y * pointwise.stride.1 + ((0 : Nat) : Int) * pointwise.dilation.1 - pointwise.padding.1)
        (z * pointwise.stride.2 + ((0 : Nat) : Int) * pointwise.dilation.2 - pointwise.padding.2) = u.el [n, r, y, z] := pixel_nat u n r y z
    rw [e1, pointwise_backward hoh how hc hcd' hgB hn hs hy hz, u4 n r y z hn hr hy hz, Finset.sum_mul]
    refine Finset.sum_congr rfl fun o _ => ?_
    unfold Spec.convOut
    rw [Finset.mul_sum]
    refine Finset.sum_congr rfl fun i _ => ?_
    rw [Finset.mul_sum]
    refine Finset.sum_congr rfl fun p hp => ?_
    rw [Finset.mul_sum]
    refine Finset.sum_congr rfl fun q hq => ?_
    dsimp only
    have q1 : ((p : Int) * ((1 : Nat) : Int)) = p * geo.dilation.1 := by
      rcases hdil.1 with h | h
      · rw [h]
      · have := Finset.mem_range.1 hp
        have : p = 0 := by omega
        rw [this]; simp
    have q2 : ((q : Int) * ((1 : Nat) : Int)) = q * geo.dilation.2 := by
      rcases hdil.2 with h | h
      · rw [h]
      · have := Finset.mem_range.1 hq
        have : q = 0 := by omega
        rw [this]; simp
    rw [q1, q2]
    ring
  rw [Finset.sum_congr rfl fun y hy => Finset.sum_congr rfl fun z hz => lhs y hy z hz]
  have rhs : ∀ o ∈ Finset.range O, ∀ i ∈ Finset.range C, ∀ p ∈ Finset.range geo.kernel.1, ∀ q ∈ Finset.range geo.kernel.2,
      c.el [o, s, 0, 0] * G.el [n, o, (i * geo.kernel.1 + p) * geo.kernel.2 + q] * a.el [r, i, p, q] =
      ∑ y ∈ Finset.range oh, ∑ z ∈ Finset.range ow,
        c.el [o, s, 0, 0] * (g.el [n, o, y, z] * Spec.pixel x n i (y * geo.stride.1 + p * geo.dilation.1 - geo.padding.1)
          (z * geo.stride.2 + q * geo.dilation.2 - geo.padding.2)) * a.el [r, i, p, q] := by
    intro o ho i hi p hp q hq
    rw [G3 n o i p q hn (Finset.mem_range.1 ho) (Finset.mem_range.1 hi) (Finset.mem_range.1 hp) (Finset.mem_range.1 hq), Finset.mul_sum, Finset.sum_mul]
    refine Finset.sum_congr rfl fun y _ => ?_
    rw [Finset.mul_sum, Finset.sum_mul]
  rw [Finset.sum_congr rfl fun o ho => Finset.sum_congr rfl fun i hi => Finset.sum_congr rfl fun p hp => Finset.sum_congr rfl fun q hq => rhs o ho i hi p hp q hq]
  -- both sides are the same sum over o, i, p, q, y, z
  have comm5 : ∀ (F : Nat → Nat → Nat → Nat → Nat → K) (Y O C P Q : Nat),
      ∑ y ∈ Finset.range Y, ∑ o ∈ Finset.range O, ∑ i ∈ Finset.range C, ∑ p ∈ Finset.range P, ∑ q ∈ Finset.range Q, F y o i p q =
      ∑ o ∈ Finset.range O, ∑ i ∈ Finset.range C, ∑ p ∈ Finset.range P, ∑ q ∈ Finset.range Q, ∑ y ∈ Finset.range Y, F y o i p q := by
    intro F Y O C P Q
    rw [Finset.sum_comm]
    refine Finset.sum_congr rfl fun o _ => ?_
    rw [Finset.sum_comm]
    refine Finset.sum_congr rfl fun i _ => ?_
    rw [Finset.sum_comm]
    refine Finset.sum_congr rfl fun p _ => ?_
    rw [Finset.sum_comm]
  rw [Finset.sum_congr rfl fun y _ => comm5 (fun z o i p q => c.el [o, s, 0, 0] *
    (g.el [n, o, y, z] * Spec.pixel x n i (y * geo.stride.1 + p * geo.dilation.1 - geo.padding.1) (z * geo.stride.2 + q * geo.dilation.2 - geo.padding.2)) *
      a.el [r, i, p, q]) ow O C geo.kernel.1 geo.kernel.2]
  exact comm5 (fun y o i p q => ∑ z ∈ Finset.range ow, c.el [o, s, 0, 0] *
    (g.el [n, o, y, z] * Spec.pixel x n i (y * geo.stride.1 + p * geo.dilation.1 - geo.padding.1) (z * geo.stride.2 + q * geo.dilation.2 - geo.padding.2)) *
      a.el [r, i, p, q]) oh O C geo.kernel.1 geo.kernel.2

end Logix
