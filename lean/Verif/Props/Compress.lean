/-
C88: what compression by LoRA with PCA initialisation does to inner products of gradients.
-/
import Verif.Props.Pca
import Verif.Props.LoraGrad
import Verif.Props.Influence
import Verif.Lemmas.Compress
import Verif.Spec.Compress

set_option linter.unusedSectionVars false

namespace Logix
open Spec
variable {K : Type} [Field K] [LinearOrder K] [IsStrictOrderedRing K] {calls : List (Plugin × StatCall K)} {rank : Nat} {h h' : MHeap K} {name : PyStr} {w : Nat} {l : Layer}

theorem wrapper_one {P : Nat} {dev : Dev} {R : Nat} {h : MHeap K} {w orig b : Nat} {l : Layer} (hw : WrapAt P dev R h w orig b l) {k : PyStr} (hk : k = nA ∨ k = nC)
    {x y : Nat} (hx : Entry h w k x) (hy : Entry h w k y) : x = y := by
  obtain ⟨m, hm, hx⟩ := hx
  obtain ⟨m', hm', hy⟩ := hy
  cases l with
  | linear =>
    obtain ⟨a, c, h1, _⟩ := hw
    rw [h1] at hm hm'
    cases hm
    cases hm'
    rcases hk with rfl | rfl <;> simp [nA, nB, nC, nLin] at hx hy <;> rw [hx, hy]
  | conv2d =>
    obtain ⟨a, c, h1, _⟩ := hw
    rw [h1] at hm hm'
    cases hm
    cases hm'
    rcases hk with rfl | rfl <;> simp [nA, nB, nC, nConv] at hx hy <;> rw [hx, hy]
  | _ => exact hw.elim

/-- The wrapper's weights, and what they keep. -/
theorem pcaRun_weights (hp : PcaRun calls rank h h' name l w) : (∃ A D, Weights h' w A D) ∧
    ∀ A D, Weights h' w A D → A.shape = encShape rank l ∧ D.shape = decShape rank l ∧
      Orthonormal (fanIn l) (loraRank rank l) (asMatrix A (fanIn l)) ∧ Orthonormal (fanOut l) (loraRank rank l) (fun i o => asMatrix D (loraRank rank l) o i) ∧
      (LowRank calls rank name l →
        (∀ x ∈ allRows (callsOf .covariance name .forward calls), ∀ k, k < fanIn l →
          x k = ∑ i ∈ Finset.range (loraRank rank l), (∑ k ∈ Finset.range (fanIn l), asMatrix A (fanIn l) i k * x k) * asMatrix A (fanIn l) i k) ∧
        ∀ x ∈ allRows (callsOf .covariance name .backward calls), ∀ k, k < fanOut l →
          x k = ∑ i ∈ Finset.range (loraRank rank l), (∑ k ∈ Finset.range (fanOut l), asMatrix D (loraRank rank l) k i * x k) * asMatrix D (loraRank rank l) k i) := by
  obtain ⟨⟨L, s, s', dir, dir', sharing, groups, rand, svd, E, root, tf, nf, c, m, h1, h2, h3, h4, h5, h6, h7, h8, h9, h10, h11, h12, rfl⟩, hk, fpos, bpos, fw, bw⟩ := hp
  obtain ⟨a, d, A, D, e1, e2, e3, e4, e5, e6, e7, e8, e9, e10⟩ := C87_logged L h1 h2 h3 h4 h5 h6 h7 h8 h9 h10 h11 h12 hk fpos bpos fw bw
  refine ⟨⟨A, D, a, d, e1, e2, e3, e4⟩, ?_⟩
  rintro A' D' ⟨a', d', f1, f2, f3, f4⟩
  obtain ⟨dev, st, _, rfl, hI⟩ := addLora_inv h5 h6 h7 h8
  obtain ⟨b, m0, _, _, _, hw, _⟩ := becomes_wrapped h5 hI h9 h10 h11
  obtain rfl := wrapper_one hw (.inl rfl) f1 e1
  obtain rfl := wrapper_one hw (.inr rfl) f2 e2
  obtain rfl := Option.some.inj (f3.symm.trans e3)
  obtain rfl := Option.some.inj (f4.symm.trans e4)
  exact ⟨e5, e6, e7, e9, fun hlow => ⟨fun x hx => best_keeps e7 hlow.1 e8 hx, fun x hx => best_keeps e9 hlow.2 e10 hx⟩⟩

/-- The compressed gradient of a linear layer. -/
theorem linearGrads_squeeze {A D x g G GB : Tensor K} {N J O R : Nat} (hA : A.shape = [R, J]) (hD : D.shape = [O, R]) (hG : LinearGrads A D x g G GB N J O)
    {n : Nat} (hn : n < N) {s t : Nat} (hs : s < R) (ht : t < R) :
    GB.el [n, s, t] = squeeze J O (asMatrix A J) (fun i o => asMatrix D R o i) (fun o j => G.el [n, o, j]) s t := by
  obtain ⟨⟨mid, hx, hg⟩, d1, d2, d3, g1, u, gB, hu, hgB, g2⟩ := hG
  obtain ⟨G', GB', e1, e2, -, e4⟩ := C64_linear_partial x A D g gB u N J R O mid hx hg hA hD d1 d2 d3 hu hgB
  rw [g1] at e1
  rw [g2] at e2
  cases e1
  cases e2
  rw [e4 n s t hn hs ht]
  unfold squeeze
  refine Finset.sum_congr rfl fun o ho => Finset.sum_congr rfl fun j hj => ?_
  dsimp only
  rw [asMatrix_eq hA ht (Finset.mem_range.1 hj), asMatrix_eq hD (Finset.mem_range.1 ho) hs]

theorem linear_row_mem {data : Tensor K} {lt : LogType} {pre : List Nat} {J : Nat} (hs : data.shape = pre ++ [J]) {p : List Nat} (hp : inRange pre p = true) :
    (fun j => data.el (p ++ [j])) ∈ rows data (some .linear) lt := by
  show _ ∈ (indices data.shape.dropLast).map fun p j => data.el (p ++ [j])
  rw [hs, List.dropLast_concat]
  exact List.mem_map.2 ⟨p, (mem_indices _ _).2 hp, rfl⟩

/-- **C88**, linear layers: inner products with the gradients of the samples from which the covariances were computed do not change. -/
theorem C88_linear {J O : Nat} (hp : PcaRun calls rank h h' name (.linear J O) w) (hlow : LowRank calls rank name (.linear J O)) {A D : Tensor K}
    (hW : Weights h' w A D) {x g G GB x' g' G' GB' : Tensor K} {N N' : Nat} (hlog : LoggedPair calls name .linear x g)
    (hG : LinearGrads A D x g G GB N J O) (hG' : LinearGrads A D x' g' G' GB' N' J O) {n n' : Nat} (hn : n < N) (hn' : n' < N') :
        sampleDot (loraRank rank (.linear J O)) (loraRank rank (.linear J O)) GB n GB' n' = sampleDot O J G n G' n' := by
  obtain ⟨hA, hD, oA, oD, hkeep⟩ := (pcaRun_weights hp).2 A D hW
  obtain ⟨kF, kB⟩ := hkeep hlow
  unfold sampleDot
  have e1 : ∀ s ∈ Finset.range (loraRank rank (.linear J O)), ∀ t ∈ Finset.range (loraRank rank (.linear J O)), GB.el [n, s, t] * GB'.el [n', s, t] = _ :=
    fun s hs t ht => congrArg₂ (· * ·) (linearGrads_squeeze hA hD hG hn (Finset.mem_range.1 hs) (Finset.mem_range.1 ht))
      (linearGrads_squeeze hA hD hG' hn' (Finset.mem_range.1 hs) (Finset.mem_range.1 ht))
  rw [Finset.sum_congr rfl fun s hs => Finset.sum_congr rfl (e1 s hs)]
  obtain ⟨⟨c, hc, rfl, hcm⟩, c', hc', rfl, hcm'⟩ := hlog
  obtain ⟨⟨mid, hx, hg⟩, -, -, hd, g1, -⟩ := hG
  obtain ⟨G0, q1, -, -, q4⟩ := outerSum_ok c'.data c.data N O J mid hg hx hd
  have hG0 : G0 = G := Except.ok.inj (q1.symm.trans g1)
  subst hG0
  refine squeeze_inner (squeeze_recover (indices mid) (fun p j => c.data.el (n :: (p ++ [j]))) (fun p o => c'.data.el (n :: (p ++ [o])))
    (fun o j ho hj => q4 n o j hn ho hj) (fun p hp => ?_) (fun p hp => ?_))
  · refine kF _ ?_
    refine List.mem_flatMap.2 ⟨c, hc, ?_⟩
    unfold callRows
    rw [hcm]
    exact linear_row_mem (pre := N :: mid) (p := n :: p) (by rw [hx]; rfl) (by simp [inRange, hn, (mem_indices _ _).1 hp])
  · refine kB _ ?_
    refine List.mem_flatMap.2 ⟨c', hc', ?_⟩
    unfold callRows
    rw [hcm']
    exact linear_row_mem (pre := N :: mid) (p := n :: p) (by rw [hg]; rfl) (by simp [inRange, hn, (mem_indices _ _).1 hp])

theorem sum_cube (C a b : Nat) (f : Nat → K) : ∑ j ∈ Finset.range (C * (a * b)), f j =
    ∑ i ∈ Finset.range C, ∑ p ∈ Finset.range a, ∑ q ∈ Finset.range b, f ((i * a + p) * b + q) := by
  rw [sum_range_mul']
  refine Finset.sum_congr rfl fun i _ => ?_
  rw [sum_range_mul']
  refine Finset.sum_congr rfl fun p _ => Finset.sum_congr rfl fun q _ => ?_
  congr 1
  ring

theorem asMatrix_conv {t : Tensor K} {R C a b : Nat} (ht : t.shape = [R, C, a, b]) {r i p q : Nat} (hr : r < R) (hi : i < C) (hp : p < a) (hq : q < b) :
    asMatrix t (C * (a * b)) r ((i * a + p) * b + q) = t.el [r, i, p, q] := by
  unfold asMatrix Tensor.el
  rw [ht, if_pos (by simp [inRange, hr, hi, hp, hq])]
  congr 1
  simp [ravel, numel]
  ring

/-- The compressed gradient of a convolution. -/
theorem convGrads_squeeze {A D x g G GB : Tensor K} {N C O R : Nat} {geo : ConvGeom} (hA : A.shape = [R, C, geo.kernel.1, geo.kernel.2]) (hD : D.shape = [O, R, 1, 1])
    (hG : ConvGrads A D x g G GB N C O R geo) (hO : 0 < O) {n : Nat} (hn : n < N) {s t : Nat} (hs : s < R) (ht : t < R) :
    GB.el [n, s, t] = squeeze (C * (geo.kernel.1 * geo.kernel.2)) O (asMatrix A (C * (geo.kernel.1 * geo.kernel.2))) (fun i o => asMatrix D R o i)
      (fun o j => G.el [n, o, j]) s t := by
  obtain ⟨⟨h, v, hf, hx, hg⟩, hdil, d1, d2, d3, g1, u, gB, hu, hgB, g2⟩ := hG
  have hge : geo = ⟨geo.kernel, geo.stride, geo.padding, (1, 1)⟩ := by rw [← hdil]
  obtain ⟨G', GB', e1, e2, -, e4⟩ := C64_conv_partial x A D g gB u N C R O h v geo hf ⟨Or.inl (by rw [hdil]), Or.inl (by rw [hdil])⟩ (by omega) hO (by omega) hx
    (by rw [hg, hdil]) hA hD d1 d2 d3 (by rw [← hge]; exact hu) hgB
  rw [g1] at e1
  have e2 := e2.symm.trans g2
  cases e1
  cases e2
  rw [e4 n s t hn hs ht]
  unfold squeeze
  refine Finset.sum_congr rfl fun o ho => ?_
  rw [sum_cube]
  refine Finset.sum_congr rfl fun i hi => Finset.sum_congr rfl fun p hp => Finset.sum_congr rfl fun q hq => ?_
  dsimp only
  rw [asMatrix_conv hA ht (Finset.mem_range.1 hi) (Finset.mem_range.1 hp) (Finset.mem_range.1 hq)]
  have : asMatrix D R o s = D.el [o, s, 0, 0] := by
    unfold asMatrix Tensor.el
    rw [hD, if_pos (by simp [inRange, Finset.mem_range.1 ho, hs])]
    simp [ravel, numel]
  rw [this]

theorem conv_fwd_mem {data : Tensor K} {N C h v O n y z : Nat} {geo : ConvGeom} (hs : data.shape = [N, C, h, v]) (hn : n < N)
    (hy : y < outSize geo.kernel.1 geo.stride.1 geo.padding.1 1 h) (hz : z < outSize geo.kernel.2 geo.stride.2 geo.padding.2 1 v) :
    (fun r : Nat => pixel data n (r / (geo.kernel.1 * geo.kernel.2)) (y * geo.stride.1 + (r / geo.kernel.2 % geo.kernel.1 : Nat) - geo.padding.1)
      (z * geo.stride.2 + (r % geo.kernel.2 : Nat) - geo.padding.2)) ∈ rows data (some (.conv2d geo O)) .forward := by
  have s0 : data.size 0 = N := by simp [Tensor.size, hs]
  have s2 : data.size 2 = h := by simp [Tensor.size, hs]
  have s3 : data.size 3 = v := by simp [Tensor.size, hs]
  unfold rows
  dsimp only
  rw [s0, s2, s3]
  exact List.mem_flatMap.2 ⟨n, List.mem_range.2 hn, List.mem_flatMap.2 ⟨y, List.mem_range.2 hy, List.mem_map.2 ⟨z, List.mem_range.2 hz, rfl⟩⟩⟩

theorem conv_bwd_mem {data : Tensor K} {N O oh ow n y z P : Nat} {geo : ConvGeom} (hs : data.shape = [N, O, oh, ow]) (hn : n < N) (hy : y < oh) (hz : z < ow) :
    (fun o => data.el [n, o, y, z]) ∈ rows data (some (.conv2d geo P)) .backward := by
  have s0 : data.size 0 = N := by simp [Tensor.size, hs]
  have s2 : data.size 2 = oh := by simp [Tensor.size, hs]
  have s3 : data.size 3 = ow := by simp [Tensor.size, hs]
  unfold rows
  dsimp only
  rw [s0, s2, s3]
  exact List.mem_flatMap.2 ⟨n, List.mem_range.2 hn, List.mem_flatMap.2 ⟨y, List.mem_range.2 hy, List.mem_map.2 ⟨z, List.mem_range.2 hz, rfl⟩⟩⟩

theorem callsOf_type {p : Plugin} {m : PyStr} {lt : LogType} {c : StatCall K} (h : c ∈ callsOf p m lt calls) : c.logType = lt := by
  obtain ⟨pc, h1, rfl⟩ := List.mem_map.1 h
  have := (List.mem_filter.1 h1).2
  simp at this
  exact this.2.2

theorem sum_pairs (a b : Nat) (f : Nat → Nat → K) : ∑ y ∈ Finset.range a, ∑ z ∈ Finset.range b, f y z =
    (((List.range a).flatMap fun y => (List.range b).map fun z => (y, z)).map fun p => f p.1 p.2).sum := by
  induction a with
  | zero => rfl
  | succ a ih =>
    rw [Finset.sum_range_succ, ih, List.range_succ, List.flatMap_append, List.map_append, List.sum_append]
    congr 1
    rw [List.flatMap_singleton, List.map_map]
    rfl

/-- **C88**, convolutions. -/
theorem C88_conv {C O gr : Nat} {geo : ConvGeom} (hp : PcaRun calls rank h h' name (.conv2d C O geo gr) w) (hlow : LowRank calls rank name (.conv2d C O geo gr))
    {A D : Tensor K} (hW : Weights h' w A D) {x g G GB x' g' G' GB' : Tensor K} {N N' : Nat} (hlog : LoggedPair calls name (.conv2d geo O) x g)
    (hG : ConvGrads A D x g G GB N C O (loraRank rank (.conv2d C O geo gr)) geo) (hG' : ConvGrads A D x' g' G' GB' N' C O (loraRank rank (.conv2d C O geo gr)) geo)
    {n n' : Nat} (hn : n < N) (hn' : n' < N') :
        sampleDot (loraRank rank (.conv2d C O geo gr)) (loraRank rank (.conv2d C O geo gr)) GB n GB' n' =
          sampleDot O (C * (geo.kernel.1 * geo.kernel.2)) G n G' n' := by
  obtain ⟨hA, hD, oA, oD, hkeep⟩ := (pcaRun_weights hp).2 A D hW
  obtain ⟨kF, kB⟩ := hkeep hlow
  unfold sampleDot
  rcases Nat.eq_zero_or_pos O with rfl | hO
  · have : loraRank rank (.conv2d C 0 geo gr) = 0 := by simp [loraRank]
    rw [this]
    simp
  have e1 : ∀ s ∈ Finset.range (loraRank rank (.conv2d C O geo gr)), ∀ t ∈ Finset.range (loraRank rank (.conv2d C O geo gr)), GB.el [n, s, t] * GB'.el [n', s, t] = _ :=
    fun s hs t ht => congrArg₂ (· * ·) (convGrads_squeeze hA hD hG hO hn (Finset.mem_range.1 hs) (Finset.mem_range.1 ht))
      (convGrads_squeeze hA hD hG' hO hn' (Finset.mem_range.1 hs) (Finset.mem_range.1 ht))
  rw [Finset.sum_congr rfl fun s hs => Finset.sum_congr rfl (e1 s hs)]
  obtain ⟨⟨c, hc, rfl, hcm⟩, c', hc', rfl, hcm'⟩ := hlog
  obtain ⟨⟨hh, v, hf, hx, hg⟩, hdil, -, -, hd, g1, -⟩ := hG
  obtain ⟨G0, q1, -, q4⟩ := convGrad_ok c.data c'.data N C O hh v geo hf (by omega) hO hx (by rw [hg, hdil]) hd
  have hG0 : G0 = G := Except.ok.inj (q1.symm.trans g1)
  subst hG0
  rw [hdil] at q4
  refine squeeze_inner (squeeze_recover ((List.range (outSize geo.kernel.1 geo.stride.1 geo.padding.1 1 hh)).flatMap fun y =>
      (List.range (outSize geo.kernel.2 geo.stride.2 geo.padding.2 1 v)).map fun z => (y, z))
    (fun p r => pixel c.data n (r / (geo.kernel.1 * geo.kernel.2)) (p.1 * geo.stride.1 + (r / geo.kernel.2 % geo.kernel.1 : Nat) - geo.padding.1)
      (p.2 * geo.stride.2 + (r % geo.kernel.2 : Nat) - geo.padding.2)) (fun p o => c'.data.el [n, o, p.1, p.2])
    (fun o j ho hj => ?_) (fun p hp => ?_) (fun p hp => ?_))
  · have hj : j < C * (geo.kernel.1 * geo.kernel.2) := hj
    have hkk : 0 < geo.kernel.1 * geo.kernel.2 := Nat.pos_of_ne_zero fun e => by rw [e] at hj; simp at hj
    have hi : j / (geo.kernel.1 * geo.kernel.2) < C := (Nat.div_lt_iff_lt_mul hkk).2 hj
    have hq := q4 n o _ _ _ hn ho hi (Nat.mod_lt (j / geo.kernel.2) hf.kernel1) (Nat.mod_lt j hf.kernel2)
    have hj' : (j / (geo.kernel.1 * geo.kernel.2) * geo.kernel.1 + j / geo.kernel.2 % geo.kernel.1) * geo.kernel.2 + j % geo.kernel.2 = j := by
      rw [Nat.mul_comm geo.kernel.1, ← Nat.div_div_eq_div_mul, Nat.div_add_mod', Nat.div_add_mod']
    rw [hj'] at hq
    rw [hq, sum_pairs]
    simp
  · obtain ⟨y, hy, hp⟩ := List.mem_flatMap.1 hp
    obtain ⟨z, hz, rfl⟩ := List.mem_map.1 hp
    refine kF _ ?_
    refine List.mem_flatMap.2 ⟨c, hc, ?_⟩
    unfold callRows
    rw [hcm, callsOf_type hc]
    exact conv_fwd_mem hx hn (List.mem_range.1 hy) (List.mem_range.1 hz)
  · obtain ⟨y, hy, hp⟩ := List.mem_flatMap.1 hp
    obtain ⟨z, hz, rfl⟩ := List.mem_map.1 hp
    refine kB _ ?_
    refine List.mem_flatMap.2 ⟨c', hc', ?_⟩
    unfold callRows
    rw [hcm', callsOf_type hc']
    exact conv_bwd_mem hg hn (List.mem_range.1 hy) (List.mem_range.1 hz)

/-- **C88.** If the data that was logged for a module has at most as many dimensions as the wrapper, the inner product of the gradient of a logged sample with that of any
sample is the same for the compressed gradients as for those of the whole layer. -/
theorem C88_inner_product (hp : PcaRun calls rank h h' name l w) (hlow : LowRank calls rank name l) : (∃ A D, Weights h' w A D) ∧ ∀ A D, Weights h' w A D →
    ∀ {x g G GB x' g' G' GB' : Tensor K} {N N' : Nat}, LoggedPair calls name (kindOf l) x g → LayerGrads rank l A D x g G GB N → LayerGrads rank l A D x' g' G' GB' N' →
      ∀ {n n' : Nat}, n < N → n' < N' →
        sampleDot (loraRank rank l) (loraRank rank l) GB n GB' n' = sampleDot (fanOut l) (fanIn l) G n G' n' := by
  refine ⟨(pcaRun_weights hp).1, fun A D hW => ?_⟩
  intro x g G GB x' g' G' GB' N N' hlog hG hG' n n' hn hn'
  cases l with
  | linear J O => exact C88_linear hp hlow hW hlog hG hG' hn hn'
  | conv2d C O geo gr => exact C88_conv hp hlow hW hlog hG hG' hn hn'
  | _ => exact hG.elim

/-- **C88**, any data: the compressed gradient of a sample is never larger than the gradient. -/
theorem C88_contracts (hp : PcaRun calls rank h h' name l w) {A D : Tensor K} (hW : Weights h' w A D) {x g G GB : Tensor K} {N n : Nat}
    (hG : LayerGrads rank l A D x g G GB N) (hn : n < N) :
    sampleDot (loraRank rank l) (loraRank rank l) GB n GB n ≤ sampleDot (fanOut l) (fanIn l) G n G n := by
  obtain ⟨hA, hD, oA, oD, -⟩ := (pcaRun_weights hp).2 A D hW
  cases l with
  | linear J O =>
    unfold sampleDot
    simp only [← pow_two]
    refine (le_of_eq (Finset.sum_congr rfl fun s hs => Finset.sum_congr rfl fun t ht =>
      congrArg (· ^ 2) (linearGrads_squeeze hA hD hG hn (Finset.mem_range.1 hs) (Finset.mem_range.1 ht)))).trans ?_
    exact squeeze_le oA oD _
  | conv2d C O geo gr =>
    unfold sampleDot
    rcases Nat.eq_zero_or_pos O with rfl | hO
    · have : loraRank rank (.conv2d C 0 geo gr) = 0 := by simp [loraRank]
      rw [this]
      simp [fanOut]
    simp only [← pow_two]
    refine (le_of_eq (Finset.sum_congr rfl fun s hs => Finset.sum_congr rfl fun t ht =>
      congrArg (· ^ 2) (convGrads_squeeze hA hD hG hO hn (Finset.mem_range.1 hs) (Finset.mem_range.1 ht)))).trans ?_
    exact squeeze_le oA oD _
  | _ => exact hG.elim

theorem sampleDot_comm (a b : Nat) (G G' : Tensor K) (n n' : Nat) : sampleDot a b G n G' n' = sampleDot a b G' n' G n := by
  unfold sampleDot
  exact Finset.sum_congr rfl fun i _ => Finset.sum_congr rfl fun j _ => mul_comm _ _

theorem moduleDot_eq {d e : GLog K} {m : PyStr} {t u : Tensor K} {a b i j n n' : Nat} {G G' : Tensor K} (ht : grad d m = some t) (hu : grad e m = some u)
    (hs : t.shape.tail = [a, b]) (h1 : ∀ o k, t.el [i, o, k] = G.el [n, o, k]) (h2 : ∀ o k, u.el [j, o, k] = G'.el [n', o, k]) :
    moduleDot d i e j m = sampleDot a b G n G' n' := by
  unfold moduleDot sampleDot
  rw [ht, hu]
  dsimp only
  unfold dot row
  rw [hs, indices2_sum]
  exact Finset.sum_congr rfl fun o _ => Finset.sum_congr rfl fun k _ => by rw [h1, h2]

/-- **C88**, scores. `d` and `e` hold the gradients of the whole layers, `dB` and `eB` those of the bottlenecks; the samples of `e` are among those that were logged. The
scores are the same. -/
theorem C88_scores {L L' : Lib K} {sqrt sqrt' : K → K} {s s₁ s₂ s₃ : LState K} {srcIds tgtIds : List PyStr} {d e dB eB : GLog K} {hess hess' : Hess} {damping damping' : Option K}
    {r rB : IFResult K} (ren : PyStr → PyStr) (hd : Labelled srcIds d) (he : Labelled tgtIds e) (hdB : Labelled srcIds dB) (heB : Labelled tgtIds eB)
    (hren : Dict.keys dB = (Dict.keys d).map ren)
    (hm : ∀ m ∈ Dict.keys d, ∃ l w A D, PcaRun calls rank h h' m l w ∧ LowRank calls rank m l ∧ Weights h' w A D ∧
      (∀ i < srcIds.length, Recorded rank l A D (fun _ _ => True) d dB m (ren m) i) ∧
      ∀ j < tgtIds.length, Recorded rank l A D (LoggedPair calls m (kindOf l)) e eB m (ren m) j)
    (hr : computeInfluence L sqrt s srcIds (.dict d) tgtIds (.dict e) .dot false hess none damping = .ok (s₁, r))
    (hrB : computeInfluence L' sqrt' s₂ srcIds (.dict dB) tgtIds (.dict eB) .dot false hess' none damping' = .ok (s₃, rB)) :
    ∃ t tB, r.influence = .one t ∧ rB.influence = .one tB ∧ t.shape = [srcIds.length, tgtIds.length] ∧ tB.shape = [srcIds.length, tgtIds.length] ∧
      ∀ i j, i < srcIds.length → j < tgtIds.length → tB.el [i, j] = t.el [i, j] := by
  obtain ⟨H, t, p1, p2, -, -, p3, p4, p5⟩ := dot_scores hr hd he
  obtain ⟨HB, tB, q1, q2, -, -, q3, q4, q5⟩ := dot_scores hrB hdB heB
  refine ⟨t, tB, p2, q2, p3, q3, fun i j hi hj => ?_⟩
  unfold PreOf at p1 q1
  simp only [Bool.false_eq_true, if_false] at p1 q1
  obtain ⟨rfl, -⟩ := p1
  obtain ⟨rfl, -⟩ := q1
  rw [p5 i j hi hj, q5 i j hi hj, hren, List.map_map]
  congr 1
  refine List.map_congr_left fun m hmem => ?_
  obtain ⟨l, w, A, D, hp, hlow, hW, hs, ht⟩ := hm m hmem
  obtain ⟨t1, tB1, x, g, G, GB, N, n, a1, a2, a3, a4, -, a5, a6, a7, a8⟩ := hs i hi
  obtain ⟨t2, tB2, x', g', G', GB', N', n', b1, b2, b3, b4, hlog, b5, b6, b7, b8⟩ := ht j hj
  have key := (C88_inner_product hp hlow).2 A D hW hlog b5 a5 b6 a6
  show moduleDot dB i eB j (ren m) = moduleDot d i e j m
  rw [moduleDot_eq a2 b2 a4 a8 b8, moduleDot_eq a1 b1 a3 a7 b7, sampleDot_comm, key, sampleDot_comm]

end Logix
