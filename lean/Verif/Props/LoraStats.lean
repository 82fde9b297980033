/-
C133: with LoRA the statistics are the projections of the statistics of the layers.
-/
import Verif.Spec.LoraStats
import Verif.Props.LoraLog
import Verif.Props.Precondition
import Verif.Lemmas.Batching

namespace Logix
open Spec Sess
variable {K : Type} [Field K]

/-- Rows are mapped by a matrix with `W` columns and `r` rows. -/
def MapRows (r W : Nat) (P : Nat → Nat → K) (as bs : List (Nat → K)) : Prop := List.Forall₂ (fun a b => ∀ s, s < r → b s = ∑ j ∈ Finset.range W, P s j * a j) as bs

theorem mapRows_moment {r W : Nat} {P : Nat → Nat → K} {as bs : List (Nat → K)} (h : MapRows r W P as bs) {s t : Nat} (hs : s < r) (ht : t < r) :
    (bs.map fun b => b s * b t).sum = congruent W P (fun j k => (as.map fun a => a j * a k).sum) s t := by
  unfold congruent
  induction h with
  | nil => simp
  | cons hu _ ih =>
    simp only [List.map_cons, List.sum_cons]
    rw [ih, hu s hs, hu t ht, Finset.sum_mul_sum]
    simp only [mul_add, add_mul, Finset.sum_add_distrib]
    congr 1
    exact Finset.sum_congr rfl fun j _ => Finset.sum_congr rfl fun k _ => by ring

theorem mapRows_append {r W : Nat} {P : Nat → Nat → K} {as bs as' bs' : List (Nat → K)} (h : MapRows r W P as bs) (h' : MapRows r W P as' bs') :
    MapRows r W P (as ++ as') (bs ++ bs') := List.rel_append h h'

theorem mapRows_map {r W : Nat} {P : Nat → Nat → K} {ι : Type} (l : List ι) (f g : ι → Nat → K) (h : ∀ i ∈ l, ∀ s, s < r → g i s = ∑ j ∈ Finset.range W, P s j * f i j) :
    MapRows r W P (l.map f) (l.map g) := by
  induction l with
  | nil => exact .nil
  | cons i l ih => exact .cons (h i List.mem_cons_self) (ih fun j hj => h j (List.mem_cons_of_mem _ hj))

theorem mapRows_flatMap {r W : Nat} {P : Nat → Nat → K} {ι : Type} (l : List ι) (f g : ι → List (Nat → K)) (h : ∀ i ∈ l, MapRows r W P (f i) (g i)) :
    MapRows r W P (l.flatMap f) (l.flatMap g) := by
  induction l with
  | nil => exact .nil
  | cons i l ih => exact mapRows_append (h i List.mem_cons_self) (ih fun j hj => h j (List.mem_cons_of_mem _ hj))

/-- When the rows are mapped the second moments are congruent. -/
theorem secondMoment_congruent {r W : Nat} {P : Nat → Nat → K} {kind kind' : Option ModKind} {lt lt' : LogType} {xs ys : List (Tensor K)} {M M' : Tensor K}
    (h : List.Forall₂ (fun x y => MapRows r W P (rows x kind lt) (rows y kind' lt') ∧ y.size 0 = x.size 0 ∧ width x kind lt = W ∧ width y kind' lt' = r) xs ys)
    (hne : xs ≠ []) (hM : IsSecondMoment xs kind lt M) (hM' : IsSecondMoment ys kind' lt' M') :
    M'.shape = [r, r] ∧ ∀ s t, s < r → t < r → M'.el [s, t] = congruent W P (entries M) s t := by
  obtain ⟨w, e1, e2, e3⟩ := hM
  obtain ⟨w', e1', e2', e3'⟩ := hM'
  have hw : w = W ∧ w' = r := by
    cases h with
    | nil => exact absurd rfl hne
    | cons hu _ => exact ⟨(e2 _ List.mem_cons_self).symm.trans hu.2.2.1, (e2' _ List.mem_cons_self).symm.trans hu.2.2.2⟩
  obtain ⟨rfl, rfl⟩ := hw
  refine ⟨e1', fun s t hs ht => ?_⟩
  rw [e3' s t hs ht]
  have hrows : MapRows w' w P (xs.flatMap fun a => rows a kind lt) (ys.flatMap fun a => rows a kind' lt') := by
    clear e2 e3 e2' e3' hne
    induction h with
    | nil => exact .nil
    | cons hu _ ih => exact mapRows_append hu.1 ih
  have hsize : (ys.map fun a => a.size 0) = xs.map fun a => a.size 0 := by
    clear e2 e3 e2' e3' hne hrows
    induction h with
    | nil => rfl
    | cons hu _ ih => rw [List.map_cons, List.map_cons, ih, hu.2.1]
  rw [mapRows_moment hrows hs ht, hsize]
  unfold congruent
  rw [div_eq_mul_inv, Finset.sum_mul]
  refine Finset.sum_congr rfl fun j hj => ?_
  rw [Finset.sum_mul]
  refine Finset.sum_congr rfl fun k hk => ?_
  unfold entries
  rw [e3 j k (Finset.mem_range.1 hj) (Finset.mem_range.1 hk)]
  ring

theorem cube_index {k1 k2 c p q : Nat} (hp : p < k1) (hq : q < k2) :
    ((c * k1 + p) * k2 + q) / (k1 * k2) = c ∧ ((c * k1 + p) * k2 + q) / k2 % k1 = p ∧ ((c * k1 + p) * k2 + q) % k2 = q := by
  have e : ((c * k1 + p) * k2 + q) / k2 = c * k1 + p := by
    rw [Nat.mul_comm (c * k1 + p), Nat.mul_add_div (by omega), Nat.div_eq_of_lt hq, Nat.add_zero]
  refine ⟨?_, ?_, ?_⟩
  · rw [Nat.mul_comm k1 k2, ← Nat.div_div_eq_div_mul, e, Nat.mul_comm c, Nat.mul_add_div (by omega), Nat.div_eq_of_lt hp, Nat.add_zero]
  · rw [e, Nat.mul_comm c, Nat.mul_add_mod, Nat.mod_eq_of_lt hp]
  · rw [Nat.mul_comm (c * k1 + p), Nat.mul_add_mod, Nat.mod_eq_of_lt hq]

theorem sum_patches (C a b : Nat) (f : Nat → K) : ∑ j ∈ Finset.range (C * (a * b)), f j =
    ∑ i ∈ Finset.range C, ∑ p ∈ Finset.range a, ∑ q ∈ Finset.range b, f ((i * a + p) * b + q) := by
  rw [sum_range_mul']
  refine Finset.sum_congr rfl fun i _ => ?_
  rw [sum_range_mul']
  refine Finset.sum_congr rfl fun p _ => Finset.sum_congr rfl fun q _ => ?_
  congr 1
  ring

theorem pixel_here (y : Tensor K) (n s a b : Nat) :
    pixel y n (s / (1 * 1)) (a * (1 : Nat) + (s / 1 % 1 : Nat) - (0 : Nat)) (b * (1 : Nat) + (s % 1 : Nat) - (0 : Nat)) = y.el [n, s, a, b] := by
  have := pixel_nat y n s a b
  simpa [Nat.mod_one] using this

theorem encodes_rows {r : Nat} {l : Layer} {A x y : Tensor K} (h : Encodes r l A x y) :
    MapRows r (fanIn l) (encoderMatrix l A) (rows x (some (layerKind l)) .forward) (rows y (some (bottleneckKind r l)) .forward) ∧ y.size 0 = x.size 0 ∧
      width x (some (layerKind l)) .forward = fanIn l ∧ width y (some (bottleneckKind r l)) .forward = r := by
  obtain ⟨hd, h⟩ := h
  match l, h with
  | .linear J O, ⟨h1, ⟨n, mid, h2⟩, h3⟩ =>
    have h2' : x.shape = (n :: mid) ++ [J] := by rw [h2]; rfl
    obtain ⟨y', y1, -, y3, y4⟩ := linearForward_el h1 h2' hd.symm
    obtain rfl := Except.ok.inj (h3.symm.trans y1)
    refine ⟨?_, by unfold Tensor.size; rw [y3, h2]; rfl, ?_, ?_⟩
    · show MapRows r J (encoderMatrix (.linear J O) A) ((indices x.shape.dropLast).map fun p j => x.el (p ++ [j])) ((indices y.shape.dropLast).map fun p j => y.el (p ++ [j]))
      rw [h2', y3, List.dropLast_concat, List.dropLast_concat]
      refine mapRows_map _ _ _ fun p hp s hs => ?_
      rw [y4 p s ((mem_indices _ _).1 hp) hs]
      exact Finset.sum_congr rfl fun j _ => mul_comm _ _
    · show x.shape.getLastD 0 = J
      rw [List.getLastD_eq_getLast?, h2', List.getLast?_concat]; rfl
    · show y.shape.getLastD 0 = r
      rw [List.getLastD_eq_getLast?, y3, List.getLast?_concat]; rfl
  | .conv2d C O geo gr, ⟨h0, h1, ⟨n, h, v, hf, h2⟩, h3⟩ =>
    obtain ⟨y', y1, -, y3, y4⟩ := conv2dForward_el hf h1 h2 hd.symm
    obtain rfl := Except.ok.inj (h3.symm.trans y1)
    rw [h0] at y3 y4
    have k1 := hf.kernel1
    have k2 := hf.kernel2
    refine ⟨?_, by unfold Tensor.size; rw [y3, h2]; rfl, ?_, ?_⟩
    · unfold rows
      dsimp only [layerKind, bottleneckKind, Tensor.size]
      rw [h2, y3]
      simp only [List.getD_cons_zero, List.getD_cons_succ]
      have pos : ∀ k s p w, 0 < outSize k s p 1 w := fun k s p w => Nat.succ_pos _
      rw [pointwise_out (pos geo.kernel.1 _ _ _), pointwise_out (pos geo.kernel.2 _ _ _)]
      refine mapRows_flatMap _ _ _ fun i hi => mapRows_flatMap _ _ _ fun a ha => mapRows_map _ _ _ fun b hb s hs => ?_
      rw [pixel_here, y4 i s a b (List.mem_range.1 hi) hs (List.mem_range.1 ha) (List.mem_range.1 hb)]
      unfold Spec.convOut
      rw [h0, show fanIn (.conv2d C O geo gr) = C * (geo.kernel.1 * geo.kernel.2) from rfl, sum_patches]
      refine Finset.sum_congr rfl fun c _ => Finset.sum_congr rfl fun p hp => Finset.sum_congr rfl fun q hq => ?_
      obtain ⟨i1, i2, i3⟩ := cube_index (c := c) (Finset.mem_range.1 hp) (Finset.mem_range.1 hq)
      unfold encoderMatrix
      dsimp only
      rw [i1, i2, i3]
      simp only [Nat.cast_one, mul_one]
    · show x.size 1 * geo.kernel.1 * geo.kernel.2 = C * (geo.kernel.1 * geo.kernel.2)
      unfold Tensor.size
      rw [h2, ← Nat.mul_assoc]
      rfl
    · show y.size 1 * 1 * 1 = r
      unfold Tensor.size
      rw [y3]; simp

theorem decodes_rows {r : Nat} {l : Layer} {D g k : Tensor K} (h : Decodes r l D g k) :
    MapRows r (fanOut l) (decoderMatrix l D) (rows g (some (layerKind l)) .backward) (rows k (some (bottleneckKind r l)) .backward) ∧ k.size 0 = g.size 0 ∧
      width g (some (layerKind l)) .backward = fanOut l ∧ width k (some (bottleneckKind r l)) .backward = r := by
  match l, h with
  | .linear J O, ⟨h1, n, mid, h2, h3⟩ =>
    have h2' : g.shape = (n :: mid) ++ [O] := by rw [h2]; rfl
    have h4 : k.shape = (n :: mid) ++ [r] := h3.1
    refine ⟨?_, by unfold Tensor.size; rw [h4, h2]; rfl, ?_, ?_⟩
    · show MapRows r O (decoderMatrix (.linear J O) D) ((indices g.shape.dropLast).map fun p j => g.el (p ++ [j])) ((indices k.shape.dropLast).map fun p j => k.el (p ++ [j]))
      rw [h2', h4, List.dropLast_concat, List.dropLast_concat]
      refine mapRows_map _ _ _ fun p hp s hs => ?_
      rw [linear_backward (pre := n :: mid) h1 rfl h3 ((mem_indices _ _).1 hp) hs]
      exact Finset.sum_congr rfl fun j _ => mul_comm _ _
    · show g.shape.getLastD 0 = O
      rw [List.getLastD_eq_getLast?, h2', List.getLast?_concat]; rfl
    · show k.shape.getLastD 0 = r
      rw [List.getLastD_eq_getLast?, h4, List.getLast?_concat]; rfl
  | .conv2d C O geo gr, ⟨h1, n, h, v, p1, p2, h2, h3⟩ =>
    have h4 : k.shape = [n, r, h, v] := h3.1
    refine ⟨?_, by unfold Tensor.size; rw [h4, h2]; rfl, ?_, ?_⟩
    · unfold rows
      dsimp only [layerKind, bottleneckKind, Tensor.size]
      rw [h2, h4]
      simp only [List.getD_cons_zero, List.getD_cons_succ]
      refine mapRows_flatMap _ _ _ fun i hi => mapRows_flatMap _ _ _ fun a ha => mapRows_map _ _ _ fun b hb s hs => ?_
      rw [pointwise_backward p1 p2 h1 rfl h3 (List.mem_range.1 hi) hs (List.mem_range.1 ha) (List.mem_range.1 hb)]
      exact Finset.sum_congr rfl fun j _ => mul_comm _ _
    · show g.size 1 = O
      unfold Tensor.size
      rw [h2]; rfl
    · show k.size 1 = r
      unfold Tensor.size
      rw [h4]; rfl

theorem values_related {R : Tensor K → Tensor K → Prop} {tensors tensors' : List (TObj K)} {ns ns' : List Nat} {xs ys : List (Tensor K)}
    (h : List.Forall₂ (Related R tensors tensors') ns ns') (hx : Values tensors ns xs) (hy : Values tensors' ns' ys) : List.Forall₂ R xs ys := by
  induction h generalizing xs ys with
  | nil => cases hx; cases hy; exact .nil
  | cons hu _ ih =>
    cases hx with
    | cons a1 a2 =>
      cases hy with
      | cons b1 b2 =>
        refine .cons ?_ (ih a2 b2)
        obtain ⟨x, y, e1, e2, e3⟩ := hu
        obtain ⟨_, c1, rfl⟩ := a1
        obtain ⟨_, d1, rfl⟩ := b1
        obtain rfl := Option.some.inj (e1.symm.trans c1)
        obtain rfl := Option.some.inj (e2.symm.trans d1)
        exact e3

/-- **C133, inputs.** A program uses a layer and another program uses the bottleneck of its wrapper in the same way; then the second moment of the inputs of the bottleneck is
`A M Aᵀ`, where `M` is the second moment of the inputs of the layer. -/
theorem C133_forward (E E' : SEnv K) (body body' : List (SOp K)) (m m' r : Nat) (l : Layer) (A M M' : Tensor K) (hk : E.kind m = layerKind l)
    (hk' : E'.kind m' = bottleneckKind r l) (hne : inputs m body ≠ [])
    (h : List.Forall₂ (Related (Encodes r l A) (allocs body) (allocs body')) (inputs m body) (inputs m' body'))
    (hM : InputMoment E body m M) (hM' : InputMoment E' body' m' M') :
    M'.shape = [r, r] ∧ ∀ s t, s < r → t < r → M'.el [s, t] = congruent (fanIn l) (encoderMatrix l A) (entries M) s t := by
  obtain ⟨xs, x1, x2⟩ := hM
  obtain ⟨ys, y1, y2⟩ := hM'
  rw [hk] at x2
  rw [hk'] at y2
  refine secondMoment_congruent ((values_related h x1 y1).imp fun _ _ => encodes_rows) ?_ x2 y2
  rintro rfl
  cases e : inputs m body with
  | nil => exact hne e
  | cons => rw [e] at x1; cases x1

/-- **C133, output gradients.** The second moment of the output gradients of the bottleneck is `Dᵀ M D`, where `M` is the second moment of the output gradients of the layer. -/
theorem C133_backward (E E' : SEnv K) (body body' : List (SOp K)) (m m' r : Nat) (l : Layer) (D M M' : Tensor K) (hk : E.kind m = layerKind l)
    (hk' : E'.kind m' = bottleneckKind r l) (hne : notes outGrad m ⟨none, [], [], []⟩ body ≠ [])
    (h : List.Forall₂ (Related (Decodes r l D) (allocs body) (allocs body')) ((notes outGrad m ⟨none, [], [], []⟩ body).map Prod.fst)
      ((notes outGrad m' ⟨none, [], [], []⟩ body').map Prod.fst))
    (hM : OutGradMoment E body m M) (hM' : OutGradMoment E' body' m' M') :
    M'.shape = [r, r] ∧ ∀ s t, s < r → t < r → M'.el [s, t] = congruent (fanOut l) (decoderMatrix l D) (entries M) s t := by
  obtain ⟨xs, x1, x2⟩ := hM
  obtain ⟨ys, y1, y2⟩ := hM'
  rw [hk] at x2
  rw [hk'] at y2
  refine secondMoment_congruent ((values_related h x1 y1).imp fun _ _ => decodes_rows) ?_ x2 y2
  rintro rfl
  cases e : notes outGrad m ⟨none, [], [], []⟩ body with
  | nil => exact hne e
  | cons => rw [e] at x1; cases x1

theorem projected_smul (l : Layer) (A D : Tensor K) (G : Nat → Nat → K) (c : K) (s t : Nat) : projected l A D (fun o j => c * G o j) s t = c * projected l A D G s t := by
  unfold projected
  split <;> simp only [Finset.mul_sum, mul_zero]
  · exact Finset.sum_congr rfl fun o _ => Finset.sum_congr rfl fun j _ => by ring
  · exact Finset.sum_congr rfl fun o _ => Finset.sum_congr rfl fun i _ => Finset.sum_congr rfl fun p _ => Finset.sum_congr rfl fun q _ => by ring

theorem projected_congr (l : Layer) (A D : Tensor K) {G H : Nat → Nat → K} (h : ∀ o j, o < fanOut l → j < fanIn l → G o j = H o j) (s t : Nat) :
    projected l A D G s t = projected l A D H s t := by
  unfold projected
  split
  · exact Finset.sum_congr rfl fun o ho => Finset.sum_congr rfl fun j hj => by rw [h o j (Finset.mem_range.1 ho) (Finset.mem_range.1 hj)]
  · next C O geo _ =>
    refine Finset.sum_congr rfl fun o ho => Finset.sum_congr rfl fun i hi => Finset.sum_congr rfl fun p hp => Finset.sum_congr rfl fun q hq => ?_
    rw [h o _ (Finset.mem_range.1 ho) ?_]
    show (i * geo.kernel.1 + p) * geo.kernel.2 + q < C * (geo.kernel.1 * geo.kernel.2)
    rw [Finset.mem_range] at hi hp hq
    calc (i * geo.kernel.1 + p) * geo.kernel.2 + q < (i * geo.kernel.1 + p) * geo.kernel.2 + geo.kernel.2 := by omega
      _ = (i * geo.kernel.1 + p + 1) * geo.kernel.2 := by ring
      _ ≤ (C * geo.kernel.1) * geo.kernel.2 := by
        refine Nat.mul_le_mul_right _ ?_
        calc i * geo.kernel.1 + p + 1 ≤ i * geo.kernel.1 + geo.kernel.1 := by omega
          _ = (i + 1) * geo.kernel.1 := by ring
          _ ≤ C * geo.kernel.1 := Nat.mul_le_mul_right _ hi
      _ = C * (geo.kernel.1 * geo.kernel.2) := by ring
  · rfl

/-- The product of two projections is a projection of a projection. -/
theorem projected_mul (l : Layer) (A D : Tensor K) (G H : Nat → Nat → K) (s t s' t' : Nat) :
    projected l A D G s t * projected l A D H s' t' = projected l A D (fun o j => projected l A D (fun o' j' => G o j * H o' j') s' t') s t := by
  simp only [projected_smul]
  rw [mul_comm, ← projected_smul]
  congr 1
  funext o j
  ring

/-- Row `n` of a batch of matrices, flattened. -/
theorem row_flat {T : Tensor K} {N a b : Nat} (hT : T.shape = [N, a, b]) (n : Nat) {i j : Nat} (hi : i < a) (hj : j < b) :
    T.el (n :: (indices T.shape.tail).getD (i * b + j) []) = T.el [n, i, j] := by
  have := getD_ravel [a, b] [i, j] (by simp [inRange, hi, hj])
  rw [hT, show [N, a, b].tail = [a, b] from rfl, show i * b + j = ravel [a, b] [i, j] by simp [ravel, numel], this]

/-- Second moments of gradients whose samples are projected. -/
theorem gradMoment_projected {r : Nat} {l : Layer} {A D : Tensor K} {Ts Ts' : List (Tensor K)} {M M' : Tensor K}
    (h : List.Forall₂ (fun T T' => ∃ N, T.shape = [N, fanOut l, fanIn l] ∧ T'.shape = [N, r, r] ∧
      ∀ n s t, n < N → s < r → t < r → T'.el [n, s, t] = projected l A D (fun o j => T.el [n, o, j]) s t) Ts Ts')
    (hne : Ts ≠ []) (hM : IsSecondMoment Ts none .grad M) (hM' : IsSecondMoment Ts' none .grad M') (s t s' t' : Nat) (hs : s < r) (ht : t < r) (hs' : s' < r) (ht' : t' < r) :
    M'.el [s * r + t, s' * r + t'] =
      projected l A D (fun o j => projected l A D (fun o' j' => M.el [o * fanIn l + j, o' * fanIn l + j']) s' t') s t := by
  obtain ⟨w, e1, e2, e3⟩ := hM
  obtain ⟨w', e1', e2', e3'⟩ := hM'
  have hw : w = fanOut l * fanIn l ∧ w' = r * r := by
    cases h with
    | nil => exact absurd rfl hne
    | cons hu _ =>
      obtain ⟨N, a1, a2, -⟩ := hu
      have b1 := e2 _ List.mem_cons_self
      have b2 := e2' _ List.mem_cons_self
      unfold width at b1 b2
      rw [a1] at b1
      rw [a2] at b2
      simp only [List.tail_cons, numel, List.foldl_cons, List.foldl_nil, Nat.one_mul] at b1 b2
      exact ⟨b1.symm, b2.symm⟩
  obtain ⟨rfl, rfl⟩ := hw
  have flat : ∀ {i j a b : Nat}, i < a → j < b → i * b + j < a * b := fun {i j a b} hi hj =>
    calc i * b + j < i * b + b := by omega
      _ = (i + 1) * b := by ring
      _ ≤ a * b := Nat.mul_le_mul_right _ hi
  rw [e3' _ _ (flat hs ht) (flat hs' ht')]
  have hsize : (Ts'.map fun a => a.size 0) = Ts.map fun a => a.size 0 := by
    clear e2 e3 e2' e3' hne
    induction h with
    | nil => rfl
    | cons hu _ ih =>
      obtain ⟨N, a1, a2, -⟩ := hu
      rw [List.map_cons, List.map_cons, ih]
      congr 1
      unfold Tensor.size
      rw [a1, a2]
      rfl
  rw [hsize]
  have hrows : ((Ts'.flatMap fun a => rows a none .grad).map fun ρ => ρ (s * r + t) * ρ (s' * r + t')) =
      ((Ts.flatMap fun a => rows a none .grad).map fun ρ =>
        projected l A D (fun o j => projected l A D (fun o' j' => ρ (o * fanIn l + j) * ρ (o' * fanIn l + j')) s' t') s t) := by
    clear e2 e3 e2' e3' hne hsize
    induction h with
    | nil => rfl
    | @cons T T' _ _ hu _ ih =>
      obtain ⟨N, a1, a2, a3⟩ := hu
      rw [List.flatMap_cons, List.flatMap_cons, List.map_append, List.map_append, ih]
      congr 1
      unfold rows
      dsimp only
      rw [List.map_map, List.map_map, show T'.size 0 = N by unfold Tensor.size; rw [a2]; rfl, show T.size 0 = N by unfold Tensor.size; rw [a1]; rfl]
      refine List.map_congr_left fun n hn => ?_
      simp only [Function.comp]
      rw [row_flat a2 n hs ht, row_flat a2 n hs' ht', a3 n s t (List.mem_range.1 hn) hs ht, a3 n s' t' (List.mem_range.1 hn) hs' ht', projected_mul]
      refine projected_congr l A D (fun o j ho hj => projected_congr l A D (fun o' j' ho' hj' => ?_) _ _) _ _
      rw [row_flat a1 n ho hj, row_flat a1 n ho' hj']
  rw [hrows]
  set c := (((Ts.map fun a => a.size 0).sum : Nat) : K) with hc
  have key : ∀ (ρs : List (Nat → K)), (ρs.map fun ρ => projected l A D (fun o j => projected l A D (fun o' j' => ρ (o * fanIn l + j) * ρ (o' * fanIn l + j')) s' t') s t).sum =
      projected l A D (fun o j => projected l A D (fun o' j' => (ρs.map fun ρ => ρ (o * fanIn l + j) * ρ (o' * fanIn l + j')).sum) s' t') s t := by
    intro ρs
    induction ρs with
    | nil => simp only [List.map_nil, List.sum_nil, projected_zero]
    | cons ρ ρs ih =>
      simp only [List.map_cons, List.sum_cons, projected_add]
      rw [ih]
  rw [key, div_eq_mul_inv, mul_comm, ← projected_smul]
  refine projected_congr l A D (fun o j ho hj => ?_) _ _
  rw [← projected_smul]
  refine projected_congr l A D (fun o' j' ho' hj' => ?_) _ _
  rw [e3 _ _ (flat ho hj) (flat ho' hj'), div_eq_mul_inv, mul_comm]

theorem layer_shape {r : Nat} {l : Layer} {A D x g y k G : Tensor K} {N : Nat} (h : ThroughWrapper r l A D x g y k N)
    (hG : computePerSampleGradient x g (layerKind l) = .ok G) : G.shape = [N, fanOut l, fanIn l] := by
  obtain ⟨h1, h2, h3, h⟩ := h
  match l, h, hG with
  | .linear J O, ⟨_, _, ⟨mid, a3, a4⟩, _, _⟩, hG =>
    obtain ⟨H, q1, q2, -⟩ := outerSum_ok g x N O J mid a4 a3 h3
    obtain rfl := Except.ok.inj (hG.symm.trans q1)
    exact q2
  | .conv2d C O geo gr, ⟨b1, b2, b3, b4, a1, a2, ⟨h, v, a0, a3, a4⟩, a5, a6⟩, hG =>
    obtain ⟨H, q1, q2, -⟩ := convGrad_ok x g N C O h v geo a0 b2 b3 a3 (by rw [b1]; exact a4) h3
    obtain rfl := Except.ok.inj (hG.symm.trans q1)
    rw [q2]
    show _ = [N, O, C * (geo.kernel.1 * geo.kernel.2)]
    rw [← Nat.mul_assoc]

/-- **C133, gradients.** A program uses a layer and another program uses the bottleneck of its wrapper in the same way, batch by batch; then the second moment of the gradients
of the bottleneck is the projection, in rows and columns, of the second moment of the gradients of the layer. -/
theorem C133_grad (E E' : SEnv K) (body body' : List (SOp K)) (m m' r : Nat) (l : Layer) (A D M M' : Tensor K) (hk : E.kind m = layerKind l)
    (hk' : E'.kind m' = bottleneckKind r l) (hne : notes batchGrads m ⟨none, [], [], []⟩ body ≠ [])
    (h : List.Forall₂ (fun b b' => ∃ N, List.Forall₂ (WrappedUse r l A D N (allocs body) (allocs body')) b b')
      ((notes batchGrads m ⟨none, [], [], []⟩ body).map Prod.fst) ((notes batchGrads m' ⟨none, [], [], []⟩ body').map Prod.fst))
    (hM : BatchGradMoment E body m M) (hM' : BatchGradMoment E' body' m' M') :
    ∀ s t s' t', s < r → t < r → s' < r → t' < r → M'.el [s * r + t, s' * r + t'] =
      projected l A D (fun o j => projected l A D (fun o' j' => M.el [o * fanIn l + j, o' * fanIn l + j']) s' t') s t := by
  obtain ⟨Ts, x1, x2⟩ := hM
  obtain ⟨Ts', y1, y2⟩ := hM'
  rw [hk] at x1
  rw [hk'] at y1
  intro s t s' t' hs ht hs' ht'
  refine gradMoment_projected ?_ ?_ x2 y2 s t s' t' hs ht hs' ht'
  · clear x2 y2 hne
    revert x1 y1
    generalize (notes batchGrads m ⟨none, [], [], []⟩ body).map Prod.fst = bs at h
    generalize (notes batchGrads m' ⟨none, [], [], []⟩ body').map Prod.fst = bs' at h
    intro x1 y1
    induction h generalizing Ts Ts' with
    | nil => cases x1; cases y1; exact .nil
    | cons hu _ ih =>
      cases x1 with
      | cons a1 a2 =>
        cases y1 with
        | cons b1 b2 =>
          refine .cons ?_ (ih _ _ a2 b2)
          obtain ⟨N, hu⟩ := hu
          obtain ⟨c1, c2⟩ := C132_batch r l A D N _ _ _ _ _ _ a1 b1 hu
          refine ⟨N, ?_, c1, c2⟩
          obtain ⟨vs, v1, v2, v3, -⟩ := a1
          cases v1 with
          | nil => exact absurd rfl v2
          | cons w1 _ =>
            cases hu with
            | cons z1 _ =>
              rw [← v3 _ List.mem_cons_self]
              obtain ⟨x, g, y, k, f1, f2, -, -, f5⟩ := z1
              obtain ⟨_, _, d1, d2, d3⟩ := w1
              obtain rfl := Option.some.inj (f1.symm.trans d1)
              obtain rfl := Option.some.inj (f2.symm.trans d2)
              exact layer_shape f5 d3
  · rintro rfl
    cases e : notes batchGrads m ⟨none, [], [], []⟩ body with
    | nil => exact hne e
    | cons => rw [e] at x1; cases x1

end Logix
