/-
The bilinear forms of Hessians: linear, symmetric, positive.
-/
import Verif.Props.Precondition

namespace Logix
variable {K : Type}

/-! ### Linearity -/

theorem dot_congr [Semiring K] {r : List Nat} {g g' h h' : List Nat → K} (hg : ∀ idx ∈ indices r, g idx = g' idx) (hh : ∀ idx ∈ indices r, h idx = h' idx) :
    Spec.dot r g h = Spec.dot r g' h' := by
  unfold Spec.dot
  congr 1
  exact List.map_congr_left fun idx hidx => by rw [hg idx hidx, hh idx hidx]

theorem cut_congr [Zero K] {r : List Nat} {g g' : List Nat → K} (hg : ∀ idx ∈ indices r, g idx = g' idx) : cut r g = cut r g' := by
  funext idx
  unfold cut
  split
  · next h => exact hg idx ((mem_indices _ _).2 h)
  · rfl

theorem form_congr [Field K] (H : HessKind K) (m : PyStr) {r : List Nat} {g g' h h' : List Nat → K} (hg : ∀ idx ∈ indices r, g idx = g' idx)
    (hh : ∀ idx ∈ indices r, h idx = h' idx) : H.form m r g h = H.form m r g' h' := by
  cases H with
  | none => exact dot_congr hg hh
  | kfac vals vecs d => simp only [HessKind.form, cut_congr hg, cut_congr hh]
  | raw inv =>
    simp only [HessKind.form]
    split
    · split
      · congr 1
        refine List.map_congr_left fun idx hidx => ?_
        rw [hh idx hidx]
        congr 2
        exact List.map_congr_left fun idx' hidx' => by rw [hg idx' hidx']
      · rfl
    · rfl

theorem sum_map_lin [Semiring K] {α : Type} (l : List α) (a b : K) (f g : α → K) :
    (l.map fun x => a * f x + b * g x).sum = a * (l.map f).sum + b * (l.map g).sum := by
  induction l with
  | nil => simp
  | cons x l ih => rw [List.map_cons, List.sum_cons, ih]; simp only [List.map_cons, List.sum_cons, mul_add]; exact add_add_add_comm ..

theorem rotF_lin [Field K] (ef eb : Tensor K) (r : List Nat) (a b : K) (g h : List Nat → K) (x y : Nat) :
    rotF ef eb (cut r fun idx => a * g idx + b * h idx) x y = a * rotF ef eb (cut r g) x y + b * rotF ef eb (cut r h) x y := by
  unfold rotF
  rw [Finset.mul_sum, Finset.mul_sum, ← Finset.sum_add_distrib]
  refine Finset.sum_congr rfl fun p _ => ?_
  rw [Finset.mul_sum, Finset.mul_sum, ← Finset.sum_add_distrib]
  refine Finset.sum_congr rfl fun q _ => ?_
  unfold cut
  split <;> ring

theorem form_lin_left [Field K] (H : HessKind K) (m : PyStr) (r : List Nat) (a b : K) (g h f : List Nat → K) :
    H.form m r (fun idx => a * g idx + b * h idx) f = a * H.form m r g f + b * H.form m r h f := by
  cases H with
  | none =>
    simp only [HessKind.form, Spec.dot]
    rw [← sum_map_lin _ _ _ _ _]
    congr 1
    exact List.map_congr_left fun idx _ => by ring
  | kfac vals vecs d =>
    simp only [HessKind.form]
    split
    · rw [Finset.mul_sum, Finset.mul_sum, ← Finset.sum_add_distrib]
      refine Finset.sum_congr rfl fun x _ => ?_
      rw [Finset.mul_sum, Finset.mul_sum, ← Finset.sum_add_distrib]
      refine Finset.sum_congr rfl fun y _ => ?_
      rw [rotF_lin]; ring
    · simp
  | raw inv =>
    simp only [HessKind.form]
    split
    · split
      · rw [← sum_map_lin _ _ _ _ _]
        congr 1
        refine List.map_congr_left fun idx _ => ?_
        rw [← mul_assoc, ← mul_assoc, ← add_mul, ← sum_map_lin _ _ _ _ _]
        congr 2
        exact List.map_congr_left fun idx' _ => by ring
      · simp
    · simp

theorem form_lin_right [Field K] (H : HessKind K) (m : PyStr) (r : List Nat) (a b : K) (g h f : List Nat → K) :
    H.form m r f (fun idx => a * g idx + b * h idx) = a * H.form m r f g + b * H.form m r f h := by
  cases H with
  | none =>
    simp only [HessKind.form, Spec.dot]
    rw [← sum_map_lin _ _ _ _ _]
    congr 1
    exact List.map_congr_left fun idx _ => by ring
  | kfac vals vecs d =>
    simp only [HessKind.form]
    split
    · rw [Finset.mul_sum, Finset.mul_sum, ← Finset.sum_add_distrib]
      refine Finset.sum_congr rfl fun x _ => ?_
      rw [Finset.mul_sum, Finset.mul_sum, ← Finset.sum_add_distrib]
      refine Finset.sum_congr rfl fun y _ => ?_
      rw [rotF_lin]; ring
    · simp
  | raw inv =>
    simp only [HessKind.form]
    split
    · split
      · rw [← sum_map_lin _ _ _ _ _]
        congr 1
        exact List.map_congr_left fun idx _ => by ring
      · simp
    · simp

/-! ### Linear combinations of samples -/

theorem formAt_comb_left [Field K] {a b : K} {d e f x : GLog K} {i j k l : Nat} (h : Spec.SampleComb a d i b e j f k) (H : HessKind K) {m : PyStr}
    (hm : m ∈ Dict.keys f) : formAt H.form f k x l m = a * formAt H.form d i x l m + b * formAt H.form e j x l m := by
  obtain ⟨g, g', y, h1, h2, h3, h4, h5, h6⟩ := h.rows m hm
  unfold formAt
  simp only [h1, h2, h3]
  cases Spec.grad x m with
  | none => simp
  | some z =>
    simp only [h4, h5]
    rw [← form_lin_left]
    exact form_congr H m h6 fun _ _ => rfl

theorem formAt_comb_right [Field K] {a b : K} {d e f x : GLog K} {i j k l : Nat} (h : Spec.SampleComb a d i b e j f k) (H : HessKind K) {m : PyStr}
    (hm : m ∈ Dict.keys f) (hs : ∀ g z, Spec.grad f m = some g → Spec.grad x m = some z → g.shape.tail = z.shape.tail) :
    formAt H.form x l f k m = a * formAt H.form x l d i m + b * formAt H.form x l e j m := by
  obtain ⟨g, g', y, h1, h2, h3, h4, h5, h6⟩ := h.rows m hm
  unfold formAt
  simp only [h1, h2, h3]
  cases hz : Spec.grad x m with
  | none => simp
  | some z =>
    simp only
    rw [← form_lin_right]
    refine form_congr H m (fun _ _ => rfl) fun idx hidx => ?_
    rw [← hs y z h3 hz] at hidx
    exact h6 idx hidx

/-! ### Symmetry -/

/-- A matrix that is inverse to a symmetric one is symmetric. -/
theorem DampedInverse.symm [Field K] {x i : Tensor K} {n : Nat} {c : K} (hx : Spec.Symm x n) (h : Spec.DampedInverse x i n c) {a b : Nat} (ha : a < n)
    (hb : b < n) : i.el [a, b] = i.el [b, a] := by
  have e1 : i.el [a, b] = ∑ k ∈ Finset.range n, i.el [a, k] * (∑ l ∈ Finset.range n, (x.el [k, l] + if k = l then c else 0) * i.el [l, b]) := by
    rw [Finset.sum_congr rfl fun k hk => by rw [h.right k b (Finset.mem_range.1 hk) hb]]
    simp [hb]
  have e2 : i.el [b, a] = ∑ k ∈ Finset.range n, i.el [a, k] * (∑ l ∈ Finset.range n, (x.el [k, l] + if k = l then c else 0) * i.el [b, l]) := by
    have h1 : ∀ k, k < n → (∑ l ∈ Finset.range n, (x.el [k, l] + if k = l then c else 0) * i.el [b, l]) = if b = k then 1 else 0 := by
      intro k hk
      rw [← h.left b k hb hk]
      refine Finset.sum_congr rfl fun l hl => ?_
      rw [hx.2 k l hk (Finset.mem_range.1 hl), mul_comm]
      simp only [eq_comm]
    have h2 : ∀ l, l < n → (∑ k ∈ Finset.range n, i.el [a, k] * (x.el [k, l] + if k = l then c else 0)) = if a = l then 1 else 0 := fun l hl => h.left a l ha hl
    simp only [Finset.mul_sum]
    rw [Finset.sum_comm]
    have : ∀ l ∈ Finset.range n, (∑ k ∈ Finset.range n, i.el [a, k] * ((x.el [k, l] + if k = l then c else 0) * i.el [b, l])) = (if a = l then 1 else 0) * i.el [b, l] := by
      intro l hl
      rw [← h2 l (Finset.mem_range.1 hl), Finset.sum_mul]
      exact Finset.sum_congr rfl fun k _ => by ring
    rw [Finset.sum_congr rfl this]
    simp [ha]
  have h1 : ∀ k, k < n → (∑ l ∈ Finset.range n, (x.el [k, l] + if k = l then c else 0) * i.el [b, l]) = if b = k then 1 else 0 := by
    intro k hk
    rw [← h.left b k hb hk]
    refine Finset.sum_congr rfl fun l hl => ?_
    rw [hx.2 k l hk (Finset.mem_range.1 hl), mul_comm]
    simp only [eq_comm]
  rw [e1, e2]
  refine Finset.sum_congr rfl fun k hk => ?_
  rw [h.right k b (Finset.mem_range.1 hk) hb, h1 k (Finset.mem_range.1 hk)]
  simp only [eq_comm]

/-- The form is symmetric at this module, for arrays of every shape. -/
def HessKind.SymmAt [Field K] (H : HessKind K) (m : PyStr) : Prop := ∀ r g h, H.form m r g h = H.form m r h g

theorem symmAt_none [Field K] (m : PyStr) : (HessKind.none : HessKind K).SymmAt m := fun r g h => dot_comm r g h

theorem symmAt_kfac [Field K] (vals vecs : StateDict K) (d : K) (m : PyStr) : (HessKind.kfac vals vecs d).SymmAt m := by
  intro r g h
  simp only [HessKind.form]
  split
  · exact Finset.sum_congr rfl fun a _ => Finset.sum_congr rfl fun b _ => by ring
  · rfl

/-- The form of an inverse as sums over the rows and columns. -/
theorem form_raw [Field K] {inv : StateDict K} {m : PyStr} {i : Tensor K} (hi : item2 inv m (LogType.name .grad) = .ok (some (.tensor i))) (r : List Nat)
    (g h : List Nat → K) (hs : i.shape = [numel r, numel r]) : (HessKind.raw inv).form m r g h =
      ∑ b ∈ Finset.range (numel r), ∑ a ∈ Finset.range (numel r), g ((indices r).getD a []) * i.el [a, b] * h ((indices r).getD b []) := by
  simp only [HessKind.form, hi, hs, if_true]
  rw [sum_range_numel]
  congr 1
  refine List.map_congr_left fun idx hidx => ?_
  have hidx' := (mem_indices _ _).1 hidx
  rw [sum_range_numel, getD_ravel r idx hidx', ← List.sum_map_mul_right]
  congr 1
  exact List.map_congr_left fun idx' h' => by rw [getD_ravel r idx' ((mem_indices _ _).1 h')]

theorem symmAt_raw [Field K] {inv : StateDict K} {m : PyStr} {i x : Tensor K} {n : Nat} {c : K} (hi : item2 inv m (LogType.name .grad) = .ok (some (.tensor i)))
    (hx : Spec.Symm x n) (h : Spec.DampedInverse x i n c) : (HessKind.raw inv).SymmAt m := by
  intro r g g'
  by_cases hs : i.shape = [numel r, numel r]
  · rw [form_raw hi r g g' hs, form_raw hi r g' g hs, Finset.sum_comm]
    have hn : numel r = n := by have := h.shape; rw [hs] at this; exact (List.cons.inj this).1
    refine Finset.sum_congr rfl fun a ha => Finset.sum_congr rfl fun b hb => ?_
    rw [Finset.mem_range, hn] at ha hb
    rw [DampedInverse.symm hx h ha hb]; ring
  · simp only [HessKind.form, hi, hs, if_false]

/-! ### Positivity -/

/-- The form is positive semidefinite at this module. -/
def HessKind.PosAt [Field K] [LE K] (H : HessKind K) (m : PyStr) : Prop := ∀ r g, 0 ≤ H.form m r g g

variable [Field K] [LinearOrder K] [IsStrictOrderedRing K]

theorem posAt_none (m : PyStr) : (HessKind.none : HessKind K).PosAt m := by
  intro r g
  simp only [HessKind.form, Spec.dot]
  refine List.sum_nonneg fun x hx => ?_
  obtain ⟨idx, -, rfl⟩ := List.mem_map.1 hx
  exact mul_self_nonneg _

theorem posAt_kfac {vals vecs : StateDict K} {d : K} {m : PyStr} (hd : 0 < d)
    (h : ∀ full sh, fullEigval vals m .cpu = .ok (full, sh) → ∀ a b, a < full.size 0 → b < full.size 1 → 0 ≤ full.el [a, b]) :
    (HessKind.kfac vals vecs d).PosAt m := by
  intro r g
  simp only [HessKind.form]
  split
  · next hf =>
    refine Finset.sum_nonneg fun a ha => Finset.sum_nonneg fun b hb => ?_
    exact div_nonneg (mul_self_nonneg _) (add_nonneg (h _ _ hf a b (Finset.mem_range.1 ha) (Finset.mem_range.1 hb)) hd.le)
  · exact le_refl 0

theorem posAt_raw {inv : StateDict K} {m : PyStr} {i x : Tensor K} {n : Nat} {c : K} (hi : item2 inv m (LogType.name .grad) = .ok (some (.tensor i)))
    (hp : Spec.PSD x) (hn : x.shape = [n, n]) (hc : 0 < c) (h : Spec.DampedInverse x i n c) : (HessKind.raw inv).PosAt m := by
  intro r g
  by_cases hs : i.shape = [numel r, numel r]
  · obtain ⟨n', hn', hsym, hpos⟩ := hp
    rw [hn] at hn'
    have : n = n' := (List.cons.inj hn').1
    subst this
    have hr : numel r = n := by have := h.shape; rw [hs] at this; exact (List.cons.inj this).1
    rw [form_raw hi r g g hs, hr]
    let G : Nat → K := fun a => g ((indices r).getD a [])
    let y : Nat → K := fun b => ∑ a ∈ Finset.range n, i.el [b, a] * G a
    have hsymm : ∀ a b, a < n → b < n → i.el [a, b] = i.el [b, a] := fun a b ha hb => DampedInverse.symm ⟨hn, hsym⟩ h ha hb
    have hG : ∀ a, a < n → G a = ∑ b ∈ Finset.range n, (x.el [a, b] + if a = b then c else 0) * y b := by
      intro a ha
      have : ∀ b ∈ Finset.range n, (x.el [a, b] + if a = b then c else 0) * y b =
          ∑ a' ∈ Finset.range n, (x.el [a, b] + if a = b then c else 0) * i.el [b, a'] * G a' := by
        intro b _
        rw [Finset.mul_sum]
        exact Finset.sum_congr rfl fun a' _ => by ring
      rw [Finset.sum_congr rfl this, Finset.sum_comm]
      have : ∀ a' ∈ Finset.range n, (∑ b ∈ Finset.range n, (x.el [a, b] + if a = b then c else 0) * i.el [b, a'] * G a') = (if a = a' then 1 else 0) * G a' := by
        intro a' ha'
        rw [← Finset.sum_mul, h.right a a' ha (Finset.mem_range.1 ha')]
      rw [Finset.sum_congr rfl this]
      simp [ha]
    have e1 : (∑ b ∈ Finset.range n, ∑ a ∈ Finset.range n, g ((indices r).getD a []) * i.el [a, b] * g ((indices r).getD b [])) =
        ∑ b ∈ Finset.range n, y b * G b := by
      refine Finset.sum_congr rfl fun b hb => ?_
      rw [Finset.sum_mul]
      refine Finset.sum_congr rfl fun a ha => ?_
      rw [hsymm a b (Finset.mem_range.1 ha) (Finset.mem_range.1 hb)]
      ring
    have e2 : (∑ b ∈ Finset.range n, y b * G b) = (∑ b ∈ Finset.range n, ∑ a ∈ Finset.range n, y b * x.el [b, a] * y a) +
        c * ∑ b ∈ Finset.range n, y b * y b := by
      rw [Finset.mul_sum, ← Finset.sum_add_distrib]
      refine Finset.sum_congr rfl fun b hb => ?_
      rw [hG b (Finset.mem_range.1 hb), Finset.mul_sum]
      have : ∀ a ∈ Finset.range n, y b * ((x.el [b, a] + if b = a then c else 0) * y a) = y b * x.el [b, a] * y a + if b = a then c * (y b * y a) else 0 := by
        intro a _
        split <;> ring
      rw [Finset.sum_congr rfl this, Finset.sum_add_distrib, Finset.sum_ite_eq, if_pos hb]
    rw [e1, e2]
    exact add_nonneg (hpos y) (mul_nonneg hc.le (Finset.sum_nonneg fun b _ => mul_self_nonneg _))
  · simp only [HessKind.form, hi, hs, if_false, le_refl]

end Logix
