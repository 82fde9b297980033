/-
The rows of a batch are the rows of its samples; second moments do not depend on how samples are cut into batches.
-/
import Verif.Spec.Batching
import Verif.Lemmas.Tensor
import Mathlib.Algebra.BigOperators.Group.List.Basic

namespace Logix
open Spec
variable {K : Type} [Field K]

theorem oneSample_el {t : Tensor K} {i : Nat} (hi : i < t.size 0) (idx : List Nat) : (oneSample t i).el (0 :: idx) = t.el (i :: idx) := by
  unfold oneSample
  rw [Tensor.el_ofFn]
  split
  · rfl
  · next h =>
    symm
    apply Tensor.el_of_not
    cases hs : t.shape with
    | nil => rfl
    | cons n s =>
      rw [hs] at h
      simp only [inRange, List.tail_cons, Nat.zero_lt_one, decide_true, Bool.true_and, Bool.not_eq_true] at h
      simp only [inRange, h, Bool.and_false]

theorem oneSample_size (t : Tensor K) (i k : Nat) : (oneSample t i).size (k + 1) = t.size (k + 1) := by
  show (1 :: t.shape.tail).getD (k + 1) 0 = t.shape.getD (k + 1) 0
  cases t.shape <;> rfl

theorem oneSample_size_zero (t : Tensor K) (i : Nat) : (oneSample t i).size 0 = 1 := rfl

theorem oneSample_pixel {t : Tensor K} {i : Nat} (hi : i < t.size 0) (c : Nat) (y z : Int) : pixel (oneSample t i) 0 c y z = pixel t i c y z := by
  unfold pixel
  rw [oneSample_el hi]

theorem oneSample_width {t : Tensor K} (ht : 2 ≤ t.shape.length) (i : Nat) (kind : Option ModKind) (lt : LogType) :
    width (oneSample t i) kind lt = width t kind lt := by
  have hlast : (oneSample t i).shape.getLastD 0 = t.shape.getLastD 0 := by
    show (1 :: t.shape.tail).getLastD 0 = _
    match t.shape, ht with
    | _ :: _ :: _, _ => rfl
  unfold width
  split
  · rfl
  · rw [oneSample_size]
  · rw [oneSample_size]
  · exact hlast

theorem oneSample_rows {t : Tensor K} (ht : 2 ≤ t.shape.length) (kind : Option ModKind) (lt : LogType) :
    rows t kind lt = (samplesOf t).flatMap fun s => rows s kind lt := by
  unfold samplesOf
  rw [List.flatMap_map]
  have tail : ∀ i, (oneSample t i).shape.tail = t.shape.tail := fun _ => rfl
  have hr : ∀ {f g : Nat → List (Nat → K)}, (∀ i, i < t.size 0 → f i = g i) → (List.range (t.size 0)).flatMap f = (List.range (t.size 0)).flatMap g :=
    fun h => List.flatMap_congr fun i hi => h i (List.mem_range.1 hi)
  unfold rows
  split
  · rw [← List.flatMap_singleton' (List.map _ _), List.flatMap_map]
    refine hr fun i hi => ?_
    rw [oneSample_size_zero, tail]
    show _ = [_]
    congr 1
    funext j
    exact (oneSample_el hi _).symm
  · refine hr fun i hi => ?_
    rw [oneSample_size_zero, oneSample_size, oneSample_size, List.range_one, List.flatMap_singleton]
    simp only [oneSample_pixel hi]
  · refine hr fun i hi => ?_
    rw [oneSample_size_zero, oneSample_size, oneSample_size, List.range_one, List.flatMap_singleton]
    simp only [oneSample_el hi]
  · have h1 : t.shape.dropLast = t.size 0 :: t.shape.tail.dropLast := by
      show _ = t.shape.getD 0 0 :: _
      match t.shape, ht with
      | _ :: _ :: _, _ => rfl
    have h2 : ∀ i, (oneSample t i).shape.dropLast = 1 :: t.shape.tail.dropLast := by
      intro i
      show (1 :: t.shape.tail).dropLast = _
      match t.shape, ht with
      | _ :: _ :: _, _ => rfl
    rw [h1, indices, List.map_flatMap]
    refine hr fun i hi => ?_
    rw [h2, indices, List.range_one, List.flatMap_singleton, List.map_map, List.map_map]
    refine List.map_congr_left fun p _ => ?_
    funext j
    exact (oneSample_el hi (p ++ [j])).symm

theorem rows_samples {xs : List (Tensor K)} (hx : ∀ x ∈ xs, 2 ≤ x.shape.length) (kind : Option ModKind) (lt : LogType) :
    (xs.flatMap fun a => rows a kind lt) = (xs.flatMap samplesOf).flatMap fun s => rows s kind lt := by
  rw [List.flatMap_assoc]
  exact List.flatMap_congr fun x h => oneSample_rows (hx x h) kind lt

theorem length_samples (xs : List (Tensor K)) : (xs.flatMap samplesOf).length = (xs.map fun a => a.size 0).sum := by
  rw [List.length_flatMap]
  congr 1
  refine List.map_congr_left fun x _ => ?_
  simp [samplesOf]

/-- The second moment of data depends only on its samples. -/
theorem secondMoment_samples {xs ys : List (Tensor K)} (h : SameSamples xs ys) {kind : Option ModKind} {lt : LogType} {A B : Tensor K}
    (hA : IsSecondMoment xs kind lt A) (hB : IsSecondMoment ys kind lt B) : entries A = entries B := by
  obtain ⟨W, a1, a2, a3⟩ := hA
  obtain ⟨V, b1, b2, b3⟩ := hB
  have hx : ∀ x ∈ xs, 2 ≤ x.shape.length := fun x hx => h.1 x (List.mem_append_left _ hx)
  have hy : ∀ x ∈ ys, 2 ≤ x.shape.length := fun x hx => h.1 x (List.mem_append_right _ hx)
  have out : ∀ {T : Tensor K} {n : Nat}, T.shape = [n, n] → ∀ i j, ¬ (i < n ∧ j < n) → T.el [i, j] = 0 := by
    intro T n hT i j hij
    apply Tensor.el_of_not
    rw [hT]
    simpa [inRange] using hij
  have hnum := h.2.length_eq
  rw [length_samples, length_samples] at hnum
  funext i j
  show A.el [i, j] = B.el [i, j]
  by_cases h0 : (ys.map fun a => a.size 0).sum = 0
  · have zA : A.el [i, j] = 0 := by
      by_cases hij : i < W ∧ j < W
      · rw [a3 i j hij.1 hij.2, hnum, h0, Nat.cast_zero, div_zero]
      · exact out a1 i j hij
    have zB : B.el [i, j] = 0 := by
      by_cases hij : i < V ∧ j < V
      · rw [b3 i j hij.1 hij.2, h0, Nat.cast_zero, div_zero]
      · exact out b1 i j hij
    rw [zA, zB]
  · have hs : ys.flatMap samplesOf ≠ [] := by
      intro h'
      rw [← length_samples, h'] at h0
      exact h0 rfl
    obtain ⟨s, hs⟩ := List.exists_mem_of_ne_nil _ hs
    have hs' := h.2.mem_iff.2 hs
    have wd : ∀ {zs : List (Tensor K)}, (∀ x ∈ zs, 2 ≤ x.shape.length) → s ∈ zs.flatMap samplesOf → ∃ z ∈ zs, width s kind lt = width z kind lt := by
      intro zs hz hm
      obtain ⟨z, h1, h2⟩ := List.mem_flatMap.1 hm
      obtain ⟨k, -, rfl⟩ := List.mem_map.1 h2
      exact ⟨z, h1, oneSample_width (hz z h1) k kind lt⟩
    obtain ⟨x, c1, c2⟩ := wd hx hs'
    obtain ⟨y, d1, d2⟩ := wd hy hs
    obtain rfl : W = V := by rw [← a2 x c1, ← b2 y d1, ← c2, ← d2]
    by_cases hij : i < W ∧ j < W
    · rw [a3 i j hij.1 hij.2, b3 i j hij.1 hij.2, hnum, rows_samples hx, rows_samples hy]
      congr 1
      exact (((h.2.flatMap_right _)).map _).sum_eq
    · rw [out a1 i j hij, out b1 i j hij]

theorem values_unique {tensors : List (TObj K)} {ns : List Nat} {as bs : List (Tensor K)} (ha : Values tensors ns as) (hb : Values tensors ns bs) : as = bs := by
  induction ha generalizing bs with
  | nil => cases hb; rfl
  | cons h _ ih =>
    cases hb with
    | cons h' t' =>
      obtain ⟨o, h1, rfl⟩ := h
      obtain ⟨o', h2, rfl⟩ := h'
      rw [ih t', Option.some.inj (h1.symm.trans h2)]

theorem each_unique {α β : Type} {R : α → β → Prop} (hR : ∀ a b b', R a b → R a b' → b = b') {l : List α} {m m' : List β}
    (h : List.Forall₂ R l m) (h' : List.Forall₂ R l m') : m = m' := by
  induction h generalizing m' with
  | nil => cases h'; rfl
  | cons h _ ih =>
    cases h' with
    | cons h2 t2 => rw [hR _ _ _ h h2, ih t2]

theorem allInputs_unique {m : Nat} {ps : List (Process K)} {xs ys : List (Tensor K)} (hx : AllInputs m ps xs) (hy : AllInputs m ps ys) : xs = ys := by
  obtain ⟨xss, h1, rfl⟩ := hx
  obtain ⟨yss, h2, rfl⟩ := hy
  obtain rfl : xss = yss := by
    refine each_unique ?_ h1 h2
    exact fun _ _ _ a b => values_unique a b
  rfl

theorem allOutGrads_unique {m : Nat} {ps : List (Process K)} {xs ys : List (Tensor K)} (hx : AllOutGrads m ps xs) (hy : AllOutGrads m ps ys) : xs = ys := by
  obtain ⟨xss, h1, rfl⟩ := hx
  obtain ⟨yss, h2, rfl⟩ := hy
  obtain rfl : xss = yss := by
    refine each_unique ?_ h1 h2
    exact fun _ _ _ a b => values_unique a b
  rfl

/-- The same tensor, maybe on another device. -/
def EqualEntries (a b : Tensor K) : Prop := a.shape = b.shape ∧ ∀ idx, a.el idx = b.el idx

theorem batchGrad_entries {tensors : List (TObj K)} {kind : ModKind} {arrived : List (Nat × Nat)} {a b : Tensor K} (ha : BatchGrad tensors kind arrived a)
    (hb : BatchGrad tensors kind arrived b) : EqualEntries a b := by
  obtain ⟨vs, h1, h2, h3, h4⟩ := ha
  obtain ⟨ws, g1, g2, g3, g4⟩ := hb
  obtain rfl : vs = ws := by
    refine each_unique ?_ h1 g1
    rintro u v w ⟨x, g, e1, e2, e3⟩ ⟨x', g', f1, f2, f3⟩
    obtain rfl := Option.some.inj (e1.symm.trans f1)
    obtain rfl := Option.some.inj (e2.symm.trans f2)
    exact Except.ok.inj (e3.symm.trans f3)
  obtain ⟨v, hv⟩ := List.exists_mem_of_ne_nil _ h2
  exact ⟨(h3 v hv).symm.trans (g3 v hv), fun idx => (h4 idx).trans (g4 idx).symm⟩

theorem forall₂_comb {α β : Type} {R : α → β → Prop} {S : β → β → Prop} (hR : ∀ a b b', R a b → R a b' → S b b') {l : List α} {m m' : List β}
    (h : List.Forall₂ R l m) (h' : List.Forall₂ R l m') : List.Forall₂ S m m' := by
  induction h generalizing m' with
  | nil => cases h'; exact .nil
  | cons h _ ih =>
    cases h' with
    | cons h2 t2 => exact .cons (hR _ _ _ h h2) (ih t2)

theorem allBatchGrads_unique {E : SEnv K} {m : Nat} {ps : List (Process K)} {xs ys : List (Tensor K)} (hx : AllBatchGrads E m ps xs)
    (hy : AllBatchGrads E m ps ys) : List.Forall₂ EqualEntries xs ys := by
  obtain ⟨xss, h1, rfl⟩ := hx
  obtain ⟨yss, h2, rfl⟩ := hy
  have h : List.Forall₂ (List.Forall₂ EqualEntries) xss yss := by
    refine forall₂_comb ?_ h1 h2
    intro _ _ _ a b
    refine forall₂_comb ?_ a b
    exact fun _ _ _ c d => batchGrad_entries c d
  clear h1 h2
  induction h with
  | nil => exact .nil
  | cons h _ ih => exact List.rel_append h ih

theorem samplesOf_entries {a b : Tensor K} (h : EqualEntries a b) : samplesOf a = samplesOf b := by
  have hs : a.size 0 = b.size 0 := by unfold Tensor.size; rw [h.1]
  unfold samplesOf
  rw [hs]
  refine List.map_congr_left fun i _ => ?_
  unfold oneSample
  rw [h.1]
  congr 1
  funext idx
  exact h.2 _

theorem samples_entries {xs ys : List (Tensor K)} (h : List.Forall₂ EqualEntries xs ys) : xs.flatMap samplesOf = ys.flatMap samplesOf := by
  induction h with
  | nil => rfl
  | cons h _ ih => rw [List.flatMap_cons, List.flatMap_cons, ih, samplesOf_entries h]

theorem sameSamples_congr {xs ys xs' ys' : List (Tensor K)} (h : SameSamples xs ys) (hx : List.Forall₂ EqualEntries xs xs')
    (hy : List.Forall₂ EqualEntries ys ys') : SameSamples xs' ys' := by
  have dims : ∀ {l l' : List (Tensor K)}, List.Forall₂ EqualEntries l l' → (∀ x ∈ l, 2 ≤ x.shape.length) → ∀ x ∈ l', 2 ≤ x.shape.length := by
    intro l l' hl
    induction hl with
    | nil => exact fun h => h
    | cons h _ ih =>
      intro h'
      exact List.forall_mem_cons.2 ⟨by rw [← h.1]; exact h' _ List.mem_cons_self, ih fun x hx => h' x (List.mem_cons_of_mem _ hx)⟩
  refine ⟨fun x hm => ?_, ?_⟩
  · rcases List.mem_append.1 hm with hm | hm
    · exact dims hx (fun z hz => h.1 z (List.mem_append_left _ hz)) x hm
    · exact dims hy (fun z hz => h.1 z (List.mem_append_right _ hz)) x hm
  · rw [← samples_entries hx, ← samples_entries hy]
    exact h.2

end Logix
