/-
Influence scores on concrete logs: cases that meet the hypotheses of C46 and C48 to C55, and counterexamples.
-/
import Verif.Props.InflExample
import Verif.Props.Repeat
import Mathlib.Data.Rat.Sqrt

namespace Logix.ExInfl
open Logix

theorem isOk {α β : Type} {x : Py (α × β)} (h : x.toOption.isSome = true) : ∃ a b, x = .ok (a, b) := by
  cases x with
  | ok a => exact ⟨a.1, a.2, rfl⟩
  | error e => cases h

abbrev kTotal : PyStr := ['t', 'o', 't', 'a', 'l']

/-- The scores under a key, row by row. -/
def infData (x : Py (LState Rat × IFResult Rat)) (k : PyStr) : Option (List Rat) :=
  match x with
  | .ok (_, r) => (r.influence.get? k).map (·.data)
  | .error _ => none

def selfData (x : Py (LState Rat × SelfResult Rat)) (k : PyStr) : Option (List Rat) :=
  match x with
  | .ok (_, r) => (r.influence.get? k).map (·.data)
  | .error _ => none

/-- A log of the second layer: one number per sample. -/
def logB (dev : Dev) (xs : List Rat) : GLog Rat := [(nmB, [(LogType.name .grad, ⟨dev, [xs.length, 1, 1], xs, by simp [numel]⟩)])]

theorem labB {ids : List PyStr} {dev : Dev} {xs : List Rat} (h : xs.length = ids.length) : Spec.Labelled ids (logB dev xs) := by
  refine ⟨by simp [logB, Dict.keys], fun m hm => ?_⟩
  simp only [logB, Dict.keys, List.map_cons, List.map_nil, List.mem_cons, List.not_mem_nil, or_false] at hm
  subst hm
  exact ⟨_, rfl, h⟩

theorem combB {dx dy dz : Dev} {xs ys zs : List Rat} {a b : Rat} {i j k : Nat} (h : ∀ idx ∈ indices [1, 1], Spec.row (⟨dz, [zs.length, 1, 1], zs, by simp [numel]⟩ : Tensor Rat) k idx =
      a * Spec.row (⟨dx, [xs.length, 1, 1], xs, by simp [numel]⟩ : Tensor Rat) i idx + b * Spec.row (⟨dy, [ys.length, 1, 1], ys, by simp [numel]⟩ : Tensor Rat) j idx) :
    Spec.SampleComb a (logB dx xs) i b (logB dy ys) j (logB dz zs) k := by
  refine ⟨rfl, rfl, fun m hm => ?_⟩
  simp only [logB, Dict.keys, List.map_cons, List.map_nil, List.mem_cons, List.not_mem_nil, or_false] at hm
  subst hm
  exact ⟨_, _, _, rfl, rfl, rfl, rfl, rfl, h⟩

theorem sameB {dx dy : Dev} {xs ys : List Rat} {i j : Nat} (h : ∀ idx ∈ indices [1, 1], Spec.row (⟨dy, [ys.length, 1, 1], ys, by simp [numel]⟩ : Tensor Rat) j idx =
      Spec.row (⟨dx, [xs.length, 1, 1], xs, by simp [numel]⟩ : Tensor Rat) i idx) : Spec.SameSample (logB dx xs) i (logB dy ys) j := by
  refine ⟨rfl, fun m hm => ?_⟩
  simp only [logB, Dict.keys, List.map_cons, List.map_nil, List.mem_cons, List.not_mem_nil, or_false] at hm
  subst hm
  exact ⟨_, _, rfl, rfl, rfl, h⟩

theorem st_noEk : st.hasAttr nEkfac = false := by decide +kernel

theorem st_masks : ∀ o ∈ covOps, Spec.MaskNonneg o := by
  intro o ho
  simp only [covOps, List.mem_cons, List.not_mem_nil, or_false] at ho
  rcases ho with rfl | rfl | rfl | rfl | rfl <;> simp [Spec.MaskNonneg]

theorem st_pos {keys : List PyStr} (hk : ∀ m ∈ keys, m = nmA ∨ m = nmB) {c : Rat} (hc : 0 < c) : Spec.PosHessian lib st keys .kfac c where
  run := ⟨covOps, st_run, st_masks⟩
  eigh := eighOk
  inverse := inverseOk
  svd := st_fresh
  inv := st_invFresh c
  cov := .inl ⟨.inl rfl, fun m hm => by rcases hk m hm with rfl | rfl <;> exact ⟨by decide +kernel, by decide +kernel⟩⟩
  pos := hc

theorem keys1 : ∀ m ∈ Dict.keys log1, m = nmA ∨ m = nmB := by decide +kernel
theorem keysB (dev : Dev) (xs : List Rat) : ∀ m ∈ Dict.keys (logB dev xs), m = nmA ∨ m = nmB := by
  intro m hm
  simp only [logB, Dict.keys, List.map_cons, List.map_nil, List.mem_cons, List.not_mem_nil, or_false] at hm
  exact .inr hm

/-! ### C46 -/

/-- Two samples against three, as `C46_inner_product` has it. -/
example : infData (computeInfluence lib Rat.sqrt st ids1 (.dict log1) ids2 (.dict log2) .dot false .auto none none) kTotal =
    some [7, 1, -5, 10, 3, -4] := by decide +kernel

example : ∃ r t, computeInfluence lib Rat.sqrt st ids1 (.dict log1) ids2 (.dict log2) .dot false .auto none none = .ok (st, r) ∧ r.influence = .one t ∧
    t.shape = [2, 3] ∧ t.el [0, 2] = Spec.inner [1, 2, 5] [2, -1, -1] := by
  obtain ⟨s', r, h⟩ := isOk (x := computeInfluence lib Rat.sqrt st ids1 (.dict log1) ids2 (.dict log2) .dot false .auto none none) (by decide +kernel)
  obtain ⟨rfl, t, h1, h2, h3⟩ := C46_inner_product h lab1 lab2
  exact ⟨r, t, h, h1, h2, (h3 0 2 (by decide) (by decide)).trans (by decide +kernel)⟩

/-- `4 = 2 * 5 + 3 * (-2)`: the score of the third source is this combination of the scores of the others, with preconditioning. -/
example : ∃ s₁ s₂ s₃ r₁ r₂ r₃ t₁ t₂ t₃, computeInfluence lib Rat.sqrt st [['x']] (.dict (logB .cpu [5])) [['u']] (.dict (logB .cpu [7])) .dot true .kfac none (some 1) = .ok (s₁, r₁) ∧
    computeInfluence lib Rat.sqrt st [['y']] (.dict (logB .cpu [-2])) [['u']] (.dict (logB .cpu [7])) .dot true .kfac none (some 1) = .ok (s₂, r₂) ∧
    computeInfluence lib Rat.sqrt st [['z']] (.dict (logB .cpu [4])) [['u']] (.dict (logB .cpu [7])) .dot true .kfac none (some 1) = .ok (s₃, r₃) ∧
    r₁.influence = .one t₁ ∧ r₂.influence = .one t₂ ∧ r₃.influence = .one t₃ ∧ t₃.el [0, 0] = 2 * t₁.el [0, 0] + 3 * t₂.el [0, 0] := by
  obtain ⟨s₁, r₁, h₁⟩ := isOk (x := computeInfluence lib Rat.sqrt st [['x']] (.dict (logB .cpu [5])) [['u']] (.dict (logB .cpu [7])) .dot true .kfac none (some 1)) (by decide +kernel)
  obtain ⟨s₂, r₂, h₂⟩ := isOk (x := computeInfluence lib Rat.sqrt st [['y']] (.dict (logB .cpu [-2])) [['u']] (.dict (logB .cpu [7])) .dot true .kfac none (some 1)) (by decide +kernel)
  obtain ⟨s₃, r₃, h₃⟩ := isOk (x := computeInfluence lib Rat.sqrt st [['z']] (.dict (logB .cpu [4])) [['u']] (.dict (logB .cpu [7])) .dot true .kfac none (some 1)) (by decide +kernel)
  obtain ⟨t₁, e₁⟩ := influence_one h₁
  obtain ⟨t₂, e₂⟩ := influence_one h₂
  obtain ⟨t₃, e₃⟩ := influence_one h₃
  exact ⟨s₁, s₂, s₃, r₁, r₂, r₃, t₁, t₂, t₃, h₁, h₂, h₃, e₁, e₂, e₃, C46_linear_source h₁ h₂ h₃ (labB rfl) (labB rfl) (labB rfl) (labB rfl) e₁ e₂ e₃
    (by decide) (by decide) (by decide) (by decide) (combB (by decide +kernel))⟩

example : ∃ s₁ s₂ s₃ r₁ r₂ r₃ t₁ t₂ t₃, computeInfluence lib Rat.sqrt st [['u']] (.dict (logB .cpu [7])) [['x']] (.dict (logB .cpu [5])) .dot true .kfac none (some 1) = .ok (s₁, r₁) ∧
    computeInfluence lib Rat.sqrt st [['u']] (.dict (logB .cpu [7])) [['y']] (.dict (logB .cpu [-2])) .dot true .kfac none (some 1) = .ok (s₂, r₂) ∧
    computeInfluence lib Rat.sqrt st [['u']] (.dict (logB .cpu [7])) [['z']] (.dict (logB .cpu [4])) .dot true .kfac none (some 1) = .ok (s₃, r₃) ∧
    r₁.influence = .one t₁ ∧ r₂.influence = .one t₂ ∧ r₃.influence = .one t₃ ∧ t₃.el [0, 0] = 2 * t₁.el [0, 0] + 3 * t₂.el [0, 0] := by
  obtain ⟨s₁, r₁, h₁⟩ := isOk (x := computeInfluence lib Rat.sqrt st [['u']] (.dict (logB .cpu [7])) [['x']] (.dict (logB .cpu [5])) .dot true .kfac none (some 1)) (by decide +kernel)
  obtain ⟨s₂, r₂, h₂⟩ := isOk (x := computeInfluence lib Rat.sqrt st [['u']] (.dict (logB .cpu [7])) [['y']] (.dict (logB .cpu [-2])) .dot true .kfac none (some 1)) (by decide +kernel)
  obtain ⟨s₃, r₃, h₃⟩ := isOk (x := computeInfluence lib Rat.sqrt st [['u']] (.dict (logB .cpu [7])) [['z']] (.dict (logB .cpu [4])) .dot true .kfac none (some 1)) (by decide +kernel)
  obtain ⟨t₁, e₁⟩ := influence_one h₁
  obtain ⟨t₂, e₂⟩ := influence_one h₂
  obtain ⟨t₃, e₃⟩ := influence_one h₃
  exact ⟨s₁, s₂, s₃, r₁, r₂, r₃, t₁, t₂, t₃, h₁, h₂, h₃, e₁, e₂, e₃, C46_linear_target h₁ h₂ h₃ (labB rfl) (labB rfl) (labB rfl) (labB rfl) e₁ e₂ e₃
    (by decide) (by decide) (by decide) (by decide) (combB (by decide +kernel))⟩

/-! ### C49 -/

def gA : PyStr := ['a']
def gB : PyStr := ['.', 'b']

/-- Self-influence of `log1` with groups, and what `C49_diagonal` and `C49_nonneg` say about it. -/
example : ∃ s₁ s₂ r r' t u, computeSelf lib st ids1 (.dict log1) true .kfac (some [gA, gB]) (some 1) = .ok (s₁, r) ∧
    computeInfluence lib Rat.sqrt st ids1 (.dict log1) ids1 (.dict log1) .dot true .kfac (some [gA, gB]) (some 1) = .ok (s₂, r') ∧
    r.influence.get? gA = some t ∧ r'.influence.get? gA = some u ∧ t.el [1] = u.el [1, 1] ∧ 0 ≤ t.el [1] := by
  obtain ⟨s₁, r, h⟩ := isOk (x := computeSelf lib st ids1 (.dict log1) true .kfac (some [gA, gB]) (some 1)) (by decide +kernel)
  obtain ⟨s₂, r', h'⟩ := isOk (x := computeInfluence lib Rat.sqrt st ids1 (.dict log1) ids1 (.dict log1) .dot true .kfac (some [gA, gB]) (some 1)) (by decide +kernel)
  obtain ⟨t, u, h1, h2, -, -, h3⟩ := (C49_diagonal h h' lab1).2 gA (.inr (by decide))
  obtain ⟨t', h4, -, h5⟩ := C49_nonneg h lab1 (fun _ => st_pos keys1 one_pos) gA (.inr (by decide))
  rw [h1] at h4; cases h4
  exact ⟨s₁, s₂, r, r', t, u, h, h', h1, h2, h3 1 (by decide), h5 1 (by decide)⟩

/-! ### C50 -/

/-- `log1` on the CPU against `log2` on a GPU and the other way round. -/
example : ∃ s₁ s₂ r r' t u, computeInfluence lib Rat.sqrt st ids1 (.dict log1) ids2 (.dict log2) .dot true .kfac (some [gA, gB]) (some 1) = .ok (s₁, r) ∧
    computeInfluence lib Rat.sqrt st ids2 (.dict log2) ids1 (.dict log1) .dot true .kfac (some [gA, gB]) (some 1) = .ok (s₂, r') ∧
    r.influence.get? gB = some t ∧ r'.influence.get? gB = some u ∧ t.el [1, 2] = u.el [2, 1] := by
  obtain ⟨s₁, r, h⟩ := isOk (x := computeInfluence lib Rat.sqrt st ids1 (.dict log1) ids2 (.dict log2) .dot true .kfac (some [gA, gB]) (some 1)) (by decide +kernel)
  obtain ⟨s₂, r', h'⟩ := isOk (x := computeInfluence lib Rat.sqrt st ids2 (.dict log2) ids1 (.dict log1) .dot true .kfac (some [gA, gB]) (some 1)) (by decide +kernel)
  obtain ⟨t, u, h1, h2, h3⟩ := C50_symmetric st_run h h' lab1 lab2 (by decide +kernel) (fun _ => .inl ⟨.inl rfl, fun m hm => by
    rcases keys1 m hm with rfl | rfl <;> exact ⟨LogType.name .forward, by decide +kernel⟩⟩) gB (.inr (by decide))
  exact ⟨s₁, s₂, r, r', t, u, h, h', h1, h2, h3 1 2 (by decide) (by decide)⟩

/-- And with covariances of gradients. -/
example : ∃ s₁ s₂ r r' t u, computeInfluence lib Rat.sqrt stRaw ids1 (.dict log1) ids2 (.dict log2) .dot true .raw none (some 1) = .ok (s₁, r) ∧
    computeInfluence lib Rat.sqrt stRaw ids2 (.dict log2) ids1 (.dict log1) .dot true .raw none (some 1) = .ok (s₂, r') ∧
    r.influence.get? kTotal = some t ∧ r'.influence.get? kTotal = some u ∧ t.el [1, 2] = u.el [2, 1] := by
  obtain ⟨s₁, r, h⟩ := isOk (x := computeInfluence lib Rat.sqrt stRaw ids1 (.dict log1) ids2 (.dict log2) .dot true .raw none (some 1)) (by decide +kernel)
  obtain ⟨s₂, r', h'⟩ := isOk (x := computeInfluence lib Rat.sqrt stRaw ids2 (.dict log2) ids1 (.dict log1) .dot true .raw none (some 1)) (by decide +kernel)
  obtain ⟨t, u, h1, h2, h3⟩ := C50_symmetric stRaw_run h h' lab1 lab2 (by decide +kernel) (fun _ => .inr ⟨1, rfl, inverseOk, stRaw_invFresh 1, fun m hm => by
    rcases keys1 m hm with rfl | rfl
    · exact ⟨_, 2, stRaw_cov (by decide +kernel), by decide +kernel, by
        have : ∀ i < 2, ∀ j < 2, (rawAt nmA).el [i, j] = (rawAt nmA).el [j, i] := by decide +kernel
        exact fun i j hi hj => this i hi j hj⟩
    · exact ⟨_, 1, stRaw_cov (by decide +kernel), by decide +kernel, by
        have : ∀ i < 1, ∀ j < 1, (rawAt nmB).el [i, j] = (rawAt nmB).el [j, i] := by decide +kernel
        exact fun i j hi hj => this i hi j hj⟩⟩) kTotal (.inl rfl)
  exact ⟨s₁, s₂, r, r', t, u, h, h', h1, h2, h3 1 2 (by decide) (by decide)⟩

/-! ### C51 -/

/-- The sources 5, 6, the targets 4, 5, 8, and the difference 5 - 8. -/
example : ∃ s₁ s₂ s₃ r rs rd t u v, computeInfluence lib Rat.sqrt st ids1 (.dict (logB .cpu [5, 6])) ids2 (.dict (logB .cpu [4, 5, 8])) .l2 true .kfac none (some 1) = .ok (s₁, r) ∧
    computeSelf lib st ids1 (.dict (logB .cpu [5, 6])) true .kfac none (some 1) = .ok (s₂, rs) ∧
    computeSelf lib st [['d']] (.dict (logB .cpu [-3])) true .kfac none (some 1) = .ok (s₃, rd) ∧
    r.influence.get? kTotal = some t ∧ rs.influence.get? kTotal = some u ∧ rd.influence.get? kTotal = some v ∧
    t.el [0, 2] = 1 / 2 * u.el [0] - 1 / 2 * v.el [0] ∧ ∀ j', j' < 3 → t.el [0, j'] ≤ t.el [0, 1] := by
  obtain ⟨s₁, r, h⟩ := isOk (x := computeInfluence lib Rat.sqrt st ids1 (.dict (logB .cpu [5, 6])) ids2 (.dict (logB .cpu [4, 5, 8])) .l2 true .kfac none (some 1)) (by decide +kernel)
  obtain ⟨s₂, rs, hs⟩ := isOk (x := computeSelf lib st ids1 (.dict (logB .cpu [5, 6])) true .kfac none (some 1)) (by decide +kernel)
  obtain ⟨s₃, rd, hf⟩ := isOk (x := computeSelf lib st [['d']] (.dict (logB .cpu [-3])) true .kfac none (some 1)) (by decide +kernel)
  obtain ⟨t, u, v, h1, h2, h3, h4⟩ := C51_distance_partial (i := 0) (j := 2) (l := 0) (st_pos (keysB _ _) one_pos) st_noEk h hs hf (labB rfl) (labB rfl) (labB rfl)
    (by decide) (by decide) (by decide) (combB (by decide +kernel)) kTotal (.inl rfl)
  obtain ⟨t', h5, h6⟩ := C51_identical_best_partial (i := 0) (j := 1) (st_pos (keysB _ _) one_pos) st_noEk h (labB rfl) (labB rfl) (by decide) (by decide)
    (sameB (by decide +kernel)) kTotal (.inl rfl)
  rw [h1] at h5; cases h5
  exact ⟨s₁, s₂, s₃, r, rs, rd, t, u, v, h, hs, hf, h1, h2, h3, h4, h6⟩

/-! ### C52 -/

/-- One self-influence. -/
def selfEl (x : Py (LState Rat × SelfResult Rat)) (k : PyStr) (i : Nat) : Option Rat :=
  match x with
  | .ok (_, r) => (r.influence.get? k).map (·.el [i])
  | .error _ => none

theorem selfEl_eq {x : Py (LState Rat × SelfResult Rat)} {k : PyStr} {i : Nat} {s : LState Rat} {r : SelfResult Rat} {t : Tensor Rat} {c : Rat} (h : x = .ok (s, r))
    (ht : r.influence.get? k = some t) (hc : selfEl x k i = some c) : t.el [i] = c := by
  rw [h] at hc
  simpa [selfEl, ht] using hc

/-- The targets are 2 and 6, one three times the other; the Hessian of the layer, with damping 4, is 9. -/
example : ∃ s₁ s₂ r r' t t', computeInfluence lib Rat.sqrt st ids1 (.dict (logB .cpu [5, 6])) [['u']] (.dict (logB .cpu [2])) .cosine true .kfac none (some 4) = .ok (s₁, r) ∧
    computeInfluence lib Rat.sqrt st ids1 (.dict (logB .cpu [5, 6])) [['u']] (.dict (logB .cpu [6])) .cosine true .kfac none (some 4) = .ok (s₂, r') ∧
    r.influence.get? kTotal = some t ∧ r'.influence.get? kTotal = some t' ∧ t'.el [1, 0] = t.el [1, 0] := by
  obtain ⟨sp, p, hp⟩ := isOk (x := precondition lib st (.dict (logB .cpu [5, 6])) .kfac (some 4)) (by decide +kernel)
  have q1 : ((precondition lib st (.dict (logB .cpu [5, 6])) .kfac (some 4)).toOption.bind fun r =>
      selfEl (computeSelf lib r.1 [['u']] (.dict (logB .cpu [2])) true .kfac none (some 4)) kTotal 0) = some (4 / 9) := by decide +kernel
  have q2 : ((precondition lib st (.dict (logB .cpu [5, 6])) .kfac (some 4)).toOption.bind fun r =>
      selfEl (computeSelf lib r.1 [['u']] (.dict (logB .cpu [6])) true .kfac none (some 4)) kTotal 0) = some 4 := by decide +kernel
  rw [hp] at q1 q2
  simp only [Except.toOption, Option.bind_some] at q1 q2
  obtain ⟨s₁, r, h⟩ := isOk (x := computeInfluence lib Rat.sqrt st ids1 (.dict (logB .cpu [5, 6])) [['u']] (.dict (logB .cpu [2])) .cosine true .kfac none (some 4)) (by decide +kernel)
  obtain ⟨s₂, r', h'⟩ := isOk (x := computeInfluence lib Rat.sqrt st ids1 (.dict (logB .cpu [5, 6])) [['u']] (.dict (logB .cpu [6])) .cosine true .kfac none (some 4)) (by decide +kernel)
  obtain ⟨s₃, a, ha⟩ : ∃ s₃ a, computeSelf lib sp [['u']] (.dict (logB .cpu [2])) true .kfac none (some 4) = .ok (s₃, a) := by
    cases hh : computeSelf lib sp [['u']] (.dict (logB .cpu [2])) true .kfac none (some 4) with
    | ok x => exact ⟨_, _, rfl⟩
    | error e => rw [hh] at q1; cases q1
  obtain ⟨s₄, b, hb⟩ : ∃ s₄ b, computeSelf lib sp [['u']] (.dict (logB .cpu [6])) true .kfac none (some 4) = .ok (s₄, b) := by
    cases hh : computeSelf lib sp [['u']] (.dict (logB .cpu [6])) true .kfac none (some 4) with
    | ok x => exact ⟨_, _, rfl⟩
    | error e => rw [hh] at q2; cases q2
  obtain ⟨t, t', u, u', h1, h2, h3, h4, h5⟩ := C52_scale (i := 1) (j₁ := 0) (j₂ := 0) (c := 3) (pre := true) ((if_pos rfl).trans hp) h h' ha hb (labB rfl) (labB rfl) (labB rfl) rfl
    (by decide) (by decide) (by decide) (by decide +kernel) (combB (by decide +kernel)) kTotal (.inl rfl)
  refine ⟨s₁, s₂, r, r', t, t', h, h', h1, h2, h5 ?_ ?_⟩
  · rw [selfEl_eq ha h3 q1]; exact ⟨by decide +kernel, by decide +kernel⟩
  · rw [selfEl_eq hb h4 q2]; exact ⟨by decide +kernel, by decide +kernel⟩

example : ∃ s₁ r t, computeInfluence lib Rat.sqrt st ids1 (.dict (logB .cpu [5, 6])) [['u']] (.dict (logB .cpu [2])) .cosine true .kfac none (some 4) = .ok (s₁, r) ∧
    r.influence.get? kTotal = some t ∧ |t.el [1, 0]| ≤ Rat.sqrt 4 := by
  obtain ⟨s₁, r, h⟩ := isOk (x := computeInfluence lib Rat.sqrt st ids1 (.dict (logB .cpu [5, 6])) [['u']] (.dict (logB .cpu [2])) .cosine true .kfac none (some 4)) (by decide +kernel)
  have e1 : selfEl (computeSelf lib st ids1 (.dict (logB .cpu [5, 6])) true .kfac none (some 4)) kTotal 1 = some 4 := by decide +kernel
  have e2 : selfEl (computeSelf lib st [['u']] (.dict (logB .cpu [2])) true .kfac none (some 4)) kTotal 0 = some (4 / 9) := by decide +kernel
  obtain ⟨s₂, a, hs⟩ := isOk (x := computeSelf lib st ids1 (.dict (logB .cpu [5, 6])) true .kfac none (some 4)) (by decide +kernel)
  obtain ⟨s₃, b, ht⟩ := isOk (x := computeSelf lib st [['u']] (.dict (logB .cpu [2])) true .kfac none (some 4)) (by decide +kernel)
  obtain ⟨t, u, v, h1, h2, h3, h4⟩ := C52_bound_partial (i := 1) (j := 0) (st_pos (keysB _ _) (by decide +kernel)) st_noEk h hs ht (labB rfl) (labB rfl) rfl
    (by decide) (by decide) kTotal (.inl rfl)
  rw [selfEl_eq hs h2 e1, selfEl_eq ht h3 e2] at h4
  exact ⟨s₁, r, t, h, h1, h4 (by decide +kernel) ⟨by decide +kernel, by decide +kernel⟩ ⟨by decide +kernel, by decide +kernel⟩⟩

/-! ### C53 -/

theorem pre1 : ∃ sp p, precondition lib st (.dict log1) .kfac (some 1) = .ok (sp, .dict p) := by
  obtain ⟨sp, p, hp⟩ := isOk (x := precondition lib st (.dict log1) .kfac (some 1)) (by decide +kernel)
  cases p with
  | dict p => exact ⟨sp, p, hp⟩
  | flat t =>
    have : preGrads (precondition lib st (.dict log1) .kfac (some 1)) nmB = some [5 / 6, 1] := by decide +kernel
    rw [hp] at this; cases this

/-- The layers `e.a` and `e.b` and the groups `a` and `.b`. -/
example : ∃ (sp : LState Rat) (p : GLog Rat) (s' : LState Rat) (r : IFResult Rat) (t : Tensor Rat) (T : PyStr → Tensor Rat), precondition lib st (.dict log1) .kfac (some 1) = .ok (sp, .dict p) ∧
    computeInfluence lib Rat.sqrt st ids1 (.dict log1) ids2 (.dict log2) .dot true .kfac (some [gA, gB]) (some 1) = .ok (s', r) ∧
    r.influence.get? gA = some t ∧ t.el [1, 2] = Spec.moduleDot p 1 log2 2 nmA ∧
    (T kTotal).el [1, 2] = (T gA).el [1, 2] + (T gB).el [1, 2] ∧ r.influence.get? gA = some (T gA) := by
  obtain ⟨sp, p, hp⟩ := pre1
  obtain ⟨s', r, h⟩ := isOk (x := computeInfluence lib Rat.sqrt st ids1 (.dict log1) ids2 (.dict log2) .dot true .kfac (some [gA, gB]) (some 1)) (by decide +kernel)
  obtain ⟨t, h1, -, h2⟩ := C53_members_partial (pre := true) ((if_pos rfl).trans hp) h lab1 lab2 (by decide) (by decide) gA (.inr (by decide))
  obtain ⟨T, h3, h4⟩ := C53_split_partial (pre := true) ((if_pos rfl).trans hp) h lab1 lab2 (by decide) (by decide) (by decide +kernel)
  refine ⟨sp, p, s', r, t, T, hp, h, h1, ?_, ?_, h3 gA (.inr (by decide))⟩
  · rw [h2 1 2 (by decide) (by decide), show Spec.members (Dict.keys log1) gA = [nmA] by decide +kernel]
    simp
  · rw [h4 1 2 (by decide) (by decide)]
    simp

/-- In mode l2. -/
example : ∃ sp p sq q s' r t, precondition lib st (.dict log1) .kfac (some 1) = .ok (sp, .dict p) ∧ precondition lib sp (.dict log2) .kfac (some 1) = .ok (sq, .dict q) ∧
    computeInfluence lib Rat.sqrt st ids1 (.dict log1) ids2 (.dict log2) .l2 true .kfac (some [gA, gB]) (some 1) = .ok (s', r) ∧
    r.influence.get? gB = some t ∧ t.el [1, 2] = Spec.moduleDot p 1 log2 2 nmB - 1 / 2 * Spec.moduleDot q 2 log2 2 nmB := by
  obtain ⟨sp, p, hp⟩ := pre1
  have hq' : ((precondition lib st (.dict log1) .kfac (some 1)).toOption.bind fun x => preGrads (precondition lib x.1 (.dict log2) .kfac (some 1)) nmB) =
      some [1 / 6, 0, -1 / 6] := by decide +kernel
  rw [hp] at hq'
  simp only [Except.toOption, Option.bind_some] at hq'
  cases hq : precondition lib sp (.dict log2) .kfac (some 1) with
  | error e => rw [hq] at hq'; cases hq'
  | ok x =>
    obtain ⟨sq, q⟩ := x
    cases q with
    | flat t => rw [hq] at hq'; cases hq'
    | dict q =>
      obtain ⟨s', r, h⟩ := isOk (x := computeInfluence lib Rat.sqrt st ids1 (.dict log1) ids2 (.dict log2) .l2 true .kfac (some [gA, gB]) (some 1)) (by decide +kernel)
      obtain ⟨t, h1, -, h2⟩ := C53_modes_partial (pre := true) ((if_pos rfl).trans hp) hq h lab1 lab2 (by decide +kernel) (by decide) (by decide) gB (.inr (by decide))
      refine ⟨sp, p, sq, q, s', r, t, hp, hq, h, h1, ?_⟩
      rw [(h2 1 2 (by decide) (by decide)).1 rfl, show Spec.members (Dict.keys log1) gB = [nmB] by decide +kernel,
        show Spec.members (Dict.keys log2) gB = [nmB] by decide +kernel]
      simp

example : ∃ sp p s' r t, precondition lib st (.dict log1) .kfac (some 1) = .ok (sp, .dict p) ∧
    computeSelf lib st ids1 (.dict log1) true .kfac (some [gA, gB]) (some 1) = .ok (s', r) ∧ r.influence.get? gA = some t ∧
    t.el [1] = Spec.moduleDot p 1 log1 1 nmA := by
  obtain ⟨sp, p, hp⟩ := pre1
  obtain ⟨s', r, h⟩ := isOk (x := computeSelf lib st ids1 (.dict log1) true .kfac (some [gA, gB]) (some 1)) (by decide +kernel)
  obtain ⟨t, h1, -, h2⟩ := C53_self_partial (pre := true) ((if_pos rfl).trans hp) h lab1 (by decide) (by decide) gA (.inr (by decide))
  refine ⟨sp, p, s', r, t, hp, h, h1, ?_⟩
  rw [h2 1 (by decide), show Spec.members (Dict.keys log1) gA = [nmA] by decide +kernel]
  simp

/-- A misspelt group. -/
example : ∀ x, computeInfluence lib Rat.sqrt st ids1 (.dict log1) ids2 (.dict log2) .dot true .kfac (some [gA, ['c']]) (some 1) ≠ .ok x :=
  C53_empty_group_raises lab1 lab2 (by decide +kernel) (g := ['c']) (by decide) (by decide) (by decide +kernel)

/-- **C53 fails** for a group without modules: the sum over no modules is not returned, the call raises. -/
theorem C53_empty_refuted : ¬ ∀ (groups groups' : List PyStr) (s' : LState Rat) (r : IFResult Rat),
    computeInfluence lib Rat.sqrt st ids1 (.dict log1) ids2 (.dict log2) .dot true .kfac (some groups) (some 1) = .ok (s', r) →
    ∃ s' r', computeInfluence lib Rat.sqrt st ids1 (.dict log1) ids2 (.dict log2) .dot true .kfac (some groups') (some 1) = .ok (s', r') := by
  intro hall
  obtain ⟨s', r, h⟩ := isOk (x := computeInfluence lib Rat.sqrt st ids1 (.dict log1) ids2 (.dict log2) .dot true .kfac (some [gA]) (some 1)) (by decide +kernel)
  obtain ⟨s₂, r₂, h₂⟩ := hall [gA] [gA, ['c']] s' r h
  exact C53_empty_group_raises lab1 lab2 (by decide +kernel) (g := ['c']) (by decide) (by decide) (by decide +kernel) _ h₂

/-- **C53 fails** if a group is named twice: its score is twice the sum over its modules. -/
theorem C53_refuted : ¬ ∀ (s s' : LState Rat) (srcIds tgtIds : List PyStr) (d e : GLog Rat) (groups : List PyStr) (r : IFResult Rat),
    computeInfluence lib Rat.sqrt s srcIds (.dict d) tgtIds (.dict e) .dot false .kfac (some groups) none = .ok (s', r) →
    Spec.Labelled srcIds d → Spec.Labelled tgtIds e → ∀ k ∈ groups, ∃ t, r.influence.get? k = some t ∧
      ∀ i j, i < srcIds.length → j < tgtIds.length → t.el [i, j] = ((Spec.members (Dict.keys d) k).map (Spec.moduleDot d i e j)).sum := by
  intro hall
  have e1 : infData (computeInfluence lib Rat.sqrt st ids1 (.dict log1) ids2 (.dict log2) .dot false .kfac (some [gA, gA]) none) gA =
      some [4, 2, 0, 8, 6, 4] := by decide +kernel
  obtain ⟨s', r, h⟩ := isOk (x := computeInfluence lib Rat.sqrt st ids1 (.dict log1) ids2 (.dict log2) .dot false .kfac (some [gA, gA]) none) (by decide +kernel)
  obtain ⟨t, h1, h2⟩ := hall st s' ids1 ids2 log1 log2 [gA, gA] r h lab1 lab2 gA (by decide)
  have h3 := h2 0 0 (by decide) (by decide)
  rw [show ((Spec.members (Dict.keys log1) gA).map (Spec.moduleDot log1 0 log2 0)).sum = 2 by decide +kernel] at h3
  rw [h] at e1
  simp only [infData, h1, Option.map_some, Option.some.injEq] at e1
  have h4 : t.shape = [2, 3] := (C48_shape h).2.2 gA t h1
  simp [Tensor.el, e1, h4, inRange, ravel] at h3

/-! ### C48 -/

/-- Sample `y` of `log1` is sample `x` of a smaller log; sample `w` of `log2` is sample `u` of another. -/
def logY : GLog Rat := [(nmA, [(LogType.name .grad, ⟨.cuda 1, [1, 1, 2], [3, 4], rfl⟩)]), (nmB, [(LogType.name .grad, ⟨.cuda 1, [1, 1, 1], [6], rfl⟩)])]
def logW : GLog Rat := [(nmA, [(LogType.name .grad, ⟨.cpu, [2, 1, 2], [2, -1, 9, 9], rfl⟩)]), (nmB, [(LogType.name .grad, ⟨.cpu, [2, 1, 1], [-1, 9], rfl⟩)])]

theorem labY : Spec.Labelled [['x']] logY := by
  refine ⟨by decide +kernel, fun m hm => ?_⟩
  simp only [logY, Dict.keys, List.map_cons, List.map_nil, List.mem_cons, List.not_mem_nil, or_false] at hm
  rcases hm with rfl | rfl
  · exact ⟨_, rfl, rfl⟩
  · exact ⟨_, rfl, rfl⟩

theorem labW : Spec.Labelled ids1 logW := by
  refine ⟨by decide +kernel, fun m hm => ?_⟩
  simp only [logW, Dict.keys, List.map_cons, List.map_nil, List.mem_cons, List.not_mem_nil, or_false] at hm
  rcases hm with rfl | rfl
  · exact ⟨_, rfl, rfl⟩
  · exact ⟨_, rfl, rfl⟩

theorem sameY : Spec.SameSample log1 1 logY 0 := by
  refine ⟨by decide +kernel, fun m hm => ?_⟩
  simp only [logY, Dict.keys, List.map_cons, List.map_nil, List.mem_cons, List.not_mem_nil, or_false] at hm
  rcases hm with rfl | rfl
  · exact ⟨_, _, rfl, rfl, rfl, by decide +kernel⟩
  · exact ⟨_, _, rfl, rfl, rfl, by decide +kernel⟩

theorem sameW : Spec.SameSample log2 2 logW 0 := by
  refine ⟨by decide +kernel, fun m hm => ?_⟩
  simp only [logW, Dict.keys, List.map_cons, List.map_nil, List.mem_cons, List.not_mem_nil, or_false] at hm
  rcases hm with rfl | rfl
  · exact ⟨_, _, rfl, rfl, rfl, by decide +kernel⟩
  · exact ⟨_, _, rfl, rfl, rfl, by decide +kernel⟩

example : ∃ s₁ s₂ r r' t t', computeInfluence lib Rat.sqrt st ids1 (.dict log1) ids2 (.dict log2) .dot true .auto none (some 1) = .ok (s₁, r) ∧
    computeInfluence lib Rat.sqrt st [['x']] (.dict logY) ids1 (.dict logW) .dot true .auto none (some 1) = .ok (s₂, r') ∧
    r.influence.get? kTotal = some t ∧ r'.influence.get? kTotal = some t' ∧ t.shape = [2, 3] ∧ t'.shape = [1, 2] ∧ t.el [1, 2] = t'.el [0, 0] := by
  obtain ⟨s₁, r, h⟩ := isOk (x := computeInfluence lib Rat.sqrt st ids1 (.dict log1) ids2 (.dict log2) .dot true .auto none (some 1)) (by decide +kernel)
  obtain ⟨s₂, r', h'⟩ := isOk (x := computeInfluence lib Rat.sqrt st [['x']] (.dict logY) ids1 (.dict logW) .dot true .auto none (some 1)) (by decide +kernel)
  obtain ⟨t, t', h1, h2, h3⟩ := C48_entry h h' lab1 lab2 labY labW (by decide) (by decide) (by decide) (by decide) sameY sameW kTotal (.inl rfl)
  exact ⟨s₁, s₂, r, r', t, t', h, h', h1, h2, (C48_shape h).2.2 _ _ h1, (C48_shape h').2.2 _ _ h2, h3⟩

/-- In mode l2 with the source on the CPU. -/
example : ∃ s₁ s₂ r r' t t', computeInfluence lib Rat.sqrt st ids1 (.dict log1) ids2 (.dict log2) .l2 true .auto none (some 1) = .ok (s₁, r) ∧
    computeInfluence lib Rat.sqrt st ids1 (.dict log1) ids1 (.dict logW) .l2 true .auto none (some 1) = .ok (s₂, r') ∧
    r.influence.get? kTotal = some t ∧ r'.influence.get? kTotal = some t' ∧ t.el [1, 2] = t'.el [1, 0] := by
  obtain ⟨s₁, r, h⟩ := isOk (x := computeInfluence lib Rat.sqrt st ids1 (.dict log1) ids2 (.dict log2) .l2 true .auto none (some 1)) (by decide +kernel)
  obtain ⟨s₂, r', h'⟩ := isOk (x := computeInfluence lib Rat.sqrt st ids1 (.dict log1) ids1 (.dict logW) .l2 true .auto none (some 1)) (by decide +kernel)
  obtain ⟨t, t', h1, h2, h3⟩ := C48_entry_modes_partial (i := 1) (i' := 1) st_run st_noEk h h' lab1 lab2 lab1 labW (by decide +kernel) (by decide) (by decide) (by decide) (by decide)
    ⟨rfl, fun m hm => by
      rcases keys1 m hm with rfl | rfl
      · exact ⟨_, _, rfl, rfl, rfl, fun _ _ => rfl⟩
      · exact ⟨_, _, rfl, rfl, rfl, fun _ _ => rfl⟩⟩ sameW kTotal (.inl rfl)
  exact ⟨s₁, s₂, r, r', t, t', h, h', h1, h2, h3⟩

/-- One id too many raises, as `C48_mismatch_partial` says. -/
example : ∀ s' r, computeInfluence lib Rat.sqrt st ids2 (.dict log1) ids2 (.dict log2) .dot true .auto none (some 1) ≠ .ok (s', r) := by
  intro s' r h
  have := C48_mismatch_partial (n := 2) (n' := 3) h lab1.nodup lab1.rows (by decide +kernel) lab2.nodup lab2.rows
  revert this
  decide

/-- A log whose modules disagree about the number of samples. -/
def logBad : GLog Rat := [(nmA, [(LogType.name .grad, ⟨.cpu, [2, 1, 2], [1, 2, 3, 4], rfl⟩)]), (nmB, [(LogType.name .grad, ⟨.cpu, [1, 1, 1], [5], rfl⟩)])]

/-- **C48 fails** for modules with one sample: such a module is broadcast over the samples of the others and no error is raised. -/
theorem C48_refuted : ¬ ∀ (s s' : LState Rat) (srcIds tgtIds : List PyStr) (d e : GLog Rat) (r : IFResult Rat),
    computeInfluence lib Rat.sqrt s srcIds (.dict d) tgtIds (.dict e) .dot false .auto none none = .ok (s', r) →
    ∀ m g, Spec.grad d m = some g → g.size 0 = srcIds.length := by
  intro hall
  obtain ⟨s', r, h⟩ := isOk (x := computeInfluence lib Rat.sqrt st ids1 (.dict logBad) ids2 (.dict log2) .dot false .auto none none) (by decide +kernel)
  have := hall _ _ _ _ _ _ _ h nmB _ rfl
  revert this
  decide

/-! ### Fitted eigenvalues (EKFAC) -/

/-- Eigenvalues are fitted to the gradients after the covariances; for `e.b` the fitted eigenvalue is 1. -/
def ekOps : List (StateOp Rat) := covOps ++
  [.update .correctedEigval ⟨some .linear, nmA, .grad, ⟨.cpu, [2, 1, 2], [1, 2, 3, 4], rfl⟩, none, false⟩,
   .update .correctedEigval ⟨some .linear, nmB, .grad, ⟨.cpu, [2, 1, 1], [1, 0], rfl⟩, none, false⟩]

def stEk : LState Rat := match runOps lib .init ekOps with | .ok s => s | .error _ => .init

theorem stEk_run : runOps lib .init ekOps = .ok stEk := by
  have : (runOps lib .init ekOps).toOption.isSome = true := by decide +kernel
  unfold stEk
  cases h : runOps lib .init ekOps with
  | ok s => rfl
  | error e => rw [h] at this; cases this

/-- Do all covariances of the state have their eigendecompositions in it? -/
def freshCheck (s : LState Rat) : Bool :=
  match s.getAttr nCov with
  | .error _ => true
  | .ok d => d.all fun p => match p.2 with
    | .leaf _ => true
    | .node sub => sub.all fun q => match q.2 with
      | .leaf (.tensor x) =>
        match Spec.tensorAt s.attrs nEigval [p.1, q.1], Spec.tensorAt s.attrs nEigvec [p.1, q.1] with
        | some w, some v => eigCheck x w v (x.size 0)
        | _, _ => false
      | _ => true

theorem fresh_of_check {s : LState Rat} (h1 : s.hasAttr nEigval = s.hasAttr nEigvec) (h : freshCheck s = true) : Spec.SvdFresh s := by
  refine ⟨h1, fun _ m t x n hx hs => ?_⟩
  obtain ⟨d, hd, -⟩ := item2_of_tensorAt hx
  have hd : s.getAttr nCov = .ok d := getAttr_eq.2 hd
  obtain ⟨-, sub, hm, ht⟩ := tensorAt_node hd hx
  unfold freshCheck at h
  rw [hd] at h
  have h := List.all_eq_true.1 h _ (Dict.mem_of_get? _ hm)
  have h := List.all_eq_true.1 h _ (Dict.mem_of_get? _ ht)
  dsimp only at h
  have hn : x.size 0 = n := by simp [Tensor.size, hs.1]
  rw [hn] at h
  split at h
  · next w v hw hv =>
    simp only [eigCheck, decide_eq_true_eq] at h
    obtain ⟨h1, h2, h3, h4, h5, h6, h7⟩ := h
    exact ⟨w, v, hw, hv, h1, h2, fun i a hi ha => h5 i hi a ha, fun i j hi hj => h6 i hi j hj, fun a b ha hb => h7 a ha b hb⟩
  · cases h

theorem stEk_pos {keys : List PyStr} (hk : ∀ m ∈ keys, m = nmA ∨ m = nmB) {c : Rat} (hc : 0 < c) : Spec.PosHessian lib stEk keys .kfac c where
  run := ⟨ekOps, stEk_run, fun o ho => by
    unfold ekOps at ho
    rcases List.mem_append.1 ho with ho | ho
    · exact st_masks o ho
    · simp only [List.mem_cons, List.not_mem_nil, or_false] at ho
      rcases ho with rfl | rfl <;> simp [Spec.MaskNonneg]⟩
  eigh := eighOk
  inverse := inverseOk
  svd := fresh_of_check (by decide +kernel) (by decide +kernel)
  inv := fun h => by
    rw [show stEk.hasAttr nInverse = false by decide +kernel] at h; cases h
  cov := .inl ⟨.inl rfl, fun m hm => by rcases hk m hm with rfl | rfl <;> exact ⟨by decide +kernel, by decide +kernel⟩⟩
  pos := hc

/-- One score. -/
def infEl (x : Py (LState Rat × IFResult Rat)) (k : PyStr) (i j : Nat) : Option Rat :=
  match x with
  | .ok (_, r) => (r.influence.get? k).map (·.el [i, j])
  | .error _ => none

theorem infEl_eq {x : Py (LState Rat × IFResult Rat)} {k : PyStr} {i j : Nat} {s : LState Rat} {r : IFResult Rat} {t : Tensor Rat} {c : Rat} (h : x = .ok (s, r))
    (ht : r.influence.get? k = some t) (hc : infEl x k i j = some c) : t.el [i, j] = c := by
  rw [h] at hc
  simpa [infEl, ht] using hc

/-- **C51 fails** with fitted eigenvalues: the damping is added to them in place for the source and again for the target, and a target other
than the source scores highest. -/
theorem C51_refuted : ¬ ∀ (L : Lib Rat) (s s₁ : LState Rat) (srcIds tgtIds : List PyStr) (d e : GLog Rat) (c : Rat) (r : IFResult Rat) (t : Tensor Rat) (i j j' : Nat),
    Spec.PosHessian L s (Dict.keys d) .kfac c → computeInfluence L Rat.sqrt s srcIds (.dict d) tgtIds (.dict e) .l2 true .kfac none (some c) = .ok (s₁, r) →
    Spec.Labelled srcIds d → Spec.Labelled tgtIds e → i < srcIds.length → j < tgtIds.length → j' < tgtIds.length → Spec.SameSample d i e j →
    r.influence = .one t → t.el [i, j'] ≤ t.el [i, j] := by
  intro hall
  obtain ⟨s₁, r, h⟩ := isOk (x := computeInfluence lib Rat.sqrt stEk [['x']] (.dict (logB .cpu [5])) ids1 (.dict (logB .cpu [5, 7])) .l2 true .kfac none (some 1)) (by decide +kernel)
  obtain ⟨t, ht⟩ := influence_one h
  have h1 := hall lib stEk s₁ _ _ _ _ 1 r t 0 0 1 (stEk_pos (keysB _ _) one_pos) h (labB rfl) (labB rfl) (by decide) (by decide) (by decide) (sameB (by decide +kernel)) ht
  have ht' : r.influence.get? kTotal = some t := by rw [ht]; rfl
  have e1 : infEl (computeInfluence lib Rat.sqrt stEk [['x']] (.dict (logB .cpu [5])) ids1 (.dict (logB .cpu [5, 7])) .l2 true .kfac none (some 1)) kTotal 0 0 = some (25 / 3) := by decide +kernel
  have e2 : infEl (computeInfluence lib Rat.sqrt stEk [['x']] (.dict (logB .cpu [5])) ids1 (.dict (logB .cpu [5, 7])) .l2 true .kfac none (some 1)) kTotal 0 1 = some (28 / 3) := by decide +kernel
  rw [infEl_eq h ht' e1, infEl_eq h ht' e2] at h1
  revert h1
  decide +kernel

/-- `Rat.sqrt` is right about every number that has a square root. -/
theorem rat_sqrt {x : Rat} (h : ∃ y, y * y = x) : Spec.SqrtAt Rat.sqrt x := by
  obtain ⟨y, rfl⟩ := h
  exact ⟨Rat.sqrt_nonneg _, by rw [Rat.sqrt_eq]; exact abs_mul_abs_self y⟩

/-- **C52 fails** with fitted eigenvalues: the score of a sample with itself exceeds the square root of its self-influence (1/5), because the
damping is added to the eigenvalues once more before the norm of the target is computed. -/
theorem C52_refuted : ¬ ∀ (L : Lib Rat) (sqrt : Rat → Rat) (s s₁ s₂ : LState Rat) (ids : List PyStr) (d : GLog Rat) (c : Rat) (r : IFResult Rat) (a : SelfResult Rat)
    (t u : Tensor Rat) (i : Nat), (∀ x, (∃ y, y * y = x) → Spec.SqrtAt sqrt x) → Spec.PosHessian L s (Dict.keys d) .kfac c →
    computeInfluence L sqrt s ids (.dict d) ids (.dict d) .cosine true .kfac none (some c) = .ok (s₁, r) →
    computeSelf L s ids (.dict d) true .kfac none (some c) = .ok (s₂, a) → Spec.Labelled ids d → i < ids.length →
    r.influence.get? kTotal = some t → a.influence.get? kTotal = some u → 0 < u.el [i] → (∃ y, y * y = u.el [i]) → |t.el [i, i]| ≤ sqrt (u.el [i]) := by
  intro hall
  obtain ⟨s₁, r, h⟩ := isOk (x := computeInfluence lib Rat.sqrt stEk [['x']] (.dict (logB .cpu [1])) [['x']] (.dict (logB .cpu [1])) .cosine true .kfac none (some 24)) (by decide +kernel)
  obtain ⟨s₂, a, h'⟩ := isOk (x := computeSelf lib stEk [['x']] (.dict (logB .cpu [1])) true .kfac none (some 24)) (by decide +kernel)
  obtain ⟨t, ht⟩ := influence_one h
  have ht : r.influence.get? kTotal = some t := by rw [ht]; rfl
  obtain ⟨u, hu⟩ := self_one h'
  have hu : a.influence.get? kTotal = some u := by rw [hu]; rfl
  have h1 := hall lib Rat.sqrt stEk s₁ s₂ _ _ 24 r a t u 0 (fun x => rat_sqrt) (stEk_pos (keysB _ _) (by decide +kernel)) h h' (labB rfl) (by decide) ht hu
  have e1 : infEl (computeInfluence lib Rat.sqrt stEk [['x']] (.dict (logB .cpu [1])) [['x']] (.dict (logB .cpu [1])) .cosine true .kfac none (some 24)) kTotal 0 0 =
      some (7 / 25) := by decide +kernel
  have e2 : selfEl (computeSelf lib stEk [['x']] (.dict (logB .cpu [1])) true .kfac none (some 24)) kTotal 0 = some (1 / 25) := by decide +kernel
  rw [infEl_eq h ht e1, selfEl_eq h' hu e2] at h1
  have h2 := h1 (by decide +kernel) ⟨1 / 5, by decide +kernel⟩
  revert h2
  decide +kernel

/-! ### C54 -/

/-- Three earlier calls with the same damping, as `C54_same_damping_partial` has them. -/
example : ∃ s', Spec.serveAll lib Rat.sqrt st [.influence ids1 (.dict log1) ids2 (.dict log2) .l2 true .auto none (some 1), .selfInfluence ids2 (.dict log2) true .auto none (some 1),
      .influence ids2 (.dict log2) ids1 (.dict log1) .dot true .auto none (some 1)] = .ok s' ∧
    (Spec.serve lib Rat.sqrt s' (.influence ids1 (.dict log1) ids1 (.dict logW) .cosine true .auto none (some 1))).map Prod.snd =
      (Spec.serve lib Rat.sqrt st (.influence ids1 (.dict log1) ids1 (.dict logW) .cosine true .auto none (some 1))).map Prod.snd := by
  have h : (Spec.serveAll lib Rat.sqrt st [.influence ids1 (.dict log1) ids2 (.dict log2) .l2 true .auto none (some 1), .selfInfluence ids2 (.dict log2) true .auto none (some 1),
      .influence ids2 (.dict log2) ids1 (.dict log1) .dot true .auto none (some 1)]).toOption.isSome = true := by decide +kernel
  cases h' : Spec.serveAll lib Rat.sqrt st [.influence ids1 (.dict log1) ids2 (.dict log2) .l2 true .auto none (some 1), .selfInfluence ids2 (.dict log2) true .auto none (some 1),
      .influence ids2 (.dict log2) ids1 (.dict log1) .dot true .auto none (some 1)] with
  | error e => rw [h'] at h; cases h
  | ok s' => exact ⟨s', rfl, C54_same_damping_partial st_run st_noEk (damping := some 1) (by simp [Spec.Call.damping]) h' _ rfl⟩

/-- With `hessian="kfac"` the damping may change. -/
example : ∃ s', Spec.serveAll lib Rat.sqrt st [.influence ids1 (.dict log1) ids2 (.dict log2) .l2 true .kfac none (some 5), .selfInfluence ids2 (.dict log2) true .kfac none none] = .ok s' ∧
    (Spec.serve lib Rat.sqrt s' (.influence ids1 (.dict log1) ids1 (.dict logW) .l2 true .kfac none (some 1))).map Prod.snd =
      (Spec.serve lib Rat.sqrt st (.influence ids1 (.dict log1) ids1 (.dict logW) .l2 true .kfac none (some 1))).map Prod.snd := by
  have h : (Spec.serveAll lib Rat.sqrt st [.influence ids1 (.dict log1) ids2 (.dict log2) .l2 true .kfac none (some 5),
      .selfInfluence ids2 (.dict log2) true .kfac none none]).toOption.isSome = true := by decide +kernel
  cases h' : Spec.serveAll lib Rat.sqrt st [.influence ids1 (.dict log1) ids2 (.dict log2) .l2 true .kfac none (some 5), .selfInfluence ids2 (.dict log2) true .kfac none none] with
  | error e => rw [h'] at h; cases h
  | ok s' => exact ⟨s', rfl, C54_kfac_partial st_run st_noEk (by simp [Spec.Call.hessian]) h' _ rfl⟩

/-- **C54 fails** with fitted eigenvalues: the second of two identical calls returns other scores than the first. -/
theorem C54_refuted : ¬ ∀ (L : Lib Rat) (ops : List (StateOp Rat)) (s s₁ s₂ : LState Rat) (srcIds tgtIds : List PyStr) (d e : GLog Rat) (c : Rat) (r r' : IFResult Rat),
    Spec.EighOk L → Spec.InverseOk L → runOps L .init ops = .ok s → Spec.Labelled srcIds d → Spec.Labelled tgtIds e →
    computeInfluence L Rat.sqrt s srcIds (.dict d) tgtIds (.dict e) .dot true .kfac none (some c) = .ok (s₁, r) →
    computeInfluence L Rat.sqrt s₁ srcIds (.dict d) tgtIds (.dict e) .dot true .kfac none (some c) = .ok (s₂, r') → r'.influence.get? kTotal = r.influence.get? kTotal := by
  intro hall
  obtain ⟨s₁, r, h⟩ := isOk (x := computeInfluence lib Rat.sqrt stEk ids1 (.dict (logB .cpu [5, 6])) [['u']] (.dict (logB .cpu [1])) .dot true .kfac none (some 1)) (by decide +kernel)
  have e1 : infData (computeInfluence lib Rat.sqrt stEk ids1 (.dict (logB .cpu [5, 6])) [['u']] (.dict (logB .cpu [1])) .dot true .kfac none (some 1)) kTotal = some [5 / 2, 3] := by
    decide +kernel
  have e2 : ((computeInfluence lib Rat.sqrt stEk ids1 (.dict (logB .cpu [5, 6])) [['u']] (.dict (logB .cpu [1])) .dot true .kfac none (some 1)).toOption.bind fun x =>
      infData (computeInfluence lib Rat.sqrt x.1 ids1 (.dict (logB .cpu [5, 6])) [['u']] (.dict (logB .cpu [1])) .dot true .kfac none (some 1)) kTotal) = some [5 / 3, 2] := by
    decide +kernel
  rw [h] at e1 e2
  simp only [Except.toOption, Option.bind_some] at e2
  cases h' : computeInfluence lib Rat.sqrt s₁ ids1 (.dict (logB .cpu [5, 6])) [['u']] (.dict (logB .cpu [1])) .dot true .kfac none (some 1) with
  | error e => rw [h'] at e2; cases e2
  | ok x =>
    obtain ⟨s₂, r'⟩ := x
    have h1 := hall lib ekOps stEk s₁ s₂ _ _ _ _ 1 r r' eighOk inverseOk stEk_run (labB rfl) (labB rfl) h h'
    rw [h'] at e2
    simp only [infData] at e1 e2
    rw [h1, e1] at e2
    revert e2
    decide +kernel

/-- **C54 fails** with covariances of gradients: the inverse that a call with damping 1 leaves is used by a call with damping 2. -/
theorem C54_damping_refuted : ¬ ∀ (L : Lib Rat) (ops : List (StateOp Rat)) (s s₁ s₂ s₃ : LState Rat) (srcIds tgtIds : List PyStr) (d e : GLog Rat) (c c' : Rat) (r₁ r₂ r₃ : IFResult Rat),
    Spec.EighOk L → Spec.InverseOk L → runOps L .init ops = .ok s → s.hasAttr nEkfac = false → Spec.Labelled srcIds d → Spec.Labelled tgtIds e →
    computeInfluence L Rat.sqrt s srcIds (.dict d) tgtIds (.dict e) .dot true .auto none (some c') = .ok (s₁, r₁) →
    computeInfluence L Rat.sqrt s₁ srcIds (.dict d) tgtIds (.dict e) .dot true .auto none (some c) = .ok (s₂, r₂) →
    computeInfluence L Rat.sqrt s srcIds (.dict d) tgtIds (.dict e) .dot true .auto none (some c) = .ok (s₃, r₃) → r₂.influence.get? kTotal = r₃.influence.get? kTotal := by
  intro hall
  obtain ⟨s₁, r, h⟩ := isOk (x := computeInfluence lib Rat.sqrt stRaw ids1 (.dict (logB .cpu [5, 6])) [['u']] (.dict (logB .cpu [1])) .dot true .auto none (some 1)) (by decide +kernel)
  obtain ⟨s₃, r₃, h₃⟩ := isOk (x := computeInfluence lib Rat.sqrt stRaw ids1 (.dict (logB .cpu [5, 6])) [['u']] (.dict (logB .cpu [1])) .dot true .auto none (some 2)) (by decide +kernel)
  have e1 : infData (computeInfluence lib Rat.sqrt stRaw ids1 (.dict (logB .cpu [5, 6])) [['u']] (.dict (logB .cpu [1])) .dot true .auto none (some 2)) kTotal = some [2 / 13, 12 / 65] := by
    decide +kernel
  have e2 : ((computeInfluence lib Rat.sqrt stRaw ids1 (.dict (logB .cpu [5, 6])) [['u']] (.dict (logB .cpu [1])) .dot true .auto none (some 1)).toOption.bind fun x =>
      infData (computeInfluence lib Rat.sqrt x.1 ids1 (.dict (logB .cpu [5, 6])) [['u']] (.dict (logB .cpu [1])) .dot true .auto none (some 2)) kTotal) = some [10 / 63, 4 / 21] := by
    decide +kernel
  rw [h] at e2
  rw [h₃] at e1
  simp only [Except.toOption, Option.bind_some] at e2
  cases h' : computeInfluence lib Rat.sqrt s₁ ids1 (.dict (logB .cpu [5, 6])) [['u']] (.dict (logB .cpu [1])) .dot true .auto none (some 2) with
  | error e => rw [h'] at e2; cases e2
  | ok x =>
    obtain ⟨s₂, r'⟩ := x
    have h1 := hall lib rawOps stRaw s₁ s₂ s₃ _ _ _ _ 2 1 r r' r₃ eighOk inverseOk stRaw_run (by decide +kernel) (labB rfl) (labB rfl) h h' h₃
    rw [h'] at e2
    simp only [infData] at e1 e2
    rw [h1, e1] at e2
    revert e2
    decide +kernel

/-! ### C55 -/

theorem st_covKeys : ∃ cov, st.getAttr nCov = .ok cov ∧ ∀ m, m = nmA ∨ m = nmB → m ∈ Dict.keys cov := by
  obtain ⟨cov, hcov⟩ := cov_getAttr st_run
  refine ⟨cov, hcov, ?_⟩
  have h : (match st.getAttr nCov with | .ok c => decide (nmA ∈ Dict.keys c ∧ nmB ∈ Dict.keys c) | .error _ => false) = true := by decide +kernel
  rw [hcov] at h
  simp only [decide_eq_true_eq] at h
  rintro m (rfl | rfl)
  · exact h.1
  · exact h.2

/-- With damping given, the gradients of `e.b` in `log1` are preconditioned as they are without `e.a`. -/
example : ∃ s₁ s₂ out out', precondition lib st (.dict log1) .kfac (some 1) = .ok (s₁, .dict out) ∧ precondition lib st (.dict (logB .cpu [5, 6])) .kfac (some 1) = .ok (s₂, .dict out') ∧
    Spec.grad out nmB = Spec.grad out' nmB := by
  obtain ⟨s₁, out, h⟩ := pre1
  obtain ⟨s₂, o, h'⟩ := isOk (x := precondition lib st (.dict (logB .cpu [5, 6])) .kfac (some 1)) (by decide +kernel)
  cases o with
  | flat t =>
    have : preGrads (precondition lib st (.dict (logB .cpu [5, 6])) .kfac (some 1)) nmB = some [5 / 6, 1] := by decide +kernel
    rw [h'] at this; cases this
  | dict out' =>
    obtain ⟨cov, hcov, hk⟩ := st_covKeys
    exact ⟨s₁, s₂, out, out', h, h', C55_given_partial hcov (fun m hm => hk m (keys1 m hm)) (fun m hm => hk m (keysB _ _ m hm)) lab1.nodup (by simp [logB, Dict.keys]) h h'
      (by decide +kernel) rfl⟩

/-- The state after the eigendecomposition. -/
def stSvd : LState Rat := match st.getCovarianceSvd lib with | .ok (s, _) => s | .error _ => .init

def evF : Tensor Rat := ⟨.cpu, [2], [25 / 2, 50], rfl⟩
def evB : Tensor Rat := ⟨.cpu, [1], [5 / 2], rfl⟩

/-- `log1` starts with `e.a`, whose eigenvalues are 25/2 and 50 for the inputs and 5/2 for the outputs. -/
example : precondition lib stSvd (.dict log1) .kfac none = precondition lib stSvd (.dict log1) .kfac (some (1 / 10 * ((5 / 2 * (25 / 2) + 5 / 2 * 50) / 2))) := by
  have h1 : (match stSvd.getAttr nEigval with | .ok _ => true | .error _ => false) = true := by decide +kernel
  have h2 : (match stSvd.getAttr nEigvec with | .ok _ => true | .error _ => false) = true := by decide +kernel
  cases hv : stSvd.getAttr nEigval with
  | error e => rw [hv] at h1; cases h1
  | ok vals =>
    cases hw : stSvd.getAttr nEigvec with
    | error e => rw [hw] at h2; cases h2
    | ok vecs =>
      have h := C55_own_partial (L := lib) (sub := [(LogType.name .grad, ⟨.cpu, [2, 1, 2], [1, 2, 3, 4], rfl⟩)]) (rest := logB .cpu [5, 6]) (m := nmA) (wf := evF) (wb := evB)
        (nf := 2) (nb := 1) (by decide +kernel) hv hw (by decide +kernel) (by decide +kernel) rfl rfl rfl
      refine h.trans ?_
      congr 2
      decide +kernel

/-- **C55 fails**: without damping given, the gradients of `e.b` are preconditioned differently when `e.a` comes first. -/
theorem C55_refuted : ¬ ∀ (L : Lib Rat) (ops : List (StateOp Rat)) (s s₁ s₂ : LState Rat) (d d' out out' : GLog Rat) (cov : StateDict Rat) (m : PyStr),
    Spec.EighOk L → Spec.InverseOk L → runOps L .init ops = .ok s → s.hasAttr nEkfac = false → s.getAttr nCov = .ok cov →
    (∀ m ∈ Dict.keys d, m ∈ Dict.keys cov) → (∀ m ∈ Dict.keys d', m ∈ Dict.keys cov) → (Dict.keys d).Nodup → (Dict.keys d').Nodup →
    precondition L s (.dict d) .kfac none = .ok (s₁, .dict out) → precondition L s (.dict d') .kfac none = .ok (s₂, .dict out') →
    m ∈ Dict.keys d → Spec.grad d m = Spec.grad d' m → Spec.grad out m = Spec.grad out' m := by
  intro hall
  have e1 : preGrads (precondition lib st (.dict log1) .kfac none) nmB = some [16 / 41, 96 / 205] := by decide +kernel
  have e2 : preGrads (precondition lib st (.dict (logB .cpu [5, 6])) .kfac none) nmB = some [10 / 11, 12 / 11] := by decide +kernel
  obtain ⟨s₁, o, h⟩ := isOk (x := precondition lib st (.dict log1) .kfac none) (by decide +kernel)
  obtain ⟨s₂, o', h'⟩ := isOk (x := precondition lib st (.dict (logB .cpu [5, 6])) .kfac none) (by decide +kernel)
  obtain ⟨cov, hcov, hk⟩ := st_covKeys
  cases o with
  | flat t => rw [h] at e1; cases e1
  | dict out =>
    cases o' with
    | flat t => rw [h'] at e2; cases e2
    | dict out' =>
      have h1 := hall lib covOps st s₁ s₂ log1 (logB .cpu [5, 6]) out out' cov nmB eighOk inverseOk st_run st_noEk hcov (fun m hm => hk m (keys1 m hm))
        (fun m hm => hk m (keysB _ _ m hm)) lab1.nodup (by simp [logB, Dict.keys]) h h' (by decide +kernel) rfl
      rw [h] at e1; rw [h'] at e2
      simp only [preGrads] at e1 e2
      rw [h1, e2] at e1
      revert e1
      decide +kernel

/-! ### C85 -/

/-- A log on a GPU. -/
def logG : GLog Rat := logB (.cuda 0) [5, 6]

example : ∀ x, computeInfluence lib Rat.sqrt st ids1 (.dict logG) ids1 (.dict logG) .l2 true .kfac none (some 1) ≠ .ok x :=
  C85_gpu_raises (labB rfl) (labB rfl) rfl (.inl rfl) (fun m g h => by
    simp only [Spec.grad, logG, logB, Dict.get?_cons] at h
    split at h
    · simp at h; rw [← h]; decide
    · cases h)

/-- **C85 fails**: for a log on a GPU the call returns in mode dot and raises in mode l2. -/
theorem C85_refuted : ¬ ∀ (L : Lib Rat) (ops : List (StateOp Rat)) (s s₁ : LState Rat) (ids : List PyStr) (d : GLog Rat) (c : Rat) (r : IFResult Rat),
    Spec.EighOk L → Spec.InverseOk L → runOps L .init ops = .ok s → Spec.PosHessian L s (Dict.keys d) .kfac c → Spec.Labelled ids d →
    computeInfluence L Rat.sqrt s ids (.dict d) ids (.dict d) .dot true .kfac none (some c) = .ok (s₁, r) →
    ∃ x, computeInfluence L Rat.sqrt s ids (.dict d) ids (.dict d) .l2 true .kfac none (some c) = .ok x := by
  intro hall
  obtain ⟨s₁, r, h⟩ := isOk (x := computeInfluence lib Rat.sqrt st ids1 (.dict logG) ids1 (.dict logG) .dot true .kfac none (some 1)) (by decide +kernel)
  obtain ⟨x, hx⟩ := hall lib covOps st s₁ ids1 logG 1 r eighOk inverseOk st_run (st_pos (keysB _ _) one_pos) (labB rfl) h
  refine C85_gpu_raises (labB rfl) (labB rfl) rfl (.inl rfl) (fun m g h => ?_) x hx
  simp only [Spec.grad, logB, Dict.get?_cons] at h
  split at h
  · simp at h; rw [← h]; decide
  · cases h

end Logix.ExInfl
