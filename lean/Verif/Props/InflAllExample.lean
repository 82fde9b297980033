/-
Influence against a loader on concrete logs: cases that meet the hypotheses of C47, C56 and C57, and a counterexample to C57.
-/
import Verif.Props.InflExample2
import Verif.Props.InfluenceAll

namespace Logix.ExInfl
open Logix

/-- Three targets in two batches. -/
def twoBatches : List (List PyStr × GLog Rat) := [([['u']], logB .cpu [7]), ([['v'], ['w']], logB .cpu [-2, 4])]

def loader2 : List (List PyStr × LogArg Rat) := twoBatches.map fun b => (b.1, .dict b.2)

theorem twoBatches_ok : Spec.Batches twoBatches [['u'], ['v'], ['w']] (logB .cpu [7, -2, 4]) := by
  refine ⟨rfl, fun l b r h j hj => ?_⟩
  rcases l with _ | ⟨a, _ | ⟨a', l⟩⟩
  · cases h
    obtain rfl : j = 0 := by simp only [List.length_cons, List.length_nil] at hj; omega
    exact (sameB (by decide +kernel)).sameRows
  · cases h
    have : j = 0 ∨ j = 1 := by simp only [List.length_cons, List.length_nil] at hj; omega
    rcases this with rfl | rfl <;> exact (sameB (by decide +kernel)).sameRows
  · simp [twoBatches] at h

theorem twoBatches_keys : ∀ b ∈ twoBatches, Dict.keys b.2 = Dict.keys (logB .cpu [7, -2, 4]) := by
  intro b hb
  simp only [twoBatches, List.mem_cons, List.not_mem_nil, or_false] at hb
  rcases hb with rfl | rfl <;> rfl

theorem twoBatches_lab : ∀ b ∈ twoBatches, Spec.Labelled b.1 b.2 := by
  intro b hb
  simp only [twoBatches, List.mem_cons, List.not_mem_nil, or_false] at hb
  rcases hb with rfl | rfl <;> exact labB rfl

/-- The scores of a result under a key. -/
def allData (x : Py (IFObj Rat × Option (RRec Rat))) (k : PyStr) : Option (List Rat) :=
  match x with
  | .ok (o, some r) => ((o.heap.deref r).influence.get? k).map (·.data)
  | _ => none

/-! ### C47 -/

abbrev srcXY : LogArg Rat := .dict (logB .cpu [5, 1])
abbrev idsXY : List PyStr := [['x'], ['y']]
abbrev idsUVW : List PyStr := [['u'], ['v'], ['w']]

example : allData (computeInfluenceAll lib Rat.sqrt (.new st) idsXY srcXY loader2 .dot true true .kfac (some [gB]) (some 1)) gB =
    some [35 / 6, -5 / 3, 10 / 3, 7 / 6, -1 / 3, 2 / 3] := by decide +kernel

/-- Mode dot with groups: the group `.b` has the scores of all targets at once. -/
example : ∃ o' r s' w x t, computeInfluenceAll lib Rat.sqrt (.new st) idsXY srcXY loader2 .dot true true .kfac (some [gB]) (some 1) = .ok (o', r) ∧
    computeInfluence lib Rat.sqrt st idsXY srcXY idsUVW (.dict (logB .cpu [7, -2, 4])) .dot true .kfac (some [gB]) (some 1) = .ok (s', w) ∧
    r = some x ∧ (o'.heap.deref x).tgtIds = w.tgtIds ∧ (o'.heap.deref x).influence.get? gB = some t ∧ w.influence.get? gB = some t := by
  obtain ⟨o', r, h⟩ := isOk (x := computeInfluenceAll lib Rat.sqrt (.new st) idsXY srcXY loader2 .dot true true .kfac (some [gB]) (some 1)) (by decide +kernel)
  obtain ⟨s', w, hw⟩ := isOk (x := computeInfluence lib Rat.sqrt st idsXY srcXY idsUVW (.dict (logB .cpu [7, -2, 4])) .dot true .kfac (some [gB]) (some 1)) (by decide +kernel)
  obtain ⟨x, h1, -, h2, h3⟩ := C47_dot (.new st) h hw (by simp [twoBatches]) twoBatches_ok (labB rfl) twoBatches_lab (labB rfl)
  obtain ⟨t, h4, h5⟩ := h3 gB (.inr (by decide))
  exact ⟨o', r, s', w, x, t, h, hw, h1, h2, h4, h5⟩

example : allData (computeInfluenceAll lib Rat.sqrt (.new st) idsXY srcXY loader2 .l2 true true .kfac (some [gB]) (some 1)) gB =
    some [7 / 4, -2, 2, -35 / 12, -2 / 3, -2 / 3] := by decide +kernel

/-- Mode l2. -/
example : ∃ o' r s' w x t, computeInfluenceAll lib Rat.sqrt (.new st) idsXY srcXY loader2 .l2 true true .kfac (some [gB]) (some 1) = .ok (o', r) ∧
    computeInfluence lib Rat.sqrt st idsXY srcXY idsUVW (.dict (logB .cpu [7, -2, 4])) .l2 true .kfac (some [gB]) (some 1) = .ok (s', w) ∧
    r = some x ∧ (o'.heap.deref x).tgtIds = w.tgtIds ∧ (o'.heap.deref x).influence.get? gB = some t ∧ w.influence.get? gB = some t := by
  obtain ⟨o', r, h⟩ := isOk (x := computeInfluenceAll lib Rat.sqrt (.new st) idsXY srcXY loader2 .l2 true true .kfac (some [gB]) (some 1)) (by decide +kernel)
  obtain ⟨s', w, hw⟩ := isOk (x := computeInfluence lib Rat.sqrt st idsXY srcXY idsUVW (.dict (logB .cpu [7, -2, 4])) .l2 true .kfac (some [gB]) (some 1)) (by decide +kernel)
  obtain ⟨x, h1, -, h2, h3⟩ := C47_modes (.new st) st_run st_noEk (calls := []) (fun c hc => by cases hc) rfl h hw (by simp [twoBatches]) twoBatches_ok (labB rfl)
    twoBatches_lab (labB rfl) rfl twoBatches_keys
  obtain ⟨t, h4, h5⟩ := h3 gB (.inr (by decide))
  exact ⟨o', r, s', w, x, t, h, hw, h1, h2, h4, h5⟩

/-! ### C56 -/

/-- Two source batches, both saved. -/
def twoSaved : Option (IFObj Rat × RRec Rat × IFObj Rat × RRec Rat) :=
  match computeInfluenceAll lib Rat.sqrt (.new st) idsXY srcXY loader2 .dot true true .kfac (some [gB]) (some 1) with
  | .ok (o₁, some r₁) =>
    match computeInfluenceAll lib Rat.sqrt o₁ [['z']] (.dict (logB .cpu [2])) loader2 .dot true true .kfac (some [gB]) (some 1) with
    | .ok (o₂, some r₂) => some (o₁, r₁, o₂, r₂)
    | _ => none
  | _ => none

theorem twoSaved_ok : ∃ o₁ r₁ o₂ r₂, twoSaved = some (o₁, r₁, o₂, r₂) ∧
    computeInfluenceAll lib Rat.sqrt (.new st) idsXY srcXY loader2 .dot true true .kfac (some [gB]) (some 1) = .ok (o₁, some r₁) ∧
    computeInfluenceAll lib Rat.sqrt o₁ [['z']] (.dict (logB .cpu [2])) loader2 .dot true true .kfac (some [gB]) (some 1) = .ok (o₂, some r₂) := by
  have h : twoSaved.isSome = true := by decide +kernel
  obtain ⟨⟨o₁, r₁, o₂, r₂⟩, hx⟩ := Option.isSome_iff_exists.1 h
  refine ⟨o₁, r₁, o₂, r₂, hx, ?_⟩
  unfold twoSaved at hx
  split at hx
  · next o r h1 =>
    split at hx
    · next o' r' h2 => cases hx; exact ⟨h1, h2⟩
    · cases hx
  · cases hx

/-- The saved scores: the rows of `x`, `y` and `z`. -/
example : (twoSaved.bind fun q => q.2.2.1.saved.bind fun a => ((q.2.2.1.heap.deref a).influence.get? gB).map (·.data)) =
    some [35 / 6, -5 / 3, 10 / 3, 7 / 6, -1 / 3, 2 / 3, 7 / 3, -2 / 3, 4 / 3] := by decide +kernel

example : ∃ o vs a x, Spec.History lib Rat.sqrt o vs ∧ vs.length = 2 ∧ o.saved = some a ∧ (o.heap.deref a).srcIds = [['x'], ['y'], ['z']] ∧
    (o.heap.deref a).influence.get? gB = some x ∧ x.shape = [3, 3] := by
  obtain ⟨o₁, r₁, o₂, r₂, h, h1, h2⟩ := twoSaved_ok
  have hh : Spec.History lib Rat.sqrt o₂ [o₁.heap.deref r₁, o₂.heap.deref r₂] := .saved (.saved (.new st) h1) h2
  obtain ⟨a, c1, c2, c3, c4, c5⟩ := C56_saved hh (by simp)
  have e1 : (twoSaved.map fun q => ((q.1.heap.deref q.2.1).srcIds, (q.1.heap.deref q.2.1).tgtIds.length, (q.2.2.1.heap.deref q.2.2.2).srcIds,
    ((q.1.heap.deref q.2.1).influence.get? gB).isSome)) = some ([['x'], ['y']], 3, [['z']], true) := by decide +kernel
  rw [h] at e1
  simp only [Option.map_some, Option.some.injEq, Prod.mk.injEq] at e1
  obtain ⟨f1, f2, f3, f4⟩ := e1
  have g1 : (o₂.heap.deref a).srcIds = [['x'], ['y'], ['z']] := by rw [c2]; simp [f1, f3]
  have g2 := c4 _ rfl gB
  rw [f4] at g2
  obtain ⟨x, hx⟩ := Option.isSome_iff_exists.1 g2
  refine ⟨o₂, _, a, x, hh, rfl, c1, g1, hx, ?_⟩
  rw [(c5 gB x hx).1, g1, c3 _ rfl, f2]
  rfl

/-! ### C57 -/

/-- **C57 fails**: after a second call with `save=True` the result returned by the first has another list of source ids. -/
theorem C57_refuted : ¬ ∀ (L : Lib Rat) (o o₁ o₂ : IFObj Rat) (vs : List (IFResult Rat)) (ids : List PyStr) (src : LogArg Rat) (loader : List (List PyStr × LogArg Rat))
    (groups : Option (List PyStr)) (damping : Option Rat) (r : RRec Rat), Spec.EighOk L → Spec.InverseOk L → Spec.History L Rat.sqrt o vs →
    computeInfluenceAll L Rat.sqrt o ids src loader .dot true true .kfac groups damping = .ok (o₁, some r) → Spec.Later L Rat.sqrt o₁ o₂ →
    (o₂.heap.deref r).srcIds = (o₁.heap.deref r).srcIds := by
  intro hall
  obtain ⟨o₁, r₁, o₂, r₂, h, h1, h2⟩ := twoSaved_ok
  have e1 : (twoSaved.map fun q => ((q.1.heap.deref q.2.1).srcIds, (q.2.2.1.heap.deref q.2.1).srcIds)) = some ([['x'], ['y']], [['x'], ['y'], ['z']]) := by decide +kernel
  rw [h] at e1
  simp only [Option.map_some, Option.some.injEq, Prod.mk.injEq] at e1
  have := hall lib _ o₁ o₂ [] _ _ _ _ _ r₁ eighOk inverseOk (.new st) h1 (.call (.refl _) h2)
  rw [e1.1, e1.2] at this
  revert this
  decide

/-- With groups the scores of the first result change as well: it gets the rows of the second. -/
example : (twoSaved.map fun q => (((q.1.heap.deref q.2.1).influence.get? gB).map (·.shape), ((q.2.2.1.heap.deref q.2.1).influence.get? gB).map (·.shape))) =
    some (some [2, 3], some [3, 3]) := by decide +kernel

/-- The second result does not change, whatever follows. -/
example : ∃ o₂ r₂, ∀ o₃, Spec.Later lib Rat.sqrt o₂ o₃ → o₃.heap.deref r₂ = o₂.heap.deref r₂ := by
  obtain ⟨o₁, r₁, o₂, r₂, h, h1, h2⟩ := twoSaved_ok
  exact ⟨o₂, r₂, fun o₃ hl => C57_unchanged_partial (.saved (.new st) h1) h2 (.inr (by simp)) hl⟩

/-- The first one keeps its target ids. -/
example : ∃ o₁ r₁, ∀ o₃, Spec.Later lib Rat.sqrt o₁ o₃ → (o₃.heap.deref r₁).tgtIds = (o₁.heap.deref r₁).tgtIds := by
  obtain ⟨o₁, r₁, o₂, r₂, h, h1, h2⟩ := twoSaved_ok
  exact ⟨o₁, r₁, fun o₃ hl => (C57_first_partial (.new st) h1 hl).2.1⟩

end Logix.ExInfl
