/-
The Lightning integration on concrete logs: a case that meets the hypotheses of C97, and a counterexample to it.
-/
import Verif.Props.LightningInfluence
import Verif.Props.TilesExample

namespace Logix.ExInfl
open Logix

abbrev ltr : LTrainer Rat := ⟨2, .new st⟩

def lArgs (mode : Mode) : LArgs Rat := ⟨mode, some 1⟩

/-- C97 on a trainer that has run two epochs before, with `max_epochs=10`, in mode l2. -/
example : ∃ tr' r s' w v x, ltr.influence lib Rat.sqrt (lArgs .l2) loader2 ⟨some 10, 0⟩ 5 twoSrcs = .ok (tr', r) ∧
    computeInfluence lib Rat.sqrt st idsXYZ (.dict (logB .cpu [5, 1, 2])) idsUVW (.dict (logB .cpu [7, -2, 4])) .l2 true .auto none (some 1) = .ok (s', w) ∧
    r = some v ∧ v.srcIds = idsXYZ ∧ v.tgtIds = idsUVW ∧ v.influence.get? ['t', 'o', 't', 'a', 'l'] = some x ∧ w.influence.get? ['t', 'o', 't', 'a', 'l'] = some x := by
  obtain ⟨tr', r, h⟩ := isOk (x := ltr.influence lib Rat.sqrt (lArgs .l2) loader2 ⟨some 10, 0⟩ 5 twoSrcs) (by decide +kernel)
  obtain ⟨s', w, hw⟩ := isOk (x := computeInfluence lib Rat.sqrt st idsXYZ (.dict (logB .cpu [5, 1, 2])) idsUVW (.dict (logB .cpu [7, -2, 4])) .l2 true .auto none (some 1))
    (by decide +kernel)
  obtain ⟨v, x, h1⟩ := C97_first_partial (a := lArgs .l2) (by decide) (by decide) (by decide) (.new st) st_run st_noEk (calls := []) (fun c hc => by cases hc) rfl h hw
    (by simp [twoSrcs]) (by simp [twoBatches]) twoSrcs_ok twoBatches_ok (labB rfl) (labB rfl) twoSrcs_lab twoBatches_lab twoSrcs_keys twoBatches_keys (.inr rfl)
  exact ⟨tr', r, s', w, v, x, h, hw, h1⟩

/-- The ids that two calls on one trainer return: of the first call, and of the second call. -/
def twoCalls (t : TrainerLimits) (data₁ data₂ : List (List PyStr × GLog Rat)) : Option (List PyStr × List PyStr) :=
  match ltr.influence lib Rat.sqrt (lArgs .dot) loader2 t 5 data₁ with
  | .ok (tr, some r) =>
    match tr.influence lib Rat.sqrt (lArgs .dot) loader2 t 5 data₂ with
    | .ok (_, some r') => some (r.srcIds, r'.srcIds)
    | _ => none
  | _ => none

/-- **C97 is false**: the second call of `influence` on a trainer also returns the scores of the samples of the first call; and if `max_epochs` has been reached, it
returns the scores of the first call only. -/
theorem C97_refuted : ¬ ∀ (L : Lib Rat) (a : LArgs Rat) (loader) (t : TrainerLimits) (fuel : Nat) (tr tr₁ tr₂ : LTrainer Rat) (data₁ data₂ : List (List PyStr × GLog Rat))
    (r₁ : Option (IFResult Rat)) (r₂ : IFResult Rat), Spec.EighOk L → Spec.InverseOk L → t.minEpochs = 0 → t.reached tr.cur false = false → 5 ≤ fuel →
    Spec.History L Rat.sqrt tr.infl [] → tr.influence L Rat.sqrt a loader t fuel data₁ = .ok (tr₁, r₁) →
    tr₁.influence L Rat.sqrt a loader t fuel data₂ = .ok (tr₂, some r₂) → r₂.srcIds = data₂.flatMap (·.1) := by
  intro hall
  have key : twoCalls ⟨none, 0⟩ [([['x'], ['y']], logB .cpu [5, 1])] [([['z']], logB .cpu [2])] = some ([['x'], ['y']], [['x'], ['y'], ['z']]) := by decide +kernel
  unfold twoCalls at key
  split at key
  · next tr₁ r h1 =>
    split at key
    · next tr₂ r' h2 =>
      have := hall lib _ _ _ 5 ltr _ _ _ _ _ _ eighOk inverseOk rfl (by decide) (by decide) (.new st) h1 h2
      rw [(Prod.mk.inj (Option.some.inj key)).2] at this
      revert this
      decide
    · cases key
  · cases key

/-- The other way it fails: `max_epochs=3` is reached by the first call. -/
example : twoCalls ⟨some 3, 0⟩ [([['x'], ['y']], logB .cpu [5, 1])] [([['z']], logB .cpu [2])] = some ([['x'], ['y']], [['x'], ['y']]) := by decide +kernel

theorem twice_ok : Spec.Batches (List.replicate 2 twoSrcs).flatten [['x'], ['y'], ['z'], ['x'], ['y'], ['z']] (logB .cpu [5, 1, 2, 5, 1, 2]) := by
  refine ⟨rfl, fun l b r h j hj => ?_⟩
  rcases l with _ | ⟨a, _ | ⟨a', _ | ⟨a₂, _ | ⟨a₃, l⟩⟩⟩⟩
  · cases h
    have : j = 0 ∨ j = 1 := by simp only [List.length_cons, List.length_nil] at hj; omega
    rcases this with rfl | rfl <;> exact (sameB (by decide +kernel)).sameRows
  · cases h
    obtain rfl : j = 0 := by simp only [List.length_cons, List.length_nil] at hj; omega
    exact (sameB (by decide +kernel)).sameRows
  · cases h
    have : j = 0 ∨ j = 1 := by simp only [List.length_cons, List.length_nil] at hj; omega
    rcases this with rfl | rfl <;> exact (sameB (by decide +kernel)).sameRows
  · cases h
    obtain rfl : j = 0 := by simp only [List.length_cons, List.length_nil] at hj; omega
    exact (sameB (by decide +kernel)).sameRows
  · simp [twoSrcs] at h

/-- C97 on a trainer that has run two epochs before, with `min_epochs=4`: two passes. -/
example : ∃ tr' r v, ltr.influence lib Rat.sqrt (lArgs .l2) loader2 ⟨some 10, 4⟩ 5 twoSrcs = .ok (tr', r) ∧ tr'.cur = 4 ∧
    r = some v ∧ v.srcIds = idsXYZ ++ idsXYZ ∧ v.tgtIds = idsUVW := by
  obtain ⟨tr', r, h⟩ := isOk (x := ltr.influence lib Rat.sqrt (lArgs .l2) loader2 ⟨some 10, 4⟩ 5 twoSrcs) (by decide +kernel)
  obtain ⟨s', w, hw⟩ := isOk (x := computeInfluence lib Rat.sqrt st [['x'], ['y'], ['z'], ['x'], ['y'], ['z']] (.dict (logB .cpu [5, 1, 2, 5, 1, 2])) idsUVW
    (.dict (logB .cpu [7, -2, 4])) .l2 true .auto none (some 1)) (by decide +kernel)
  obtain ⟨h0, v, x, h1, h2, h3, h4, -⟩ := C97_passes_partial (a := lArgs .l2) (n := 2) ⟨by decide, fun m hm => by cases hm; decide, .inr (by decide), .inr (by decide)⟩
    (by decide) (.new st) st_run st_noEk (calls := []) (fun c hc => by cases hc) rfl h hw (by simp [twoSrcs]) (by simp [twoBatches]) twice_ok twoBatches_ok (labB rfl) (labB rfl)
    twoSrcs_lab twoBatches_lab twoSrcs_keys twoBatches_keys (.inr rfl)
  exact ⟨tr', r, v, h, h0, h1, h3, h4⟩

end Logix.ExInfl
