/-
Scores saved batch by batch on concrete logs: cases that meet the hypotheses of C89.
-/
import Verif.Props.InflAllExample
import Verif.Props.Tiles

namespace Logix.ExInfl
open Logix

/-- Three sources in two batches. -/
def twoSrcs : List (List PyStr × GLog Rat) := [([['x'], ['y']], logB .cpu [5, 1]), ([['z']], logB .cpu [2])]

theorem twoSrcs_ok : Spec.Batches twoSrcs [['x'], ['y'], ['z']] (logB .cpu [5, 1, 2]) := by
  refine ⟨rfl, fun l b r h j hj => ?_⟩
  rcases l with _ | ⟨a, _ | ⟨a', l⟩⟩
  · cases h
    have : j = 0 ∨ j = 1 := by simp only [List.length_cons, List.length_nil] at hj; omega
    rcases this with rfl | rfl <;> exact (sameB (by decide +kernel)).sameRows
  · cases h
    obtain rfl : j = 0 := by simp only [List.length_cons, List.length_nil] at hj; omega
    exact (sameB (by decide +kernel)).sameRows
  · simp [twoSrcs] at h

theorem twoSrcs_keys : ∀ b ∈ twoSrcs, Dict.keys b.2 = Dict.keys (logB .cpu [5, 1, 2]) := by
  intro b hb
  simp only [twoSrcs, List.mem_cons, List.not_mem_nil, or_false] at hb
  rcases hb with rfl | rfl <;> rfl

theorem twoSrcs_lab : ∀ b ∈ twoSrcs, Spec.Labelled b.1 b.2 := by
  intro b hb
  simp only [twoSrcs, List.mem_cons, List.not_mem_nil, or_false] at hb
  rcases hb with rfl | rfl <;> exact labB rfl

/-- The saved scores of an object under a key. -/
def savedData (x : Py (IFObj Rat)) (k : PyStr) : Option (List Rat) :=
  match x with
  | .ok o => o.saved.bind fun a => ((o.heap.deref a).influence.get? k).map (·.data)
  | _ => none

theorem isOk₁ {α : Type} {x : Py α} (h : x.toOption.isSome = true) : ∃ a, x = .ok a := by
  cases x with
  | error e => cases h
  | ok a => exact ⟨a, rfl⟩

abbrev idsXYZ : List PyStr := [['x'], ['y'], ['z']]

example : savedData (Spec.saveAll lib Rat.sqrt loader2 .l2 true .kfac (some [gB]) (some 1) (.new st) twoSrcs) gB =
    some [7 / 4, -2, 2, -35 / 12, -2 / 3, -2 / 3, -7 / 4, -1, 0] := by decide +kernel

/-- Mode dot with groups. -/
example : ∃ o' s' w, Spec.saveAll lib Rat.sqrt loader2 .dot true .kfac (some [gB]) (some 1) (.new st) twoSrcs = .ok o' ∧
    computeInfluence lib Rat.sqrt st idsXYZ (.dict (logB .cpu [5, 1, 2])) idsUVW (.dict (logB .cpu [7, -2, 4])) .dot true .kfac (some [gB]) (some 1) = .ok (s', w) ∧
    Spec.SavedAre o' (some [gB]) w := by
  obtain ⟨o', h⟩ := isOk₁ (x := Spec.saveAll lib Rat.sqrt loader2 .dot true .kfac (some [gB]) (some 1) (.new st) twoSrcs) (by decide +kernel)
  obtain ⟨s', w, hw⟩ := isOk (x := computeInfluence lib Rat.sqrt st idsXYZ (.dict (logB .cpu [5, 1, 2])) idsUVW (.dict (logB .cpu [7, -2, 4])) .dot true .kfac (some [gB])
    (some 1)) (by decide +kernel)
  exact ⟨o', s', w, h, hw, C89_dot (.new st) st_run st_noEk (calls := []) (fun c hc => by cases hc) rfl h hw (by simp [twoSrcs]) (by simp [twoBatches]) twoSrcs_ok
    twoBatches_ok (labB rfl) (labB rfl) twoSrcs_lab twoBatches_lab twoSrcs_keys twoBatches_keys⟩

/-- Mode l2. -/
example : ∃ o' s' w, Spec.saveAll lib Rat.sqrt loader2 .l2 true .kfac (some [gB]) (some 1) (.new st) twoSrcs = .ok o' ∧
    computeInfluence lib Rat.sqrt st idsXYZ (.dict (logB .cpu [5, 1, 2])) idsUVW (.dict (logB .cpu [7, -2, 4])) .l2 true .kfac (some [gB]) (some 1) = .ok (s', w) ∧
    Spec.SavedAre o' (some [gB]) w := by
  obtain ⟨o', h⟩ := isOk₁ (x := Spec.saveAll lib Rat.sqrt loader2 .l2 true .kfac (some [gB]) (some 1) (.new st) twoSrcs) (by decide +kernel)
  obtain ⟨s', w, hw⟩ := isOk (x := computeInfluence lib Rat.sqrt st idsXYZ (.dict (logB .cpu [5, 1, 2])) idsUVW (.dict (logB .cpu [7, -2, 4])) .l2 true .kfac (some [gB])
    (some 1)) (by decide +kernel)
  exact ⟨o', s', w, h, hw, C89_modes (.new st) st_run st_noEk (calls := []) (fun c hc => by cases hc) rfl h hw (by simp [twoSrcs]) (by simp [twoBatches]) twoSrcs_ok
    twoBatches_ok (labB rfl) (labB rfl) twoSrcs_lab twoBatches_lab rfl twoSrcs_keys twoBatches_keys⟩

end Logix.ExInfl
