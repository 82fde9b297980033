/-
Instances for C114, and its counterexample.
-/
import Verif.Props.TrainerSelf
import Verif.Props.SelfBatchesExample
import Verif.Props.HuggingFaceExample

namespace Logix.ExInfl
open Logix Spec

abbrev cbSelf : HFSelf Rat := ⟨⟨.new st, none⟩, [], []⟩
abbrev trSelf : LSelf Rat := ⟨0, ⟨.new st, none⟩, []⟩

/-- Three samples in two micro-batches: their self-influences are computed. -/
theorem hfSelf_instance : ∃ s c' r s' w rs, Scheduler.init "none".toList "raw".toList "grad".toList = .ok s ∧
    cbSelf.selfInfluence lib (hfArgs .dot) true s (twoMicro ++ [lastMicro]) = .ok (c', r) ∧
    computeSelf lib st idsXYZ (.dict (logB .cpu [5, 1, 2])) true .auto (some [gB]) (some 1) = .ok (s', w) ∧ c'.computed = rs ∧ SelfJoined rs (some [gB]) w := by
  obtain ⟨s, hs⟩ := isOk₁ (x := Scheduler.init "none".toList "raw".toList "grad".toList) rfl
  have hev := C91_influence_partial (hessian := "raw") (save := "grad") (by simp [Spec.ValidSchedule]) (by decide) hs true (mode := .selfInfluence) (by simp)
  obtain ⟨c', r, h⟩ := isOk (x := cbSelf.selfInfluence lib (hfArgs .dot) true s (twoMicro ++ [lastMicro])) (by
    unfold HFSelf.selfInfluence; rw [congrArg Prod.fst hev]; dsimp only; clear hev hs; clear s; decide +kernel)
  obtain ⟨s', w, hw⟩ := isOk (x := computeSelf lib st idsXYZ (.dict (logB .cpu [5, 1, 2])) true .auto (some [gB]) (some 1)) (by decide +kernel)
  obtain ⟨rs, h1, h2⟩ := C114_hf_partial (a := hfArgs .dot) (sqrt := Rat.sqrt) (hessian := "raw") (save := "grad") (by simp [Spec.ValidSchedule]) (by decide) hs true rfl
    st_run st_noEk (calls := []) (fun c hc => by cases hc) rfl h rfl hw twoSrcs_ok (labB rfl) (fun b hb => micro_ok _ (List.mem_append_right _ (List.mem_map_of_mem hb)))
  exact ⟨s, c', r, s', w, rs, hs, h, hw, by simpa using h1, h2⟩

/-- Lightning: three samples in two batches, at most three epochs. -/
example : ∃ t' r s' w rs, trSelf.selfInfluence lib ⟨.l2, some 1⟩ ⟨some 3, 1⟩ 2 twoBatches = .ok (t', r) ∧
    computeSelf lib st idsUVW (.dict (logB .cpu [7, -2, 4])) true .auto none (some 1) = .ok (s', w) ∧ t'.computed = rs ∧ SelfJoined rs none w := by
  obtain ⟨t', r, h⟩ := isOk (x := trSelf.selfInfluence lib ⟨.l2, some 1⟩ ⟨some 3, 1⟩ 2 twoBatches) (by decide +kernel)
  obtain ⟨s', w, hw⟩ := isOk (x := computeSelf lib st idsUVW (.dict (logB .cpu [7, -2, 4])) true .auto none (some 1)) (by decide +kernel)
  obtain ⟨rs, h1, h2⟩ := C114_lightning_partial (sqrt := Rat.sqrt) (lim := ⟨some 3, 1⟩) rfl (by decide) (by decide) st_run st_noEk (calls := []) (fun c hc => by cases hc) rfl h
    hw twoBatches_ok (labB rfl) batches_lab
  exact ⟨t', r, s', w, rs, h, hw, by simpa using h1, h2⟩

/-- **C114 fails**: self-influences are computed, but neither returned nor kept. -/
theorem C114_refuted : ¬ ∀ (a : HFArgs Rat) (initFromLog : Bool) (s : Scheduler) (c c' : HFSelf Rat) (data : List (Micro Rat)) (r : Option (SelfResult Rat)),
    c.selfInfluence lib a initFromLog s data = .ok (c', r) → c.computed = [] → c'.computed ≠ [] → r.isSome = true ∨ c'.obj.selfScores.isSome = true := by
  intro hall
  obtain ⟨s, c', r, s', w, rs, hs, h, hw, h1, h2⟩ := hfSelf_instance
  have hne : c'.computed ≠ [] := by
    rintro he
    rw [h1] at he
    subst he
    obtain ⟨_, -, w1, -⟩ := computeSelf_ok hw (labB rfl)
    have := h2.1
    rw [w1] at this
    cases this
  obtain ⟨e1, e2, -⟩ := C114_hf_never h
  rcases hall _ _ _ _ _ _ _ h rfl hne with e | e
  · rw [e1] at e; cases e
  · rw [e2] at e; cases e

end Logix.ExInfl
