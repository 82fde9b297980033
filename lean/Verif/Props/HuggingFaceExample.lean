/-
The Hugging Face integration on concrete logs: cases that meet the hypotheses of C90 and C91, and a counterexample to C91.
-/
import Verif.Props.HuggingFace
import Verif.Props.TilesExample

namespace Logix.ExInfl
open Logix

/-- Two micro-batches, and a step after the second. -/
def twoMicro : List (Micro Rat) := [⟨[['x'], ['y']], logB .cpu [5, 1], false⟩]
def lastMicro : Micro Rat := ⟨[['z']], logB .cpu [2], true⟩
/-- A micro-batch after the last step. -/
def moreMicro : List (Micro Rat) := [⟨[['q']], logB .cpu [9], false⟩]

def hfArgs (mode : Mode) : HFArgs Rat := ⟨mode, some 1, some [gB]⟩

abbrev cb : HFCallback Rat := ⟨.new st, []⟩

theorem logB_types (dev : Dev) (l : List Rat) : Spec.DictTypes (logB dev l) := by
  intro x hx
  simp only [logB, List.mem_cons, List.not_mem_nil, or_false] at hx
  subst hx
  simp [Dict.keys]

theorem micro_ok : ∀ b ∈ cb.acc ++ (twoMicro ++ [lastMicro]).map Spec.microLog, Spec.Labelled b.1 b.2 ∧ Dict.keys b.2 = Dict.keys (logB .cpu [5, 1, 2]) ∧
    Spec.DictTypes b.2 := by
  intro b hb
  simp only [twoMicro, lastMicro, List.cons_append, List.nil_append, List.map_cons, List.map_nil, Spec.microLog, List.mem_cons, List.not_mem_nil, or_false] at hb
  rcases hb with rfl | rfl <;> exact ⟨labB rfl, rfl, logB_types _ _⟩

theorem batches_lab : ∀ b ∈ twoBatches, Spec.Labelled b.1 b.2 ∧ Dict.keys b.2 = Dict.keys (logB .cpu [7, -2, 4]) := fun b hb => ⟨twoBatches_lab b hb, twoBatches_keys b hb⟩

/-- C90, mode l2: the scores of the three samples up to the step; the fourth sample is kept. -/
example : ∃ c' s' w, cb.influenceBatches lib Rat.sqrt (hfArgs .l2) loader2 (twoMicro ++ [lastMicro] ++ moreMicro) = .ok c' ∧
    computeInfluence lib Rat.sqrt st idsXYZ (.dict (logB .cpu [5, 1, 2])) idsUVW (.dict (logB .cpu [7, -2, 4])) .l2 true .auto (some [gB]) (some 1) = .ok (s', w) ∧
    Spec.SavedAre c'.infl (some [gB]) w ∧ c'.acc = [([['q']], logB .cpu [9])] := by
  obtain ⟨c', h⟩ := isOk₁ (x := cb.influenceBatches lib Rat.sqrt (hfArgs .l2) loader2 (twoMicro ++ [lastMicro] ++ moreMicro)) (by decide +kernel)
  obtain ⟨s', w, hw⟩ := isOk (x := computeInfluence lib Rat.sqrt st idsXYZ (.dict (logB .cpu [5, 1, 2])) idsUVW (.dict (logB .cpu [7, -2, 4])) .l2 true .auto (some [gB])
    (some 1)) (by decide +kernel)
  obtain ⟨h1, h2⟩ := C90_accumulation (a := hfArgs .l2) (.new st) st_run st_noEk (calls := []) (fun c hc => by cases hc) rfl h rfl (by simp [moreMicro]) hw
    (by simp [twoBatches]) twoSrcs_ok twoBatches_ok (labB rfl) (labB rfl) micro_ok batches_lab (.inr rfl)
  exact ⟨c', s', w, h, hw, h1, h2⟩

/-- The saved scores, as numbers. -/
example : savedData ((cb.influenceBatches lib Rat.sqrt (hfArgs .l2) loader2 (twoMicro ++ [lastMicro] ++ moreMicro)).map (·.infl)) gB =
    some [7 / 4, -2, 2, -35 / 12, -2 / 3, -2 / 3, -7 / 4, -1, 0] := by decide +kernel

/-! ### C91 -/

/-- C91 for `hessian="raw", save="grad"`: `influence` saves the scores of the three samples. -/
example : ∃ s c' s' w, Scheduler.init "none".toList "raw".toList "grad".toList = .ok s ∧
    cb.influenceEvents lib Rat.sqrt (hfArgs .dot) loader2 (twoMicro ++ [lastMicro]) (hfTrain true .influence s).1 = .ok c' ∧
    computeInfluence lib Rat.sqrt st idsXYZ (.dict (logB .cpu [5, 1, 2])) idsUVW (.dict (logB .cpu [7, -2, 4])) .dot true .auto (some [gB]) (some 1) = .ok (s', w) ∧
    Spec.SavedAre c'.infl (some [gB]) w := by
  obtain ⟨s, hs⟩ := isOk₁ (x := Scheduler.init "none".toList "raw".toList "grad".toList) rfl
  have hev := C91_influence_partial (hessian := "raw") (save := "grad") (by simp [Spec.ValidSchedule]) (by decide) hs true (mode := .influence) (by simp)
  obtain ⟨c', h⟩ := isOk₁ (x := cb.influenceEvents lib Rat.sqrt (hfArgs .dot) loader2 (twoMicro ++ [lastMicro]) (hfTrain true .influence s).1) (by
    rw [congrArg Prod.fst hev]; dsimp only; clear hev hs; clear s; decide +kernel)
  obtain ⟨s', w, hw⟩ := isOk (x := computeInfluence lib Rat.sqrt st idsXYZ (.dict (logB .cpu [5, 1, 2])) idsUVW (.dict (logB .cpu [7, -2, 4])) .dot true .auto (some [gB])
    (some 1)) (by decide +kernel)
  exact ⟨s, c', s', w, hs, h, hw, C91_scores_partial (a := hfArgs .dot) (hessian := "raw") (save := "grad") (by simp [Spec.ValidSchedule]) (by decide) hs true (.new st) rfl
    st_run st_noEk (calls := []) (fun c hc => by cases hc) rfl h rfl hw (by simp [twoBatches]) twoSrcs_ok twoBatches_ok (labB rfl) (labB rfl)
    (fun b hb => micro_ok _ (List.mem_append_right _ (List.mem_map_of_mem hb))) batches_lab (.inl rfl)⟩

/-- **C91 is false**: with `hessian="ekfac"`, `influence` makes two passes over the data, so every sample is scored and saved twice. And for every schedule a second
`extract_log` raises StopIteration instead of running its epochs. -/
theorem C91_refuted : ¬ ((∀ hessian save, Spec.ValidSchedule "none" hessian save → ∀ s, Scheduler.init "none".toList hessian.toList save.toList = .ok s →
      ∀ (data : List (Micro Rat)) (a : HFArgs Rat) (loader) (c c' : HFCallback Rat) (r : RRec Rat), c.acc = [] → c.infl.saved = none → (∀ b ∈ data, b.step = true) →
        c.influenceEvents lib Rat.sqrt a loader data (hfTrain false .influence s).1 = .ok c' → c'.infl.saved = some r →
        (c'.infl.heap.deref r).srcIds = data.flatMap (·.ids)) ∨
    ∀ hessian save, Spec.ValidSchedule "none" hessian save → ∀ s, Scheduler.init "none".toList hessian.toList save.toList = .ok s →
      (hfTrain false .log (hfTrain false .log s).2.1).2.2 = none) := by
  rintro (h | h)
  · obtain ⟨s, hs⟩ := isOk₁ (x := Scheduler.init "none".toList "ekfac".toList "grad".toList) rfl
    have hlen : s.len = 2 := by
      cases hs
      rfl
    have hev : (hfTrain false .influence s).1 = [.call (.setup { grad := some [.name "log".toList] }), .call (.save false), .batches 0, .batches 1] := by
      unfold hfTrain
      rw [hlen]
      rfl
    obtain ⟨c', r, h1, h2, h3⟩ : ∃ c' r, cb.influenceEvents lib Rat.sqrt (hfArgs .dot) loader2 [lastMicro]
        [.call (.setup { grad := some [.name "log".toList] }), .call (.save false), .batches 0, .batches 1] = .ok c' ∧ c'.infl.saved = some r ∧
        (c'.infl.heap.deref r).srcIds = [['z'], ['z']] := by
      have hd : ((match cb.influenceEvents lib Rat.sqrt (hfArgs .dot) loader2 [lastMicro]
          [.call (.setup { grad := some [.name "log".toList] }), .call (.save false), .batches 0, .batches 1] with
        | .ok c' => c'.infl.saved.map fun r => (c'.infl.heap.deref r).srcIds
        | .error _ => none) = some [['z'], ['z']]) := by decide +kernel
      split at hd
      · next c' hc =>
        cases hr : c'.infl.saved with
        | none => rw [hr] at hd; cases hd
        | some r => rw [hr] at hd; exact ⟨c', r, hc, hr, Option.some.inj hd⟩
      · cases hd
    have := h "ekfac" "grad" (by simp [Spec.ValidSchedule]) s hs [lastMicro] (hfArgs .dot) loader2 cb c' r rfl rfl (by simp [lastMicro]) (by rw [hev]; exact h1) h2
    rw [h3] at this
    cases this
  · obtain ⟨s, hs⟩ := isOk₁ (x := Scheduler.init "none".toList "raw".toList "grad".toList) rfl
    have := h "raw" "grad" (by simp [Spec.ValidSchedule]) s hs
    rw [(C91_again (by simp [Spec.ValidSchedule]) hs false false).2] at this
    cases this

end Logix.ExInfl
