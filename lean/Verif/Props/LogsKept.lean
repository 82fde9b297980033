/-
C120: influence computations leave the logs they are given alone. The property is false: the target log is moved to the device of the source.
-/
import Verif.Model.InfluenceEffects
import Verif.Props.DevicesExample

namespace Logix
variable {K : Type}

theorem values_logOnDev (t : GLog K) (c : Dev) : Spec.values (logOnDev t c) = Spec.values t := by
  unfold Spec.values logOnDev
  rw [List.map_map]
  apply List.map_congr_left
  intro p _
  simp [Function.comp_def]

theorem syncDevice_values {d t u : GLog K} (h : syncDevice d t = .ok u) : u = t ∨ ∃ m k x, logItem d m k = .ok x ∧ u = logOnDev t x.dev := by
  rw [syncDevice_head] at h
  split at h
  · cases h; exact .inl rfl
  · split at h
    · cases h
    · next x hx => cases h; exact .inr ⟨_, _, x, hx, rfl⟩

/-- **C120 (numbers).** Whatever the call does, and whether it returns or raises, the target log has the same modules, types of entries, shapes
and numbers afterwards. -/
theorem C120_values_partial [Field K] (L : Lib K) (s : LState K) (src : LogArg K) (t : GLog K) (mode : Mode) (pre : Bool) (hessian : Hess)
    (damping : Option K) : Spec.values (targetAfter L s src t mode pre hessian damping) = Spec.values t := by
  unfold targetAfter
  split
  · rfl
  · split
    · split
      · next u hu =>
        rcases syncDevice_values hu with rfl | ⟨_, _, x, -, rfl⟩
        · rfl
        · exact values_logOnDev t x.dev
      · rfl
    · rfl

/-- **C120 (one device).** If both logs are on one device, the target log is unchanged. -/
theorem C120_one_device_partial [Field K] (L : Lib K) (s : LState K) {dev : Dev} {d t : GLog K} (hn : (Dict.keys d).Nodup) (hd : Spec.OneDev dev d)
    (ht : Spec.OneDev dev t) (mode : Mode) (pre : Bool) (hessian : Hess) (damping : Option K) :
    targetAfter L s (.dict d) t mode pre hessian damping = t := by
  unfold targetAfter
  split
  · rfl
  · split
    · next s' p hp =>
      have hone : Spec.OneDev dev p := by
        cases pre with
        | false => cases hp; exact hd
        | true => exact precondition_oneDev hn hd hp
      split
      · next u hu =>
        rcases syncDevice_values hu with rfl | ⟨_, _, x, hx, rfl⟩
        · rfl
        · rw [grad_oneDev hone hx]
          exact logOnDev_of_oneDev ht
      · rfl
    · rfl

/-- **C120 (later calls).** The change does not matter for later computations with the log as target and source logs on one
device: with the log as the call left it, scores in mode dot are those with the log as it was before. -/
theorem C120_later_partial [Field K] (L L' : Lib K) (sqrt : K → K) (s s' : LState K) (src : LogArg K) (t : GLog K) (mode : Mode) (pre : Bool)
    (hessian : Hess) (damping : Option K) (srcIds tgtIds : List PyStr) {dev : Dev} {d : GLog K} (hn : (Dict.keys d).Nodup) (hd : Spec.OneDev dev d)
    (pre' : Bool) (hessian' : Hess) (groups : Option (List PyStr)) (damping' : Option K) :
    (computeInfluence L' sqrt s' srcIds (.dict d) tgtIds (.dict (targetAfter L s src t mode pre hessian damping)) .dot pre' hessian' groups damping').map Prod.snd =
      (computeInfluence L' sqrt s' srcIds (.dict d) tgtIds (.dict t) .dot pre' hessian' groups damping').map Prod.snd :=
  C119_influence_partial L' sqrt s' srcIds tgtIds hn hd hd rfl (C120_values_partial L s src t mode pre hessian damping) pre' hessian' groups damping'

namespace ExInfl

/-- **C120 is false**: a target log on a GPU is on the CPU after a computation with a source log on the CPU. -/
theorem C120_refuted : ¬ ∀ (L : Lib Rat) (s : LState Rat) (d t : GLog Rat) (mode : Mode) (pre : Bool) (hessian : Hess) (damping : Option Rat),
    Spec.EighOk L → Spec.InverseOk L → targetAfter L s (.dict d) t mode pre hessian damping = t := by
  intro h
  have := h lib st log1 log2 .dot true .auto (some 1) eighOk inverseOk
  revert this
  decide +kernel

/-- Both logs on a GPU: nothing changes. -/
example (mode : Mode) (pre : Bool) (c : Option Rat) : targetAfter lib st (.dict (logOnDev log1 (.cuda 0))) log2 mode pre .auto c = log2 :=
  C120_one_device_partial lib st (dev := .cuda 0) (by decide +kernel) (oneDev_logOnDev _ _) (by simp only [Spec.OneDev]; decide +kernel) mode pre .auto c

/-- The numbers of the target log that was moved, and later scores with it. -/
example : Spec.values (targetAfter lib st (.dict log1) log2 .dot true .auto (some 1)) = Spec.values log2 := C120_values_partial _ _ _ _ _ _ _ _

example : (computeInfluence lib id st ids1 (.dict gpu1) ids2 (.dict (targetAfter lib st (.dict log1) log2 .dot true .auto (some 1))) .dot true .auto none none).map Prod.snd =
    (computeInfluence lib id st ids1 (.dict gpu1) ids2 (.dict log2) .dot true .auto none none).map Prod.snd :=
  C120_later_partial lib lib id st st (.dict log1) log2 .dot true .auto (some 1) ids1 ids2 (dev := .cuda 1) (by decide +kernel) (oneDev_logOnDev _ _) true .auto none none

end ExInfl
end Logix
