/-
C144: a setting that is not honoured, and concrete sessions that meet the hypotheses of the theorems.
-/
import Verif.Props.LogDtype
import Verif.Props.SampleAloneExample

namespace Logix.ExSess
open Spec Sess

/-- The environment of the session whose logger converts to float32, and to float16. -/
def E32 : SEnv Rat := { E with dtype := some .float32 }
def E16 : SEnv Rat := { E with dtype := some .float16 }

theorem first_existing : OnlyExisting 0 first := by
  simp [first, run, gradLog, OnlyExisting, tensorsOf]

/-- **C144 is false.** `log_dtype: half` gives float32. -/
theorem C144_refuted : ¬ LogsIn Rat (torchNames.map Prod.fst) := by
  intro h
  have h1 := (h "half" .float16 (by decide) (by decide) E32 (by decide +kernel) 1 1000 [] first first_existing).1 na [(LogType.name .grad, .own 0)]
    (LogType.name .grad) (.own 0) (by decide +kernel) (by decide +kernel)
  obtain ⟨o, h1, h2⟩ := h1
  have h3 : ((runHistory E32 first (Sess.init 1 1000 [])).obj (.own 0)).map TObj.dtype = some .float32 := by decide +kernel
  rw [h1] at h3
  rw [Option.map_some, h2] at h3
  exact absurd h3 (by decide)

/-- With `float16` the hypotheses of the partial theorem are met, and there is something in the log. -/
example : getDtype (.str "float16".toList) = E16.dtype.map .np ∧ OnlyExisting 0 first ∧ ("float16", TorchDType.np .float16) ∈ torchNames ∧
    (runHistory E16 first s₀).log = [(na, [(LogType.name .grad, .own 2)])] ∧
    (((runHistory E16 first s₀).obj (.own 2)).map TObj.dtype) = some .float16 := by
  refine ⟨by decide +kernel, first_existing, by decide, by decide +kernel, by decide +kernel⟩

/-- The session of `aloneRun`, with gradients stored as float16. -/
def sHalf : Sess Rat := runHistory E16 saveConf s₀
def tHalf : Sess Rat × Option PyErr := SAct.each (SOp.run E16) (saveCtx ++ saveBody.map (shift 1) ++ [.finalize dir₀]) sHalf
def halfRun : LoggingRun Rat := ⟨E16, dec, .float16, saveConf, 1, 1000, [], saveCtx, [i1], none, saveBody, saveMods, dir₀, tHalf.1, Dict.keys tHalf.1.fs⟩

theorem sHalf_ok : OnlyStatistics sHalf.opt ∧ sHalf.opt.grad.head? = some .log ∧ (∀ nm ∈ [na, nb], Watches sHalf (saveMods nm) nm) ∧
    sHalf.paths = gradOrder [na, nb] ∧ sHalf.user.length = 1 := by
  unfold Watches OnlyStatistics; decide +kernel

theorem tHalf_ok : tHalf.2 = none := by decide +kernel

theorem tHalf_run : SAct.each (SOp.run E16) (saveCtx ++ saveBody.map (shift (runHistory E16 saveConf (Sess.init 1 1000 [])).user.length) ++ [.finalize dir₀])
    (runHistory E16 saveConf (Sess.init 1 1000 [])) = (tHalf.1, none) := by
  rw [show (runHistory E16 saveConf (Sess.init 1 1000 [])).user.length = 1 from sHalf_ok.2.2.2.2]
  show tHalf = _
  rw [← tHalf_ok]

theorem half_storable : ∀ u ∈ savedBatches (Saving.after (saveConf ++ saveCtx)) (fun _ => ⟨none, [], [], []⟩) saveBody, ∀ nm ∈ [na, nb],
    Storable ⟨E16.encode, dec⟩ .float16 (allocs saveBody) (E16.kind (saveMods nm)) (u.2 (saveMods nm)) u.1.length [1, 1] := by
  have g21 : BatchGrad (allocs saveBody) .linear [(3, 5)] (grd 21).val := one_grad (x := 3) (g := 7) (by decide +kernel) (by decide +kernel) (by decide +kernel)
  have g15 : BatchGrad (allocs saveBody) .linear [(3, 2)] (grd 15).val := one_grad (x := 3) (g := 5) (by decide +kernel) (by decide +kernel) (by decide +kernel)
  have g10 : BatchGrad (allocs saveBody) .linear [(0, 2)] (grd 10).val := one_grad (x := 2) (g := 5) (by decide +kernel) (by decide +kernel) (by decide +kernel)
  intro u hu nm hm
  have := List.mem_map_of_mem (f := fun u => (u.1, u.2 0, u.2 1)) hu
  rw [saved_eq] at this
  simp only [List.mem_cons, List.not_mem_nil, or_false, Prod.mk.injEq] at this hm
  rcases this with ⟨h1, h2, h3⟩ | ⟨h1, h2, h3⟩ <;> rcases hm with rfl | rfl
  · rw [show saveMods na = 0 from rfl, h1, h2]; exact storable_of two_grads rfl (by decide +kernel)
  · rw [show saveMods nb = 1 from rfl, h1, h3]; exact storable_of g21 rfl (by decide +kernel)
  · rw [show saveMods na = 0 from rfl, h1, h2]; exact storable_of g15 rfl (by decide +kernel)
  · rw [show saveMods nb = 1 from rfl, h1, h3]; exact storable_of g10 rfl (by decide +kernel)

seal tHalf

theorem half_ok : halfRun.Completes [na, nb] (fun _ => [1, 1]) where
  configures := saveConf_ok
  context := .with ..
  logs := saveBody_ok
  dtype := Or.inl rfl
  stats := sHalf_ok.1
  grad := sHalf_ok.2.1
  watches := sHalf_ok.2.2.1
  nodup := by decide
  paths := sHalf_ok.2.2.2.1
  dims := by intro _ _; simp
  some := ⟨na, by simp, by decide⟩
  tidy := saveTidy
  storable := half_storable
  ids := alone_ids
  files := by show ([] : List PyStr).Nodup; exact List.nodup_nil
  clean := by intro f hf; cases hf
  workers := Nat.le_refl 1
  runs := by dsimp only [halfRun, LoggingRun.before]; exact tHalf_run
  listing := by dsimp only [halfRun]; exact List.Perm.refl _

/-- The directory theorem applies to it. -/
example := C144_stored_partial "float16" .float16 (by decide) (by decide) halfRun (by decide +kernel) [na, nb] _ half_ok

end Logix.ExSess
