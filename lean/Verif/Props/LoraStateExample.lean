/-
C139: an example.
-/
import Verif.Props.LoraState
import Verif.Props.InflExample2

namespace Logix
namespace ExLoraIO

/-- Operations on the statistics of a run. -/
def ops (s : LRun ℚ) (l : List (StateOp ℚ)) : Py (LRun ℚ) := (runOps ExInfl.lib s.st l).map fun st => { s with st := st }

theorem ops_happens {R : LoraLib ℚ} : ∀ {l : List (StateOp ℚ)} {s t : LRun ℚ}, ops s l = .ok t → Relation.ReflTransGen (Spec.Happens ExInfl.lib R) s t
  | [], s, t, h => by
    obtain rfl := Except.ok.inj h
    exact .refl
  | o :: l, s, t, h => by
    unfold ops runOps at h
    cases h1 : stepOp ExInfl.lib s.st o with
    | error e => rw [h1] at h; cases h
    | ok st =>
      rw [h1] at h
      exact .head (.between _ _ (.state _ o st h1)) (ops_happens (s := { s with st := st }) h)

/-- The first run: `watch`, `add_lora`, some batches, `finalize`. -/
def fitted : LRun ℚ := get (ops oneLora ExInfl.covOps)
def fittedEnd : LRun ℚ := get fitted.finalize
theorem ok_fitted : ops oneLora ExInfl.covOps = .ok fitted := good_get (by decide +kernel)
theorem ok_fittedEnd : fitted.finalize = .ok fittedEnd := good_get (by decide +kernel)

/-- The second run, with a log directory of its own that has a configuration only: `watch`, `initialize_from_log(state_path, lora_path)`. -/
def disk : PyStr → RunDir ℚ := fun d => if d = otherDir then ⟨none, some ⟨nRandom, 1, false, none⟩, ⟨[], none⟩⟩ else fittedEnd.dirs d
def second : LRun ℚ := get ((fresh otherDir disk).watch 0 none none)
def secondEnd : LRun ℚ := get (second.initializeFromLog (lib 2) true (some logDir) (some logDir))
theorem ok_second : (fresh otherDir disk).watch 0 none none = .ok second := good_get (by decide +kernel)
theorem ok_secondEnd : second.initializeFromLog (lib 2) true (some logDir) (some logDir) = .ok secondEnd := good_get (by decide +kernel)

/-- C139 for these runs; the second one has no LoRA layers before, and its answers are scores. -/
example : (∀ n ∈ fittedEnd.st.toSave, Dict.get? secondEnd.st.attrs n = Dict.get? fittedEnd.st.attrs n) ∧ nMean ∈ fittedEnd.st.toSave ∧
    nCov ∈ fittedEnd.st.toSave ∧ ∀ calls, Spec.answers ExInfl.lib Rat.sqrt secondEnd.st calls = Spec.answers ExInfl.lib Rat.sqrt fittedEnd.st calls :=
  C139_statistics ExInfl.lib (lib 1) (lib 2) (lib 2) Rat.sqrt
    ⟨fresh logDir noDirs, rfl, (Relation.ReflTransGen.single (.watch _ _ _ _ _ ok_one)).tail (.addLora _ _ _ _ ok_oneLora) |>.trans (ops_happens ok_fitted)⟩
    ok_fittedEnd ⟨fresh otherDir disk, rfl, .single (.watch _ _ _ _ _ ok_second)⟩ (by decide +kernel)
    (.inl ⟨rfl, by decide⟩) (by
      rw [(LRun.watch_spec ok_second).2.1]
      show (disk logDir).state = (fittedEnd.dirs logDir).state
      rfl) ok_secondEnd

example : second.heap.isLora 0 = false ∧ secondEnd.heap.isLora 0 = true := by decide +kernel
example : (ExInfl.firstData (Spec.answers ExInfl.lib Rat.sqrt secondEnd.st [ExInfl.callB]) ExInfl.kTotal).isSome = true := by decide +kernel

end ExLoraIO
end Logix
