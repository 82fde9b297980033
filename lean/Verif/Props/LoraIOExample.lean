/-
C100: examples and counterexample.
-/
import Verif.Props.LoraIO
import Verif.Props.LoraExample

namespace Logix
namespace ExLoraIO
open ExWatch ExLora

def logDir : PyStr := ['l']
def otherDir : PyStr := ['m']

/-- Random initialisation that makes all entries `x`. -/
def lib (x : ℚ) : LoraLib ℚ := ⟨fun _ _ => x, fun _ => .error .runtimeError⟩

/-- A new session for the model with two linear layers. -/
def fresh (dir : PyStr) (dirs : PyStr → RunDir ℚ) : LRun ℚ :=
  ⟨two, none, .fresh, LState.init, ⟨nRandom, 1, false, none⟩, none, dir, dirs⟩

def noDirs : PyStr → RunDir ℚ := fun _ => ⟨none, none, ⟨[], none⟩⟩

def get (r : Py (LRun ℚ)) : LRun ℚ :=
  match r with
  | .ok s => s
  | .error _ => fresh [] noDirs

def good (r : Py (LRun ℚ)) : Bool :=
  match r with
  | .ok _ => true
  | .error _ => false

theorem good_get {r : Py (LRun ℚ)} (h : good r = true) : r = .ok (get r) := by
  cases r with
  | ok s => rfl
  | error e => cases h

/-- The first session: `watch(model)`, `add_lora()`, `finalize()`. -/
def one : LRun ℚ := get ((fresh logDir noDirs).watch 0 none none)
def oneLora : LRun ℚ := get (one.addLora (lib 1) true {})
def oneEnd : LRun ℚ := get oneLora.finalize

/-- The second session, a new process with the disk as the first one left it: `watch(model)`, `initialize_from_log()`. -/
def next : LRun ℚ := get ((fresh logDir oneEnd.dirs).watch 0 none none)
def nextLora : LRun ℚ := get (next.initializeFromLog (lib 2) true none none)

/-- The second session with another log directory that has the same configuration. -/
def other : LRun ℚ := get ((fresh otherDir (fun d => if d = otherDir then { oneEnd.dirs logDir with lora := none } else oneEnd.dirs d)).watch 0 none none)

theorem ok_one : (fresh logDir noDirs).watch 0 none none = .ok one := good_get (by decide +kernel)
theorem ok_oneLora : one.addLora (lib 1) true {} = .ok oneLora := good_get (by decide +kernel)
theorem ok_oneEnd : oneLora.finalize = .ok oneEnd := good_get (by decide +kernel)
theorem ok_next : (fresh logDir oneEnd.dirs).watch 0 none none = .ok next := good_get (by decide +kernel)
theorem ok_nextLora : next.initializeFromLog (lib 2) true none none = .ok nextLora := good_get (by decide +kernel)

theorem two_good : GoodModel two 0 := by
  refine ⟨two_wf, ?_, two_root, by decide⟩
  intro p m hm
  match p, hm with
  | 0, hm => cases hm; exact ⟨by decide, by simp⟩
  | 1, hm => cases hm; exact ⟨by decide, by intro k i h; simp at h; rw [h.1]; decide⟩
  | 2, hm => cases hm; exact ⟨by decide, by intro k i h; simp at h; rw [h.1]; decide⟩
  | n + 3, hm => simp [two] at hm

theorem watched_good {s s' : LRun ℚ} (hs : s.heap = two) (h : s.watch 0 none none = .ok s') : GoodModel s'.heap 0 ∧ SameModel two s'.heap := by
  obtain ⟨hv, _⟩ := LRun.watch_spec h
  rw [hs] at hv
  have := hv.model
  exact ⟨⟨this.wf two_good.model, this.wfParams two_good.params, fun h => two_good.container (this.leaf.2 h), by rw [← this.1]; decide⟩, this⟩

theorem one_good : GoodModel one.heap 0 := (watched_good rfl ok_one).1
theorem one_two : SameModel two one.heap := (watched_good rfl ok_one).2
theorem next_two : SameModel two next.heap := (watched_good rfl ok_next).2

/-- The name `a.logix_lora_A.weight`. -/
def nEnc : PyStr := dotted [na, nA, nWeight]

example : (oneLora.heap.loraDict 0).length = 6 := by decide +kernel

/-- C100 is false for the code. First session: `watch`, `add_lora`, `finalize`. Second session with the same model, log directory and filters: `watch`,
`initialize_from_log`. The LoRA parameters are other ones, and the ones of the first session are gone from the disk. -/
theorem C100_refuted : ¬ ∀ (L₁ L₂ : LoraLib ℚ) (s₁ s₁' s₁'' s₂ s₂' : LRun ℚ) (root : Nat), s₁.model = some root → GoodModel s₁.heap root →
    s₁.addLora L₁ true {} = .ok s₁' → s₁'.finalize = .ok s₁'' → s₂.dirs = s₁''.dirs → s₂.logDir = s₁''.logDir → SameModel s₁.heap s₂.heap → s₂.model = some root →
    s₁.handler = none → s₂.handler = none → s₂.watched.typeFilter = s₁.watched.typeFilter → s₂.watched.nameFilter = s₁.watched.nameFilter →
    s₂.initializeFromLog L₂ true none none = .ok s₂' → SameLora s₁'.heap s₂'.heap root := by
  intro H
  have hs := H (lib 1) (lib 2) one oneLora oneEnd next nextLora 0 (by decide +kernel) one_good ok_oneLora ok_oneEnd
    ((LRun.watch_spec ok_next).2.1) (by decide +kernel) (one_two.symm.trans next_two) (by decide +kernel) (by decide +kernel) (by decide +kernel)
    (by decide +kernel) (by decide +kernel) ok_nextLora
  have hm : one.model = some 0 := by decide +kernel
  obtain ⟨h1, h2, x, _⟩ := addLora_layers hm ok_oneLora
  have w := x.wf one_good
  have w1 := x.final.model.wf w.1
  have hp : ParamIs oneLora.heap 0 nEnc [1, 1] [1] := by
    rw [paramIs_iff w1]
    exact ⟨2, ⟨⟨.cpu, [1, 1], [1], rfl⟩, false⟩, by decide +kernel, by decide +kernel, rfl, rfl⟩
  have hp2 := (hs nEnc (by decide +kernel) _ _).1 hp
  have w2 : WFModel nextLora.heap := by
    obtain ⟨c, t, t', e1, e2, e3, e4⟩ := initializeFromLog_steps (root := 0) (by decide +kernel) (by decide +kernel) (by decide +kernel) ok_nextLora
    obtain ⟨k1, k2, y, _⟩ := addLora_layers (s₁ := { next with cfg := c }) (root := 0) (by show next.model = some 0; decide +kernel) e2
    have g := y.wf (show GoodModel next.heap 0 from (watched_good rfl ok_next).1)
    rw [e4]
    exact (loadPath_same e3).wf (y.final.model.wf g.1)
  rw [paramIs_iff w2] at hp2
  obtain ⟨i, p, a1, a2, a3, a4⟩ := hp2
  have key : ∀ e ∈ nextLora.heap.stateItems 0, e.1 = nEnc → (nextLora.heap.params[e.2]?).map (fun p => p.val.data) ≠ some [1] := by decide +kernel
  refine key _ a1 rfl ?_
  show (nextLora.heap.params[i]?).map (fun p => p.val.data) = _
  rw [a2, Option.map_some, a4]

/-- What the second session ends with: its own random weights, in the model and on the disk. -/
example : (Dict.get? (nextLora.heap.loraDict 0) nEnc).map Tensor.data = some [2] := by decide +kernel
example : ((nextLora.dirs logDir).lora.bind fun sd => (Dict.get? sd nEnc).map Tensor.data) = some [2] := by decide +kernel

/-- With `add_lora(lora_path=log_dir)` the weights are restored. -/
def nextArgs : LRun.Args := { loraPath := some logDir }
theorem ok_add : next.addLora (lib 2) true nextArgs = .ok (get (next.addLora (lib 2) true nextArgs)) := good_get (by decide +kernel)
example : SameLora oneLora.heap (get (next.addLora (lib 2) true nextArgs)).heap 0 :=
  C100_add_partial (by decide +kernel) (by decide +kernel) one_good ok_oneLora (one_two.symm.trans next_two)
    ⟨by decide +kernel, by decide +kernel, by decide +kernel, by decide +kernel, by decide +kernel⟩ logDir rfl (by
      rw [(LRun.watch_spec ok_next).2.1]
      show (oneEnd.dirs logDir).lora = (oneLora.dirs oneLora.logDir).lora
      decide +kernel) ok_add
example : (Dict.get? ((get (next.addLora (lib 2) true nextArgs)).heap.loraDict 0) nEnc).map Tensor.data = some [1] := by decide +kernel

/-- With another log directory and `initialize_from_log(lora_path=…)` they are, too. -/
theorem ok_other : (fresh otherDir (fun d => if d = otherDir then { oneEnd.dirs logDir with lora := none } else oneEnd.dirs d)).watch 0 none none = .ok other :=
  good_get (by decide +kernel)
theorem ok_otherLora : other.initializeFromLog (lib 2) true none (some logDir) = .ok (get (other.initializeFromLog (lib 2) true none (some logDir))) :=
  good_get (by decide +kernel)
example : SameLora oneLora.heap (get (other.initializeFromLog (lib 2) true none (some logDir))).heap 0 :=
  C100_other_partial (by decide +kernel) (by decide +kernel) one_good ok_oneLora (one_two.symm.trans (watched_good rfl ok_other).2) (by decide +kernel)
    ⟨nRandom, 1, false, none⟩ (by decide +kernel) ⟨by decide +kernel, by decide +kernel, by decide +kernel, by decide +kernel, by decide +kernel⟩ (by decide +kernel)
    (by decide +kernel) (by decide +kernel) ok_otherLora

/-- With the model of the first session, after its LoRA weights were changed, they are restored. -/
def again : LRun ℚ := { oneEnd with heap := oneEnd.heap.mapParam 2 fun t => Tensor.zeros t.dev t.shape }
theorem ok_again : again.initializeFromLog (lib 2) true none none = .ok (get (again.initializeFromLog (lib 2) true none none)) := good_get (by decide +kernel)
example : SameLora oneLora.heap (get (again.initializeFromLog (lib 2) true none none)).heap 0 :=
  C100_wrapped_partial (by decide +kernel) (by decide +kernel) one_good ok_oneLora ⟨by decide +kernel, by decide +kernel⟩ (by decide +kernel)
    (by decide +kernel) (by decide +kernel) ok_again
example : (Dict.get? (again.heap.loraDict 0) nEnc).map Tensor.data = some [0] := by decide +kernel
example : (Dict.get? ((get (again.initializeFromLog (lib 2) true none none)).heap.loraDict 0) nEnc).map Tensor.data = some [1] := by decide +kernel

/-- Whatever the file contains, the second session ends in the same state. -/
example (sd : Dict PyStr (Tensor ℚ)) : (next.withFile sd).initializeFromLog (lib 2) true none none = .ok nextLora :=
  C100_overwrites (root := 0) (by decide +kernel) (by decide +kernel) rfl (oneLora.heap.loraDict 0) sd (by
    rw [(LRun.watch_spec ok_next).2.1]
    decide +kernel) (by decide +kernel) (by decide +kernel) ok_nextLora

end ExLoraIO
end Logix
