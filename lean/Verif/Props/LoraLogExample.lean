/-
C132: a layer with two inputs and one output, and the bottleneck of its wrapper of rank one.
-/
import Verif.Props.LoraLog
import Verif.Props.SampleAloneExample

namespace Logix.ExLoraLog
open Spec Sess ExSess

def nB : PyStr := na ++ ['B']
def two (a b : Rat) : TObj Rat := ⟨⟨.cpu, [1, 2], [a, b], rfl⟩, .float32, false, true⟩
def encoder : Tensor Rat := ⟨.cpu, [1, 2], [1, 2], rfl⟩
def decoder : Tensor Rat := ⟨.cpu, [1, 1], [3], rfl⟩

def ctx : List (SOp Rat) := [.call [i1] none true, .enter]
/-- The layer gets (2, 3) and its output the gradient 5. -/
def fullBody : List (SOp Rat) := [.alloc (two 2 3), .alloc (out 1), .alloc (inp 5), .forward 0 0 1, .gradAt 1 2, .exit]
/-- The bottleneck gets 2 + 2 · 3 and its output the gradient 3 · 5. -/
def loraBody : List (SOp Rat) := [.alloc (inp 8), .alloc (out 0), .alloc (inp 15), .forward 0 0 1, .gradAt 1 2, .exit]

def fullConf : List (SOp Rat) := [gradLog, .watch [(na, 0)]]
def loraConf : List (SOp Rat) := [gradLog, .watch [(nB, 0)]]
def sFull : Sess Rat := runHistory E fullConf (Sess.init 1 1000 [])
def sLora : Sess Rat := runHistory E loraConf (Sess.init 1 1000 [])
def tFull : Sess Rat × Option PyErr := SAct.each (SOp.run E) (ctx ++ fullBody ++ [.finalize dir₀]) sFull
def tLora : Sess Rat × Option PyErr := SAct.each (SOp.run E) (ctx ++ loraBody ++ [.finalize dir₀]) sLora

def fullRun : LoggingRun Rat := ⟨E, dec, .float32, fullConf, 1, 1000, [], ctx, [i1], none, fullBody, fun _ => 0, dir₀, tFull.1, Dict.keys tFull.1.fs⟩
def loraRun : LoggingRun Rat := ⟨E, dec, .float32, loraConf, 1, 1000, [], ctx, [i1], none, loraBody, fun _ => 0, dir₀, tLora.1, Dict.keys tLora.1.fs⟩

theorem sFull_ok : OnlyStatistics sFull.opt ∧ sFull.opt.grad.head? = some .log ∧ (∀ nm ∈ [na], Watches sFull 0 nm) ∧ sFull.paths = gradOrder [na] ∧ sFull.user.length = 0 := by
  unfold Watches OnlyStatistics; decide +kernel
theorem sLora_ok : OnlyStatistics sLora.opt ∧ sLora.opt.grad.head? = some .log ∧ (∀ nm ∈ [nB], Watches sLora 0 nm) ∧ sLora.paths = gradOrder [nB] ∧ sLora.user.length = 0 := by
  unfold Watches OnlyStatistics; decide +kernel

theorem tFull_ok : tFull.2 = none := by decide +kernel
theorem tLora_ok : tLora.2 = none := by decide +kernel

theorem tFull_run : SAct.each (SOp.run E) (ctx ++ fullBody.map (shift (runHistory E fullConf (Sess.init 1 1000 [])).user.length) ++ [.finalize dir₀])
    (runHistory E fullConf (Sess.init 1 1000 [])) = (tFull.1, none) := by
  rw [show (runHistory E fullConf (Sess.init 1 1000 [])).user.length = 0 from sFull_ok.2.2.2.2]
  show tFull = _
  rw [← tFull_ok]
theorem tLora_run : SAct.each (SOp.run E) (ctx ++ loraBody.map (shift (runHistory E loraConf (Sess.init 1 1000 [])).user.length) ++ [.finalize dir₀])
    (runHistory E loraConf (Sess.init 1 1000 [])) = (tLora.1, none) := by
  rw [show (runHistory E loraConf (Sess.init 1 1000 [])).user.length = 0 from sLora_ok.2.2.2.2]
  show tLora = _
  rw [← tLora_ok]

theorem full_saved : ∃ u : List PyStr × (Nat → List (Nat × Nat)), fullRun.saved = [u] ∧ u.1 = [i1] ∧ u.2 0 = [(0, 2)] := ⟨_, rfl, by decide +kernel, by decide +kernel⟩
theorem lora_saved : ∃ u : List PyStr × (Nat → List (Nat × Nat)), loraRun.saved = [u] ∧ u.1 = [i1] ∧ u.2 0 = [(0, 2)] := ⟨_, rfl, by decide +kernel, by decide +kernel⟩

def grdFull : Tensor Rat := ⟨.cpu, [1, 1, 2], [10, 15], rfl⟩

theorem full_grad : BatchGrad (allocs fullBody) .linear [(0, 2)] grdFull := by
  refine ⟨[grdFull], .cons ⟨two 2 3, inp 5, by decide +kernel, by decide +kernel, by decide +kernel⟩ .nil, ?_⟩
  exact ⟨by simp, by simp, fun idx => by simp⟩
theorem lora_grad : BatchGrad (allocs loraBody) .linear [(0, 2)] (grd 120).val := by
  refine ⟨[(grd 120).val], .cons ⟨inp 8, inp 15, by decide +kernel, by decide +kernel, by decide +kernel⟩ .nil, ?_⟩
  exact ⟨by simp, by simp, fun idx => by simp⟩

seal tFull tLora

theorem full_ok : fullRun.Completes [na] (fun _ => [1, 2]) where
  configures := by
    show ∀ o ∈ fullConf, Configures o
    simp only [fullConf, gradLog, List.mem_cons, List.not_mem_nil, or_false, forall_eq_or_imp, forall_eq]
    exact ⟨trivial, trivial⟩
  context := .with ..
  logs := by
    intro o ho nm _
    replace ho : o ∈ fullBody := ho
    simp only [fullBody, List.mem_cons, List.not_mem_nil, or_false] at ho
    rcases ho with rfl | rfl | rfl | rfl | rfl | rfl <;> trivial
  dtype := Or.inr ⟨rfl, by show ∀ o ∈ allocs (fullConf ++ fullBody), o.dtype = .float32; decide +kernel⟩
  stats := sFull_ok.1
  grad := sFull_ok.2.1
  watches := sFull_ok.2.2.1
  nodup := by decide
  paths := sFull_ok.2.2.2.1
  dims := by intro _ _; simp
  some := ⟨na, by simp, by decide⟩
  tidy := by show Tidy false (ctx ++ fullBody); simp only [ctx, fullBody, List.cons_append, List.nil_append, Tidy]; trivial
  storable := by
    obtain ⟨u, hs, hu1, hu2⟩ := full_saved
    intro v hv nm _
    rw [hs, List.mem_singleton] at hv
    subst hv
    rw [show fullRun.mods nm = 0 from rfl, hu1, hu2]
    exact storable_of full_grad rfl (by decide +kernel)
  ids := by
    obtain ⟨u, hs, hu1, -⟩ := full_saved
    rw [hs]
    simp only [List.flatMap_cons, hu1]
    decide
  files := by show ([] : List PyStr).Nodup; exact List.nodup_nil
  clean := by intro f hf; cases hf
  workers := Nat.le_refl 1
  runs := by dsimp only [fullRun, LoggingRun.before]; exact tFull_run
  listing := by dsimp only [fullRun]; exact List.Perm.refl _

theorem lora_ok : loraRun.Completes ([na].map fun nm => nm ++ ['B']) (fun _ => [1, 1]) where
  configures := by
    show ∀ o ∈ loraConf, Configures o
    simp only [loraConf, gradLog, List.mem_cons, List.not_mem_nil, or_false, forall_eq_or_imp, forall_eq]
    exact ⟨trivial, trivial⟩
  context := .with ..
  logs := by
    intro o ho nm _
    replace ho : o ∈ loraBody := ho
    simp only [loraBody, List.mem_cons, List.not_mem_nil, or_false] at ho
    rcases ho with rfl | rfl | rfl | rfl | rfl | rfl <;> trivial
  dtype := Or.inr ⟨rfl, by show ∀ o ∈ allocs (loraConf ++ loraBody), o.dtype = .float32; decide +kernel⟩
  stats := sLora_ok.1
  grad := sLora_ok.2.1
  watches := sLora_ok.2.2.1
  nodup := by decide
  paths := sLora_ok.2.2.2.1
  dims := by intro _ _; simp
  some := ⟨nB, by simp [nB], by decide⟩
  tidy := by show Tidy false (ctx ++ loraBody); simp only [ctx, loraBody, List.cons_append, List.nil_append, Tidy]; trivial
  storable := by
    obtain ⟨u, hs, hu1, hu2⟩ := lora_saved
    intro v hv nm _
    rw [hs, List.mem_singleton] at hv
    subst hv
    rw [show loraRun.mods nm = 0 from rfl, hu1, hu2]
    exact storable_of lora_grad rfl (by decide +kernel)
  ids := by
    obtain ⟨u, hs, hu1, -⟩ := lora_saved
    rw [hs]
    simp only [List.flatMap_cons, hu1]
    decide
  files := by show ([] : List PyStr).Nodup; exact List.nodup_nil
  clean := by intro f hf; cases hf
  workers := Nat.le_refl 1
  runs := by dsimp only [loraRun, LoggingRun.before]; exact tLora_run
  listing := by dsimp only [loraRun]; exact List.Perm.refl _

/-- The output gradient 5 of the decoder gives the gradient 15 of its input. -/
theorem back : IsBackward (linearForward decoder none) [1, 1] .cpu (ten 5) (ten 15) := by
  refine ⟨rfl, rfl, fun v hs hd => ?_⟩
  obtain ⟨y, y1, y2, y3, y4⟩ := linearForward_el (w := decoder) (x := v) (o := 1) (i := 1) (pre := [1]) rfl hs hd
  refine ⟨y, y1, y3, ?_⟩
  have e := y4 [0] 0 rfl (by decide)
  simp only [Finset.sum_range_one] at e
  unfold pairing
  rw [hs, y3]
  show y.el [0, 0] * 5 + 0 = v.el [0, 0] * 15 + 0
  rw [show y.el [0, 0] = _ from e, show decoder.el [0, 0] = 3 from rfl]
  show v.el [0, 0] * 3 * 5 + 0 = _
  ring

theorem through : ThroughWrapper 1 (.linear 2 1) encoder decoder (two 2 3).val (ten 5) (ten 8) (ten 15) 1 :=
  ⟨rfl, rfl, rfl, rfl, rfl, ⟨[], rfl, rfl⟩, by decide +kernel, back⟩

/-- The theorem applies: 120 = 3 · (10 · 1 + 15 · 2). -/
example : ∃ ds ds' v v' a a', openDataset tFull.1.fs (Dict.keys tFull.1.fs) = .ok ds ∧ openDataset tLora.1.fs (Dict.keys tLora.1.fs) = .ok ds' ∧
    ds.getItem 0 = .ok (i1, v) ∧ ds'.getItem 0 = .ok (i1, v') ∧ v.lookup [na, LogType.name .grad] = some a ∧ v'.lookup [nB, LogType.name .grad] = some a' ∧
    (Codec.tensor ⟨E.encode, dec⟩ a').el [0, 0] = 3 * (Codec.tensor ⟨E.encode, dec⟩ a).el [0, 0] * 1 + 3 * (Codec.tensor ⟨E.encode, dec⟩ a).el [0, 1] * 2 := by
  obtain ⟨ds, ds', d1, d2, d3⟩ := C132_stored fullRun loraRun [na] (fun nm => nm ++ ['B']) _ _ (fun _ => 1) (fun _ => .linear 2 1) (fun _ => encoder) (fun _ => decoder) full_ok lora_ok
    (fun _ _ => ⟨rfl, rfl⟩)
  obtain ⟨u, hs, hu1, hu2⟩ := full_saved
  obtain ⟨u', hs', hu1', hu2'⟩ := lora_saved
  obtain ⟨v, v', k1, k2, k3⟩ := d3 [] u [] hs [] u' [] hs' 0 (by rw [hu1]; decide) (by rw [hu1']; decide) (by
    intro nm _
    rw [show fullRun.mods nm = 0 from rfl, show loraRun.mods (nm ++ ['B']) = 0 from rfl, hu2, hu2', hu1']
    exact .cons ⟨two 2 3, inp 5, inp 8, inp 15, rfl, rfl, rfl, rfl, through⟩ .nil)
  simp only [hu1] at k1
  simp only [hu1'] at k2
  obtain ⟨a, a', m1, m2, -, m4⟩ := k3 na (by simp)
  refine ⟨ds, ds', v, v', a, a', d1, d2, k1, k2, m1, m2, ?_⟩
  have e := m4 0 0 (by decide) (by decide)
  simp only [projected, Finset.sum_range_succ, Finset.sum_range_zero, zero_add] at e
  rw [show decoder.el [0, 0] = 3 from rfl, show encoder.el [0, 0] = 1 from rfl, show encoder.el [0, 1] = 2 from rfl] at e
  exact e

end Logix.ExLoraLog
