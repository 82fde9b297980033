/-
Sessions: concrete cases that meet the hypotheses of C17 to C20, C23 to C26, and counterexamples for C18, C20, C25, C26, C102.
-/
import Verif.Props.SessionIso
import Verif.Props.SessionOutside
import Verif.Props.SessionSum
import Mathlib.Algebra.Field.Rat

namespace Logix.ExSess
open Spec Sess

instance {κ α : Type} [DecidableEq κ] [DecidableEq α] : DecidableEq (Dict κ α) := inferInstanceAs (DecidableEq (List (κ × α)))

def E : SEnv Rat where
  lib := ⟨fun _ => .error .runtimeError, fun _ => .error .runtimeError⟩
  kind := fun _ => .linear
  cpuOffload := false
  dtype := none
  encode := fun d x => ⟨List.replicate d.itemsize (UInt8.ofNat x.num.natAbs), List.length_replicate⟩
  failUpdate := fun _ _ s => s
  failOp := fun _ s => s

/-- A 1×1 tensor on the CPU. -/
def ten (v : Rat) : Tensor Rat := ⟨.cpu, [1, 1], [v], rfl⟩
/-- An input or a gradient. -/
def inp (v : Rat) : TObj Rat := ⟨ten v, .float32, false, true⟩
/-- An output of a module. -/
def out (v : Rat) : TObj Rat := ⟨ten v, .float32, true, false⟩

/-- A logged gradient. -/
def grd (v : Rat) : TObj Rat := ⟨⟨.cpu, [1, 1, 1], [v], rfl⟩, .float32, false, true⟩

def na : PyStr := ['a']
def nb : PyStr := ['b']
def i1 : PyStr := ['1']
def i2 : PyStr := ['2']

def gradLog : SOp Rat := .setup { grad := some [.name ['l', 'o', 'g']] }
def fwdLog : SOp Rat := .setup { forward := some [.name ['l', 'o', 'g']] }

/-- The model: the module 0 with an input, an output and the gradient of the output. -/
def run (x y g : Rat) : List (SOp Rat) := [.alloc (inp x), .alloc (out y), .alloc (inp g), .forward 0 0 1, .gradAt 1 2, .backward 1 2]

/-- A session with one batch that is logged but not saved. -/
def first : List (SOp Rat) := [gradLog, .watch [(na, 0)], .call [i1] none false, .enter] ++ run 2 6 5 ++ [.exit]

def s₀ : Sess Rat := Sess.init 1 1000 []

/-! ### C19 -/

/-- Two batches: the module still has one set of hooks in the third. -/
example : let s := runHistory E (first ++ [.call [i2] none false, .enter, .exit, .start [i1] none]) s₀
    hooksOn s.pre 0 = 1 ∧ hooksOn s.bwd 0 = 1 ∧ hooksOn s.fwd 0 = 1 ∧ s.tens = [] ∧
      watched (outcomes E (first ++ [.call [i2] none false, .enter, .exit, .start [i1] none]) s₀) = [0] := by decide +kernel

/-! ### C23 -/

/-- A batch opened with `save=True`: the buffer receives it. -/
def saving : List (SOp Rat) := [gradLog, .watch [(na, 0)], .call [i1] none true, .enter] ++ run 2 6 5
example : batchSave saving = true ∧ globalSave saving = false ∧ (SOp.exit.run E (runHistory E saving s₀)).2 = none ∧
    (SOp.exit.run E (runHistory E saving s₀)).1.bufferSize = 1 ∧ (runHistory E saving s₀).bufferSize = 0 := by decide +kernel

/-- `save(True)`, then `eval()`: not saved; `save(True)` again: saved by `end()`. -/
def evaluated : List (SOp Rat) := [gradLog, .watch [(na, 0)], .save true, .eval, .start [i1] none] ++ run 2 6 5
example : globalSave evaluated = false ∧ (SOp.run E (.end false) (runHistory E evaluated s₀)).1.bufferSize = 0 ∧
    globalSave (evaluated ++ [.save true]) = true ∧
    (SOp.run E (.end false) (runHistory E (evaluated ++ [.save true]) s₀)).1.bufferSize = 1 ∧
    (SOp.run E (.end false) (runHistory E (evaluated ++ [.save true]) s₀)).2 = none := by decide +kernel

/-! ### C17 -/

/-- After a first batch, and after a batch with another module call whose body raised: the same batch gives the same log. -/
def other : List (SOp Rat) := [gradLog, .watch [(na, 0)], .start [i2] none, .alloc (inp 1), .alloc (inp 1), .forward 0 0 1, .end true]
example : (outcomes E other s₀).map (fun o => o.2.isSome) = [false, false, false, false, false, true, false] := by decide +kernel
def s₁ : Sess Rat := runHistory E first s₀
def s₂ : Sess Rat := runHistory E other s₀
example : s₁.modules = s₂.modules ∧ s₁.names = s₂.names ∧ s₁.opt = s₂.opt ∧ s₁.user.length = 3 ∧ s₂.user.length = 2 ∧ s₁.log ≠ s₂.log := by
  decide +kernel
example : (SAct.each (SOp.run E) ([.call [i1] none true, .enter] ++ (run 3 7 4).map (shift 3)) s₁).2 = none := by decide +kernel
example : (SAct.each (SOp.run E) ([.start [i1] none] ++ (run 3 7 4).map (shift 2)) s₂).2 = none := by decide +kernel
example : seen (SAct.each (SOp.run E) ([.start [i1] none] ++ (run 3 7 4).map (shift 2)) s₂).1 =
    (some [i1], [(na, [(LogType.name .grad, some (grd 12))])]) := by decide +kernel
example : ∀ o ∈ run 3 7 4, IsRun o := by
  simp only [run, List.mem_cons, List.not_mem_nil, or_false, forall_eq_or_imp, forall_eq]
  exact ⟨.alloc _, .alloc _, .alloc _, .forward .., .gradAt .., .backward ..⟩

/-! ### C24 -/

/-- A copy is taken inside the context, then the module is used again and the next batch is started. -/
def inside : List (SOp Rat) := [gradLog, .watch [(na, 0)], .call [i1] none true, .enter] ++ run 2 6 5
def s₃ : Sess Rat := (runHistory E inside s₀).getLogCopy.1
def d₃ : Dict PyStr (Dict PyStr TRef) := [(na, [(LogType.name .grad, .own 1)])]
example : (runHistory E inside s₀).getLogCopy = (s₃, .ok (some [i1], d₃)) := Prod.ext rfl rfl
example : seen (runHistory E inside s₀) = (some [i1], [(na, [(LogType.name .grad, some (grd 10))])]) := by decide +kernel
example : seen (runHistory E ((run 2 6 5).map (shift 3)) s₃) = (some [i1], [(na, [(LogType.name .grad, some (grd 20))])]) := by decide +kernel
example : view (runHistory E ((run 2 6 5).map (shift 3) ++ [.exit, .call [i2] none true]) s₃) d₃ =
    [(na, [(LogType.name .grad, some (grd 10))])] := by decide +kernel

/-! ### C25 -/

example : (runHistory E first s₀).user = [inp 2, out 6, inp 5] := by decide +kernel
example : ∀ pre, pre <+: first → .log ∉ (runHistory E pre s₀).opt.forward ∧ .log ∉ (runHistory E pre s₀).opt.backward := by
  intro pre h
  have : ∀ pre ∈ first.inits, .log ∉ (runHistory E pre s₀).opt.forward ∧ .log ∉ (runHistory E pre s₀).opt.backward := by decide +kernel
  exact this pre ((List.mem_inits ..).2 h)

/-- The module 0 applied twice, with `log` for forward: the first input of the module is overwritten by the sum of both inputs. -/
def reuse : List (SOp Rat) := [fwdLog, .watch [(na, 0)], .call [i1] none false, .enter, .alloc (inp 2), .alloc (out 6), .alloc (out 18),
  .forward 0 0 1, .forward 0 1 2]
example : (outcomes E reuse s₀).map (fun o => o.2) = List.replicate 9 none := by decide +kernel

/-- **C25 is false.** -/
theorem C25_refuted : ¬ ∀ (E : SEnv Rat) (ops : List (SOp Rat)) (n : Nat) (t : Int) (fs : FS),
    (runHistory E ops (Sess.init n t fs)).user = allocs ops := by
  intro h
  have h1 := h E reuse 1 1000 []
  have h2 : (runHistory E reuse (Sess.init 1 1000 [])).user = [inp 8, out 6, out 18] := by decide +kernel
  rw [h2] at h1
  revert h1
  decide +kernel

/-! ### C20 -/

example : unhooked (outcomes E [gradLog, .watch [(na, 0)]] s₀) = true ∧ unhooked (outcomes E (first ++ [.clear]) s₀) = true ∧
    unhooked (outcomes E first s₀) = false := by decide +kernel

/-- **C20 is false.** After a context was left, running the model (with its own tensors) may still change the log. -/
theorem C20_refuted : ¬ ∀ (E : SEnv Rat) (ops : List (SOp Rat)) (n : Nat) (t : Int) (fs : FS) (body : List (SOp Rat)),
    (∀ o ∈ body, IsRun o) → (∀ d, SOp.watchActivation d ∉ body) →
    let s := runHistory E (ops ++ [.exit]) (Sess.init n t fs)
    seen (runHistory E (body.map (shift s.user.length)) s) = seen s := by
  intro h
  have h1 := h E ([gradLog, .watch [(na, 0)], .call [i1] none false, .enter] ++ run 2 6 5) 1 1000 [] (run 3 7 4) (by
    simp only [run, List.mem_cons, List.not_mem_nil, or_false, forall_eq_or_imp, forall_eq]
    exact ⟨.alloc _, .alloc _, .alloc _, .forward .., .gradAt .., .backward ..⟩) (by simp [run])
  have h2 : seen (runHistory E first s₀) = (some [i1], [(na, [(LogType.name .grad, some (grd 10))])]) := by decide +kernel
  have h3 : seen (runHistory E ((run 3 7 4).map (shift 3)) (runHistory E first s₀)) =
      (some [i1], [(na, [(LogType.name .grad, some (grd 22))])]) := by decide +kernel
  have h4 : (runHistory E first s₀).user.length = 3 := by decide +kernel
  have h5 : seen (runHistory E ((run 3 7 4).map (shift (runHistory E first s₀).user.length)) (runHistory E first s₀)) =
      seen (runHistory E first s₀) := h1
  rw [h4, h3, h2] at h5
  revert h5
  decide +kernel

/-! ### C26 -/

example : Closes first (.exit) false ∧ globalSave first = false ∧ (runHistory E first s₀).opt.grad.tail = [] :=
  ⟨Closes.exit, by decide +kernel, by decide +kernel⟩

/-- The body raises at its last operation: the second module returns a tensor that does not require a gradient. -/
def raising : List (SOp Rat) := [gradLog, .watch [(na, 0), (nb, 1)], .call [i1] none true, .enter] ++ run 2 6 5 ++ [.forward 1 0 0]

/-- **C26 is false.** A batch whose body raised is put into the save buffer when the context is left. -/
theorem C26_refuted : ¬ ∀ (E : SEnv Rat) (ops : List (SOp Rat)) (o : SOp Rat) (n : Nat) (t : Int) (fs : FS),
    IsRun o → (o.run E (runHistory E ops (Sess.init n t fs))).2 ≠ none →
    let s := runHistory E (ops ++ [o]) (Sess.init n t fs)
    (SOp.exit.run E s).1.bufferSize = s.bufferSize := by
  intro h
  have h1 := h E ([gradLog, .watch [(na, 0), (nb, 1)], .call [i1] none true, .enter] ++ run 2 6 5) (.forward 1 0 0) 1 1000 [] (.forward ..)
    (by decide +kernel)
  revert h1
  decide +kernel

/-! ### C18 -/

/-- The module 0 is used twice, on the inputs 2 and 3; the gradients 10 and 1 arrive at its outputs, the second first. -/
def twice : List (SOp Rat) := [.alloc (inp 2), .alloc (out 6), .alloc (inp 3), .alloc (out 9), .alloc (inp 10), .alloc (inp 1),
  .forward 0 0 1, .forward 0 2 3, .gradAt 3 5, .gradAt 1 4]
/-- The same, the gradients in the other order. -/
def twice' : List (SOp Rat) := [.alloc (inp 2), .alloc (out 6), .alloc (inp 3), .alloc (out 9), .alloc (inp 10), .alloc (inp 1),
  .forward 0 2 3, .forward 0 0 1, .gradAt 1 4, .gradAt 3 5]

theorem twice_isRun : ∀ o ∈ twice, IsRun o := by
  simp only [twice, List.mem_cons, List.not_mem_nil, or_false, forall_eq_or_imp, forall_eq]
  exact ⟨.alloc _, .alloc _, .alloc _, .alloc _, .alloc _, .alloc _, .forward .., .forward .., .gradAt .., .gradAt ..⟩

example : uses 0 twice [] = [(2, 5), (0, 4)] ∧ uses 0 twice' [] = [(0, 4), (2, 5)] ∧ (allocs twice).length = 6 := by decide +kernel
example : s₁.modules.count 0 = 1 ∧ Dict.get? s₁.names 0 = some na ∧ s₁.opt.grad.head? = some .log ∧ .log ∉ s₁.opt.forward ∧
    .log ∉ s₁.opt.backward := by decide +kernel
example : (SAct.each (SOp.run E) ([.start [i1] none] ++ twice.map (shift 3)) s₁).2 = none ∧
    logged (SAct.each (SOp.run E) ([.start [i1] none] ++ twice.map (shift 3)) s₁).1 na (LogType.name .grad) = some (grd 23).val := by
  decide +kernel
example : logged (SAct.each (SOp.run E) ([.call [i1] none true, .enter] ++ twice'.map (shift 3)) s₁).1 na (LogType.name .grad) =
    some (grd 23).val := by decide +kernel

/-- Both the inputs and the gradients of the module 0 are logged. -/
def bothLog : List (SOp Rat) := [.setup { forward := some [.name ['l', 'o', 'g']], grad := some [.name ['l', 'o', 'g']] }, .watch [(na, 0)]]

theorem both_run : ∃ r, SAct.each (SOp.run E) ([.start [i1] none] ++ twice.map (shift 0)) (runHistory E bothLog (Sess.init 1 1000 [])) =
    (r, none) ∧ logged r na (LogType.name .grad) = some (grd 53).val := by
  have h1 : (SAct.each (SOp.run E) ([.start [i1] none] ++ twice.map (shift 0)) (runHistory E bothLog (Sess.init 1 1000 []))).2 = none := by
    decide +kernel
  have h2 : logged (SAct.each (SOp.run E) ([.start [i1] none] ++ twice.map (shift 0)) (runHistory E bothLog (Sess.init 1 1000 []))).1 na
      (LogType.name .grad) = some (grd 53).val := by decide +kernel
  revert h1 h2
  cases SAct.each (SOp.run E) ([.start [i1] none] ++ twice.map (shift 0)) (runHistory E bothLog (Sess.init 1 1000 [])) with
  | mk r e =>
    rintro rfl h2
    exact ⟨r, rfl, h2⟩

/-- **C18 is false** when the inputs of the module are logged as well: the first input is overwritten by the sum of the inputs (see C25), and the
gradient of the first use is computed from that. -/
theorem C18_refuted : ¬ ∀ (E : SEnv Rat) (ops : List (SOp Rat)) (n : Nat) (th : Int) (fs : FS) (m : Nat) (nm : PyStr)
    (ctx : List (SOp Rat)) (ids : List PyStr) (mask : Option (Tensor Rat)) (_ : Context ctx ids mask)
    (body : List (SOp Rat)) (_ : ∀ o ∈ body, IsRun o),
    let s := runHistory E ops (Sess.init n th fs)
    s.modules.count m = 1 → Dict.get? s.names m = some nm → (∀ m' ∈ s.modules, Dict.get? s.names m' = some nm → m' = m) →
    s.opt.grad.head? = some .log →
    ∀ t, SAct.each (SOp.run E) (ctx ++ body.map (shift s.user.length)) s = (t, none) →
    ∃ vs, List.Forall₂ (fun u v => ∃ x g, (allocs body)[u.1]? = some x ∧ (allocs body)[u.2]? = some g ∧
        computePerSampleGradient x.val g.val (E.kind m) = .ok v) (uses m body []) vs ∧
      (uses m body [] = [] → logged t nm (LogType.name .grad) = none) ∧
      (uses m body [] ≠ [] → ∃ T, logged t nm (LogType.name .grad) = some T ∧ ∀ idx, T.el idx = (vs.map fun v => v.el idx).sum) := by
  intro h
  have hl : (runHistory E bothLog (Sess.init 1 1000 [])).user.length = 0 := by decide +kernel
  have hm : (runHistory E bothLog (Sess.init 1 1000 [])).modules = [0] := by decide +kernel
  have hn : (runHistory E bothLog (Sess.init 1 1000 [])).names = [(0, na)] := by decide +kernel
  have ho : (runHistory E bothLog (Sess.init 1 1000 [])).opt.grad.head? = some .log := by decide +kernel
  have h2 := h E bothLog 1 1000 [] 0 na [.start [i1] none] [i1] none (.start ..) twice twice_isRun
  dsimp only at h2
  rw [hl, hm, hn] at h2
  replace h2 := h2 rfl rfl (by decide) ho
  obtain ⟨r, h1, c3⟩ := both_run
  obtain ⟨vs, hf, _, hT⟩ := h2 r h1
  obtain ⟨T, e, q⟩ := hT (by decide +kernel)
  have e1 : uses 0 twice [] = [(2, 5), (0, 4)] := by decide +kernel
  rw [e1] at hf
  cases hf with
  | cons ha hf =>
    cases hf with
    | cons hb hf =>
      cases hf
      obtain ⟨x, g, hx, hg, hv⟩ := ha
      obtain ⟨x', g', hx', hg', hv'⟩ := hb
      cases hx; cases hg; cases hx'; cases hg'
      have c1 : computePerSampleGradient (inp 3).val (inp 1).val .linear = .ok (grd 3).val := by decide +kernel
      have c2 : computePerSampleGradient (inp 2).val (inp 10).val .linear = .ok (grd 20).val := by decide +kernel
      cases c1.symm.trans hv
      cases c2.symm.trans hv'
      cases c3.symm.trans e
      have := q [0, 0, 0]
      revert this
      decide +kernel

/-! ### C102 -/

/-- The module 0 is watched twice. -/
def watchedTwice : List (SOp Rat) := first ++ [.watch [(na, 0)]]

example : (watched (outcomes E watchedTwice s₀)).count 0 = 1 + 1 ∧ Dict.get? (runHistory E watchedTwice s₀).names 0 = some na ∧
    (∀ m' ∈ (runHistory E watchedTwice s₀).modules, Dict.get? (runHistory E watchedTwice s₀).names m' = some na → m' = 0) ∧
    (runHistory E watchedTwice s₀).opt.grad.head? = some .log ∧ .log ∉ (runHistory E watchedTwice s₀).opt.forward ∧
    .log ∉ (runHistory E watchedTwice s₀).opt.backward ∧
    (SAct.each (SOp.run E) ([.start [i1] none] ++ twice.map (shift 3)) (runHistory E watchedTwice s₀)).2 = none ∧
    logged (SAct.each (SOp.run E) ([.start [i1] none] ++ twice.map (shift 3)) (runHistory E watchedTwice s₀)).1 na (LogType.name .grad) =
      some (grd 46).val := by decide +kernel

/-- **C102 is false.** Watching a module that is already watched, under the name it has, doubles its logged gradients. -/
theorem C102_refuted : ¬ ∀ (E : SEnv Rat) (ops : List (SOp Rat)) (n : Nat) (th : Int) (fs : FS) (sel : List (PyStr × Nat))
    (ctx : List (SOp Rat)) (ids : List PyStr) (mask : Option (Tensor Rat)) (_ : Context ctx ids mask)
    (body : List (SOp Rat)) (_ : ∀ o ∈ body, IsRun o),
    let s := runHistory E ops (Sess.init n th fs)
    let s' := runHistory E (ops ++ [.watch sel]) (Sess.init n th fs)
    (∀ e ∈ sel, e.2 ∈ s.modules ∧ Dict.get? s.names e.2 = some e.1) →
    (SAct.each (SOp.run E) (ctx ++ body.map (shift s.user.length)) s).2 = none →
    (SAct.each (SOp.run E) (ctx ++ body.map (shift s'.user.length)) s').2 = none →
    ∀ nm, logged (SAct.each (SOp.run E) (ctx ++ body.map (shift s'.user.length)) s').1 nm (LogType.name .grad) =
      logged (SAct.each (SOp.run E) (ctx ++ body.map (shift s.user.length)) s).1 nm (LogType.name .grad) := by
  intro h
  have h1 := h E first 1 1000 [] [(na, 0)] [.start [i1] none] [i1] none (.start ..) twice twice_isRun (by decide +kernel) (by decide +kernel)
    (by decide +kernel) na
  revert h1
  decide +kernel

end Logix.ExSess
