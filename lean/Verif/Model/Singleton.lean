/-
The module-level API: logix/__init__.py.
-/
import Verif.Py.Basic

namespace Logix

/-- The functions defined in logix/__init__.py:33-126 besides `init`. -/
inductive ApiFn
  | addAnalysis | addLora | buildLogDataloader | clear | eval | finalize | getLog | initializeFromLog | log | setup | watch
  | watchActivation
  deriving DecidableEq

/-- Does class `LogIX` (logix/logix.py:39-575) define a method of this name? -/
def ApiFn.isMethod : ApiFn → Bool
  | .addAnalysis => false
  | _ => true

/-- The class `LogIX` seen from the module: its constructor and its methods on a run of type `σ`, with arguments `α` and results `ρ`.
What they do is left open; a failing constructor creates nothing. -/
structure LogIXClass (σ α ρ : Type) where
  construct : α → Py σ
  method : ApiFn → α → σ → σ × Py ρ

/-- `run.f(args)`; a name the class does not define raises AttributeError. -/
def LogIXClass.invoke (C : LogIXClass σ α ρ) (f : ApiFn) (x : α) (run : σ) : σ × Py ρ :=
  if f.isMethod then C.method f x run else (run, .error .attributeError)

/-- A module-level call. -/
inductive ApiOp (α : Type)
  | init (x : α)
  | call (f : ApiFn) (x : α)

/-- What a module-level call gives: `init` returned a new run, `init` returned None, a function returned, or an exception. -/
inductive ApiOut (ρ : Type)
  | newRun
  | returnedNone
  | returned (r : ρ)
  | raised (e : PyErr)

/-- Result of a method call as seen by the caller of the module-level function. -/
def ApiOut.ofPy : Py ρ → ApiOut ρ
  | .ok r => .returned r
  | .error e => .raised e

/-- logix/__init__.py:10-30 `init` and 33-126; the state is `_LOGIX_INSTANCE`. -/
def apiStep (C : LogIXClass σ α ρ) (inst : Option σ) : ApiOp α → Option σ × ApiOut ρ
  | .init x =>
    match inst with
    | some r => (some r, .returnedNone)
    | none =>
      match C.construct x with
      | .error e => (none, .raised e)
      | .ok r => (some r, .newRun)
  | .call f x =>
    match inst with
    | none => (none, .raised .runtimeError)
    | some r => (some (C.invoke f x r).1, .ofPy (C.invoke f x r).2)

/-- A sequence of module-level calls: the final instance and the outcome of each. -/
def apiRun (C : LogIXClass σ α ρ) : Option σ → List (ApiOp α) → Option σ × List (ApiOut ρ)
  | inst, [] => (inst, [])
  | inst, op :: ops =>
    let s := apiStep C inst op
    let r := apiRun C s.1 ops
    (r.1, s.2 :: r.2)

end Logix
