/-
C76, C79: the module-level API.
-/
import Verif.Model.Singleton

namespace Logix

namespace Spec
variable {σ α ρ : Type}

/-- Using one run object directly: method calls act on it; a repeated `init` is answered by None. -/
def direct (C : LogIXClass σ α ρ) : σ → List (ApiOp α) → σ × List (ApiOut ρ)
  | r, [] => (r, [])
  | r, .init _ :: ops => ((direct C r ops).1, .returnedNone :: (direct C r ops).2)
  | r, .call f x :: ops =>
    let s := C.invoke f x r
    ((direct C s.1 ops).1, .ofPy s.2 :: (direct C s.1 ops).2)

/-- Before any run exists: `init` fails with the constructor's error, everything else with RuntimeError. -/
def beforeInit (C : LogIXClass σ α ρ) : ApiOp α → ApiOut ρ
  | .init x => match C.construct x with
    | .error e => .raised e
    | .ok _ => .newRun
  | .call _ _ => .raised .runtimeError

/-- No `init` of the list succeeds. -/
def NoRun (C : LogIXClass σ α ρ) (ops : List (ApiOp α)) : Prop := ∀ x, .init x ∈ ops → ∃ e, C.construct x = .error e

end Spec
open Spec

theorem apiRun_append (C : LogIXClass σ α ρ) (i : Option σ) (xs ys : List (ApiOp α)) :
    apiRun C i (xs ++ ys) = ((apiRun C (apiRun C i xs).1 ys).1, (apiRun C i xs).2 ++ (apiRun C (apiRun C i xs).1 ys).2) := by
  induction xs generalizing i with
  | nil => rfl
  | cons x xs ih => simp [apiRun, ih]

theorem apiRun_none (C : LogIXClass σ α ρ) (ops : List (ApiOp α)) (h : NoRun C ops) :
    apiRun C none ops = (none, ops.map (beforeInit C)) := by
  induction ops with
  | nil => rfl
  | cons op ops ih =>
    have ih := ih (fun x hx => h x (by simp [hx]))
    cases op with
    | init x =>
      obtain ⟨e, he⟩ := h x (by simp)
      simp [apiRun, apiStep, he, ih, beforeInit]
    | call f x => simp [apiRun, apiStep, ih, beforeInit]

theorem apiRun_some (C : LogIXClass σ α ρ) (ops : List (ApiOp α)) (r : σ) :
    apiRun C (some r) ops = (some (direct C r ops).1, (direct C r ops).2) := by
  induction ops generalizing r with
  | nil => rfl
  | cons op ops ih => cases op with
    | init x => simp [apiRun, apiStep, ih, direct]
    | call f x => simp [apiRun, apiStep, ih, direct]

/-- **C76, before.** As long as no `init` has succeeded there is no run, and every other module-level call raises RuntimeError. -/
theorem C76_before_init (C : LogIXClass σ α ρ) (ops : List (ApiOp α)) (h : NoRun C ops) :
    (apiRun C none ops).1 = none ∧
    ∀ (i : Nat) (f : ApiFn) (x : α), ops[i]? = some (.call f x) → (apiRun C none ops).2[i]? = some (.raised .runtimeError) := by
  rw [apiRun_none C ops h]
  refine ⟨rfl, ?_⟩
  intro i f x hi
  simp [List.getElem?_map, hi, beforeInit]

/-- **C76.** For every sequence of module-level calls: from the first `init` that succeeds on, the calls behave exactly as method calls on
the one run it created; later `init`s neither replace nor return a run. -/
theorem C76_one_run (C : LogIXClass σ α ρ) (pre post : List (ApiOp α)) (x : α) (r : σ) (hpre : NoRun C pre)
    (hx : C.construct x = .ok r) :
    apiRun C none (pre ++ .init x :: post) =
      (some (direct C r post).1, pre.map (beforeInit C) ++ .newRun :: (direct C r post).2) := by
  rw [apiRun_append, apiRun_none C pre hpre]
  simp [apiRun, apiStep, hx, apiRun_some]

/-- Every sequence of calls is of one of the two kinds. -/
theorem C76_cases (C : LogIXClass σ α ρ) (ops : List (ApiOp α)) :
    NoRun C ops ∨ ∃ pre x r post, ops = pre ++ .init x :: post ∧ NoRun C pre ∧ C.construct x = .ok r := by
  induction ops with
  | nil => left; intro x hx; simp at hx
  | cons op ops ih =>
    cases op with
    | init x =>
      cases hx : C.construct x with
      | ok r => exact Or.inr ⟨[], x, r, ops, rfl, by intro y hy; simp at hy, hx⟩
      | error e =>
        rcases ih with h | ⟨pre, y, r, post, h1, h2, h3⟩
        · left
          intro y hy
          rcases List.mem_cons.1 hy with h' | h'
          · cases h'; exact ⟨e, hx⟩
          · exact h y h'
        · refine Or.inr ⟨.init x :: pre, y, r, post, by rw [h1]; rfl, ?_, h3⟩
          intro z hz
          rcases List.mem_cons.1 hz with h' | h'
          · cases h'; exact ⟨e, hx⟩
          · exact h2 z h'
    | call f x =>
      rcases ih with h | ⟨pre, y, r, post, h1, h2, h3⟩
      · left
        intro y hy
        rcases List.mem_cons.1 hy with h' | h'
        · cases h'
        · exact h y h'
      · refine Or.inr ⟨.call f x :: pre, y, r, post, by rw [h1]; rfl, ?_, h3⟩
        intro z hz
        rcases List.mem_cons.1 hz with h' | h'
        · cases h'
        · exact h2 z h'

/-- **C79 is false for `add_analysis`.** With a run or without, it always raises. -/
theorem C79_add_analysis_refuted (C : LogIXClass σ α ρ) (inst : Option σ) (x : α) :
    (apiStep C inst (.call .addAnalysis x)).1 = inst ∧
    ((apiStep C inst (.call .addAnalysis x)).2 = .raised .runtimeError ∨
      (apiStep C inst (.call .addAnalysis x)).2 = .raised .attributeError) := by
  cases inst with
  | none => exact ⟨rfl, Or.inl rfl⟩
  | some r => exact ⟨rfl, Or.inr rfl⟩

/-- **C79, the other functions.** Each of the remaining functions gives, after `init`, whatever the method of the same name gives. -/
theorem C79_forwarding_partial (C : LogIXClass σ α ρ) (r : σ) (f : ApiFn) (hf : f ≠ .addAnalysis) (x : α) :
    apiStep C (some r) (.call f x) = (some (C.method f x r).1, .ofPy (C.method f x r).2) := by
  cases f <;> first | rfl | exact absurd rfl hf

namespace Example

/-- A class whose runs count the calls made on them; the constructor fails on 0. -/
def cls : LogIXClass Nat Nat Nat := ⟨fun x => if x = 0 then .error .assertionError else .ok (10 * x), fun _ x r => (r + x, .ok r)⟩

example : NoRun cls [.call .log 1, .init 0] := by
  intro x hx
  simp only [List.mem_cons, reduceCtorEq, ApiOp.init.injEq, List.not_mem_nil, or_false, false_or] at hx
  subst hx
  exact ⟨_, rfl⟩

/-- A call too early, a failing `init`, a good one, a call, another `init`, another call. -/
example : apiRun cls none [.call .log 1, .init 0, .init 1, .call .log 2, .init 3, .call .log 2] =
    (some 14, [.raised .runtimeError, .raised .assertionError, .newRun, .returned 10, .returnedNone, .returned 12]) := rfl

end Example
end Logix
