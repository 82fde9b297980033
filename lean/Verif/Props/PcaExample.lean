/-
C87: an example.
-/
import Verif.Props.Pca
import Verif.Props.LoraExample
import Verif.Props.Ekfac
import Mathlib.Tactic.IntervalCases

namespace Logix
namespace ExPca
open Spec ExEkfac

/-- A model with one linear layer `fc` with two inputs and one output. -/
def model : MHeap ℚ := ⟨[⟨[nModule], .user, [(nm, 1)], []⟩, ⟨[nLinear, nModule], .linear 2 1, [], [(nWeight, 0)]⟩], [⟨⟨.cpu, [1, 2], [1, 1], rfl⟩, true⟩]⟩

/-- `svd` for the covariances of the example; it fails for others. -/
def svd (x : Tensor ℚ) : Py (Tensor ℚ × Tensor ℚ × Tensor ℚ) :=
  if x.dev = .cpu ∧ x.shape = [2, 2] ∧ x.data = [73 / 2, -18, -18, 26] then
    .ok (⟨.cpu, [2, 2], [-4 / 5, 3 / 5, 3 / 5, 4 / 5], rfl⟩, ⟨.cpu, [2], [50, 25 / 2], rfl⟩, ⟨.cpu, [2, 2], [-4 / 5, 3 / 5, 3 / 5, 4 / 5], rfl⟩)
  else if x.dev = .cpu ∧ x.shape = [1, 1] ∧ x.data = [5 / 2] then .ok (⟨.cpu, [1, 1], [1], rfl⟩, ⟨.cpu, [1], [5 / 2], rfl⟩, ⟨.cpu, [1, 1], [1], rfl⟩)
  else .error .runtimeError

theorem svd_ok : SvdOk svd := by
  rintro ⟨dev, sh, da, wf⟩ n hn u s v h
  unfold svd at h
  dsimp only at h hn
  split at h
  · next hc =>
    obtain ⟨rfl, rfl, rfl⟩ := hc
    cases hn
    cases h
    refine ⟨rfl, rfl, rfl, ?_, ?_, ?_, ?_, ?_, ?_, ?_⟩
    · intro i j hi hj
      interval_cases i <;> interval_cases j <;> decide +kernel +revert
    · intro i j hi hj
      interval_cases i <;> interval_cases j <;> decide +kernel +revert
    · intro i j hi hj
      interval_cases i <;> interval_cases j <;> decide +kernel +revert
    · intro i j hi hj
      interval_cases i <;> interval_cases j <;> decide +kernel +revert
    · intro i j hi hj
      interval_cases i <;> interval_cases j <;> decide +kernel +revert
    · intro a ha
      interval_cases a <;> decide +kernel +revert
    · intro a b hab hb
      interval_cases b <;> interval_cases a <;> decide +kernel +revert
  · split at h
    · next hc =>
      obtain ⟨rfl, rfl, rfl⟩ := hc
      cases hn
      cases h
      refine ⟨rfl, rfl, rfl, ?_, ?_, ?_, ?_, ?_, ?_, ?_⟩
      · intro i j hi hj
        interval_cases i; interval_cases j; decide +kernel +revert
      · intro i j hi hj
        interval_cases i; interval_cases j; decide +kernel +revert
      · intro i j hi hj
        interval_cases i; interval_cases j; decide +kernel +revert
      · intro i j hi hj
        interval_cases i; interval_cases j; decide +kernel +revert
      · intro i j hi hj
        interval_cases i; interval_cases j; decide +kernel +revert
      · intro a ha
        interval_cases a; decide +kernel +revert
      · intro a b hab hb
        interval_cases b; interval_cases a; decide +kernel +revert
    · cases h

def ops : List (StateOp ℚ) := [.update .covariance fwd, .update .covariance bwd, .finalize ⟨[], none⟩]

def state : LState ℚ := match runOps lib .init ops with
  | .ok s => s
  | .error _ => .init

theorem run : runOps lib .init ops = .ok state := by
  unfold state
  split
  · assumption
  · next e h =>
    exfalso
    have : (match runOps lib .init ops with | .ok _ => true | .error _ => false) = true := by decide +kernel
    rw [h] at this
    cases this

theorem covF : tensorAt state.attrs nCov [nm, LogType.name .forward] = some ⟨.cpu, [2, 2], [73 / 2, -18, -18, 26], rfl⟩ := by decide +kernel
theorem covB : tensorAt state.attrs nCov [nm, LogType.name .backward] = some ⟨.cpu, [1, 1], [5 / 2], rfl⟩ := by decide +kernel

def env : LoraEnv ℚ := ⟨1, true, none, fun _ _ => 7, match state.getAttr nCov with
  | .ok cov => some ⟨svd, cov⟩
  | .error _ => none⟩

theorem env_eq : LoraEnv.ofState 1 true none (fun _ _ => 7) nPca svd state = .ok env := by
  unfold LoraEnv.ofState env
  cases hc : state.getAttr nCov with
  | error e =>
    exfalso
    have : (match state.getAttr nCov with | .ok _ => true | .error _ => false) = true := by decide +kernel
    rw [hc] at this
    cases this
  | ok cov =>
    have hne : cov.isEmpty = false := by
      have : (match state.getAttr nCov with | .ok c => c.isEmpty | .error _ => true) = false := by decide +kernel
      rw [hc] at this
      exact this
    dsimp only
    rw [if_pos ⟨rfl, by simp [hne]⟩]

theorem wf : WFModel model := by
  have he : ∀ p k c, Entry model p k c → p = 0 ∧ k = nm ∧ c = 1 := by
    rintro p k c ⟨m, hm, hk⟩
    match p, hm with
    | 0, hm => cases hm; simp at hk; exact ⟨rfl, hk.1, hk.2⟩
    | 1, hm => cases hm; simp at hk
    | n + 2, hm => simp [model] at hm
  refine ⟨?_, ?_, ?_, ⟨fun i => 2 - i, ?_⟩, ?_⟩
  · intro p m hm
    match p, hm with
    | 0, hm => cases hm; decide
    | 1, hm => cases hm; decide
    | n + 2, hm => simp [model] at hm
  · intro p k c h
    obtain ⟨rfl, rfl, rfl⟩ := he p k c h
    decide
  · intro p k c h
    obtain ⟨rfl, rfl, rfl⟩ := he p k c h
    decide
  · intro p k c h
    obtain ⟨rfl, rfl, rfl⟩ := he p k c h
    decide
  · intro p m k i hm hk
    match p, hm with
    | 0, hm => cases hm; simp at hk
    | 1, hm => cases hm; simp at hk; simp [model, hk.2]
    | n + 2, hm => simp [model] at hm

theorem not_leaf : ¬ IsLeaf model 0 := by
  rintro ⟨m, hm, hc⟩
  cases hm
  simp at hc

theorem selected : Selected model none none nm 1 := ⟨_, rfl, rfl, Or.inl (by decide), (by intro l h; cases h), (by intro l h; cases h)⟩

/-- What `add_lora` makes of the model. -/
def wrapped : MHeap ℚ := match addLora env model 0 none none with
  | .ok h => h
  | .error _ => model

theorem added : addLora env model 0 none none = .ok wrapped := by
  unfold wrapped
  split
  · assumption
  · next e h =>
    exfalso
    have : (match addLora env model 0 none none with | .ok _ => true | .error _ => false) = true := by decide +kernel
    rw [h] at this
    cases this

def wrapperId : Nat := (Dict.get? (wrapped.kids 0) nm).getD 0

theorem becomes : Becomes model wrapped 0 nm 1 wrapperId :=
  ⟨[], 0, nm, .nil, ⟨_, rfl, by simp⟩, rfl, by
    rw [← mem_kids]
    exact Dict.mem_of_get? _ (by decide +kernel)⟩

/-- The hypotheses of C87 are met. -/
example : ∃ a d A D, Entry wrapped wrapperId nA a ∧ Entry wrapped wrapperId nC d ∧ wrapped.paramVal a nWeight = some A ∧ wrapped.paramVal d nWeight = some D ∧
    A.shape = [1, 2] ∧ D.shape = [1, 1] ∧ Principal ⟨.cpu, [2, 2], [73 / 2, -18, -18, 26], rfl⟩ 2 1 (asMatrix A 2) ∧
    Principal ⟨.cpu, [1, 1], [5 / 2], rfl⟩ 1 1 fun i o => asMatrix D 1 o i :=
  C87_pca lib run (by
    intro o ho
    simp only [ops, List.mem_cons, List.not_mem_nil, or_false] at ho
    rcases ho with rfl | rfl | rfl
    · intro m hm; cases hm
    · intro m hm; cases hm
    · trivial) svd_ok env_eq wf not_leaf (by decide) added (by decide +kernel) selected becomes (m := ⟨[nLinear, nModule], .linear 2 1, [], [(nWeight, 0)]⟩) rfl
    (by intro i o g gr h; cases h) covF covB rfl rfl

/-- The encoder's row and the decoder's column. -/
example : ((Dict.get? (wrapped.kids wrapperId) nA).bind fun a => wrapped.paramVal a nWeight) = some ⟨.cpu, [1, 2], [-4 / 5, 3 / 5], rfl⟩ ∧
    ((Dict.get? (wrapped.kids wrapperId) nC).bind fun c => wrapped.paramVal c nWeight) = some ⟨.cpu, [1, 1], [1], rfl⟩ := by decide +kernel

def stateU : LState ℚ := match updates lib .init calls with
  | .ok s => s
  | .error _ => .init

theorem runU : updates lib .init calls = .ok stateU := by
  unfold stateU
  split
  · assumption
  · next e h =>
    exfalso
    have : (match updates lib .init calls with | .ok _ => true | .error _ => false) = true := by decide +kernel
    rw [h] at this
    cases this

theorem finU : ∃ dir', stateU.finalize ⟨[], none⟩ = .ok (state, dir') := by
  have h := run
  have hu := runU
  simp only [ops, runOps, stepOp] at h
  simp only [calls, updates] at hu
  cases h1 : pluginUpdate lib .covariance .init fwd with
  | error e => rw [h1] at hu; cases hu
  | ok s1 =>
    rw [h1] at h hu
    dsimp only at h hu
    cases h2 : pluginUpdate lib .covariance s1 bwd with
    | error e => rw [h2] at hu; cases hu
    | ok s2 =>
      rw [h2] at h hu
      cases hu
      dsimp only at h
      cases h3 : stateU.finalize ⟨[], none⟩ with
      | error e => rw [h3] at h; cases h
      | ok r =>
        rw [h3] at h
        obtain ⟨r1, r2⟩ := r
        cases h
        exact ⟨r2, rfl⟩

/-- The hypotheses of the statement on the logged rows are met: the rows are `(3, 4)` and `(-8, 6)`, of which the encoder keeps the second. -/
example : ∃ a d A D, Entry wrapped wrapperId nA a ∧ Entry wrapped wrapperId nC d ∧ wrapped.paramVal a nWeight = some A ∧ wrapped.paramVal d nWeight = some D ∧
    Orthonormal 2 1 (asMatrix A 2) ∧
    ∀ p, Orthonormal 2 1 p → ((allRows (callsOf .covariance nm .forward calls)).map fun x => ∑ i ∈ Finset.range 1, (∑ k ∈ Finset.range 2, p i k * x k) ^ 2).sum ≤
      ((allRows (callsOf .covariance nm .forward calls)).map fun x => ∑ i ∈ Finset.range 1, (∑ k ∈ Finset.range 2, asMatrix A 2 i k * x k) ^ 2).sum := by
  have h1 : callsOf .covariance nm .forward calls = [fwd] := by rfl
  have h2 : callsOf .covariance nm .backward calls = [bwd] := by rfl
  obtain ⟨dir', hfin⟩ := finU
  obtain ⟨a, d, A, D, e1, e2, e3, e4, -, -, e5, e6, -⟩ := C87_logged lib runU hfin svd_ok env_eq wf not_leaf (by decide) added (by decide +kernel) selected becomes
    (m := ⟨[nLinear, nModule], .linear 2 1, [], [(nWeight, 0)]⟩) rfl (by intro i o g gr h; cases h) (by decide +kernel) (by decide +kernel)
    (by intro x hx; rw [h1] at hx; simp at hx; subst hx; exact ⟨by decide +kernel, rfl⟩)
    (by intro x hx; rw [h2] at hx; simp at hx; subst hx; exact ⟨by decide +kernel, rfl⟩)
  exact ⟨a, d, A, D, e1, e2, e3, e4, e5, e6⟩

end ExPca
end Logix
