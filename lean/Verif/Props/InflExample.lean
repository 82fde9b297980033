/-
A library of linear algebra over the rationals that keeps its promises, for concrete examples of influence computations.
-/
import Verif.Props.Precondition
import Mathlib.Algebra.Order.Ring.Rat

namespace Logix.ExInfl
open Logix

/-- Does this pair pass as an eigendecomposition? -/
def eigCheck (x w v : Tensor Rat) (n : Nat) : Bool :=
  decide (w.shape = [n] ∧ v.shape = [n, n] ∧ w.dev = x.dev ∧ v.dev = x.dev ∧
    (∀ i < n, ∀ a < n, ∑ j ∈ Finset.range n, x.el [i, j] * v.el [j, a] = w.el [a] * v.el [i, a]) ∧
    (∀ i < n, ∀ j < n, ∑ a ∈ Finset.range n, v.el [i, a] * v.el [j, a] = if i = j then 1 else 0) ∧
    (∀ a < n, ∀ b < n, ∑ i ∈ Finset.range n, v.el [i, a] * v.el [i, b] = if a = b then 1 else 0))

/-- Candidates for the eigenvectors: the identity, and for 2 × 2 matrices a rotation. -/
def bases (dev : Dev) (n : Nat) : List (Tensor Rat) :=
  [Tensor.ofFn2 dev n n fun i j => if i = j then 1 else 0, ⟨dev, [2, 2], [3 / 5, -4 / 5, 4 / 5, 3 / 5], rfl⟩]

/-- The eigenvalues that go with a basis. -/
def ritz (x v : Tensor Rat) (n : Nat) : Tensor Rat :=
  Tensor.ofFn1 x.dev n fun a => ∑ i ∈ Finset.range n, ∑ j ∈ Finset.range n, v.el [i, a] * x.el [i, j] * v.el [j, a]

def eigh (x : Tensor Rat) : Py (Tensor Rat × Tensor Rat) :=
  match (bases x.dev (x.size 0)).find? fun v => eigCheck x (ritz x v (x.size 0)) v (x.size 0) with
  | some v => .ok (ritz x v (x.size 0), v)
  | none => .error .runtimeError

/-- Does `y` pass as the inverse of `x`? -/
def invCheck (x y : Tensor Rat) (n : Nat) : Bool :=
  decide (y.shape = [n, n] ∧
    (∀ i < n, ∀ j < n, ∑ k ∈ Finset.range n, x.el [i, k] * y.el [k, j] = if i = j then 1 else 0) ∧
    ∀ i < n, ∀ j < n, ∑ k ∈ Finset.range n, y.el [i, k] * x.el [k, j] = if i = j then 1 else 0)

/-- The candidate for the inverse, for matrices with one or two rows. -/
def invCand (x : Tensor Rat) : Tensor Rat :=
  if x.size 0 = 1 then Tensor.ofFn2 x.dev 1 1 fun _ _ => 1 / x.el [0, 0]
  else
    let D := x.el [0, 0] * x.el [1, 1] - x.el [0, 1] * x.el [1, 0]
    ⟨x.dev, [2, 2], [x.el [1, 1] / D, -x.el [0, 1] / D, -x.el [1, 0] / D, x.el [0, 0] / D], rfl⟩

def inverse (x : Tensor Rat) : Py (Tensor Rat) := if invCheck x (invCand x) (x.size 0) then .ok (invCand x) else .error .runtimeError

def lib : Lib Rat := ⟨eigh, inverse⟩

theorem eighOk : Spec.EighOk lib := by
  intro x n hx w v h
  have hn : x.size 0 = n := by simp [Tensor.size, hx.1]
  have h : eigh x = .ok (w, v) := h
  unfold eigh at h
  rw [hn] at h
  split at h
  · next v' hv =>
    cases h
    have := List.find?_some hv
    simp only [eigCheck, decide_eq_true_eq] at this
    obtain ⟨h1, h2, h3, h4, h5, h6, h7⟩ := this
    exact ⟨⟨h1, h2, fun i a hi ha => h5 i hi a ha, fun i j hi hj => h6 i hi j hj, fun a b ha hb => h7 a ha b hb⟩, h3, h4⟩
  · cases h

theorem inverseOk : Spec.InverseOk lib := by
  intro x n hx y h
  have hn : x.size 0 = n := by simp [Tensor.size, hx]
  have h : inverse x = .ok y := h
  unfold inverse at h
  split at h
  · next hc =>
    cases h
    simp only [invCheck, hn, decide_eq_true_eq] at hc
    exact ⟨hc.1, fun i j hi hj => hc.2.1 i hi j hj, fun i j hi hj => hc.2.2 i hi j hj⟩
  · cases h

theorem ok {α : Type} {x : Py α} {a : α} (h : x.toOption = some a) : x = .ok a := by
  cases x with
  | ok b => cases h; rfl
  | error e => cases h

/-! ### Two linear layers -/

def nmA : PyStr := ['e', '.', 'a']
def nmB : PyStr := ['e', '.', 'b']

/-- Covariances: of the inputs of `e.a` with eigenvectors (3, 4) / 5 and (-4, 3) / 5, all others one by one. -/
def covOps : List (StateOp Rat) :=
  [.update .covariance ⟨some .linear, nmA, .forward, ⟨.cpu, [2, 2], [3, 4, -8, 6], rfl⟩, none, false⟩,
   .update .covariance ⟨some .linear, nmA, .backward, ⟨.cpu, [2, 1], [1, 2], rfl⟩, none, false⟩,
   .update .covariance ⟨some .linear, nmB, .forward, ⟨.cpu, [2, 1], [1, 1], rfl⟩, none, false⟩,
   .update .covariance ⟨some .linear, nmB, .backward, ⟨.cpu, [2, 1], [1, 3], rfl⟩, none, false⟩,
   .finalize ⟨[], none⟩]

/-- The state after the covariances have been computed. -/
def st : LState Rat := match runOps lib .init covOps with | .ok s => s | .error _ => .init

theorem st_run : runOps lib .init covOps = .ok st := by
  have : (runOps lib .init covOps).toOption.isSome = true := by decide +kernel
  unfold st
  cases h : runOps lib .init covOps with
  | ok s => rfl
  | error e => rw [h] at this; cases this

def log1 : GLog Rat := [(nmA, [(LogType.name .grad, ⟨.cpu, [2, 1, 2], [1, 2, 3, 4], rfl⟩)]), (nmB, [(LogType.name .grad, ⟨.cpu, [2, 1, 1], [5, 6], rfl⟩)])]
def log2 : GLog Rat :=
  [(nmA, [(LogType.name .grad, ⟨.cuda 0, [3, 1, 2], [0, 1, 1, 0, 2, -1], rfl⟩)]), (nmB, [(LogType.name .grad, ⟨.cuda 0, [3, 1, 1], [1, 0, -1], rfl⟩)])]
def ids1 : List PyStr := [['x'], ['y']]
def ids2 : List PyStr := [['u'], ['v'], ['w']]

theorem lab1 : Spec.Labelled ids1 log1 := by
  refine ⟨by decide +kernel, fun m hm => ?_⟩
  simp only [log1, Dict.keys, List.map_cons, List.map_nil, List.mem_cons, List.not_mem_nil, or_false] at hm
  rcases hm with rfl | rfl
  · exact ⟨_, rfl, rfl⟩
  · exact ⟨_, rfl, rfl⟩

theorem lab2 : Spec.Labelled ids2 log2 := by
  refine ⟨by decide +kernel, fun m hm => ?_⟩
  simp only [log2, Dict.keys, List.map_cons, List.map_nil, List.mem_cons, List.not_mem_nil, or_false] at hm
  rcases hm with rfl | rfl
  · exact ⟨_, rfl, rfl⟩
  · exact ⟨_, rfl, rfl⟩

theorem st_fresh : Spec.SvdFresh st := by
  have h1 : st.hasAttr nEigval = false := by decide +kernel
  have h2 : st.hasAttr nEigvec = false := by decide +kernel
  exact ⟨by rw [h1, h2], fun h => by rw [h2] at h; cases h⟩

theorem st_invFresh (c : Rat) : Spec.InvFresh st c := by
  have h1 : st.hasAttr nInverse = false := by decide +kernel
  intro h
  rw [h1] at h; cases h

/-- The gradients of the preconditioned log. -/
def preGrads (r : Py (LState Rat × LogArg Rat)) (m : PyStr) : Option (List Rat) :=
  match r with
  | .ok (_, .dict d) => (Spec.grad d m).map (·.data)
  | _ => none

/-- The preconditioned gradients of the example. -/
example : preGrads (precondition lib st (.dict log1) .auto (some 1)) nmA = some [104 / 2709, 17 / 301, 4 / 43, 16 / 129] ∧
    preGrads (precondition lib st (.dict log1) .auto (some 1)) nmB = some [5 / 6, 1] := by
  decide +kernel

def covAt (m t : PyStr) : Tensor Rat := (Spec.tensorAt st.attrs nCov [m, t]).getD ⟨.cpu, [0], [], rfl⟩

theorem st_cov {m t : PyStr} (h : (Spec.tensorAt st.attrs nCov [m, t]).isSome = true) : Spec.tensorAt st.attrs nCov [m, t] = some (covAt m t) := by
  unfold covAt
  cases h' : Spec.tensorAt st.attrs nCov [m, t] with
  | none => rw [h'] at h; cases h
  | some x => rfl

def hts (_ : PyStr) : Nat := 1
def wds (m : PyStr) : Nat := if m = nmA then 2 else 1

/-- The hypotheses of `C43_positive_damping` are met. -/
example : ∃ s' out, precondition lib st (.dict log1) .kfac (some 1) = .ok (s', .dict out) ∧ Dict.keys out = [nmA, nmB] := by
  have h : (precondition lib st (.dict log1) .kfac (some 1)).toOption.isSome = true := by decide +kernel
  cases h' : precondition lib st (.dict log1) .kfac (some 1) with
  | error e => rw [h'] at h; cases h
  | ok r =>
    have hk : ∀ m ∈ Dict.keys log1, m = nmA ∨ m = nmB := by decide +kernel
    obtain ⟨s₁, o⟩ := r
    obtain ⟨out, rfl, h2, -⟩ := C43_positive_damping (A := fun m => covAt m (LogType.name .forward))
      (B := fun m => covAt m (LogType.name .backward)) (wd := wds) (ht := hts) st_run (by
        intro o ho
        simp only [covOps, List.mem_cons, List.not_mem_nil, or_false] at ho
        rcases ho with rfl | rfl | rfl | rfl | rfl <;> simp [Spec.MaskNonneg]) eighOk st_fresh (by decide +kernel) (by decide +kernel) (.inl rfl)
      (fun m hm => by rcases hk m hm with rfl | rfl <;> exact ⟨st_cov (by decide +kernel), by decide +kernel⟩)
      (fun m hm => by rcases hk m hm with rfl | rfl <;> exact ⟨st_cov (by decide +kernel), by decide +kernel⟩) one_pos h'
    exact ⟨_, _, rfl, h2⟩

/-! ### Gradient covariances -/

def rawOps : List (StateOp Rat) :=
  [.update .covariance ⟨none, nmA, .grad, ⟨.cpu, [2, 1, 2], [1, 2, 3, 4], rfl⟩, none, false⟩,
   .update .covariance ⟨none, nmB, .grad, ⟨.cpu, [2, 1, 1], [5, 6], rfl⟩, none, false⟩,
   .finalize ⟨[], none⟩]

/-- The state after gradient covariances have been computed. -/
def stRaw : LState Rat := match runOps lib .init rawOps with | .ok s => s | .error _ => .init

theorem stRaw_run : runOps lib .init rawOps = .ok stRaw := by
  have : (runOps lib .init rawOps).toOption.isSome = true := by decide +kernel
  unfold stRaw
  cases h : runOps lib .init rawOps with
  | ok s => rfl
  | error e => rw [h] at this; cases this

theorem stRaw_invFresh (c : Rat) : Spec.InvFresh stRaw c := by
  have h1 : stRaw.hasAttr nInverse = false := by decide +kernel
  intro h
  rw [h1] at h; cases h

def rawAt (m : PyStr) : Tensor Rat := (Spec.tensorAt stRaw.attrs nCov [m, LogType.name .grad]).getD ⟨.cpu, [0], [], rfl⟩

theorem stRaw_cov {m : PyStr} (h : (Spec.tensorAt stRaw.attrs nCov [m, LogType.name .grad]).isSome = true) :
    Spec.tensorAt stRaw.attrs nCov [m, LogType.name .grad] = some (rawAt m) := by
  unfold rawAt
  cases h' : Spec.tensorAt stRaw.attrs nCov [m, LogType.name .grad] with
  | none => rw [h'] at h; cases h
  | some x => rfl

/-- The hypotheses of `C44_raw_solves` are met. -/
example : ∃ s' out, precondition lib stRaw (.dict log1) .raw (some 1) = .ok (s', .dict out) ∧ Dict.keys out = [nmA, nmB] := by
  have h : (precondition lib stRaw (.dict log1) .raw (some 1)).toOption.isSome = true := by decide +kernel
  cases h' : precondition lib stRaw (.dict log1) .raw (some 1) with
  | error e => rw [h'] at h; cases h
  | ok r =>
    have hk : ∀ m ∈ Dict.keys log1, m = nmA ∨ m = nmB := by decide +kernel
    obtain ⟨s₁, o⟩ := r
    obtain ⟨out, rfl, h2, -⟩ := C44_raw_solves (C := rawAt) (wd := wds) stRaw_run inverseOk (stRaw_invFresh 1)
      (by decide +kernel) (.inl rfl)
      (fun m hm => by rcases hk m hm with rfl | rfl <;> exact ⟨stRaw_cov (by decide +kernel), by decide +kernel⟩) h'
    exact ⟨_, _, rfl, h2⟩

/-- A log with a module that has no covariance, for `C45_nothing`: nothing is preconditioned, though `e.a` has covariances. -/
example : precondition lib st (.dict (log1 ++ [(['z'], [(LogType.name .grad, ⟨.cpu, [2, 1], [1, 1], rfl⟩)])])) .kfac (some 1) =
    .ok (st, .dict (log1 ++ [(['z'], [(LogType.name .grad, ⟨.cpu, [2, 1], [1, 1], rfl⟩)])])) := by
  obtain ⟨cov, hcov⟩ := cov_getAttr st_run
  refine C45_nothing hcov (by decide) (m := ['z']) (by decide +kernel) fun hm => ?_
  have : (match st.getAttr nCov with | .ok c => decide (['z'] ∈ Dict.keys c) | .error _ => false) = false := by decide +kernel
  rw [hcov] at this
  simp [hm] at this

/-- And the hypotheses of `C45_all` are met by `log1`. -/
example : ∃ cov, st.getAttr nCov = .ok cov ∧ (∀ m ∈ Dict.keys log1, m ∈ Dict.keys cov) := by
  obtain ⟨cov, hcov⟩ := cov_getAttr st_run
  refine ⟨cov, hcov, ?_⟩
  have : (match st.getAttr nCov with | .ok c => decide (∀ m ∈ Dict.keys log1, m ∈ Dict.keys c) | .error _ => false) = true := by decide +kernel
  rw [hcov] at this
  simpa using this

end Logix.ExInfl
