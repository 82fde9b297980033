/-
C30, C31, C35: the mean and the covariance.
-/
import Verif.Lemmas.State
import Mathlib.Algebra.Field.Rat

namespace Logix
variable {K : Type}

/-- Without masks (or for gradients, where masks are not used) the counter counts samples. -/
theorem count_samples [Semiring K] (cs : List (StatCall K)) (h : ∀ c ∈ cs, c.mask = none ∨ c.logType = .grad) :
    (cs.map batchCount).sum = (Spec.samples cs : K) := by
  induction cs with
  | nil => simp [Spec.samples]
  | cons c cs ih =>
    have hb : batchCount c = (c.data.size 0 : K) := by
      unfold batchCount
      rcases h c (by simp) with h | h
      · rw [h]
      · rw [h]; split <;> simp
    rw [List.map_cons, List.sum_cons, ih (fun c hc => h c (List.mem_cons_of_mem _ hc)), hb]
    simp [Spec.samples]

/-- **C30.** After finalize the mean of a logged quantity is the sum of all rows logged by the mean plugin for that module and log type,
divided by the number of samples, whatever was logged besides. -/
theorem C30_mean [Field K] (L : Lib K) {calls : List (Plugin × StatCall K)} {s s' : LState K} {dir dir' : StateDir K}
    (hrun : updates L .init calls = .ok s) (hfin : s.finalize dir = .ok (s', dir')) (m : PyStr) (lt : LogType)
    (hne : Spec.callsOf .mean m lt calls ≠ []) (hmask : ∀ c ∈ Spec.callsOf .mean m lt calls, c.mask = none ∨ c.logType = .grad) :
    ∃ t W, Spec.tensorAt s'.attrs nMean [m, lt.name] = some t ∧ t.shape = [W] ∧
      (∀ c ∈ Spec.callsOf .mean m lt calls, Spec.callWidth c = W) ∧
      ∀ j, j < W → t.el [j] =
        ((Spec.allRows (Spec.callsOf .mean m lt calls)).map fun r => r j).sum / (Spec.samples (Spec.callsOf .mean m lt calls) : K) := by
  obtain ⟨t, W, h1, h2, h3, h4⟩ := stat_finalize L statOf_mean (by decide) hrun hfin m lt hne
  refine ⟨t, W, h1, h2, h3, fun j hj => ?_⟩
  rw [h4 [j] (by simp [inRange, hj]), count_samples _ hmask]
  rfl

/-- **C31.** After finalize the covariance of a logged quantity is the sum of the outer products of all rows with themselves, divided by the
number of samples. -/
theorem C31_covariance [Field K] (L : Lib K) {calls : List (Plugin × StatCall K)} {s s' : LState K} {dir dir' : StateDir K}
    (hrun : updates L .init calls = .ok s) (hfin : s.finalize dir = .ok (s', dir')) (m : PyStr) (lt : LogType)
    (hne : Spec.callsOf .covariance m lt calls ≠ [])
    (hmask : ∀ c ∈ Spec.callsOf .covariance m lt calls, c.mask = none ∨ c.logType = .grad) :
    ∃ t W, Spec.tensorAt s'.attrs nCov [m, lt.name] = some t ∧ t.shape = [W, W] ∧
      (∀ c ∈ Spec.callsOf .covariance m lt calls, Spec.callWidth c = W) ∧
      ∀ i j, i < W → j < W → t.el [i, j] =
        ((Spec.allRows (Spec.callsOf .covariance m lt calls)).map fun r => r i * r j).sum /
          (Spec.samples (Spec.callsOf .covariance m lt calls) : K) := by
  obtain ⟨t, W, h1, h2, h3, h4⟩ := stat_finalize L statOf_cov (by decide) hrun hfin m lt hne
  refine ⟨t, W, h1, h2, h3, fun i j hi hj => ?_⟩
  rw [h4 [i, j] (by simp [inRange, hi, hj]), count_samples _ hmask]
  rfl

/-- **C30**, batching: two runs that logged the same rows for a quantity, in any order and cut into batches in any way, end with the same
mean. -/
theorem C30_batching [Field K] (L L' : Lib K) {calls₁ calls₂ : List (Plugin × StatCall K)} {s₁ s₁' s₂ s₂' : LState K}
    {dir₁ dir₁' dir₂ dir₂' : StateDir K}
    (hrun₁ : updates L .init calls₁ = .ok s₁) (hfin₁ : s₁.finalize dir₁ = .ok (s₁', dir₁'))
    (hrun₂ : updates L' .init calls₂ = .ok s₂) (hfin₂ : s₂.finalize dir₂ = .ok (s₂', dir₂')) (m : PyStr) (lt : LogType)
    (hne₁ : Spec.callsOf .mean m lt calls₁ ≠ []) (hmask₁ : ∀ c ∈ Spec.callsOf .mean m lt calls₁, c.mask = none ∨ c.logType = .grad)
    (hne₂ : Spec.callsOf .mean m lt calls₂ ≠ []) (hmask₂ : ∀ c ∈ Spec.callsOf .mean m lt calls₂, c.mask = none ∨ c.logType = .grad)
    (hperm : (Spec.allRows (Spec.callsOf .mean m lt calls₁)).Perm (Spec.allRows (Spec.callsOf .mean m lt calls₂)))
    (hcount : Spec.samples (Spec.callsOf .mean m lt calls₁) = Spec.samples (Spec.callsOf .mean m lt calls₂)) :
    ∃ t₁ t₂, Spec.tensorAt s₁'.attrs nMean [m, lt.name] = some t₁ ∧ Spec.tensorAt s₂'.attrs nMean [m, lt.name] = some t₂ ∧
      ∀ j, j < t₁.size 0 → j < t₂.size 0 → t₁.el [j] = t₂.el [j] := by
  obtain ⟨t₁, W₁, a1, a2, a3, a4⟩ := C30_mean L hrun₁ hfin₁ m lt hne₁ hmask₁
  obtain ⟨t₂, W₂, b1, b2, b3, b4⟩ := C30_mean L' hrun₂ hfin₂ m lt hne₂ hmask₂
  refine ⟨t₁, t₂, a1, b1, fun j h1 h2 => ?_⟩
  rw [a4 j (by simpa [Tensor.size, a2] using h1), b4 j (by simpa [Tensor.size, b2] using h2), hcount]
  congr 1
  exact (hperm.map _).sum_eq

/-- **C31**, batching. -/
theorem C31_batching [Field K] (L L' : Lib K) {calls₁ calls₂ : List (Plugin × StatCall K)} {s₁ s₁' s₂ s₂' : LState K}
    {dir₁ dir₁' dir₂ dir₂' : StateDir K}
    (hrun₁ : updates L .init calls₁ = .ok s₁) (hfin₁ : s₁.finalize dir₁ = .ok (s₁', dir₁'))
    (hrun₂ : updates L' .init calls₂ = .ok s₂) (hfin₂ : s₂.finalize dir₂ = .ok (s₂', dir₂')) (m : PyStr) (lt : LogType)
    (hne₁ : Spec.callsOf .covariance m lt calls₁ ≠ [])
    (hmask₁ : ∀ c ∈ Spec.callsOf .covariance m lt calls₁, c.mask = none ∨ c.logType = .grad)
    (hne₂ : Spec.callsOf .covariance m lt calls₂ ≠ [])
    (hmask₂ : ∀ c ∈ Spec.callsOf .covariance m lt calls₂, c.mask = none ∨ c.logType = .grad)
    (hperm : (Spec.allRows (Spec.callsOf .covariance m lt calls₁)).Perm (Spec.allRows (Spec.callsOf .covariance m lt calls₂)))
    (hcount : Spec.samples (Spec.callsOf .covariance m lt calls₁) = Spec.samples (Spec.callsOf .covariance m lt calls₂)) :
    ∃ t₁ t₂, Spec.tensorAt s₁'.attrs nCov [m, lt.name] = some t₁ ∧ Spec.tensorAt s₂'.attrs nCov [m, lt.name] = some t₂ ∧
      ∀ i j, i < t₁.size 0 → j < t₁.size 0 → i < t₂.size 0 → j < t₂.size 0 → t₁.el [i, j] = t₂.el [i, j] := by
  obtain ⟨t₁, W₁, a1, a2, a3, a4⟩ := C31_covariance L hrun₁ hfin₁ m lt hne₁ hmask₁
  obtain ⟨t₂, W₂, b1, b2, b3, b4⟩ := C31_covariance L' hrun₂ hfin₂ m lt hne₂ hmask₂
  refine ⟨t₁, t₂, a1, b1, fun i j h1 h1' h2 h2' => ?_⟩
  rw [a4 i j (by simpa [Tensor.size, a2] using h1) (by simpa [Tensor.size, a2] using h1'),
    b4 i j (by simpa [Tensor.size, b2] using h2) (by simpa [Tensor.size, b2] using h2'), hcount]
  congr 1
  exact (hperm.map _).sum_eq

/-! ### A concrete run

Two batches (of two samples and of one) of activations of a linear layer of width two, over the rationals. -/

namespace ExStats

/-- A library that is never called. -/
def lib : Lib Rat := ⟨fun _ => .error .runtimeError, fun _ => .error .runtimeError⟩

def nm : PyStr := ['f', 'c']

def b1 : StatCall Rat := ⟨some .linear, nm, .forward, ⟨.cuda 0, [2, 2], [1, 2, 3, 4], rfl⟩, none, false⟩
def b2 : StatCall Rat := ⟨some .linear, nm, .forward, ⟨.cuda 0, [1, 2], [5, -3], rfl⟩, none, false⟩

def calls : List (Plugin × StatCall Rat) := [(.mean, b1), (.covariance, b1), (.mean, b2), (.covariance, b2)]

def dir : StateDir Rat := ⟨[], none⟩

/-- What a state holds after the run and `finalize`. -/
def outcome (s : LState Rat) (name : PyStr) (path : Path) : Option (Tensor Rat) :=
  match s.finalize dir with
  | .ok (s', _) => Spec.tensorAt s'.attrs name path
  | .error _ => none

/-- The hypotheses of C30 and C31 are met, and the result is the average of three rows. -/
example : (match updates lib .init calls with
    | .ok s => (outcome s nMean [nm, LogType.name .forward], outcome s nCov [nm, LogType.name .forward])
    | .error _ => (none, none)) = (some ⟨.cuda 0, [2], [3, 1], rfl⟩, some ⟨.cuda 0, [2, 2], [35 / 3, -1 / 3, -1 / 3, 29 / 3], rfl⟩) := by
  decide +kernel

example : Spec.callsOf .mean nm .forward calls = [b1, b2] ∧ (∀ c ∈ Spec.callsOf .mean nm .forward calls, c.mask = none) ∧
    Spec.samples [b1, b2] = 3 := by
  refine ⟨rfl, ?_, rfl⟩
  intro c hc
  simp only [show Spec.callsOf .mean nm .forward calls = [b1, b2] from rfl, List.mem_cons, List.not_mem_nil, or_false] at hc
  rcases hc with rfl | rfl <;> rfl

end ExStats

end Logix
