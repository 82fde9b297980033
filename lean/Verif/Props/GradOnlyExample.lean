/-
C118 on a concrete pair of logs with forward activations and gradients, with Kronecker-factored statistics.
-/
import Verif.Props.GradOnly
import Verif.Props.InflExample2

namespace Logix.ExInfl
open Logix

/-- The logs of `setup({"log": ["forward", "grad"]})`: the forward pass comes first. -/
def both1 : GLog Rat :=
  [(nmA, [(LogType.name .forward, ⟨.cpu, [2, 2], [3, 4, -8, 6], rfl⟩), (LogType.name .grad, ⟨.cpu, [2, 1, 2], [1, 2, 3, 4], rfl⟩)]),
   (nmB, [(LogType.name .forward, ⟨.cpu, [2, 1], [1, 1], rfl⟩), (LogType.name .grad, ⟨.cpu, [2, 1, 1], [5, 6], rfl⟩)])]
def both2 : GLog Rat :=
  [(nmA, [(LogType.name .forward, ⟨.cuda 0, [3, 2], [1, 0, 2, 1, 1, 1], rfl⟩), (LogType.name .grad, ⟨.cuda 0, [3, 1, 2], [0, 1, 1, 0, 2, -1], rfl⟩)]),
   (nmB, [(LogType.name .forward, ⟨.cuda 0, [3, 1], [1, 2, 3], rfl⟩), (LogType.name .grad, ⟨.cuda 0, [3, 1, 1], [1, 0, -1], rfl⟩)])]

/-- The same target log with the gradients first. -/
def first2 : GLog Rat := both2.map fun p => (p.1, p.2.reverse)

theorem both1_only : Spec.gradOnly both1 = log1 := by rfl
theorem both2_only : Spec.gradOnly both2 = log2 := by rfl

theorem first2_first : Spec.GradFirst first2 := by
  intro p hp q hq
  simp only [first2, both2, List.map_cons, List.map_nil, List.mem_cons, List.not_mem_nil, or_false] at hp
  rcases hp with rfl | rfl <;> (simp at hq; exact hq ▸ rfl)

/-- With the gradients first, the scores are there and the forward activations do not matter. -/
example (mode : Mode) (pre : Bool) : computeInfluence lib id st ids1 (.dict log1) ids2 (.dict log2) mode pre .auto none (some 1) =
    computeInfluence lib id st ids1 (.dict both1) ids2 (.dict first2) mode pre .auto none (some 1) :=
  C118_first_partial lib id st ids1 ids2 (d := log1) (d' := both1) (t := log2) (t' := first2) rfl rfl
    (by rw [← both2_only]; exact gradFirst_gradOnly both2) first2_first mode pre .auto none (some 1)

/-- Is this a result? -/
def returns {α : Type} (r : Py α) : Bool := r.toOption.isSome

example : returns (computeInfluence lib id st ids1 (.dict both1) ids2 (.dict first2) .dot true .auto none (some 1)) = true := by decide +kernel

/-- Self-influence with the forward activations is that without. -/
example (pre : Bool) : computeSelf lib st ids1 (.dict both1) pre .auto none (some 1) = computeSelf lib st ids1 (.dict log1) pre .auto none (some 1) :=
  C118_self_partial lib st ids1 (d := both1) (d' := log1) rfl pre .auto none (some 1)

example : returns (computeSelf lib st ids1 (.dict both1) true .auto none (some 1)) = true := by decide +kernel

/-- Without preconditioning the order does not matter, either. -/
example (mode : Mode) : computeInfluence lib id st ids1 (.dict both1) ids2 (.dict both2) mode false .auto none (some 1) =
    computeInfluence lib id st ids1 (.dict log1) ids2 (.dict log2) mode false .auto none (some 1) :=
  C118_plain_partial lib id st ids1 ids2 (d := both1) (d' := log1) (t := both2) (t' := log2) (dev := .cpu) rfl rfl
    (by simp only [Spec.OneDev]; decide +kernel) (by simp only [Spec.OneDev]; decide +kernel)
    (by
      intro p hp q hq
      have : ∀ p ∈ both2, ∀ q ∈ p.2, ((Dict.get? both1 p.1).bind fun sub => Dict.get? sub q.1).isSome = true := by decide +kernel
      exact Option.isSome_iff_exists.1 (this p hp q hq))
    (by
      intro p hp q hq
      have : ∀ p ∈ log2, ∀ q ∈ p.2, ((Dict.get? log1 p.1).bind fun sub => Dict.get? sub q.1).isSome = true := by decide +kernel
      exact Option.isSome_iff_exists.1 (this p hp q hq))
    mode .auto none (some 1)

example : returns (computeInfluence lib id st ids1 (.dict both1) ids2 (.dict both2) .dot false .auto none (some 1)) = true := by decide +kernel

theorem st_covers : ∀ cov, st.getAttr nCov = .ok cov → ∀ m ∈ Dict.keys both1, Dict.contains cov m = true := by
  have : (match st.getAttr nCov with | .ok cov => decide (∀ m ∈ Dict.keys both1, Dict.contains cov m = true) | .error _ => false) = true := by decide +kernel
  intro cov hc
  rw [hc] at this
  exact of_decide_eq_true this

/-- With the forward activations first, the influence computation raises. -/
example (mode : Mode) (h : Hess) (c : Option Rat) :
    ∃ e, computeInfluence lib id st ids1 (.dict both1) ids2 (.dict both2) mode true h none c = .error e :=
  C118_raises lib id st ids1 ids2 st_covers (by decide) mode h none c

/-- **C118 is false**: with the forward activations in the logs the influence computation raises; without them it returns. -/
theorem C118_refuted : ¬ ∀ (L : Lib Rat), Spec.EighOk L → Spec.InverseOk L → ∀ (sqrt : Rat → Rat) (s : LState Rat) (srcIds tgtIds : List PyStr)
    (d t : GLog Rat), Spec.Labelled srcIds d → Spec.Labelled tgtIds t → ∀ (mode : Mode) (pre : Bool) (hessian : Hess) (damping : Option Rat),
    computeInfluence L sqrt s srcIds (.dict d) tgtIds (.dict t) mode pre hessian none damping =
      computeInfluence L sqrt s srcIds (.dict (Spec.gradOnly d)) tgtIds (.dict (Spec.gradOnly t)) mode pre hessian none damping := by
  intro h
  have l1 : Spec.Labelled ids1 both1 := by
    refine ⟨by decide +kernel, fun m hm => ?_⟩
    simp only [both1, Dict.keys, List.map_cons, List.map_nil, List.mem_cons, List.not_mem_nil, or_false] at hm
    rcases hm with rfl | rfl
    · exact ⟨_, rfl, rfl⟩
    · exact ⟨_, rfl, rfl⟩
  have l2 : Spec.Labelled ids2 both2 := by
    refine ⟨by decide +kernel, fun m hm => ?_⟩
    simp only [both2, Dict.keys, List.map_cons, List.map_nil, List.mem_cons, List.not_mem_nil, or_false] at hm
    rcases hm with rfl | rfl
    · exact ⟨_, rfl, rfl⟩
    · exact ⟨_, rfl, rfl⟩
  have := h lib eighOk inverseOk id st ids1 ids2 both1 both2 l1 l2 .dot true .auto (some 1)
  obtain ⟨e, he⟩ := C118_raises lib id st ids1 ids2 (d := both1) st_covers (m := nmA) (k := LogType.name .forward)
    (x := ⟨.cuda 0, [3, 2], [1, 0, 2, 1, 1, 1], rfl⟩) (sub := [(LogType.name .grad, ⟨.cuda 0, [3, 1, 2], [0, 1, 1, 0, 2, -1], rfl⟩)])
    (rest := both2.tail) (by decide) .dot .auto none (some 1)
  have he : computeInfluence lib id st ids1 (.dict both1) ids2 (.dict both2) .dot true .auto none (some 1) = .error e := he
  rw [he, both1_only, both2_only] at this
  have hr : returns (computeInfluence lib id st ids1 (.dict log1) ids2 (.dict log2) .dot true .auto none (some 1)) = true := by decide +kernel
  rw [← this] at hr
  cases hr

end Logix.ExInfl
