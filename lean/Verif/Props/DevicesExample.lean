/-
C119 on concrete logs, and its failure for a model spread over two GPUs.
-/
import Verif.Props.Devices
import Verif.Props.GradOnlyExample

namespace Logix.ExInfl
open Logix

/-- The source log on a GPU; the target log on two GPUs. -/
def gpu1 : GLog Rat := logOnDev log1 (.cuda 1)
def mixed2 : GLog Rat :=
  [(nmA, [(LogType.name .grad, ⟨.cuda 0, [3, 1, 2], [0, 1, 1, 0, 2, -1], rfl⟩)]), (nmB, [(LogType.name .grad, ⟨.cuda 1, [3, 1, 1], [1, 0, -1], rfl⟩)])]

theorem log1_cpu : Spec.OneDev .cpu log1 := by simp only [Spec.OneDev]; decide +kernel

/-- With KFAC, without or with damping given, scores from the GPU are those from the CPU. -/
example (pre : Bool) (c : Option Rat) : (computeInfluence lib id st ids1 (.dict gpu1) ids2 (.dict mixed2) .dot pre .auto none c).map Prod.snd =
    (computeInfluence lib id st ids1 (.dict log1) ids2 (.dict log2) .dot pre .auto none c).map Prod.snd :=
  C119_influence_partial lib id st ids1 ids2 (dev := .cuda 1) (dev' := .cpu) (d := gpu1) (d' := log1) (t := mixed2) (t' := log2)
    (by decide +kernel) (oneDev_logOnDev _ _) log1_cpu rfl rfl pre .auto none c

example : returns (computeInfluence lib id st ids1 (.dict gpu1) ids2 (.dict mixed2) .dot true .auto none (some 1)) = true := by decide +kernel

example (pre : Bool) (c : Option Rat) : (computeSelf lib st ids1 (.dict gpu1) pre .auto none c).map Prod.snd =
    (computeSelf lib st ids1 (.dict log1) pre .auto none c).map Prod.snd :=
  C119_self_partial lib st ids1 (dev := .cuda 1) (dev' := .cpu) (d := gpu1) (d' := log1) (by decide +kernel) (oneDev_logOnDev _ _) log1_cpu rfl pre .auto none c

example : returns (computeSelf lib st ids1 (.dict gpu1) true .auto none (some 1)) = true := by decide +kernel

/-- The source log of a model whose second layer is on another GPU. -/
def split1 : GLog Rat :=
  [(nmA, [(LogType.name .grad, ⟨.cuda 0, [2, 1, 2], [1, 2, 3, 4], rfl⟩)]), (nmB, [(LogType.name .grad, ⟨.cuda 1, [2, 1, 1], [5, 6], rfl⟩)])]

/-- **C119 is false**: with the layers on two GPUs `compute_influence` raises; with everything on the CPU it returns. -/
theorem C119_refuted : ¬ ∀ (L : Lib Rat), Spec.EighOk L → Spec.InverseOk L → ∀ (sqrt : Rat → Rat) (s : LState Rat) (srcIds tgtIds : List PyStr)
    (d d' t t' : GLog Rat), Spec.Labelled srcIds d → Spec.Labelled tgtIds t → Spec.values d = Spec.values d' → Spec.values t = Spec.values t' →
    ∀ (pre : Bool) (hessian : Hess) (damping : Option Rat),
    (computeInfluence L sqrt s srcIds (.dict d) tgtIds (.dict t) .dot pre hessian none damping).map Prod.snd =
      (computeInfluence L sqrt s srcIds (.dict d') tgtIds (.dict t') .dot pre hessian none damping).map Prod.snd := by
  intro h
  have := h lib eighOk inverseOk id st ids1 ids2 log1 split1 log2 log2 lab1 lab2 rfl rfl true .auto (some 1)
  obtain ⟨e, he⟩ := C119_influence_raises (L := lib) (sqrt := id) (s := st) (srcIds := ids1) (tgtIds := ids2) (d := split1) (t := log2) (mode := .dot)
    (pre := true) (hessian := .auto) (groups := none) (damping := some 1) (by decide +kernel) (m := nmA) (m' := nmB)
    (g := ⟨.cuda 0, [2, 1, 2], [1, 2, 3, 4], rfl⟩) (g' := ⟨.cuda 1, [2, 1, 1], [5, 6], rfl⟩) rfl rfl (by decide)
  rw [he] at this
  have hr : returns ((computeInfluence lib id st ids1 (.dict log1) ids2 (.dict log2) .dot true .auto none (some 1)).map Prod.snd) = true := by decide +kernel
  rw [this] at hr
  cases hr

/-- So it is for self-influence. -/
example (pre : Bool) (c : Option Rat) : ∃ e, computeSelf lib st ids1 (.dict split1) pre .auto none c = .error e :=
  C119_self_raises (d := split1) (m := nmA) (m' := nmB) (g := ⟨.cuda 0, [2, 1, 2], [1, 2, 3, 4], rfl⟩) (g' := ⟨.cuda 1, [2, 1, 1], [5, 6], rfl⟩) rfl rfl (by decide)

end Logix.ExInfl
