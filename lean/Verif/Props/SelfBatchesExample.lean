/-
Instances for C113, and its counterexample.
-/
import Verif.Props.SelfBatches
import Verif.Props.InflAllExample

namespace Logix.ExInfl
open Logix Spec

theorem selfTwo (s : LState Rat) {pre : Bool} {hessian : Hess} {groups : Option (List PyStr)} {damping : Option Rat}
    (h : (match computeSelf lib s [['u']] (.dict (logB .cpu [7])) pre hessian groups damping with
      | .ok (s', _) => (computeSelf lib s' [['v'], ['w']] (.dict (logB .cpu [-2, 4])) pre hessian groups damping).toOption.isSome
      | .error _ => false) = true) : ∃ s₁ s₂ v v', computeSelf lib s [['u']] (.dict (logB .cpu [7])) pre hessian groups damping = .ok (s₁, v) ∧
        computeSelf lib s₁ [['v'], ['w']] (.dict (logB .cpu [-2, 4])) pre hessian groups damping = .ok (s₂, v') ∧ SelfRun lib pre hessian groups damping s twoBatches [v, v'] := by
  split at h
  · next s₁ v h1 =>
    obtain ⟨s₂, v', h2⟩ := isOk h
    exact ⟨s₁, s₂, v, v', h1, h2, .cons h1 (.cons h2 (.nil _))⟩
  · cases h

/-- Two batches after an earlier computation, with a group. -/
example : ∃ s v v' s' w, SelfRun lib true .auto (some [gB]) (some 1) s twoBatches [v, v'] ∧
    computeSelf lib st [['u'], ['v'], ['w']] (.dict (logB .cpu [7, -2, 4])) true .auto (some [gB]) (some 1) = .ok (s', w) ∧ SelfJoined [v, v'] (some [gB]) w := by
  have h : (match serveAll lib Rat.sqrt st [.selfInfluence ids2 (.dict log2) true .auto none (some 1)] with
    | .ok s => (match computeSelf lib s [['u']] (.dict (logB .cpu [7])) true .auto (some [gB]) (some 1) with
      | .ok (s', _) => (computeSelf lib s' [['v'], ['w']] (.dict (logB .cpu [-2, 4])) true .auto (some [gB]) (some 1)).toOption.isSome
      | .error _ => false)
    | .error _ => false) = true := by decide +kernel
  split at h
  · next s hs =>
    obtain ⟨s₁, s₂, v, v', -, -, h1⟩ := selfTwo s h
    obtain ⟨s', w, hw⟩ := isOk (x := computeSelf lib st [['u'], ['v'], ['w']] (.dict (logB .cpu [7, -2, 4])) true .auto (some [gB]) (some 1)) (by decide +kernel)
    exact ⟨s, v, v', s', w, h1, hw, C113_same_damping_partial st_run st_noEk (by simp [Call.damping]) hs h1 hw twoBatches_ok
      (fun b hb => ⟨twoBatches_lab b hb, twoBatches_keys b hb⟩) (labB rfl)⟩
  · cases h

/-- With `hessian="kfac"`, after a computation with another damping. -/
example : ∃ s v v' s' w, SelfRun lib true .kfac none (some 1) s twoBatches [v, v'] ∧
    computeSelf lib st [['u'], ['v'], ['w']] (.dict (logB .cpu [7, -2, 4])) true .kfac none (some 1) = .ok (s', w) ∧ SelfJoined [v, v'] none w := by
  have h : (match serveAll lib Rat.sqrt st [.selfInfluence ids2 (.dict log2) true .kfac none (some 5)] with
    | .ok s => (match computeSelf lib s [['u']] (.dict (logB .cpu [7])) true .kfac none (some 1) with
      | .ok (s', _) => (computeSelf lib s' [['v'], ['w']] (.dict (logB .cpu [-2, 4])) true .kfac none (some 1)).toOption.isSome
      | .error _ => false)
    | .error _ => false) = true := by decide +kernel
  split at h
  · next s hs =>
    obtain ⟨s₁, s₂, v, v', -, -, h1⟩ := selfTwo s h
    obtain ⟨s', w, hw⟩ := isOk (x := computeSelf lib st [['u'], ['v'], ['w']] (.dict (logB .cpu [7, -2, 4])) true .kfac none (some 1)) (by decide +kernel)
    exact ⟨s, v, v', s', w, h1, hw, C113_kfac_partial st_run st_noEk (by simp [Call.hessian]) hs h1 hw twoBatches_ok
      (fun b hb => ⟨twoBatches_lab b hb, twoBatches_keys b hb⟩) (labB rfl)⟩
  · cases h

example : selfEl (computeSelf lib st [['u'], ['v'], ['w']] (.dict (logB .cpu [7, -2, 4])) true .kfac none (some 1)) kTotal 2 = some (8 / 3) := by decide +kernel

/-- **C113 fails** with fitted eigenvalues: the samples of the second batch get other self-influences than in one call with all samples. -/
theorem C113_refuted : ¬ ∀ (L : Lib Rat) (ops : List (StateOp Rat)) (s s' : LState Rat) (batches : List (List PyStr × GLog Rat)) (allIds : List PyStr) (e : GLog Rat) (c : Rat)
    (vs : List (SelfResult Rat)) (w : SelfResult Rat), EighOk L → InverseOk L → runOps L .init ops = .ok s → SelfRun L true .kfac none (some c) s batches vs →
    computeSelf L s allIds (.dict e) true .kfac none (some c) = .ok (s', w) → Batches batches allIds e →
    (∀ b ∈ batches, Labelled b.1 b.2 ∧ Dict.keys b.2 = Dict.keys e) → Labelled allIds e → SelfJoined vs none w := by
  intro hall
  obtain ⟨s₁, s₂, v, v', h1, h2, h3⟩ := selfTwo stEk (pre := true) (hessian := .kfac) (groups := none) (damping := some 1) (by decide +kernel)
  obtain ⟨s', w, hw⟩ := isOk (x := computeSelf lib stEk [['u'], ['v'], ['w']] (.dict (logB .cpu [7, -2, 4])) true .kfac none (some 1)) (by decide +kernel)
  obtain ⟨-, h4⟩ := hall lib ekOps stEk s' _ _ _ 1 _ w eighOk inverseOk stEk_run h3 hw twoBatches_ok (fun b hb => ⟨twoBatches_lab b hb, twoBatches_keys b hb⟩) (labB rfl)
  obtain ⟨x, hx, -, h5⟩ := h4 _ (.inl rfl)
  obtain ⟨t, ht, -, h6⟩ := h5 [v] v' [] rfl
  obtain ⟨-, -, e1, -⟩ := computeSelf_ok h1 (labB rfl)
  obtain ⟨-, -, e2, -⟩ := computeSelf_ok h2 (labB rfl)
  have h7 := h6 1 (by rw [e2]; decide)
  simp only [List.flatMap_cons, List.flatMap_nil, e1, List.append_nil, List.length_cons, List.length_nil] at h7
  have c1 : selfEl (computeSelf lib stEk [['u'], ['v'], ['w']] (.dict (logB .cpu [7, -2, 4])) true .kfac none (some 1)) kTotal 2 = some 8 := by decide +kernel
  have c2 : ((computeSelf lib stEk [['u']] (.dict (logB .cpu [7])) true .kfac none (some 1)).toOption.bind fun x =>
      selfEl (computeSelf lib x.1 [['v'], ['w']] (.dict (logB .cpu [-2, 4])) true .kfac none (some 1)) kTotal 1) = some (16 / 3) := by decide +kernel
  rw [h1] at c2
  simp only [Except.toOption, Option.bind_some] at c2
  rw [selfEl_eq hw hx c1, selfEl_eq h2 ht c2] at h7
  revert h7
  decide +kernel

end Logix.ExInfl
