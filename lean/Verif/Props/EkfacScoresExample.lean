/-
C99 on a concrete run: the scores, from eigenvectors given by hand.
-/
import Verif.Props.EkfacScores
import Verif.Props.DeterminedExample

namespace Logix.ExInfl
open Logix

def ekA : Plugin × StatCall Rat := (.correctedEigval, ⟨none, nmA, .grad, ⟨.cpu, [2, 1, 2], [3, 4, -16, 12], rfl⟩, none, false⟩)
def ekB : Plugin × StatCall Rat := (.correctedEigval, ⟨none, nmB, .grad, ⟨.cpu, [2, 1, 1], [1, 3], rfl⟩, none, false⟩)
def ekBatches : List (Plugin × StatCall Rat) := [ekA, ekB]

/-- The state after the eigenvalues were fitted. -/
def ekStOf (L : Lib Rat) : LState Rat :=
  match updates L (stOf L wholeBatch) ekBatches with
  | .ok s₀ => match s₀.finalize ⟨[], none⟩ with
    | .ok (s, _) => s
    | .error _ => .init
  | .error _ => .init

theorem ekFin : Spec.EkFinalized lib wholeBatch ekBatches (ekStOf lib) := by
  refine ⟨fun pc h => ?_, stOf lib wholeBatch, ?_⟩
  · simp only [ekBatches, List.mem_cons, List.not_mem_nil, or_false] at h
    rcases h with rfl | rfl <;> exact .inr rfl
  · have h : ((updates lib (stOf lib wholeBatch) ekBatches).toOption.bind fun s₀ => (s₀.finalize ⟨[], none⟩).toOption).isSome = true := by decide +kernel
    unfold ekStOf
    cases hu : updates lib (stOf lib wholeBatch) ekBatches with
    | error e => rw [hu] at h; cases h
    | ok s₀ =>
      rw [hu] at h
      simp only [Except.toOption, Option.bind] at h
      cases hf : s₀.finalize ⟨[], none⟩ with
      | error e => rw [hf] at h; cases h
      | ok x => exact ⟨s₀, ⟨[], none⟩, x.2, finWhole, rfl, by simp only [hf]⟩

theorem ekLogged : Spec.EkLogged wholeBatch ekBatches (Dict.keys log1) .auto := by
  refine ⟨.inr ⟨rfl, fun m hm => ?_⟩, fun m hm => ?_⟩
  · rcases keys1 m hm with rfl | rfl <;> rfl
  · rcases keys1 m hm with rfl | rfl
    · exact ⟨⟨List.cons_ne_nil _ _, fun c hc => .inl (by
        have hc : c ∈ [(fA 2 [3, 4, -8, 6] rfl).2] := hc
        rw [List.mem_singleton.1 hc]; rfl)⟩, ⟨List.cons_ne_nil _ _, fun c hc => .inl (by
        have hc : c ∈ [bA.2] := hc
        rw [List.mem_singleton.1 hc]; rfl)⟩, List.cons_ne_nil _ _⟩
    · exact ⟨⟨List.cons_ne_nil _ _, fun c hc => .inl (by
        have hc : c ∈ [fB.2] := hc
        rw [List.mem_singleton.1 hc]; rfl)⟩, ⟨List.cons_ne_nil _ _, fun c hc => .inl (by
        have hc : c ∈ [bB.2] := hc
        rw [List.mem_singleton.1 hc]; rfl)⟩, List.cons_ne_nil _ _⟩

/-- Eigenvectors given by hand, in another order and with another sign than those of `lib`. -/
def handW (m : PyStr) : Nat := if m = nmA then 2 else 1
def handF (m : PyStr) (i a : Nat) : Rat :=
  if m = nmA then (if i = 0 then (if a = 0 then 4 / 5 else 3 / 5) else (if a = 0 then -3 / 5 else 4 / 5)) else 1
def handB (_ : PyStr) (_ _ : Nat) : Rat := -1

theorem handBases : Spec.Bases wholeBatch log1 (fun _ => 1) handW handB handF := by
  refine ⟨fun m hm => ?_, fun m hm => ?_, fun m hm => ?_⟩
  · rcases keys1 m hm with rfl | rfl
    · refine ⟨fun a ha => ⟨5 / 2, ?_⟩, ?_⟩
      · obtain rfl : a = 0 := by omega
        have : ∀ i < 1, ∑ j ∈ Finset.range 1, Spec.secondMoment wholeBatch nmA .backward i j * handB nmA j 0 = 5 / 2 * handB nmA i 0 := by decide +kernel
        exact this
      · have : ∀ a < 1, ∀ b < 1, ∑ i ∈ Finset.range 1, handB nmA i a * handB nmA i b = if a = b then 1 else 0 := by decide +kernel
        exact fun a b ha hb => this a ha b hb
    · refine ⟨fun a ha => ⟨5, ?_⟩, ?_⟩
      · obtain rfl : a = 0 := by omega
        have : ∀ i < 1, ∑ j ∈ Finset.range 1, Spec.secondMoment wholeBatch nmB .backward i j * handB nmB j 0 = 5 * handB nmB i 0 := by decide +kernel
        exact this
      · have : ∀ a < 1, ∀ b < 1, ∑ i ∈ Finset.range 1, handB nmB i a * handB nmB i b = if a = b then 1 else 0 := by decide +kernel
        exact fun a b ha hb => this a ha b hb
  · rcases keys1 m hm with rfl | rfl
    · refine ⟨fun a ha => ⟨if a = 0 then 50 else 25 / 2, ?_⟩, ?_⟩
      · have : ∀ a < 2, ∀ i < 2, ∑ j ∈ Finset.range 2, Spec.secondMoment wholeBatch nmA .forward i j * handF nmA j a =
            (if a = 0 then 50 else 25 / 2) * handF nmA i a := by decide +kernel
        exact this a ha
      · have : ∀ a < 2, ∀ b < 2, ∑ i ∈ Finset.range 2, handF nmA i a * handF nmA i b = if a = b then 1 else 0 := by decide +kernel
        exact fun a b ha hb => this a ha b hb
    · refine ⟨fun a ha => ⟨1, ?_⟩, ?_⟩
      · obtain rfl : a = 0 := Nat.lt_one_iff.1 ha
        have : ∀ i < 1, ∑ j ∈ Finset.range 1, Spec.secondMoment wholeBatch nmB .forward i j * handF nmB j 0 = 1 * handF nmB i 0 := by decide +kernel
        exact this
      · have : ∀ a < 1, ∀ b < 1, ∑ i ∈ Finset.range 1, handF nmB i a * handF nmB i b = if a = b then 1 else 0 := by decide +kernel
        exact fun a b ha hb => this a ha b hb
  · rcases keys1 m hm with rfl | rfl
    · exact ⟨_, 2, rfl, rfl⟩
    · exact ⟨_, 2, rfl, rfl⟩

theorem handSimple : ∀ m ∈ Dict.keys log1, Spec.Simple wholeBatch m .backward 1 (handB m) ∧ Spec.Simple wholeBatch m .forward (handW m) (handF m) := by
  intro m hm
  refine ⟨fun a b _ ha hb _ _ => by omega, ?_⟩
  rcases keys1 m hm with rfl | rfl
  · intro a b c ha hb h1 h2
    have hk : ∀ a < 2, ∑ j ∈ Finset.range 2, Spec.secondMoment wholeBatch nmA .forward 0 j * handF nmA j a = (if a = 0 then 50 else 25 / 2) * handF nmA 0 a ∧
      handF nmA 0 a ≠ 0 := by decide +kernel
    have e1 := mul_right_cancel₀ (hk a ha).2 ((hk a ha).1.symm.trans (h1 0 (by decide)))
    have e2 := mul_right_cancel₀ (hk b hb).2 ((hk b hb).1.symm.trans (h2 0 (by decide)))
    have hd : ∀ a < 2, ∀ b < 2, (if a = 0 then (50 : Rat) else 25 / 2) = (if b = 0 then 50 else 25 / 2) → a = b := by decide +kernel
    exact hd a ha b hb (e1.trans e2.symm)
  · intro a b _ ha hb _ _
    have ha : a < 1 := ha
    have hb : b < 1 := hb
    omega

/-- The hypotheses of C99 are met, and it gives the scores of the first sample. In the basis its gradients are `(2/5, 11/5)` and `5`; the fitted
eigenvalues are `200`, `25/2` and `5`. -/
example : ∃ u r t, computeInfluence lib Rat.sqrt (ekStOf lib) ids1 (.dict log1) ids1 (.dict log1) .dot true .auto none (some 1) = .ok (u, r) ∧
    r.influence = .one t ∧ t.el [0, 0] = (2 / 5) ^ 2 / (200 + 1) + (11 / 5) ^ 2 / (25 / 2 + 1) + 5 ^ 2 / (5 + 1) := by
  obtain ⟨u, r, h⟩ := isOk (x := computeInfluence lib Rat.sqrt (ekStOf lib) ids1 (.dict log1) ids1 (.dict log1) .dot true .auto none (some 1))
    (by decide +kernel)
  obtain ⟨t, h1, -, h2⟩ := C99_simple eighOk ekFin ekLogged (by decide +kernel) lab1 lab1 h handBases handSimple
  refine ⟨u, r, t, h, h1, ?_⟩
  rw [h2 0 0 (by decide) (by decide)]; decide +kernel

example : ∃ u r t, computeSelf lib (ekStOf lib) ids1 (.dict log1) true .auto none (some 1) = .ok (u, r) ∧
    r.influence.get? kTotal = some t ∧ t.el [0] = (2 / 5) ^ 2 / (200 + 1) + (11 / 5) ^ 2 / (25 / 2 + 1) + 5 ^ 2 / (5 + 1) := by
  obtain ⟨u, r, h⟩ := isOk (x := computeSelf lib (ekStOf lib) ids1 (.dict log1) true .auto none (some 1)) (by decide +kernel)
  obtain ⟨t, h1, -, h2⟩ := C99_simple_self eighOk ekFin ekLogged (by decide +kernel) lab1 h handBases handSimple
  refine ⟨u, r, t, h, h1, ?_⟩
  rw [h2 0 (by decide)]; decide +kernel

end Logix.ExInfl
