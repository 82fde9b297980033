/-
C135: concrete runs, and the case in which the order matters.
-/
import Verif.Props.ModuleOrder
import Verif.Props.FormulaExample

namespace Logix.ExInfl
open Logix Spec

/-- The calls of `wholeBatch` with those of `e.b` first. -/
def wholeOther : List (Plugin × StatCall Rat) := [bB, fB, bA, fA 2 [3, 4, -8, 6] rfl]

theorem finOther : Finalized lib wholeOther (stOf lib wholeOther) :=
  finalized_of (by decide +kernel) (by intro pc h; simp only [wholeOther, List.mem_cons, List.not_mem_nil, or_false] at h; rcases h with rfl | rfl | rfl | rfl <;> exact .inr (.inr rfl))
    (by intro pc h; simp only [wholeOther, List.mem_cons, List.not_mem_nil, or_false] at h; rcases h with rfl | rfl | rfl | rfl <;> rfl)

theorem sameOther : SameBatches wholeBatch wholeOther := by
  intro m lt
  unfold callsOf
  refine List.Perm.map _ (List.Perm.filter _ ?_)
  exact (List.reverse_perm wholeBatch).symm

/-- The log with its modules in the other order. -/
def log1Rev : GLog Rat := log1.reverse

theorem revPerm : log1.Perm log1Rev := (List.reverse_perm log1).symm

/-- The total score of the first sample with itself. -/
def firstScore (x : Py (LState Rat × IFResult Rat)) : Option Rat :=
  match x with
  | .ok (_, r) => (r.influence.get? kTotal).map fun t => t.el [0, 0]
  | .error _ => none

/-- **C135** is false without damping: the damping of KFAC is computed from the first module of the log and used for all of them. -/
theorem C135_refuted : ∃ (L : Lib Rat) (calls calls' : List (Plugin × StatCall Rat)) (s s' : LState Rat) (ids : List PyStr) (d d' : GLog Rat)
    (u u' : LState Rat) (r r' : IFResult Rat) (t t' : Tensor Rat),
    EighOk L ∧ InverseOk L ∧ Finalized L calls s ∧ Finalized L calls' s' ∧ SameBatches calls calls' ∧ LoggedAll calls (Dict.keys d) .auto ∧
    Labelled ids d ∧ d.Perm d' ∧
    computeInfluence L Rat.sqrt s ids (.dict d) ids (.dict d) .dot true .auto none none = .ok (u, r) ∧
    computeInfluence L Rat.sqrt s' ids (.dict d') ids (.dict d') .dot true .auto none none = .ok (u', r') ∧
    r.influence.get? ['t', 'o', 't', 'a', 'l'] = some t ∧ r'.influence.get? ['t', 'o', 't', 'a', 'l'] = some t' ∧ t.el [0, 0] ≠ t'.el [0, 0] := by
  have key : ∀ x y : Py (LState Rat × IFResult Rat), (firstScore x).isSome = true → (firstScore y).isSome = true → firstScore x ≠ firstScore y →
      ∃ u r u' r' t t', x = .ok (u, r) ∧ y = .ok (u', r') ∧ r.influence.get? ['t', 'o', 't', 'a', 'l'] = some t ∧
        r'.influence.get? ['t', 'o', 't', 'a', 'l'] = some t' ∧ t.el [0, 0] ≠ t'.el [0, 0] := by
    intro x y hx hy hxy
    unfold firstScore at hx hy hxy
    cases x with
    | error e => cases hx
    | ok x =>
      cases y with
      | error e => cases hy
      | ok y =>
        simp only [Option.isSome_map] at hx hy
        obtain ⟨t, ht⟩ := Option.isSome_iff_exists.1 hx
        obtain ⟨t', ht'⟩ := Option.isSome_iff_exists.1 hy
        refine ⟨_, _, _, _, t, t', rfl, rfl, ht, ht', fun h => hxy ?_⟩
        simp only [ht, ht', Option.map_some, h]
  obtain ⟨u, r, u', r', t, t', h1, h2, h3, h4, h5⟩ := key
    (computeInfluence lib Rat.sqrt (stOf lib wholeBatch) ids1 (.dict log1) ids1 (.dict log1) .dot true .auto none none)
    (computeInfluence lib Rat.sqrt (stOf lib wholeOther) ids1 (.dict log1Rev) ids1 (.dict log1Rev) .dot true .auto none none)
    (by decide +kernel) (by decide +kernel) (by decide +kernel)
  exact ⟨lib, wholeBatch, wholeOther, _, _, ids1, log1, log1Rev, u, u', r, r', t, t', eighOk, inverseOk, finWhole, finOther, sameOther, loggedWhole, lab1, revPerm,
    h1, h2, h3, h4, h5⟩

/-- The hypotheses of the part that holds are met, with a damping: the same runs, in groups. -/
example : ∃ u r u' r' t t',
    computeInfluence lib Rat.sqrt (stOf lib wholeBatch) ids1 (.dict log1) ids1 (.dict log1) .l2 true .auto (some [nmB]) (some 1) = .ok (u, r) ∧
    computeInfluence lib Rat.sqrt (stOf lib wholeOther) ids1 (.dict log1Rev) ids1 (.dict log1Rev) .l2 true .auto (some [nmB]) (some 1) = .ok (u', r') ∧
    r.influence.get? kTotal = some t ∧ r'.influence.get? kTotal = some t' ∧ ∀ i j, i < 2 → j < 2 → t.el [i, j] = t'.el [i, j] := by
  obtain ⟨u, r, h⟩ := isOk (x := computeInfluence lib Rat.sqrt (stOf lib wholeBatch) ids1 (.dict log1) ids1 (.dict log1) .l2 true .auto (some [nmB]) (some 1))
    (by decide +kernel)
  obtain ⟨u', r', h'⟩ := isOk (x := computeInfluence lib Rat.sqrt (stOf lib wholeOther) ids1 (.dict log1Rev) ids1 (.dict log1Rev) .l2 true .auto (some [nmB]) (some 1))
    (by decide +kernel)
  obtain ⟨t, t', a1, a2, -, a3⟩ := C135_influence_partial (c := some 1) eighOk inverseOk eighOk inverseOk finWhole finOther sameOther loggedWhole
    (fun m _ => show (0 : Rat) < 1 by decide +kernel) (.inl (by simp)) lab1 lab1 rfl revPerm revPerm rfl (by decide) (by decide) h h' kTotal (.inl rfl)
  exact ⟨u, r, u', r', t, t', h, h', a1, a2, a3⟩

/-- And without damping, for the empirical Fisher matrix. -/
example : ∃ u r u' r' t t',
    computeSelf lib (stOf lib gradCalls) ids1 (.dict log1) true .auto none none = .ok (u, r) ∧
    computeSelf lib (stOf lib gradCalls) ids1 (.dict log1Rev) true .auto none none = .ok (u', r') ∧
    r.influence.get? kTotal = some t ∧ r'.influence.get? kTotal = some t' ∧ ∀ i, i < 2 → t.el [i] = t'.el [i] := by
  obtain ⟨u, r, h⟩ := isOk (x := computeSelf lib (stOf lib gradCalls) ids1 (.dict log1) true .auto none none) (by decide +kernel)
  obtain ⟨u', r', h'⟩ := isOk (x := computeSelf lib (stOf lib gradCalls) ids1 (.dict log1Rev) true .auto none none) (by decide +kernel)
  have hlg : ∀ m ∈ Dict.keys log1, Logged gradCalls m .grad := fun m hm => by
    rcases keys1 m hm with rfl | rfl <;> exact ⟨List.cons_ne_nil _ _, fun c hc => .inr rfl⟩
  obtain ⟨t, t', a1, a2, -, a3⟩ := C135_self_partial eighOk inverseOk eighOk inverseOk finGrad finGrad (fun m lt => List.Perm.refl _) loggedGrad
    (fun m hm => by rcases keys1 m hm with rfl | rfl <;> decide +kernel) (.inr (.inl (.inr ⟨rfl, hlg⟩))) lab1 revPerm (by simp) (by simp) h h' kTotal (.inl rfl)
  exact ⟨u, r, u', r', t, t', h, h', a1, a2, a3⟩

end Logix.ExInfl
