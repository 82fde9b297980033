/-
C140 on concrete runs: the inputs of one layer turned, and the signs of the outputs changed.
-/
import Verif.Props.Turned
import Verif.Props.ModuleOrderExample

namespace Logix.ExInfl
open Logix Spec

def wd1 (m : PyStr) : Nat := if m = nmA then 2 else 1
def ht1 (_ : PyStr) : Nat := 1

/-- The inputs of `e.a` are turned, those of `e.b` stay as they are. -/
def turnP (m : PyStr) (i j : Nat) : Rat := if m = nmA then (if i = j then 3 / 5 else if i = 0 then 4 / 5 else -4 / 5) else 1
def turnQ (_ : PyStr) (_ _ : Nat) : Rat := -1

def turnedBatch : List (Plugin × StatCall Rat) :=
  [fA 2 [5, 0, 0, 10] rfl, (.covariance, ⟨some .linear, nmA, .backward, ⟨.cpu, [2, 1], [-1, -2], rfl⟩, none, false⟩), fB,
    (.covariance, ⟨some .linear, nmB, .backward, ⟨.cpu, [2, 1], [-1, -3], rfl⟩, none, false⟩)]
def turnedGrads : List (Plugin × StatCall Rat) :=
  [(.covariance, ⟨none, nmA, .grad, ⟨.cpu, [2, 1, 2], [-3 / 5, 4 / 5, -11 / 5, -2 / 5], rfl⟩, none, false⟩),
    (.covariance, ⟨none, nmB, .grad, ⟨.cpu, [2, 1, 1], [-1, -3], rfl⟩, none, false⟩)]
def turnedLog1 : GLog Rat :=
  [(nmA, [(LogType.name .grad, ⟨.cpu, [2, 1, 2], [-11 / 5, -2 / 5, -5, 0], rfl⟩)]), (nmB, [(LogType.name .grad, ⟨.cpu, [2, 1, 1], [-5, -6], rfl⟩)])]

theorem finTurned : Finalized lib turnedBatch (stOf lib turnedBatch) := by
  refine finalized_of (by decide +kernel) (fun pc h => ?_) (fun pc h => ?_) <;>
    simp only [turnedBatch, List.mem_cons, List.not_mem_nil, or_false] at h <;> rcases h with rfl | rfl | rfl | rfl
  all_goals first | exact .inr (.inr rfl) | rfl

theorem finTurnedGrads : Finalized lib turnedGrads (stOf lib turnedGrads) := by
  refine finalized_of (by decide +kernel) (fun pc h => ?_) (fun pc h => ?_) <;>
    simp only [turnedGrads, List.mem_cons, List.not_mem_nil, or_false] at h <;> rcases h with rfl | rfl
  all_goals first | exact .inr (.inr rfl) | rfl

theorem ortho1 : ∀ m ∈ Dict.keys log1, OrthoRows (wd1 m) (turnP m) ∧ OrthoRows (ht1 m) (turnQ m) := by
  have key : ∀ m ∈ Dict.keys log1, (∀ i < wd1 m, ∀ j < wd1 m, ∑ k ∈ Finset.range (wd1 m), turnP m i k * turnP m j k = if i = j then 1 else 0) ∧
      ∀ i < ht1 m, ∀ j < ht1 m, ∑ k ∈ Finset.range (ht1 m), turnQ m i k * turnQ m j k = if i = j then 1 else 0 := by decide +kernel
  exact fun m hm => ⟨fun i j hi hj => (key m hm).1 i hi j hj, fun i j hi hj => (key m hm).2 i hi j hj⟩

theorem turned1 : TurnedLog wd1 ht1 turnP turnQ log1 turnedLog1 := by
  refine ⟨rfl, fun m hm => ?_⟩
  rcases keys1 m hm with rfl | rfl
  · refine ⟨_, _, 2, rfl, rfl, rfl, rfl, ?_⟩
    have : ∀ i < 2, ∀ p < 1, ∀ q < 2, (⟨.cpu, [2, 1, 2], [-11 / 5, -2 / 5, -5, 0], rfl⟩ : Tensor Rat).el [i, p, q] =
      turned 1 2 (turnQ nmA) (turnP nmA) (fun p' q' => (⟨.cpu, [2, 1, 2], [1, 2, 3, 4], rfl⟩ : Tensor Rat).el [i, p', q']) p q := by decide +kernel
    exact fun i p q hi hp hq => this i hi p hp q hq
  · refine ⟨_, _, 2, rfl, rfl, rfl, rfl, ?_⟩
    have : ∀ i < 2, ∀ p < 1, ∀ q < 1, (⟨.cpu, [2, 1, 1], [-5, -6], rfl⟩ : Tensor Rat).el [i, p, q] =
      turned 1 1 (turnQ nmB) (turnP nmB) (fun p' q' => (⟨.cpu, [2, 1, 1], [5, 6], rfl⟩ : Tensor Rat).el [i, p', q']) p q := by decide +kernel
    exact fun i p q hi hp hq => this i hi p hp q hq

theorem forall₂_get {R : (Nat → Rat) → (Nat → Rat) → Prop} {l l' : List (Nat → Rat)} (h : l.length = l'.length)
    (hr : ∀ i < l.length, R (l.getD i fun _ => 0) (l'.getD i fun _ => 0)) : List.Forall₂ R l l' := by
  rw [List.forall₂_iff_get]
  refine ⟨h, fun i h1 h2 => ?_⟩
  have := hr i h1
  rw [List.getD_eq_getElem?_getD, List.getD_eq_getElem?_getD, List.getElem?_eq_getElem h1, List.getElem?_eq_getElem h2] at this
  exact this

instance (W : Nat) (P : Nat → Nat → Rat) (r r' : Nat → Rat) : Decidable (Times W P r r') :=
  decidable_of_iff (∀ i < W, r' i = ∑ j ∈ Finset.range W, P i j * r j) Iff.rfl
instance (h w : Nat) (Q P : Nat → Nat → Rat) (r r' : Nat → Rat) : Decidable (TimesBoth h w Q P r r') :=
  decidable_of_iff (∀ p < h, ∀ q < w, r' (p * w + q) = turned h w Q P (fun p' q' => r (p' * w + q')) p q)
    ⟨fun h p q hp hq => h p hp q hq, fun h p hp q hq => h p q hp hq⟩

theorem turnedData : TurnedData wd1 ht1 turnP turnQ wholeBatch turnedBatch (Dict.keys log1) .auto := by
  refine .inl ⟨.inr ⟨rfl, by decide +kernel⟩, fun m hm => ?_⟩
  rcases keys1 m hm with rfl | rfl
  all_goals
    refine ⟨⟨⟨⟨by decide +kernel, ?_⟩, by decide +kernel, ?_⟩, by decide +kernel, by decide +kernel, forall₂_get (by decide +kernel) (by decide +kernel)⟩,
      ⟨⟨⟨by decide +kernel, ?_⟩, by decide +kernel, ?_⟩, by decide +kernel, by decide +kernel, forall₂_get (by decide +kernel) (by decide +kernel)⟩⟩
  all_goals exact fun c hc => .inl ((show ∀ c ∈ _, StatCall.mask c = none by decide +kernel) c hc)

theorem turnedGradData : TurnedData wd1 ht1 turnP turnQ gradCalls turnedGrads (Dict.keys log1) .raw := by
  refine .inr ⟨.inl rfl, fun m hm => ?_⟩
  rcases keys1 m hm with rfl | rfl
  all_goals exact ⟨⟨⟨by decide +kernel, fun _ _ => .inr rfl⟩, by decide +kernel, fun _ _ => .inr rfl⟩, by decide +kernel, by decide +kernel,
    forall₂_get (by decide +kernel) (by decide +kernel)⟩

/-- The hypotheses of C140 are met: KFAC without damping, mode `l2`. -/
example : ∃ u r u' r' t t',
    computeInfluence lib Rat.sqrt (stOf lib wholeBatch) ids1 (.dict log1) ids1 (.dict log1) .l2 true .auto none none = .ok (u, r) ∧
    computeInfluence lib Rat.sqrt (stOf lib turnedBatch) ids1 (.dict turnedLog1) ids1 (.dict turnedLog1) .l2 true .auto none none = .ok (u', r') ∧
    r.influence.get? kTotal = some t ∧ r'.influence.get? kTotal = some t' ∧ ∀ i j, i < 2 → j < 2 → t.el [i, j] = t'.el [i, j] := by
  obtain ⟨u, r, h⟩ := isOk (x := computeInfluence lib Rat.sqrt (stOf lib wholeBatch) ids1 (.dict log1) ids1 (.dict log1) .l2 true .auto none none)
    (by decide +kernel)
  obtain ⟨u', r', h'⟩ := isOk (x := computeInfluence lib Rat.sqrt (stOf lib turnedBatch) ids1 (.dict turnedLog1) ids1 (.dict turnedLog1) .l2 true .auto none none)
    (by decide +kernel)
  obtain ⟨t, t', a1, a2, -, a3⟩ := C140_influence (c := none) eighOk inverseOk eighOk inverseOk finWhole finTurned (fun m hm => (ortho1 m hm).1)
    (fun m hm => (ortho1 m hm).2) turnedData (fun m hm => by rcases keys1 m hm with rfl | rfl <;> decide +kernel) lab1 lab1 rfl turned1 turned1 (by simp) (by simp)
    h h' kTotal (.inl rfl)
  exact ⟨u, r, u', r', t, t', h, h', a1, a2, a3⟩

/-- Self-influence with the empirical Fisher matrix. -/
example : ∃ u r u' r' t t',
    computeSelf lib (stOf lib gradCalls) ids1 (.dict log1) true .raw none (some 1) = .ok (u, r) ∧
    computeSelf lib (stOf lib turnedGrads) ids1 (.dict turnedLog1) true .raw none (some 1) = .ok (u', r') ∧
    r.influence.get? kTotal = some t ∧ r'.influence.get? kTotal = some t' ∧ ∀ i, i < 2 → t.el [i] = t'.el [i] := by
  obtain ⟨u, r, h⟩ := isOk (x := computeSelf lib (stOf lib gradCalls) ids1 (.dict log1) true .raw none (some 1)) (by decide +kernel)
  obtain ⟨u', r', h'⟩ := isOk (x := computeSelf lib (stOf lib turnedGrads) ids1 (.dict turnedLog1) true .raw none (some 1)) (by decide +kernel)
  obtain ⟨t, t', a1, a2, -, a3⟩ := C140_self (c := some 1) eighOk inverseOk eighOk inverseOk finGrad finTurnedGrads (fun m hm => (ortho1 m hm).1)
    (fun m hm => (ortho1 m hm).2) turnedGradData (fun m _ => show (0 : Rat) < 1 by decide +kernel) lab1 turned1 (by simp) (by simp) h h' kTotal (.inl rfl)
  exact ⟨u, r, u', r', t, t', h, h', a1, a2, a3⟩

end Logix.ExInfl
