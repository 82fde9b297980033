/-
C67, C68: examples and counterexamples.
-/
import Verif.Props.Watch
import Mathlib.Algebra.Field.Rat

namespace Logix
namespace ExWatch

def na : PyStr := ['a']
def nb : PyStr := ['b']
def nEmb : PyStr := ['E']
def par : Param ℚ := ⟨⟨.cpu, [1, 1], [1], rfl⟩, true⟩

/-- A model with the linear layers `a` and `b`. -/
def two : MHeap ℚ :=
  ⟨[⟨[nModule], .user, [(na, 1), (nb, 2)], []⟩, ⟨[nLinear, nModule], .linear 1 1, [], [(nWeight, 0)]⟩,
    ⟨[nLinear, nModule], .linear 1 1, [], [(nWeight, 1)]⟩], [par, par]⟩

/-- A language model: the embedding `a` and the output layer `b` have the same weight (tied embeddings). -/
def tied : MHeap ℚ :=
  ⟨[⟨[nModule], .user, [(na, 1), (nb, 2)], []⟩, ⟨[nEmb, nModule], .user, [], [(nWeight, 0)]⟩,
    ⟨[nLinear, nModule], .linear 1 1, [], [(nWeight, 0)]⟩], [par]⟩

theorem entry_two {p : Nat} {k : PyStr} {c : Nat} (h : Entry two p k c) : p = 0 ∧ ((k = na ∧ c = 1) ∨ (k = nb ∧ c = 2)) := by
  obtain ⟨m, hm, hk⟩ := h
  match p, hm with
  | 0, hm => cases hm; simpa using hk
  | 1, hm => cases hm; simp at hk
  | 2, hm => cases hm; simp at hk
  | n + 3, hm => simp [two] at hm

theorem entry_tied {p : Nat} {k : PyStr} {c : Nat} (h : Entry tied p k c) : p = 0 ∧ ((k = na ∧ c = 1) ∨ (k = nb ∧ c = 2)) := by
  obtain ⟨m, hm, hk⟩ := h
  match p, hm with
  | 0, hm => cases hm; simpa using hk
  | 1, hm => cases hm; simp at hk
  | 2, hm => cases hm; simp at hk
  | n + 3, hm => simp [tied] at hm

theorem two_wf : WFModel two := by
  refine ⟨?_, ?_, ?_, ⟨fun i => 3 - i, ?_⟩, ?_⟩
  · intro p m hm
    match p, hm with
    | 0, hm => cases hm; decide
    | 1, hm => cases hm; decide
    | 2, hm => cases hm; decide
    | n + 3, hm => simp [two] at hm
  · intro p k c h
    rcases entry_two h with ⟨rfl, ⟨rfl, rfl⟩ | ⟨rfl, rfl⟩⟩ <;> decide
  · intro p k c h
    rcases entry_two h with ⟨rfl, ⟨rfl, rfl⟩ | ⟨rfl, rfl⟩⟩ <;> decide
  · intro p k c h
    rcases entry_two h with ⟨rfl, ⟨rfl, rfl⟩ | ⟨rfl, rfl⟩⟩ <;> decide
  · intro p m k i hm hk
    match p, hm with
    | 0, hm => cases hm; simp at hk
    | 1, hm => cases hm; simp at hk; simp [two, hk.2]
    | 2, hm => cases hm; simp at hk; simp [two, hk.2]
    | n + 3, hm => simp [two] at hm

theorem tied_wf : WFModel tied := by
  refine ⟨?_, ?_, ?_, ⟨fun i => 3 - i, ?_⟩, ?_⟩
  · intro p m hm
    match p, hm with
    | 0, hm => cases hm; decide
    | 1, hm => cases hm; decide
    | 2, hm => cases hm; decide
    | n + 3, hm => simp [tied] at hm
  · intro p k c h
    rcases entry_tied h with ⟨rfl, ⟨rfl, rfl⟩ | ⟨rfl, rfl⟩⟩ <;> decide
  · intro p k c h
    rcases entry_tied h with ⟨rfl, ⟨rfl, rfl⟩ | ⟨rfl, rfl⟩⟩ <;> decide
  · intro p k c h
    rcases entry_tied h with ⟨rfl, ⟨rfl, rfl⟩ | ⟨rfl, rfl⟩⟩ <;> decide
  · intro p m k i hm hk
    match p, hm with
    | 0, hm => cases hm; simp at hk
    | 1, hm => cases hm; simp at hk; simp [tied, hk.2]
    | 2, hm => cases hm; simp at hk; simp [tied, hk.2]
    | n + 3, hm => simp [tied] at hm

example : two.namedModules 0 = [([], 0), (na, 1), (nb, 2)] := by decide +kernel

theorem selected_two (tf : Option (List PyStr)) (htf : tf = none) (nf : Option (List PyStr)) (name : PyStr) (id : Nat) (hid : id = 1 ∨ id = 2)
    (hnf : Passes nf (· <:+: name)) : Selected two tf nf name id := by
  subst htf
  rcases hid with rfl | rfl
  · exact ⟨_, rfl, rfl, Or.inl (by decide), (by intro l h; cases h), hnf⟩
  · exact ⟨_, rfl, rfl, Or.inl (by decide), (by intro l h; cases h), hnf⟩

theorem not_lora_two : ¬ HasLora two 0 := by
  rw [← isLora_hasLora]
  decide +kernel

/-- Both layers are to be tracked if there is no filter. -/
theorem toTrack_two_a : ToTrack two 0 none none na 1 :=
  ⟨by decide +kernel, selected_two _ rfl _ _ _ (Or.inl rfl) (by intro l h; cases h), fun h => absurd h not_lora_two⟩

theorem toTrack_two_b : ToTrack two 0 none none nb 2 :=
  ⟨by decide +kernel, selected_two _ rfl _ _ _ (Or.inr rfl) (by intro l h; cases h), fun h => absurd h not_lora_two⟩

/-- The hypotheses of the theorems hold for this model, and the first call tracks both layers. -/
example : (watch two 0 none none .fresh).2 = none :=
  C67_succeeds two_wf (by decide) none none
    (by
      intro id m hm _
      match id, hm with
      | 0, hm => cases hm; simp_all [nLinear, nConv1d, nConv2d, nModule]
      | 1, hm => cases hm; exact ⟨0, by simp⟩
      | 2, hm => cases hm; exact ⟨1, by simp⟩
      | n + 3, hm => simp [two] at hm) ⟨na, 1, toTrack_two_a⟩

example : (watch two 0 none none .fresh).1.2.path = [na, nb] := by decide +kernel

/-- No parameter of this model belongs to several modules. -/
theorem two_unshared : ∀ id id' i, IsLeaf two id → IsLeaf two id' → OwnsParam two id i → OwnsParam two id' i → id = id' := by
  rintro id id' i - - ⟨m, k, hm, hk⟩ ⟨m', k', hm', hk'⟩
  match id, id', hm, hm' with
  | 0, _, hm, _ => cases hm; simp at hk
  | _, 0, _, hm' => cases hm'; simp at hk'
  | 1, 1, _, _ => rfl
  | 2, 2, _, _ => rfl
  | 1, 2, hm, hm' => cases hm; cases hm'; simp at hk hk'; omega
  | 2, 1, hm, hm' => cases hm; cases hm'; simp at hk hk'; omega
  | n + 3, _, hm, _ => simp [two] at hm
  | _, n + 3, _, hm' => simp [two] at hm'

/-- The case of C68: of the two layers only `a` is tracked, and only the weight of `b` is frozen. -/
example : (watch two 0 none (some [na]) .fresh).1.1.params.map Param.reqGrad = [true, false] := by decide +kernel
example := C68_partial two_wf (by decide : 0 < two.mods.length) none (some [na]) two_unshared

/-- C67 is false: `watch(model, name_filter=["a"])`, `clear()`, `watch(model)`. The second call has no filter (by its documentation "all modules are
considered"), but still only `a` is tracked: a filter, once given, stays. -/
theorem C67_refuted : ¬ ∀ (h : MHeap ℚ) (root : Nat) (tf nf tf' nf' : Option (List PyStr)), WFModel h → root < h.mods.length →
    (watch h root tf nf .fresh).2 = none →
    (watch (watch h root tf nf .fresh).1.1 root tf' nf' (watch h root tf nf .fresh).1.2.clear).2 = none →
    ∀ name id, ToTrack h root tf' nf' name id →
      (id, name) ∈ (watch (watch h root tf nf .fresh).1.1 root tf' nf' (watch h root tf nf .fresh).1.2.clear).1.2.names := by
  intro H
  have := H two 0 none (some [na]) none none two_wf (by decide) (by decide +kernel) (by decide +kernel) nb 2 toTrack_two_b
  revert this
  decide +kernel

/-- C67 is false in the other direction too: without `clear` a second `watch` keeps tracking what the first did, whatever its filter. -/
theorem C67_accumulate_refuted : ¬ ∀ (h : MHeap ℚ) (root : Nat) (tf nf tf' nf' : Option (List PyStr)), WFModel h → root < h.mods.length →
    (watch h root tf nf .fresh).2 = none →
    ∀ name id, (id, name) ∈ (watch (watch h root tf nf .fresh).1.1 root tf' nf' (watch h root tf nf .fresh).1.2).1.2.names →
      ToTrack h root tf' nf' name id := by
  intro H
  have h1 := H two 0 none (some [na]) none (some [nb]) two_wf (by decide) (by decide +kernel) na 1 (by decide +kernel)
  obtain ⟨_, ⟨m, _, _, _, _, hp⟩, _⟩ := h1
  obtain ⟨x, hx, hs⟩ := hp [nb] rfl (by simp)
  rw [List.mem_singleton] at hx
  subst hx
  revert hs
  decide

/-- C68 is false: with tied embeddings the tracked output layer loses its gradient, because the embedding is not tracked. -/
theorem C68_refuted : ¬ ∀ (h : MHeap ℚ) (root : Nat) (tf nf : Option (List PyStr)), WFModel h → root < h.mods.length →
    (watch h root tf nf .fresh).2 = none → ∀ id i, id ∈ (watch h root tf nf .fresh).1.2.hooked → OwnsParam h id i → RequiresGrad h i →
      RequiresGrad (watch h root tf nf .fresh).1.1 i := by
  intro H
  obtain ⟨p, hp, hr⟩ := H tied 0 none none tied_wf (by decide) (by decide +kernel) 2 0 (by decide +kernel) ⟨_, nWeight, rfl, by simp⟩ ⟨par, rfl, rfl⟩
  have : (watch tied 0 none none .fresh).1.1.params[0]? = some { par with reqGrad := false } := by decide +kernel
  rw [this] at hp
  cases hp
  simp at hr

/-- C68 is false for two calls: after `watch(model, name_filter=["a"])` and `watch(model, name_filter=["b"])` the module `a` is tracked, but its
parameters no longer require gradients. -/
theorem C68_sequence_refuted : ¬ ∀ (h : MHeap ℚ) (root : Nat) (nf nf' : Option (List PyStr)), WFModel h → root < h.mods.length →
    (∀ id id' i, IsLeaf h id → IsLeaf h id' → OwnsParam h id i → OwnsParam h id' i → id = id') →
    ∀ id i, id ∈ (watch (watch h root none nf .fresh).1.1 root none nf' (watch h root none nf .fresh).1.2).1.2.hooked → OwnsParam h id i →
      RequiresGrad (watch h root none nf .fresh).1.1 i →
      RequiresGrad (watch (watch h root none nf .fresh).1.1 root none nf' (watch h root none nf .fresh).1.2).1.1 i := by
  intro H
  obtain ⟨p, hp, hr⟩ := H two 0 (some [na]) (some [nb]) two_wf (by decide)
    two_unshared
    1 0 (by decide +kernel) ⟨_, nWeight, rfl, by simp⟩
    ⟨par, by decide +kernel, rfl⟩
  have : (watch (watch two 0 none (some [na]) .fresh).1.1 0 none (some [nb]) (watch two 0 none (some [na]) .fresh).1.2).1.1.params[0]? =
      some { par with reqGrad := false } := by decide +kernel
  rw [this] at hp
  cases hp
  simp at hr

end ExWatch
end Logix
