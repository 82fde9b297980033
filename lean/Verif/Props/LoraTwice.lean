/-
C147: adding LoRA to a model that has it.
-/
import Verif.Props.LoraExample
import Verif.Lemmas.LoraWF

namespace Logix
variable {K : Type} [Field K] {E : LoraEnv K} {h h' : MHeap K} {root : Nat} {tf nf : Option (List PyStr)}

/-- C147, what holds: the submodules of a module stay as they are if the filters keep them out; for a LoRA layer, its encoder, bottleneck, decoder and
the layer in it. -/
theorem C147_filtered_partial (hw : WFModel h) (hroot : ¬ IsLeaf h root) (hr : root < h.mods.length) (hadd : addLora E h root tf nf = .ok h') {w : Nat}
    (hout : ∀ k c name m, Entry h w k c → (name, c) ∈ h.namedModules root → h.mods[c]? = some m → ¬ (Passes nf (· <:+: name) ∧ Passes tf (· ∈ m.mro))) :
    ∀ k c, Entry h w k c → Entry h' w k c := by
  intro k c he
  refine (C65_any_partial hw hroot hr hadd w k c he).2 ?_
  rintro ⟨ks, -, h0, m, h1, -, -, h2, h3⟩
  exact hout k c _ m he h0 h1 ⟨h3, h2⟩

/-- C147, what happens otherwise: without filters, a layer that is part of a LoRA layer gets a LoRA layer of its own. -/
theorem C147_wrapped_partial (hw : WFModel h) (hroot : ¬ IsLeaf h root) (hr : root < h.mods.length) (hadd : addLora E h root none none = .ok h')
    {ks : List PyStr} {w : Nat} (hreach : Reach h root ks w) {k : PyStr} {c : Nat} (he : Entry h w k c) (hn : (dotted (ks ++ [k]), c) ∈ h.namedModules root)
    {m : MObj} (hm : h.mods[c]? = some m) (hleaf : m.children = []) (hty : nLinear ∈ m.mro ∨ nConv1d ∈ m.mro ∨ nConv2d ∈ m.mro) :
    ∃ v, Entry h' w k v ∧ IsWrapper h' v c := by
  obtain ⟨v, h4, h5, -⟩ := (C65_any_partial hw hroot hr hadd w k c he).1 ⟨ks, hreach, hn, m, hm, hleaf, hty, by simp [Passes], by simp [Passes]⟩
  exact ⟨v, h4, h5⟩

namespace ExLora
open ExWatch

/-- The names that `watch` tracks after adding LoRA once and twice. -/
def onceTwice : Option (List PyStr × List PyStr) :=
  match addLora (env 1 false none) linear1 0 none none with
  | .error _ => none
  | .ok h₁ => match addLora (env 1 false none) h₁ 0 none none with
    | .error _ => none
    | .ok h₂ => some ((watch h₁ 0 none none .fresh).1.2.names.map Prod.snd, (watch h₂ 0 none none .fresh).1.2.names.map Prod.snd)

theorem linear1_root : ¬ IsLeaf linear1 0 := by rintro ⟨m, hm, hc⟩; cases hm; simp at hc

/-- C147 is false: the model has one layer. After `add_lora` one module is tracked, `a.logix_lora_B`; after the second `add_lora` there are seven, and that
one is not among them. -/
theorem C147_refuted : ¬ ∀ (h h₁ h₂ : MHeap ℚ) (root : Nat) (E : LoraEnv ℚ), WFModel h → ¬ IsLeaf h root → root < h.mods.length →
    addLora E h root none none = .ok h₁ → addLora E h₁ root none none = .ok h₂ →
      ∀ n, n ∈ (watch h₂ root none none .fresh).1.2.names.map Prod.snd ↔ n ∈ (watch h₁ root none none .fresh).1.2.names.map Prod.snd := by
  intro H
  have key : (onceTwice.map fun p => decide (p.1 = [na ++ '.' :: nB]) && decide (p.2.length = 7) && decide (na ++ '.' :: nB ∉ p.2)) = some true := by
    decide +kernel
  unfold onceTwice at key
  cases h1 : addLora (env 1 false none) linear1 0 none none with
  | error e => rw [h1] at key; cases key
  | ok h₁ =>
    rw [h1] at key
    dsimp only at key
    cases h2 : addLora (env 1 false none) h₁ 0 none none with
    | error e => rw [h2] at key; cases key
    | ok h₂ =>
      rw [h2] at key
      simp only [Option.map_some, Option.some.injEq, Bool.and_eq_true, decide_eq_true_eq] at key
      obtain ⟨⟨k1, -⟩, k2⟩ := key
      have := (H linear1 h₁ h₂ 0 (env 1 false none) (single_wf _ _ rfl rfl) linear1_root (by decide) h1 h2 (na ++ '.' :: nB)).2
        (by rw [k1]; exact List.mem_singleton.2 rfl)
      exact k2 this

theorem linear1_params : WFParams linear1 := by
  intro p m hm
  match p, hm with
  | 0, hm => cases hm; simp
  | 1, hm => cases hm; simp [nWeight]
  | n + 2, hm => simp [linear1, single] at hm

/-- What the model looks like after `add_lora`. -/
def lookOnce (h₁ : MHeap ℚ) : Bool :=
  decide (h₁.mods[0]? = some ⟨[nModule], .user, [(na, 5)], []⟩) &&
  decide (h₁.mods[5]? = some ⟨[nLoraLinear, nModule], .loraLinear, [(nA, 2), (nB, 3), (nC, 4), (nLin, 1)], []⟩) &&
  decide (h₁.mods[3]? = some ⟨[nLinear, nModule], .linear 1 1, [], [(nWeight, 2)]⟩) &&
  decide ((na ++ '.' :: nB, 3) ∈ h₁.namedModules 0)

/-- The hypotheses of `C147_wrapped_partial` are met by a model with LoRA: the bottleneck of the layer gets a LoRA layer. -/
example : ∃ h₁ h₂, addLora (env 1 false none) linear1 0 none none = .ok h₁ ∧ addLora (env 1 false none) h₁ 0 none none = .ok h₂ ∧
    Entry h₁ 5 nB 3 ∧ IsWrapper h₁ 5 1 ∧ ∃ v, Entry h₂ 5 nB v ∧ IsWrapper h₂ v 3 := by
  have key : (match addLora (env 1 false none) linear1 0 none none with
    | .error _ => false
    | .ok h₁ => lookOnce h₁ && (addLora (env 1 false none) h₁ 0 none none).toOption.isSome) = true := by decide +kernel
  cases h1 : addLora (env 1 false none) linear1 0 none none with
  | error e => rw [h1] at key; cases key
  | ok h₁ =>
    rw [h1] at key
    simp only [lookOnce, Bool.and_eq_true, decide_eq_true_eq] at key
    obtain ⟨⟨⟨⟨k1, k2⟩, k3⟩, k4⟩, k5⟩ := key
    cases h2 : addLora (env 1 false none) h₁ 0 none none with
    | error e => rw [h2] at k5; cases k5
    | ok h₂ =>
      obtain ⟨w1, -, w2⟩ := addLora_wf (single_wf _ _ rfl rfl) linear1_params linear1_root (by decide) h1
      have e5 : Entry h₁ 5 nB 3 := ⟨_, k2, by simp⟩
      refine ⟨h₁, h₂, rfl, h2, e5, ⟨2, 3, 4, .inl k2⟩, ?_⟩
      exact C147_wrapped_partial w1 (by rintro ⟨m, hm, hc⟩; rw [k1] at hm; cases hm; simp at hc) w2 h2 (ks := [na])
        (Reach.snoc (ks := []) .nil ⟨_, k1, by simp⟩) e5 k4 k3 rfl (.inl (by simp))

/-- Those of `C147_filtered_partial` too: with the name filter `xyz` the bottleneck stays. -/
example : ∃ h₁, addLora (env 1 false none) linear1 0 none none = .ok h₁ ∧ ∀ h₂, addLora (env 1 false none) h₁ 0 none (some [['x', 'y', 'z']]) = .ok h₂ →
    Entry h₂ 5 nB 3 := by
  have key : (match addLora (env 1 false none) linear1 0 none none with
    | .error _ => false
    | .ok h₁ => lookOnce h₁ && (h₁.namedModules 0).all fun e => !isSub ['x', 'y', 'z'] e.1) = true := by decide +kernel
  cases h1 : addLora (env 1 false none) linear1 0 none none with
  | error e => rw [h1] at key; cases key
  | ok h₁ =>
    rw [h1] at key
    simp only [lookOnce, Bool.and_eq_true, decide_eq_true_eq] at key
    obtain ⟨⟨⟨⟨k1, k2⟩, k3⟩, k4⟩, k5⟩ := key
    obtain ⟨w1, -, w2⟩ := addLora_wf (single_wf _ _ rfl rfl) linear1_params linear1_root (by decide) h1
    refine ⟨h₁, rfl, fun h₂ h2 => C147_filtered_partial w1 (by rintro ⟨m, hm, hc⟩; rw [k1] at hm; cases hm; simp at hc) w2 h2 ?_ nB 3 ⟨_, k2, by simp⟩⟩
    rintro k c name m - hn - ⟨hp, -⟩
    obtain ⟨x, hx, hsub⟩ := hp _ rfl (by simp)
    rw [List.mem_singleton.1 hx] at hsub
    have := List.all_eq_true.1 k5 _ hn
    simp [(isSub_iff _ _).2 hsub] at this

end ExLora
end Logix
