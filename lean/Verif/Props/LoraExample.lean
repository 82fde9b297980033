/-
C63 to C66: examples and counterexamples.
-/
import Verif.Props.LoraForward
import Verif.Props.LoraGrad
import Verif.Props.WatchExample

namespace Logix
namespace ExLora
open ExWatch

/-- A configuration of `add_lora`. -/
def env (rank : Nat) (sharing : Bool) (groups : Option (List PyStr)) : LoraEnv ℚ := ⟨rank, sharing, groups, fun i idx => i + idx.sum, none⟩

theorem two_root : ¬ IsLeaf two 0 := by
  rintro ⟨m, hm, hc⟩
  cases hm
  simp at hc

theorem two_name {name : PyStr} {id : Nat} (h : (name, id) ∈ two.namedModules 0) (hid : Selected two none none name id) :
    (name = na ∧ id = 1) ∨ (name = nb ∧ id = 2) := by
  have : two.namedModules 0 = [([], 0), (na, 1), (nb, 2)] := by decide +kernel
  rw [this] at h
  simp at h
  rcases h with ⟨rfl, rfl⟩ | h | h
  · obtain ⟨m, hm, hc, _⟩ := hid
    cases hm
    simp at hc
  · exact Or.inl h
  · exact Or.inr h

theorem two_param : ∃ ks id i, Reach two 0 ks id ∧ OwnsParam two id i :=
  ⟨_, 1, 0, Reach.snoc (k := na) .nil ⟨_, rfl, by simp⟩, _, nWeight, rfl, by simp⟩

/-- `add_lora` succeeds for the model with two linear layers: without sharing, with one group for all, and with the groups `a` and `b`. -/
theorem two_succeeds (rank : Nat) (sharing : Bool) (groups : Option (List PyStr)) (hg : groups = none ∨ groups = some [na, nb]) :
    ∃ h', addLora (env rank sharing groups) two 0 none none = .ok h' := by
  refine addLora_succeeds two_wf two_root (by decide) two_param ?_
  intro name id hn hsel
  rcases two_name hn hsel with ⟨rfl, rfl⟩ | ⟨rfl, rfl⟩
  · refine ⟨_, rfl, Or.inl (by decide), Or.inl ⟨1, 1, rfl⟩, ?_, fun f hf => by cases hf⟩
    rintro gs hgs
    rcases hg with h | h
    · rw [h] at hgs; cases hgs
    · rw [show (env rank sharing groups).groups = groups from rfl, h] at hgs; cases hgs; decide
  · refine ⟨_, rfl, Or.inl (by decide), Or.inl ⟨1, 1, rfl⟩, ?_, fun f hf => by cases hf⟩
    rintro gs hgs
    rcases hg with h | h
    · rw [h] at hgs; cases hgs
    · rw [show (env rank sharing groups).groups = groups from rfl, h] at hgs; cases hgs; decide

theorem reach_two {ks : List PyStr} {id : Nat} (h : Reach two 0 ks id) : (ks = [] ∧ id = 0) ∨ (ks = [na] ∧ id = 1) ∨ (ks = [nb] ∧ id = 2) := by
  induction h with
  | nil => exact Or.inl ⟨rfl, rfl⟩
  | snoc _ he ih =>
    rcases entry_two he with ⟨rfl, ⟨rfl, rfl⟩ | ⟨rfl, rfl⟩⟩ <;> rcases ih with ⟨rfl, _⟩ | ⟨_, h⟩ | ⟨_, h⟩
    · exact Or.inr (Or.inl ⟨rfl, rfl⟩)
    · cases h
    · cases h
    · exact Or.inr (Or.inr ⟨rfl, rfl⟩)
    · cases h
    · cases h

theorem two_names : Unshared two 0 := by
  intro ks ks' id h h'
  rcases reach_two h with ⟨rfl, rfl⟩ | ⟨rfl, rfl⟩ | ⟨rfl, rfl⟩ <;> rcases reach_two h' with ⟨rfl, h⟩ | ⟨rfl, h⟩ | ⟨rfl, h⟩ <;> first | rfl | (simp at h)

/-- The hypotheses of C65 hold, and it says that both layers are wrapped. -/
example : ∃ h', addLora (env 1 false none) two 0 none none = .ok h' ∧ (∃ w, Entry h' 0 na w ∧ IsWrapper h' w 1) ∧ ∃ w, Entry h' 0 nb w ∧ IsWrapper h' w 2 := by
  obtain ⟨h', hadd⟩ := two_succeeds 1 false none (Or.inl rfl)
  have key := (C65_partial two_wf two_root (by decide) two_names hadd).1
  obtain ⟨w, h1, h2, _⟩ := (key [] 0 na 1 .nil ⟨_, rfl, by simp⟩).1 (selected_two _ rfl _ _ _ (Or.inl rfl) (by intro l h; cases h))
  obtain ⟨w', h1', h2', _⟩ := (key [] 0 nb 2 .nil ⟨_, rfl, by simp⟩).1 (selected_two _ rfl _ _ _ (Or.inr rfl) (by intro l h; cases h))
  exact ⟨h', hadd, ⟨w, h1, h2⟩, w', h1', h2'⟩

/-- With one group for all both layers have the same bottleneck, with the groups `a` and `b` they have not. -/
example : ∃ h', addLora (env 1 true none) two 0 none none = .ok h' ∧ ∀ w w' b b', Entry h' 0 na w → Entry h' 0 nb w' → Entry h' w nB b → Entry h' w' nB b' → b = b' := by
  obtain ⟨h', hadd⟩ := two_succeeds 1 true none (Or.inl rfl)
  refine ⟨h', hadd, fun w w' b b' hw hw' hb hb' => ?_⟩
  refine (C66 two_wf two_root (by decide) hadd rfl (n := na) (n' := nb) (c := 1) (c' := 2) (by decide +kernel)
    (selected_two _ rfl _ _ _ (Or.inl rfl) (by intro l h; cases h)) ⟨[], 0, na, .nil, ⟨_, rfl, by simp⟩, rfl, hw⟩ hb (by decide +kernel)
    (selected_two _ rfl _ _ _ (Or.inr rfl) (by intro l h; cases h)) ⟨[], 0, nb, .nil, ⟨_, rfl, by simp⟩, rfl, hw'⟩ hb').2 ?_
  intro gs h; cases h

example : ∃ h', addLora (env 1 true (some [na, nb])) two 0 none none = .ok h' ∧
    ∀ w w' b b', Entry h' 0 na w → Entry h' 0 nb w' → Entry h' w nB b → Entry h' w' nB b' → b ≠ b' := by
  obtain ⟨h', hadd⟩ := two_succeeds 1 true (some [na, nb]) (Or.inr rfl)
  refine ⟨h', hadd, fun w w' b b' hw hw' hb hb' heq => ?_⟩
  have := (C66 two_wf two_root (by decide) hadd rfl (n := na) (n' := nb) (c := 1) (c' := 2) (by decide +kernel)
    (selected_two _ rfl _ _ _ (Or.inl rfl) (by intro l h; cases h)) ⟨[], 0, na, .nil, ⟨_, rfl, by simp⟩, rfl, hw⟩ hb (by decide +kernel)
    (selected_two _ rfl _ _ _ (Or.inr rfl) (by intro l h; cases h)) ⟨[], 0, nb, .nil, ⟨_, rfl, by simp⟩, rfl, hw'⟩ hb').1 heq
  obtain ⟨g, hg, h1, h2⟩ := this _ rfl
  simp at hg
  rcases hg with rfl | rfl
  · exact absurd h2 (by decide)
  · exact absurd h1 (by decide)

/-- A module in no group is rejected. -/
example : ∃ e, addLora (env 1 true (some [na])) two 0 none none = .error e :=
  C66_rejects two_wf two_root (by decide) rfl (n := nb) (c := 2) (by decide +kernel) (selected_two _ rfl _ _ _ (Or.inr rfl) (by intro l h; cases h)) (by decide)

/-- The hypotheses of C63 hold for this model, for every rank without sharing and for rank 1 with sharing. -/
theorem two_fits {name : PyStr} {id : Nat} (hn : (name, id) ∈ two.namedModules 0) (hsel : Selected two none none name id) : LayerFits two id ∧ NotDilated two id := by
  rcases two_name hn hsel with ⟨rfl, rfl⟩ | ⟨rfl, rfl⟩
  · refine ⟨⟨_, _, rfl, rfl, Or.inl ⟨by decide, 1, 1, rfl, rfl⟩⟩, ?_⟩
    intro m i o g gr hm hl; cases hm; cases hl
  · refine ⟨⟨_, _, rfl, rfl, Or.inl ⟨by decide, 1, 1, rfl, rfl⟩⟩, ?_⟩
    intro m i o g gr hm hl; cases hm; cases hl

theorem two_one : OneDevice two := ⟨.cpu, by intro p hp; simp [two] at hp; subst hp; rfl⟩

example (rank : Nat) (groups : Option (List PyStr)) (hg : groups = none ∨ groups = some [na, nb]) (code : Code ℚ) :
    ∃ h', addLora (env rank false groups) two 0 none none = .ok h' ∧ ∀ x, h'.call code 0 x = two.call code 0 x := by
  obtain ⟨h', hadd⟩ := two_succeeds rank false groups hg
  exact ⟨h', hadd, fun x => C63_partial code two_wf two_root (by decide) two_one (fun _ _ => two_fits) (fun h => by cases h) hadd x⟩

example (groups : Option (List PyStr)) (hg : groups = none ∨ groups = some [na, nb]) (code : Code ℚ) :
    ∃ h', addLora (env 1 true groups) two 0 none none = .ok h' ∧ ∀ x, h'.call code 0 x = two.call code 0 x := by
  obtain ⟨h', hadd⟩ := two_succeeds 1 true groups hg
  refine ⟨h', hadd, fun x => C63_partial code two_wf two_root (by decide) two_one (fun _ _ => two_fits) (fun _ name id hn hsel => ⟨?_, ?_⟩) hadd x⟩
  · rcases two_name hn hsel with ⟨rfl, rfl⟩ | ⟨rfl, rfl⟩
    · intro m i o hm hl; cases hm; rcases hl with hl | ⟨g, gr, hl⟩ <;> cases hl; exact ⟨Nat.le_refl 1, Nat.le_refl 1⟩
    · intro m i o hm hl; cases hm; rcases hl with hl | ⟨g, gr, hl⟩ <;> cases hl; exact ⟨Nat.le_refl 1, Nat.le_refl 1⟩
  · intro name' id' hn' hsel' _ m m' hm hm'
    rcases two_name hn hsel with ⟨rfl, rfl⟩ | ⟨rfl, rfl⟩ <;> rcases two_name hn' hsel' with ⟨rfl, rfl⟩ | ⟨rfl, rfl⟩ <;> cases hm <;> cases hm' <;> simp

/-! ### Counterexamples -/

/-- One layer under two names (shared layers, as in a recurrent use of the same block). -/
def shared : MHeap ℚ := ⟨[⟨[nModule], .user, [(na, 1), (nb, 1)], []⟩, ⟨[nLinear, nModule], .linear 1 1, [], [(nWeight, 0)]⟩], [par]⟩

/-- Models with one layer `a`. -/
def single (m : MObj) (p : Param ℚ) : MHeap ℚ := ⟨[⟨[nModule], .user, [(na, 1)], []⟩, m], [p]⟩

theorem shared_wf : WFModel shared := by
  have he : ∀ p k c, Entry shared p k c → p = 0 ∧ (k = na ∨ k = nb) ∧ c = 1 := by
    rintro p k c ⟨m, hm, hk⟩
    match p, hm with
    | 0, hm => cases hm; simp at hk; exact ⟨rfl, by tauto, by tauto⟩
    | 1, hm => cases hm; simp at hk
    | n + 2, hm => simp [shared] at hm
  refine ⟨?_, ?_, ?_, ⟨fun i => 2 - i, ?_⟩, ?_⟩
  · intro p m hm
    match p, hm with
    | 0, hm => cases hm; decide
    | 1, hm => cases hm; decide
    | n + 2, hm => simp [shared] at hm
  · intro p k c h
    obtain ⟨rfl, rfl | rfl, rfl⟩ := he p k c h <;> decide
  · intro p k c h
    obtain ⟨rfl, rfl | rfl, rfl⟩ := he p k c h <;> decide
  · intro p k c h
    obtain ⟨rfl, rfl | rfl, rfl⟩ := he p k c h <;> decide
  · intro p m k i hm hk
    match p, hm with
    | 0, hm => cases hm; simp at hk
    | 1, hm => cases hm; simp at hk; simp [shared, hk.2]
    | n + 2, hm => simp [shared] at hm

theorem single_wf (m : MObj) (p : Param ℚ) (hm1 : m.children = []) (hm2 : m.params = [(nWeight, 0)]) : WFModel (single m p) := by
  have he : ∀ q k c, Entry (single m p) q k c → q = 0 ∧ k = na ∧ c = 1 := by
    rintro q k c ⟨m', hm, hk⟩
    match q, hm with
    | 0, hm => cases hm; simpa using hk
    | 1, hm => cases hm; rw [hm1] at hk; simp at hk
    | n + 2, hm => simp [single] at hm
  refine ⟨?_, ?_, ?_, ⟨fun i => 2 - i, ?_⟩, ?_⟩
  · intro q m' hm
    match q, hm with
    | 0, hm => cases hm; decide
    | 1, hm => cases hm; rw [hm1]; decide
    | n + 2, hm => simp [single] at hm
  · intro q k c h
    obtain ⟨rfl, rfl, rfl⟩ := he q k c h; decide
  · intro q k c h
    obtain ⟨rfl, rfl, rfl⟩ := he q k c h; simp [single]
  · intro q k c h
    obtain ⟨rfl, rfl, rfl⟩ := he q k c h; decide
  · intro q m' k i hm hk
    match q, hm with
    | 0, hm => cases hm; simp at hk
    | 1, hm => cases hm; rw [hm2] at hk; simp at hk; simp [single, hk.2]
    | n + 2, hm => simp [single] at hm

/-- C65 is false: of a layer that occurs under two names, only the first occurrence is replaced. -/
theorem C65_refuted : ¬ ∀ (h h' : MHeap ℚ) (root : Nat) (E : LoraEnv ℚ) (tf nf : Option (List PyStr)), WFModel h → ¬ IsLeaf h root → root < h.mods.length →
    addLora E h root tf nf = .ok h' → ∀ ks p k c, Reach h root ks p → Entry h p k c → Selected h tf nf (dotted (ks ++ [k])) c →
      ∃ w, Entry h' p k w ∧ IsWrapper h' w c := by
  intro H
  have hroot : ¬ IsLeaf shared 0 := by rintro ⟨m, hm, hc⟩; cases hm; simp at hc
  have hpar : ∃ ks id i, Reach shared 0 ks id ∧ OwnsParam shared id i := ⟨_, 1, 0, Reach.snoc (k := na) .nil ⟨_, rfl, by simp⟩, _, nWeight, rfl, by simp⟩
  cases hadd : addLora (env 1 false none) shared 0 none none with
  | error e =>
    have : (match addLora (env 1 false none) shared 0 none none with | .ok _ => true | .error _ => false) = true := by decide +kernel
    rw [hadd] at this
    cases this
  | ok h' =>
    have key : (match addLora (env 1 false none) shared 0 none none with | .ok h' => decide (h'.mods[0]? = some ⟨[nModule], .user, [(na, 5), (nb, 1)], []⟩) | .error _ => false) = true := by
      decide +kernel
    have key2 : (match addLora (env 1 false none) shared 0 none none with | .ok h' => decide (h'.mods[1]? = shared.mods[1]?) | .error _ => false) = true := by
      decide +kernel
    rw [hadd] at key key2
    have key := of_decide_eq_true key
    have key2 := of_decide_eq_true key2
    obtain ⟨w, ⟨m, hm, hk⟩, a, b, c, hw⟩ := H shared h' 0 (env 1 false none) none none shared_wf hroot (by decide) hadd [] 0 nb 1 .nil ⟨_, rfl, by simp⟩
      ⟨_, rfl, rfl, Or.inl (by decide), (by intro l h; cases h), by intro l h; cases h⟩
    rw [key] at hm
    cases hm
    simp [na, nb] at hk
    subst hk
    rw [key2] at hw
    simp [shared] at hw

/-- C65 is false for `Conv1d`, which is listed as supported: `add_lora` raises NotImplementedError. -/
theorem C65_conv1d_refuted : ¬ ∀ (h : MHeap ℚ) (root : Nat) (E : LoraEnv ℚ) (tf nf : Option (List PyStr)), WFModel h → ¬ IsLeaf h root → root < h.mods.length →
    E.groups = none → E.pca = none → (∃ ks id i, Reach h root ks id ∧ OwnsParam h id i) → ∃ h', addLora E h root tf nf = .ok h' := by
  intro H
  obtain ⟨h', hadd⟩ := H (single ⟨[nConv1d, nModule], .user, [], [(nWeight, 0)]⟩ par) 0 (env 1 false none) none none (single_wf _ _ rfl rfl)
    (by rintro ⟨m, hm, hc⟩; cases hm; simp at hc) (by decide) rfl rfl
    ⟨_, 1, 0, Reach.snoc (k := na) .nil ⟨_, rfl, by simp⟩, _, nWeight, rfl, by simp⟩
  have : (match addLora (env 1 false none) (single ⟨[nConv1d, nModule], .user, [], [(nWeight, 0)]⟩ par) 0 none none with | .ok _ => true | .error _ => false) = false := by
    decide +kernel
  rw [hadd] at this
  cases this

/-- The model's `forward` calls the layer. -/
def code : Code ℚ := fun _ call x => call na x

def geo : ConvGeom := ⟨(2, 1), (1, 1), (0, 0), (2, 1)⟩
def dilated : MHeap ℚ := single ⟨[nConv2d, nModule], .conv2d 1 1 geo 1, [], [(nWeight, 0)]⟩ ⟨⟨.cpu, [1, 1, 2, 1], [1, 1], rfl⟩, true⟩
def image : Tensor ℚ := ⟨.cpu, [1, 1, 3, 1], [1, 2, 3], rfl⟩
def dot1 : Tensor ℚ := ⟨.cpu, [1, 1], [1], rfl⟩
def linear1 : MHeap ℚ := single ⟨[nLinear, nModule], .linear 1 1, [], [(nWeight, 0)]⟩ par

/-- C63 is false for dilated convolutions: the encoder has no dilation, the outputs have different sizes and the model raises. -/
theorem C63_refuted : ¬ ∀ (h h' : MHeap ℚ) (root : Nat) (E : LoraEnv ℚ) (code : Code ℚ), WFModel h → ¬ IsLeaf h root → root < h.mods.length → OneDevice h →
    (∀ name id, (name, id) ∈ h.namedModules root → Selected h none none name id → LayerFits h id) → E.sharing = false →
    addLora E h root none none = .ok h' → ∀ x, h'.call code root x = h.call code root x := by
  intro H
  cases hadd : addLora (env 1 false none) dilated 0 none none with
  | error e =>
    have : (match addLora (env 1 false none) dilated 0 none none with | .ok _ => true | .error _ => false) = true := by decide +kernel
    rw [hadd] at this
    cases this
  | ok h' =>
    have key : (match addLora (env 1 false none) dilated 0 none none with | .ok h' => (h'.call code 0 image).toOption.isSome | .error _ => true) = false := by
      decide +kernel
    have key2 : (dilated.call code 0 image).toOption.isSome = true := by decide +kernel
    rw [hadd] at key
    dsimp only at key
    have := H dilated h' 0 (env 1 false none) code (single_wf _ _ rfl rfl) (by rintro ⟨m, hm, hc⟩; cases hm; simp at hc) (by decide)
      ⟨.cpu, by intro p hp; simp [dilated, single] at hp; subst hp; rfl⟩
      (by
        intro name id hn hsel
        have hl : dilated.namedModules 0 = [([], 0), (na, 1)] := by decide +kernel
        rw [hl] at hn
        simp at hn
        rcases hn with ⟨rfl, rfl⟩ | ⟨rfl, rfl⟩
        · obtain ⟨m, hm, hc, _⟩ := hsel
          cases hm
          simp at hc
        · exact ⟨_, _, rfl, rfl, Or.inr ⟨by decide, 1, 1, geo, 1, 1, rfl, rfl, rfl⟩⟩) rfl hadd image
    rw [this, key2] at key
    cases key

/-- C63 is false with parameter sharing if a layer is smaller than the rank: the shared bottleneck has the configured rank, the encoder's rank is that of the layer. -/
theorem C63_sharing_refuted : ¬ ∀ (h h' : MHeap ℚ) (root : Nat) (E : LoraEnv ℚ) (code : Code ℚ), WFModel h → ¬ IsLeaf h root → root < h.mods.length → OneDevice h →
    (∀ name id, (name, id) ∈ h.namedModules root → Selected h none none name id → LayerFits h id ∧ NotDilated h id) →
    addLora E h root none none = .ok h' → ∀ x, h'.call code root x = h.call code root x := by
  intro H
  cases hadd : addLora (env 2 true none) linear1 0 none none with
  | error e =>
    have : (match addLora (env 2 true none) linear1 0 none none with | .ok _ => true | .error _ => false) = true := by decide +kernel
    rw [hadd] at this
    cases this
  | ok h' =>
    have key : (match addLora (env 2 true none) linear1 0 none none with | .ok h' => (h'.call code 0 dot1).toOption.isSome | .error _ => true) = false := by
      decide +kernel
    have key2 : (linear1.call code 0 dot1).toOption.isSome = true := by decide +kernel
    rw [hadd] at key
    dsimp only at key
    have := H linear1 h' 0 (env 2 true none) code (single_wf _ _ rfl rfl) (by rintro ⟨m, hm, hc⟩; cases hm; simp at hc) (by decide)
      ⟨.cpu, by intro p hp; simp [linear1, single] at hp; subst hp; rfl⟩
      (by
        intro name id hn hsel
        have hl : linear1.namedModules 0 = [([], 0), (na, 1)] := by decide +kernel
        rw [hl] at hn
        simp at hn
        rcases hn with ⟨rfl, rfl⟩ | ⟨rfl, rfl⟩
        · obtain ⟨m, hm, hc, _⟩ := hsel
          cases hm
          simp at hc
        · refine ⟨⟨_, _, rfl, rfl, Or.inl ⟨by decide, 1, 1, rfl, rfl⟩⟩, ?_⟩
          intro m i o g gr hm hl; cases hm; cases hl) hadd dot1
    rw [this, key2] at key
    cases key

/-! ### C64 -/

def xs : Tensor ℚ := ⟨.cpu, [1, 2, 2], [1, 2, 3, 4], rfl⟩
def gs : Tensor ℚ := ⟨.cpu, [1, 2, 3], [1, 0, 2, 0, 1, 1], rfl⟩
def encA : Tensor ℚ := ⟨.cpu, [1, 2], [1, 5], rfl⟩
def decC : Tensor ℚ := ⟨.cpu, [3, 1], [1, 2, 3], rfl⟩

/-- A sequence of length two through a layer with two inputs and three outputs, rank one. -/
example : ∃ u gB G GB, linearForward encA none xs = .ok u ∧ computePerSampleGradient xs gs .linear = .ok G ∧ computePerSampleGradient u gB .linear = .ok GB ∧
    GB.el [0, 0, 0] = ∑ o ∈ Finset.range 3, ∑ j ∈ Finset.range 2, decC.el [o, 0] * G.el [0, o, j] * encA.el [0, j] := by
  obtain ⟨u, u1, u2, u3, _⟩ := linearForward_el (w := encA) (x := xs) (o := 1) (i := 2) (pre := [1, 2]) rfl rfl rfl
  obtain ⟨gB, hgB⟩ := linear_backward_exists (c := decC) (g := gs) (R := 1) (O := 3) (pre := [1, 2]) rfl rfl
  obtain ⟨G, GB, h1, h2, _, h3⟩ := C64_linear_partial xs encA decC gs gB u 1 2 1 3 [2] rfl rfl rfl rfl rfl rfl rfl u1 (by rw [u2, u3]; exact hgB)
  exact ⟨u, gB, G, GB, u1, h1, h2, h3 0 0 0 (by decide) (by decide) (by decide)⟩

/-- A convolution with a 2×1 kernel, stride 1. -/
def geo1 : ConvGeom := ⟨(2, 1), (1, 1), (0, 0), (1, 1)⟩
def kerA : Tensor ℚ := ⟨.cpu, [1, 1, 2, 1], [1, 1], rfl⟩
def one4 : Tensor ℚ := ⟨.cpu, [1, 1, 1, 1], [1], rfl⟩
def img2 : Tensor ℚ := ⟨.cpu, [1, 1, 2, 1], [3, 5], rfl⟩

example : ∃ u gB G GB, conv2dForward ⟨(2, 1), (1, 1), (0, 0), (1, 1)⟩ 1 kerA none image = .ok u ∧ computePerSampleGradient image img2 (.conv2d geo1 1) = .ok G ∧
    computePerSampleGradient u gB (.conv2d pointwise 1) = .ok GB ∧
    GB.el [0, 0, 0] = ∑ o ∈ Finset.range 1, ∑ i ∈ Finset.range 1, ∑ p ∈ Finset.range 2, ∑ q ∈ Finset.range 1,
      one4.el [o, 0, 0, 0] * G.el [0, o, (i * 2 + p) * 1 + q] * kerA.el [0, i, p, q] := by
  obtain ⟨u, u1, u2, u3, _⟩ := conv2dForward_el (w := kerA) (x := image) (N := 1) (C := 1) (O := 1) (h := 3) (v := 1) (g := geo1) (by constructor <;> decide) rfl rfl rfl
  obtain ⟨gB, hgB⟩ := pointwise_backward_exists (c := one4) (g := img2) (N := 1) (R := 1) (O := 1) (h := 2) (v := 1) (by decide) (by decide) rfl rfl
  obtain ⟨G, GB, h1, h2, _, h3⟩ := C64_conv_partial image kerA one4 img2 gB u 1 1 1 1 3 1 geo1 (by constructor <;> decide) (by decide) (by decide) (by decide) (by decide) rfl rfl rfl rfl
    rfl rfl rfl u1 (by rw [u2, u3]; exact hgB)
  exact ⟨u, gB, G, GB, u1, h1, h2, h3 0 0 0 (by decide) (by decide) (by decide)⟩

/-- A dilated convolution with stride 2: by rounding the encoder without dilation has the same output size. -/
def geo2 : ConvGeom := ⟨(2, 1), (2, 1), (0, 0), (2, 1)⟩

/-- C64 is false for dilated convolutions even where the wrapped layer runs: the bottleneck's gradient is that of the encoder without dilation. -/
theorem C64_refuted : ¬ ∀ (x a c g gB u : Tensor ℚ) (N C R O h v : Nat) (geo : ConvGeom), Spec.Fits geo h v → 0 < N → 0 < O → 0 < R → x.shape = [N, C, h, v] →
    g.shape = [N, O, Spec.outSize geo.kernel.1 geo.stride.1 geo.padding.1 geo.dilation.1 h, Spec.outSize geo.kernel.2 geo.stride.2 geo.padding.2 geo.dilation.2 v] →
    a.shape = [R, C, geo.kernel.1, geo.kernel.2] → c.shape = [O, R, 1, 1] → a.dev = x.dev → c.dev = x.dev → g.dev = x.dev →
    conv2dForward ⟨geo.kernel, geo.stride, geo.padding, (1, 1)⟩ 1 a none x = .ok u →
    Spec.IsBackward (conv2dForward pointwise 1 c none) u.shape u.dev g gB →
    ∃ G GB, computePerSampleGradient x g (.conv2d geo O) = .ok G ∧ computePerSampleGradient u gB (.conv2d pointwise R) = .ok GB ∧ GB.shape = [N, R, R] ∧
      ∀ n s r, n < N → s < R → r < R →
        GB.el [n, s, r] = ∑ o ∈ Finset.range O, ∑ i ∈ Finset.range C, ∑ p ∈ Finset.range geo.kernel.1, ∑ q ∈ Finset.range geo.kernel.2,
          c.el [o, s, 0, 0] * G.el [n, o, (i * geo.kernel.1 + p) * geo.kernel.2 + q] * a.el [r, i, p, q] := by
  intro H
  obtain ⟨gB, hgB⟩ := pointwise_backward_exists (c := one4) (g := one4) (N := 1) (R := 1) (O := 1) (h := 1) (v := 1) (by decide) (by decide) rfl rfl
  have hel := pointwise_backward (n := 0) (s := 0) (a := 0) (b := 0) (by decide) (by decide) rfl rfl hgB (by decide) (by decide) (by decide) (by decide)
  have hB : gB = one4 := by
    refine Tensor.ext_el hgB.2.1 hgB.1 ?_
    intro idx hidx
    rw [hgB.1] at hidx
    have hmem : idx ∈ indices [1, 1, 1, 1] := (mem_indices _ _).2 hidx
    have : indices [1, 1, 1, 1] = [[0, 0, 0, 0]] := by decide
    rw [this, List.mem_singleton] at hmem
    subst hmem
    rw [hel]
    decide +kernel
  subst hB
  have hu : conv2dForward ⟨(2, 1), (2, 1), (0, 0), (1, 1)⟩ 1 kerA none image = .ok ⟨.cpu, [1, 1, 1, 1], [3], rfl⟩ := by decide +kernel
  obtain ⟨G, GB, h1, h2, _, h3⟩ := H image kerA one4 one4 one4 _ 1 1 1 1 3 1 geo2 (by constructor <;> decide) (by decide) (by decide) (by decide) rfl rfl rfl rfl rfl rfl rfl hu hgB
  have e1 : computePerSampleGradient image one4 (.conv2d geo2 1) = .ok ⟨.cpu, [1, 1, 2], [1, 3], rfl⟩ := by decide +kernel
  have e2 : computePerSampleGradient (⟨.cpu, [1, 1, 1, 1], [3], rfl⟩ : Tensor ℚ) one4 (.conv2d pointwise 1) = .ok ⟨.cpu, [1, 1, 1], [3], rfl⟩ := by decide +kernel
  rw [e1] at h1
  rw [e2] at h2
  cases h1
  cases h2
  exact absurd (h3 0 0 0 (by decide) (by decide) (by decide)) (by decide +kernel)

end ExLora
end Logix
