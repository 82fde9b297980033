/-
When influence computations return.
-/
import Verif.Spec.Success
import Verif.Lemmas.Returns
import Verif.Lemmas.HessState
import Verif.Props.Groups
import Mathlib.LinearAlgebra.Matrix.NonsingularInverse

set_option linter.unusedSectionVars false

namespace Logix
variable {K : Type}

/-! ### Adding up scores -/

/-- The scores so far are tensors of one shape on one device. -/
def Sized (dims : List Nat) (dev : Dev) (d : Scores K) : Prop := ∀ k t, Dict.get? d k = some (some t) → t.shape = dims ∧ t.dev = dev

theorem addScores_returns [Semiring K] {dims : List Nat} {dev : Dev} {u : Tensor K} (hu : u.shape = dims ∧ u.dev = dev) : ∀ {ks : List PyStr} {d : Scores K},
    Sized dims dev d → (∀ k ∈ ks, k ∈ Dict.keys d) → ∃ d', addScores u ks d = .ok d' ∧ Sized dims dev d' ∧
      ∀ k, Dict.get? d' k = some none → Dict.get? d k = some none ∧ k ∉ ks
  | [], d, hd, _ => ⟨d, rfl, hd, fun k h => ⟨h, by simp⟩⟩
  | k :: ks, d, hd, hk => by
    obtain ⟨v, hv⟩ := Option.isSome_iff_exists.1 ((Dict.get?_isSome_iff d k).2 (hk k (by simp)))
    obtain ⟨x, hx, hx'⟩ : ∃ x, scoreOp (· + ·) v u = .ok x ∧ x.shape = dims ∧ x.dev = dev := by
      unfold scoreOp
      cases v with
      | none => exact ⟨_, rfl, hu⟩
      | some y =>
        obtain ⟨y1, y2⟩ := hd k y hv
        simp only [Tensor.iop]
        rw [if_pos ⟨by rw [y2, hu.2], by rw [y1, hu.1]; exact bcast_self _⟩]
        exact ⟨_, rfl, y1, y2⟩
    have hd' : Sized dims dev (Dict.set d k (some x)) := by
      intro k' t ht
      rw [Dict.get?_set] at ht
      split at ht
      · cases ht; exact hx'
      · exact hd k' t ht
    obtain ⟨d', h1, h2, h3⟩ := addScores_returns hu (ks := ks) hd' (fun k' hk' => by
      rw [Dict.keys_set_of_mem _ _ _ (by rw [← Dict.get?_isSome_iff, hv]; rfl)]
      exact hk k' (List.mem_cons_of_mem _ hk'))
    refine ⟨d', ?_, h2, fun k' hk' => ?_⟩
    · unfold addScores
      simp only [hv, hx, h1]
    · obtain ⟨h4, h5⟩ := h3 k' hk'
      rw [Dict.get?_set] at h4
      split at h4
      · cases h4
      · next hne =>
        refine ⟨h4, ?_⟩
        rw [List.mem_cons, not_or]
        exact ⟨fun h => hne (h.symm), h5⟩

theorem checkScores_returns {dims : List Nat} : ∀ {sc : Scores K}, (∀ p ∈ sc, ∃ t, p.2 = some t ∧ t.shape = dims) → ∃ d, checkScores dims sc = .ok d
  | [], _ => ⟨[], rfl⟩
  | (k, v) :: sc, h => by
    obtain ⟨t, h1, h2⟩ := h (k, v) (by simp)
    simp only at h1
    subst h1
    obtain ⟨d, hd⟩ := checkScores_returns fun p hp => h p (List.mem_cons_of_mem _ hp)
    unfold checkScores
    rw [if_pos h2, hd]
    exact ⟨_, rfl⟩

theorem initScores_nodup (gs : List PyStr) : (Dict.keys (initScores gs : Scores K)).Nodup := by
  unfold initScores
  have : ∀ (gs : List PyStr) (d : Scores K), (Dict.keys d).Nodup → (Dict.keys (gs.foldl (fun d g => Dict.set d g none) d)).Nodup := by
    intro gs
    induction gs with
    | nil => intro d h; exact h
    | cons g gs ih => intro d h; exact ih _ (Dict.nodup_keys_set _ _ _ h)
  exact this gs _ (by simp [Dict.keys])

theorem mem_scoreKeys {groups : Option (List PyStr)} {m k : PyStr} : k ∈ scoreKeys groups m → k = nTotal ∨ k ∈ groups.getD [] := by
  unfold scoreKeys
  rw [List.mem_cons, List.mem_filter]
  exact Or.imp_right And.left

/-- The loop over the modules returns, and only groups without modules are left at 0. -/
theorem moduleLoop_returns [Semiring K] {groups : Option (List PyStr)} {b : GLog K} {dev : Dev} {n m : Nat} : ∀ {src : GLog K} {d : Scores K},
    Sized [n, m] dev d → (∀ k, k = nTotal ∨ k ∈ groups.getD [] → k ∈ Dict.keys d) →
    (∀ p ∈ src, ∃ a r g, Dict.get? p.2 (LogType.name .grad) = some a ∧ a.dev = dev ∧ a.shape = n :: r ∧ Spec.grad b p.1 = some g ∧ g.shape = m :: r ∧ g.dev = dev) →
    ∃ d', moduleLoop groups b src d = .ok d' ∧ Sized [n, m] dev d' ∧ ∀ k, Dict.get? d' k = some none → Dict.get? d k = some none ∧ ∀ p ∈ src, k ∉ scoreKeys groups p.1
  | [], d, hs, _, _ => ⟨d, rfl, hs, fun k h => ⟨h, by simp⟩⟩
  | (k, sub) :: src, d, hs, hk, hb => by
    obtain ⟨a, r, g, h0, h1, h2, h3, h4, h5⟩ := hb (k, sub) (by simp)
    obtain ⟨v, hv, hv1, hv2⟩ := crossDot_returns h2 h4 (h1.trans h5.symm)
    obtain ⟨d₁, g1, g2, g3⟩ := addScores_returns ⟨hv1, hv2.trans h1⟩ (ks := scoreKeys groups k) hs (fun x hx => hk x (mem_scoreKeys hx))
    obtain ⟨d', g4, g5, g6⟩ := moduleLoop_returns (src := src) g2 (fun x hx => by rw [addScores_keys g1]; exact hk x hx) (fun p hp => hb p (List.mem_cons_of_mem _ hp))
    refine ⟨d', ?_, g5, fun x hx => ?_⟩
    · unfold moduleLoop
      simp only at h0
      simp only [h0, logItem_grad h3, hv, g1, g4]
    · obtain ⟨i1, i2⟩ := g6 x hx
      obtain ⟨i3, i4⟩ := g3 x i1
      refine ⟨i3, fun p hp => ?_⟩
      rcases List.mem_cons.1 hp with rfl | hp
      · exact i4
      · exact i2 p hp

theorem rowDots_returns [Semiring K] {a b : Tensor K} {n x y : Nat} (ha : a.shape = [n, x, y]) (hb : b.shape = a.shape) (hd : a.dev = b.dev) :
    ∃ u, rowDots a b = .ok u ∧ u.shape = [n] ∧ u.dev = a.dev := by
  unfold rowDots
  rw [hb, ha]
  simp only [true_and, if_pos hd]
  exact ⟨_, rfl, rfl, rfl⟩

/-- The loop of self-influence. -/
theorem selfLoop_returns [Semiring K] {groups : Option (List PyStr)} {b : GLog K} {dev : Dev} {n : Nat} : ∀ {src : GLog K} {d : Scores K},
    Sized [n] dev d → (∀ k, k = nTotal ∨ k ∈ groups.getD [] → k ∈ Dict.keys d) →
    (∀ p ∈ src, ∃ a x y g, Dict.get? p.2 (LogType.name .grad) = some a ∧ a.dev = dev ∧ a.shape = [n, x, y] ∧ Spec.grad b p.1 = some g ∧ g.shape = a.shape ∧ g.dev = dev) →
    ∃ d', selfLoop groups b src d = .ok d' ∧ Sized [n] dev d' ∧ ∀ k, Dict.get? d' k = some none → Dict.get? d k = some none ∧ ∀ p ∈ src, k ∉ scoreKeys groups p.1
  | [], d, hs, _, _ => ⟨d, rfl, hs, fun k h => ⟨h, by simp⟩⟩
  | (k, sub) :: src, d, hs, hk, hb => by
    obtain ⟨a, x, y, g, h0, h1, h2, h3, h4, h5⟩ := hb (k, sub) (by simp)
    obtain ⟨v, hv, hv1, hv2⟩ := rowDots_returns h2 h4 (h1.trans h5.symm)
    obtain ⟨d₁, g1, g2, g3⟩ := addScores_returns ⟨hv1, hv2.trans h1⟩ (ks := scoreKeys groups k) hs (fun x hx => hk x (mem_scoreKeys hx))
    obtain ⟨d', g4, g5, g6⟩ := selfLoop_returns (src := src) g2 (fun x hx => by rw [addScores_keys g1]; exact hk x hx) (fun p hp => hb p (List.mem_cons_of_mem _ hp))
    refine ⟨d', ?_, g5, fun x hx => ?_⟩
    · unfold selfLoop
      simp only at h0
      simp only [h0, logItem_grad h3, hv, g1, g4]
    · obtain ⟨i1, i2⟩ := g6 x hx
      obtain ⟨i3, i4⟩ := g3 x i1
      refine ⟨i3, fun p hp => ?_⟩
      rcases List.mem_cons.1 hp with rfl | hp
      · exact i4
      · exact i2 p hp

/-- With modules for every group all scores are tensors at the end. -/
theorem all_scored {groups : Option (List PyStr)} {dims : List Nat} {dev : Dev} {keys : List PyStr} {d' : Scores K} (hkeys : keys ≠ []) (hg : Spec.GroupsHit groups keys)
    (hk : Dict.keys d' = Dict.keys (initScores (groups.getD []) : Scores K)) (hs : Sized dims dev d')
    (hn : ∀ k, Dict.get? d' k = some none → ∀ m ∈ keys, k ∉ scoreKeys groups m) : ∀ p ∈ d', ∃ t, p.2 = some t ∧ t.shape = dims ∧ t.dev = dev := by
  intro p hp
  have hnd : (Dict.keys d').Nodup := by rw [hk]; exact initScores_nodup _
  have hget : Dict.get? d' p.1 = some p.2 := Dict.get?_of_mem _ hnd hp
  cases hv : p.2 with
  | some t =>
    rw [hv] at hget
    exact ⟨t, rfl, hs _ _ hget⟩
  | none =>
    rw [hv] at hget
    exfalso
    have hmem : p.1 ∈ Dict.keys d' := List.mem_map_of_mem (f := Prod.fst) hp
    rw [hk, (initScores_get (K := K) (groups.getD [])).2] at hmem
    rcases hmem with h | h
    · obtain ⟨m, hm⟩ := List.exists_mem_of_ne_nil _ hkeys
      exact hn _ hget m hm (by rw [h]; simp [scoreKeys])
    · obtain ⟨m, hm, hsub⟩ := hg _ h
      refine hn _ hget m hm ?_
      unfold scoreKeys
      exact List.mem_cons_of_mem _ (List.mem_filter.2 ⟨h, (isSub_iff _ _).2 hsub⟩)

end Logix
