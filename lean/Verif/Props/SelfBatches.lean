/-
C113: does self-influence depend on how the samples are batched?
-/
import Verif.Spec.SelfBatches
import Verif.Props.InfluenceAll

set_option linter.unusedSectionVars false

namespace Logix
open Spec
variable {K : Type}

/-- The self-influence of one sample in two logs, computed in the same state. -/
theorem self_entry_same [Field K] {L : Lib K} {s s₁ s₂ : LState K} {ids₁ ids₂ : List PyStr} {e₁ e₂ : GLog K} {pre : Bool} {hessian : Hess}
    {groups : Option (List PyStr)} {damping : Option K} {v w : SelfResult K}
    (hv : computeSelf L s ids₁ (.dict e₁) pre hessian groups damping = .ok (s₁, v))
    (hw : computeSelf L s ids₂ (.dict e₂) pre hessian groups damping = .ok (s₂, w))
    (h₁ : Labelled ids₁ e₁) (h₂ : Labelled ids₂ e₂) (hkeys : Dict.keys e₁ = Dict.keys e₂) {k : PyStr} (hk : k = nTotal ∨ k ∈ groups.getD [])
    {t x : Tensor K} (ht : v.influence.get? k = some t) (hx : w.influence.get? k = some x)
    {j j' : Nat} (hj : j < ids₁.length) (hj' : j' < ids₂.length) (hs : SameRows e₁ j e₂ j') : x.el [j'] = t.el [j] := by
  obtain ⟨H, a1, -, -, a2⟩ := computeSelf_ok hv h₁
  obtain ⟨G, b1, -, -, b2⟩ := computeSelf_ok hw h₂
  obtain ⟨t', ht', -, -, -, -, a3⟩ := a2 k hk
  obtain ⟨x', hx', -, -, -, -, b3⟩ := b2 k hk
  rw [ht] at ht'; cases ht'
  rw [hx] at hx'; cases hx'
  rw [hkeys] at a1
  have hHG := preOf_unique a1 b1
  subst hHG
  have hs : SameSample e₁ j e₂ j' := ⟨hkeys, hs⟩
  rw [a3 j hj, b3 j' hj', hkeys]
  refine congrArg List.sum (List.map_congr_left fun m hm => ?_)
  rw [hs.formAt hs H hm hm (fun g' z h1 h2 => by rw [h1] at h2; cases h2; rfl)]

/-- Every batch of a run has the result that it would have in the state of the beginning. -/
theorem selfRun_at [Field K] {L : Lib K} {P : Option K → Prop} {pre : Bool} {hessian : Hess} {groups : Option (List PyStr)} {damping : Option K}
    (hP : hessian = .kfac ∨ P = fun c => c = damping) {s s₀ : LState K} {bs : List (List PyStr × GLog K)} {vs : List (SelfResult K)}
    (h : SelfRun L pre hessian groups damping s bs vs) (hs : SameView L P s₀ s) :
    List.Forall₂ (fun b v => ∃ s', computeSelf L s₀ b.1 (.dict b.2) pre hessian groups damping = .ok (s', v)) bs vs := by
  induction h with
  | nil s => exact .nil
  | @cons s s' b bs v vs hc _ ih =>
    obtain ⟨a1, -⟩ := computeSelf_same hs b.1 (.dict b.2) pre hessian groups damping hP
    obtain ⟨-, a2⟩ := computeSelf_same hs.symm.left b.1 (.dict b.2) pre hessian groups damping hP
    rcases a1 with ⟨e, -, he⟩ | ⟨s₃, s₄, v', h3, h4, -⟩
    · rw [hc] at he; cases he
    · rw [hc] at h4; cases h4
      exact .cons ⟨s₃, h3⟩ (ih (hs.trans (a2 _ _ hc)))

theorem forall₂_at {α β : Type} {R : α → β → Prop} : ∀ {as : List α} {vs : List β}, List.Forall₂ R as vs → ∀ {before : List β} {v : β} {after : List β},
    vs = before ++ v :: after → ∃ l a r, as = l ++ a :: r ∧ R a v ∧ List.Forall₂ R l before
  | _, _, .nil, before, v, after, h => by simp at h
  | _, _, .cons (a := a) (l₁ := as) h1 h2, [], v, after, h => by
    obtain ⟨rfl, rfl⟩ := List.cons.inj h
    exact ⟨[], a, as, rfl, h1, .nil⟩
  | _, _, .cons (a := a) h1 h2, x :: before, v, after, h => by
    obtain ⟨rfl, h'⟩ := List.cons.inj h
    obtain ⟨l, a', r, rfl, h3, h4⟩ := forall₂_at h2 h'
    exact ⟨a :: l, a', r, rfl, h3, .cons h1 h4⟩

theorem self_joined [Field K] {L : Lib K} {P : Option K → Prop} {pre : Bool} {hessian : Hess} {groups : Option (List PyStr)} {damping : Option K}
    (hP : hessian = .kfac ∨ P = fun c => c = damping) {s s₀ s' : LState K} {batches : List (List PyStr × GLog K)} {allIds : List PyStr} {e : GLog K}
    {vs : List (SelfResult K)} {w : SelfResult K} (h : SelfRun L pre hessian groups damping s batches vs) (hs : SameView L P s₀ s)
    (hw : computeSelf L s₀ allIds (.dict e) pre hessian groups damping = .ok (s', w)) (hB : Batches batches allIds e)
    (hb : ∀ b ∈ batches, Labelled b.1 b.2 ∧ Dict.keys b.2 = Dict.keys e) (he : Labelled allIds e) : SelfJoined vs groups w := by
  have hat := selfRun_at hP h hs
  have hids : ∀ {bs : List (List PyStr × GLog K)} {vs : List (SelfResult K)}, (∀ b ∈ bs, Labelled b.1 b.2) →
      List.Forall₂ (fun b v => ∃ s', computeSelf L s₀ b.1 (.dict b.2) pre hessian groups damping = .ok (s', v)) bs vs →
      vs.flatMap (·.srcIds) = bs.flatMap (·.1) := by
    intro bs vs hl h
    induction h with
    | nil => rfl
    | @cons b v bs vs h1 _ ih =>
      obtain ⟨s', h1⟩ := h1
      obtain ⟨-, -, a, -⟩ := computeSelf_ok h1 (hl b (by simp))
      rw [List.flatMap_cons, List.flatMap_cons, a, ih fun b hb => hl b (List.mem_cons_of_mem _ hb)]
  obtain ⟨_, -, w1, -, w2⟩ := computeSelf_ok hw he
  refine ⟨by rw [w1, hids (fun b h => (hb b h).1) hat, hB.1], fun k hk => ?_⟩
  obtain ⟨x, hx, -, -, hx', -⟩ := w2 k hk
  refine ⟨x, hx, by rw [w1]; exact hx', fun before v after hvs => ?_⟩
  obtain ⟨l, b, r, rfl, ⟨s₁, hv⟩, hl⟩ := forall₂_at hat hvs
  obtain ⟨hb1, hb2⟩ := hb b (by simp)
  obtain ⟨_, -, v1, -, v2⟩ := computeSelf_ok hv hb1
  obtain ⟨t, ht, -, -, ht', -⟩ := v2 k hk
  refine ⟨t, ht, by rw [v1]; exact ht', fun j hj => ?_⟩
  rw [v1] at hj
  rw [hids (fun b h => (hb b (by simp [h])).1) hl]
  refine self_entry_same hv hw hb1 he hb2 hk ht hx hj ?_ (hB.2 l b r rfl j hj)
  rw [hB.1, List.flatMap_append, List.flatMap_cons, List.length_append, List.length_append]
  omega

/-- **C113.** Without fitted eigenvalues: `compute_self_influence` is called with one batch after the other, in a state in which influences have been computed before
with the same damping. Then the results are, one after the other, the ids and the scores of one call with all samples, in total and in every group. -/
theorem C113_same_damping_partial [Field K] {L : Lib K} {sqrt : K → K} {ops : List (StateOp K)} {s₀ s s' : LState K} {calls : List (Call K)} {pre : Bool} {hessian : Hess}
    {groups : Option (List PyStr)} {damping : Option K} {batches : List (List PyStr × GLog K)} {allIds : List PyStr} {e : GLog K} {vs : List (SelfResult K)} {w : SelfResult K}
    (hrun : runOps L .init ops = .ok s₀) (hek : s₀.hasAttr nEkfac = false) (hc : ∀ c ∈ calls, c.damping = damping) (hcalls : serveAll L sqrt s₀ calls = .ok s)
    (h : SelfRun L pre hessian groups damping s batches vs) (hw : computeSelf L s₀ allIds (.dict e) pre hessian groups damping = .ok (s', w))
    (hB : Batches batches allIds e) (hb : ∀ b ∈ batches, Labelled b.1 b.2 ∧ Dict.keys b.2 = Dict.keys e) (he : Labelled allIds e) : SelfJoined vs groups w :=
  self_joined (P := fun c => c = damping) (.inr rfl) h (serveAll_same (.run hrun hek) (fun c h => .inr (by rw [hc c h])) hcalls) hw hB hb he

/-- **C113**, with `hessian="kfac"`: the earlier computations may have used any damping. -/
theorem C113_kfac_partial [Field K] {L : Lib K} {sqrt : K → K} {ops : List (StateOp K)} {s₀ s s' : LState K} {calls : List (Call K)} {pre : Bool}
    {groups : Option (List PyStr)} {damping : Option K} {batches : List (List PyStr × GLog K)} {allIds : List PyStr} {e : GLog K} {vs : List (SelfResult K)} {w : SelfResult K}
    (hrun : runOps L .init ops = .ok s₀) (hek : s₀.hasAttr nEkfac = false) (hc : ∀ c ∈ calls, c.hessian = .kfac) (hcalls : serveAll L sqrt s₀ calls = .ok s)
    (h : SelfRun L pre .kfac groups damping s batches vs) (hw : computeSelf L s₀ allIds (.dict e) pre .kfac groups damping = .ok (s', w))
    (hB : Batches batches allIds e) (hb : ∀ b ∈ batches, Labelled b.1 b.2 ∧ Dict.keys b.2 = Dict.keys e) (he : Labelled allIds e) : SelfJoined vs groups w :=
  self_joined (P := fun _ => False) (.inl rfl) h (serveAll_same (.run hrun hek) (fun c h => .inl (hc c h)) hcalls) hw hB hb he

end Logix
