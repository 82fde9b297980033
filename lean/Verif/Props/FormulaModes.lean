/-
C121: in every mode and for every group, the scores are made of the influence function of the logged data.
-/
import Verif.Props.SessionInfluence
import Verif.Props.Groups
import Verif.Lemmas.Modes

set_option linter.unusedSectionVars false

namespace Logix
open Spec
variable {K : Type}

/-- The Hessian is made once: afterwards preconditioning gives the same as before. -/
theorem precondition_again [Field K] {L : Lib K} {s s₁ : LState K} {e : GLog K} {hessian : Hess} {damping : Option K} {H : HessKind K}
    (h : hessOf L s (Dict.keys e) hessian damping = .ok (s₁, H)) : precondition L s₁ (.dict e) hessian damping = precondition L s (.dict e) hessian damping := by
  have h' := hessOf_idem h
  unfold precondition
  split
  · rfl
  · simp only
    unfold hessOf at h h'
    have hany : ∀ cov : StateDict K, (e.any fun p => !Dict.contains cov p.1) = (Dict.keys e).any fun k => !Dict.contains cov k := fun cov => by
      rw [Dict.keys, List.any_map]; rfl
    cases hcov : s.getAttr nCov with
    | error x => rw [hcov] at h; cases h
    | ok cov =>
      cases hcov' : s₁.getAttr nCov with
      | error x => rw [hcov'] at h'; cases h'
      | ok cov' =>
        simp only [hcov] at h
        simp only [hcov'] at h'
        simp only [hany]
        by_cases hc : ((Dict.keys e).any fun k => !Dict.contains cov k) = true
        · rw [if_pos hc] at h
          cases h
          rw [hcov] at hcov'; cases hcov'
          rfl
        · rw [if_neg hc] at h
          rw [usesRaw_keys] at h
          cases hr : usesRaw cov e hessian with
          | error x => rw [hr] at h; cases h
          | ok raw =>
            simp only [hr] at h
            cases raw with
            | true =>
              simp only at h
              cases hi : s.getCovarianceInverse L damping with
              | error x => rw [hi] at h; cases h
              | ok si =>
                obtain ⟨s₂, inv⟩ := si
                rw [hi] at h
                cases h
                have : s₁.getAttr nCov = .ok cov := by
                  rw [getAttr_congr ((getCovarianceInverse_frame L hi).2 _ (by decide))]; exact hcov
                rw [this] at hcov'; cases hcov'
                rw [if_neg hc, usesRaw_keys] at h'
                simp only [hr] at h'
                cases hi' : s₁.getCovarianceInverse L damping with
                | error x => rw [hi'] at h'; cases h'
                | ok si' =>
                  obtain ⟨s₂', inv'⟩ := si'
                  rw [hi'] at h'
                  cases h'
                  rw [if_neg hc, if_neg hc]
                  simp only [hr, preconditionRaw, hi, hi', if_true]
            | false =>
              simp only at h
              cases hi : s.getCovarianceSvd L with
              | error x => rw [hi] at h; cases h
              | ok si =>
                obtain ⟨s₂, n⟩ := si
                rw [hi] at h
                simp only at h
                cases hv : s₂.getAttr n with
                | error x => rw [hv] at h; cases h
                | ok vals =>
                  cases hw : s₂.getAttr nEigvec with
                  | error x => rw [hv, hw] at h; cases h
                  | ok vecs =>
                    rw [hv, hw] at h
                    cases h
                    have : s₁.getAttr nCov = .ok cov := by
                      rw [getAttr_congr ((getCovarianceSvd_frame L hi).2 _ (by decide) (by decide))]; exact hcov
                    rw [this] at hcov'; cases hcov'
                    rw [if_neg hc, usesRaw_keys] at h'
                    simp only [hr] at h'
                    have hhas : s₁.hasAttr nEigval = true ∧ s₁.hasAttr nEigvec = true := by
                      unfold LState.getCovarianceSvd at hi
                      split at hi
                      · cases hi
                      · next s₃ h3 =>
                        cases hi
                        split at h3
                        · next hb => cases h3; simpa using hb
                        · exact covarianceSvd_both h3
                    have hn : s₁.getCovarianceSvd L = .ok (s₁, n) := by
                      unfold LState.getCovarianceSvd at hi ⊢
                      rw [hhas.1, hhas.2]
                      simp only [Bool.and_self, if_true]
                      split at hi
                      · cases hi
                      · cases hi; rfl
                    rw [if_neg hc, if_neg hc]
                    simp only [hr, preconditionKfac, hi, hn, hv, hw, Bool.false_eq_true, if_false]

/-- For the norms the targets are preconditioned in the state after the sources were. -/
theorem computeInfluence_norm [Field K] {L : Lib K} {sqrt : K → K} {s s' : LState K} {srcIds tgtIds : List PyStr} {d e : GLog K} {mode : Mode}
    {pre : Bool} {hessian : Hess} {groups : Option (List PyStr)} {damping : Option K} {r : IFResult K}
    (h : computeInfluence L sqrt s srcIds (.dict d) tgtIds (.dict e) mode pre hessian groups damping = .ok (s', r))
    (hd : Labelled srcIds d) (he : Labelled tgtIds e) (hm : mode ≠ .dot) :
    ∃ s₁ o e' s₂ o', (if pre then precondition L s (.dict d) hessian damping else .ok (s, .dict d)) = .ok (s₁, o) ∧ SameGrads e e' ∧
      precondition L s₁ (.dict e') hessian damping = .ok (s₂, o') := by
  unfold computeInfluence at h
  split at h
  · cases h
  · split at h
    · cases h
    · next s₁ src hp =>
      obtain ⟨p, H, rfl, hH, ha⟩ := pre_ok hd.nodup hp
      split at h
      · cases h
      · next sc tgt hraw =>
        obtain ⟨e', rfl, hsame, -⟩ := rawScores_ok hraw ha hd he
        split at h
        · cases h
        · next s₂ sc₂ hms =>
          unfold modeScores at hms
          rw [if_neg hm] at hms
          split at hms
          · cases hms
          · next s₃ norm hself =>
            obtain ⟨s₄, o', h4⟩ := computeSelf_pre hself
            exact ⟨s₁, _, e', s₄, o', hp, hsame, h4⟩

theorem SameGrads.kfacSystem [Field K] {e e' : GLog K} (h : SameGrads e e') (A B : Nat → Nat → K) (c : K) (i : Nat) (m : PyStr) (x : List Nat → K) :
    KfacSystem A B c e i m x ↔ KfacSystem A B c e' i m x := by
  unfold KfacSystem
  rcases h.2 m with ⟨h1, h2⟩ | ⟨g, dev, h1, h2⟩
  · rw [h1, h2]
  · rw [h1, h2]
    constructor
    · rintro ⟨_, n, a, b, g1, k⟩; cases g1; exact ⟨_, n, a, b, rfl, k⟩
    · rintro ⟨_, n, a, b, g1, k⟩; cases g1; exact ⟨_, n, a, b, rfl, k⟩

theorem SameGrads.rawSystem [Field K] {e e' : GLog K} (h : SameGrads e e') (S : Nat → Nat → K) (c : K) (i : Nat) (m : PyStr) (x : List Nat → K) :
    RawSystem S c e i m x ↔ RawSystem S c e' i m x := by
  unfold RawSystem
  rcases h.2 m with ⟨h1, h2⟩ | ⟨g, dev, h1, h2⟩
  · rw [h1, h2]
  · rw [h1, h2]
    constructor
    · rintro ⟨_, g1, k⟩; cases g1; exact ⟨_, rfl, k⟩
    · rintro ⟨_, g1, k⟩; cases g1; exact ⟨_, rfl, k⟩

theorem SameGrads.solves [Field K] {e e' : GLog K} (h : SameGrads e e') (calls : List (Plugin × StatCall K)) (hessian : Hess) (c : K) (i : Nat) (m : PyStr)
    (x : List Nat → K) : Solves calls hessian c e i m x ↔ Solves calls hessian c e' i m x := by
  unfold Solves SolvesRaw SolvesKfac
  rw [h.kfacSystem, h.rawSystem]

/-- Sums over the modules of a group. -/
theorem sum_group [Semiring K] {groups : Option (List PyStr)} (hg : (groups.getD []).Nodup) (hn : ['t', 'o', 't', 'a', 'l'] ∉ groups.getD []) {k : PyStr}
    (hk : k = ['t', 'o', 't', 'a', 'l'] ∨ k ∈ groups.getD []) (keys : List PyStr) (f : PyStr → K) :
    (keys.map fun m => ((scoreKeys groups m).count k : K) * f m).sum = ((members keys k).map f).sum := by
  cases groups with
  | some gs => exact sum_members hg hn hk keys f
  | none =>
    rcases hk with rfl | hk
    · simp only [members, if_true]
      congr 1
      refine List.map_congr_left fun m _ => ?_
      have : ((scoreKeys none m).count ['t', 'o', 't', 'a', 'l'] : Nat) = 1 := rfl
      rw [this, Nat.cast_one, one_mul]
    · cases hk

variable [Field K] [LinearOrder K] [IsStrictOrderedRing K]

/-- The scores in every mode, if the damped systems of all logs of these modules have solutions and these give the form of the inverse Hessian. -/
theorem modes_of_solutions {L : Lib K} {sqrt : K → K} {calls : List (Plugin × StatCall K)} {s u : LState K} {srcIds tgtIds : List PyStr} {d e : GLog K}
    {mode : Mode} {hessian : Hess} {groups : Option (List PyStr)} {c : Option K} {r : IFResult K} {S : GLog K → Nat → PyStr → (List Nat → K) → Prop}
    (hf : Finalized L calls s) (hd : Labelled srcIds d) (he : Labelled tgtIds e) (hk : Dict.keys d = Dict.keys e)
    (hg : (groups.getD []).Nodup) (hn : ['t', 'o', 't', 'a', 'l'] ∉ groups.getD [])
    (hS : ∀ (d' : GLog K) ids', Dict.keys d' = Dict.keys d → Labelled ids' d' → ∀ s₁ s₂ o H, precondition L s (.dict d') hessian c = .ok (s₂, o) →
      hessOf L s (Dict.keys d') hessian c = .ok (s₁, H) →
      (∀ i, i < ids'.length → ∃ x : PyStr → List Nat → K, ∀ m ∈ Dict.keys d', S d' i m (x m)) ∧
      ∀ i m x, m ∈ Dict.keys d' → S d' i m x → ∀ g, grad d' m = some g → ∀ f, H.form m g.shape.tail (row g i) f = dot g.shape.tail x f)
    (hS' : ∀ e e' : GLog K, SameGrads e e' → ∀ i m x, S e i m x ↔ S e' i m x)
    (h : computeInfluence L sqrt s srcIds (.dict d) tgtIds (.dict e) mode true hessian groups c = .ok (u, r)) :
    ∀ k, k = ['t', 'o', 't', 'a', 'l'] ∨ k ∈ groups.getD [] → ∃ t, r.influence.get? k = some t ∧ t.shape = [srcIds.length, tgtIds.length] ∧
      ∀ i j, i < srcIds.length → j < tgtIds.length →
        (∃ x : PyStr → List Nat → K, ∀ m ∈ Dict.keys d, S d i m (x m)) ∧
        (mode ≠ .dot → ∃ y : PyStr → List Nat → K, ∀ m ∈ Dict.keys d, S e j m (y m)) ∧
        ∀ x : PyStr → List Nat → K, (∀ m ∈ Dict.keys d, S d i m (x m)) →
          (mode = .dot → t.el [i, j] = against x e j (members (Dict.keys d) k)) ∧
          ∀ y : PyStr → List Nat → K, (∀ m ∈ Dict.keys d, S e j m (y m)) →
            (mode = .l2 → t.el [i, j] = against x e j (members (Dict.keys d) k) - 1 / 2 * against y e j (members (Dict.keys d) k)) ∧
            (mode = .cosine → t.el [i, j] = against x e j (members (Dict.keys d) k) / sqrt (against y e j (members (Dict.keys d) k))) := by
  have hek : s.hasAttr nEkfac = false := finalized_hasAttr hf (by decide) rfl
  obtain ⟨ops, hrun⟩ : ∃ ops, runOps L .init ops = .ok s := by
    obtain ⟨-, -, s₀, dir, dir', h2, h3⟩ := hf
    refine ⟨calls.map (fun pc => StateOp.update pc.1 pc.2) ++ [.finalize dir], ?_⟩
    rw [updates_runOps h2]
    simp only [runOps, stepOp, h3]
    rfl
  obtain ⟨H, hH, hsh, hsc⟩ := mode_scores hrun hek h hd he hk
  obtain ⟨_, _, s₁, ⟨o, g0⟩, -, -, -, -, -, -, -, hshape⟩ := computeInfluence_ok' h hd he
  simp only [if_true] at g0
  obtain ⟨k1, k2⟩ := hS d srcIds rfl hd _ _ _ _ g0 hH
  -- the norms
  have hy : mode ≠ .dot → (∀ j, j < tgtIds.length → ∃ y : PyStr → List Nat → K, ∀ m ∈ Dict.keys d, S e j m (y m)) ∧
      ∀ j m y, m ∈ Dict.keys d → S e j m y → ∀ g, grad e m = some g → ∀ f, H.form m g.shape.tail (row g j) f = dot g.shape.tail y f := by
    intro hm
    obtain ⟨sa, oa, e', sb, ob, h1, hsame, h2⟩ := computeInfluence_norm h hd he hm
    simp only [if_true] at h1
    rw [g0] at h1; cases h1
    have hke : Dict.keys e' = Dict.keys d := hsame.1.trans hk.symm
    obtain ⟨out, sc, Hc, -, -, hHc, -, hns⟩ := precondition_acts hd.nodup g0
    rw [hH] at hHc; cases hHc
    have := hns (noShared hrun hek hH)
    subst this
    have hH' : hessOf L s (Dict.keys e') hessian c = .ok (s₁, H) := by rw [hke]; exact hH
    rw [precondition_again hH'] at h2
    obtain ⟨m1, m2⟩ := hS e' tgtIds hke (hsame.labelled he) _ _ _ _ h2 hH'
    refine ⟨fun j hj => (m1 j hj).imp fun y hy m hm => (hS' _ _ hsame _ _ _).2 (hy m (by rw [hke]; exact hm)), fun j m y hm hy g hg f => ?_⟩
    rcases hsame.2 m with ⟨g1, -⟩ | ⟨g', dev, g1, g2⟩
    · rw [hg] at g1; cases g1
    · rw [hg] at g1; cases g1
      exact m2 j m y (by rw [hke]; exact hm) ((hS' _ _ hsame _ _ _).1 hy) _ g2 f
  intro k hkk
  obtain ⟨t, t1, -, t2, -⟩ := hshape k hkk
  obtain ⟨t', t1', t3⟩ := hsc k hkk
  rw [t1] at t1'; cases t1'
  refine ⟨t, t1, t2, fun i j hi hj => ⟨k1 i hi, fun hm => (hy hm).1 j hj, fun x hx => ?_⟩⟩
  have ex : ((members (Dict.keys d) k).map fun m => formAt H.form d i e j m).sum = against x e j (members (Dict.keys d) k) := by
    unfold against
    congr 1
    refine List.map_congr_left fun m hm => ?_
    obtain ⟨g, f, a1, a2, a3⟩ := hsh m (mem_members hm)
    unfold formAt
    simp only [a1, a2]
    rw [k2 i m (x m) (mem_members hm) (hx m (mem_members hm)) g a1, a3]
  have ey : ∀ y : PyStr → List Nat → K, (∀ m ∈ Dict.keys d, S e j m (y m)) → mode ≠ .dot →
      ((members (Dict.keys d) k).map fun m => formAt H.form e j e j m).sum = against y e j (members (Dict.keys d) k) := by
    intro y hyy hm
    unfold against
    congr 1
    refine List.map_congr_left fun m hmm => ?_
    obtain ⟨g, f, a1, a2, a3⟩ := hsh m (mem_members hmm)
    unfold formAt
    simp only [a2]
    rw [(hy hm).2 j m (y m) (mem_members hmm) (hyy m (mem_members hmm)) f a2]
  rw [t3 i j hi hj, sum_group hg hn hkk, sum_group hg hn hkk, ex]
  refine ⟨fun hm => by subst hm; rfl, fun y hyy => ⟨fun hm => ?_, fun hm => ?_⟩⟩
  · rw [ey y hyy (by rw [hm]; decide)]; subst hm; rfl
  · rw [ey y hyy (by rw [hm]; decide)]; subst hm; rfl

/-- The same for self-influence of groups. -/
theorem self_groups_of_solutions {L : Lib K} {s u : LState K} {ids : List PyStr} {d : GLog K} {groups : Option (List PyStr)}
    {hessian : Hess} {c : Option K} {r : SelfResult K} {S : Nat → PyStr → (List Nat → K) → Prop} (hd : Labelled ids d)
    (hg : (groups.getD []).Nodup) (hn : ['t', 'o', 't', 'a', 'l'] ∉ groups.getD [])
    (hS : ∀ s₁ s₂ o H, precondition L s (.dict d) hessian c = .ok (s₂, o) → hessOf L s (Dict.keys d) hessian c = .ok (s₁, H) →
      (∀ i, i < ids.length → ∃ x : PyStr → List Nat → K, ∀ m ∈ Dict.keys d, S i m (x m)) ∧
      ∀ i m x, m ∈ Dict.keys d → S i m x → ∀ g, grad d m = some g → ∀ f, H.form m g.shape.tail (row g i) f = dot g.shape.tail x f)
    (h : computeSelf L s ids (.dict d) true hessian groups c = .ok (u, r)) :
    ∀ k, k = ['t', 'o', 't', 'a', 'l'] ∨ k ∈ groups.getD [] → ∃ t, r.influence.get? k = some t ∧ t.shape = [ids.length] ∧ ∀ i, i < ids.length →
      (∃ x : PyStr → List Nat → K, ∀ m ∈ Dict.keys d, S i m (x m)) ∧
      ∀ x : PyStr → List Nat → K, (∀ m ∈ Dict.keys d, S i m (x m)) → t.el [i] = against x d i (members (Dict.keys d) k) := by
  obtain ⟨s₂, o, g0⟩ := computeSelf_pre h
  obtain ⟨H, g1, -, -, g5⟩ := computeSelf_ok h hd
  simp only [PreOf, if_true] at g1
  obtain ⟨v, hv, -⟩ := g1
  obtain ⟨k1, k2⟩ := hS _ _ _ _ g0 hv
  intro k hk
  obtain ⟨t, t1, -, t2, t3, -, t4⟩ := g5 k hk
  refine ⟨t, t1, t3, fun i hi => ⟨k1 i hi, fun x hx => ?_⟩⟩
  rw [t4 i hi, sum_group hg hn hk]
  unfold against
  congr 1
  refine List.map_congr_left fun m hm => ?_
  obtain ⟨g, a1, -⟩ := hd.rows m (mem_members hm)
  unfold formAt
  simp only [a1]
  exact k2 i m (x m) (mem_members hm) (hx m (mem_members hm)) g a1 _

/-- **C121.** A new instance logs data for the covariances and is finalized. The scores of `compute_influence` for the total and for every group are made
of the influence function of the logged data: let `x` be the solution of the damped system for the gradient of source `i`, and `y` that for the gradient
of target `j`. Mode `dot` gives the inner product of `x` with the gradient of the target over the modules of the group; `l2` subtracts half of the inner
product of `y` with the gradient of the target, and `cosine` divides by the root of it. The systems have solutions, and the scores are the same for all
solutions. -/
theorem C121_influence {L : Lib K} {sqrt : K → K} {calls : List (Plugin × StatCall K)} {s u : LState K} {srcIds tgtIds : List PyStr} {d e : GLog K}
    {mode : Mode} {hessian : Hess} {groups : Option (List PyStr)} {c : K} {r : IFResult K} (hE : EighOk L) (hI : InverseOk L) (hf : Finalized L calls s)
    (hl : LoggedAll calls (Dict.keys d) hessian) (hc : 0 < c) (hd : Labelled srcIds d) (he : Labelled tgtIds e) (hk : Dict.keys d = Dict.keys e)
    (hg : (groups.getD []).Nodup) (hn : ['t', 'o', 't', 'a', 'l'] ∉ groups.getD [])
    (h : computeInfluence L sqrt s srcIds (.dict d) tgtIds (.dict e) mode true hessian groups (some c) = .ok (u, r)) :
    ∀ k, k = ['t', 'o', 't', 'a', 'l'] ∨ k ∈ groups.getD [] → ∃ t, r.influence.get? k = some t ∧ t.shape = [srcIds.length, tgtIds.length] ∧
      ∀ i j, i < srcIds.length → j < tgtIds.length →
        (∃ x : PyStr → List Nat → K, ∀ m ∈ Dict.keys d, Solves calls hessian c d i m (x m)) ∧
        (mode ≠ .dot → ∃ y : PyStr → List Nat → K, ∀ m ∈ Dict.keys d, Solves calls hessian c e j m (y m)) ∧
        ∀ x : PyStr → List Nat → K, (∀ m ∈ Dict.keys d, Solves calls hessian c d i m (x m)) →
          (mode = .dot → t.el [i, j] = against x e j (members (Dict.keys d) k)) ∧
          ∀ y : PyStr → List Nat → K, (∀ m ∈ Dict.keys d, Solves calls hessian c e j m (y m)) →
            (mode = .l2 → t.el [i, j] = against x e j (members (Dict.keys d) k) - 1 / 2 * against y e j (members (Dict.keys d) k)) ∧
            (mode = .cosine → t.el [i, j] = against x e j (members (Dict.keys d) k) / sqrt (against y e j (members (Dict.keys d) k))) :=
  modes_of_solutions (S := fun d i m x => Solves calls hessian c d i m x) hf hd he hk hg hn
    (fun d' _ hk' hd' _ _ _ _ g0 hv => solutions hE hI hf (by rw [hk']; exact hl) hc hd' g0 hv) (fun _ _ hs i m x => hs.solves calls hessian c i m x) h

/-- **C121**, self-influence of groups. -/
theorem C121_self {L : Lib K} {calls : List (Plugin × StatCall K)} {s u : LState K} {ids : List PyStr} {d : GLog K}
    {hessian : Hess} {groups : Option (List PyStr)} {c : K} {r : SelfResult K} (hE : EighOk L) (hI : InverseOk L) (hf : Finalized L calls s)
    (hl : LoggedAll calls (Dict.keys d) hessian) (hc : 0 < c) (hd : Labelled ids d)
    (hg : (groups.getD []).Nodup) (hn : ['t', 'o', 't', 'a', 'l'] ∉ groups.getD [])
    (h : computeSelf L s ids (.dict d) true hessian groups (some c) = .ok (u, r)) :
    ∀ k, k = ['t', 'o', 't', 'a', 'l'] ∨ k ∈ groups.getD [] → ∃ t, r.influence.get? k = some t ∧ t.shape = [ids.length] ∧ ∀ i, i < ids.length →
      (∃ x : PyStr → List Nat → K, ∀ m ∈ Dict.keys d, Solves calls hessian c d i m (x m)) ∧
      ∀ x : PyStr → List Nat → K, (∀ m ∈ Dict.keys d, Solves calls hessian c d i m (x m)) → t.el [i] = against x d i (members (Dict.keys d) k) :=
  self_groups_of_solutions hd hg hn (fun _ _ _ _ g0 hv => solutions hE hI hf hl hc hd g0 hv) h

/-- **C121**, in terms of the program, with KFAC: `A` is the second moment of all inputs of the module in the program, and `B` that of the gradients of
its outputs; `x` and `y` solve `B x A + c x = g`. -/
theorem C121_kfac (E : SEnv K) (hE : EighOk E.lib) (hI : InverseOk E.lib) (ops : List (SOp K)) (hops : ∀ o ∈ ops, Configures o) (n : Nat) (th : Int)
    (fs : FS) (ctx : List (SOp K)) (ids : List PyStr) (hx : Context ctx ids none) (body : List (SOp K)) (dir : StateDir K) (keys : List PyStr)
    (mods : PyStr → Nat) (hbody : ∀ o ∈ body, Unmasked o ∧ ∀ nm ∈ keys, Logs nm o) (hessian : Hess) (hne : keys ≠ []) :
    let s := runHistory E ops (Sess.init n th fs)
    OnlyStatistics s.opt → PlainStats s.opt → s.opt.forward.count .covariance = 1 → s.opt.backward.count .covariance = 1 →
    (hessian = .kfac ∨ hessian = .auto ∧ .covariance ∉ s.opt.grad.tail) →
    (∀ nm ∈ keys, Watches s (mods nm) nm ∧ inputs (mods nm) body ≠ [] ∧ notes outGrad (mods nm) ⟨none, [], [], []⟩ body ≠ []) →
    ∀ t, SAct.each (SOp.run E) (ctx ++ body.map (shift s.user.length) ++ [.finalize dir]) s = (t, none) →
    ∃ A B : PyStr → Tensor K, (∀ nm ∈ keys, InputMoment E body (mods nm) (A nm) ∧ OutGradMoment E body (mods nm) (B nm)) ∧
      ∀ d e : GLog K, Dict.keys d = keys → Dict.keys e = keys → ∀ srcIds tgtIds, Labelled srcIds d → Labelled tgtIds e → ∀ c, 0 < c →
      ∀ groups : Option (List PyStr), (groups.getD []).Nodup → ['t', 'o', 't', 'a', 'l'] ∉ groups.getD [] → ∀ sqrt mode u r,
        computeInfluence E.lib sqrt t.st srcIds (.dict d) tgtIds (.dict e) mode true hessian groups (some c) = .ok (u, r) →
        ∀ k, k = ['t', 'o', 't', 'a', 'l'] ∨ k ∈ groups.getD [] → ∃ T, r.influence.get? k = some T ∧ T.shape = [srcIds.length, tgtIds.length] ∧
          ∀ i j, i < srcIds.length → j < tgtIds.length →
            (∃ x : PyStr → List Nat → K, ∀ m ∈ keys, KfacSystem (entries (A m)) (entries (B m)) c d i m (x m)) ∧
            (mode ≠ .dot → ∃ y : PyStr → List Nat → K, ∀ m ∈ keys, KfacSystem (entries (A m)) (entries (B m)) c e j m (y m)) ∧
            ∀ x : PyStr → List Nat → K, (∀ m ∈ keys, KfacSystem (entries (A m)) (entries (B m)) c d i m (x m)) →
              (mode = .dot → T.el [i, j] = against x e j (members keys k)) ∧
              ∀ y : PyStr → List Nat → K, (∀ m ∈ keys, KfacSystem (entries (A m)) (entries (B m)) c e j m (y m)) →
                (mode = .l2 → T.el [i, j] = against x e j (members keys k) - 1 / 2 * against y e j (members keys k)) ∧
                (mode = .cosine → T.el [i, j] = against x e j (members keys k) / sqrt (against y e j (members keys k))) := by
  intro s ho hp hf hb hh hmods t ht
  obtain ⟨A, B, h1, h2⟩ := session_kfac E hE hI ops hops n th fs ctx ids hx body dir keys mods hbody hessian ho hp hf hb hh hmods t ht
  obtain ⟨nm, hm⟩ := List.exists_mem_of_ne_nil _ hne
  obtain ⟨calls, hfin, -⟩ := session_finalized E ops hops n th fs (mods nm) nm ctx ids hx body
    (fun o h => ⟨(hbody o h).2 nm hm, (hbody o h).1⟩) dir (hmods nm hm).1 ho hp t ht
  refine ⟨A, B, h1, ?_⟩
  rintro d e rfl hke srcIds tgtIds hd he c hc groups hg hn sqrt mode u r h
  exact modes_of_solutions (S := fun d i m x => KfacSystem (entries (A m)) (entries (B m)) c d i m x) hfin hd he hke.symm hg hn
    (fun d' ids' hk' hd' s₁ s₂ o H => h2 d' hk' ids' hd' c hc s₁ s₂ o H) (fun _ _ hs i m x => hs.kfacSystem _ _ c i m x) h

/-- **C121**, in terms of the program, with the empirical Fisher matrix: `C` is the second moment of the per-sample gradients of the module, `x` and `y`
solve `C x + c x = g`. -/
theorem C121_raw (E : SEnv K) (hE : EighOk E.lib) (hI : InverseOk E.lib) (ops : List (SOp K)) (hops : ∀ o ∈ ops, Configures o) (n : Nat) (th : Int)
    (fs : FS) (ctx : List (SOp K)) (ids : List PyStr) (hx : Context ctx ids none) (body : List (SOp K)) (dir : StateDir K) (keys : List PyStr)
    (mods : PyStr → Nat) (hbody : ∀ o ∈ body, Unmasked o ∧ ∀ nm ∈ keys, Logs nm o) (hessian : Hess) (hne : keys ≠ []) :
    let s := runHistory E ops (Sess.init n th fs)
    OnlyStatistics s.opt → PlainStats s.opt → s.opt.grad.head? = some .log → s.opt.grad.tail.count .covariance = 1 → (hessian = .raw ∨ hessian = .auto) →
    (∀ nm ∈ keys, Watches s (mods nm) nm ∧ notes batchGrads (mods nm) ⟨none, [], [], []⟩ body ≠ []) →
    ∀ t, SAct.each (SOp.run E) (ctx ++ body.map (shift s.user.length) ++ [.finalize dir]) s = (t, none) →
    ∃ C : PyStr → Tensor K, (∀ nm ∈ keys, BatchGradMoment E body (mods nm) (C nm)) ∧
      ∀ d e : GLog K, Dict.keys d = keys → Dict.keys e = keys → ∀ srcIds tgtIds, Labelled srcIds d → Labelled tgtIds e → ∀ c, 0 < c →
      ∀ groups : Option (List PyStr), (groups.getD []).Nodup → ['t', 'o', 't', 'a', 'l'] ∉ groups.getD [] → ∀ sqrt mode u r,
        computeInfluence E.lib sqrt t.st srcIds (.dict d) tgtIds (.dict e) mode true hessian groups (some c) = .ok (u, r) →
        ∀ k, k = ['t', 'o', 't', 'a', 'l'] ∨ k ∈ groups.getD [] → ∃ T, r.influence.get? k = some T ∧ T.shape = [srcIds.length, tgtIds.length] ∧
          ∀ i j, i < srcIds.length → j < tgtIds.length →
            (∃ x : PyStr → List Nat → K, ∀ m ∈ keys, RawSystem (entries (C m)) c d i m (x m)) ∧
            (mode ≠ .dot → ∃ y : PyStr → List Nat → K, ∀ m ∈ keys, RawSystem (entries (C m)) c e j m (y m)) ∧
            ∀ x : PyStr → List Nat → K, (∀ m ∈ keys, RawSystem (entries (C m)) c d i m (x m)) →
              (mode = .dot → T.el [i, j] = against x e j (members keys k)) ∧
              ∀ y : PyStr → List Nat → K, (∀ m ∈ keys, RawSystem (entries (C m)) c e j m (y m)) →
                (mode = .l2 → T.el [i, j] = against x e j (members keys k) - 1 / 2 * against y e j (members keys k)) ∧
                (mode = .cosine → T.el [i, j] = against x e j (members keys k) / sqrt (against y e j (members keys k))) := by
  intro s ho hp hl hg hh hmods t ht
  obtain ⟨C, h1, h2⟩ := session_raw E hE hI ops hops n th fs ctx ids hx body dir keys mods hbody hessian ho hp hl hg hh hmods t ht
  obtain ⟨nm, hm⟩ := List.exists_mem_of_ne_nil _ hne
  obtain ⟨calls, hfin, -⟩ := session_finalized E ops hops n th fs (mods nm) nm ctx ids hx body
    (fun o h => ⟨(hbody o h).2 nm hm, (hbody o h).1⟩) dir (hmods nm hm).1 ho hp t ht
  refine ⟨C, h1, ?_⟩
  rintro d e rfl hke srcIds tgtIds hd he c hc groups hg hn sqrt mode u r h
  exact modes_of_solutions (S := fun d i m x => RawSystem (entries (C m)) c d i m x) hfin hd he hke.symm hg hn
    (fun d' ids' hk' hd' s₁ s₂ o H => h2 d' hk' ids' hd' c hc s₁ s₂ o H) (fun _ _ hs i m x => hs.rawSystem _ c i m x) h

end Logix
