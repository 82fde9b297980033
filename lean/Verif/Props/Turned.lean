/-
C140: the scores do not depend on the coordinates of the layers.
-/
import Verif.Lemmas.Turned
import Verif.Props.ModuleOrder

set_option linter.unusedSectionVars false

namespace Logix
open Spec
variable {K : Type}

section
variable [Field K]

/-- An array in other coordinates. -/
def turnList (h w : Nat) (Q P : Nat → Nat → K) (x : List Nat → K) : List Nat → K :=
  fun idx => turned h w Q P (fun p q => x [p, q]) (idx.getD 0 0) (idx.getD 1 0)

variable {wd ht : PyStr → Nat} {P Q : PyStr → Nat → Nat → K} {calls calls' : List (Plugin × StatCall K)} {keys : List PyStr} {hessian : Hess}

theorem features_related {W : Nat} {R : (Nat → K) → (Nat → K) → Prop} {m : PyStr} {lt : LogType} (h : RowsRelated W R calls calls' m lt) :
    features calls m lt = W ∧ features calls' m lt = W := by
  have key : ∀ cs : List (Plugin × StatCall K), callsOf .covariance m lt cs ≠ [] → (∀ c ∈ callsOf .covariance m lt cs, callWidth c = W) → features cs m lt = W := by
    intro cs h1 h2
    unfold features
    cases hc : callsOf .covariance m lt cs with
    | nil => exact absurd hc h1
    | cons c l => exact h2 c (by rw [hc]; exact List.mem_cons_self)
  exact ⟨key _ h.logged.1.1 fun c hc => h.width c (List.mem_append_left _ hc), key _ h.logged.2.1 fun c hc => h.width c (List.mem_append_right _ hc)⟩

theorem turned_logged (h : TurnedData wd ht P Q calls calls' keys hessian) : LoggedAll calls keys hessian ∧ LoggedAll calls' keys hessian := by
  rcases h with ⟨h1, h2⟩ | ⟨h1, h2⟩
  · exact ⟨.inl ⟨h1.imp id fun h => ⟨h.1, fun m hm => (h.2 m hm).1⟩, fun m hm => ⟨(h2 m hm).1.logged.1, (h2 m hm).2.logged.1⟩⟩,
      .inl ⟨h1.imp id fun h => ⟨h.1, fun m hm => (h.2 m hm).2⟩, fun m hm => ⟨(h2 m hm).1.logged.2, (h2 m hm).2.logged.2⟩⟩⟩
  · exact ⟨.inr ⟨h1, fun m hm => (h2 m hm).logged.1⟩, .inr ⟨h1, fun m hm => (h2 m hm).logged.2⟩⟩

theorem meanDiagonal_turned {W : Nat} {R : Nat → Nat → K} {m : PyStr} {lt : LogType} (hR : OrthoRows W R) (h : RowsRelated W (Times W R) calls calls' m lt) :
    meanDiagonal W (secondMoment calls' m lt) = meanDiagonal W (secondMoment calls m lt) := by
  rw [meanDiagonal_mat, meanDiagonal_mat, trace_turned (orthonormal_mul' hR) (secondMoment_turned h)]

/-- The default damping is the same in both histories. -/
theorem usedDamping_turned (h : TurnedData wd ht P Q calls calls' keys hessian) (hP : ∀ m ∈ keys, OrthoRows (wd m) (P m)) (hQ : ∀ m ∈ keys, OrthoRows (ht m) (Q m))
    (c : Option K) {m : PyStr} (hm : m ∈ keys) : usedDamping calls' hessian keys c m = usedDamping calls hessian keys c m := by
  unfold usedDamping
  congr 1
  unfold defaultDamping
  rcases h with ⟨h1, h2⟩ | ⟨h1, h2⟩
  · have n1 : ¬ (hessian = .raw ∨ hessian = .auto ∧ callsOf .covariance m .grad calls' ≠ []) := by
      rintro (rfl | ⟨rfl, hne⟩)
      · rcases h1 with h1 | h1
        · cases h1
        · cases h1.1
      · rcases h1 with h1 | h1
        · cases h1
        · exact hne (h1.2 m hm).2
    have n2 : ¬ (hessian = .raw ∨ hessian = .auto ∧ callsOf .covariance m .grad calls ≠ []) := by
      rintro (rfl | ⟨rfl, hne⟩)
      · rcases h1 with h1 | h1
        · cases h1
        · cases h1.1
      · rcases h1 with h1 | h1
        · cases h1
        · exact hne (h1.2 m hm).1
    rw [if_neg n1, if_neg n2]
    cases keys with
    | nil => rfl
    | cons first tl =>
      have hf := h2 first List.mem_cons_self
      dsimp only
      unfold kfacDamping
      rw [(features_related hf.1).1, (features_related hf.1).2, (features_related hf.2).1, (features_related hf.2).2,
        meanDiagonal_turned (hP first List.mem_cons_self) hf.1, meanDiagonal_turned (hQ first List.mem_cons_self) hf.2]
  · have hr := h2 m hm
    have p1 : hessian = .raw ∨ hessian = .auto ∧ callsOf .covariance m .grad calls' ≠ [] := h1.imp id fun h => ⟨h, hr.logged.2.1⟩
    have p2 : hessian = .raw ∨ hessian = .auto ∧ callsOf .covariance m .grad calls ≠ [] := h1.imp id fun h => ⟨h, hr.logged.1.1⟩
    rw [if_pos p1, if_pos p2, (features_related hr).1, (features_related hr).2]
    unfold rawDamping
    rw [meanDiagonal_flat, meanDiagonal_flat, trace_turned (both_mul' (hP m hm) (hQ m hm)) (flatMoment_turned hr)]

theorem turned_grad {d d' : GLog K} (hd : TurnedLog wd ht P Q d d') {ids : List PyStr} (hL : Labelled ids d) {m : PyStr} (hm : m ∈ Dict.keys d) :
    ∃ g g', grad d m = some g ∧ grad d' m = some g' ∧ g.shape = [ids.length, ht m, wd m] ∧ g'.shape = [ids.length, ht m, wd m] ∧
      ∀ i p q, i < ids.length → p < ht m → q < wd m → g'.el [i, p, q] = turned (ht m) (wd m) (Q m) (P m) (fun p' q' => g.el [i, p', q']) p q := by
  obtain ⟨g, g', n, h1, h2, h3, h4, h5⟩ := hd.2 m hm
  obtain ⟨g₀, h6, h7⟩ := hL.rows m hm
  obtain rfl := Option.some.inj (h1.symm.trans h6)
  have : n = ids.length := by rw [← h7]; simp [Tensor.size, h3]
  subst this
  exact ⟨g, g', h1, h2, h3, h4, h5⟩

theorem turned_labelled {d d' : GLog K} (hd : TurnedLog wd ht P Q d d') {ids : List PyStr} (hL : Labelled ids d) : Labelled ids d' := by
  refine ⟨hd.1 ▸ hL.nodup, fun m hm => ?_⟩
  obtain ⟨g, g', -, h2, -, h4, -⟩ := turned_grad hd hL (hd.1 ▸ hm)
  exact ⟨g', h2, by simp [Tensor.size, h4]⟩

theorem turnList_pair (h w : Nat) (Q P : Nat → Nat → K) (x : List Nat → K) (p q : Nat) : turnList h w Q P x [p, q] = turned h w Q P (fun p q => x [p, q]) p q := rfl

/-- Solutions of the system of the first history give solutions of that of the second one. -/
theorem solves_turned (h : TurnedData wd ht P Q calls calls' keys hessian) (hP : ∀ m ∈ keys, OrthoRows (wd m) (P m)) (hQ : ∀ m ∈ keys, OrthoRows (ht m) (Q m))
    {d d' : GLog K} (hd : TurnedLog wd ht P Q d d') {ids : List PyStr} (hL : Labelled ids d) (hk : Dict.keys d = keys) {c : K} {i : Nat} (hi : i < ids.length)
    {m : PyStr} (hm : m ∈ keys) {x : List Nat → K} (hx : Solves calls hessian c d i m x) :
    Solves calls' hessian c d' i m (turnList (ht m) (wd m) (Q m) (P m) x) := by
  obtain ⟨g, g', g1, g2, g3, g4, g5⟩ := turned_grad hd hL (hk ▸ hm)
  unfold Solves at hx ⊢
  rcases h with ⟨h1, h2⟩ | ⟨h1, h2⟩
  · rw [if_neg (by
      rintro (rfl | ⟨rfl, hne⟩)
      · rcases h1 with h1 | h1
        · cases h1
        · cases h1.1
      · rcases h1 with h1 | h1
        · cases h1
        · exact hne (h1.2 m hm).1)] at hx
    rw [if_neg (by
      rintro (rfl | ⟨rfl, hne⟩)
      · rcases h1 with h1 | h1
        · cases h1
        · cases h1.1
      · rcases h1 with h1 | h1
        · cases h1
        · exact hne (h1.2 m hm).2)]
    obtain ⟨g₀, n, hh, ww, k1, k2, k3⟩ := hx
    obtain rfl := Option.some.inj (g1.symm.trans k1)
    rw [g3] at k2
    simp only [List.cons.injEq, and_true] at k2
    obtain ⟨rfl, rfl, rfl⟩ := k2
    refine ⟨g', _, _, _, g2, g4, ?_⟩
    intro p q hp hq
    rw [g5 i p q hi hp hq]
    simp only [turnList_pair]
    exact kfac_turned (X := fun p q => x [p, q]) (hP m hm) (hQ m hm) (secondMoment_turned (h2 m hm).1) (secondMoment_turned (h2 m hm).2) k3 p q hp hq
  · have hr := h2 m hm
    rw [if_pos (h1.imp id fun h => ⟨h, hr.logged.1.1⟩)] at hx
    rw [if_pos (h1.imp id fun h => ⟨h, hr.logged.2.1⟩)]
    obtain ⟨g₀, k1, k2⟩ := hx
    obtain rfl := Option.some.inj (g1.symm.trans k1)
    have hrv : ∀ p q, ravel [ht m, wd m] [p, q] = p * wd m + q := fun p q => by simp [ravel, numel]
    rw [g3] at k2
    simp only [List.tail_cons, indices2_sum] at k2
    refine ⟨g', g2, fun idx hidx => ?_⟩
    rw [g4] at hidx ⊢
    simp only [List.tail_cons, indices2_sum] at hidx ⊢
    obtain ⟨p, q, rfl, hp, hq⟩ : ∃ p q, idx = [p, q] ∧ p < ht m ∧ q < wd m := by
      have := (mem_indices _ _).1 hidx
      match idx, this with
      | [], this => cases this
      | [p], this => simp [inRange] at this
      | [p, q], this => simp [inRange] at this; exact ⟨p, q, rfl, this⟩
      | p :: q :: a :: l, this => simp [inRange] at this
    rw [g5 i p q hi hp hq]
    simp only [turnList_pair, hrv]
    refine raw_turned (X := fun p q => x [p, q]) (hP m hm) (hQ m hm) (flatMoment_turned hr) (fun p q hp hq => ?_) p q hp hq
    have := k2 [p, q] ((mem_indices _ _).2 (by simp [inRange, hp, hq]))
    simp only [hrv] at this
    exact this

theorem against_turned (hP : ∀ m ∈ keys, OrthoRows (wd m) (P m)) (hQ : ∀ m ∈ keys, OrthoRows (ht m) (Q m))
    {e e' : GLog K} (he : TurnedLog wd ht P Q e e') {ids : List PyStr} (hL : Labelled ids e) (hk : Dict.keys e = keys) {j : Nat} (hj : j < ids.length)
    (x : PyStr → List Nat → K) (ks : List PyStr) (hks : ∀ m ∈ ks, m ∈ keys) :
    against (fun m => turnList (ht m) (wd m) (Q m) (P m) (x m)) e' j ks = against x e j ks := by
  unfold against
  congr 1
  refine List.map_congr_left fun m hm => ?_
  obtain ⟨g, g', g1, g2, g3, g4, g5⟩ := turned_grad he hL (hk ▸ hks m hm)
  rw [g1, g2]
  simp only [g3, g4, List.tail_cons]
  exact dot_turned (hP m (hks m hm)) (hQ m (hks m hm)) (fun p q _ _ => rfl) fun p q hp hq => g5 j p q hj hp hq

theorem members_sub {keys : List PyStr} {k m : PyStr} (h : m ∈ members keys k) : m ∈ keys := by
  unfold members at h
  split at h
  · exact h
  · exact (List.mem_filter.1 h).1

end

variable [Field K] [LinearOrder K] [IsStrictOrderedRing K]
variable {wd ht : PyStr → Nat} {P Q : PyStr → Nat → Nat → K}

/-- **C140.** Two new instances log data for the covariances and are finalized; the data of the second one is that of the first one in other
coordinates: the inputs of every layer are multiplied by an orthogonal matrix, the gradients of its outputs by another one (for example, the units
are in another order). Then `compute_influence` of gradients in the first and of the gradients in the other coordinates in the second gives the same
scores, with KFAC and with the empirical Fisher matrix, in every mode, with and without damping, for the total and every group. -/
theorem C140_influence {L L' : Lib K} {sqrt : K → K} {calls calls' : List (Plugin × StatCall K)} {s s' u u' : LState K} {srcIds tgtIds : List PyStr}
    {d e d' e' : GLog K} {mode : Mode} {hessian : Hess} {groups : Option (List PyStr)} {c : Option K} {r r' : IFResult K}
    (hE : EighOk L) (hI : InverseOk L) (hE' : EighOk L') (hI' : InverseOk L') (hf : Finalized L calls s) (hf' : Finalized L' calls' s')
    (hP : ∀ m ∈ Dict.keys d, OrthoRows (wd m) (P m)) (hQ : ∀ m ∈ Dict.keys d, OrthoRows (ht m) (Q m))
    (hT : TurnedData wd ht P Q calls calls' (Dict.keys d) hessian) (hpos : ∀ m ∈ Dict.keys d, 0 < usedDamping calls hessian (Dict.keys d) c m)
    (hd : Labelled srcIds d) (he : Labelled tgtIds e) (hk : Dict.keys d = Dict.keys e) (hdd : TurnedLog wd ht P Q d d') (hee : TurnedLog wd ht P Q e e')
    (hg : (groups.getD []).Nodup) (hn : ['t', 'o', 't', 'a', 'l'] ∉ groups.getD [])
    (h : computeInfluence L sqrt s srcIds (.dict d) tgtIds (.dict e) mode true hessian groups c = .ok (u, r))
    (h' : computeInfluence L' sqrt s' srcIds (.dict d') tgtIds (.dict e') mode true hessian groups c = .ok (u', r')) :
    ∀ k, k = ['t', 'o', 't', 'a', 'l'] ∨ k ∈ groups.getD [] → ∃ t t', r.influence.get? k = some t ∧ r'.influence.get? k = some t' ∧ t.shape = t'.shape ∧
      ∀ i j, i < srcIds.length → j < tgtIds.length → t.el [i, j] = t'.el [i, j] := by
  intro k hkk
  obtain ⟨hl, hl'⟩ := turned_logged hT
  have hpos' : ∀ m ∈ Dict.keys d, 0 < usedDamping calls' hessian (Dict.keys d) c m := fun m hm => by
    rw [usedDamping_turned hT hP hQ c hm]; exact hpos m hm
  have hk1 : Dict.keys d' = Dict.keys d := hdd.1.symm
  have hk2 : Dict.keys e' = Dict.keys d := hee.1.symm.trans hk.symm
  obtain ⟨t, a1, a2, a3⟩ := modes_of_solutions (S := fun d₀ i m x => Solves calls hessian (usedDamping calls hessian (Dict.keys d) c m) d₀ i m x) hf hd he hk hg hn
    (fun d₀ _ hk₀ hd₀ _ _ _ _ g0 hv => by
      have := solutions_used hE hI hf (by rw [hk₀]; exact hl) (by rw [hk₀]; exact hpos) hd₀ g0 hv
      rw [hk₀] at this ⊢
      exact this) (fun _ _ hs i m x => hs.solves calls hessian _ i m x) h k hkk
  obtain ⟨t', b1, b2, b3⟩ := modes_of_solutions (S := fun d₀ i m x => Solves calls' hessian (usedDamping calls' hessian (Dict.keys d) c m) d₀ i m x) hf'
    (turned_labelled hdd hd) (turned_labelled hee he) (hk1.trans hk2.symm) hg hn
    (fun d₀ _ hk₀ hd₀ _ _ _ _ g0 hv => by
      rw [hk1] at hk₀
      have := solutions_used hE' hI' hf' (by rw [hk₀]; exact hl') (by rw [hk₀]; exact hpos') hd₀ g0 hv
      rw [hk₀] at this ⊢
      exact this) (fun _ _ hs i m x => hs.solves calls' hessian _ i m x) h' k hkk
  rw [hk1] at b3
  refine ⟨t, t', a1, b1, a2.trans b2.symm, fun i j hi hj => ?_⟩
  obtain ⟨⟨x, hx⟩, hy, hx1⟩ := a3 i j hi hj
  obtain ⟨-, -, hb⟩ := b3 i j hi hj
  have hx' := hb (fun m => turnList (ht m) (wd m) (Q m) (P m) (x m)) fun m hm => by
    rw [usedDamping_turned hT hP hQ c hm]; exact solves_turned hT hP hQ hdd hd rfl hi hm (hx m hm)
  have hag := fun z => against_turned hP hQ hee he hk.symm hj z (members (Dict.keys d) k) fun m hm => members_sub hm
  by_cases hm : mode = .dot
  · rw [(hx1 x hx).1 hm, hx'.1 hm, hag]
  · obtain ⟨y, hz⟩ := hy hm
    have hy' := hx'.2 (fun m => turnList (ht m) (wd m) (Q m) (P m) (y m)) fun m hm => by
      rw [usedDamping_turned hT hP hQ c hm]; exact solves_turned hT hP hQ hee he hk.symm hj hm (hz m hm)
    cases mode with
    | dot => exact absurd rfl hm
    | l2 => rw [((hx1 x hx).2 y hz).1 rfl, hy'.1 rfl, hag, hag]
    | cosine => rw [((hx1 x hx).2 y hz).2 rfl, hy'.2 rfl, hag, hag]
    | other =>
      unfold computeInfluence at h
      rw [if_pos rfl] at h
      cases h

/-- **C140**, self-influence. -/
theorem C140_self {L L' : Lib K} {calls calls' : List (Plugin × StatCall K)} {s s' u u' : LState K} {ids : List PyStr}
    {d d' : GLog K} {hessian : Hess} {groups : Option (List PyStr)} {c : Option K} {r r' : SelfResult K}
    (hE : EighOk L) (hI : InverseOk L) (hE' : EighOk L') (hI' : InverseOk L') (hf : Finalized L calls s) (hf' : Finalized L' calls' s')
    (hP : ∀ m ∈ Dict.keys d, OrthoRows (wd m) (P m)) (hQ : ∀ m ∈ Dict.keys d, OrthoRows (ht m) (Q m))
    (hT : TurnedData wd ht P Q calls calls' (Dict.keys d) hessian) (hpos : ∀ m ∈ Dict.keys d, 0 < usedDamping calls hessian (Dict.keys d) c m)
    (hd : Labelled ids d) (hdd : TurnedLog wd ht P Q d d') (hg : (groups.getD []).Nodup) (hn : ['t', 'o', 't', 'a', 'l'] ∉ groups.getD [])
    (h : computeSelf L s ids (.dict d) true hessian groups c = .ok (u, r))
    (h' : computeSelf L' s' ids (.dict d') true hessian groups c = .ok (u', r')) :
    ∀ k, k = ['t', 'o', 't', 'a', 'l'] ∨ k ∈ groups.getD [] → ∃ t t', r.influence.get? k = some t ∧ r'.influence.get? k = some t' ∧ t.shape = t'.shape ∧
      ∀ i, i < ids.length → t.el [i] = t'.el [i] := by
  intro k hkk
  obtain ⟨hl, hl'⟩ := turned_logged hT
  have hpos' : ∀ m ∈ Dict.keys d, 0 < usedDamping calls' hessian (Dict.keys d) c m := fun m hm => by
    rw [usedDamping_turned hT hP hQ c hm]; exact hpos m hm
  have hk1 : Dict.keys d' = Dict.keys d := hdd.1.symm
  obtain ⟨t, a1, a2, a3⟩ := self_groups_of_solutions hd hg hn (fun _ _ _ _ g0 hv => solutions_used hE hI hf hl hpos hd g0 hv) h k hkk
  obtain ⟨t', b1, b2, b3⟩ := self_groups_of_solutions (turned_labelled hdd hd) hg hn (fun _ _ _ _ g0 hv => solutions_used hE' hI' hf'
    (by rw [hk1]; exact hl') (by rw [hk1]; exact hpos') (turned_labelled hdd hd) g0 hv) h' k hkk
  rw [hk1] at b3
  refine ⟨t, t', a1, b1, a2.trans b2.symm, fun i hi => ?_⟩
  obtain ⟨⟨x, hx⟩, hx1⟩ := a3 i hi
  rw [hx1 x hx, (b3 i hi).2 (fun m => turnList (ht m) (wd m) (Q m) (P m) (x m)) fun m hm => by
    rw [usedDamping_turned hT hP hQ c hm]; exact solves_turned hT hP hQ hdd hd rfl hi hm (hx m hm)]
  exact (against_turned hP hQ hdd hd rfl hi x _ fun m hm => members_sub hm).symm

end Logix
