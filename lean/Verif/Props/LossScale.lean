/-
C136: without damping, the scale of the loss does not matter.
-/
import Verif.Props.ModuleOrder
import Verif.Spec.LossScale
import Mathlib.Tactic.FieldSimp

set_option linter.unusedSectionVars false

namespace Logix
open Spec
variable {K : Type}

section
variable [Field K]

theorem scaledTensor_el (a : K) (t : Tensor K) (idx : List Nat) : (scaledTensor a t).el idx = a * t.el idx := by
  unfold Tensor.el scaledTensor
  simp only
  split
  · rw [List.getD_eq_getElem?_getD, List.getD_eq_getElem?_getD, List.getElem?_map]
    cases t.data[ravel t.shape idx]? <;> simp
  · simp

theorem rows_scaled (a : K) (t : Tensor K) (k : Option ModKind) {lt : LogType} (h : lt ≠ .forward) :
    rows (scaledTensor a t) k lt = (rows t k lt).map fun r i => a * r i := by
  have hs : ∀ n, (scaledTensor a t).size n = t.size n := fun n => rfl
  have hsh : (scaledTensor a t).shape = t.shape := rfl
  unfold rows
  split
  · simp only [scaledTensor_el, hs, hsh, List.map_map, Function.comp_def]
  · exact absurd rfl h
  · simp only [scaledTensor_el, hs, List.map_flatMap, List.map_map, Function.comp_def]
  · simp only [scaledTensor_el, hsh, List.map_map, Function.comp_def]

theorem callsOf_scaled (a : K) (p : Plugin) (m : PyStr) (lt : LogType) (calls : List (Plugin × StatCall K)) :
    callsOf p m lt (calls.map (scaledCall a)) =
      (callsOf p m lt calls).map fun c => if lt = .forward then c else { c with data := scaledTensor a c.data } := by
  unfold callsOf
  induction calls with
  | nil => rfl
  | cons pc cs ih =>
    have h1 : (scaledCall a pc).1 = pc.1 := by unfold scaledCall; split <;> rfl
    have h2 : (scaledCall a pc).2.name = pc.2.name := by unfold scaledCall; split <;> rfl
    have h3 : (scaledCall a pc).2.logType = pc.2.logType := by unfold scaledCall; split <;> rfl
    rw [List.map_cons, List.filter_cons, List.filter_cons, h1, h2, h3]
    split
    · next h =>
      simp only [decide_eq_true_eq] at h
      rw [List.map_cons, List.map_cons, List.map_cons, ih]
      congr 1
      obtain ⟨-, -, h⟩ := h
      subst h
      unfold scaledCall
      split <;> rfl
    · exact ih

theorem callsOf_scaled_nil (a : K) (p : Plugin) (m : PyStr) (lt : LogType) (calls : List (Plugin × StatCall K)) :
    callsOf p m lt (calls.map (scaledCall a)) = [] ↔ callsOf p m lt calls = [] := by
  rw [callsOf_scaled, List.map_eq_nil_iff]

theorem callsOf_forward_scaled (a : K) (p : Plugin) (m : PyStr) (calls : List (Plugin × StatCall K)) :
    callsOf p m .forward (calls.map (scaledCall a)) = callsOf p m .forward calls := by
  rw [callsOf_scaled]
  simp

theorem callsOf_logType {p : Plugin} {m : PyStr} {lt : LogType} {calls : List (Plugin × StatCall K)} {c : StatCall K} (h : c ∈ callsOf p m lt calls) : c.logType = lt := by
  unfold callsOf at h
  obtain ⟨pc, hpc, rfl⟩ := List.mem_map.1 h
  have := (List.mem_filter.1 hpc).2
  simp only [decide_eq_true_eq] at this
  exact this.2.2

theorem sum_mul_rows (a : K) (rs : List (Nat → K)) (i j : Nat) :
    ((rs.map fun r i => a * r i).map fun r => r i * r j).sum = a ^ 2 * (rs.map fun r => r i * r j).sum := by
  induction rs with
  | nil => simp
  | cons r rs ih =>
    simp only [List.map_cons, List.sum_cons] at ih ⊢
    rw [ih]; ring

theorem secondMoment_scaled (a : K) (calls : List (Plugin × StatCall K)) (m : PyStr) {lt : LogType} (h : lt ≠ .forward) (i j : Nat) :
    secondMoment (calls.map (scaledCall a)) m lt i j = a ^ 2 * secondMoment calls m lt i j := by
  unfold secondMoment
  have h1 : allRows (callsOf .covariance m lt (calls.map (scaledCall a))) = (allRows (callsOf .covariance m lt calls)).map fun r i => a * r i := by
    rw [callsOf_scaled]
    unfold allRows
    rw [List.map_flatMap, List.flatMap_map]
    refine List.flatMap_congr fun c hc => ?_
    rw [if_neg h]
    exact rows_scaled a c.data c.module (by rw [callsOf_logType hc]; exact h)
  have h2 : samples (callsOf .covariance m lt (calls.map (scaledCall a))) = samples (callsOf .covariance m lt calls) := by
    rw [callsOf_scaled]
    unfold samples
    rw [List.map_map]
    congr 1
    refine List.map_congr_left fun c _ => ?_
    simp only [Function.comp_apply, if_neg h]
    rfl
  rw [h1, h2, sum_mul_rows, mul_div_assoc]

theorem secondMoment_forward_scaled (a : K) (calls : List (Plugin × StatCall K)) (m : PyStr) :
    secondMoment (calls.map (scaledCall a)) m .forward = secondMoment calls m .forward := by
  unfold secondMoment
  rw [callsOf_forward_scaled]

theorem features_scaled (a : K) (calls : List (Plugin × StatCall K)) (m : PyStr) (lt : LogType) :
    features (calls.map (scaledCall a)) m lt = features calls m lt := by
  unfold features
  rw [callsOf_scaled]
  cases callsOf .covariance m lt calls with
  | nil => rfl
  | cons c cs =>
    simp only [List.map_cons]
    split <;> rfl

theorem grad_scaled (a : K) (d : GLog K) (m : PyStr) : grad (scaledLog a d) m = (grad d m).map (scaledTensor a) := by
  have key : ∀ {α β γ : Type} [DecidableEq α] (f : β → γ) (d : Dict α β) (k : α), Dict.get? (d.map fun ms => (ms.1, f ms.2) : Dict α γ) k = (Dict.get? d k).map f := by
    intro α β γ _ f d k
    induction d with
    | nil => rfl
    | cons p d ih =>
      obtain ⟨k', v⟩ := p
      simp only [List.map_cons, Dict.get?_cons, ih]
      split <;> rfl
  unfold grad scaledLog
  rw [key]
  cases Dict.get? d m with
  | none => rfl
  | some sub =>
    simp only [Option.map_some, Option.bind_some]
    rw [key]

theorem keys_scaled (a : K) (d : GLog K) : Dict.keys (scaledLog a d) = Dict.keys d := by
  unfold Dict.keys scaledLog
  rw [List.map_map]
  rfl

theorem labelled_scaled (a : K) {ids : List PyStr} {d : GLog K} (h : Labelled ids d) : Labelled ids (scaledLog a d) := by
  refine ⟨by rw [keys_scaled]; exact h.nodup, fun m hm => ?_⟩
  rw [keys_scaled] at hm
  obtain ⟨g, h1, h2⟩ := h.rows m hm
  exact ⟨scaledTensor a g, by rw [grad_scaled, h1]; rfl, h2⟩

theorem meanDiagonal_scaled (b : K) (W : Nat) (A : Nat → Nat → K) : meanDiagonal W (fun i j => b * A i j) = b * meanDiagonal W A := by
  unfold meanDiagonal
  rw [← Finset.mul_sum, mul_div_assoc]

theorem usedDamping_scaled (a : K) (calls : List (Plugin × StatCall K)) (hessian : Hess) (keys : List PyStr) (c : Option K) (m : PyStr) :
    usedDamping (calls.map (scaledCall a)) hessian keys (c.map (a ^ 2 * ·)) m = a ^ 2 * usedDamping calls hessian keys c m := by
  unfold usedDamping
  cases c with
  | some c => rfl
  | none =>
    simp only [Option.map_none, Option.getD_none]
    have hb : ∀ m, secondMoment (calls.map (scaledCall a)) m .backward = fun i j => a ^ 2 * secondMoment calls m .backward i j :=
      fun m => funext fun i => funext fun j => secondMoment_scaled a calls m (by simp) i j
    have hg : secondMoment (calls.map (scaledCall a)) m .grad = fun i j => a ^ 2 * secondMoment calls m .grad i j :=
      funext fun i => funext fun j => secondMoment_scaled a calls m (by simp) i j
    unfold defaultDamping
    simp only [ne_eq, callsOf_scaled_nil, features_scaled, hg]
    split
    · unfold rawDamping
      rw [meanDiagonal_scaled]; ring
    · split
      · simp
      · simp only [hb, secondMoment_forward_scaled]
        unfold kfacDamping
        rw [meanDiagonal_scaled]; ring

theorem solves_scaled {a : K} (ha : a ≠ 0) {calls : List (Plugin × StatCall K)} {hessian : Hess} {c : K} {d : GLog K} {i : Nat} {m : PyStr} {x : List Nat → K}
    (h : Solves calls hessian c d i m x) : Solves (calls.map (scaledCall a)) hessian (a ^ 2 * c) (scaledLog a d) i m (fun idx => x idx / a) := by
  unfold Solves at h ⊢
  simp only [ne_eq, callsOf_scaled_nil] at h ⊢
  split at h
  · next h0 =>
    rw [if_pos h0]
    obtain ⟨g, h1, h2⟩ := h
    refine ⟨scaledTensor a g, by rw [grad_scaled, h1]; rfl, fun idx hidx => ?_⟩
    have hsh : (scaledTensor a g).shape = g.shape := rfl
    rw [hsh] at hidx ⊢
    rw [scaledTensor_el, ← h2 idx hidx, mul_add, ← List.sum_map_mul_left]
    congr 1
    · congr 1
      refine List.map_congr_left fun idx' _ => ?_
      rw [secondMoment_scaled a calls m (by simp)]
      field_simp
    · field_simp
  · next h0 =>
    rw [if_neg h0]
    obtain ⟨g, n, hh, w, h1, h2, h3⟩ := h
    refine ⟨scaledTensor a g, n, hh, w, by rw [grad_scaled, h1]; rfl, h2, fun p q hp hq => ?_⟩
    rw [scaledTensor_el, ← h3 p q hp hq, mul_add, Finset.mul_sum]
    congr 1
    · refine Finset.sum_congr rfl fun p' _ => ?_
      rw [Finset.mul_sum]
      refine Finset.sum_congr rfl fun q' _ => ?_
      rw [secondMoment_scaled a calls m (by simp), secondMoment_forward_scaled]
      field_simp
    · field_simp

theorem against_scaled {a : K} (ha : a ≠ 0) (x : PyStr → List Nat → K) (e : GLog K) (j : Nat) (keys : List PyStr) :
    against (fun m idx => x m idx / a) (scaledLog a e) j keys = against x e j keys := by
  unfold against
  congr 1
  refine List.map_congr_left fun m _ => ?_
  rw [grad_scaled]
  cases grad e m with
  | none => rfl
  | some g =>
    have hsh : (scaledTensor a g).shape = g.shape := rfl
    simp only [Option.map_some, hsh]
    unfold dot row
    congr 1
    refine List.map_congr_left fun idx _ => ?_
    rw [scaledTensor_el]
    field_simp

theorem loggedAll_scaled (a : K) {calls : List (Plugin × StatCall K)} {keys : List PyStr} {hessian : Hess} (hl : LoggedAll calls keys hessian) :
    LoggedAll (calls.map (scaledCall a)) keys hessian := by
  have hL : ∀ m lt, Logged calls m lt → Logged (calls.map (scaledCall a)) m lt := by
    intro m lt h
    refine ⟨fun h0 => h.1 ((callsOf_scaled_nil a _ m lt calls).1 h0), fun c hc => ?_⟩
    rw [callsOf_scaled] at hc
    obtain ⟨c₀, hc₀, rfl⟩ := List.mem_map.1 hc
    have := h.2 c₀ hc₀
    split <;> exact this
  exact hl.imp (fun hl => ⟨hl.1.imp id fun h1 => ⟨h1.1, fun m hm => (callsOf_scaled_nil a _ m _ calls).2 (h1.2 m hm)⟩,
    fun m hm => ⟨hL _ _ (hl.2 m hm).1, hL _ _ (hl.2 m hm).2⟩⟩) fun hl => ⟨hl.1, fun m hm => hL _ _ (hl.2 m hm)⟩

end

variable [Field K] [LinearOrder K] [IsStrictOrderedRing K]

/-- **C136.** Two new instances log the same data for the covariances, but in the second the loss, and with it all output gradients and gradients, is
multiplied by a number that is not zero, and are finalized. Then `compute_influence` of gradients in the first and of the multiplied gradients in the
second gives the same scores, in every mode, for the total and every group, if no damping is given (`c = none`), or if the damping that is given is
multiplied by the square of the number. -/
theorem C136_influence {L L' : Lib K} {sqrt : K → K} {a : K} (ha : a ≠ 0) {calls : List (Plugin × StatCall K)} {s s' u u' : LState K} {srcIds tgtIds : List PyStr}
    {d e : GLog K} {mode : Mode} {hessian : Hess} {groups : Option (List PyStr)} {c : Option K} {r r' : IFResult K}
    (hE : EighOk L) (hI : InverseOk L) (hE' : EighOk L') (hI' : InverseOk L') (hf : Finalized L calls s) (hf' : Finalized L' (calls.map (scaledCall a)) s')
    (hl : LoggedAll calls (Dict.keys d) hessian) (hpos : ∀ m ∈ Dict.keys d, 0 < usedDamping calls hessian (Dict.keys d) c m)
    (hd : Labelled srcIds d) (he : Labelled tgtIds e) (hk : Dict.keys d = Dict.keys e)
    (hg : (groups.getD []).Nodup) (hn : ['t', 'o', 't', 'a', 'l'] ∉ groups.getD [])
    (h : computeInfluence L sqrt s srcIds (.dict d) tgtIds (.dict e) mode true hessian groups c = .ok (u, r))
    (h' : computeInfluence L' sqrt s' srcIds (.dict (scaledLog a d)) tgtIds (.dict (scaledLog a e)) mode true hessian groups (c.map (a ^ 2 * ·)) = .ok (u', r')) :
    ∀ k, k = ['t', 'o', 't', 'a', 'l'] ∨ k ∈ groups.getD [] → ∃ t t', r.influence.get? k = some t ∧ r'.influence.get? k = some t' ∧ t.shape = t'.shape ∧
      ∀ i j, i < srcIds.length → j < tgtIds.length → t.el [i, j] = t'.el [i, j] := by
  intro k hkk
  have hpos' : ∀ m ∈ Dict.keys d, 0 < usedDamping (calls.map (scaledCall a)) hessian (Dict.keys d) (c.map (a ^ 2 * ·)) m := fun m hm => by
    rw [usedDamping_scaled]; exact mul_pos (by positivity) (hpos m hm)
  obtain ⟨t, a1, a2, a3⟩ := modes_of_solutions (S := fun d₀ i m x => Solves calls hessian (usedDamping calls hessian (Dict.keys d) c m) d₀ i m x) hf hd he hk hg hn
    (fun d₀ _ hk₀ hd₀ _ _ _ _ g0 hv => by
      have := solutions_used hE hI hf (by rw [hk₀]; exact hl) (by rw [hk₀]; exact hpos) hd₀ g0 hv
      rw [hk₀] at this ⊢
      exact this) (fun _ _ hs i m x => hs.solves calls hessian _ i m x) h k hkk
  obtain ⟨t', b1, b2, b3⟩ := modes_of_solutions (S := fun d₀ i m x => Solves (calls.map (scaledCall a)) hessian
      (usedDamping (calls.map (scaledCall a)) hessian (Dict.keys d) (c.map (a ^ 2 * ·)) m) d₀ i m x) hf' (labelled_scaled a hd) (labelled_scaled a he)
    (by rw [keys_scaled, keys_scaled]; exact hk) hg hn
    (fun d₀ _ hk₀ hd₀ _ _ _ _ g0 hv => by
      rw [keys_scaled] at hk₀
      have := solutions_used hE' hI' hf' (by rw [hk₀]; exact loggedAll_scaled a hl) (by rw [hk₀]; exact hpos') hd₀ g0 hv
      rw [hk₀] at this ⊢
      exact this) (fun _ _ hs i m x => hs.solves (calls.map (scaledCall a)) hessian _ i m x) h' k hkk
  simp only [keys_scaled] at b3
  refine ⟨t, t', a1, b1, a2.trans b2.symm, fun i j hi hj => ?_⟩
  obtain ⟨⟨x, hx⟩, hy, hx1⟩ := a3 i j hi hj
  obtain ⟨-, -, hb⟩ := b3 i j hi hj
  have hx' := hb (fun m idx => x m idx / a) fun m hm => by rw [usedDamping_scaled]; exact solves_scaled ha (hx m hm)
  by_cases hm : mode = .dot
  · rw [(hx1 x hx).1 hm, hx'.1 hm, against_scaled ha]
  · obtain ⟨y, hz⟩ := hy hm
    have hy' := hx'.2 (fun m idx => y m idx / a) fun m hm => by rw [usedDamping_scaled]; exact solves_scaled ha (hz m hm)
    cases mode with
    | dot => exact absurd rfl hm
    | l2 => rw [((hx1 x hx).2 y hz).1 rfl, hy'.1 rfl, against_scaled ha, against_scaled ha]
    | cosine => rw [((hx1 x hx).2 y hz).2 rfl, hy'.2 rfl, against_scaled ha, against_scaled ha]
    | other =>
      unfold computeInfluence at h
      rw [if_pos rfl] at h
      cases h

/-- **C136**, self-influence. -/
theorem C136_self {L L' : Lib K} {a : K} (ha : a ≠ 0) {calls : List (Plugin × StatCall K)} {s s' u u' : LState K} {ids : List PyStr}
    {d : GLog K} {hessian : Hess} {groups : Option (List PyStr)} {c : Option K} {r r' : SelfResult K}
    (hE : EighOk L) (hI : InverseOk L) (hE' : EighOk L') (hI' : InverseOk L') (hf : Finalized L calls s) (hf' : Finalized L' (calls.map (scaledCall a)) s')
    (hl : LoggedAll calls (Dict.keys d) hessian) (hpos : ∀ m ∈ Dict.keys d, 0 < usedDamping calls hessian (Dict.keys d) c m)
    (hd : Labelled ids d) (hg : (groups.getD []).Nodup) (hn : ['t', 'o', 't', 'a', 'l'] ∉ groups.getD [])
    (h : computeSelf L s ids (.dict d) true hessian groups c = .ok (u, r))
    (h' : computeSelf L' s' ids (.dict (scaledLog a d)) true hessian groups (c.map (a ^ 2 * ·)) = .ok (u', r')) :
    ∀ k, k = ['t', 'o', 't', 'a', 'l'] ∨ k ∈ groups.getD [] → ∃ t t', r.influence.get? k = some t ∧ r'.influence.get? k = some t' ∧ t.shape = t'.shape ∧
      ∀ i, i < ids.length → t.el [i] = t'.el [i] := by
  intro k hkk
  have hpos' : ∀ m ∈ Dict.keys d, 0 < usedDamping (calls.map (scaledCall a)) hessian (Dict.keys d) (c.map (a ^ 2 * ·)) m := fun m hm => by
    rw [usedDamping_scaled]; exact mul_pos (by positivity) (hpos m hm)
  obtain ⟨t, a1, a2, a3⟩ := self_groups_of_solutions hd hg hn (fun _ _ _ _ g0 hv => solutions_used hE hI hf hl hpos hd g0 hv) h k hkk
  obtain ⟨t', b1, b2, b3⟩ := self_groups_of_solutions (labelled_scaled a hd) hg hn (fun _ _ _ _ g0 hv => solutions_used hE' hI' hf'
    (by rw [keys_scaled]; exact loggedAll_scaled a hl) (by rw [keys_scaled]; exact hpos') (labelled_scaled a hd) g0 hv) h' k hkk
  simp only [keys_scaled] at b3
  refine ⟨t, t', a1, b1, a2.trans b2.symm, fun i hi => ?_⟩
  obtain ⟨⟨x, hx⟩, hx1⟩ := a3 i hi
  rw [hx1 x hx, (b3 i hi).2 (fun m idx => x m idx / a) fun m hm => by rw [usedDamping_scaled]; exact solves_scaled ha (hx m hm)]
  exact (against_scaled ha x d i _).symm

end Logix
