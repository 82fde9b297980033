/-
C137: several passes over the data give the scores of one.
-/
import Verif.Props.ModuleOrder
import Verif.Spec.Repeated

set_option linter.unusedSectionVars false

namespace Logix
open Spec
variable {K : Type}

theorem callsOf_repeated (p : Plugin) (m : PyStr) (lt : LogType) (n : Nat) (calls : List (Plugin × StatCall K)) :
    callsOf p m lt (repeated n calls) = (List.replicate n (callsOf p m lt calls)).flatten := by
  unfold repeated callsOf
  rw [List.filter_flatten, List.map_flatten, List.map_replicate, List.map_replicate]

theorem mem_callsOf_repeated {p : Plugin} {m : PyStr} {lt : LogType} {n : Nat} {calls : List (Plugin × StatCall K)} {c : StatCall K}
    (h : c ∈ callsOf p m lt (repeated n calls)) : c ∈ callsOf p m lt calls := by
  rw [callsOf_repeated] at h
  obtain ⟨l, hl, hc⟩ := List.mem_flatten.1 h
  rw [List.eq_of_mem_replicate hl] at hc
  exact hc

theorem callsOf_repeated_nil {p : Plugin} {m : PyStr} {lt : LogType} {n : Nat} (hn : n ≠ 0) {calls : List (Plugin × StatCall K)} :
    callsOf p m lt (repeated n calls) = [] ↔ callsOf p m lt calls = [] := by
  obtain ⟨n, rfl⟩ := Nat.exists_eq_succ_of_ne_zero hn
  rw [callsOf_repeated]
  constructor
  · intro h
    rw [List.replicate_succ, List.flatten_cons] at h
    exact (List.append_eq_nil_iff.1 h).1
  · intro h
    rw [h]
    simp

theorem logged_repeated {m : PyStr} {lt : LogType} {n : Nat} (hn : n ≠ 0) {calls : List (Plugin × StatCall K)} (h : Logged calls m lt) :
    Logged (repeated n calls) m lt :=
  ⟨fun h0 => h.1 ((callsOf_repeated_nil hn).1 h0), fun c hc => h.2 c (mem_callsOf_repeated hc)⟩

theorem loggedAll_repeated {n : Nat} (hn : n ≠ 0) {calls : List (Plugin × StatCall K)} {keys : List PyStr} {hessian : Hess} (hl : LoggedAll calls keys hessian) :
    LoggedAll (repeated n calls) keys hessian :=
  hl.imp (fun hl => ⟨hl.1.imp id fun h1 => ⟨h1.1, fun m hm => (callsOf_repeated_nil hn).2 (h1.2 m hm)⟩,
    fun m hm => ⟨logged_repeated hn (hl.2 m hm).1, logged_repeated hn (hl.2 m hm).2⟩⟩) fun hl => ⟨hl.1, fun m hm => logged_repeated hn (hl.2 m hm)⟩

theorem features_repeated [Field K] {n : Nat} (hn : n ≠ 0) (calls : List (Plugin × StatCall K)) (m : PyStr) (lt : LogType) :
    features (repeated n calls) m lt = features calls m lt := by
  obtain ⟨n, rfl⟩ := Nat.exists_eq_succ_of_ne_zero hn
  unfold features
  rw [callsOf_repeated, List.replicate_succ, List.flatten_cons]
  cases h : callsOf .covariance m lt calls with
  | nil =>
    simp
  | cons c cs => rfl

variable [Field K] [LinearOrder K] [IsStrictOrderedRing K]

theorem secondMoment_repeated {n : Nat} (hn : n ≠ 0) (calls : List (Plugin × StatCall K)) (m : PyStr) (lt : LogType) :
    secondMoment (repeated n calls) m lt = secondMoment calls m lt := by
  funext i j
  have h1 : ∀ cs : List (StatCall K), ((allRows (List.replicate n cs).flatten).map fun r => r i * r j).sum = (n : K) * ((allRows cs).map fun r => r i * r j).sum := by
    intro cs
    clear hn
    induction n with
    | zero => simp [allRows]
    | succ n ih =>
      unfold allRows at ih ⊢
      rw [List.replicate_succ, List.flatten_cons, List.flatMap_append, List.map_append, List.sum_append, ih]
      push_cast; ring
  have h2 : ∀ cs : List (StatCall K), samples (List.replicate n cs).flatten = n * samples cs := by
    intro cs
    clear hn h1
    induction n with
    | zero => simp [samples]
    | succ n ih =>
      unfold samples at ih ⊢
      rw [List.replicate_succ, List.flatten_cons, List.map_append, List.sum_append, ih]
      ring
  unfold secondMoment
  rw [callsOf_repeated, h1, h2, Nat.cast_mul, mul_div_mul_left _ _ (Nat.cast_ne_zero.2 hn)]

theorem usedDamping_times {L' : Lib K} {n : Nat} (hn : n ≠ 0) {calls calls' : List (Plugin × StatCall K)} {s' : LState K} (hf' : Finalized L' calls' s')
    (hp : SameBatchesTimes n calls calls') {keys : List PyStr} {hessian : Hess} {c : Option K} (hl : LoggedAll calls keys hessian) {m : PyStr} (hm : m ∈ keys) :
    usedDamping calls' hessian keys c m = usedDamping calls hessian keys c m := by
  have hp' : SameBatches calls' (repeated n calls) := fun m lt => (hp m lt).symm
  rw [usedDamping_perm hf' hp' (loggedAll_perm hp (List.Perm.refl _) (loggedAll_repeated hn hl)) (keys' := keys) (.inr (.inr rfl)) hm]
  unfold usedDamping defaultDamping
  simp only [ne_eq, callsOf_repeated_nil hn, features_repeated hn, secondMoment_repeated hn]

theorem solves_times {n : Nat} (hn : n ≠ 0) {calls calls' : List (Plugin × StatCall K)} (hp : SameBatchesTimes n calls calls') {d : GLog K}
    {hessian : Hess} {c : K} {i : Nat} {m : PyStr} {x : List Nat → K} : Solves calls' hessian c d i m x ↔ Solves calls hessian c d i m x := by
  unfold Solves SolvesRaw SolvesKfac
  simp only [← secondMoment_perm hp, secondMoment_repeated hn, ne_eq, ← callsOf_nil_iff hp, callsOf_repeated_nil hn]

/-- **C137.** Two new instances log data for the covariances and are finalized; the second logs every batch of the first one the same number of times, in any order,
as in several passes over the data. Then `compute_influence` gives the same scores in both, with or without damping, in every mode, for the total and every
group. -/
theorem C137_influence {L L' : Lib K} {sqrt : K → K} {n : Nat} (hn0 : n ≠ 0) {calls calls' : List (Plugin × StatCall K)} {s s' u u' : LState K}
    {srcIds tgtIds : List PyStr} {d e : GLog K} {mode : Mode} {hessian : Hess} {groups : Option (List PyStr)} {c : Option K} {r r' : IFResult K}
    (hE : EighOk L) (hI : InverseOk L) (hE' : EighOk L') (hI' : InverseOk L') (hf : Finalized L calls s) (hf' : Finalized L' calls' s')
    (hcalls : SameBatchesTimes n calls calls') (hl : LoggedAll calls (Dict.keys d) hessian)
    (hpos : ∀ m ∈ Dict.keys d, 0 < usedDamping calls hessian (Dict.keys d) c m)
    (hd : Labelled srcIds d) (he : Labelled tgtIds e) (hk : Dict.keys d = Dict.keys e)
    (hg : (groups.getD []).Nodup) (hn : ['t', 'o', 't', 'a', 'l'] ∉ groups.getD [])
    (h : computeInfluence L sqrt s srcIds (.dict d) tgtIds (.dict e) mode true hessian groups c = .ok (u, r))
    (h' : computeInfluence L' sqrt s' srcIds (.dict d) tgtIds (.dict e) mode true hessian groups c = .ok (u', r')) :
    ∀ k, k = ['t', 'o', 't', 'a', 'l'] ∨ k ∈ groups.getD [] → ∃ t t', r.influence.get? k = some t ∧ r'.influence.get? k = some t' ∧ t.shape = t'.shape ∧
      ∀ i j, i < srcIds.length → j < tgtIds.length → t.el [i, j] = t'.el [i, j] := by
  intro k hkk
  have hu : ∀ m ∈ Dict.keys d, usedDamping calls' hessian (Dict.keys d) c m = usedDamping calls hessian (Dict.keys d) c m :=
    fun m hm => usedDamping_times hn0 hf' hcalls hl hm
  have hl' := loggedAll_perm hcalls (List.Perm.refl _) (loggedAll_repeated hn0 hl)
  obtain ⟨t, a1, a2, a3⟩ := modes_of_solutions (S := fun d₀ i m x => Solves calls hessian (usedDamping calls hessian (Dict.keys d) c m) d₀ i m x) hf hd he hk hg hn
    (fun d₀ _ hk₀ hd₀ _ _ _ _ g0 hv => by
      have := solutions_used hE hI hf (by rw [hk₀]; exact hl) (by rw [hk₀]; exact hpos) hd₀ g0 hv
      rw [hk₀] at this ⊢
      exact this) (fun _ _ hs i m x => hs.solves calls hessian _ i m x) h k hkk
  obtain ⟨t', b1, b2, b3⟩ := modes_of_solutions (S := fun d₀ i m x => Solves calls' hessian (usedDamping calls' hessian (Dict.keys d) c m) d₀ i m x) hf' hd he hk hg hn
    (fun d₀ _ hk₀ hd₀ _ _ _ _ g0 hv => by
      have := solutions_used hE' hI' hf' (by rw [hk₀]; exact hl') (by rw [hk₀]; exact fun m hm => by rw [hu m hm]; exact hpos m hm) hd₀ g0 hv
      rw [hk₀] at this ⊢
      exact this) (fun _ _ hs i m x => hs.solves calls' hessian _ i m x) h' k hkk
  refine ⟨t, t', a1, b1, a2.trans b2.symm, fun i j hi hj => ?_⟩
  obtain ⟨⟨x, hx⟩, hy, hx1⟩ := a3 i j hi hj
  obtain ⟨-, -, hb⟩ := b3 i j hi hj
  have hx' := hb x fun m hm => by rw [hu m hm]; exact (solves_times hn0 hcalls).2 (hx m hm)
  by_cases hm : mode = .dot
  · rw [(hx1 x hx).1 hm, hx'.1 hm]
  · obtain ⟨y, hz⟩ := hy hm
    have hy' := hx'.2 y fun m hm => by rw [hu m hm]; exact (solves_times hn0 hcalls).2 (hz m hm)
    cases mode with
    | dot => exact absurd rfl hm
    | l2 => rw [((hx1 x hx).2 y hz).1 rfl, hy'.1 rfl]
    | cosine => rw [((hx1 x hx).2 y hz).2 rfl, hy'.2 rfl]
    | other =>
      unfold computeInfluence at h
      rw [if_pos rfl] at h
      cases h

/-- **C137**, self-influence. -/
theorem C137_self {L L' : Lib K} {n : Nat} (hn0 : n ≠ 0) {calls calls' : List (Plugin × StatCall K)} {s s' u u' : LState K} {ids : List PyStr}
    {d : GLog K} {hessian : Hess} {groups : Option (List PyStr)} {c : Option K} {r r' : SelfResult K}
    (hE : EighOk L) (hI : InverseOk L) (hE' : EighOk L') (hI' : InverseOk L') (hf : Finalized L calls s) (hf' : Finalized L' calls' s')
    (hcalls : SameBatchesTimes n calls calls') (hl : LoggedAll calls (Dict.keys d) hessian)
    (hpos : ∀ m ∈ Dict.keys d, 0 < usedDamping calls hessian (Dict.keys d) c m)
    (hd : Labelled ids d) (hg : (groups.getD []).Nodup) (hn : ['t', 'o', 't', 'a', 'l'] ∉ groups.getD [])
    (h : computeSelf L s ids (.dict d) true hessian groups c = .ok (u, r)) (h' : computeSelf L' s' ids (.dict d) true hessian groups c = .ok (u', r')) :
    ∀ k, k = ['t', 'o', 't', 'a', 'l'] ∨ k ∈ groups.getD [] → ∃ t t', r.influence.get? k = some t ∧ r'.influence.get? k = some t' ∧ t.shape = t'.shape ∧
      ∀ i, i < ids.length → t.el [i] = t'.el [i] := by
  intro k hkk
  have hu : ∀ m ∈ Dict.keys d, usedDamping calls' hessian (Dict.keys d) c m = usedDamping calls hessian (Dict.keys d) c m :=
    fun m hm => usedDamping_times hn0 hf' hcalls hl hm
  have hl' := loggedAll_perm hcalls (List.Perm.refl _) (loggedAll_repeated hn0 hl)
  obtain ⟨t, a1, a2, a3⟩ := self_groups_of_solutions hd hg hn (fun _ _ _ _ g0 hv => solutions_used hE hI hf hl hpos hd g0 hv) h k hkk
  obtain ⟨t', b1, b2, b3⟩ := self_groups_of_solutions hd hg hn (fun _ _ _ _ g0 hv => solutions_used hE' hI' hf' hl'
    (fun m hm => by rw [hu m hm]; exact hpos m hm) hd g0 hv) h' k hkk
  refine ⟨t, t', a1, b1, a2.trans b2.symm, fun i hi => ?_⟩
  obtain ⟨⟨x, hx⟩, hx1⟩ := a3 i hi
  rw [hx1 x hx, (b3 i hi).2 x fun m hm => by rw [hu m hm]; exact (solves_times hn0 hcalls).2 (hx m hm)]

end Logix
