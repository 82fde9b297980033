/-
C135: the order of modules does not matter for the scores.
-/
import Verif.Props.DefaultDamping
import Verif.Spec.ModuleOrder

set_option linter.unusedSectionVars false

namespace Logix
open Spec
variable {K : Type}

theorem get?_perm {α β : Type} [DecidableEq α] {d d' : Dict α β} (h : d.Perm d') (hn : (Dict.keys d).Nodup) (k : α) : Dict.get? d k = Dict.get? d' k := by
  have hn' : (Dict.keys d').Nodup := (h.map Prod.fst).nodup_iff.1 hn
  cases h1 : Dict.get? d k with
  | some v =>
    exact (Dict.get?_of_mem d' hn' (h.mem_iff.1 (Dict.mem_of_get? d h1))).symm
  | none =>
    cases h2 : Dict.get? d' k with
    | none => rfl
    | some v =>
      rw [Dict.get?_of_mem d hn (h.mem_iff.2 (Dict.mem_of_get? d' h2))] at h1
      cases h1

theorem grad_perm {d d' : GLog K} (h : d.Perm d') (hn : (Dict.keys d).Nodup) (m : PyStr) : grad d m = grad d' m := by
  unfold grad
  rw [get?_perm h hn]

theorem members_perm {keys keys' : List PyStr} (h : keys.Perm keys') (k : PyStr) : (members keys k).Perm (members keys' k) := by
  unfold members
  split
  · exact h
  · exact h.filter _

theorem against_perm [Field K] {x : PyStr → List Nat → K} {e e' : GLog K} (h : e.Perm e') (hn : (Dict.keys e).Nodup) (j : Nat) {keys keys' : List PyStr}
    (hk : keys.Perm keys') : against x e j keys = against x e' j keys' := by
  unfold against
  simp only [grad_perm h hn]
  exact (hk.map _).sum_eq

theorem secondMoment_perm [Field K] {calls calls' : List (Plugin × StatCall K)} (h : SameBatches calls calls') (m : PyStr) (lt : LogType) :
    secondMoment calls m lt = secondMoment calls' m lt := by
  funext i j
  unfold secondMoment
  congr 1
  · exact ((h m lt).flatMap_right _ |>.map _).sum_eq
  · unfold samples
    rw [((h m lt).map _).sum_eq]

theorem callsOf_nil_iff {calls calls' : List (Plugin × StatCall K)} (h : SameBatches calls calls') (m : PyStr) (lt : LogType) :
    callsOf .covariance m lt calls = [] ↔ callsOf .covariance m lt calls' = [] := by
  rw [← List.length_eq_zero_iff, ← List.length_eq_zero_iff, (h m lt).length_eq]

theorem solves_perm [Field K] {calls calls' : List (Plugin × StatCall K)} (h : SameBatches calls calls') {d d' : GLog K} (hd : d.Perm d')
    (hn : (Dict.keys d).Nodup) {hessian : Hess} {c : K} {i : Nat} {m : PyStr} {x : List Nat → K} :
    Solves calls hessian c d i m x ↔ Solves calls' hessian c d' i m x := by
  unfold Solves SolvesRaw SolvesKfac RawSystem KfacSystem
  simp only [secondMoment_perm h, grad_perm hd hn, ne_eq, callsOf_nil_iff h]

theorem loggedAll_perm {calls calls' : List (Plugin × StatCall K)} (h : SameBatches calls calls') {keys keys' : List PyStr} (hk : keys.Perm keys') {hessian : Hess}
    (hl : LoggedAll calls keys hessian) : LoggedAll calls' keys' hessian := by
  have hL : ∀ m lt, Logged calls m lt → Logged calls' m lt := fun m lt hl =>
    ⟨fun h0 => hl.1 ((callsOf_nil_iff h m lt).2 h0), fun c hc => hl.2 c ((h m lt).mem_iff.2 hc)⟩
  refine hl.imp (fun hl => ⟨hl.1.imp id fun h1 => ⟨h1.1, fun m hm => (callsOf_nil_iff h m _).1 (h1.2 m (hk.mem_iff.2 hm))⟩, fun m hm => ?_⟩)
    fun hl => ⟨hl.1, fun m hm => hL _ _ (hl.2 m (hk.mem_iff.2 hm))⟩
  exact ⟨hL _ _ (hl.2 m (hk.mem_iff.2 hm)).1, hL _ _ (hl.2 m (hk.mem_iff.2 hm)).2⟩

variable [Field K] [LinearOrder K] [IsStrictOrderedRing K]

theorem features_width {L : Lib K} {calls : List (Plugin × StatCall K)} {s : LState K} (h : Finalized L calls s) {m : PyStr} {lt : LogType}
    (hl : Logged calls m lt) : ∀ c ∈ callsOf .covariance m lt calls, callWidth c = features calls m lt := by
  obtain ⟨-, -, s₀, dir, dir', h2, h3⟩ := h
  obtain ⟨t, W, -, -, a3, -⟩ := C31_covariance L h2 h3 m lt hl.1 fun c hc => by
    refine (hl.2 c hc).imp id fun e => ?_
    rw [← e]
    unfold callsOf at hc
    obtain ⟨pc, hpc, rfl⟩ := List.mem_map.1 hc
    have := (List.mem_filter.1 hpc).2
    simp only [decide_eq_true_eq] at this
    exact this.2.2
  have : features calls m lt = W := by
    unfold features
    split
    · next h0 => exact absurd h0 hl.1
    · next c cs h0 => exact a3 c (by rw [h0]; exact List.mem_cons_self)
  rw [this]
  exact a3

theorem features_perm {L : Lib K} {calls calls' : List (Plugin × StatCall K)} {s : LState K} (h : Finalized L calls s) (hp : SameBatches calls calls')
    {m : PyStr} {lt : LogType} (hl : Logged calls m lt) : features calls m lt = features calls' m lt := by
  show _ = (match callsOf .covariance m lt calls' with | [] => 0 | c :: _ => callWidth c)
  split
  · next h0 => exact absurd ((callsOf_nil_iff hp m lt).2 h0) hl.1
  · next c cs h0 => exact (features_width h hl c ((hp m lt).mem_iff.2 (by rw [h0]; exact List.mem_cons_self))).symm

/-- Both with damping and without: the systems have solutions, and any solutions give the form of the inverse Hessian. -/
theorem solutions_used {L : Lib K} {calls : List (Plugin × StatCall K)} {s s₁ s₂ : LState K} {ids : List PyStr} {d : GLog K} {o : LogArg K} {hessian : Hess}
    {c : Option K} {H : HessKind K} (hE : EighOk L) (hI : InverseOk L) (hf : Finalized L calls s) (hl : LoggedAll calls (Dict.keys d) hessian)
    (hc : ∀ m ∈ Dict.keys d, 0 < usedDamping calls hessian (Dict.keys d) c m) (hd : Labelled ids d)
    (hpre : precondition L s (.dict d) hessian c = .ok (s₂, o)) (hH : hessOf L s (Dict.keys d) hessian c = .ok (s₁, H)) :
    (∀ i, i < ids.length → ∃ x : PyStr → List Nat → K, ∀ m ∈ Dict.keys d, Solves calls hessian (usedDamping calls hessian (Dict.keys d) c m) d i m (x m)) ∧
    ∀ i m x, m ∈ Dict.keys d → Solves calls hessian (usedDamping calls hessian (Dict.keys d) c m) d i m x → ∀ g, grad d m = some g → ∀ f,
      H.form m g.shape.tail (row g i) f = dot g.shape.tail x f := by
  cases c with
  | none => exact solutions_default hE hI hf hl hc hd hpre hH
  | some c =>
    by_cases he : Dict.keys d = []
    · exact ⟨fun i _ => ⟨fun _ _ => 0, fun m hm => by rw [he] at hm; cases hm⟩, fun i m x hm => by rw [he] at hm; cases hm⟩
    · obtain ⟨m, hm⟩ := List.exists_mem_of_ne_nil _ he
      exact solutions hE hI hf hl (hc m hm) hd hpre hH

/-- The order does not matter for the damping, if it is given, if every module has its own, or if the first module is the same. -/
theorem usedDamping_perm {L : Lib K} {calls calls' : List (Plugin × StatCall K)} {s : LState K} (h : Finalized L calls s) (hp : SameBatches calls calls')
    {keys keys' : List PyStr} {hessian : Hess} {c : Option K} (hl : LoggedAll calls keys hessian)
    (hc : c ≠ none ∨ (hessian = .raw ∨ hessian = .auto ∧ ∀ m ∈ keys, Logged calls m .grad) ∨ keys.head? = keys'.head?) {m : PyStr} (hm : m ∈ keys) :
    usedDamping calls hessian keys c m = usedDamping calls' hessian keys' c m := by
  unfold usedDamping
  cases c with
  | some c => rfl
  | none =>
    simp only [Option.getD_none]
    unfold defaultDamping
    by_cases hr : hessian = .raw ∨ hessian = .auto ∧ callsOf .covariance m .grad calls ≠ []
    · have hr' : hessian = .raw ∨ hessian = .auto ∧ callsOf .covariance m .grad calls' ≠ [] := hr.imp id fun h1 => ⟨h1.1, fun h0 => h1.2 ((callsOf_nil_iff hp m _).2 h0)⟩
      have hlg : Logged calls m .grad := by
        rcases hl with ⟨h1, -⟩ | ⟨-, h1⟩
        · exfalso
          rcases hr with hr | ⟨hr, hr2⟩ <;> rcases h1 with h1 | ⟨h1, h2⟩
          · rw [hr] at h1; cases h1
          · rw [hr] at h1; cases h1
          · rw [hr] at h1; cases h1
          · exact hr2 (h2 m hm)
        · exact h1 m hm
      rw [if_pos hr, if_pos hr', features_perm h hp hlg, secondMoment_perm hp]
    · have hr' : ¬(hessian = .raw ∨ hessian = .auto ∧ callsOf .covariance m .grad calls' ≠ []) :=
        fun h0 => hr (h0.imp id fun h1 => ⟨h1.1, fun h2 => h1.2 ((callsOf_nil_iff hp m _).1 h2)⟩)
      rw [if_neg hr, if_neg hr']
      rcases hl with ⟨-, h1⟩ | ⟨h0, h1⟩
      · rcases hc with hc | hc | hc
        · exact absurd rfl hc
        · exact absurd (hc.imp id fun h2 => ⟨h2.1, (h2.2 m hm).1⟩) hr
        · cases keys with
          | nil => cases hm
          | cons first tl =>
            cases keys' with
            | nil => cases hc
            | cons first' tl' =>
              obtain rfl := Option.some.inj hc
              have hlf := h1 first List.mem_cons_self
              simp only
              rw [features_perm h hp hlf.1, features_perm h hp hlf.2, secondMoment_perm hp, secondMoment_perm hp]
      · exact absurd (h0.imp id fun h2 => ⟨h2, (h1 m hm).1⟩) hr

/-- **C135**, the part that holds: two new instances log the same batches for the covariances, in any order of batches and modules, and are finalized.
`compute_influence` gives the same scores in both, for the total and every group and in every mode, whatever the order of the modules in the logs, if the
damping is given, or the Hessian is the empirical Fisher matrix, or the first module in the logs is the same. -/
theorem C135_influence_partial {L L' : Lib K} {sqrt : K → K} {calls calls' : List (Plugin × StatCall K)} {s s' u u' : LState K} {srcIds tgtIds : List PyStr}
    {d d' e e' : GLog K} {mode : Mode} {hessian : Hess} {groups : Option (List PyStr)} {c : Option K} {r r' : IFResult K}
    (hE : EighOk L) (hI : InverseOk L) (hE' : EighOk L') (hI' : InverseOk L') (hf : Finalized L calls s) (hf' : Finalized L' calls' s')
    (hcalls : SameBatches calls calls') (hl : LoggedAll calls (Dict.keys d) hessian)
    (hpos : ∀ m ∈ Dict.keys d, 0 < usedDamping calls hessian (Dict.keys d) c m)
    (hc : c ≠ none ∨ (hessian = .raw ∨ hessian = .auto ∧ ∀ m ∈ Dict.keys d, Logged calls m .grad) ∨ (Dict.keys d).head? = (Dict.keys d').head?)
    (hd : Labelled srcIds d) (he : Labelled tgtIds e) (hk : Dict.keys d = Dict.keys e) (hdp : d.Perm d') (hep : e.Perm e') (hk' : Dict.keys d' = Dict.keys e')
    (hg : (groups.getD []).Nodup) (hn : ['t', 'o', 't', 'a', 'l'] ∉ groups.getD [])
    (h : computeInfluence L sqrt s srcIds (.dict d) tgtIds (.dict e) mode true hessian groups c = .ok (u, r))
    (h' : computeInfluence L' sqrt s' srcIds (.dict d') tgtIds (.dict e') mode true hessian groups c = .ok (u', r')) :
    ∀ k, k = ['t', 'o', 't', 'a', 'l'] ∨ k ∈ groups.getD [] → ∃ t t', r.influence.get? k = some t ∧ r'.influence.get? k = some t' ∧ t.shape = t'.shape ∧
      ∀ i j, i < srcIds.length → j < tgtIds.length → t.el [i, j] = t'.el [i, j] := by
  intro k hkk
  have hkp : (Dict.keys d).Perm (Dict.keys d') := hdp.map _
  have hd' : Labelled srcIds d' := ⟨hkp.nodup_iff.1 hd.nodup, fun m hm => by rw [← grad_perm hdp hd.nodup]; exact hd.rows m (hkp.mem_iff.2 hm)⟩
  have he' : Labelled tgtIds e' := ⟨(hep.map Prod.fst).nodup_iff.1 he.nodup, fun m hm => by
    rw [← grad_perm hep he.nodup]; exact he.rows m ((hep.map Prod.fst).mem_iff.2 hm)⟩
  have hdam : ∀ m ∈ Dict.keys d, usedDamping calls hessian (Dict.keys d) c m = usedDamping calls' hessian (Dict.keys d') c m :=
    fun m hm => usedDamping_perm hf hcalls hl hc hm
  obtain ⟨t, a1, a2, a3⟩ := modes_of_solutions (S := fun d₀ i m x => Solves calls hessian (usedDamping calls hessian (Dict.keys d) c m) d₀ i m x) hf hd he hk hg hn
    (fun d₀ _ hk₀ hd₀ _ _ _ _ g0 hv => by
      have := solutions_used hE hI hf (by rw [hk₀]; exact hl) (by rw [hk₀]; exact hpos) hd₀ g0 hv
      rw [hk₀] at this ⊢
      exact this) (fun _ _ hs i m x => hs.solves calls hessian _ i m x) h k hkk
  obtain ⟨t', b1, b2, b3⟩ := modes_of_solutions (S := fun d₀ i m x => Solves calls' hessian (usedDamping calls' hessian (Dict.keys d') c m) d₀ i m x) hf' hd' he' hk' hg hn
    (fun d₀ _ hk₀ hd₀ _ _ _ _ g0 hv => by
      have := solutions_used hE' hI' hf' (by rw [hk₀]; exact loggedAll_perm hcalls hkp hl)
        (by rw [hk₀]; exact fun m hm => by rw [← hdam m (hkp.mem_iff.2 hm)]; exact hpos m (hkp.mem_iff.2 hm)) hd₀ g0 hv
      rw [hk₀] at this ⊢
      exact this) (fun _ _ hs i m x => hs.solves calls' hessian _ i m x) h' k hkk
  refine ⟨t, t', a1, b1, a2.trans b2.symm, fun i j hi hj => ?_⟩
  obtain ⟨⟨x, hx⟩, hy, ha⟩ := a3 i j hi hj
  obtain ⟨-, -, hb⟩ := b3 i j hi hj
  have hag : ∀ z : PyStr → List Nat → K, against z e j (members (Dict.keys d) k) = against z e' j (members (Dict.keys d') k) :=
    fun z => against_perm hep he.nodup j (members_perm hkp k)
  have hx' : ∀ m ∈ Dict.keys d', Solves calls' hessian (usedDamping calls' hessian (Dict.keys d') c m) d' i m (x m) := fun m hm => by
    rw [← hdam m (hkp.mem_iff.2 hm)]; exact (solves_perm hcalls hdp hd.nodup).1 (hx m (hkp.mem_iff.2 hm))
  by_cases hm : mode = .dot
  · rw [(ha x hx).1 hm, (hb x hx').1 hm, hag]
  · obtain ⟨y, hz⟩ := hy hm
    have hy' : ∀ m ∈ Dict.keys d', Solves calls' hessian (usedDamping calls' hessian (Dict.keys d') c m) e' j m (y m) := fun m hm => by
      rw [← hdam m (hkp.mem_iff.2 hm)]; exact (solves_perm hcalls hep he.nodup).1 (hz m (hkp.mem_iff.2 hm))
    cases mode with
    | dot => exact absurd rfl hm
    | l2 => rw [((ha x hx).2 y hz).1 rfl, ((hb x hx').2 y hy').1 rfl, hag, hag]
    | cosine => rw [((ha x hx).2 y hz).2 rfl, ((hb x hx').2 y hy').2 rfl, hag, hag]
    | other =>
      unfold computeInfluence at h
      rw [if_pos rfl] at h
      cases h

/-- **C135**, self-influence. -/
theorem C135_self_partial {L L' : Lib K} {calls calls' : List (Plugin × StatCall K)} {s s' u u' : LState K} {ids : List PyStr}
    {d d' : GLog K} {hessian : Hess} {groups : Option (List PyStr)} {c : Option K} {r r' : SelfResult K}
    (hE : EighOk L) (hI : InverseOk L) (hE' : EighOk L') (hI' : InverseOk L') (hf : Finalized L calls s) (hf' : Finalized L' calls' s')
    (hcalls : SameBatches calls calls') (hl : LoggedAll calls (Dict.keys d) hessian)
    (hpos : ∀ m ∈ Dict.keys d, 0 < usedDamping calls hessian (Dict.keys d) c m)
    (hc : c ≠ none ∨ (hessian = .raw ∨ hessian = .auto ∧ ∀ m ∈ Dict.keys d, Logged calls m .grad) ∨ (Dict.keys d).head? = (Dict.keys d').head?)
    (hd : Labelled ids d) (hdp : d.Perm d') (hg : (groups.getD []).Nodup) (hn : ['t', 'o', 't', 'a', 'l'] ∉ groups.getD [])
    (h : computeSelf L s ids (.dict d) true hessian groups c = .ok (u, r)) (h' : computeSelf L' s' ids (.dict d') true hessian groups c = .ok (u', r')) :
    ∀ k, k = ['t', 'o', 't', 'a', 'l'] ∨ k ∈ groups.getD [] → ∃ t t', r.influence.get? k = some t ∧ r'.influence.get? k = some t' ∧ t.shape = t'.shape ∧
      ∀ i, i < ids.length → t.el [i] = t'.el [i] := by
  intro k hkk
  have hkp : (Dict.keys d).Perm (Dict.keys d') := hdp.map _
  have hd' : Labelled ids d' := ⟨hkp.nodup_iff.1 hd.nodup, fun m hm => by rw [← grad_perm hdp hd.nodup]; exact hd.rows m (hkp.mem_iff.2 hm)⟩
  have hdam : ∀ m ∈ Dict.keys d, usedDamping calls hessian (Dict.keys d) c m = usedDamping calls' hessian (Dict.keys d') c m :=
    fun m hm => usedDamping_perm hf hcalls hl hc hm
  obtain ⟨t, a1, a2, a3⟩ := self_groups_of_solutions hd hg hn (fun _ _ _ _ g0 hv => solutions_used hE hI hf hl hpos hd g0 hv) h k hkk
  obtain ⟨t', b1, b2, b3⟩ := self_groups_of_solutions hd' hg hn (fun _ _ _ _ g0 hv => solutions_used hE' hI' hf' (loggedAll_perm hcalls hkp hl)
    (fun m hm => by rw [← hdam m (hkp.mem_iff.2 hm)]; exact hpos m (hkp.mem_iff.2 hm)) hd' g0 hv) h' k hkk
  refine ⟨t, t', a1, b1, a2.trans b2.symm, fun i hi => ?_⟩
  obtain ⟨⟨x, hx⟩, ha⟩ := a3 i hi
  rw [ha x hx, (b3 i hi).2 x fun m hm => by rw [← hdam m (hkp.mem_iff.2 hm)]; exact (solves_perm hcalls hdp hd.nodup).1 (hx m (hkp.mem_iff.2 hm))]
  exact against_perm hdp hd.nodup i (members_perm hkp k)

end Logix
