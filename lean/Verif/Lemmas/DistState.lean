/-
The state of every process after a distributed run, as a whole.
-/
import Verif.Spec.Dist
import Verif.Props.Dist
import Verif.Lemmas.Registry
import Verif.Props.Storage

set_option linter.unusedSectionVars false
namespace Logix
variable {K : Type}

/-! ### Dictionaries with the same layout -/

mutual
/-- Dictionaries with the same layout whose entries agree, up to `f`. -/
theorem same_N {α β : Type} (f : α → β) : ∀ (v w : Nested α), v.WF → skelN v = skelN w → (∀ q, (v.lookup q).map f = (w.lookup q).map f) →
    (v.leaves.map Prod.snd).map f = (w.leaves.map Prod.snd).map f ∧ ((∀ a b, f a = f b → a = b) → v = w)
  | .leaf a, .leaf b, _, _, h => by
    have h0 := h []
    simp only [Nested.lookup, Option.map_some, Option.some.injEq] at h0
    exact ⟨by simp [Nested.leaves, h0], fun hf => by rw [hf _ _ h0]⟩
  | .leaf _, .node _, _, hs, _ => by simp [skelN] at hs
  | .node _, .leaf _, _, hs, _ => by simp [skelN] at hs
  | .node d, .node e, hw, hs, h => by
    simp only [skelN, Nested.node.injEq] at hs
    obtain ⟨h1, h2⟩ := same_D f d e hw hs fun k ks => h (k :: ks)
    exact ⟨h1, fun hf => by rw [h2 hf]⟩
theorem same_D {α β : Type} (f : α → β) : ∀ (d e : List (PyStr × Nested α)), (Nested.node d).WF → skelD d = skelD e →
    (∀ k ks, ((Nested.node d).lookup (k :: ks)).map f = ((Nested.node e).lookup (k :: ks)).map f) →
    ((Nested.leavesList d).map Prod.snd).map f = ((Nested.leavesList e).map Prod.snd).map f ∧ ((∀ a b, f a = f b → a = b) → d = e)
  | [], [], _, _, _ => ⟨rfl, fun _ => rfl⟩
  | [], (_, _) :: _, _, hs, _ => by simp [skelD] at hs
  | (_, _) :: _, [], _, hs, _ => by simp [skelD] at hs
  | (k, v) :: d, (k', w) :: e, hw, hs, h => by
    simp only [skelD, List.cons.injEq, Prod.mk.injEq] at hs
    obtain ⟨⟨rfl, hs1⟩, hs2⟩ := hs
    rw [WF_node_iff] at hw
    obtain ⟨hn, hwf⟩ := hw
    simp only [Dict.keys, List.map_cons, List.nodup_cons] at hn
    have hw2 : (Nested.node d).WF := WF_node_iff.2 ⟨hn.2, fun kv hkv => hwf kv (List.mem_cons_of_mem _ hkv)⟩
    obtain ⟨a1, a2⟩ := same_N f v w (hwf (k, v) List.mem_cons_self) hs1 fun q => by
      have := h k q
      rwa [lookup_cons_cons, lookup_cons_cons, if_pos rfl, if_pos rfl] at this
    have hk : ∀ ks, (Nested.node d).lookup (k :: ks) = none ∧ (Nested.node e).lookup (k :: ks) = none := by
      have h1 : Dict.get? d k = none := (Dict.get?_eq_none_iff d k).2 hn.1
      have h2 : Dict.get? e k = none := by
        have := skelD_get e k
        rw [← hs2, skelD_get, h1] at this
        cases he : Dict.get? e k with
        | none => rfl
        | some _ => rw [he] at this; cases this
      intro ks
      rw [lookup_node_cons, lookup_node_cons, h1, h2]
      exact ⟨rfl, rfl⟩
    obtain ⟨b1, b2⟩ := same_D f d e hw2 hs2 fun j ks => by
      by_cases hj : k = j
      · subst hj
        rw [(hk ks).1, (hk ks).2]
      · have := h j ks
        rwa [lookup_cons_cons, lookup_cons_cons, if_neg hj, if_neg hj] at this
    refine ⟨?_, fun hf => by rw [a2 hf, b2 hf]⟩
    simp only [Nested.leavesList, List.map_append, List.map_map] at a1 b1 ⊢
    exact congrArg₂ (· ++ ·) a1 b1
end

mutual
theorem WF_skelN {α : Type} : ∀ v : Nested α, (skelN v).WF ↔ v.WF
  | .leaf _ => by simp [skelN, Nested.WF]
  | .node d => by
    have hk : Dict.keys (skelD d) = Dict.keys d := skelD_keys d
    rw [skelN, WF_node_iff, WF_node_iff, hk, WF_skelD d]
theorem WF_skelD {α : Type} : ∀ d : List (PyStr × Nested α), (∀ kv ∈ skelD d, kv.2.WF) ↔ ∀ kv ∈ d, kv.2.WF
  | [] => by simp [skelD]
  | (k, v) :: rest => by simp only [skelD, List.forall_mem_cons, WF_skelN v, WF_skelD rest]
theorem skelD_keys {α : Type} : ∀ d : List (PyStr × Nested α), Dict.keys (skelD d) = Dict.keys d
  | [] => rfl
  | (k, v) :: rest => by
    have := skelD_keys rest
    simp only [Dict.keys] at this
    simp only [skelD, Dict.keys, List.map_cons, this]
end

theorem sset2_wf {d : List (PyStr × Nested Unit)} (h : (Nested.node d).WF) (a : PyStr × PyStr) : (Nested.node (sset2 d a)).WF := by
  unfold sset2
  split
  · next sub hs =>
    exact WF_set h _ (WF_set ((WF_node_iff.1 h).2 _ (mem_of_get? hs)) _ (by simp [Nested.WF]))
  · exact WF_set h _ (by rw [WF_node_iff]; simp [Dict.keys, Nested.WF])

theorem foldl_sset2_wf : ∀ (l : List (PyStr × PyStr)) {d : List (PyStr × Nested Unit)}, (Nested.node d).WF → (Nested.node (l.foldl sset2 d)).WF
  | [], _, h => h
  | a :: l, _, h => foldl_sset2_wf l (sset2_wf h a)

theorem sset2_lookup (d : List (PyStr × Nested Unit)) (a : PyStr × PyStr) (q : Path) (h : (Nested.node (sset2 d a)).lookup q = some ()) :
    q = [a.1, a.2] ∨ (Nested.node d).lookup q = some () := by
  cases q with
  | nil => cases h
  | cons k ks =>
    rw [lookup_node_cons] at h ⊢
    unfold sset2 at h
    split at h
    · next sub hs =>
      rw [Dict.get?_set] at h
      split at h
      · next hk =>
        subst hk
        rw [Option.bind_some] at h
        cases ks with
        | nil => cases h
        | cons j js =>
          rw [lookup_node_cons, Dict.get?_set] at h
          split at h
          · next hj =>
            subst hj
            cases js with
            | nil => exact .inl rfl
            | cons _ _ => cases h
          · right
            rw [hs, Option.bind_some, lookup_node_cons]
            exact h
      · exact .inr h
    · rw [Dict.get?_set] at h
      split at h
      · next hk =>
        subst hk
        rw [Option.bind_some] at h
        cases ks with
        | nil => cases h
        | cons j js =>
          rw [lookup_cons_cons] at h
          split at h
          · next hj =>
            subst hj
            cases js with
            | nil => exact .inl rfl
            | cons _ _ => cases h
          · cases h
      · exact .inr h

theorem foldl_sset2_lookup : ∀ (l : List (PyStr × PyStr)) (d : List (PyStr × Nested Unit)) (q : Path),
    (Nested.node (l.foldl sset2 d)).lookup q = some () → (∃ a ∈ l, q = [a.1, a.2]) ∨ (Nested.node d).lookup q = some ()
  | [], _, _, h => .inr h
  | a :: l, d, q, h => by
    rcases foldl_sset2_lookup l _ q h with ⟨b, hb, hq⟩ | h
    · exact .inl ⟨b, List.mem_cons_of_mem _ hb, hq⟩
    · rcases sset2_lookup d a q h with h | h
      · exact .inl ⟨a, List.mem_cons_self, h⟩
      · exact .inr h

/-! ### The order of first occurrences -/

theorem firstSeen_append {α : Type} [DecidableEq α] : ∀ (a b : List α), (∀ x ∈ b, x ∈ a) → Spec.firstSeen (a ++ b) = Spec.firstSeen a := by
  have filt : ∀ (a b : List α), Spec.firstSeen (a ++ b) = Spec.firstSeen a ++ (Spec.firstSeen b).filter (fun x => x ∉ a) := by
    intro a
    induction a with
    | nil => intro b; simp [Spec.firstSeen]
    | cons x a ih =>
      intro b
      simp only [List.cons_append, Spec.firstSeen, ih, List.filter_append, List.filter_filter]
      congr 2
      apply List.filter_congr
      intro y _
      by_cases h1 : y = x <;> by_cases h2 : y ∈ a <;> simp [h1, h2]
  intro a b h
  rw [filt]
  have : (Spec.firstSeen b).filter (fun x => x ∉ a) = [] := by
    rw [List.filter_eq_nil_iff]
    intro x hx
    simp [h x ((mem_firstSeen x b).1 hx)]
  rw [this, List.append_nil]

theorem order_append [Semiring K] (q : Plugin) (a b : List (Plugin × StatCall K)) (h : Spec.order q b = Spec.order q a) :
    Spec.order q (a ++ b) = Spec.order q a := by
  unfold Spec.order at *
  rw [List.filter_append, List.map_append, firstSeen_append]
  intro x hx
  rw [← mem_firstSeen, ← mem_grouped _ _ _ (Nat.le_refl _), ← h, mem_grouped _ _ _ (Nat.le_refl _), mem_firstSeen]
  exact hx

theorem order_flatten [Semiring K] (q : Plugin) : ∀ (css : List (List (Plugin × StatCall K))),
    (∀ cs ∈ css, ∀ cs' ∈ css, Spec.order q cs = Spec.order q cs') → ∀ cs ∈ css, Spec.order q css.flatten = Spec.order q cs := by
  intro css
  induction css with
  | nil => intro _ cs h; cases h
  | cons a rest ih =>
    intro h cs hcs
    rw [List.flatten_cons, h cs hcs a List.mem_cons_self]
    cases rest with
    | nil => rw [List.flatten_nil, List.append_nil]
    | cons b rest =>
      have hb : Spec.order q (b :: rest).flatten = Spec.order q b :=
        ih (fun c hc c' hc' => h c (List.mem_cons_of_mem _ hc) c' (List.mem_cons_of_mem _ hc')) b List.mem_cons_self
      exact order_append q a _ (hb.trans (h b (List.mem_cons_of_mem _ List.mem_cons_self) a List.mem_cons_self))

/-! ### Instances that log means and covariances only -/

/-- What such instances never change. -/
structure PlainState (s : LState K) : Prop where
  states : s.states = (LState.init : LState K).states
  toSync : s.toSync = (LState.init : LState K).toSync
  toSave : s.toSave = (LState.init : LState K).toSave
  toNormalize : s.toNormalize = (LState.init : LState K).toNormalize
  notClear : s.notClear = (LState.init : LState K).notClear
  keys : Dict.keys s.attrs = Dict.keys (LState.init : LState K).attrs
  module : Dict.get? s.attrs nModelModule = some []

theorem plain_init : PlainState (LState.init : LState K) := ⟨rfl, rfl, rfl, rfl, rfl, rfl, rfl⟩

theorem PlainState.eq {s u : LState K} (hs : PlainState s) (hu : PlainState u)
    (h : ∀ n ∈ [nMean, nMeanCounter, nCov, nCovCounter], Dict.get? s.attrs n = Dict.get? u.attrs n) : s = u := by
  have hk : Dict.keys (LState.init : LState K).attrs = [nMean, nMeanCounter, nCov, nCovCounter] ++ [nModelModule] := rfl
  have ha : s.attrs = u.attrs := by
    refine Dict.ext_get? _ _ (hs.keys.trans hu.keys.symm) (by rw [hs.keys, hk]; decide) fun n => ?_
    by_cases hn : n ∈ Dict.keys s.attrs
    · rw [hs.keys, hk, List.mem_append] at hn
      rcases hn with hn | hn
      · exact h n hn
      · obtain rfl := List.mem_singleton.1 hn
        rw [hs.module, hu.module]
    · rw [(Dict.get?_eq_none_iff _ _).2 hn, (Dict.get?_eq_none_iff _ _).2 (by rw [hu.keys, ← hs.keys]; exact hn)]
  obtain ⟨a, b, c, d, e, f⟩ := s
  obtain ⟨a', b', c', d', e', f'⟩ := u
  have h1 := hs.states.trans hu.states.symm
  have h2 := hs.toSync.trans hu.toSync.symm
  have h3 := hs.toSave.trans hu.toSave.symm
  have h4 := hs.toNormalize.trans hu.toNormalize.symm
  have h5 := hs.notClear.trans hu.notClear.symm
  simp only at ha h1 h2 h3 h4 h5
  subst ha h1 h2 h3 h4 h5
  rfl

theorem PlainState.setAttr {s : LState K} (hs : PlainState s) {n : PyStr} (hn : n ∈ [nMean, nMeanCounter, nCov, nCovCounter]) (d : StateDict K) :
    PlainState (s.setAttr n d) := by
  refine ⟨hs.states, hs.toSync, hs.toSave, hs.toNormalize, hs.notClear, ?_, ?_⟩
  · show Dict.keys (Dict.set s.attrs n d) = _
    rw [Dict.keys_set_of_mem _ _ _ (by rw [hs.keys]; exact List.mem_append_left [nModelModule] hn), hs.keys]
  · rw [get?_setAttr, if_neg (by rintro rfl; revert hn; decide), hs.module]

theorem plain_updates [Semiring K] (L : Lib K) : ∀ {calls : List (Plugin × StatCall K)}, (∀ pc ∈ calls, pc.1 = .log ∨ pc.1 = .mean ∨ pc.1 = .covariance) →
    ∀ {s s' : LState K}, PlainState s → updates L s calls = .ok s' → PlainState s' := by
  intro calls
  induction calls with
  | nil => intro _ s s' hs h; cases h; exact hs
  | cons a rest ih =>
    intro hp s s' hs h
    unfold updates at h
    split at h
    · cases h
    · next s1 hs1 =>
      refine ih (fun pc hpc => hp pc (List.mem_cons_of_mem _ hpc)) ?_ h
      obtain ⟨p, c⟩ := a
      rcases hp _ List.mem_cons_self with h1 | h1 | h1
      · simp only at h1; subst h1; cases hs1; exact hs
      · simp only at h1; subst h1
        obtain ⟨d, e, t0, n0, t, -, -, -, -, -, -, -, e', -, -, hs'⟩ := statUpdate_ok meanAcc hs1
        rw [hs']; exact (hs.setAttr (by decide) _).setAttr (by decide) _
      · simp only at h1; subst h1
        obtain ⟨d, e, t0, n0, t, -, -, -, -, -, -, -, e', -, -, hs'⟩ := statUpdate_ok covAcc hs1
        rw [hs']; exact (hs.setAttr (by decide) _).setAttr (by decide) _

/-! ### Calls on another device -/

theorem filter_moved (dev : PyStr → LogType → Dev) (f : Plugin → PyStr → LogType → Bool) (calls : List (Plugin × StatCall K)) :
    (calls.map (Spec.movedTo dev)).filter (fun pc => f pc.1 pc.2.name pc.2.logType) =
      (calls.filter fun pc => f pc.1 pc.2.name pc.2.logType).map (Spec.movedTo dev) := by
  rw [List.filter_map]
  rfl

theorem order_moved [Semiring K] (dev : PyStr → LogType → Dev) (q : Plugin) (calls : List (Plugin × StatCall K)) :
    Spec.order q (calls.map (Spec.movedTo dev)) = Spec.order q calls := by
  unfold Spec.order
  rw [filter_moved dev (fun p _ _ => decide (p = q)), List.map_map]
  rfl

theorem callsOf_moved [Semiring K] (dev : PyStr → LogType → Dev) (p : Plugin) (m : PyStr) (lt : LogType) (calls : List (Plugin × StatCall K)) :
    Spec.callsOf p m lt (calls.map (Spec.movedTo dev)) = (Spec.callsOf p m lt calls).map fun c => { c with data := c.data.onDev (dev c.name c.logType) } := by
  unfold Spec.callsOf
  rw [filter_moved dev (fun p' m' lt' => decide (p' = p ∧ m' = m ∧ lt' = lt)), List.map_map, List.map_map]
  rfl

theorem regular_moved [Semiring K] {width : PyStr → LogType → Nat} {dev : PyStr → LogType → Dev} {off : Bool} {calls : List (Plugin × StatCall K)}
    (hp : ∀ pc ∈ calls, pc.1 = .log ∨ pc.1 = .mean ∨ pc.1 = .covariance) (hl : ∀ pc ∈ calls, Spec.Loggable pc.2.data pc.2.module pc.2.logType)
    (hw : ∀ pc ∈ calls, Spec.callWidth pc.2 = width pc.2.name pc.2.logType) (ho : ∀ pc ∈ calls, pc.2.offload = off) :
    Spec.Regular width dev off (calls.map (Spec.movedTo dev)) := by
  have mem : ∀ pc ∈ calls.map (Spec.movedTo dev), ∃ pc' ∈ calls, pc = Spec.movedTo dev pc' := fun pc hpc => by
    obtain ⟨a, h1, h2⟩ := List.mem_map.1 hpc
    exact ⟨a, h1, h2.symm⟩
  constructor
  · intro pc hpc; obtain ⟨a, h1, rfl⟩ := mem pc hpc; exact hp a h1
  · intro pc hpc
    obtain ⟨a, h1, rfl⟩ := mem pc hpc
    have := hl a h1
    unfold Spec.Loggable at this ⊢
    exact this
  · intro pc hpc; obtain ⟨a, h1, rfl⟩ := mem pc hpc; exact hw a h1
  · intro pc hpc; obtain ⟨a, h1, rfl⟩ := mem pc hpc; rfl
  · intro pc hpc; obtain ⟨a, h1, rfl⟩ := mem pc hpc; exact ho a h1

theorem rows_moved [Semiring K] (term : (Nat → K) → List Nat → K) (idx : List Nat) (dev : StatCall K → Dev) (cs : List (StatCall K)) :
    rowSum term (Spec.allRows (cs.map fun c => { c with data := c.data.onDev (dev c) })) idx = rowSum term (Spec.allRows cs) idx ∧
      ((cs.map fun c => { c with data := c.data.onDev (dev c) }).map batchCount).sum = (cs.map batchCount).sum := by
  constructor
  · unfold Spec.allRows
    rw [List.flatMap_map]
    rfl
  · rw [List.map_map]
    rfl

/-- All calls of a cluster, moved to the devices of one process, are a regular history. -/
theorem cluster_moved [Semiring K] {width : PyStr → LogType → Nat} {dev : Nat → PyStr → LogType → Dev} {off : Bool} {css : List (List (Plugin × StatCall K))}
    (hC : Spec.Cluster width dev off css) (i : Nat) : Spec.Regular width (dev i) off (css.flatten.map (Spec.movedTo (dev i))) := by
  have mem : ∀ pc ∈ css.flatten, ∃ j cs, pc ∈ cs ∧ Spec.Regular width (dev j) off cs := fun pc hpc => by
    obtain ⟨cs, h1, h2⟩ := List.mem_flatten.1 hpc
    obtain ⟨j, hj⟩ := List.getElem?_of_mem h1
    exact ⟨j, cs, h2, hC.regular j cs hj⟩
  refine regular_moved ?_ ?_ ?_ ?_ <;> intro pc hpc <;> obtain ⟨j, cs, h1, h2⟩ := mem pc hpc
  · exact h2.plugin pc h1
  · exact h2.loggable pc h1
  · exact h2.width pc h1
  · exact h2.offload pc h1

/-! ### One statistic -/

/-- The tensors of a statistic after a regular history. -/
theorem regular_dev [Semiring K] (L : Lib K) {p : Plugin} {st cn : PyStr} {z : Nat → List Nat} {term : (Nat → K) → List Nat → K}
    (hp : (p, st, cn) ∈ [(Plugin.mean, nMean, nMeanCounter), (Plugin.covariance, nCov, nCovCounter)])
    {width : PyStr → LogType → Nat} {dev : PyStr → LogType → Dev} {off : Bool} {calls : List (Plugin × StatCall K)} {s : LState K} {d : StateDict K}
    (h : Spec.Regular width dev off calls) (hs : updates L .init calls = .ok s) (hd : s.getAttr st = .ok d) {m : PyStr} {lt : LogType} {t : Tensor K}
    (ht : (Nested.node d).lookup [m, lt.name] = some (.tensor t)) : t.dev = if off then .cpu else dev m lt := by
  obtain ⟨s', h1, h2⟩ := ready_updates L h ready_init
  obtain rfl := Except.ok.inj (hs.symm.trans h1)
  simp only [List.mem_cons, Prod.mk.injEq, List.not_mem_nil, or_false] at hp
  rcases hp with ⟨rfl, rfl, rfl⟩ | ⟨rfl, rfl, rfl⟩
  · obtain ⟨d', e', g1, -, C⟩ := h2.mean
    obtain rfl := Except.ok.inj (hd.symm.trans g1)
    exact (C.entry _ _ _ (item2_of_lookup ht)).2
  · obtain ⟨d', e', g1, -, C⟩ := h2.cov
    obtain rfl := Except.ok.inj (hd.symm.trans g1)
    exact (C.entry _ _ _ (item2_of_lookup ht)).2

/-- After the synchronization a process has the statistic, and its counter, of one process that logs all the data on its devices. -/
theorem sync_tables [Field K] (L : Lib K) {p : Plugin} {st cn : PyStr} {z : Nat → List Nat} {term : (Nat → K) → List Nat → K}
    (S : StatOf p st cn z term) (hp : (p, st, cn) ∈ [(Plugin.mean, nMean, nMeanCounter), (Plugin.covariance, nCov, nCovCounter)])
    {width : PyStr → LogType → Nat} {dev : Nat → PyStr → LogType → Dev} {off : Bool} {css : List (List (Plugin × StatCall K))} {ss ss₁ : List (LState K)}
    (hC : Spec.Cluster width dev off css) (hrun : List.Forall₂ (fun cs s => updates L .init cs = .ok s) css ss) (f1 : synchronize ss = .ok ss₁)
    {i : Nat} {s₁ u : LState K} (hi : ss₁[i]? = some s₁) (hu : updates L .init (css.flatten.map (Spec.movedTo (dev i))) = .ok u) :
    Dict.get? s₁.attrs st = Dict.get? u.attrs st ∧ Dict.get? s₁.attrs cn = Dict.get? u.attrs cn := by
  have hb : (st, cn) ∈ basePairs ∧ p ∈ [Plugin.mean, Plugin.covariance] := by
    simp only [List.mem_cons, Prod.mk.injEq, List.not_mem_nil, or_false] at hp
    rcases hp with ⟨rfl, rfl, rfl⟩ | ⟨rfl, rfl, rfl⟩ <;> decide
  have hplug : ∀ cs ∈ css, ∀ pc ∈ cs, pc.1 = .log ∨ pc.1 = .mean ∨ pc.1 = .covariance := fun cs hcs => by
    obtain ⟨j, hj⟩ := List.getElem?_of_mem hcs
    exact (hC.regular j cs hj).plugin
  obtain ⟨-, stat⟩ := sync_stat L S hb.1 hrun hplug hC.order f1 hb.2
  obtain ⟨cs, s, d0, e0, d1, e1, c1, c2, hs, a1, a2, b1, b2, sk1, sk2, vals⟩ := stat i s₁ hi
  have hcs := List.mem_of_getElem? c1
  obtain ⟨i1, i2⟩ := init_getAttr (K := K) hb.1
  obtain ⟨d0', e0', x1, x2, y1, y2⟩ := updates_skel L S hs i1 i2
  obtain rfl := Except.ok.inj (a1.symm.trans x1)
  obtain rfl := Except.ok.inj (a2.symm.trans x2)
  obtain ⟨dU, eU, u1, u2, w1, w2⟩ := updates_skel L S hu i1 i2
  obtain ⟨dU', eU', u1', u2', I⟩ := updates_inv L S hu i1 i2
  obtain rfl := Except.ok.inj (u1.symm.trans u1')
  obtain rfl := Except.ok.inj (u2.symm.trans u2')
  rw [order_foldl] at y1 y2 w1 w2
  have hord : Spec.order p (css.flatten.map (Spec.movedTo (dev i))) = Spec.order p cs := by
    rw [order_moved]
    exact order_flatten p css (fun a ha b hb' => hC.order a ha b hb' p hb.2) cs hcs
  rw [hord] at w1 w2
  have hD : skelD d1 = skelD dU := by rw [sk1, y1, w1]
  have hE : skelD e1 = skelD eU := by rw [sk2, y2, w2]
  have empty : (Nested.node (skelD ([] : StateDict K))).WF := by rw [WF_node_iff]; simp [skelD, Dict.keys]
  have wfD : (Nested.node d1).WF := by
    rw [← WF_skelN, skelN, sk1, y1]
    exact foldl_sset2_wf _ empty
  have wfE : (Nested.node e1).WF := by
    rw [← WF_skelN, skelN, sk2, y2]
    exact foldl_sset2_wf _ empty
  -- the values
  have key : ∀ q, (∃ m lt, q = [m, LogType.name lt] ∧ (m, lt) ∈ Spec.order p cs) → (Nested.node d1).lookup q = (Nested.node dU).lookup q ∧
      (Nested.node e1).lookup q = (Nested.node eU).lookup q := by
    rintro q ⟨m, lt, rfl, hm⟩
    have hne : Spec.callsOf p m lt css.flatten ≠ [] := by
      rw [mem_order] at hm
      obtain ⟨c, hc⟩ := List.exists_mem_of_ne_nil _ hm
      rw [callsOf_flatten]
      exact List.ne_nil_of_mem (List.mem_flatMap.2 ⟨cs, hcs, hc⟩)
    obtain ⟨t, r, W, l0, l1, l2, l3, l4, l5, l6⟩ := vals m lt hne
    obtain ⟨t0, n0, tU, WU, hz, hw, hs0, hsU, k1, k2, hv⟩ := (I m lt).cons (by rw [callsOf_moved]; simpa using hne)
    rcases hz with ⟨-, hz, hn⟩ | ⟨hz, -⟩
    swap
    · cases hz
    have hWW : WU = W := by
      obtain ⟨c, hc⟩ := List.exists_mem_of_ne_nil _ hne
      rw [← l5 c hc, ← hw { c with data := c.data.onDev (dev i c.name c.logType) } (by rw [callsOf_moved]; exact List.mem_map.2 ⟨c, hc, rfl⟩)]
      rfl
    subst hWW
    have hr : r = tU := by
      refine Tensor.ext_el ?_ (by rw [l3, hsU]) fun idx hidx => ?_
      · rw [l2, regular_dev L (z := z) (term := term) hp (hC.regular i cs c1) hs a1 l0,
          regular_dev L (z := z) (term := term) hp (cluster_moved hC i) hu u1 (lookup_item2 k1)]
      · rw [l3] at hidx
        rw [l6 idx hidx, hv idx hidx, hz, zero_add, callsOf_moved, (rows_moved term idx (fun c => dev i c.name c.logType) _).1]
    rw [l1, l4, lookup_item2 k1, lookup_item2 k2, hr, hn, zero_add, callsOf_moved, (rows_moved term [] (fun c => dev i c.name c.logType) _).2]
    exact ⟨rfl, rfl⟩
  have path : ∀ {d : StateDict K} {x : SVal K} {q : Path}, skelD d = ((Spec.order p cs).map fun ml => (ml.1, ml.2.name)).foldl sset2 (skelD ([] : StateDict K)) →
      (Nested.node d).lookup q = some x → ∃ m lt, q = [m, LogType.name lt] ∧ (m, lt) ∈ Spec.order p cs := by
    intro d x q hd hx
    have h1 := skelN_lookup (.node d) q
    rw [hx, skelN, hd] at h1
    rcases foldl_sset2_lookup _ _ _ h1 with ⟨a, ha, rfl⟩ | h2
    · obtain ⟨ml, hml, rfl⟩ := List.mem_map.1 ha
      exact ⟨ml.1, ml.2, rfl, hml⟩
    · cases q <;> cases h2
  have both : ∀ {d e : StateDict K}, skelD d = ((Spec.order p cs).map fun ml => (ml.1, ml.2.name)).foldl sset2 (skelD ([] : StateDict K)) → skelD d = skelD e →
      (Nested.node d).WF → (∀ q, (∃ m lt, q = [m, LogType.name lt] ∧ (m, lt) ∈ Spec.order p cs) → (Nested.node d).lookup q = (Nested.node e).lookup q) →
      d = e := by
    intro d e h1 h2 h3 h4
    refine (same_D id d e h3 h2 fun k ks => ?_).2 fun a b h => h
    cases hl : (Nested.node d).lookup (k :: ks) with
    | some x => rw [← h4 _ (path h1 hl), hl]
    | none =>
      have h5 := skelN_lookup (.node e) (k :: ks)
      rw [skelN, ← h2, ← skelN, skelN_lookup, hl] at h5
      cases he : (Nested.node e).lookup (k :: ks) with
      | none => rfl
      | some _ => rw [he] at h5; cases h5
  rw [getAttr_eq.1 b1, getAttr_eq.1 b2, getAttr_eq.1 u1, getAttr_eq.1 u2, both (sk1.trans y1) hD wfD fun q hq => (key q hq).1,
    both (sk2.trans y2) hE wfE fun q hq => (key q hq).2]
  exact ⟨rfl, rfl⟩

/-! ### The synchronization succeeds -/

/-- What matters for `all_reduce`: a tensor of some shape, or a number. -/
def kind : SVal K → Option (Option (List Nat))
  | .tensor t => some (some t.shape)
  | .num _ => some none
  | _ => none

theorem addVal_succ [Semiring K] {a b : SVal K} (h : kind a = kind b) (ha : (kind a).isSome = true) : ∃ c, addVal a b = .ok c ∧ kind c = kind a := by
  cases a with
  | tensor t =>
    cases b with
    | tensor u =>
      have hs : t.shape = u.shape := by simpa [kind] using h
      exact ⟨_, if_pos hs, rfl⟩
    | num _ => simp [kind] at h
    | paths _ => cases h
    | dims _ => cases h
  | num x =>
    cases b with
    | tensor u => simp [kind] at h
    | num y => exact ⟨.num (x + y), rfl, rfl⟩
    | paths _ => cases h
    | dims _ => cases h
  | paths _ => cases ha
  | dims _ => cases ha

theorem reduceSeq_succ [Semiring K] : ∀ (as bs : List (SVal K)), as.map kind = bs.map kind → (∀ a ∈ as, (kind a).isSome = true) →
    ∃ cs, reduceSeq as bs = .ok cs ∧ cs.map kind = as.map kind
  | [], [], _, _ => ⟨[], rfl, rfl⟩
  | [], _ :: _, h, _ => by simp at h
  | _ :: _, [], h, _ => by simp at h
  | a :: as, b :: bs, h, ha => by
    simp only [List.map_cons, List.cons.injEq] at h
    obtain ⟨c, h1, h2⟩ := addVal_succ h.1 (ha a List.mem_cons_self)
    obtain ⟨cs, h3, h4⟩ := reduceSeq_succ as bs h.2 fun x hx => ha x (List.mem_cons_of_mem _ hx)
    exact ⟨c :: cs, by simp only [reduceSeq, h1, h3], by simp only [List.map_cons, h2, h4]⟩

theorem isSome_of_map {as bs : List (SVal K)} (h : as.map kind = bs.map kind) (hb : ∀ b ∈ bs, (kind b).isSome = true) : ∀ a ∈ as, (kind a).isSome = true := by
  intro a ha
  have : kind a ∈ bs.map kind := by rw [← h]; exact List.mem_map.2 ⟨a, ha, rfl⟩
  obtain ⟨b, h1, h2⟩ := List.mem_map.1 this
  rw [← h2]
  exact hb b h1

theorem reduceAll_succ [Semiring K] : ∀ (rest : List (List (SVal K))) (first : List (SVal K)), (∀ l ∈ rest, l.map kind = first.map kind) →
    (∀ a ∈ first, (kind a).isSome = true) → ∃ cs, reduceAll first rest = .ok cs
  | [], first, _, _ => ⟨first, rfl⟩
  | l :: rest, first, h, ha => by
    obtain ⟨cs, h1, h2⟩ := reduceSeq_succ first l (h l List.mem_cons_self).symm ha
    obtain ⟨ds, h3⟩ := reduceAll_succ rest cs (fun l' hl' => by rw [h l' (List.mem_cons_of_mem _ hl'), h2]) (isSome_of_map h2 ha)
    exact ⟨ds, by simp only [reduceAll, h1, h3]⟩

theorem syncTree_succ (s : LState K) : ∀ (names : List PyStr), (∀ n ∈ names, ∃ d, s.getAttr n = .ok d) → ∃ t, syncTree s names = .ok t
  | [], _ => ⟨[], rfl⟩
  | n :: names, h => by
    obtain ⟨d, hd⟩ := h n List.mem_cons_self
    obtain ⟨t, ht⟩ := syncTree_succ s names fun k hk => h k (List.mem_cons_of_mem _ hk)
    exact ⟨(n, .node d) :: t, by simp only [syncTree, hd, ht]⟩

theorem syncTrees_succ : ∀ (ss : List (LState K)), (∀ s ∈ ss, ∃ t, syncTree s s.toSync = .ok t) → ∃ ts, syncTrees ss = .ok ts
  | [], _ => ⟨[], rfl⟩
  | s :: ss, h => by
    obtain ⟨t, ht⟩ := h s List.mem_cons_self
    obtain ⟨ts, hts⟩ := syncTrees_succ ss fun k hk => h k (List.mem_cons_of_mem _ hk)
    exact ⟨t :: ts, by simp only [syncTrees, ht, hts]⟩

theorem syncTree_kinds {s u : LState K} : ∀ {names : List PyStr} {t v : StateDict K}, syncTree s names = .ok t → syncTree u names = .ok v →
    (∀ n ∈ names, ∀ d e, s.getAttr n = .ok d → u.getAttr n = .ok e → (treeVals d).map kind = (treeVals e).map kind) →
    (treeVals t).map kind = (treeVals v).map kind := by
  intro names
  induction names with
  | nil => intro t v h1 h2 _; cases h1; cases h2; rfl
  | cons k rest ih =>
    intro t v h1 h2 h
    simp only [syncTree] at h1 h2
    split at h1
    · next d t' a1 a2 =>
      cases h1
      split at h2
      · next e v' b1 b2 =>
        cases h2
        rw [treeVals_cons, treeVals_cons, List.map_append, List.map_append, valsN_node, valsN_node, h k List.mem_cons_self d e a1 b1,
          ih a2 b2 fun n hn => h n (List.mem_cons_of_mem _ hn)]
      · cases h2
    · cases h1

theorem syncTree_some {s : LState K} : ∀ {names : List PyStr} {t : StateDict K}, syncTree s names = .ok t →
    (∀ n ∈ names, ∀ d, s.getAttr n = .ok d → ∀ a ∈ treeVals d, (kind a).isSome = true) → ∀ a ∈ treeVals t, (kind a).isSome = true := by
  intro names
  induction names with
  | nil => intro t h _ a ha; cases h; cases ha
  | cons k rest ih =>
    intro t h1 h a ha
    simp only [syncTree] at h1
    split at h1
    · next d t' a1 a2 =>
      cases h1
      rw [treeVals_cons, valsN_node, List.mem_append] at ha
      rcases ha with ha | ha
      · exact h k List.mem_cons_self d a1 a ha
      · exact ih a2 (fun n hn => h n (List.mem_cons_of_mem _ hn)) a ha
    · cases h1

/-- The kinds of the values of a statistic and its counter, from the layout. -/
theorem stat_kinds [Field K] (L : Lib K) {p : Plugin} {st cn : PyStr} {z : Nat → List Nat} {term : (Nat → K) → List Nat → K}
    (S : StatOf p st cn z term) (hb : (st, cn) ∈ basePairs) {width : PyStr → LogType → Nat} {dev : PyStr → LogType → Dev} {off : Bool}
    {cs : List (Plugin × StatCall K)} {s : LState K} (h : Spec.Regular width dev off cs) (hs : updates L .init cs = .ok s) :
    ∃ d e, s.getAttr st = .ok d ∧ s.getAttr cn = .ok e ∧ (Nested.node d).WF ∧ (Nested.node e).WF ∧
      skelD d = ((Spec.order p cs).map fun ml => (ml.1, ml.2.name)).foldl sset2 [] ∧
      skelD e = ((Spec.order p cs).map fun ml => (ml.1, ml.2.name)).foldl sset2 [] ∧
      (∀ q x, (Nested.node d).lookup q = some x → ∃ m lt, q = [m, LogType.name lt] ∧ kind x = some (some (z (width m lt)))) ∧
      ∀ q x, (Nested.node e).lookup q = some x → kind x = some none := by
  obtain ⟨i1, i2⟩ := init_getAttr (K := K) hb
  obtain ⟨d, e, a1, a2, y1, y2⟩ := updates_skel L S hs i1 i2
  obtain ⟨d', e', a1', a2', I⟩ := updates_inv L S hs i1 i2
  obtain rfl := Except.ok.inj (a1.symm.trans a1')
  obtain rfl := Except.ok.inj (a2.symm.trans a2')
  rw [order_foldl] at y1 y2
  have empty : (Nested.node (skelD ([] : StateDict K))).WF := by rw [WF_node_iff]; simp [skelD, Dict.keys]
  have wfD : (Nested.node d).WF := by
    rw [← WF_skelN, skelN, y1]
    exact foldl_sset2_wf _ empty
  have wfE : (Nested.node e).WF := by
    rw [← WF_skelN, skelN, y2]
    exact foldl_sset2_wf _ empty
  have path : ∀ {d : StateDict K} {x : SVal K} {q : Path}, skelD d = ((Spec.order p cs).map fun ml => (ml.1, ml.2.name)).foldl sset2 (skelD ([] : StateDict K)) →
      (Nested.node d).lookup q = some x → ∃ m lt, q = [m, LogType.name lt] ∧ (m, lt) ∈ Spec.order p cs := by
    intro d x q hd hx
    have h1 := skelN_lookup (.node d) q
    rw [hx, skelN, hd] at h1
    rcases foldl_sset2_lookup _ _ _ h1 with ⟨a, ha, rfl⟩ | h2
    · obtain ⟨ml, hml, rfl⟩ := List.mem_map.1 ha
      exact ⟨ml.1, ml.2, rfl, hml⟩
    · cases q <;> cases h2
  have vals : ∀ m lt, (m, lt) ∈ Spec.order p cs → ∃ t n, (Nested.node d).lookup [m, LogType.name lt] = some (.tensor t) ∧ t.shape = z (width m lt) ∧
      (Nested.node e).lookup [m, LogType.name lt] = some (.num n) := by
    intro m lt hm
    rw [mem_order] at hm
    obtain ⟨t0, n0, t, W, hz, hw, hs0, hsU, k1, k2, hv⟩ := (I m lt).cons hm
    obtain ⟨c, hc⟩ := List.exists_mem_of_ne_nil _ hm
    have hW : W = width m lt := by
      rw [← hw c hc]
      unfold Spec.callsOf at hc
      obtain ⟨pc, h1, rfl⟩ := List.mem_map.1 hc
      obtain ⟨h1, h2⟩ := List.mem_filter.1 h1
      simp only [decide_eq_true_eq] at h2
      rw [h.width pc h1, h2.2.1, h2.2.2]
    exact ⟨t, _, lookup_item2 k1, by rw [hsU, hW], lookup_item2 k2⟩
  refine ⟨d, e, a1, a2, wfD, wfE, y1, y2, fun q x hx => ?_, fun q x hx => ?_⟩
  · obtain ⟨m, lt, rfl, hm⟩ := path y1 hx
    obtain ⟨t, n, h1, h2, -⟩ := vals m lt hm
    obtain rfl := Option.some.inj (hx.symm.trans h1)
    exact ⟨m, lt, rfl, by rw [kind, h2]⟩
  · obtain ⟨m, lt, rfl, hm⟩ := path y2 hx
    obtain ⟨t, n, -, -, h1⟩ := vals m lt hm
    obtain rfl := Option.some.inj (hx.symm.trans h1)
    rfl

theorem kinds_of_lookup {d e : StateDict K} (hw : (Nested.node d).WF) (hs : skelD d = skelD e)
    (h : ∀ q x y, (Nested.node d).lookup q = some x → (Nested.node e).lookup q = some y → kind x = kind y) :
    (treeVals d).map kind = (treeVals e).map kind := by
  refine (same_D kind d e hw hs fun k ks => ?_).1
  have h5 := skelN_lookup (.node e) (k :: ks)
  rw [skelN, ← hs, ← skelN, skelN_lookup] at h5
  cases hd : (Nested.node d).lookup (k :: ks) with
  | none =>
    rw [hd] at h5
    cases he : (Nested.node e).lookup (k :: ks) with
    | none => rfl
    | some _ => rw [he] at h5; cases h5
  | some x =>
    rw [hd] at h5
    cases he : (Nested.node e).lookup (k :: ks) with
    | none => rw [he] at h5; cases h5
    | some y => simp only [Option.map_some, h _ _ _ hd he]

theorem some_of_lookup {d : StateDict K} (hw : (Nested.node d).WF) (h : ∀ q x, (Nested.node d).lookup q = some x → (kind x).isSome = true) :
    ∀ a ∈ treeVals d, (kind a).isSome = true := by
  intro a ha
  obtain ⟨pa, h1, rfl⟩ := List.mem_map.1 ha
  exact h pa.1 pa.2 ((leaves_spec (.node d) hw).2 pa h1)

end Logix
