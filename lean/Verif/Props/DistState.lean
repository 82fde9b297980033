/-
C98: a distributed run leaves every process in the state of a single process that logs all the data.
-/
import Verif.Lemmas.DistState
import Verif.Props.Restore
import Verif.Props.Formula

set_option linter.unusedSectionVars false
namespace Logix
variable {K : Type}

theorem cluster_pair {α β : Type} {R : α → β → Prop} {as : List α} {bs : List β} (h : List.Forall₂ R as bs) {i : Nat} {b : β} (hb : bs[i]? = some b) :
    ∃ a, as[i]? = some a ∧ R a b := by
  have hlen := h.length_eq
  obtain ⟨hi, hb⟩ := List.getElem?_eq_some_iff.1 hb
  have := (List.forall₂_iff_get.1 h).2 i (by omega) hi
  refine ⟨as[i]'(by omega), List.getElem?_eq_getElem _, ?_⟩
  rw [← hb]
  simpa using this

theorem cluster_runs [Semiring K] (L : Lib K) {width : PyStr → LogType → Nat} {dev : Nat → PyStr → LogType → Dev} {off : Bool} :
    ∀ {css : List (List (Plugin × StatCall K))}, (∀ cs ∈ css, ∃ i, Spec.Regular width (dev i) off cs) →
    ∃ ss, List.Forall₂ (fun cs s => updates L .init cs = .ok s) css ss
  | [], _ => ⟨[], .nil⟩
  | cs :: css, h => by
    obtain ⟨i, hi⟩ := h cs List.mem_cons_self
    obtain ⟨s, h1, -⟩ := ready_updates L hi ready_init
    obtain ⟨ss, h2⟩ := cluster_runs L (css := css) fun c hc => h c (List.mem_cons_of_mem _ hc)
    exact ⟨s :: ss, .cons h1 h2⟩

theorem cluster_plugins {width : PyStr → LogType → Nat} {dev : Nat → PyStr → LogType → Dev} {off : Bool} {css : List (List (Plugin × StatCall K))}
    (hC : Spec.Cluster width dev off css) : ∀ cs ∈ css, ∀ pc ∈ cs, pc.1 = .log ∨ pc.1 = .mean ∨ pc.1 = .covariance := fun cs hcs => by
  obtain ⟨j, hj⟩ := List.getElem?_of_mem hcs
  exact (hC.regular j cs hj).plugin

/-- The collectives of a cluster fit together. -/
theorem cluster_sync [Field K] (L : Lib K) {width : PyStr → LogType → Nat} {dev : Nat → PyStr → LogType → Dev} {off : Bool}
    {css : List (List (Plugin × StatCall K))} {ss : List (LState K)} (hC : Spec.Cluster width dev off css)
    (hrun : List.Forall₂ (fun cs s => updates L .init cs = .ok s) css ss) : ∃ ss₁, synchronize ss = .ok ss₁ := by
  obtain ⟨hsync, hskel⟩ := sync_layout L hrun (cluster_plugins hC) hC.order
  have pair : ∀ s ∈ ss, ∃ i cs, Spec.Regular width (dev i) off cs ∧ updates L .init cs = .ok s := fun s hs => by
    obtain ⟨i, hi⟩ := List.getElem?_of_mem hs
    obtain ⟨cs, h1, h2⟩ := cluster_pair hrun hi
    exact ⟨i, cs, hC.regular i cs h1, h2⟩
  have names : ∀ {n : PyStr}, n ∈ [nMean, nMeanCounter, nCov, nCovCounter] → (n = nMean ∨ n = nMeanCounter) ∨ n = nCov ∨ n = nCovCounter := by
    intro n hn
    simp only [List.mem_cons, List.not_mem_nil, or_false] at hn
    rcases hn with h | h | h | h
    · exact .inl (.inl h)
    · exact .inl (.inr h)
    · exact .inr (.inl h)
    · exact .inr (.inr h)
  -- every synchronized attribute, with what is in it
  have attr : ∀ s ∈ ss, ∀ n ∈ [nMean, nMeanCounter, nCov, nCovCounter], ∃ d, s.getAttr n = .ok d ∧ (Nested.node d).WF ∧
      ∀ q x, (Nested.node d).lookup q = some x → (kind x).isSome = true := by
    intro s hs n hn
    obtain ⟨i, cs, h1, h2⟩ := pair s hs
    rcases names hn with hn | hn
    · obtain ⟨d, e, a1, a2, a3, a4, -, -, a5, a6⟩ := stat_kinds L statOf_mean (by decide) h1 h2
      rcases hn with rfl | rfl
      · exact ⟨d, a1, a3, fun q x hx => by obtain ⟨m, lt, -, h⟩ := a5 q x hx; rw [h]; rfl⟩
      · exact ⟨e, a2, a4, fun q x hx => by rw [a6 q x hx]; rfl⟩
    · obtain ⟨d, e, a1, a2, a3, a4, -, -, a5, a6⟩ := stat_kinds L statOf_cov (by decide) h1 h2
      rcases hn with rfl | rfl
      · exact ⟨d, a1, a3, fun q x hx => by obtain ⟨m, lt, -, h⟩ := a5 q x hx; rw [h]; rfl⟩
      · exact ⟨e, a2, a4, fun q x hx => by rw [a6 q x hx]; rfl⟩
  have same : ∀ s ∈ ss, ∀ u ∈ ss, ∀ n ∈ [nMean, nMeanCounter, nCov, nCovCounter], ∀ d e, s.getAttr n = .ok d → u.getAttr n = .ok e →
      (treeVals d).map kind = (treeVals e).map kind := by
    intro s hs u hu n hn d e hd he
    obtain ⟨d', hd', hw, -⟩ := attr s hs n hn
    obtain rfl := Except.ok.inj (hd.symm.trans hd')
    refine kinds_of_lookup hw (hskel s hs u hu n hn d e hd he) fun q x y hx hy => ?_
    obtain ⟨i, cs, h1, h2⟩ := pair s hs
    obtain ⟨j, cs', h1', h2'⟩ := pair u hu
    have main : ∀ {p : Plugin} {st cn : PyStr} {z : Nat → List Nat} {term : (Nat → K) → List Nat → K}, StatOf p st cn z term → (st, cn) ∈ basePairs →
        (n = st ∨ n = cn) → kind x = kind y := by
      intro p st cn z term S hb hn
      obtain ⟨d₁, e₁, a1, a2, -, -, -, -, a5, a6⟩ := stat_kinds L S hb h1 h2
      obtain ⟨d₂, e₂, b1, b2, -, -, -, -, b5, b6⟩ := stat_kinds L S hb h1' h2'
      rcases hn with rfl | rfl
      · obtain rfl := Except.ok.inj (hd.symm.trans a1)
        obtain rfl := Except.ok.inj (he.symm.trans b1)
        obtain ⟨m, lt, rfl, hk⟩ := a5 q x hx
        obtain ⟨m', lt', hq, hk'⟩ := b5 _ y hy
        simp only [List.cons.injEq, and_true] at hq
        obtain ⟨rfl, hq⟩ := hq
        rw [hk, hk', logTypeName_inj hq]
      · obtain rfl := Except.ok.inj (hd.symm.trans a2)
        obtain rfl := Except.ok.inj (he.symm.trans b2)
        rw [a6 q x hx, b6 q y hy]
    rcases names hn with hn | hn
    · exact main statOf_mean (by decide) hn
    · exact main statOf_cov (by decide) hn
  obtain ⟨ts, hts⟩ := syncTrees_succ ss fun s hs => syncTree_succ s _ fun n hn => by
    rw [hsync s hs] at hn
    obtain ⟨d, hd, -⟩ := attr s hs n hn
    exact ⟨d, hd⟩
  obtain ⟨hlen, htree⟩ := syncTrees_ok hts
  unfold synchronize
  simp only [hts]
  cases ts with
  | nil => exact ⟨[], rfl⟩
  | cons t ts =>
    have tree : ∀ v ∈ t :: ts, ∃ s ∈ ss, syncTree s [nMean, nMeanCounter, nCov, nCovCounter] = .ok v := by
      intro v hv
      obtain ⟨i, hi⟩ := List.getElem?_of_mem hv
      have hi' : i < ss.length := by rw [← hlen]; exact (List.getElem?_eq_some_iff.1 hi).1
      obtain ⟨v', h1, h2⟩ := htree i ss[i] (List.getElem?_eq_getElem hi')
      obtain rfl := Option.some.inj (hi.symm.trans h1)
      exact ⟨ss[i], List.getElem_mem hi', by rw [← hsync _ (List.getElem_mem hi')]; exact h2⟩
    obtain ⟨s, hs, hst⟩ := tree t List.mem_cons_self
    obtain ⟨cs, hcs⟩ := reduceAll_succ (ts.map treeVals) (treeVals t)
      (fun l hl => by
        obtain ⟨v, hv, rfl⟩ := List.mem_map.1 hl
        obtain ⟨u, hu, hut⟩ := tree v (List.mem_cons_of_mem _ hv)
        exact syncTree_kinds hut hst fun n hn d e hd he => same u hu s hs n hn d e hd he)
      (syncTree_some hst fun n hn d hd => by
        obtain ⟨d', hd', hw, hk⟩ := attr s hs n hn
        obtain rfl := Except.ok.inj (hd.symm.trans hd')
        exact some_of_lookup hw hk)
    simp only [hcs]
    exact ⟨_, rfl⟩

theorem normalizeAll_succ [Field K] : ∀ (ss : List (LState K)), (∀ s ∈ ss, ∃ s', s.normalize = .ok s') → ∃ ss', normalizeAll ss = .ok ss'
  | [], _ => ⟨[], rfl⟩
  | s :: ss, h => by
    obtain ⟨s', h1⟩ := h s List.mem_cons_self
    obtain ⟨ss', h2⟩ := normalizeAll_succ ss fun u hu => h u (List.mem_cons_of_mem _ hu)
    exact ⟨s' :: ss', by simp only [normalizeAll, h1, h2]⟩

theorem moved_same {dev : PyStr → LogType → Dev} : ∀ {calls : List (Plugin × StatCall K)},
    (∀ pc ∈ calls, pc.2.data.dev = dev pc.2.name pc.2.logType) → calls.map (Spec.movedTo dev) = calls
  | [], _ => rfl
  | (p, c) :: rest, h => by
    have h1 := h (p, c) List.mem_cons_self
    rw [List.map_cons, moved_same fun pc hpc => h pc (List.mem_cons_of_mem _ hpc)]
    congr 1
    unfold Spec.movedTo Tensor.onDev
    simp only at h1 ⊢
    rw [← h1]

/-- The states of a cluster before they are normalised. -/
theorem cluster_states [Field K] (L : Lib K) {width : PyStr → LogType → Nat} {dev : Nat → PyStr → LogType → Dev} {off : Bool}
    {css : List (List (Plugin × StatCall K))} {ss : List (LState K)} (hC : Spec.Cluster width dev off css)
    (hrun : List.Forall₂ (fun cs s => updates L .init cs = .ok s) css ss) :
    ∃ ss₁, (if 1 < ss.length then synchronize ss else .ok ss) = .ok ss₁ ∧ ss₁.length = css.length ∧ ∀ (i : Nat) (s₁ : LState K), ss₁[i]? = some s₁ →
      updates L .init (css.flatten.map (Spec.movedTo (dev i))) = .ok s₁ := by
  have hlen := hrun.length_eq
  split
  · obtain ⟨ss₁, h1⟩ := cluster_sync L hC hrun
    obtain ⟨hsync, hskel⟩ := sync_layout L hrun (cluster_plugins hC) hC.order
    obtain ⟨l1, sync⟩ := synchronize_ok hsync (by decide) hskel h1
    refine ⟨ss₁, h1, by omega, fun i s₁ hi => ?_⟩
    obtain ⟨u, hu, -⟩ := ready_updates L (cluster_moved hC i) ready_init
    rw [hu]
    obtain ⟨m1, m2⟩ := sync_tables L statOf_mean (by decide) hC hrun h1 hi hu
    obtain ⟨c1, c2⟩ := sync_tables L statOf_cov (by decide) hC hrun h1 hi hu
    obtain ⟨s, k1, k2, k3, k4, k5, k6, k7, k8, -⟩ := sync i s₁ hi
    obtain ⟨cs, j1, j2⟩ := cluster_pair hrun k1
    have P := plain_updates L (hC.regular i cs j1).plugin plain_init j2
    have P₁ : PlainState s₁ := ⟨k4.trans P.states, k5.trans P.toSync, k3.trans P.toSave, k2.trans P.toNormalize, k6.trans P.notClear, k7.trans P.keys,
      (k8 _ (by decide)).trans P.module⟩
    rw [P₁.eq (plain_updates L (cluster_moved hC i).plugin plain_init hu) ?_]
    intro n hn
    simp only [List.mem_cons, List.not_mem_nil, or_false] at hn
    rcases hn with rfl | rfl | rfl | rfl
    · exact m1
    · exact m2
    · exact c1
    · exact c2
  · next hw =>
    refine ⟨ss, rfl, hlen.symm, fun i s₁ hi => ?_⟩
    obtain ⟨cs, h1, h2⟩ := cluster_pair hrun hi
    have hi' := (List.getElem?_eq_some_iff.1 hi).1
    obtain rfl : i = 0 := by omega
    match css, h1 with
    | [cs'], h1 =>
      obtain rfl : cs' = cs := by simpa using h1
      rw [List.flatten_cons, List.flatten_nil, List.append_nil, moved_same (hC.regular 0 cs' h1).dev]
      exact h2
    | _ :: _ :: _, _ => simp at hlen; omega

/-- **C98.** Any number of processes: if they log batches of the same quantities, met in the same order, then `finalize` succeeds, and the state it leaves on
each of them is, in every part, the state in which a single process is left by logging all the batches on that process's devices and finalizing. The
process of rank 0 saves what the single process saves. -/
theorem C98_same_state [Field K] (L : Lib K) {width : PyStr → LogType → Nat} {dev : Nat → PyStr → LogType → Dev} {off : Bool}
    {css : List (List (Plugin × StatCall K))} (hC : Spec.Cluster width dev off css) (dir : StateDir K) :
    ∃ ss ss' dir', List.Forall₂ (fun cs s => updates L .init cs = .ok s) css ss ∧ finalizeDist ss dir = .ok (ss', dir') ∧ ss'.length = css.length ∧
      ∀ (i : Nat) (s' : LState K), ss'[i]? = some s' → ∃ u dir₁, updates L .init (css.flatten.map (Spec.movedTo (dev i))) = .ok u ∧
        u.finalize dir = .ok (s', dir₁) ∧ (i = 0 → dir₁ = dir') := by
  obtain ⟨ss, hrun⟩ := cluster_runs L (css := css) (dev := dev) (width := width) (off := off) fun cs hcs => by
    obtain ⟨j, hj⟩ := List.getElem?_of_mem hcs
    exact ⟨j, hC.regular j cs hj⟩
  obtain ⟨ss₁, h1, hl, h2⟩ := cluster_states L hC hrun
  have fin : ∀ (i : Nat) (s₁ : LState K), ss₁[i]? = some s₁ → ∃ s' dir₁, s₁.normalize = .ok s' ∧ s'.saveState dir = .ok dir₁ ∧
      s₁.finalize dir = .ok (s', dir₁) := by
    intro i s₁ hi
    obtain ⟨u, hu, hr⟩ := ready_updates L (cluster_moved hC i) ready_init
    obtain rfl := Except.ok.inj (hu.symm.trans (h2 i s₁ hi))
    obtain ⟨s', dir₁, hf⟩ := ready_finalize hr dir
    have hf' := hf
    unfold LState.finalize at hf
    split at hf
    · cases hf
    · next s2 hs2 =>
      split at hf
      · cases hf
      · next dir2 hdir =>
        cases hf
        exact ⟨s', dir₁, hs2, hdir, hf'⟩
  obtain ⟨ss', h3⟩ := normalizeAll_succ ss₁ fun s hs => by
    obtain ⟨i, hi⟩ := List.getElem?_of_mem hs
    obtain ⟨s', -, h, -⟩ := fin i s hi
    exact ⟨s', h⟩
  obtain ⟨hl', h4⟩ := normalizeAll_ok h3
  have each : ∀ (i : Nat) (s' : LState K), ss'[i]? = some s' → ∃ u dir₁, updates L .init (css.flatten.map (Spec.movedTo (dev i))) = .ok u ∧
      u.finalize dir = .ok (s', dir₁) ∧ s'.saveState dir = .ok dir₁ := by
    intro i s' hi
    obtain ⟨s₁, g1, g2⟩ := h4 i s' hi
    obtain ⟨s2, dir₁, g3, g4, g5⟩ := fin i s₁ g1
    obtain rfl := Except.ok.inj (g2.symm.trans g3)
    exact ⟨s₁, dir₁, h2 i s₁ g1, g5, g4⟩
  have key : ∃ dir', finalizeDist ss dir = .ok (ss', dir') ∧ ∀ s', ss'[0]? = some s' → s'.saveState dir = .ok dir' := by
    unfold finalizeDist
    simp only [h1, h3]
    cases ss' with
    | nil => exact ⟨dir, rfl, fun s' h => by simp at h⟩
    | cons s' rest =>
      obtain ⟨u, dir₁, -, -, g⟩ := each 0 s' rfl
      simp only [g]
      refine ⟨dir₁, rfl, fun s2 h => ?_⟩
      simp only [List.getElem?_cons_zero, Option.some.injEq] at h
      rw [← h]; exact g
  obtain ⟨dir', k1, k2⟩ := key
  refine ⟨ss, ss', dir', hrun, k1, by omega, fun i s' hi => ?_⟩
  obtain ⟨u, dir₁, g1, g2, g3⟩ := each i s' hi
  refine ⟨u, dir₁, g1, g2, fun h0 => ?_⟩
  subst h0
  exact Except.ok.inj (g3.symm.trans (k2 s' hi))

/-! ### Scores -/

theorem forall₂_updates_unique [Semiring K] {L : Lib K} : ∀ {css : List (List (Plugin × StatCall K))} {ss ss' : List (LState K)},
    List.Forall₂ (fun cs s => updates L .init cs = .ok s) css ss → List.Forall₂ (fun cs s => updates L .init cs = .ok s) css ss' → ss = ss'
  | _, _, _, .nil, .nil => rfl
  | _, _, _, .cons a as, .cons b bs => by
    rw [forall₂_updates_unique as bs, Except.ok.inj (a.symm.trans b)]

/-- In a distributed run, every process ends in a state in which a single process ends that logs everything. -/
theorem C98_finalized [Field K] [LE K] {L : Lib K} {width : PyStr → LogType → Nat} {dev : Nat → PyStr → LogType → Dev} {off : Bool}
    {css : List (List (Plugin × StatCall K))} {ss : List (LState K)} {i : Nat} {s : LState K} (hC : Spec.Cluster width dev off css)
    (hf : Spec.FinalizedAll L css ss) (hi : ss[i]? = some s) : Spec.Finalized L (css.flatten.map (Spec.movedTo (dev i))) s := by
  obtain ⟨hm, ss₀, dir, dir', hrun, hfin⟩ := hf
  obtain ⟨ss₁, ss', dir₁, h1, h2, -, h3⟩ := C98_same_state L hC dir
  obtain rfl := forall₂_updates_unique hrun h1
  have h2' := Except.ok.inj (hfin.symm.trans h2)
  rw [Prod.mk.injEq] at h2'
  obtain ⟨rfl, rfl⟩ := h2'
  obtain ⟨u, dir₂, g1, g2, -⟩ := h3 i s hi
  refine ⟨(cluster_moved hC i).plugin, fun pc hpc m hmask x hx => ?_, u, dir, dir₂, g1, g2⟩
  obtain ⟨pc', h4, rfl⟩ := List.mem_map.1 hpc
  obtain ⟨cs, h5, h6⟩ := List.mem_flatten.1 h4
  exact hm cs h5 pc' h6 m hmask x hx

section Scores
variable [Field K]

theorem callsOf_moved_nil (dev : PyStr → LogType → Dev) (p : Plugin) (m : PyStr) (lt : LogType) (calls : List (Plugin × StatCall K)) :
    Spec.callsOf p m lt (calls.map (Spec.movedTo dev)) = [] ↔ Spec.callsOf p m lt calls = [] := by
  rw [callsOf_moved, List.map_eq_nil_iff]

theorem allRows_moved (dev : StatCall K → Dev) (cs : List (StatCall K)) :
    Spec.allRows (cs.map fun c => { c with data := c.data.onDev (dev c) }) = Spec.allRows cs := by
  unfold Spec.allRows
  rw [List.flatMap_map]
  rfl

theorem samples_moved (dev : StatCall K → Dev) (cs : List (StatCall K)) :
    Spec.samples (cs.map fun c => { c with data := c.data.onDev (dev c) }) = Spec.samples cs := by
  unfold Spec.samples
  rw [List.map_map]
  rfl

theorem sameLogged_moved (dev dev' : PyStr → LogType → Dev) {calls calls' : List (Plugin × StatCall K)} {m : PyStr} {lt : LogType}
    (h : Spec.SameLogged calls calls' m lt) : Spec.SameLogged (calls.map (Spec.movedTo dev)) (calls'.map (Spec.movedTo dev')) m lt := by
  refine ⟨⟨mt (callsOf_moved_nil dev _ _ _ _).1 h.some.1, mt (callsOf_moved_nil dev' _ _ _ _).1 h.some.2⟩, ?_, ?_, ?_, ?_⟩
  · intro c hc
    rw [callsOf_moved, callsOf_moved] at hc
    rcases List.mem_append.1 hc with hc | hc
    · obtain ⟨c', h1, rfl⟩ := List.mem_map.1 hc
      exact h.nomask c' (List.mem_append_left _ h1)
    · obtain ⟨c', h1, rfl⟩ := List.mem_map.1 hc
      exact h.nomask c' (List.mem_append_right _ h1)
  · rw [callsOf_moved, callsOf_moved, allRows_moved, allRows_moved]
    exact h.rows
  · intro c hc c' hc'
    rw [callsOf_moved] at hc hc'
    obtain ⟨c₁, h1, rfl⟩ := List.mem_map.1 hc
    obtain ⟨c₂, h2, rfl⟩ := List.mem_map.1 hc'
    exact h.width c₁ h1 c₂ h2
  · rw [callsOf_moved, callsOf_moved, samples_moved, samples_moved]
    exact h.samples

theorem sameStatData_moved (dev dev' : PyStr → LogType → Dev) {calls calls' : List (Plugin × StatCall K)} {keys : List PyStr} {hessian : Hess}
    (h : Spec.SameStatData calls calls' keys hessian) :
    Spec.SameStatData (calls.map (Spec.movedTo dev)) (calls'.map (Spec.movedTo dev')) keys hessian := by
  rcases h with ⟨h1, h2⟩ | ⟨h1, h2⟩
  · refine .inl ⟨?_, fun m hm => ⟨sameLogged_moved dev dev' (h2 m hm).1, sameLogged_moved dev dev' (h2 m hm).2⟩⟩
    rcases h1 with h1 | ⟨h1, h3⟩
    · exact .inl h1
    · exact .inr ⟨h1, fun m hm => ⟨(callsOf_moved_nil dev _ _ _ _).2 (h3 m hm).1, (callsOf_moved_nil dev' _ _ _ _).2 (h3 m hm).2⟩⟩
  · exact .inr ⟨h1, fun m hm => sameLogged_moved dev dev' (h2 m hm)⟩

theorem logged_moved (dev : PyStr → LogType → Dev) {calls : List (Plugin × StatCall K)} {m : PyStr} {lt : LogType} (h : Spec.Logged calls m lt) :
    Spec.Logged (calls.map (Spec.movedTo dev)) m lt := by
  refine ⟨mt (callsOf_moved_nil dev _ _ _ _).1 h.1, fun c hc => ?_⟩
  rw [callsOf_moved] at hc
  obtain ⟨c', h1, rfl⟩ := List.mem_map.1 hc
  exact h.2 c' h1

theorem loggedAll_moved (dev : PyStr → LogType → Dev) {calls : List (Plugin × StatCall K)} {keys : List PyStr} {hessian : Hess}
    (h : Spec.LoggedAll calls keys hessian) : Spec.LoggedAll (calls.map (Spec.movedTo dev)) keys hessian := by
  rcases h with ⟨h1, h2⟩ | ⟨h1, h2⟩
  · refine .inl ⟨?_, fun m hm => ⟨logged_moved dev (h2 m hm).1, logged_moved dev (h2 m hm).2⟩⟩
    rcases h1 with h1 | ⟨h1, h3⟩
    · exact .inl h1
    · exact .inr ⟨h1, fun m hm => (callsOf_moved_nil dev _ _ _ _).2 (h3 m hm)⟩
  · exact .inr ⟨h1, fun m hm => logged_moved dev (h2 m hm)⟩

theorem secondMoment_moved (dev : PyStr → LogType → Dev) (calls : List (Plugin × StatCall K)) :
    Spec.secondMoment (calls.map (Spec.movedTo dev)) = Spec.secondMoment calls := by
  funext m lt i j
  unfold Spec.secondMoment
  rw [callsOf_moved, allRows_moved, samples_moved]

theorem solves_moved (dev : PyStr → LogType → Dev) (calls : List (Plugin × StatCall K)) (hessian : Hess) (c : K) (d : GLog K) (i : Nat) (m : PyStr)
    (x : List Nat → K) : Spec.Solves (calls.map (Spec.movedTo dev)) hessian c d i m x ↔ Spec.Solves calls hessian c d i m x := by
  unfold Spec.Solves Spec.SolvesRaw Spec.SolvesKfac
  simp only [secondMoment_moved, ne_eq, callsOf_moved_nil]

end Scores

section Ordered
variable [Field K] [LinearOrder K] [IsStrictOrderedRing K]

/-- **C98**, scores. Two distributed runs, with any numbers of processes and on any devices, log the same data for the covariances, split among the
processes in any way. Then `compute_influence` gives the same scores on every process of the one as on every process of the other, for the same sources
and targets, any mode, groups and positive damping. -/
theorem C98_scores {L L' : Lib K} {sqrt : K → K} {width width' : PyStr → LogType → Nat} {dev dev' : Nat → PyStr → LogType → Dev} {off off' : Bool}
    {css css' : List (List (Plugin × StatCall K))} {ss ss' : List (LState K)} {i j : Nat} {s s' u u' : LState K} {srcIds tgtIds : List PyStr} {d e : GLog K}
    {mode : Mode} {pre : Bool} {hessian : Hess} {groups : Option (List PyStr)} {c : K} {r r' : IFResult K}
    (hE : Spec.EighOk L) (hE' : Spec.EighOk L') (hI : Spec.InverseOk L) (hI' : Spec.InverseOk L')
    (hC : Spec.Cluster width dev off css) (hC' : Spec.Cluster width' dev' off' css') (hf : Spec.FinalizedAll L css ss) (hf' : Spec.FinalizedAll L' css' ss')
    (hi : ss[i]? = some s) (hj : ss'[j]? = some s') (hdata : Spec.SameStatData css.flatten css'.flatten (Dict.keys d) hessian) (hc : 0 < c)
    (hd : Spec.Labelled srcIds d) (he : Spec.Labelled tgtIds e) (hk : mode = .dot ∨ Dict.keys d = Dict.keys e)
    (h : computeInfluence L sqrt s srcIds (.dict d) tgtIds (.dict e) mode pre hessian groups (some c) = .ok (u, r))
    (h' : computeInfluence L' sqrt s' srcIds (.dict d) tgtIds (.dict e) mode pre hessian groups (some c) = .ok (u', r')) :
    r.srcIds = r'.srcIds ∧ r.tgtIds = r'.tgtIds ∧ ∀ k, k = ['t', 'o', 't', 'a', 'l'] ∨ k ∈ groups.getD [] →
      ∃ t, r.influence.get? k = some t ∧ r'.influence.get? k = some t :=
  C93_logged hE hE' hI hI' (C98_finalized hC hf hi) (C98_finalized hC' hf' hj) (sameStatData_moved _ _ hdata) hc hd he hk h h'

/-- **C98**, scores, self-influence. -/
theorem C98_scores_self {L L' : Lib K} {width width' : PyStr → LogType → Nat} {dev dev' : Nat → PyStr → LogType → Dev} {off off' : Bool}
    {css css' : List (List (Plugin × StatCall K))} {ss ss' : List (LState K)} {i j : Nat} {s s' u u' : LState K} {ids : List PyStr} {d : GLog K}
    {pre : Bool} {hessian : Hess} {groups : Option (List PyStr)} {c : K} {r r' : SelfResult K}
    (hE : Spec.EighOk L) (hE' : Spec.EighOk L') (hI : Spec.InverseOk L) (hI' : Spec.InverseOk L')
    (hC : Spec.Cluster width dev off css) (hC' : Spec.Cluster width' dev' off' css') (hf : Spec.FinalizedAll L css ss) (hf' : Spec.FinalizedAll L' css' ss')
    (hi : ss[i]? = some s) (hj : ss'[j]? = some s') (hdata : Spec.SameStatData css.flatten css'.flatten (Dict.keys d) hessian) (hc : 0 < c)
    (hd : Spec.Labelled ids d)
    (h : computeSelf L s ids (.dict d) pre hessian groups (some c) = .ok (u, r))
    (h' : computeSelf L' s' ids (.dict d) pre hessian groups (some c) = .ok (u', r')) :
    r.srcIds = r'.srcIds ∧ ∀ k, k = ['t', 'o', 't', 'a', 'l'] ∨ k ∈ groups.getD [] →
      ∃ t, r.influence.get? k = some t ∧ r'.influence.get? k = some t :=
  C93_logged_self hE hE' hI hI' (C98_finalized hC hf hi) (C98_finalized hC' hf' hj) (sameStatData_moved _ _ hdata) hc hd h h'

/-- **C98**, formula: on every process of a distributed run the scores are the influence function of what all the processes have logged. -/
theorem C98_formula {L : Lib K} {sqrt : K → K} {width : PyStr → LogType → Nat} {dev : Nat → PyStr → LogType → Dev} {off : Bool}
    {css : List (List (Plugin × StatCall K))} {ss : List (LState K)} {rank : Nat} {s u : LState K} {srcIds tgtIds : List PyStr} {d e : GLog K}
    {hessian : Hess} {c : K} {r : IFResult K} (hE : Spec.EighOk L) (hI : Spec.InverseOk L) (hC : Spec.Cluster width dev off css)
    (hf : Spec.FinalizedAll L css ss) (hs : ss[rank]? = some s) (hl : Spec.LoggedAll css.flatten (Dict.keys d) hessian) (hc : 0 < c)
    (hd : Spec.Labelled srcIds d) (he : Spec.Labelled tgtIds e)
    (h : computeInfluence L sqrt s srcIds (.dict d) tgtIds (.dict e) .dot true hessian none (some c) = .ok (u, r)) :
    ∃ t, r.influence = .one t ∧ r.srcIds = srcIds ∧ r.tgtIds = tgtIds ∧ t.shape = [srcIds.length, tgtIds.length] ∧ ∀ i, i < srcIds.length →
      (∃ x : PyStr → List Nat → K, ∀ m ∈ Dict.keys d, Spec.Solves css.flatten hessian c d i m (x m)) ∧
      ∀ x : PyStr → List Nat → K, (∀ m ∈ Dict.keys d, Spec.Solves css.flatten hessian c d i m (x m)) →
        ∀ j, j < tgtIds.length → t.el [i, j] = Spec.against x e j (Dict.keys d) := by
  have := C94_influence hE hI (C98_finalized hC hf hs) (loggedAll_moved _ hl) hc hd he h
  simpa only [solves_moved] using this

end Ordered

end Logix
