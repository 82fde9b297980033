/-
The order of quantities can be read off the state; sums over several processes.
-/
import Verif.Lemmas.DistState
import Verif.Spec.DistSession
import Verif.Props.DistState
import Verif.Props.SessionStats

set_option linter.unusedSectionVars false

namespace Logix
open Spec
variable {K : Type}

/-! ### The order of quantities -/

/-- The entries of a layout, in order. -/
def unroll (d : List (PyStr × Nested Unit)) : List (PyStr × PyStr) :=
  d.flatMap fun e => (match e.2 with | .node sub => Dict.keys sub | .leaf _ => []).map fun t => (e.1, t)

theorem unroll_append (d e : List (PyStr × Nested Unit)) : unroll (d ++ e) = unroll d ++ unroll e := by
  unfold unroll
  rw [List.flatMap_append]

theorem unroll_outline (d : StateDict K) : unroll (skelD d) = (outline d).flatMap fun e => e.2.map fun t => (e.1, t) := by
  induction d with
  | nil => rfl
  | cons e d ih =>
    obtain ⟨k, v⟩ := e
    unfold unroll outline at ih ⊢
    rw [skelD, List.flatMap_cons, ih, List.map_cons, List.flatMap_cons]
    congr 1
    cases v with
    | leaf _ => rfl
    | node sub => simp only [skelN, skelD_keys]

theorem set_last {α : Type} (d : List (PyStr × α)) (k : PyStr) (v w : α) (h : k ∉ Dict.keys d) : Dict.set (d ++ [(k, v)]) k w = d ++ [(k, w)] := by
  induction d with
  | nil => simp [Dict.set]
  | cons e d ih =>
    obtain ⟨k', v'⟩ := e
    simp only [Dict.keys, List.map_cons, List.mem_cons, not_or] at h
    rw [List.cons_append, Dict.set, if_neg (Ne.symm h.1), ih h.2]
    rfl

theorem sset2_block (m : PyStr) (d : List (PyStr × Nested Unit)) (hd : m ∉ Dict.keys d) : ∀ (ts : List PyStr) (e : List (PyStr × Nested Unit)),
    (Dict.keys e ++ ts).Nodup →
    (ts.map fun t => (m, t)).foldl sset2 (d ++ [(m, .node e)]) = d ++ [(m, .node (e ++ ts.map fun t => (t, .leaf ())))] := by
  intro ts
  induction ts with
  | nil => intro e _; simp
  | cons t ts ih =>
    intro e he
    have hget : Dict.get? (d ++ [(m, Nested.node e)]) m = some (.node e) := by
      rw [Dict.get?_append, (Dict.get?_eq_none_iff d m).2 hd]
      simp [Dict.get?_cons]
    have ht : t ∉ Dict.keys e := by
      intro h
      exact (List.nodup_append.1 he).2.2 t h t List.mem_cons_self rfl
    rw [List.map_cons, List.foldl_cons]
    have hs : sset2 (d ++ [(m, Nested.node e)]) (m, t) = d ++ [(m, .node (e ++ [(t, .leaf ())]))] := by
      unfold sset2
      simp only [hget]
      rw [set_last d m _ _ hd, Dict.set_of_not_mem _ _ _ ht]
    rw [hs, ih]
    · simp
    · simpa [Dict.keys, List.append_assoc] using he

theorem unroll_foldl : ∀ (n : Nat) (l : List (PyStr × PyStr)), l.length ≤ n → l.Nodup → ∀ d : List (PyStr × Nested Unit), (∀ a ∈ l, a.1 ∉ Dict.keys d) →
    unroll ((grouped l).foldl sset2 d) = unroll d ++ grouped l := by
  intro n
  induction n with
  | zero => intro l h _ d _; obtain rfl := List.eq_nil_of_length_eq_zero (Nat.le_zero.1 h); simp [grouped, firstSeen]
  | succ n ih =>
    intro l h hn d hd
    cases l with
    | nil => simp [grouped, firstSeen]
    | cons x l =>
      obtain ⟨m, t⟩ := x
      have hl : (m, t) :: l.filter (fun a => a.1 = m) = ((t :: (l.filter fun a => a.1 = m).map Prod.snd).map fun t => (m, t)) := by
        rw [List.map_cons, List.map_map]
        congr 1
        conv_lhs => rw [← List.map_id (l.filter fun a => a.1 = m)]
        apply List.map_congr_left
        intro a ha
        have : a.1 = m := by simpa using (List.mem_filter.1 ha).2
        simp [← this]
      have hts : (t :: (l.filter fun a => a.1 = m).map Prod.snd).Nodup := by
        have h1 : ((m, t) :: l.filter fun a => a.1 = m).Nodup := by
          rw [List.nodup_cons] at hn ⊢
          exact ⟨fun hh => hn.1 (List.mem_filter.1 hh).1, hn.2.filter _⟩
        rw [hl] at h1
        exact List.Nodup.of_map _ h1
      have hm : m ∉ Dict.keys d := hd (m, t) List.mem_cons_self
      rw [grouped_cons, List.foldl_append]
      dsimp only
      rw [hl]
      generalize ht : (l.filter fun a => a.1 = m).map Prod.snd = ts at hts
      rw [List.map_cons, List.foldl_cons]
      have hs : sset2 d (m, t) = d ++ [(m, .node [(t, .leaf ())])] := by
        unfold sset2
        simp only [(Dict.get?_eq_none_iff d m).2 hm]
        rw [Dict.set_of_not_mem _ _ _ hm]
      rw [hs, sset2_block m d hm ts _ (by simpa [Dict.keys] using hts), ih]
      · rw [unroll_append, List.append_assoc]
        congr 1
        congr 1
        simp [unroll, Dict.keys, Function.comp_def]
      · exact (List.length_filter_le _ _).trans (by simpa using h)
      · exact (List.nodup_cons.1 hn).2.filter _
      · intro a ha hk
        obtain ⟨ha1, ha2⟩ := List.mem_filter.1 ha
        simp only [Dict.keys, List.map_append, List.mem_append] at hk
        rcases hk with hk | hk
        · exact hd a (List.mem_cons_of_mem _ ha1) hk
        · simp at hk ha2
          exact ha2 hk

theorem firstSeen_nodup {α : Type} [DecidableEq α] : ∀ l : List α, (firstSeen l).Nodup
  | [] => List.nodup_nil
  | a :: l => by
    rw [firstSeen, List.nodup_cons]
    exact ⟨by simp, (firstSeen_nodup l).filter _⟩

/-- The order of the quantities, from the layout. -/
theorem unroll_order [Semiring K] (p : Plugin) (calls : List (Plugin × StatCall K)) :
    unroll (((order p calls).map fun ml => (ml.1, ml.2.name)).foldl sset2 []) = (order p calls).map fun ml => (ml.1, ml.2.name) := by
  unfold order
  rw [← grouped_map, ← firstSeen_map (f := fun ml : PyStr × LogType => (ml.1, ml.2.name))
    (fun a b h => by obtain ⟨a1, a2⟩ := a; obtain ⟨b1, b2⟩ := b; simp only [Prod.mk.injEq] at h; rw [h.1, logTypeName_inj h.2])]
  rw [unroll_foldl _ _ (Nat.le_refl _) (firstSeen_nodup _) [] (fun _ _ h => nomatch h)]
  rfl

theorem order_of_outline [Field K] {L : Lib K} {p : Plugin} {st cn : PyStr} {z : Nat → List Nat} {term : (Nat → K) → List Nat → K}
    (S : StatOf p st cn z term) (hp : (st, cn) ∈ basePairs) {cs cs' : List (Plugin × StatCall K)} {s s' : LState K} (h : updates L .init cs = .ok s)
    (h' : updates L .init cs' = .ok s') (hq : (Dict.get? s.attrs st).map outline = (Dict.get? s'.attrs st).map outline) : order p cs = order p cs' := by
  obtain ⟨i1, i2⟩ := init_getAttr (K := K) hp
  obtain ⟨d, e, hd, -, hk, -⟩ := updates_skel L S h i1 i2
  obtain ⟨d', e', hd', -, hk', -⟩ := updates_skel L S h' i1 i2
  rw [getAttr_eq.1 hd, getAttr_eq.1 hd'] at hq
  have hq := Option.some.inj hq
  have h1 := unroll_outline d
  have h2 := unroll_outline d'
  rw [hk, order_foldl, show skelD ([] : StateDict K) = [] from rfl, unroll_order] at h1
  rw [hk', order_foldl, show skelD ([] : StateDict K) = [] from rfl, unroll_order, ← hq, ← h1] at h2
  have hinj : Function.Injective fun ml : PyStr × LogType => (ml.1, ml.2.name) := by
    rintro ⟨a1, a2⟩ ⟨b1, b2⟩ h
    simp only [Prod.mk.injEq] at h
    rw [h.1, logTypeName_inj h.2]
  exact (List.map_injective_iff.2 hinj h2).symm

/-! ### The same sums in another way -/

section
variable [Field K]

/-- Two histories that lead to the same state. -/
theorem same_sums {L : Lib K} {p : Plugin} {st cn : PyStr} {z : Nat → List Nat} {term : (Nat → K) → List Nat → K} (S : StatOf p st cn z term)
    (hp : (st, cn) ∈ basePairs) (hz : ∀ v w, z v = z w → v = w) {cs cs' : List (Plugin × StatCall K)} {s : LState K} (h : updates L .init cs = .ok s)
    (h' : updates L .init cs' = .ok s) (m : PyStr) (lt : LogType) {W : Nat} (hW : ∀ c ∈ callsOf p m lt cs, callWidth c = W) :
    (callsOf p m lt cs = [] ↔ callsOf p m lt cs' = []) ∧ (∀ c ∈ callsOf p m lt cs', callWidth c = W) ∧
      ((callsOf p m lt cs).map batchCount).sum = ((callsOf p m lt cs').map batchCount).sum ∧
      ∀ idx, inRange (z W) idx = true → rowSum term (allRows (callsOf p m lt cs)) idx = rowSum term (allRows (callsOf p m lt cs')) idx := by
  obtain ⟨i1, i2⟩ := init_getAttr (K := K) hp
  obtain ⟨d, e, hd, he, I⟩ := updates_inv L S h i1 i2
  obtain ⟨d', e', hd', he', I'⟩ := updates_inv L S h' i1 i2
  obtain rfl := Except.ok.inj (hd.symm.trans hd')
  obtain rfl := Except.ok.inj (he.symm.trans he')
  by_cases h0 : callsOf p m lt cs = []
  · by_cases h0' : callsOf p m lt cs' = []
    · rw [h0, h0']
      exact ⟨Iff.rfl, nofun, rfl, fun _ _ => rfl⟩
    · obtain ⟨t0, n0, t, V, -, -, -, -, a1, -⟩ := (I' m lt).cons h0'
      rw [((I m lt).nil h0).1] at a1
      cases a1
  · obtain ⟨t0, n0, t, V, a0, a1, a2, a3, a4, a5, a6⟩ := (I m lt).cons h0
    by_cases h0' : callsOf p m lt cs' = []
    · rw [((I' m lt).nil h0').1] at a4
      cases a4
    · obtain ⟨t0', n0', t', V', b0, b1, b2, b3, b4, b5, b6⟩ := (I' m lt).cons h0'
      have hnone : item2 ([] : StateDict K) m lt.name = .ok none := rfl
      have z0 : (∀ idx, t0.el idx = 0) ∧ n0 = 0 := by
        rcases a0 with ⟨-, g⟩ | ⟨g, -⟩
        · exact g
        · rw [hnone] at g; cases g
      have z0' : (∀ idx, t0'.el idx = 0) ∧ n0' = 0 := by
        rcases b0 with ⟨-, g⟩ | ⟨g, -⟩
        · exact g
        · rw [hnone] at g; cases g
      rw [a4] at b4
      simp only [Except.ok.injEq, Option.some.injEq, SVal.tensor.injEq] at b4
      subst b4
      rw [a5] at b5
      simp only [Except.ok.injEq, Option.some.injEq, SVal.num.injEq] at b5
      have hV : V' = V := hz _ _ (b3.symm.trans a3)
      obtain ⟨c, hc⟩ := List.exists_mem_of_ne_nil _ h0
      have hVW : V = W := (a1 c hc).symm.trans (hW c hc)
      subst hV hVW
      refine ⟨⟨fun g => absurd g h0, fun g => absurd g h0'⟩, b1, ?_, fun idx hi => ?_⟩
      · rw [z0.2, z0'.2, zero_add, zero_add] at b5
        exact b5
      · have e1 := a6 idx hi
        have e2 := b6 idx hi
        rw [z0.1, zero_add] at e1
        rw [z0'.1, zero_add] at e2
        exact e1.symm.trans e2

/-- Several processes, each with two histories that lead to the same state. -/
theorem same_sums_all {L : Lib K} {p : Plugin} {st cn : PyStr} {z : Nat → List Nat} {term : (Nat → K) → List Nat → K} (S : StatOf p st cn z term)
    (hp : (st, cn) ∈ basePairs) (hz : ∀ v w, z v = z w → v = w) (m : PyStr) (lt : LogType) {W : Nat} {ss : List (LState K)} :
    ∀ {css css' : List (List (Plugin × StatCall K))}, List.Forall₂ (fun cs s => updates L .init cs = .ok s) css ss →
    List.Forall₂ (fun cs s => updates L .init cs = .ok s) css' ss → (∀ cs ∈ css, ∀ c ∈ callsOf p m lt cs, callWidth c = W) →
    (callsOf p m lt css.flatten = [] ↔ callsOf p m lt css'.flatten = []) ∧ (∀ c ∈ callsOf p m lt css'.flatten, callWidth c = W) ∧
      ((callsOf p m lt css.flatten).map batchCount).sum = ((callsOf p m lt css'.flatten).map batchCount).sum ∧
      ∀ idx, inRange (z W) idx = true → rowSum term (allRows (callsOf p m lt css.flatten)) idx = rowSum term (allRows (callsOf p m lt css'.flatten)) idx := by
  induction ss with
  | nil =>
    intro css css' h h' _
    obtain rfl := List.forall₂_nil_right_iff.1 h
    obtain rfl := List.forall₂_nil_right_iff.1 h'
    exact ⟨Iff.rfl, nofun, rfl, fun _ _ => rfl⟩
  | cons s ss ih =>
    intro css css' h h' hW
    obtain ⟨cs, css, h1, h2, rfl⟩ := List.forall₂_cons_right_iff.1 h
    obtain ⟨cs', css', h1', h2', rfl⟩ := List.forall₂_cons_right_iff.1 h'
    obtain ⟨a1, a2, a3, a4⟩ := same_sums S hp hz h1 h1' m lt (hW cs List.mem_cons_self)
    obtain ⟨b1, b2, b3, b4⟩ := ih h2 h2' fun cs h => hW cs (List.mem_cons_of_mem _ h)
    simp only [List.flatten_cons, callsOf_append, List.append_eq_nil_iff, List.map_append, List.sum_append, allRows_append, rowSum_append, List.mem_append]
    exact ⟨and_congr a1 b1, fun c hc => hc.elim (a2 c) (b2 c), by rw [a3, b3], fun idx hi => by rw [a4 idx hi, b4 idx hi]⟩

/-- A statistic of a process after a distributed run, from any histories that lead to the states of the processes. -/
theorem pooled_stat {L : Lib K} {p : Plugin} {st cn : PyStr} {z : Nat → List Nat} {term : (Nat → K) → List Nat → K} (S : StatOf p st cn z term)
    (hp : (st, cn) ∈ basePairs) (hz : ∀ v w, z v = z w → v = w) {width : PyStr → LogType → Nat} {dev : Nat → PyStr → LogType → Dev} {off : Bool}
    {css css' : List (List (Plugin × StatCall K))} {ss : List (LState K)} (hC : Cluster width dev off css)
    (h : List.Forall₂ (fun cs s => updates L .init cs = .ok s) css ss) (h' : List.Forall₂ (fun cs s => updates L .init cs = .ok s) css' ss)
    {i : Nat} {v s' : LState K} {dir dir' : StateDir K} (hv : updates L .init (css.flatten.map (movedTo (dev i))) = .ok v)
    (hfin : v.finalize dir = .ok (s', dir')) (m : PyStr) (lt : LogType) (hne : callsOf p m lt css'.flatten ≠ []) :
    ∃ t W, tensorAt s'.attrs st [m, lt.name] = some t ∧ t.shape = z W ∧ (∀ c ∈ callsOf p m lt css'.flatten, callWidth c = W) ∧
      ∀ idx, inRange (z W) idx = true →
        t.el idx = rowSum term (allRows (callsOf p m lt css'.flatten)) idx / ((callsOf p m lt css'.flatten).map batchCount).sum := by
  have hW : ∀ cs ∈ css, ∀ c ∈ callsOf p m lt cs, callWidth c = width m lt := by
    intro cs hcs c hc
    obtain ⟨j, hj⟩ := List.getElem?_of_mem hcs
    unfold callsOf at hc
    obtain ⟨pc, hpc, rfl⟩ := List.mem_map.1 hc
    obtain ⟨h1, h2⟩ := List.mem_filter.1 hpc
    simp only [decide_eq_true_eq] at h2
    rw [(hC.regular j cs hj).width pc h1, h2.2.1, h2.2.2]
  obtain ⟨a1, a2, a3, a4⟩ := same_sums_all S hp hz m lt h h' hW
  have hne' : callsOf p m lt (css.flatten.map (movedTo (dev i))) ≠ [] := mt (callsOf_moved_nil _ _ _ _ _).1 (mt a1.1 hne)
  obtain ⟨t, W, b1, b2, b3, b4⟩ := stat_finalize L S hp hv hfin m lt hne'
  obtain ⟨c, hc⟩ := List.exists_mem_of_ne_nil _ hne'
  have hcW : W = width m lt := by
    rw [← b3 c hc]
    rw [callsOf_moved] at hc
    obtain ⟨c', hc', rfl⟩ := List.mem_map.1 hc
    obtain ⟨cs, hcs, hcc⟩ : ∃ cs ∈ css, c' ∈ callsOf p m lt cs := by
      rw [callsOf_flatten] at hc'
      simpa using hc'
    exact hW cs hcs c' hcc
  subst hcW
  refine ⟨t, _, b1, b2, a2, fun idx hi => ?_⟩
  rw [b4 idx hi, ← a3, ← a4 idx hi, callsOf_moved, allRows_moved (fun c => dev i c.name c.logType), List.map_map]
  rfl

end
end Logix
