/-
Merged logs, and the callback of the Hugging Face integration as a sequence of calls of `compute_influence_all`.
-/
import Verif.Spec.HuggingFace
import Verif.Props.Tiles

set_option linter.unusedSectionVars false

namespace Logix
open Spec
variable {K : Type}

/-- What is under a key after merging: the value of either side, or the concatenation. -/
def CatOpt [Zero K] : Option (Tensor K) → Option (Tensor K) → Option (Tensor K) → Prop
  | none, y, z => z = y
  | some t, none, z => z = some t
  | some t, some v, z => ∃ c, t.cat0 v = .ok c ∧ z = some c

theorem catOpt_none [Zero K] (x : Option (Tensor K)) : CatOpt x none x := by cases x <;> rfl

theorem mergeTypes_get [Zero K] : ∀ {d acc r : Dict PyStr (Tensor K)}, (Dict.keys d).Nodup → mergeTypes acc d = .ok r →
    ∀ k, CatOpt (Dict.get? acc k) (Dict.get? d k) (Dict.get? r k)
  | [], acc, r, _, h, k => by
    cases h
    exact catOpt_none _
  | (k', v) :: d, acc, r, hn, h, k => by
    have hk' : k' ∉ Dict.keys d := (List.nodup_cons.1 hn).1
    have hnd : (Dict.keys d).Nodup := (List.nodup_cons.1 hn).2
    have hnone := (Dict.get?_eq_none_iff d k').2 hk'
    rw [mergeTypes] at h
    rw [Dict.get?_cons]
    split at h
    · next ha =>
      have := mergeTypes_get hnd h k
      rw [Dict.get?_set] at this
      by_cases hk : k' = k
      · subst hk
        rw [hnone] at this
        simp only [if_true] at this
        rw [ha, if_pos rfl]
        exact this
      · rw [if_neg hk] at this ⊢
        exact this
    · next t ha =>
      split at h
      · cases h
      · next c hc =>
        have := mergeTypes_get hnd h k
        rw [Dict.get?_set] at this
        by_cases hk : k' = k
        · subst hk
          rw [hnone] at this
          simp only [if_true] at this
          rw [ha, if_pos rfl]
          exact ⟨c, hc, this⟩
        · rw [if_neg hk] at this ⊢
          exact this

theorem mergeModules_get [Zero K] : ∀ {d acc r : GLog K}, (Dict.keys d).Nodup → mergeModules acc d = .ok r →
    ∀ m, match Dict.get? d m with
      | none => Dict.get? r m = Dict.get? acc m
      | some x => ∃ y, mergeTypes ((Dict.get? acc m).getD []) x = .ok y ∧ Dict.get? r m = some y
  | [], acc, r, _, h, m => by
    cases h
    rfl
  | (m', x) :: d, acc, r, hn, h, m => by
    have hm' : m' ∉ Dict.keys d := (List.nodup_cons.1 hn).1
    have hnone := (Dict.get?_eq_none_iff d m').2 hm'
    rw [mergeModules] at h
    split at h
    · cases h
    · next y hy =>
      have := mergeModules_get (List.nodup_cons.1 hn).2 h m
      rw [Dict.get?_cons]
      rw [Dict.get?_set] at this
      by_cases hk : m' = m
      · subst hk
        rw [hnone] at this
        simp only [if_true] at this ⊢
        exact ⟨y, hy, this⟩
      · rw [if_neg hk] at this ⊢
        exact this

theorem mergeModules_grad [Zero K] {d acc r : GLog K} (hn : (Dict.keys d).Nodup) (ht : DictTypes d) (h : mergeModules acc d = .ok r) (m : PyStr) :
    CatOpt (grad acc m) (grad d m) (grad r m) := by
  have := mergeModules_get hn h m
  unfold grad
  cases hd : Dict.get? d m with
  | none =>
    rw [hd] at this
    simp only at this
    rw [this]
    exact catOpt_none _
  | some x =>
    rw [hd] at this
    obtain ⟨y, hy, hr⟩ := this
    rw [hr]
    have := mergeTypes_get (ht _ (Dict.mem_of_get? _ hd)) hy (LogType.name .grad)
    simp only [Option.bind_some]
    cases ha : Dict.get? acc m with
    | none => rw [ha] at this; exact this
    | some z => rw [ha] at this; exact this

theorem mergeModules_same_keys [Zero K] : ∀ {d acc r : GLog K}, (∀ m ∈ Dict.keys d, m ∈ Dict.keys acc) → mergeModules acc d = .ok r → Dict.keys r = Dict.keys acc
  | [], acc, r, _, h => by cases h; rfl
  | (m, x) :: d, acc, r, hs, h => by
    rw [mergeModules] at h
    split at h
    · cases h
    · next y hy =>
      have hm := hs m (by simp [Dict.keys])
      have hk := Dict.keys_set_of_mem acc m y hm
      rw [mergeModules_same_keys (fun m' hm' => by rw [hk]; exact hs m' (List.mem_cons_of_mem _ hm')) h, hk]

theorem mergeModules_new_keys [Zero K] : ∀ {d acc r : GLog K}, (Dict.keys d).Nodup → (∀ m ∈ Dict.keys d, m ∉ Dict.keys acc) → mergeModules acc d = .ok r →
    Dict.keys r = Dict.keys acc ++ Dict.keys d
  | [], acc, r, _, _, h => by cases h; simp [Dict.keys]
  | (m, x) :: d, acc, r, hn, hs, h => by
    rw [mergeModules] at h
    split at h
    · cases h
    · next y hy =>
      have hm := hs m (by simp [Dict.keys])
      have hk : Dict.keys (Dict.set acc m y) = Dict.keys acc ++ [m] := by rw [Dict.keys_set, if_neg hm]
      rw [mergeModules_new_keys (List.nodup_cons.1 hn).2 (fun m' hm' => by
        rw [hk, List.mem_append, List.mem_singleton]
        rintro (h1 | rfl)
        · exact hs m' (List.mem_cons_of_mem _ hm') h1
        · exact (List.nodup_cons.1 hn).1 hm') h, hk]
      simp [Dict.keys]

theorem cat0_ok [Zero K] {a b c : Tensor K} (h : a.cat0 b = .ok c) : ∃ n m s, a.shape = n :: s ∧ b.shape = m :: s ∧ c.shape = (n + m) :: s ∧
    (∀ i, i < n → ∀ idx ∈ indices s, row c i idx = row a i idx) ∧ ∀ i, i < m → ∀ idx ∈ indices s, row c (n + i) idx = row b i idx := by
  unfold Tensor.cat0 at h
  split at h
  · next n s m s' ha hb =>
    split at h
    · next hc =>
      obtain ⟨rfl, -⟩ := hc
      cases h
      refine ⟨n, m, s, ha, hb, rfl, fun i hi idx hidx => ?_, fun i hi idx hidx => ?_⟩
      · rw [mem_indices] at hidx
        unfold row
        rw [Tensor.el_ofFn, if_pos (by simp only [inRange, hidx, Bool.and_true, decide_eq_true_eq]; omega)]
        exact if_pos hi
      · rw [mem_indices] at hidx
        unfold row
        rw [Tensor.el_ofFn, if_pos (by simp only [inRange, hidx, Bool.and_true, decide_eq_true_eq]; omega)]
        show (if n + i < n then _ else _) = _
        rw [if_neg (by omega), Nat.add_sub_cancel_left]
    · cases h
  · cases h

theorem split_snoc {α : Type} {done l post : List α} {b c : α} (h : done ++ [b] = l ++ c :: post) : (∃ post', done = l ++ c :: post') ∨ l = done ∧ c = b ∧ post = [] := by
  rcases List.eq_nil_or_concat post with rfl | ⟨post', x, rfl⟩
  · right
    obtain ⟨h1, h2⟩ := List.append_inj' h rfl
    exact ⟨h1.symm, (List.cons.inj h2).1.symm, rfl⟩
  · left
    rw [List.concat_eq_append, ← List.cons_append, ← List.append_assoc] at h
    exact ⟨post', (List.append_inj' h rfl).1⟩

/-- Merging one more log. -/
theorem merge_step [Zero K] {done : List (List PyStr × GLog K)} {ids : List PyStr} {acc r : GLog K} {b : List PyStr × GLog K} {keys : List PyStr}
    (hB : Batches done ids acc) (hl : done = [] ∧ acc = [] ∨ Labelled ids acc ∧ Dict.keys acc = keys) (hb : Labelled b.1 b.2) (hbk : Dict.keys b.2 = keys) (ht : DictTypes b.2)
    (h : mergeModules acc b.2 = .ok r) : Batches (done ++ [b]) (ids ++ b.1) r ∧ Labelled (ids ++ b.1) r ∧ Dict.keys r = keys := by
  have hkeys : Dict.keys r = keys := by
    rcases hl with ⟨-, rfl⟩ | ⟨hl, hk⟩
    · rw [mergeModules_new_keys hb.nodup (fun m _ => by simp [Dict.keys]) h]
      simpa [Dict.keys] using hbk
    · rw [mergeModules_same_keys (fun m hm => by rw [hk, ← hbk]; exact hm) h, hk]
  have hids := hB.1
  have key : ∀ m ∈ keys, ∃ g x, grad b.2 m = some g ∧ grad r m = some x ∧ g.shape.tail = x.shape.tail ∧ x.size 0 = (ids ++ b.1).length ∧
      (∀ j, j < b.1.length → ∀ idx ∈ indices x.shape.tail, row x (ids.length + j) idx = row g j idx) ∧
      (done ≠ [] → ∃ t, grad acc m = some t ∧ t.shape.tail = x.shape.tail ∧ ∀ i, i < ids.length → ∀ idx ∈ indices x.shape.tail, row x i idx = row t i idx) := by
    intro m hm
    have hg := mergeModules_grad hb.nodup ht h m
    obtain ⟨g, hg1, hg2⟩ := hb.rows m (by rw [hbk]; exact hm)
    rcases hl with ⟨rfl, rfl⟩ | ⟨hl, hk⟩
    · have hnil : ids = [] := by simpa using hids
      subst hnil
      rw [hg1] at hg
      refine ⟨g, g, hg1, hg, rfl, by simpa using hg2, fun j _ idx _ => by simp, fun h => absurd rfl h⟩
    · obtain ⟨t, ht1, ht2⟩ := hl.rows m (by rw [hk]; exact hm)
      rw [hg1, ht1] at hg
      obtain ⟨c, hc, hr⟩ := hg
      obtain ⟨n, n', s, e1, e2, e3, e4, e5⟩ := cat0_ok hc
      have hn : n = ids.length := by rw [← ht2]; simp [Tensor.size, e1]
      have hn' : n' = b.1.length := by rw [← hg2]; simp [Tensor.size, e2]
      subst hn hn'
      refine ⟨g, c, hg1, hr, by rw [e2, e3]; rfl, by simp [Tensor.size, e3], fun j hj idx hidx => ?_, fun _ => ⟨t, ht1, by rw [e1, e3]; rfl, fun i hi idx hidx => ?_⟩⟩
      · rw [e3] at hidx; exact e5 j hj idx hidx
      · rw [e3] at hidx; exact e4 i hi idx hidx
  refine ⟨⟨by rw [hids]; simp, fun l c post hs j hj m hm => ?_⟩, ⟨?_, fun m hm => ?_⟩, hkeys⟩
  · rw [hkeys] at hm
    obtain ⟨g, x, k1, k2, k3, k4, k5, k6⟩ := key m hm
    rcases split_snoc hs with ⟨post', hd⟩ | ⟨rfl, rfl, -⟩
    · obtain ⟨t, ht1, ht2, ht3⟩ := k6 (by rw [hd]; simp)
      have hk : m ∈ Dict.keys acc := by
        rcases hl with ⟨hnil, -⟩ | ⟨-, hk⟩
        · rw [hnil] at hd; simp at hd
        · rw [hk]; exact hm
      obtain ⟨g', t', q1, q2, q3, q4⟩ := hB.2 l c post' hd j hj m hk
      rw [ht1] at q2
      cases q2
      refine ⟨g', x, q1, k2, q3.trans ht2, fun idx hidx => ?_⟩
      rw [ht3 _ (by rw [hids, hd]; simp; omega) idx hidx]
      exact q4 idx (by rw [ht2]; exact hidx)
    · refine ⟨g, x, k1, k2, k3, fun idx hidx => ?_⟩
      rw [← hids]
      exact k5 j hj idx hidx
  · rw [hkeys, ← hbk]; exact hb.nodup
  · rw [hkeys] at hm
    obtain ⟨g, x, k1, k2, k3, k4, -⟩ := key m hm
    exact ⟨x, k2, k4⟩

theorem mergeBatchesFrom_ok [Zero K] {keys : List PyStr} : ∀ {w done : List (List PyStr × GLog K)} {ids : List PyStr} {acc : GLog K} {r : List PyStr × GLog K},
    Batches done ids acc → (done = [] ∧ acc = [] ∨ Labelled ids acc ∧ Dict.keys acc = keys) → (∀ b ∈ w, Labelled b.1 b.2 ∧ Dict.keys b.2 = keys ∧ DictTypes b.2) →
    mergeBatchesFrom ids acc w = .ok r → done ++ w ≠ [] → Batches (done ++ w) r.1 r.2 ∧ Labelled r.1 r.2 ∧ Dict.keys r.2 = keys
  | [], done, ids, acc, r, hB, hl, _, h, hne => by
    cases h
    rw [List.append_nil] at hne ⊢
    rcases hl with ⟨h1, -⟩ | hl
    · exact absurd h1 hne
    · exact ⟨hB, hl.1, hl.2⟩
  | b :: w, done, ids, acc, r, hB, hl, hw, h, hne => by
    obtain ⟨ids', log⟩ := b
    rw [mergeBatchesFrom] at h
    split at h
    · cases h
    · next acc' ha =>
      obtain ⟨p1, p2, p3⟩ := hw _ List.mem_cons_self
      obtain ⟨h1, h2, h3⟩ := merge_step hB hl p1 p2 p3 ha
      have := mergeBatchesFrom_ok h1 (.inr ⟨h2, h3⟩) (fun b hb => hw b (List.mem_cons_of_mem _ hb)) h (by simp)
      simpa using this

/-- `merge_logs` of logs with the same modules: the samples of all of them, in order. -/
theorem mergeBatches_ok [Zero K] {keys : List PyStr} {w : List (List PyStr × GLog K)} {r : List PyStr × GLog K}
    (hw : ∀ b ∈ w, Labelled b.1 b.2 ∧ Dict.keys b.2 = keys ∧ DictTypes b.2) (h : mergeBatches w = .ok r) (hne : w ≠ []) :
    Batches w r.1 r.2 ∧ Labelled r.1 r.2 ∧ Dict.keys r.2 = keys := by
  have := mergeBatchesFrom_ok (done := []) (keys := keys) ⟨rfl, fun l b r h => by simp at h⟩ (.inl ⟨rfl, rfl⟩) hw h (by simpa using hne)
  simpa using this

/-- The samples of a list of lists of batches, each merged into one batch. -/
theorem batches_merged [Zero K] {ids : List PyStr} {d : GLog K} : ∀ {ws : List (List (List PyStr × GLog K))} {srcs : List (List PyStr × GLog K)},
    List.Forall₂ (fun w b => Batches w b.1 b.2 ∧ Dict.keys b.2 = Dict.keys d) ws srcs → ids = ws.flatten.flatMap (·.1) →
    (∀ l b r, ws.flatten = l ++ b :: r → ∀ j, j < b.1.length → SameRows b.2 j d ((l.flatMap (·.1)).length + j)) → Batches srcs ids d := by
  intro ws srcs hf hi hr
  have hfl : ∀ {ws : List (List (List PyStr × GLog K))} {srcs : List (List PyStr × GLog K)},
      List.Forall₂ (fun w b => Batches w b.1 b.2 ∧ Dict.keys b.2 = Dict.keys d) ws srcs → srcs.flatMap (·.1) = ws.flatten.flatMap (·.1) := by
    intro ws srcs h
    induction h with
    | nil => rfl
    | cons h _ ih => rw [List.flatMap_cons, ih, h.1.1, List.flatten_cons, List.flatMap_append]
  refine ⟨hi.trans (hfl hf).symm, fun l b post hs j hj => ?_⟩
  rw [hs] at hf
  have hf' := hf.flip
  obtain ⟨lw, w, postw, hws, f1, f2, f3⟩ := forall₂_split hf'
  have hfl' := hfl f1.flip
  rw [f2.1] at hj
  obtain ⟨m, c, rest, j₀, hw, hj₀, rfl⟩ := flatMap_pos _ hj
  have e1 := f2.2 m c rest hw j₀ hj₀
  have e2 := hr (lw.flatten ++ m) c (rest ++ postw.flatten) (by rw [hws, hw]; simp) j₀ hj₀
  intro k hk
  obtain ⟨g, h, q1, q2, q3, q4⟩ := e1 k (by rw [f3]; exact hk)
  obtain ⟨g', h', r1, r2, r3, r4⟩ := e2 k hk
  rw [q1] at r1
  cases r1
  refine ⟨h, h', q2, r2, q3.symm.trans r3, fun idx hidx => ?_⟩
  have := r4 idx hidx
  rw [List.flatMap_append, List.length_append, ← hfl', Nat.add_assoc] at this
  rw [this]
  exact (q4 idx (by rw [← q3, r3]; exact hidx)).symm

section callback
variable [Field K] {L : Lib K} {sqrt : K → K} {a : HFArgs K} {loader : List (List PyStr × LogArg K)}

/-- The callback as a loop over merged windows. -/
theorem influenceBatches_windows : ∀ {data : List (Micro K)} {c c' : HFCallback K}, c.influenceBatches L sqrt a loader data = .ok c' →
    ∃ ws srcs, c.acc ++ data.map microLog = ws.flatten ++ c'.acc ∧ List.Forall₂ (fun w b => mergeBatches w = .ok b ∧ w ≠ []) ws srcs ∧
      saveAll L sqrt loader a.mode true .auto a.groups a.damping c.infl srcs = .ok c'.infl
  | [], c, c', h => by
    cases h
    exact ⟨[], [], by simp, .nil, rfl⟩
  | b :: data, c, c', h => by
    rw [HFCallback.influenceBatches] at h
    split at h
    · cases h
    · next c₁ hc =>
      obtain ⟨ws, srcs, h1, h2, h3⟩ := influenceBatches_windows h
      unfold HFCallback.influenceHook at hc
      dsimp only at hc
      split at hc
      · split at hc
        · cases hc
        · next ids log hm =>
          split at hc
          · cases hc
          · next o r ho =>
            cases hc
            refine ⟨(c.acc ++ [(b.ids, b.log)]) :: ws, (ids, log) :: srcs, ?_, .cons ⟨hm, by simp⟩ h2, ?_⟩
            · rw [List.nil_append] at h1
              rw [List.flatten_cons, List.append_assoc, ← h1]
              simp [microLog]
            · rw [saveAll, ho]
              exact h3
      · cases hc
        exact ⟨ws, srcs, by rw [← h1]; simp [microLog], h2, h3⟩

theorem influenceBatches_append : ∀ {x y : List (Micro K)} {c c' : HFCallback K}, c.influenceBatches L sqrt a loader (x ++ y) = .ok c' →
    ∃ c₁, c.influenceBatches L sqrt a loader x = .ok c₁ ∧ c₁.influenceBatches L sqrt a loader y = .ok c'
  | [], y, c, c', h => ⟨c, rfl, h⟩
  | b :: x, y, c, c', h => by
    rw [List.cons_append, HFCallback.influenceBatches] at h
    rw [HFCallback.influenceBatches]
    split at h
    · cases h
    · exact influenceBatches_append h

theorem influenceBatches_substeps : ∀ {x : List (Micro K)} {c : HFCallback K}, (∀ b ∈ x, b.step = false) →
    c.influenceBatches L sqrt a loader x = .ok { c with acc := c.acc ++ x.map microLog }
  | [], c, _ => by simp [HFCallback.influenceBatches]
  | b :: x, c, h => by
    rw [HFCallback.influenceBatches]
    unfold HFCallback.influenceHook
    simp only [h b List.mem_cons_self, Bool.false_eq_true, if_false]
    rw [influenceBatches_substeps fun b hb => h b (List.mem_cons_of_mem _ hb)]
    simp [microLog]

theorem influenceBatches_step {b : Micro K} {c c' : HFCallback K} (hb : b.step = true) (h : c.influenceBatches L sqrt a loader [b] = .ok c') : c'.acc = [] := by
  rw [HFCallback.influenceBatches] at h
  unfold HFCallback.influenceHook at h
  simp only [hb, if_true] at h
  split at h
  · cases h
  · next hc =>
    cases h
    split at hc
    · cases hc
    · split at hc
      · cases hc
      · cases hc; rfl

end callback

end Logix
