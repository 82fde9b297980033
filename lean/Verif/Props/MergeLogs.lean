/-
C74: merging accumulated logs.
-/
import Verif.Spec.MergeLogs
import Verif.Lemmas.Collate

namespace Logix
open Spec

theorem catArrs_ok {a b : Arr} {n m : Nat} {s : List Nat} (ha : a.shape = n :: s) (hb : b.shape = m :: s) (hd : a.dtype = b.dtype) :
    ∃ c, catArrs a b = .ok c ∧ c.shape = (n + m) :: s ∧ c.dtype = a.dtype ∧ c.bytes = a.bytes ++ b.bytes := by
  unfold catArrs
  split
  · next n' s1 m' s2 h1 h2 =>
    rw [ha] at h1; rw [hb] at h2
    cases h1; cases h2
    rw [dif_pos ⟨rfl, hd⟩]
    exact ⟨_, rfl, rfl, rfl, rfl⟩
  · next h => exact absurd hb (h _ _ _ _ ha)

theorem rowsOf_eq {t : Arr} {n : Nat} {s : List Nat} (h : t.shape = n :: s) :
    (rowsOf t).length = n ∧ ∀ i, i < n → ∃ r, (rowsOf t)[i]? = some r ∧ t.row i = .ok r := by
  have : ∃ f : Nat → Arr, ∀ i, i < n → t.row i = .ok (f i) := by
    have : ∀ i, ∃ r, i < n → t.row i = .ok r := by
      intro i
      by_cases hi : i < n
      · obtain ⟨r, hr⟩ := row_ok_iff.2 ⟨n, s, h, hi⟩
        exact ⟨r, fun _ => hr⟩
      · exact ⟨t, fun h => absurd h hi⟩
    exact ⟨fun i => (this i).choose, fun i => (this i).choose_spec⟩
  obtain ⟨f, hf⟩ := this
  have hr : rowsOf t = (List.range n).map f := by
    unfold rowsOf
    rw [h, List.headD_cons]
    rw [List.filterMap_congr (g := fun i => some (f i)), List.filterMap_eq_map']
    intro i hi
    rw [hf i (List.mem_range.1 hi)]; rfl
  rw [hr]
  refine ⟨by simp, ?_⟩
  intro i hi
  exact ⟨f i, by simp [hi], hf i hi⟩

theorem rowsOf_cat {a b c : Arr} {n m : Nat} {s : List Nat} (ha : a.shape = n :: s) (hb : b.shape = m :: s)
    (hd : a.dtype = b.dtype) (h : catArrs a b = .ok c) : rowsOf c = rowsOf a ++ rowsOf b := by
  obtain ⟨c', h1, h2, h3, h4⟩ := catArrs_ok ha hb hd
  rw [h] at h1; cases h1
  obtain ⟨la, ra⟩ := rowsOf_eq ha
  obtain ⟨lb, rb⟩ := rowsOf_eq hb
  obtain ⟨lc, rc⟩ := rowsOf_eq h2
  have hal : a.bytes.length = n * (numel s * a.dtype.itemsize) := by rw [a.wf, ha, numel_cons, Nat.mul_assoc]
  have hbl : b.bytes.length = m * (numel s * a.dtype.itemsize) := by rw [b.wf, hb, numel_cons, Nat.mul_assoc, hd]
  apply List.ext_getElem?
  intro i
  by_cases hi : i < n + m
  · obtain ⟨r, hr, hr'⟩ := rc i hi
    rw [hr]
    obtain ⟨r1, r2, r3⟩ := row_spec hr'
    rw [h2, h3, List.tail_cons] at r3
    rw [h2, List.tail_cons] at r2
    by_cases hin : i < n
    · rw [List.getElem?_append_left (by omega)]
      obtain ⟨q, hq, hq'⟩ := ra i hin
      rw [hq]
      obtain ⟨q1, q2, q3⟩ := row_spec hq'
      rw [ha, List.tail_cons] at q2 q3
      congr 1
      apply Arr.ext
      · rw [r1, q1, h3]
      · rw [r2, q2]
      · rw [r3, q3, h4]
        have : (i + 1) * (numel s * a.dtype.itemsize) ≤ n * (numel s * a.dtype.itemsize) := Nat.mul_le_mul_right _ hin
        rw [Nat.add_mul, Nat.one_mul] at this
        rw [List.drop_append_of_le_length (by omega), List.take_append_of_le_length (by rw [List.length_drop]; omega)]
    · rw [List.getElem?_append_right (by omega), la]
      obtain ⟨q, hq, hq'⟩ := rb (i - n) (by omega)
      rw [hq]
      obtain ⟨q1, q2, q3⟩ := row_spec hq'
      rw [hb, List.tail_cons] at q2 q3
      congr 1
      apply Arr.ext
      · rw [r1, q1, h3, hd]
      · rw [r2, q2]
      · rw [r3, q3, h4, ← hd]
        have : i * (numel s * a.dtype.itemsize) = a.bytes.length + (i - n) * (numel s * a.dtype.itemsize) := by
          rw [hal, ← Nat.add_mul]; congr 1; omega
        rw [this, ← List.drop_drop]
        simp
  · rw [List.getElem?_eq_none (by omega), List.getElem?_eq_none (by rw [List.length_append]; omega)]

/-- All tensors of the dictionary fit a shape (beyond the batch dimension) and an element type given per path. -/
def Fits (T : Path → List Nat × DType) (v : Nested Arr) : Prop :=
  ∀ p t, v.lookup p = some t → ∃ b, t.shape = b :: (T p).1 ∧ t.dtype = (T p).2

/-- What merging does at one path. -/
def Joined (x y z : Option Arr) : Prop :=
  match x, y with
  | none, y => z = y
  | x, none => z = x
  | some t, some a => ∃ c, z = some c ∧ catArrs t a = .ok c

theorem joined_none_right (x : Option Arr) : Joined x none x := by cases x <;> rfl
theorem joined_none_left (x : Option Arr) : Joined none x x := rfl

theorem fits_joined {T : Path → List Nat × DType} {p : Path} {x y z : Option Arr} (h : Joined x y z)
    (hx : ∀ t, x = some t → ∃ b, t.shape = b :: (T p).1 ∧ t.dtype = (T p).2)
    (hy : ∀ t, y = some t → ∃ b, t.shape = b :: (T p).1 ∧ t.dtype = (T p).2) :
    ∀ t, z = some t → ∃ b, t.shape = b :: (T p).1 ∧ t.dtype = (T p).2 := by
  intro t hz
  cases x with
  | none => simp only [Joined] at h; exact hy t (by rw [← h, hz])
  | some a =>
    cases y with
    | none => simp only [Joined] at h; exact hx t (by rw [← h, hz])
    | some b =>
      obtain ⟨c, h1, h2⟩ := h
      obtain ⟨n, a1, a2⟩ := hx a rfl
      obtain ⟨m, b1, b2⟩ := hy b rfl
      obtain ⟨c', e1, e2, e3, _⟩ := catArrs_ok a1 b1 (by rw [a2, b2])
      rw [h1] at hz
      cases hz
      rw [h2] at e1
      cases e1
      exact ⟨_, e2, by rw [e3, a2]⟩

theorem atDepth_get {n : Nat} {d : List (PyStr × Nested α)} (h : AtDepth (n + 1) (Nested.node d)) {k : PyStr} {v : Nested α}
    (hg : Dict.get? d k = some v) : AtDepth n v := h (k, v) (Dict.mem_of_get? _ hg)

theorem atDepth_set {n : Nat} {d : List (PyStr × Nested α)} (h : AtDepth (n + 1) (Nested.node d)) (k : PyStr) {v : Nested α}
    (hv : AtDepth n v) : AtDepth (n + 1) (Nested.node (Dict.set d k v)) := by
  intro kv hkv
  rcases Dict.mem_set hkv with h2 | h2
  · rw [h2]; exact hv
  · exact h kv h2

mutual
theorem mergeLogValue_ok : ∀ (v : Nested Arr) (n : Nat) (T : Path → List Nat × DType) (acc : List (PyStr × Nested Arr)) (k : PyStr),
    v.WF → AtDepth n v → Fits (fun p => T (k :: p)) v → (Nested.node acc).WF → AtDepth (n + 1) (Nested.node acc) →
    Fits T (Nested.node acc) →
    ∃ acc', mergeLogValue acc k v = .ok acc' ∧ (Nested.node acc').WF ∧ AtDepth (n + 1) (Nested.node acc') ∧
      ∀ k' q, Joined ((Nested.node acc).lookup (k' :: q)) (if k = k' then v.lookup q else none) ((Nested.node acc').lookup (k' :: q))
  | .leaf a, n, T, acc, k, hw, hd, hf, aw, ad, af => by
    cases hg : Dict.get? acc k with
    | none =>
      refine ⟨_, by simp only [mergeLogValue, hg], WF_set aw k hw, atDepth_set ad k hd, ?_⟩
      intro k' q
      rw [lookup_set]
      by_cases e : k = k'
      · subst e
        rw [if_pos rfl, if_pos rfl, lookup_node_cons, hg]
        exact joined_none_left _
      · rw [if_neg e, if_neg e]; exact joined_none_right _
    | some x =>
      have hx := atDepth_get ad hg
      cases n with
      | succ n => simp [AtDepth] at hd
      | zero =>
        cases x with
        | node m => simp [AtDepth] at hx
        | leaf t =>
          obtain ⟨b1, t1, t2⟩ := af [k] t (by rw [lookup_node_cons, hg]; rfl)
          obtain ⟨b2, a1, a2⟩ := hf [] a rfl
          obtain ⟨c, c1, c2, c3, c4⟩ := catArrs_ok t1 a1 (by rw [t2, a2])
          refine ⟨Dict.set acc k (.leaf c), by simp only [mergeLogValue, hg, c1], WF_set aw k (by simp [Nested.WF]), atDepth_set ad k (by simp [AtDepth]), ?_⟩
          intro k' q
          rw [lookup_set]
          by_cases e : k = k'
          · subst e
            rw [if_pos rfl, if_pos rfl, lookup_node_cons, hg]
            cases q with
            | nil => exact ⟨c, rfl, c1⟩
            | cons y q => rfl
          · rw [if_neg e, if_neg e]; exact joined_none_right _
  | .node m, n, T, acc, k, hw, hd, hf, aw, ad, af => by
    cases n with
    | zero => simp [AtDepth] at hd
    | succ n =>
      cases hg : Dict.get? acc k with
      | none =>
        obtain ⟨sub, s1, s2, s3, s4⟩ := mergeLogDict_ok m n (fun p => T (k :: p)) [] hw hd hf (by simp [WF_node_iff, Dict.keys])
          (by intro kv hkv; simp at hkv) (by intro p t h; cases p <;> simp [Nested.lookup] at h)
        refine ⟨_, by simp only [mergeLogValue, hg, s1], WF_set aw k s2, atDepth_set ad k s3, ?_⟩
        intro k' q
        rw [lookup_set]
        by_cases e : k = k'
        · subst e
          rw [if_pos rfl, if_pos rfl, lookup_node_cons, hg]
          have := s4 q
          rw [lookup_empty] at this
          simp only [Joined] at this
          rw [this]
          exact joined_none_left _
        · rw [if_neg e, if_neg e]; exact joined_none_right _
      | some x =>
        have hx := atDepth_get ad hg
        cases x with
        | leaf t => simp [AtDepth] at hx
        | node sub0 =>
          obtain ⟨sub, s1, s2, s3, s4⟩ := mergeLogDict_ok m n (fun p => T (k :: p)) sub0 hw hd hf
            ((WF_node_iff.1 aw).2 _ (Dict.mem_of_get? _ hg)) hx
            (by intro p t h; exact af (k :: p) t (by rw [lookup_node_cons, hg]; exact h))
          refine ⟨_, by simp only [mergeLogValue, hg, s1], WF_set aw k s2, atDepth_set ad k s3, ?_⟩
          intro k' q
          rw [lookup_set]
          by_cases e : k = k'
          · subst e
            rw [if_pos rfl, if_pos rfl, lookup_node_cons, hg]
            exact s4 q
          · rw [if_neg e, if_neg e]; exact joined_none_right _
theorem mergeLogDict_ok : ∀ (m : List (PyStr × Nested Arr)) (n : Nat) (T : Path → List Nat × DType) (acc : List (PyStr × Nested Arr)),
    (Nested.node m).WF → AtDepth (n + 1) (Nested.node m) → Fits T (Nested.node m) → (Nested.node acc).WF →
    AtDepth (n + 1) (Nested.node acc) → Fits T (Nested.node acc) →
    ∃ acc', mergeLogDict acc m = .ok acc' ∧ (Nested.node acc').WF ∧ AtDepth (n + 1) (Nested.node acc') ∧
      ∀ p, Joined ((Nested.node acc).lookup p) ((Nested.node m).lookup p) ((Nested.node acc').lookup p)
  | [], n, T, acc, _, _, _, aw, ad, _ => ⟨acc, by simp [mergeLogDict], aw, ad, fun p => by rw [lookup_empty]; exact joined_none_right _⟩
  | (k, v) :: rest, n, T, acc, hw, hd, hf, aw, ad, af => by
    have hw' := WF_node_iff.1 hw
    have hnd := hw'.1
    simp only [Dict.keys, List.map_cons, List.nodup_cons] at hnd
    have hrest : ∀ q, (Nested.node rest).lookup (k :: q) = none := by
      intro q; rw [lookup_node_cons, (Dict.get?_eq_none_iff _ _).2 hnd.1]; rfl
    obtain ⟨acc1, h1, h2, h3, h4⟩ := mergeLogValue_ok v n T acc k (hw'.2 (k, v) (by simp)) (hd (k, v) (by simp))
      (by intro p t h; exact hf (k :: p) t (by rw [lookup_cons_cons, if_pos rfl]; exact h)) aw ad af
    have f1 : Fits T (Nested.node acc1) := by
      intro p
      cases p with
      | nil => intro t h; simp [Nested.lookup] at h
      | cons k' q =>
        refine fits_joined (h4 k' q) (af _) ?_
        intro t ht
        by_cases e : k = k'
        · subst e
          rw [if_pos rfl] at ht
          exact hf (k :: q) t (by rw [lookup_cons_cons, if_pos rfl]; exact ht)
        · rw [if_neg e] at ht; cases ht
    obtain ⟨acc2, g1, g2, g3, g4⟩ := mergeLogDict_ok rest n T acc1
      (WF_node_iff.2 ⟨hnd.2, fun kv hkv => hw'.2 kv (by simp [hkv])⟩) (fun kv hkv => hd kv (by simp [hkv]))
      (by
        intro p t h
        cases p with
        | nil => simp [Nested.lookup] at h
        | cons k' q =>
          have hne : k ≠ k' := by intro e; subst e; rw [hrest] at h; cases h
          exact hf (k' :: q) t (by rw [lookup_cons_cons, if_neg hne]; exact h)) h2 h3 f1
    refine ⟨acc2, by simp only [mergeLogDict, h1, g1], g2, g3, ?_⟩
    intro p
    cases p with
    | nil => simp [Nested.lookup, Joined]
    | cons k' q =>
      have a := h4 k' q
      have b := g4 (k' :: q)
      rw [lookup_cons_cons]
      by_cases e : k = k'
      · subst e
        rw [hrest] at b
        rw [if_pos rfl] at a ⊢
        have : (Nested.node acc2).lookup (k :: q) = (Nested.node acc1).lookup (k :: q) := by
          revert b; cases (Nested.node acc1).lookup (k :: q) <;> exact fun b => b
        rw [this]; exact a
      · rw [if_neg e] at a ⊢
        have : (Nested.node acc1).lookup (k' :: q) = (Nested.node acc).lookup (k' :: q) := by
          revert a; cases (Nested.node acc).lookup (k' :: q) <;> exact fun a => a
        rw [this] at b; exact b
end

theorem mergeLogsFrom_ok (n : Nat) (T : Path → List Nat × DType) (logs : List (List PyStr × List (PyStr × Nested Arr))) :
    ∀ (ids : List PyStr) (acc : List (PyStr × Nested Arr)),
    (∀ l ∈ logs, (Nested.node l.2).WF ∧ AtDepth (n + 1) (Nested.node l.2) ∧ Fits T (Nested.node l.2)) →
    (Nested.node acc).WF → AtDepth (n + 1) (Nested.node acc) → Fits T (Nested.node acc) →
    ∃ merged, mergeLogsFrom ids acc logs = .ok (ids ++ logs.flatMap Prod.fst, merged) ∧ Fits T (Nested.node merged) ∧
      ∀ p, rowsAt merged p = rowsAt acc p ++ (logs.flatMap fun l => rowsAt l.2 p) ∧
        ((Nested.node merged).lookup p = none ↔ (Nested.node acc).lookup p = none ∧ ∀ l ∈ logs, (Nested.node l.2).lookup p = none) := by
  induction logs with
  | nil => intro ids acc _ _ _ af; exact ⟨acc, by simp [mergeLogsFrom], af, fun p => by simp⟩
  | cons l logs ih =>
    intro ids acc hl aw ad af
    obtain ⟨lw, ld, lf⟩ := hl l (by simp)
    obtain ⟨acc1, h1, h2, h3, h4⟩ := mergeLogDict_ok l.2 n T acc lw ld lf aw ad af
    have f1 : Fits T (Nested.node acc1) := fun p => fits_joined (h4 p) (af p) (lf p)
    obtain ⟨merged, g1, g2, g3⟩ := ih (ids ++ l.1) acc1 (fun x hx => hl x (by simp [hx])) h2 h3 f1
    refine ⟨merged, by simp only [mergeLogsFrom, h1, g1]; simp, g2, ?_⟩
    intro p
    have hj := h4 p
    have key : rowsAt acc1 p = rowsAt acc p ++ rowsAt l.2 p ∧
        ((Nested.node acc1).lookup p = none ↔ (Nested.node acc).lookup p = none ∧ (Nested.node l.2).lookup p = none) := by
      unfold rowsAt
      cases ha : (Nested.node acc).lookup p with
      | none =>
        rw [ha] at hj
        simp only [Joined] at hj
        rw [hj]; simp
      | some t =>
        cases hb : (Nested.node l.2).lookup p with
        | none =>
          rw [ha, hb] at hj
          simp only [Joined] at hj
          rw [hj]; simp
        | some a =>
          rw [ha, hb] at hj
          obtain ⟨c, c1, c2⟩ := hj
          obtain ⟨x, t1, t2⟩ := af p t ha
          obtain ⟨y, a1, a2⟩ := lf p a hb
          rw [c1]
          exact ⟨rowsOf_cat t1 a1 (by rw [t2, a2]) c2, by simp⟩
    rw [(g3 p).1, (g3 p).2, key.1, key.2]
    constructor
    · simp
    · simp [and_assoc]

/-- **C74.** `merge_logs` of mergeable logs succeeds; the ids are the ids of all logs in order; at every path the rows are the rows of all
logs in order; nothing else is added and nothing is lost. -/
theorem C74_merge_logs {n : Nat} {logs : List (List PyStr × List (PyStr × Nested Arr))} (h : Mergeable n logs) :
    ∃ merged, mergeLogs logs = .ok (logs.flatMap Prod.fst, merged) ∧
      ∀ p, rowsAt merged p = (logs.flatMap fun l => rowsAt l.2 p) ∧
        ((∃ t, (Nested.node merged).lookup p = some t) ↔ ∃ l ∈ logs, ∃ t, (Nested.node l.2).lookup p = some t) := by
  let T : Path → List Nat × DType := fun p => ((h.shape p).choose, (h.shape p).choose_spec.choose)
  have hT : ∀ l ∈ logs, Fits T (Nested.node l.2) := by
    intro l hl p t ht
    exact (h.shape p).choose_spec.choose_spec l hl t ht
  obtain ⟨merged, h1, _, h3⟩ := mergeLogsFrom_ok n T logs [] [] (fun l hl => ⟨h.wf l hl, h.depth l hl, hT l hl⟩)
    (by simp [WF_node_iff, Dict.keys]) (by intro kv hkv; simp at hkv) (by intro p t h; rw [lookup_empty] at h; cases h)
  refine ⟨merged, by simpa [mergeLogs] using h1, ?_⟩
  intro p
  obtain ⟨a, b⟩ := h3 p
  rw [show rowsAt [] p = [] by simp [rowsAt, lookup_empty]] at a
  refine ⟨by simpa using a, ?_⟩
  rw [lookup_empty] at b
  constructor
  · rintro ⟨t, ht⟩
    apply Classical.byContradiction
    intro hn
    have : (Nested.node merged).lookup p = none := b.2 ⟨rfl, by
      intro l hl
      cases hx : (Nested.node l.2).lookup p with
      | none => rfl
      | some t => exact absurd ⟨l, hl, t, hx⟩ hn⟩
    rw [this] at ht; cases ht
  · rintro ⟨l, hl, t, ht⟩
    cases hm : (Nested.node merged).lookup p with
    | some t => exact ⟨t, rfl⟩
    | none =>
      have := (b.1 hm).2 l hl
      rw [this] at ht; cases ht

/-- **C74, alignment.** At a path that all logs have, with one row per id in every log, pairing the merged ids with the merged rows gives
the pairs of all logs in order: row `i` still belongs to id `i`. -/
theorem C74_alignment {n : Nat} {logs : List (List PyStr × List (PyStr × Nested Arr))} (h : Mergeable n logs) (p : Path)
    (hp : ∀ l ∈ logs, (rowsAt l.2 p).length = l.1.length) :
    ∃ merged, mergeLogs logs = .ok (logs.flatMap Prod.fst, merged) ∧ (rowsAt merged p).length = (logs.flatMap Prod.fst).length ∧
      (logs.flatMap Prod.fst).zip (rowsAt merged p) = logs.flatMap fun l => l.1.zip (rowsAt l.2 p) := by
  obtain ⟨merged, h1, h2⟩ := C74_merge_logs h
  refine ⟨merged, h1, ?_⟩
  rw [(h2 p).1]
  clear h h1 h2
  induction logs with
  | nil => simp
  | cons l logs ih =>
    have := ih (fun x hx => hp x (by simp [hx]))
    have hl := hp l (by simp)
    simp only [List.flatMap_cons, List.length_append]
    refine ⟨by omega, ?_⟩
    rw [List.zip_append hl.symm, this.2]

namespace Example

/-- Two logs of two modules with two and one rows. -/
def mlogs : List (List PyStr × List (PyStr × Nested Arr)) :=
  [([['a'], ['b']], [(['m'], .node [(['g'], .leaf ⟨.uint8, [2, 1], [1, 2], rfl⟩)])]),
   ([['c']], [(['m'], .node [(['g'], .leaf ⟨.uint8, [1, 1], [3], rfl⟩)]), (['n'], .node [(['g'], .leaf ⟨.uint8, [1, 2], [4, 5], rfl⟩)])])]

example : (mergeLogs mlogs).map (fun x => (x.1, (Nested.node x.2).lookup [['m'], ['g']], (Nested.node x.2).lookup [['n'], ['g']])) =
    .ok ([['a'], ['b'], ['c']], some ⟨.uint8, [3, 1], [1, 2, 3], rfl⟩, some ⟨.uint8, [1, 2], [4, 5], rfl⟩) := by rfl

/-- The hypotheses of C74 hold for them. -/
theorem mlogs_mergeable : Mergeable 1 mlogs := by
  refine ⟨?_, ?_, ?_⟩
  · intro l hl
    simp only [mlogs, List.mem_cons, List.not_mem_nil, or_false] at hl
    rcases hl with rfl | rfl <;> simp [Nested.WF, Nested.WFList]
  · intro l hl
    simp only [mlogs, List.mem_cons, List.not_mem_nil, or_false] at hl
    rcases hl with rfl | rfl <;> simp [AtDepth]
  · intro p
    refine ⟨if p = [['m'], ['g']] then [1] else [2], .uint8, ?_⟩
    intro l hl t ht
    have hm := mem_leaves_of_lookup ht
    simp only [mlogs, List.mem_cons, List.not_mem_nil, or_false] at hl
    rcases hl with rfl | rfl
    · simp [Nested.leaves, Nested.leavesList] at hm
      obtain ⟨rfl, rfl⟩ := hm
      exact ⟨2, rfl, rfl⟩
    · simp [Nested.leaves, Nested.leavesList] at hm
      rcases hm with ⟨rfl, rfl⟩ | ⟨rfl, rfl⟩
      · exact ⟨1, rfl, rfl⟩
      · exact ⟨1, rfl, rfl⟩

example : ∀ l ∈ mlogs, (rowsAt l.2 [['m'], ['g']]).length = l.1.length := by
  intro l hl
  simp only [mlogs, List.mem_cons, List.not_mem_nil, or_false] at hl
  rcases hl with rfl | rfl <;> rfl

end Example
end Logix
