import Verif.Spec.Saver
import Verif.Lemmas.Directory
import Verif.Props.Storage

namespace Logix
open Spec

theorem numel_cons (b : Nat) (s : List Nat) : numel (b :: s) = b * numel s := by
  simp only [numel, List.foldl_cons]
  rw [foldl_mul_eq]; simp

theorem row_ok_iff {t : Arr} {i : Nat} : (∃ r, t.row i = .ok r) ↔ ∃ b s, t.shape = b :: s ∧ i < b := by
  unfold Arr.row
  constructor
  · rintro ⟨r, h⟩
    split at h
    · cases h
    · next b s hs =>
      split at h
      · next hi => exact ⟨b, s, hs, hi⟩
      · cases h
  · rintro ⟨b, s, hs, hi⟩
    split
    · next h => rw [h] at hs; cases hs
    · next b' s' hs' =>
      rw [hs'] at hs
      cases hs
      rw [dif_pos hi]
      exact ⟨_, rfl⟩

theorem row_spec {t r : Arr} {i : Nat} (h : t.row i = .ok r) :
    r.dtype = t.dtype ∧ r.shape = t.shape.tail ∧
    r.bytes = (t.bytes.drop (i * (numel t.shape.tail * t.dtype.itemsize))).take (numel t.shape.tail * t.dtype.itemsize) := by
  unfold Arr.row at h
  split at h
  · cases h
  · next b s hs =>
    split at h
    · simp only [Except.ok.injEq] at h
      subst h
      simp [hs]
    · cases h

theorem row_error {t : Arr} {i : Nat} {e : PyErr} (h : t.row i = .error e) : e = .indexError := by
  unfold Arr.row at h
  split at h
  · cases h; rfl
  · split at h
    · cases h
    · cases h; rfl

/-! ### `_add` -/

/-- One key of the log, given the effect on its value. -/
theorem addLog_cons_spec (n idx : Nat) (k : PyStr) (v : Nested Arr) (rest buf : List (PyStr × Nested Arr)) (c : Nat)
    :
      (∃ v' c', addValue idx k v (buf, c) = ((Dict.set buf k v', c'), none) ∧ AtDepth n v' ∧
      ∀ q, v'.lookup q = ((v.lookup q).bind fun t => (t.row idx).toOption).or
        ((Dict.get? buf k).bind fun u => u.lookup q)) →
    (∀ (buf : List (PyStr × Nested Arr)) (c : Nat), AtDepth (n + 1) (Nested.node buf) →
      ∃ buf' c', addLog idx rest (buf, c) = ((buf', c'), none) ∧ AtDepth (n + 1) (Nested.node buf') ∧
      ∀ p, (Nested.node buf').lookup p = ((((Nested.node rest).lookup p).bind fun t => (t.row idx).toOption).or
        ((Nested.node buf).lookup p))) →
    k ∉ rest.map Prod.fst → AtDepth (n + 1) (Nested.node buf) →
    ∃ buf' c', addLog idx ((k, v) :: rest) (buf, c) = ((buf', c'), none) ∧ AtDepth (n + 1) (Nested.node buf') ∧
      ∀ p, (Nested.node buf').lookup p
        = ((((Nested.node ((k, v) :: rest)).lookup p).bind fun t => (t.row idx).toOption).or
        ((Nested.node buf).lookup p)) := by
  intro ⟨v', c1, hv, hvd, hvl⟩ ih hk hbuf
  have hd1 : AtDepth (n + 1) (Nested.node (Dict.set buf k v')) := by
    intro kv hkv
    have : ∀ (l : List (PyStr × Nested Arr)), (∀ kv ∈ l, AtDepth n kv.2) →
        ∀ kv ∈ Dict.set l k v', AtDepth n kv.2 := by
      intro l
      induction l with
      | nil => intro _ kv hkv; simp [Dict.set] at hkv; subst hkv; exact hvd
      | cons x l ihl =>
        obtain ⟨a, b⟩ := x
        intro hl kv hkv
        simp only [Dict.set] at hkv
        split at hkv
        · rcases List.mem_cons.1 hkv with rfl | hkv
          · exact hvd
          · exact hl kv (by simp [hkv])
        · rcases List.mem_cons.1 hkv with rfl | hkv
          · exact hl _ (by simp)
          · exact ihl (fun kv h => hl kv (by simp [h])) kv hkv
    exact this buf hbuf kv hkv
  obtain ⟨buf', c2, h2, h3, h4⟩ := ih (Dict.set buf k v') c1 hd1
  refine ⟨buf', c2, ?_, h3, ?_⟩
  · simp only [addLog, hv]; exact h2
  · intro p
    rw [h4]
    cases p with
    | nil => simp [lookup_node_nil]
    | cons k2 q =>
      simp only [lookup_node_cons, Dict.get?_cons, Dict.get?_set]
      by_cases e : k = k2
      · subst e
        have : Dict.get? rest k = none := (Dict.get?_eq_none_iff rest k).2 hk
        rw [this]
        simp only [Option.bind_none, Option.none_or, if_true, Option.bind_some, hvl]
      · simp only [if_neg e]

theorem addLog_spec (n : Nat) (idx : Nat) : ∀ (log buf : List (PyStr × Nested Arr)) (c : Nat),
    AtDepth (n + 1) (Nested.node log) → AtDepth (n + 1) (Nested.node buf) → (Nested.node log).WF →
    (∀ p t, (Nested.node log).lookup p = some t → ∃ r, t.row idx = .ok r) →
    ∃ buf' c', addLog idx log (buf, c) = ((buf', c'), none) ∧ AtDepth (n + 1) (Nested.node buf') ∧
      ∀ p, (Nested.node buf').lookup p = ((((Nested.node log).lookup p).bind fun t => (t.row idx).toOption).or
        ((Nested.node buf).lookup p)) := by
  induction n with
  | zero =>
    intro log
    induction log with
    | nil =>
      intro buf c _ hb _ _
      refine ⟨buf, c, rfl, hb, ?_⟩
      intro p; rw [lookup_empty]; rfl
    | cons x rest ihl =>
      obtain ⟨k, v⟩ := x
      intro buf c hl hb hwf hrows
      simp only [Nested.WF, List.map_cons, List.nodup_cons, Nested.WFList] at hwf
      have hv0 : AtDepth 0 v := hl (k, v) (by simp)
      cases v with
      | node m => exact absurd hv0 (by simp [AtDepth])
      | leaf t =>
        obtain ⟨r, hr⟩ := hrows [k] t (by simp [Nested.lookup])
        apply addLog_cons_spec
        · refine ⟨.leaf r, c + r.size, by simp [addValue, hr], by simp [AtDepth], ?_⟩
          intro q
          cases q with
          | nil => simp [Nested.lookup, hr, Except.toOption]
          | cons k2 q =>
            simp only [lookup_leaf_cons, Option.bind_none, Option.none_or]
            cases hg : Dict.get? buf k with
            | none => rfl
            | some u =>
              have hu : AtDepth 0 u := hb (k, u) (Dict.mem_of_get? buf hg)
              cases u with
              | leaf b => rfl
              | node m => exact absurd hu (by simp [AtDepth])
        · intro buf c hbuf
          refine ihl buf c (fun kv hkv => hl kv (by simp [hkv])) hbuf ⟨hwf.1.2, hwf.2.2⟩ ?_
          intro p t' hp
          cases p with
          | nil => simp [lookup_node_nil] at hp
          | cons k2 q =>
            apply hrows (k2 :: q) t'
            rw [lookup_node_cons] at hp ⊢
            have : k ≠ k2 := by
              intro e; subst e
              rw [(Dict.get?_eq_none_iff rest k).2 hwf.1.1] at hp; cases hp
            rw [Dict.get?_cons, if_neg this]; exact hp
        · exact hwf.1.1
        · exact hb
  | succ n ihn =>
    intro log
    induction log with
    | nil =>
      intro buf c _ hb _ _
      refine ⟨buf, c, rfl, hb, ?_⟩
      intro p; rw [lookup_empty]; rfl
    | cons x rest ihl =>
      obtain ⟨k, v⟩ := x
      intro buf c hl hb hwf hrows
      simp only [Nested.WF, List.map_cons, List.nodup_cons, Nested.WFList] at hwf
      have hv0 : AtDepth (n + 1) v := hl (k, v) (by simp)
      cases v with
      | leaf t => exact absurd hv0 (by simp [AtDepth])
      | node m =>
        have hrm : ∀ p t, (Nested.node m).lookup p = some t → ∃ r, t.row idx = .ok r := by
          intro p t hp
          apply hrows (k :: p) t
          rw [lookup_node_cons, Dict.get?_cons_self]; exact hp
        apply addLog_cons_spec
        · cases hg : Dict.get? buf k with
          | none =>
            obtain ⟨sub, c', h1, h2, h3⟩ := ihn m [] c hv0 (by intro kv hkv; simp at hkv) hwf.2.1 hrm
            refine ⟨.node sub, c', by simp [addValue, hg, h1], h2, ?_⟩
            intro q; rw [h3, lookup_empty]; rfl
          | some u =>
            have hu : AtDepth (n + 1) u := hb (k, u) (Dict.mem_of_get? buf hg)
            cases u with
            | leaf b => exact absurd hu (by simp [AtDepth])
            | node s =>
              obtain ⟨sub, c', h1, h2, h3⟩ := ihn m s c hv0 hu hwf.2.1 hrm
              refine ⟨.node sub, c', by simp [addValue, hg, h1], h2, ?_⟩
              intro q; rw [h3]; rfl
        · intro buf c hbuf
          refine ihl buf c (fun kv hkv => hl kv (by simp [hkv])) hbuf ⟨hwf.1.2, hwf.2.2⟩ ?_
          intro p t' hp
          cases p with
          | nil => simp [lookup_node_nil] at hp
          | cons k2 q =>
            apply hrows (k2 :: q) t'
            rw [lookup_node_cons] at hp ⊢
            have : k ≠ k2 := by
              intro e; subst e
              rw [(Dict.get?_eq_none_iff rest k).2 hwf.1.1] at hp; cases hp
            rw [Dict.get?_cons, if_neg this]; exact hp
        · exact hwf.1.1
        · exact hb

/-! ### `buffer_write` -/

/-- What the saver keeps in its buffer when all batches are good. -/
structure GoodSample (order : List Path) (n : Nat) (d : Nested Arr) : Prop where
  all : HasAll order d
  one : OneDtype order d
  depth : AtDepth n d
  nonempty : ∃ p ∈ order, ∃ a, d.lookup p = some a ∧ a.bytes ≠ []

theorem row_bytes_ne_nil {t r : Arr} {i : Nat} (h : t.row i = .ok r) (hn : numel t.shape.tail ≠ 0) : r.bytes ≠ [] := by
  intro e
  have hw := r.wf
  rw [e, (row_spec h).2.1, (row_spec h).1] at hw
  have hi : t.dtype.itemsize ≠ 0 := by cases t.dtype <;> simp [DType.itemsize]
  simp only [List.length_nil] at hw
  exact (Nat.mul_ne_zero hn hi) hw.symm

theorem Dict.map_set {κ : Type u} {α : Type v} {β : Type w} [DecidableEq κ] (d : Dict κ α) (k : κ) (v : α) (f : α → β) :
    (Dict.set d k v).map (fun e => (e.1, f e.2)) = Dict.set (d.map fun e => (e.1, f e.2)) k (f v) := by
  induction d with
  | nil => rfl
  | cons x d ih =>
    obtain ⟨a, b⟩ := x
    simp only [Dict.set, List.map_cons]
    split
    · simp
    · simp [ih]

theorem Dict.mem_set {κ : Type u} {α : Type v} [DecidableEq κ] {d : Dict κ α} {k : κ} {v : α} {e : κ × α}
    (h : e ∈ Dict.set d k v) : e = (k, v) ∨ e ∈ d := by
  induction d with
  | nil => simp [Dict.set] at h; exact Or.inl h
  | cons x d ih =>
    obtain ⟨a, b⟩ := x
    simp only [Dict.set] at h
    split at h
    · next hk =>
      rcases List.mem_cons.1 h with h | h
      · left; rw [h, hk]
      · right; simp [h]
    · rcases List.mem_cons.1 h with h | h
      · right; simp [h]
      · rcases ih h with h | h
        · exact Or.inl h
        · right; simp [h]

theorem Dict.set_ne_nil {κ : Type u} {α : Type v} [DecidableEq κ] (d : Dict κ α) (k : κ) (v : α) : Dict.set d k v ≠ [] := by
  cases d with
  | nil => simp [Dict.set]
  | cons x d => obtain ⟨a, b⟩ := x; simp only [Dict.set]; split <;> simp

theorem views_items (s : Saver) : views s.items = s.buffer.map fun e => (e.1, (Nested.node e.2).lookup) := by
  simp [views, Saver.items, List.map_map, Function.comp_def]

theorem items_keys (s : Saver) : s.items.map Prod.fst = Dict.keys s.buffer := by
  simp [Saver.items, Dict.keys, List.map_map, Function.comp_def]

/-- The loop of `buffer_write`; `Q` is any property of the samples it builds. -/
theorem bufferWriteFrom_core {n : Nat} {log : List (PyStr × Nested Arr)} {total : Nat} {Q : Nested Arr → Prop}
    (hwf : (Nested.node log).WF) (hdepth : AtDepth n (Nested.node log))
    (hrow : ∀ p t, (Nested.node log).lookup p = some t → ∃ b s, t.shape = b :: s ∧ total ≤ b)
    (hQd : ∀ d, Q d → AtDepth n d)
    (hQ : ∀ i < total, ∀ d, AtDepth n d → (∀ p, ((Nested.node log).lookup p).isSome → d.lookup p = rowView log i p) → Q d) :
    ∀ (ids : List PyStr) (idx : Nat) (s : Saver),
    idx + ids.length ≤ total → (Dict.keys s.buffer).Nodup → (∀ e ∈ s.items, Q e.2) →
    ∃ buf c, Saver.bufferWriteFrom log idx ids s = ({ s with buffer := buf, bufferSize := c }, .ok ()) ∧
      (Dict.keys buf).Nodup ∧ (∀ e ∈ Saver.items { s with buffer := buf, bufferSize := c }, Q e.2) ∧
      views (Saver.items { s with buffer := buf, bufferSize := c }) = recordFrom log idx ids (views s.items) := by
  intro ids
  induction ids with
  | nil =>
    intro idx s _ hk hs
    exact ⟨s.buffer, s.bufferSize, rfl, hk, hs, rfl⟩
  | cons did rest ih =>
    intro idx s hle hk hs
    simp only [List.length_cons] at hle
    obtain ⟨m, rfl⟩ : ∃ m, n = m + 1 := by
      cases n with
      | zero => exact absurd hdepth (by simp [AtDepth])
      | succ m => exact ⟨m, rfl⟩
    have hold : AtDepth (m + 1) (Nested.node ((Dict.get? s.buffer did).getD [])) := by
      cases hget : Dict.get? s.buffer did with
      | none => intro kv hkv; simp at hkv
      | some b =>
        have := Dict.mem_of_get? s.buffer hget
        exact hQd _ (hs (did, .node b) (by
          rw [Saver.items, List.mem_map]; exact ⟨(did, b), this, rfl⟩))
    have hrows : ∀ p t, (Nested.node log).lookup p = some t → ∃ r, t.row idx = .ok r := by
      intro p t hp
      obtain ⟨b, sh, h1, h2⟩ := hrow p t hp
      exact row_ok_iff.2 ⟨b, sh, h1, by omega⟩
    obtain ⟨buf', c', hadd, hdep, hlook⟩ := addLog_spec m idx log _ s.bufferSize hdepth hold hwf hrows
    have hnew : Q (Nested.node buf') := by
      refine hQ idx (by omega) _ hdep ?_
      intro p hp
      obtain ⟨t, ht⟩ := Option.isSome_iff_exists.1 hp
      obtain ⟨r, hr⟩ := hrows p t ht
      rw [hlook]
      simp [rowView, ht, hr, Except.toOption]
    obtain ⟨buf, c, h1, h2, h3, h4⟩ := ih (idx + 1)
      { s with buffer := Dict.set s.buffer did buf', bufferSize := c' } (by omega) (Dict.nodup_keys_set _ _ _ hk) (by
        intro e he
        simp only [Saver.items, List.mem_map] at he
        obtain ⟨x, hx, rfl⟩ := he
        rcases Dict.mem_set hx with rfl | hx
        · exact hnew
        · exact hs _ (by rw [Saver.items, List.mem_map]; exact ⟨x, hx, rfl⟩))
    refine ⟨buf, c, ?_, h2, h3, ?_⟩
    · simp only [Saver.bufferWriteFrom, hadd]
      exact h1
    · rw [h4]
      simp only [recordFrom]
      congr 1
      rw [views_items, views_items]
      simp only
      rw [Dict.map_set s.buffer did buf' (fun x => (Nested.node x).lookup),
        Dict.get?_map s.buffer (fun x => (Nested.node x).lookup)]
      congr 1
      funext p
      rw [hlook]
      simp only [overlay, rowView]
      cases Dict.get? s.buffer did with
      | none => simp [lookup_empty]
      | some b => simp

theorem bufferWriteFrom_ok {order : List Path} {n : Nat} {log : List (PyStr × Nested Arr)} {all : List PyStr}
    (hg : GoodBatch order n all log) (ids : List PyStr) (idx : Nat) (s : Saver)
    (hle : idx + ids.length ≤ all.length) (hk : (Dict.keys s.buffer).Nodup) (hs : ∀ e ∈ s.items, GoodSample order n e.2) :
    ∃ buf c, Saver.bufferWriteFrom log idx ids s = ({ s with buffer := buf, bufferSize := c }, .ok ()) ∧
      (Dict.keys buf).Nodup ∧ (∀ e ∈ Saver.items { s with buffer := buf, bufferSize := c }, GoodSample order n e.2) ∧
      views (Saver.items { s with buffer := buf, bufferSize := c }) = recordFrom log idx ids (views s.items) := by
  refine bufferWriteFrom_core hg.wf hg.depth hg.rows (fun d h => h.depth) ?_ ids idx s hle hk hs
  intro i hi d hdep hlook
  have hval : ∀ p ∈ order, ∃ t r, (Nested.node log).lookup p = some t ∧ t.row i = .ok r ∧
      d.lookup p = some r ∧ 2 ≤ t.shape.length := by
    intro p hp
    obtain ⟨t, ht, h2⟩ := hg.watched p hp
    obtain ⟨b, sh, h1, hb⟩ := hg.rows p t ht
    obtain ⟨r, hr⟩ := row_ok_iff.2 ⟨b, sh, h1, (by omega : i < b)⟩
    exact ⟨t, r, ht, hr, by rw [hlook p (by simp [ht])]; simp [rowView, ht, hr, Except.toOption], h2⟩
  refine ⟨?_, ?_, hdep, ?_⟩
  · intro p hp
    obtain ⟨t, r, ht, hr, hb, h2⟩ := hval p hp
    refine ⟨r, hb, ?_⟩
    rw [(row_spec hr).2.1]
    intro e
    have := congrArg List.length e
    simp at this; omega
  · obtain ⟨dt, hdt⟩ := hg.oneDtype
    refine ⟨dt, ?_⟩
    intro p hp a ha
    obtain ⟨t, r, ht, hr, hb, h2⟩ := hval p hp
    rw [hb] at ha; cases ha
    rw [(row_spec hr).1]; exact hdt p hp t ht
  · obtain ⟨p, hp, t, ht, hne⟩ := hg.nonempty
    obtain ⟨t', r, ht', hr, hb, h2⟩ := hval p hp
    rw [ht] at ht'; cases ht'
    exact ⟨p, hp, r, hb, row_bytes_ne_nil hr hne⟩

/-- New, distinct ids: the samples are appended in order. -/
theorem recordFrom_new (log : List (PyStr × Nested Arr)) (ids : List PyStr) : ∀ (idx : Nat) (d : Dict PyStr View),
    ids.Nodup → (∀ x ∈ ids, x ∉ Dict.keys d) →
    recordFrom log idx ids d = d ++ (ids.zipIdx idx).map fun x => (x.1, rowView log x.2) := by
  induction ids with
  | nil => intro idx d _ _; simp [recordFrom]
  | cons a ids ih =>
    intro idx d hn hd
    rw [List.nodup_cons] at hn
    have ha := hd a (by simp)
    have hov : overlay (rowView log idx) ((Dict.get? d a).getD fun _ => none) = rowView log idx := by
      rw [(Dict.get?_eq_none_iff d a).2 ha]; funext p; simp [overlay]
    simp only [recordFrom]
    rw [hov, Dict.set_of_not_mem _ _ _ ha, ih (idx + 1) _ hn.2 ?_]
    · simp
    · intro x hx
      simp only [Dict.keys, List.map_append, List.map_cons, List.map_nil, List.mem_append, List.mem_singleton, not_or]
      exact ⟨hd x (by simp [hx]), fun e => hn.1 (e ▸ hx)⟩

theorem mem_keys_recordFrom (log : List (PyStr × Nested Arr)) (ids : List PyStr) : ∀ (idx : Nat) (d : Dict PyStr View) (k : PyStr),
    k ∈ Dict.keys (recordFrom log idx ids d) ↔ k ∈ Dict.keys d ∨ k ∈ ids := by
  induction ids with
  | nil => intro idx d k; simp [recordFrom]
  | cons a ids ih =>
    intro idx d k
    simp only [recordFrom]
    rw [ih, Dict.keys_set]
    split
    · next h =>
      simp only [List.mem_cons]
      constructor
      · rintro (h1 | h1) <;> simp [h1]
      · rintro (h1 | rfl | h1)
        · exact Or.inl h1
        · exact Or.inl h
        · exact Or.inr h1
    · simp only [List.mem_append, List.mem_cons, List.not_mem_nil, or_false, or_assoc]

/-! ### flushing -/

theorem flushSerialized_ok {order : List Path} (ho : GoodOrder order) {n : Nat} (fs : FS) (s : Saver)
    (hs : ∀ e ∈ s.items, GoodSample order n e.2) (hne : s.buffer ≠ []) :
    s.flushSerialized order fs = (addChunk fs order s.rank s.flushCount s.items,
      { s with flushCount := s.flushCount + 1, buffer := [], bufferSize := 0 }, .ok ()) ∧
    chunkData order s.items ≠ [] := by
  have hpos : ∃ e ∈ s.items, ∃ p ∈ order, ∃ a, e.2.lookup p = some a ∧ a.bytes ≠ [] := by
    cases hb : s.buffer with
    | nil => exact absurd hb hne
    | cons x xs =>
      refine ⟨(x.1, .node x.2), by simp [Saver.items, hb], ?_⟩
      exact (hs _ (by simp [Saver.items, hb])).nonempty
  have htot := totalSize_ne_zero ho.nodup hpos
  obtain ⟨h1, h2⟩ := writeChunk_ok fs s.rank s.flushCount s.items order ho.nodup ho.nonempty (fun e he => (hs e he).all) htot
  refine ⟨?_, chunkData_ne_nil ho.nodup htot⟩
  unfold Saver.flushSerialized
  have : s.buffer.isEmpty = false := by
    cases hb : s.buffer with
    | nil => exact absurd hb hne
    | cons x xs => rfl
  rw [this]
  simp only [Bool.false_eq_true, if_false, h1, h2]
  rfl

end Logix
