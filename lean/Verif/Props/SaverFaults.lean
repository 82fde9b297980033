/-
C08 (background flushing) and C77 (new session over an old directory): the properties are false; what the code does instead.
-/
import Verif.Props.Saver

namespace Logix
open Spec

/-! ### C08 -/

/-- Array elements per row of a log. -/
def Spec.rowElements (log : List (PyStr × Nested Arr)) : Nat :=
  ((Nested.node log).leaves.map fun pa => numel pa.2.shape.tail).sum

mutual
theorem addValue_count (idx : Nat) (key : PyStr) : ∀ (v : Nested Arr) (buf : List (PyStr × Nested Arr)) (n : Nat),
    (addValue idx key v (buf, n)).2 = none →
    (addValue idx key v (buf, n)).1.2 = n + (v.leaves.map fun pa => numel pa.2.shape.tail).sum
  | .leaf t, buf, n, h => by
    simp only [addValue] at h ⊢
    cases hr : t.row idx with
    | error e => rw [hr] at h; cases h
    | ok r => simp [Nested.leaves, Arr.size, (row_spec hr).2.1]
  | .node m, buf, n, h => by
    simp only [addValue] at h ⊢
    cases hg : Dict.get? buf key with
    | none => rw [hg] at h; exact addLog_count idx m _ _ h
    | some u =>
      rw [hg] at h
      cases u with
      | leaf b =>
        cases m with
        | nil => simp [Nested.leaves, Nested.leavesList]
        | cons x m => simp at h
      | node sub => exact addLog_count idx m _ _ h
theorem addLog_count (idx : Nat) : ∀ (log buf : List (PyStr × Nested Arr)) (n : Nat),
    (addLog idx log (buf, n)).2 = none →
    (addLog idx log (buf, n)).1.2 = n + ((Nested.leavesList log).map fun pa => numel pa.2.shape.tail).sum
  | [], buf, n, _ => by simp [addLog, Nested.leavesList]
  | (k, v) :: rest, buf, n, h => by
    simp only [addLog] at h ⊢
    cases hv : addValue idx k v (buf, n) with
    | mk st1 o =>
      obtain ⟨buf1, n1⟩ := st1
      rw [hv] at h
      cases o with
      | some e => cases h
      | none =>
        have h1 := addValue_count idx k v buf n (by rw [hv])
        have h2 := addLog_count idx rest buf1 n1 h
        rw [hv] at h1
        simp only at h1 ⊢
        rw [h2, h1]
        simp [Nested.leavesList, List.map_map, Function.comp_def, Nat.add_assoc]
end

theorem bufferWriteFrom_count (log : List (PyStr × Nested Arr)) : ∀ (ids : List PyStr) (idx : Nat) (s : Saver),
    (Saver.bufferWriteFrom log idx ids s).2 = .ok () →
    (Saver.bufferWriteFrom log idx ids s).1.bufferSize = s.bufferSize + ids.length * rowElements log := by
  intro ids
  induction ids with
  | nil => intro idx s _; simp [Saver.bufferWriteFrom]
  | cons a ids ih =>
    intro idx s h
    simp only [Saver.bufferWriteFrom] at h ⊢
    cases hr : (addLog idx log ((Dict.get? s.buffer a).getD [], s.bufferSize)).2 with
    | some e => rw [hr] at h; cases h
    | none =>
      rw [hr] at h
      have h1 := addLog_count idx log _ _ hr
      simp only
      rw [ih _ _ h]
      simp only [h1, List.length_cons, rowElements, Nested.leaves]
      rw [Nat.add_mul]; omega

/-- Only empty log data files in the directory. -/
def OnlyEmptyLogs (rank k : Nat) (fs : FS) : Prop :=
  (Dict.keys fs).Nodup ∧ ∃ pairs : List (Nat × Nat), pairs.Pairwise PairLt ∧ (∀ c ∈ pairs, c.1 = rank ∧ c.2 < k) ∧
    (∀ c ∈ pairs, Dict.get? fs (chunkFile c.1 c.2) = some (.data [])) ∧
    (∀ f ∈ Dict.keys fs, (∃ a, f = a ++ ".mmap".toList) → (∃ b, f = "log_".toList ++ b) →
      ∃ c ∈ pairs, f = chunkFile c.1 c.2)

theorem OnlyEmptyLogs.none_readable {rank k : Nat} {fs : FS} (h : OnlyEmptyLogs rank k fs) {listing : List PyStr}
    (hl : listing.Perm (Dict.keys fs)) (ds : Dataset) (hds : openDataset fs listing = .ok ds) : ds.len = 0 := by
  obtain ⟨hnd, pairs, h1, _, h3, h4⟩ := h
  have hf := findChunkIndices_files h1 (by
    intro c hc
    rw [← Dict.get?_isSome_iff, h3 c hc]; rfl) h4 hnd hl
  unfold openDataset at hds
  rw [hf] at hds
  simp only at hds
  cases pairs with
  | nil => simp [fetchData] at hds; subst hds; rfl
  | cons c pairs =>
    simp only [List.map_cons, fetchData] at hds
    rw [openData, loaderDataFile_chunkKey, h3 c (by simp)] at hds
    simp at hds

theorem OnlyEmptyLogs.flushSafe {rank k : Nat} {fs : FS} (h : OnlyEmptyLogs rank k fs) (s : Saver) (hr : s.rank = rank)
    (hk : s.flushCount = k) : OnlyEmptyLogs rank (k + 1) (runActions fs s.flushUnsafeEffects) := by
  obtain ⟨hnd, pairs, h1, h2, h3, h4⟩ := h
  unfold Saver.flushUnsafeEffects
  split
  · rw [hr, hk, writeNames_chunkFile, loaderDataFile_chunkKey]
    simp only [runActions, List.foldl_cons, List.foldl_nil, Action.run]
    refine ⟨Dict.nodup_keys_set _ _ _ hnd, pairs ++ [(rank, k)], ?_, ?_, ?_, ?_⟩
    · rw [List.pairwise_append]
      refine ⟨h1, by simp, ?_⟩
      intro a ha b hb
      simp at hb; subst hb
      have := h2 a ha
      exact Or.inr ⟨this.1, this.2⟩
    · intro c hc
      rw [List.mem_append] at hc
      rcases hc with hc | hc
      · have := h2 c hc; exact ⟨this.1, by omega⟩
      · simp at hc; subst hc; exact ⟨rfl, by simp⟩
    · intro c hc
      rw [List.mem_append] at hc
      rcases hc with hc | hc
      · rw [Dict.get?_set_ne, h3 c hc]
        intro e
        have := chunkFile_inj e
        have := h2 c hc
        omega
      · simp at hc; subst hc; rw [Dict.get?_set_self]
    · intro f hf ha hb
      rw [Dict.keys_set] at hf
      split at hf
      · obtain ⟨c, hc, e⟩ := h4 f hf ha hb; exact ⟨c, by simp [hc], e⟩
      · rw [List.mem_append] at hf
        rcases hf with hf | hf
        · obtain ⟨c, hc, e⟩ := h4 f hf ha hb; exact ⟨c, by simp [hc], e⟩
        · simp at hf; exact ⟨(rank, k), by simp, hf⟩
  · refine ⟨hnd, pairs, h1, ?_, h3, h4⟩
    intro c hc; have := h2 c hc; exact ⟨this.1, by omega⟩

/-- **C08 is false**, in the strongest way: with more than one worker and a positive threshold, a session in which every
batch exceeds the threshold loses *all* its samples. Nothing raises, the buffer is empty at the end, and no dataset
opened on the directory contains any sample (the directory may even be unreadable, see
`C08_two_character_ids_unreadable`). -/
theorem C08_async_loses_everything_refuted (order : List Path) (n : Nat) (fs : FS) (hfs : (Dict.keys fs).Nodup)
    (hclean : NoLogs fs) (rank nw : Nat) (hnw : 1 < nw) (thr : Int) (hthr : 0 < thr)
    (batches : List (List PyStr × List (PyStr × Nested Arr))) (hgood : ∀ b ∈ batches, GoodBatch order n b.1 b.2)
    (hbig : ∀ b ∈ batches, thr < ((b.1.length * rowElements b.2 : Nat) : Int)) :
    ∃ fs' s', runSession order (batches.map (fun b => .save b.1 b.2) ++ [.finalize]) fs (Saver.init rank nw thr)
        = (fs', s', .ok ()) ∧ s'.buffer = [] ∧
      ∀ listing : List PyStr, listing.Perm (Dict.keys fs') → ∀ ds, openDataset fs' listing = .ok ds → ds.len = 0 := by
  have key : ∀ (fs : FS) (s : Saver), s.rank = rank → s.numWorkers = nw → s.flushThreshold = thr → s.buffer = [] →
      s.bufferSize = 0 → OnlyEmptyLogs rank s.flushCount fs →
      ∃ fs' s', runSession order (batches.map (fun b => .save b.1 b.2)) fs s = (fs', s', .ok ()) ∧ s'.buffer = [] ∧
        OnlyEmptyLogs rank s'.flushCount fs' := by
    induction batches with
    | nil => intro fs s _ _ _ hb _ ho; exact ⟨fs, s, rfl, hb, ho⟩
    | cons b batches ih =>
      intro fs s h1 h2 h3 h4 h5 h6
      obtain ⟨buf, c, g1, _, _, _⟩ := bufferWriteFrom_ok (hgood b (by simp)) b.1 0 s (by simp)
        (by simp [h4, Dict.keys]) (by simp [Saver.items, h4])
      have hc := bufferWriteFrom_count b.2 b.1 0 s (by rw [g1])
      rw [g1, h5] at hc
      simp only [Nat.zero_add] at hc
      have hb := hbig b (by simp)
      have hf : 0 < s.flushThreshold ∧ s.flushThreshold < (c : Int) := by
        rw [h3, hc]; exact ⟨hthr, hb⟩
      obtain ⟨fs', s', k1, k2, k3⟩ := ih (fun x hx => hgood x (by simp [hx])) (fun x hx => hbig x (by simp [hx]))
        (runActions fs (Saver.flushUnsafeEffects { s with buffer := buf, bufferSize := c }))
        (Saver.bufferClear { s with buffer := buf, bufferSize := c, flushCount := s.flushCount + 1 })
        h1 h2 h3 rfl rfl (h6.flushSafe { s with buffer := buf, bufferSize := c } h1 rfl)
      refine ⟨fs', s', ?_, k2, k3⟩
      simp only [List.map_cons, runSession, SaverOp.run, Saver.saveLog, Saver.bufferWrite, g1, Saver.flush,
        Saver.flushSafe]
      rw [if_pos hf, if_pos (by rw [h2]; exact hnw)]
      exact k1
  obtain ⟨fs', s', h1, h2, h3⟩ := key fs (Saver.init rank nw thr) rfl rfl rfl rfl rfl
    ⟨hfs, [], by simp, by simp, by simp, fun f hf ha hb => absurd hb (hclean f hf ha)⟩
  refine ⟨fs', s', ?_, h2, fun listing hl ds hds => h3.none_readable hl ds hds⟩
  rw [runSession_append, h1]
  simp [runSession, SaverOp.run, Saver.finalize, Saver.flushSerialized, h2]

/-- With ids of exactly two characters a background flush leaves an empty data file, and the directory cannot be opened any more,
whatever complete chunks it contains besides. -/
theorem C08_two_character_ids_unreadable (order : List Path) (fs : FS) (hfs : (Dict.keys fs).Nodup)
    (hclean : NoLogs fs) (s : Saver)
    (htwo : ∀ id ∈ Dict.keys s.buffer, id.length = 2) (hnw : 1 < s.numWorkers)
    (hbig : 0 < s.flushThreshold ∧ s.flushThreshold < (s.bufferSize : Int)) :
    ∃ fs' s', s.flush order fs = (fs', s', .ok ()) ∧ s'.buffer = [] ∧
      ∀ listing : List PyStr, listing.Perm (Dict.keys fs') → openDataset fs' listing = .error .valueError := by
  refine ⟨_, _, by rw [Saver.flush, if_pos hbig, if_pos hnw]; rfl, rfl, ?_⟩
  have he : s.flushUnsafeEffects = [.create (chunkFile s.rank s.flushCount) (.data [])] := by
    unfold Saver.flushUnsafeEffects
    rw [if_pos (by rw [List.all_eq_true]; intro k hk; simpa using htwo k hk), writeNames_chunkFile, loaderDataFile_chunkKey]
  rw [he]
  simp only [runActions, List.foldl_cons, List.foldl_nil, Action.run]
  intro listing hl
  have hf := findChunkIndices_files (fs := Dict.set fs (chunkFile s.rank s.flushCount) (.data []))
    (pairs := [(s.rank, s.flushCount)]) (by simp)
    (by
      intro c hc; simp at hc; subst hc
      rw [← Dict.get?_isSome_iff, Dict.get?_set_self]; rfl)
    (by
      intro f hf ha hb
      rw [Dict.keys_set] at hf
      split at hf
      · exact absurd hb (hclean f hf ha)
      · rw [List.mem_append] at hf
        rcases hf with hf | hf
        · exact absurd hb (hclean f hf ha)
        · simp at hf; exact ⟨(s.rank, s.flushCount), by simp, hf⟩)
    (Dict.nodup_keys_set _ _ _ hfs) hl
  unfold openDataset
  rw [hf]
  simp only [List.map_cons, fetchData, openData, loaderDataFile_chunkKey, Dict.get?_set_self]

/-- **C08, the part that holds**: without a positive threshold (the default is -1) no background flush happens, and nothing is lost
for any number of workers (ids distinct). What is missing: with a positive threshold samples are lost. -/
theorem C08_no_threshold_partial (order : List Path) (ho : GoodOrder order) (n : Nat) (fs : FS) (hfs : (Dict.keys fs).Nodup)
    (hclean : NoLogs fs) (rank nw : Nat) (thr : Int) (hthr : thr ≤ 0) (ops : List SaverOp) (hsave : ∀ op ∈ ops, op ≠ .finalize)
    (hgood : ∀ op ∈ ops, GoodOp order n op) (hids : ((history ops).map Prod.fst).Nodup) :
    ∃ fs' s', runSession order (ops ++ [.finalize]) fs (Saver.init rank nw thr) = (fs', s', .ok ()) ∧
      ∀ listing : List PyStr, listing.Perm (Dict.keys fs') →
        ∃ ds, openDataset fs' listing = .ok ds ∧ Stores ds order (history ops) := by
  have hrec : ∀ (ops : List SaverOp) (d : Dict PyStr View),
      (Dict.keys d ++ (history ops).map Prod.fst).Nodup → ops.foldl record d = d ++ history ops := by
    intro ops
    induction ops with
    | nil => intro d _; simp [history]
    | cons op ops ih =>
      intro d hd
      cases op with
      | finalize => exact ih d hd
      | save ids log =>
        simp only [history, List.map_append, batchViews_keys] at hd ⊢
        have hd' := hd
        rw [← List.append_assoc, List.nodup_append, List.nodup_append] at hd'
        have e1 : record d (.save ids log) = d ++ batchViews ids log := by
          simp only [record]
          rw [recordFrom_new log ids 0 d hd'.1.2.1 (fun x hx hm => hd'.1.2.2 x hm x hx rfl)]
          rfl
        rw [List.foldl_cons, e1, ih]
        · rw [List.append_assoc]
        · have : Dict.keys (d ++ batchViews ids log) = Dict.keys d ++ ids := by
            simp only [Dict.keys, List.map_append]
            rw [batchViews_keys]
          rw [this, List.append_assoc]; exact hd
  have := C07_buffered_is_replaced order ho n fs hfs hclean rank nw thr hthr ops hsave hgood
  rw [hrec ops [] (by simpa [Dict.keys] using hids), List.nil_append] at this
  exact this

/-! ### C77 -/

/-- Two sessions of one process, one after the other, over the same directory. -/
theorem two_sessions (order : List Path) (ho : GoodOrder order) (n : Nat) (fs : FS) (hfs : (Dict.keys fs).Nodup)
    (hclean : NoLogs fs) (nw1 nw2 : Nat) (h1 : nw1 ≤ 1) (h2 : nw2 ≤ 1) (thr1 thr2 : Int) (ops1 ops2 : List SaverOp)
    (hg1 : ∀ op ∈ ops1, GoodOp order n op) (hg2 : ∀ op ∈ ops2, GoodOp order n op)
    (hid1 : ((history ops1).map Prod.fst).Nodup) (hid2 : ((history ops2).map Prod.fst).Nodup) :
    ∃ fs1 s1 fs2 s2 c1 c2,
      runSession order (ops1 ++ [.finalize]) fs (Saver.init 0 nw1 thr1) = (fs1, s1, .ok ()) ∧
      runSession order (ops2 ++ [.finalize]) fs1 (Saver.init 0 nw2 thr2) = (fs2, s2, .ok ()) ∧
      s1.flushCount = c1.length ∧ s2.flushCount = c2.length ∧ (∀ es ∈ c1, es ≠ []) ∧
      views c1.flatten = history ops1 ∧ views c2.flatten = history ops2 ∧
      ∀ listing : List PyStr, listing.Perm (Dict.keys fs2) →
        ∃ ds, openDataset fs2 listing = .ok ds ∧ Stores ds order (firstOcc Prod.fst (views (disk c1 c2).flatten)) := by
  have hgf : ∀ ops : List SaverOp, (∀ op ∈ ops, GoodOp order n op) → ∀ op ∈ ops ++ [.finalize], GoodOp order n op := by
    intro ops hg op hop
    rw [List.mem_append] at hop
    rcases hop with hop | hop
    · exact hg op hop
    · simp at hop; subst hop; trivial
  have hh : ∀ ops : List SaverOp, history (ops ++ [.finalize]) = history ops := by
    intro ops; rw [history_append]; simp [history]
  obtain ⟨fs1, s1, ss1, ch1, a1, a2, a3, a4, a5, _, a7⟩ := session_inv ho
    (Inv.init_zero (order := order) (n := n) hfs hclean h1 thr1) (ops1 ++ [.finalize]) (hgf ops1 hg1)
  have hre := a3.restart (fun r => if r = 0 then nw2 else 1)
    (by intro r; by_cases e : r = 0 <;> simp [e, h2]) (fun _ => thr2)
  have hold : (fun r => disk (if r = 0 then ([] : List Chunk) else []) (ch1 r)) = fun r => if r = 0 then ch1 0 else [] := by
    funext r
    by_cases e : r = 0
    · subst e; simp [disk]
    · simp [e, a4 r e, disk]
  rw [hold] at hre
  obtain ⟨fs2, s2, ss2, ch2, b1, b2, b3, b4, b5, _, b7⟩ := session_inv ho hre (ops2 ++ [.finalize]) (hgf ops2 hg2)
  have e1 := a7 (by rw [hh]; exact hid1)
  have e2 := b7 (by rw [hh]; exact hid2)
  have z1 : views s1.items = [] := by simp [views, Saver.items, a5 (by simp)]
  have z2 : views s2.items = [] := by simp [views, Saver.items, b5 (by simp)]
  rw [allViews, z1, List.append_nil, hh] at e1
  rw [allViews, z2, List.append_nil, hh] at e2
  refine ⟨fs1, s1, fs2, s2, ch1 0, ch2 0, a1, b1, ?_, ?_, ?_, e1, e2, ?_⟩
  · rw [← a2]; exact a3.count 0
  · rw [← b2]; exact b3.count 0
  · intro es hes; exact a3.chunk_ne_nil 0 es (by simp [disk, hes])
  · intro listing hl
    exact b3.opens_zero ho b4 hl

/-- **C77 is false.** If the new session writes fewer chunks than an earlier one in the same directory did, the dataset contains
a sample of the earlier session (here the ids of the two sessions are disjoint, so it is one the new session never logged). -/
theorem C77_stale_chunks_refuted (order : List Path) (ho : GoodOrder order) (n : Nat) (fs : FS) (hfs : (Dict.keys fs).Nodup)
    (hclean : NoLogs fs) (nw1 nw2 : Nat) (h1 : nw1 ≤ 1) (h2 : nw2 ≤ 1) (thr1 thr2 : Int) (ops1 ops2 : List SaverOp)
    (hg1 : ∀ op ∈ ops1, GoodOp order n op) (hg2 : ∀ op ∈ ops2, GoodOp order n op)
    (hid1 : ((history ops1).map Prod.fst).Nodup) (hid2 : ((history ops2).map Prod.fst).Nodup)
    (hdisj : ∀ id, id ∈ (history ops1).map Prod.fst → id ∉ (history ops2).map Prod.fst)
    (fs1 fs2 : FS) (s1 s2 : Saver)
    (hr1 : runSession order (ops1 ++ [.finalize]) fs (Saver.init 0 nw1 thr1) = (fs1, s1, .ok ()))
    (hr2 : runSession order (ops2 ++ [.finalize]) fs1 (Saver.init 0 nw2 thr2) = (fs2, s2, .ok ()))
    (hfewer : s2.flushCount < s1.flushCount) :
    ∀ listing : List PyStr, listing.Perm (Dict.keys fs2) →
      ∃ ds i id nd, openDataset fs2 listing = .ok ds ∧ ds.getItem i = .ok (id, nd) ∧
        id ∈ (history ops1).map Prod.fst ∧ id ∉ (history ops2).map Prod.fst := by
  obtain ⟨fs1', s1', fs2', s2', c1, c2, g1, g2, g3, g4, g5, g6, g7, g8⟩ :=
    two_sessions order ho n fs hfs hclean nw1 nw2 h1 h2 thr1 thr2 ops1 ops2 hg1 hg2 hid1 hid2
  rw [hr1] at g1
  obtain ⟨rfl, rfl, _⟩ := Prod.mk.injEq .. ▸ g1
  rw [hr2] at g2
  obtain ⟨rfl, rfl, _⟩ := Prod.mk.injEq .. ▸ g2
  intro listing hl
  obtain ⟨ds, k1, k2⟩ := g8 listing hl
  have hlt : c2.length < c1.length := by omega
  have hmem : c1[c2.length] ∈ c1.drop c2.length := by
    rw [List.drop_eq_getElem_cons hlt]; exact List.mem_cons_self ..
  have hne := g5 _ (List.getElem_mem hlt)
  obtain ⟨e, he⟩ := List.exists_mem_of_ne_nil _ hne
  have h3 : e.1 ∈ (history ops1).map Prod.fst := by
    rw [← g6, views_keys, List.mem_map]
    exact ⟨e, List.mem_flatten.2 ⟨_, List.getElem_mem hlt, he⟩, rfl⟩
  have h4 : e.1 ∈ (firstOcc Prod.fst (views (disk c1 c2).flatten)).map Prod.fst := by
    rw [mem_keys_firstOcc, views_keys, List.mem_map]
    refine ⟨e, List.mem_flatten.2 ⟨_, ?_, he⟩, rfl⟩
    rw [disk, List.mem_append]; exact Or.inr hmem
  obtain ⟨x, hx, hxe⟩ := List.mem_map.1 h4
  obtain ⟨i, hi, rfl⟩ := List.getElem_of_mem hx
  obtain ⟨nd, m1, _⟩ := k2.nested i hi
  refine ⟨ds, i, e.1, nd, k1, ?_, h3, hdisj _ h3⟩
  rw [m1, hxe]

/-- **C77, the part that holds**: if the new session writes at least as many chunks as the earlier one, the dataset is exactly
the new session's. What is missing: the case of fewer chunks, where the property is false. -/
theorem C77_enough_chunks_partial (order : List Path) (ho : GoodOrder order) (n : Nat) (fs : FS) (hfs : (Dict.keys fs).Nodup)
    (hclean : NoLogs fs) (nw1 nw2 : Nat) (h1 : nw1 ≤ 1) (h2 : nw2 ≤ 1) (thr1 thr2 : Int) (ops1 ops2 : List SaverOp)
    (hg1 : ∀ op ∈ ops1, GoodOp order n op) (hg2 : ∀ op ∈ ops2, GoodOp order n op)
    (hid1 : ((history ops1).map Prod.fst).Nodup) (hid2 : ((history ops2).map Prod.fst).Nodup)
    (fs1 fs2 : FS) (s1 s2 : Saver)
    (hr1 : runSession order (ops1 ++ [.finalize]) fs (Saver.init 0 nw1 thr1) = (fs1, s1, .ok ()))
    (hr2 : runSession order (ops2 ++ [.finalize]) fs1 (Saver.init 0 nw2 thr2) = (fs2, s2, .ok ()))
    (henough : s1.flushCount ≤ s2.flushCount) :
    ∀ listing : List PyStr, listing.Perm (Dict.keys fs2) →
      ∃ ds, openDataset fs2 listing = .ok ds ∧ Stores ds order (history ops2) := by
  obtain ⟨fs1', s1', fs2', s2', c1, c2, g1, g2, g3, g4, g5, g6, g7, g8⟩ :=
    two_sessions order ho n fs hfs hclean nw1 nw2 h1 h2 thr1 thr2 ops1 ops2 hg1 hg2 hid1 hid2
  rw [hr1] at g1
  obtain ⟨rfl, rfl, _⟩ := Prod.mk.injEq .. ▸ g1
  rw [hr2] at g2
  obtain ⟨rfl, rfl, _⟩ := Prod.mk.injEq .. ▸ g2
  intro listing hl
  obtain ⟨ds, k1, k2⟩ := g8 listing hl
  refine ⟨ds, k1, ?_⟩
  have : disk c1 c2 = c2 := by
    rw [disk, List.drop_eq_nil_of_le (by omega), List.append_nil]
  rw [this, g7, firstOcc_of_nodup _ _ hid2] at k2
  exact k2

/-! ### the hypotheses are met -/

namespace Example

/-- A batch tensor: one row per list, all of length two. -/
def tensor (rows : List (UInt8 × UInt8)) : Arr :=
  ⟨.uint8, [rows.length, 2], rows.flatMap fun r => [r.1, r.2], by
    have : ∀ l : List (UInt8 × UInt8), (l.flatMap fun r => [r.1, r.2]).length = l.length * 2 := by
      intro l; induction l with
      | nil => rfl
      | cons a l ih => simp [List.flatMap_cons, ih]; omega
    simp [this, numel, DType.itemsize]⟩

/-- A log with the two watched tensors. -/
def blog (rows : List (UInt8 × UInt8)) : List (PyStr × Nested Arr) :=
  [("fc1".toList, .node [("grad".toList, .leaf (tensor rows))]),
   ("fc2".toList, .node [("grad".toList, .leaf (tensor rows))])]

theorem blog_lookup {rows : List (UInt8 × UInt8)} {p : Path} {t : Arr} (h : (Nested.node (blog rows)).lookup p = some t) :
    t = tensor rows := by
  unfold blog at h
  cases p with
  | nil => simp [Nested.lookup] at h
  | cons k p =>
    rw [lookup_node_cons, Dict.get?_cons, Dict.get?_cons] at h
    have h2 : (Nested.node [("grad".toList, Nested.leaf (tensor rows))]).lookup p = some t := by
      split at h
      · simpa using h
      · split at h
        · simpa using h
        · simp [Dict.get?] at h
    cases p with
    | nil => simp [Nested.lookup] at h2
    | cons k2 p =>
      rw [lookup_node_cons, Dict.get?_cons] at h2
      split at h2
      · cases p with
        | nil => simp [Nested.lookup] at h2; exact h2.symm
        | cons k3 p => simp [Nested.lookup] at h2
      · simp [Dict.get?] at h2

/-- Every such batch with as many ids as rows is good. -/
theorem goodBatch (ids : List PyStr) (rows : List (UInt8 × UInt8)) (h : ids.length = rows.length) :
    GoodBatch order 2 ids (blog rows) where
  wf := by simp [blog, Nested.WF, Nested.WFList]
  depth := by simp [blog, AtDepth]
  rows := by
    intro p t ht
    rw [blog_lookup ht]
    exact ⟨rows.length, [2], rfl, by omega⟩
  watched := by
    intro p hp
    simp only [order, List.mem_cons, List.not_mem_nil, or_false] at hp
    refine ⟨tensor rows, ?_, by simp [tensor]⟩
    rcases hp with rfl | rfl <;> simp [blog, Nested.lookup, Dict.get?]
  oneDtype := ⟨.uint8, by intro p _ t ht; rw [blog_lookup ht]; rfl⟩
  nonempty := ⟨["fc1".toList, "grad".toList], by simp [order], tensor rows, by simp [blog, Nested.lookup, Dict.get?],
    by simp [tensor, numel]⟩

/-- A session of three batches with a finalize in between. -/
def ops : List SaverOp :=
  [.save ["a".toList, "b".toList] (blog [(1, 2), (3, 4)]), .finalize, .save ["c".toList] (blog [(5, 6)]),
   .save ["d".toList, "ee".toList] (blog [(7, 8), (9, 10)])]

theorem ops_good : ∀ op ∈ ops, GoodOp order 2 op := by
  intro op hop
  simp only [ops, List.mem_cons, List.not_mem_nil, or_false] at hop
  rcases hop with rfl | rfl | rfl | rfl
  · exact goodBatch _ _ rfl
  · trivial
  · exact goodBatch _ _ rfl
  · exact goodBatch _ _ rfl

theorem ops_ids : ((history ops).map Prod.fst).Nodup := by
  have : (history ops).map Prod.fst = [['a'], ['b'], ['c'], ['d'], ['e', 'e']] := rfl
  rw [this]; decide

/-- C02, C03, C07 apply to the session (threshold 5, and 1000). -/
example : ∃ fs' s', runSession order (ops ++ [.finalize]) [] (Saver.init 0 1 5) = (fs', s', .ok ()) ∧
      ∀ listing : List PyStr, listing.Perm (Dict.keys fs') →
        ∃ ds, openDataset fs' listing = .ok ds ∧ Stores ds order (history ops) :=
  C02_no_loss order goodOrder 2 [] (by simp [Dict.keys]) (by intro f hf; simp [Dict.keys] at hf) 1 (by omega) 5 ops
    ops_good ops_ids

/-- The two thresholds really give different chunkings: three chunks and two. -/
example : (runSession order (ops ++ [.finalize]) [] (Saver.init 0 1 3)).2.1.flushCount = 3 ∧
    (runSession order (ops ++ [.finalize]) [] (Saver.init 0 1 1000)).2.1.flushCount = 2 := by decide +kernel

/-- C04's hypothesis holds, and the bound is reached. -/
example : (runSession order [.save ["a".toList] (blog [(1, 2)])] [] (Saver.init 0 1 4)).2.2 = .ok () ∧
    unflushed (runSession order [.save ["a".toList] (blog [(1, 2)])] [] (Saver.init 0 1 4)).2.1 = 4 := ⟨rfl, rfl⟩

/-- A schedule of two ranks. -/
def sched : List (Nat × SaverOp) :=
  [(1, .save ["x".toList] (blog [(1, 1)])), (0, .save ["a".toList] (blog [(2, 2)])), (1, .finalize),
   (0, .save ["b".toList] (blog [(3, 3)])), (0, .finalize), (1, .save ["y".toList] (blog [(4, 4)])), (1, .finalize)]

/-- C06 applies to it. -/
example : ∃ fs' ss', runCluster order sched [] (fun r => Saver.init r 1 3) = (fs', ss', .ok ()) ∧
      ∀ listing : List PyStr, listing.Perm (Dict.keys fs') →
        ∃ ds, openDataset fs' listing = .ok ds ∧
          Stores ds order ((List.range 2).flatMap fun r => history (opsOf r sched)) := by
  refine C06_ranks order goodOrder 2 [] (by simp [Dict.keys]) (by intro f hf; simp [Dict.keys] at hf) 2 (fun _ => 1)
    (by simp) (fun _ => 3) sched ?_ ?_ ?_ ?_
  · intro x hx
    simp only [sched, List.mem_cons, List.not_mem_nil, or_false] at hx
    rcases hx with rfl | rfl | rfl | rfl | rfl | rfl | rfl <;> simp
  · intro x hx
    simp only [sched, List.mem_cons, List.not_mem_nil, or_false] at hx
    rcases hx with rfl | rfl | rfl | rfl | rfl | rfl | rfl <;> first | trivial | exact goodBatch _ _ rfl
  · intro r
    by_cases h0 : r = 0
    · subst h0; right; rfl
    · by_cases h1 : r = 1
      · subst h1; right; rfl
      · left; simp [opsOf, sched, Ne.symm h0, Ne.symm h1]
  · have : ((List.range 2).flatMap fun r => history (opsOf r sched)).map Prod.fst = [['a'], ['b'], ['x'], ['y']] := rfl
    rw [this]; decide

/-- C08: a session that loses its samples. -/
example : GoodBatch order 2 ["a".toList, "b".toList] (blog [(1, 2), (3, 4)]) ∧
    (3 : Int) < ((["a".toList, "b".toList].length * rowElements (blog [(1, 2), (3, 4)]) : Nat) : Int) :=
  ⟨goodBatch _ _ rfl, by decide⟩

/-- C12: a saver whose buffer has an incomplete sample. -/
example : ∃ s : Saver, (∀ e ∈ s.items, AtDepth 2 e.2) ∧ ∃ e ∈ s.items, ∃ p ∈ order, e.2.lookup p = none := by
  refine ⟨⟨0, 1, 5, 0, [("a".toList, blog [(1, 2)]), ("b".toList, [])], 4⟩, ?_, ("b".toList, .node []), ?_, _, List.mem_cons_self .., rfl⟩
  · intro e he
    simp only [Saver.items, List.map_cons, List.map_nil, List.mem_cons, List.not_mem_nil, or_false] at he
    rcases he with rfl | rfl
    · simp [blog, AtDepth]
    · simp [AtDepth]
  · simp [Saver.items]

/-- C77: three chunks in the first session, one in the second, different ids. -/
example : (runSession order (ops ++ [.finalize]) [] (Saver.init 0 1 3)).2.1.flushCount = 3 ∧
    (runSession order ([.save ["z".toList] (blog [(0, 0)])] ++ [.finalize])
      (runSession order (ops ++ [.finalize]) [] (Saver.init 0 1 3)).1 (Saver.init 0 1 (-1))).2.1.flushCount = 1 := by decide +kernel

end Example

end Logix
