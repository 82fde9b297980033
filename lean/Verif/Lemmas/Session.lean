import Verif.Lemmas.Saver

namespace Logix
open Spec

abbrev Chunk := List (PyStr × Nested Arr)

/-- What lies on disk for one rank: the chunks written so far, then the chunks with higher numbers left by earlier sessions. -/
def disk (old cs : List Chunk) : List Chunk := cs ++ old.drop cs.length

theorem disk_nil_old (cs : List Chunk) : disk [] cs = cs := by simp [disk]
theorem disk_nil (old : List Chunk) : disk old [] = old := by simp [disk]

theorem disk_lt {old cs : List Chunk} {k : Nat} (h : k < cs.length) : (disk old cs)[k]? = cs[k]? := by
  rw [disk, List.getElem?_append_left h]

theorem disk_ge {old cs : List Chunk} {k : Nat} (h : cs.length ≤ k) : (disk old cs)[k]? = old[k]? := by
  rw [disk, List.getElem?_append_right h, List.getElem?_drop]
  congr 1; omega

/-- State of a cluster of synchronous savers after good operations: the chunks each rank has written (`chunks`), complete, with
nothing else in the directory but what earlier sessions left (`old`), and good buffers. -/
structure Inv (order : List Path) (n : Nat) (old : Nat → List Chunk) (fs : FS) (ss : Nat → Saver)
    (chunks : Nat → List Chunk) : Prop where
  nodup : (Dict.keys fs).Nodup
  rank : ∀ r, (ss r).rank = r
  workers : ∀ r, (ss r).numWorkers ≤ 1
  count : ∀ r, (ss r).flushCount = (chunks r).length
  onDisk : ∀ r k es, (disk (old r) (chunks r))[k]? = some es → OnDisk fs order (chunkKey r k) es
  only : ∀ f ∈ Dict.keys fs, (∃ a, f = a ++ ".mmap".toList) → (∃ b, f = "log_".toList ++ b) →
      ∃ r k, k < (disk (old r) (chunks r)).length ∧ f = chunkFile r k
  good : ∀ r, ∀ es ∈ disk (old r) (chunks r), ∀ e ∈ es, HasAll order e.2 ∧ OneDtype order e.2
  bufGood : ∀ r, ∀ e ∈ (ss r).items, GoodSample order n e.2
  bufKeys : ∀ r, (Dict.keys (ss r).buffer).Nodup

theorem Inv.init {order : List Path} {n : Nat} {fs : FS} (hfs : (Dict.keys fs).Nodup) (hclean : NoLogs fs)
    (nw : Nat → Nat) (hnw : ∀ r, nw r ≤ 1) (thr : Nat → Int) :
    Inv order n (fun _ => []) fs (fun r => Saver.init r (nw r) (thr r)) (fun _ => []) where
  nodup := hfs
  rank := fun _ => rfl
  workers := hnw
  count := fun _ => rfl
  onDisk := by intro r k es h; simp [disk] at h
  only := fun f hf ha hb => absurd hb (hclean f hf ha)
  good := by intro r es h; simp [disk] at h
  bufGood := by intro r e h; simp [Saver.items, Saver.init] at h
  bufKeys := by intro r; simp [Saver.init, Dict.keys]

/-- A new session over a directory in which an earlier one has ended. -/
theorem Inv.restart {order : List Path} {n : Nat} {old : Nat → List Chunk} {fs : FS} {ss : Nat → Saver}
    {chunks : Nat → List Chunk} (h : Inv order n old fs ss chunks)
    (nw : Nat → Nat) (hnw : ∀ r, nw r ≤ 1) (thr : Nat → Int) :
    Inv order n (fun r => disk (old r) (chunks r)) fs (fun r => Saver.init r (nw r) (thr r)) (fun _ => []) where
  nodup := h.nodup
  rank := fun _ => rfl
  workers := hnw
  count := fun _ => rfl
  onDisk := by intro r k es hk; rw [disk_nil] at hk; exact h.onDisk r k es hk
  only := by
    intro f hf ha hb
    obtain ⟨r, k, hk, e⟩ := h.only f hf ha hb
    exact ⟨r, k, by rw [disk_nil]; exact hk, e⟩
  good := by intro r es hes; rw [disk_nil] at hes; exact h.good r es hes
  bufGood := by intro r e h; simp [Saver.items, Saver.init] at h
  bufKeys := by intro r; simp [Saver.init, Dict.keys]

/-- Replace one rank's entry. -/
def upd (f : Nat → α) (r : Nat) (a : α) : Nat → α := fun q => if q = r then a else f q

@[simp] theorem upd_self (f : Nat → α) (r : Nat) (a : α) : upd f r a r = a := by simp [upd]
theorem upd_ne (f : Nat → α) {r q : Nat} (a : α) (h : q ≠ r) : upd f r a q = f q := by simp [upd, h]

/-- New buffer, no flush. -/
theorem Inv.buffer {order : List Path} {n : Nat} {old : Nat → List Chunk} {fs : FS} {ss : Nat → Saver} {chunks : Nat → List Chunk}
    (h : Inv order n old fs ss chunks) (r : Nat) (buf : Dict PyStr (List (PyStr × Nested Arr))) (c : Nat)
    (hk : (Dict.keys buf).Nodup)
    (hg : ∀ e ∈ Saver.items { ss r with buffer := buf, bufferSize := c }, GoodSample order n e.2) :
    Inv order n old fs (upd ss r { ss r with buffer := buf, bufferSize := c }) chunks := by
  refine ⟨h.nodup, ?_, ?_, ?_, h.onDisk, h.only, h.good, ?_, ?_⟩
  all_goals
    intro q
    by_cases e : q = r
    · subst e; simp only [upd_self]
      first
        | exact h.rank q
        | exact h.workers q
        | exact h.count q
        | exact hg
        | exact hk
    · rw [upd_ne _ _ e]
      first
        | exact h.rank q
        | exact h.workers q
        | exact h.count q
        | exact h.bufGood q
        | exact h.bufKeys q

/-- A flush of one rank. -/
theorem Inv.flushed {order : List Path} (ho : GoodOrder order) {n : Nat} {old : Nat → List Chunk} {fs : FS} {ss : Nat → Saver}
    {chunks : Nat → List Chunk} (h : Inv order n old fs ss chunks) (r : Nat) :
    ∃ fs' s' cs, (ss r).flushSerialized order fs = (fs', s', .ok ()) ∧ s'.buffer = [] ∧
      Inv order n old fs' (upd ss r s') (upd chunks r cs) ∧
      (((ss r).buffer = [] ∧ cs = chunks r) ∨ cs = chunks r ++ [(ss r).items]) := by
  by_cases hb : (ss r).buffer = []
  · refine ⟨fs, ss r, chunks r, by simp [Saver.flushSerialized, hb], hb, ?_, Or.inl ⟨hb, rfl⟩⟩
    have e1 : upd ss r (ss r) = ss := by funext q; by_cases e : q = r <;> simp [upd, e]
    have e2 : upd chunks r (chunks r) = chunks := by funext q; by_cases e : q = r <;> simp [upd, e]
    rw [e1, e2]; exact h
  · obtain ⟨h1, h2⟩ := flushSerialized_ok ho fs (ss r) (h.bufGood r) hb
    refine ⟨_, _, chunks r ++ [(ss r).items], h1, rfl, ?_, Or.inr rfl⟩
    rw [h.rank r, h.count r]
    refine ⟨addChunk_nodup h.nodup _ _ _ _, ?_, ?_, ?_, ?_, ?_, ?_, ?_, ?_⟩
    · intro q; by_cases e : q = r
      · subst e; simp
      · rw [upd_ne _ _ e]; exact h.rank q
    · intro q; by_cases e : q = r
      · subst e; simpa using h.workers q
      · rw [upd_ne _ _ e]; exact h.workers q
    · intro q; by_cases e : q = r
      · subst e; simp
      · rw [upd_ne _ _ e, upd_ne _ _ e]; exact h.count q
    · intro q k es hq
      by_cases e : q = r
      · subst e
        rw [upd_self] at hq
        rcases Nat.lt_trichotomy k (chunks q).length with hk | hk | hk
        · rw [disk_lt (by simp; omega), List.getElem?_append_left hk] at hq
          exact addChunk_onDisk_other _ _ _ _ _ (chunkKey_ne (by simp; omega))
            (h.onDisk q k es (by rw [disk_lt hk]; exact hq))
        · subst hk
          rw [disk_lt (by simp)] at hq
          simp at hq; subst hq
          exact addChunk_onDisk_self _ _ _ _ _ h2
        · rw [disk_ge (by simp; omega)] at hq
          exact addChunk_onDisk_other _ _ _ _ _ (chunkKey_ne (by simp; omega))
            (h.onDisk q k es (by rw [disk_ge (by omega)]; exact hq))
      · rw [upd_ne _ _ e] at hq
        exact addChunk_onDisk_other _ _ _ _ _ (chunkKey_ne (by simp [e])) (h.onDisk q k es hq)
    · intro f hf ha hbb
      rcases mem_keys_addChunk hf with hf | hf | hf
      · obtain ⟨q, k, hk, e⟩ := h.only f hf ha hbb
        refine ⟨q, k, ?_, e⟩
        by_cases e2 : q = r
        · subst e2; simp [disk] at hk ⊢; omega
        · rw [upd_ne _ _ e2]; exact hk
      · exact ⟨r, (chunks r).length, by simp [disk], hf⟩
      · subst hf; exact absurd ha (metaFile_shape _)
    · intro q es hes
      by_cases e : q = r
      · subst e
        have hes' : es ∈ disk (old q) (chunks q) ∨ es = (ss q).items := by
          rw [upd_self, disk, List.mem_append, List.mem_append] at hes
          rcases hes with (hes | hes) | hes
          · left; simp [disk, hes]
          · right; simpa using hes
          · left
            rw [disk, List.mem_append]; right
            have : (old q).drop (chunks q ++ [(ss q).items]).length = ((old q).drop (chunks q).length).drop 1 := by
              rw [List.drop_drop]; simp
            rw [this] at hes
            exact List.mem_of_mem_drop hes
        rcases hes' with hes | rfl
        · exact h.good q es hes
        · exact fun x hx => ⟨(h.bufGood q x hx).all, (h.bufGood q x hx).one⟩
      · rw [upd_ne _ _ e] at hes; exact h.good q es hes
    · intro q; by_cases e : q = r
      · subst e; intro x hx; simp [Saver.items] at hx
      · rw [upd_ne _ _ e]; exact h.bufGood q
    · intro q; by_cases e : q = r
      · subst e; simp [Dict.keys]
      · rw [upd_ne _ _ e]; exact h.bufKeys q

theorem upd_upd (f : Nat → α) (r : Nat) (a b : α) : upd (upd f r a) r b = upd f r b := by
  funext q; by_cases e : q = r <;> simp [upd, e]

/-- One good operation of one rank. -/
theorem Inv.step {order : List Path} (ho : GoodOrder order) {n : Nat} {old : Nat → List Chunk} {fs : FS} {ss : Nat → Saver}
    {chunks : Nat → List Chunk} (h : Inv order n old fs ss chunks) (r : Nat) (op : SaverOp) (hop : GoodOp order n op) :
    ∃ fs' s' cs, op.run order fs (ss r) = (fs', s', .ok ()) ∧ Inv order n old fs' (upd ss r s') (upd chunks r cs) ∧
      (op = .finalize → s'.buffer = []) ∧
      ((cs = chunks r ∧ views s'.items = record (views (ss r).items) op) ∨
       (s'.buffer = [] ∧ ∃ es, cs = chunks r ++ [es] ∧ views es = record (views (ss r).items) op)) := by
  cases op with
  | finalize =>
    obtain ⟨fs', s', cs, h1, h2, h3, h4⟩ := h.flushed ho r
    refine ⟨fs', s', cs, h1, h3, fun _ => h2, ?_⟩
    rcases h4 with ⟨hb, h4⟩ | h4
    · left; refine ⟨h4, ?_⟩
      simp [record, views, Saver.items, h2, hb]
    · right; exact ⟨h2, _, h4, rfl⟩
  | save ids log =>
    obtain ⟨buf, c, h1, h2, h3, h4⟩ := bufferWriteFrom_ok hop ids 0 (ss r) (by simp) (h.bufKeys r) (h.bufGood r)
    have hinv := h.buffer r buf c h2 h3
    have hrun : SaverOp.run order fs (ss r) (.save ids log)
        = Saver.flush order fs { ss r with buffer := buf, bufferSize := c } := by
      simp only [SaverOp.run, Saver.saveLog, Saver.bufferWrite, h1]
    have hw : ¬ 1 < (ss r).numWorkers := by have := h.workers r; omega
    by_cases hf : 0 < (ss r).flushThreshold ∧ (ss r).flushThreshold < (c : Int)
    · obtain ⟨fs', s', cs, g1, g2, g3, g4⟩ := hinv.flushed ho r
      rw [upd_self] at g1 g4
      rw [upd_upd] at g3
      refine ⟨fs', s', cs, ?_, g3, by simp, ?_⟩
      · rw [hrun, Saver.flush, if_pos hf, if_neg hw]; exact g1
      · rcases g4 with ⟨hb, g4⟩ | g4
        · left; refine ⟨g4, ?_⟩
          simp only [record]
          rw [← h4]
          simp only at hb
          simp [views, Saver.items, g2, hb]
        · right; exact ⟨g2, _, g4, h4⟩
    · refine ⟨fs, _, chunks r, ?_, ?_, by simp, Or.inl ⟨rfl, h4⟩⟩
      · rw [hrun, Saver.flush, if_neg hf]
      · have e2 : upd chunks r (chunks r) = chunks := by funext q; by_cases e : q = r <;> simp [upd, e]
        rw [e2]; exact hinv

theorem runCluster_append (order : List Path) (a b : List (Nat × SaverOp)) (fs : FS) (ss : Nat → Saver) {fs' ss'}
    (h : runCluster order a fs ss = (fs', ss', .ok ())) :
    runCluster order (a ++ b) fs ss = runCluster order b fs' ss' := by
  induction a generalizing fs ss with
  | nil => simp [runCluster] at h; obtain ⟨rfl, rfl⟩ := h; rfl
  | cons x a ih =>
    obtain ⟨r, op⟩ := x
    simp only [List.cons_append, runCluster] at h ⊢
    split at h
    · cases h
    · exact ih _ _ h

theorem runCluster_single {order : List Path} {r : Nat} {op : SaverOp} {fs fs' : FS} {ss : Nat → Saver} {s' : Saver}
    (h : op.run order fs (ss r) = (fs', s', .ok ())) :
    runCluster order [(r, op)] fs ss = (fs', upd ss r s', .ok ()) := by
  simp only [runCluster, h]; rfl

theorem opsOf_append (r : Nat) (a b : List (Nat × SaverOp)) : opsOf r (a ++ b) = opsOf r a ++ opsOf r b := by
  simp [opsOf]

theorem history_append (a b : List SaverOp) : history (a ++ b) = history a ++ history b := by
  induction a with
  | nil => rfl
  | cons x a ih => cases x <;> simp [history, ih]

/-- All samples of a rank, written or waiting. -/
def allViews (cs : List Chunk) (s : Saver) : List (PyStr × View) := views cs.flatten ++ views s.items

theorem views_append (a b : List (PyStr × Nested Arr)) : views (a ++ b) = views a ++ views b := by simp [views]

theorem views_keys (es : List (PyStr × Nested Arr)) : (views es).map Prod.fst = es.map Prod.fst := by
  simp [views, List.map_map, Function.comp_def]

theorem batchViews_keys (ids : List PyStr) (log : List (PyStr × Nested Arr)) : (batchViews ids log).map Prod.fst = ids := by
  simp [batchViews, List.map_map, Function.comp_def]

/-- A whole schedule of good operations. -/
theorem cluster_inv {order : List Path} (ho : GoodOrder order) {n : Nat} {old : Nat → List Chunk} {fs : FS} {ss : Nat → Saver}
    (hinit : Inv order n old fs ss (fun _ => [])) (hempty : ∀ r, (ss r).buffer = [])
    (sched : List (Nat × SaverOp)) (hgood : ∀ x ∈ sched, GoodOp order n x.2) :
    ∃ fs' ss' chunks, runCluster order sched fs ss = (fs', ss', .ok ()) ∧ Inv order n old fs' ss' chunks ∧
      (∀ r, (opsOf r sched = [] ∨ (opsOf r sched).getLast? = some .finalize) → (ss' r).buffer = []) ∧
      (∀ r k, k ∈ (allViews (chunks r) (ss' r)).map Prod.fst ↔ k ∈ (history (opsOf r sched)).map Prod.fst) ∧
      (∀ r, ((history (opsOf r sched)).map Prod.fst).Nodup →
        allViews (chunks r) (ss' r) = history (opsOf r sched)) := by
  induction sched using List.reverseRecOn with
  | nil =>
    refine ⟨fs, ss, _, rfl, hinit, fun r _ => hempty r, ?_, ?_⟩
    · intro r k; simp [allViews, views, Saver.items, hempty r, opsOf, history]
    · intro r _; simp [allViews, views, Saver.items, hempty r, opsOf, history]
  | append_singleton sched x ih =>
    obtain ⟨r, op⟩ := x
    obtain ⟨fs1, ss1, ch1, h1, h2, h3, h4, h5⟩ := ih (fun y hy => hgood y (by simp [hy]))
    obtain ⟨fs2, s2, cs, g1, g2, g3, g4⟩ := h2.step ho r op (hgood (r, op) (by simp))
    have hops : ∀ q, opsOf q (sched ++ [(r, op)]) = if q = r then opsOf q sched ++ [op] else opsOf q sched := by
      intro q
      rw [opsOf_append]
      by_cases e : q = r
      · subst e; simp [opsOf]
      · have : ¬ r = q := fun h => e h.symm
        simp [opsOf, e, this]
    have hall : allViews cs s2 = views (ch1 r).flatten ++ record (views (ss1 r).items) op := by
      rcases g4 with ⟨rfl, g4⟩ | ⟨gb, es, rfl, g4⟩
      · simp [allViews, g4]
      · have e1 : views s2.items = [] := by simp [Saver.items, gb, views]
        have e2 : [es].flatten = es := by simp
        rw [allViews, List.flatten_append, views_append, e2, g4, e1, List.append_nil]
    refine ⟨fs2, upd ss1 r s2, upd ch1 r cs, ?_, g2, ?_, ?_, ?_⟩
    · rw [runCluster_append _ _ _ _ _ h1, runCluster_single g1]
    · intro q hq
      rw [hops] at hq
      by_cases e : q = r
      · subst e
        simp only [if_true, List.getLast?_append, List.getLast?_singleton, Option.some_or] at hq
        rcases hq with hq | hq
        · simp at hq
        · rw [upd_self]; exact g3 (Option.some.inj hq)
      · rw [if_neg e] at hq; rw [upd_ne _ _ e]; exact h3 q hq
    · intro q k
      rw [hops]
      by_cases e : q = r
      · subst e
        rw [if_pos rfl, upd_self, upd_self, hall, history_append]
        have h4' := h4 q k
        simp only [allViews, List.map_append, List.mem_append] at h4' ⊢
        rw [← h4', or_assoc]
        apply or_congr Iff.rfl
        cases op with
        | finalize => simp [record, history]
        | save ids log =>
          simp only [record, history, List.append_nil]
          rw [batchViews_keys]
          exact mem_keys_recordFrom log ids 0 _ k
      · rw [if_neg e, upd_ne _ _ e, upd_ne _ _ e]; exact h4 q k
    · intro q hq
      rw [hops] at hq ⊢
      by_cases e : q = r
      · subst e
        rw [if_pos rfl] at hq ⊢
        rw [upd_self, upd_self, hall]
        rw [history_append] at hq ⊢
        rw [List.map_append, List.nodup_append] at hq
        have h5' := h5 q hq.1
        rw [← h5', allViews, List.append_assoc]
        congr 1
        cases op with
        | finalize => simp [record, history]
        | save ids log =>
          simp only [history, List.append_nil, batchViews_keys] at hq
          simp only [record, history, List.append_nil]
          rw [recordFrom_new log ids 0 _ hq.2.1]
          · rfl
          · intro x hx hmem
            refine hq.2.2 x ?_ x hx rfl
            rw [← h5', allViews, List.map_append, List.mem_append]
            right; exact hmem
      · rw [if_neg e] at hq ⊢
        rw [upd_ne _ _ e, upd_ne _ _ e]; exact h5 q hq

/-- The chunks of ranks below `W`, in visiting order. -/
def chunkList (W : Nat) (chunks : Nat → List Chunk) : List ((Nat × Nat) × Chunk) :=
  (List.range W).flatMap fun r => (chunks r).zipIdx.map fun x => ((r, x.2), x.1)

theorem Inv.dirHas {order : List Path} {n : Nat} {old : Nat → List Chunk} {fs : FS} {ss : Nat → Saver} {chunks : Nat → List Chunk}
    (h : Inv order n old fs ss chunks) (W : Nat) (hW : ∀ r, W ≤ r → disk (old r) (chunks r) = []) :
    DirHas fs order (chunkList W fun r => disk (old r) (chunks r)) := by
  refine ⟨?_, ?_, ?_⟩
  · unfold chunkList
    rw [List.pairwise_flatMap]
    constructor
    · intro r _
      rw [List.pairwise_map, List.pairwise_iff_getElem]
      intro i j hi hj hij
      simp only [List.getElem_zipIdx, PairLt]
      right; exact ⟨trivial, by omega⟩
    · apply List.Pairwise.imp _ List.pairwise_lt_range
      intro a b hab x hx y hy
      rw [List.mem_map] at hx hy
      obtain ⟨_, _, rfl⟩ := hx
      obtain ⟨_, _, rfl⟩ := hy
      simp only [PairLt]; omega
  · intro c hc
    simp only [chunkList, List.mem_flatMap, List.mem_map] at hc
    obtain ⟨r, _, x, hx, rfl⟩ := hc
    obtain ⟨es, k⟩ := x
    rw [List.mem_zipIdx_iff_getElem?] at hx
    exact h.onDisk r k es hx
  · intro f hf ha hb
    obtain ⟨r, k, hk, e⟩ := h.only f hf ha hb
    refine ⟨((r, k), (disk (old r) (chunks r))[k]), ?_, e⟩
    simp only [chunkList, List.mem_flatMap, List.mem_map]
    refine ⟨r, ?_, ((disk (old r) (chunks r))[k], k), ?_, rfl⟩
    · rw [List.mem_range]
      apply Nat.lt_of_not_le
      intro hge
      rw [hW r hge] at hk; simp at hk
    · rw [List.mem_zipIdx_iff_getElem?]
      exact List.getElem?_eq_getElem hk

theorem chunkList_flat (W : Nat) (chunks : Nat → List Chunk) :
    (chunkList W chunks).flatMap Prod.snd = (List.range W).flatMap fun r => (chunks r).flatten := by
  unfold chunkList
  rw [List.flatMap_assoc]
  congr 1
  funext r
  rw [List.flatMap_map, List.flatMap_def]
  simp

theorem Stores.of_holds {ds : Dataset} {order : List Path} {es : List (PyStr × Nested Arr)} (h : Holds ds order es) :
    Stores ds order (views es) := by
  refine ⟨by simp [views, h.len], ?_, ?_, h.keys, ?_⟩
  · intro i hi
    have hi' : i < es.length := by simpa [views] using hi
    obtain ⟨nd, h1, h2⟩ := h.nested i hi'
    exact ⟨nd, by simpa [views] using h1, by simpa [views] using h2⟩
  · intro i hi
    have hi' : i < es.length := by simpa [views] using hi
    obtain ⟨a, h1, h2, h3, h4⟩ := h.flat i hi'
    refine ⟨a, ?_, ?_, ?_, ?_⟩
    · simpa [views] using h1
    · simpa [views, arrays] using h2
    · simpa [views, arrays] using h3
    · simpa [views, arrays] using h4
  · intro i hi
    exact h.outside i (by simpa [views] using hi)

theorem views_firstOcc (es : List (PyStr × Nested Arr)) : views (firstOcc Prod.fst es) = firstOcc Prod.fst (views es) := by
  unfold views
  exact (firstOcc_map (Prod.fst : PyStr × View → PyStr) (fun e : PyStr × Nested Arr => (e.1, e.2.lookup)) es).symm

/-- Opening the directory of a cluster. -/
theorem Inv.opens {order : List Path} (ho : GoodOrder order) {n : Nat} {old : Nat → List Chunk} {fs : FS} {ss : Nat → Saver} {chunks : Nat → List Chunk}
    (h : Inv order n old fs ss chunks) (W : Nat) (hW : ∀ r, W ≤ r → disk (old r) (chunks r) = []) {listing : List PyStr}
    (hl : listing.Perm (Dict.keys fs)) :
    ∃ ds, openDataset fs listing = .ok ds ∧
      Stores ds order (firstOcc Prod.fst ((List.range W).flatMap fun r => views (disk (old r) (chunks r)).flatten)) := by
  obtain ⟨ds, h1, h2⟩ := openDataset_holds ho (h.dirHas W hW) h.nodup hl (by
    intro c hc
    simp only [chunkList, List.mem_flatMap, List.mem_map] at hc
    obtain ⟨r, _, x, hx, rfl⟩ := hc
    exact h.good r x.1 (List.fst_mem_of_mem_zipIdx hx))
  refine ⟨ds, h1, ?_⟩
  have := Stores.of_holds h2
  rw [views_firstOcc, chunkList_flat] at this
  have e : views ((List.range W).flatMap fun r => (disk (old r) (chunks r)).flatten)
      = (List.range W).flatMap fun r => views (disk (old r) (chunks r)).flatten := by
    unfold views; rw [List.map_flatMap]
  rw [e] at this
  exact this

end Logix
