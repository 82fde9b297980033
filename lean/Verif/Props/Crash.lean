/-
C09 and C10: a process that stops inside a flush.
-/
import Verif.Lemmas.Crash

namespace Logix
open Spec

/-- **C09.** Any schedule of operations of any number of ranks (background flushing or not, good batches or not), then rank `r` stops
anywhere inside one more operation: the data and metadata files of every chunk that any rank has completed so far are
what they were. -/
theorem C09_crash_keeps_completed (order : List Path) (fs : FS) (nw : Nat → Nat) (thr : Nat → Int)
    (sched : List (Nat × SaverOp)) (fs1 : FS) (ss1 : Nat → Saver) (res : Py Unit)
    (hrun : runCluster order sched fs (fun r => Saver.init r (nw r) (thr r)) = (fs1, ss1, res))
    (r : Nat) (op : SaverOp) (fs' : FS) (hcrash : CrashState fs1 (op.actions order (ss1 r)) fs')
    (q k : Nat) (hk : k < (ss1 q).flushCount) :
    Dict.get? fs' (Spec.dataFileName q k).toList = Dict.get? fs1 (Spec.dataFileName q k).toList ∧
    Dict.get? fs' (Spec.metaFileName q k).toList = Dict.get? fs1 (Spec.metaFileName q k).toList := by
  have hr := runCluster_rank order sched fs _ (fun r => (rfl : (Saver.init r (nw r) (thr r)).rank = r))
  rw [hrun] at hr
  have ht := SaverOp.actions_touch order (ss1 r) op
  have hne : chunkKey q k ≠ chunkKey (ss1 r).rank (ss1 r).flushCount := by
    apply chunkKey_ne
    intro e
    have e1 : q = (ss1 r).rank := congrArg Prod.fst e
    have e2 : k = (ss1 r).flushCount := congrArg Prod.snd e
    rw [hr r] at e1; subst e1; omega
  rw [dataFileName_eq, metaFileName_eq, ← loaderDataFile_chunkKey]
  constructor
  · exact hcrash.frame _ _ ht _ (fun e => hne (loaderDataFile_inj e)) (fun e => loaderMetaFile_ne_dataFile _ _ e.symm)
  · exact hcrash.frame _ _ ht _ (fun e => loaderMetaFile_ne_dataFile _ _ e) (fun e => hne (loaderMetaFile_inj e))

/-! ### C10 -/

/-- Actions that do not complete the metadata of the chunk. -/
def Unfinished (r k : Nat) (a : Action) : Prop :=
  Touches (loaderDataFile (chunkKey r k)) a ∨ a = .create (loaderMetaFile (chunkKey r k)) .incomplete

theorem Unfinished.step {r k : Nat} {a : Action} (h : Unfinished r k a) (fs : FS) :
    ((Dict.get? fs (loaderMetaFile (chunkKey r k)) = none ∨ Dict.get? fs (loaderMetaFile (chunkKey r k)) = some .incomplete) →
      (Dict.get? (a.run fs) (loaderMetaFile (chunkKey r k)) = none ∨
        Dict.get? (a.run fs) (loaderMetaFile (chunkKey r k)) = some .incomplete)) ∧
    (∀ f ∈ Dict.keys (a.run fs), f ∈ Dict.keys fs ∨ f = chunkFile r k ∨ f = loaderMetaFile (chunkKey r k)) ∧
    (∀ f ∈ Dict.keys fs, f ∈ Dict.keys (a.run fs)) ∧ ((Dict.keys fs).Nodup → (Dict.keys (a.run fs)).Nodup) := by
  have hset : ∀ (n : PyStr) (c : FileContent), (n = chunkFile r k ∨ n = loaderMetaFile (chunkKey r k)) →
      (∀ f ∈ Dict.keys (Dict.set fs n c), f ∈ Dict.keys fs ∨ f = chunkFile r k ∨ f = loaderMetaFile (chunkKey r k)) ∧
      (∀ f ∈ Dict.keys fs, f ∈ Dict.keys (Dict.set fs n c)) ∧
      ((Dict.keys fs).Nodup → (Dict.keys (Dict.set fs n c)).Nodup) := by
    intro n c hn
    refine ⟨?_, ?_, Dict.nodup_keys_set _ _ _⟩
    · intro f hf
      rw [Dict.keys_set] at hf
      split at hf
      · exact Or.inl hf
      · rw [List.mem_append] at hf
        rcases hf with hf | hf
        · exact Or.inl hf
        · simp at hf; subst hf; exact Or.inr hn
    · intro f hf
      rw [Dict.keys_set]
      split
      · exact hf
      · simp [hf]
  rcases h with h | rfl
  · cases a with
    | create n c =>
      simp only [Touches] at h; subst h
      refine ⟨?_, ?_⟩
      · simp only [Action.run]
        rw [Dict.get?_set_ne _ _ (fun e => loaderMetaFile_ne_dataFile _ _ e.symm)]; exact id
      · exact hset _ _ (Or.inl (loaderDataFile_chunkKey r k))
    | store n o bs =>
      simp only [Touches] at h; subst h
      simp only [Action.run]
      split
      · refine ⟨?_, hset _ _ (Or.inl (loaderDataFile_chunkKey r k))⟩
        rw [Dict.get?_set_ne _ _ (fun e => loaderMetaFile_ne_dataFile _ _ e.symm)]; exact id
      · exact ⟨id, fun f hf => Or.inl hf, fun f hf => hf, id⟩
  · refine ⟨?_, hset _ _ (Or.inr rfl)⟩
    intro _
    right; simp only [Action.run]; rw [Dict.get?_set_self]

theorem unfinished_run {r k : Nat} (acts : List Action) (h : ∀ a ∈ acts, Unfinished r k a) (fs : FS) :
    ((Dict.get? fs (loaderMetaFile (chunkKey r k)) = none ∨ Dict.get? fs (loaderMetaFile (chunkKey r k)) = some .incomplete) →
      (Dict.get? (runActions fs acts) (loaderMetaFile (chunkKey r k)) = none ∨
        Dict.get? (runActions fs acts) (loaderMetaFile (chunkKey r k)) = some .incomplete)) ∧
    (∀ f ∈ Dict.keys (runActions fs acts), f ∈ Dict.keys fs ∨ f = chunkFile r k ∨ f = loaderMetaFile (chunkKey r k)) ∧
    (∀ f ∈ Dict.keys fs, f ∈ Dict.keys (runActions fs acts)) ∧
    ((Dict.keys fs).Nodup → (Dict.keys (runActions fs acts)).Nodup) := by
  induction acts generalizing fs with
  | nil => exact ⟨id, fun f hf => Or.inl hf, fun f hf => hf, id⟩
  | cons a acts ih =>
    have e : runActions fs (a :: acts) = runActions (a.run fs) acts := rfl
    obtain ⟨h1, h2, h3, h4⟩ := (h a (by simp)).step fs
    obtain ⟨g1, g2, g3, g4⟩ := ih (fun b hb => h b (by simp [hb])) (a.run fs)
    rw [e]
    refine ⟨fun x => g1 (h1 x), ?_, fun f hf => g3 f (h3 f hf), fun x => g4 (h4 x)⟩
    intro f hf
    rcases g2 f hf with hf | hf
    · exact h2 f hf
    · exact Or.inr hf

theorem Torn.unfinished {r k : Nat} {a t : Action} (h : Torn a t)
    (ha : Unfinished r k a ∨ ∃ ms, a = .create (loaderMetaFile (chunkKey r k)) (.metadata ms)) : Unfinished r k t := by
  rcases ha with (ha | ha) | ⟨ms, rfl⟩
  · left; cases h <;> simpa [Touches] using ha
  · subst ha; cases h
  · cases h; exact Or.inr rfl

/-- The files of the directory after a schedule: what was there before, and files of completed chunks. -/
theorem SaverOp.run_keys {order : List Path} {fs fs' : FS} {s s' : Saver} {op : SaverOp}
    (h : op.run order fs s = (fs', s', .ok ())) :
    ∀ f ∈ Dict.keys fs', f ∈ Dict.keys fs ∨ (s.flushCount < s'.flushCount ∧
      (f = loaderDataFile (chunkKey s.rank s.flushCount) ∨ f = loaderMetaFile (chunkKey s.rank s.flushCount))) := by
  have hact := SaverOp.run_eq_actions order fs s op
  have ht := SaverOp.actions_touch order s op
  rw [h] at hact
  simp only at hact
  intro f hf
  by_cases hold : f ∈ Dict.keys fs
  · exact Or.inl hold
  · right
    have hne : op.actions order s ≠ [] := by
      intro e; rw [e] at hact; rw [hact] at hf; exact hold hf
    refine ⟨?_, ?_⟩
    · have hser : ∀ t : Saver, t.serializedActions order ≠ [] → ∀ fs'' t' , t.flushSerialized order fs = (fs'', t', .ok ()) →
          t'.flushCount = t.flushCount + 1 := by
        intro t h1 fs'' t' h2
        unfold Saver.serializedActions at h1
        unfold Saver.flushSerialized at h2
        split at h1
        · exact absurd rfl h1
        · next hb =>
          rw [if_neg hb] at h2
          simp only at h2
          split at h2
          · cases h2
          · cases h2; rfl
      cases op with
      | finalize => have := hser s hne fs' s' h; omega
      | save ids log =>
        have hb := bufferWriteFrom_rank log ids 0 s
        simp only [SaverOp.run, Saver.saveLog, Saver.bufferWrite] at h
        simp only [SaverOp.actions, Saver.bufferWrite] at hne
        rcases hw : Saver.bufferWriteFrom log 0 ids s with ⟨s1, e | u⟩
        · rw [hw] at h; simp at h
        · rw [hw] at h hne hb
          simp only at h hne hb
          unfold Saver.flushActions at hne
          unfold Saver.flush at h
          split at hne
          · next hc =>
            rw [if_pos hc] at h
            split at hne
            · next hc2 =>
              rw [if_pos hc2] at h
              simp only [Saver.flushSafe, Prod.mk.injEq] at h
              rw [← h.2.1]; simp [Saver.bufferClear, hb.2.1]
            · next hc2 =>
              rw [if_neg hc2] at h
              have := hser s1 hne fs' s' h
              omega
          · exact absurd rfl hne
    · by_cases h1 : f = loaderDataFile (chunkKey s.rank s.flushCount)
      · exact Or.inl h1
      · by_cases h2 : f = loaderMetaFile (chunkKey s.rank s.flushCount)
        · exact Or.inr h2
        · have := runActions_frame_chunk fs _ s.rank s.flushCount f h1 h2 ht
          rw [← hact] at this
          rw [← Dict.get?_isSome_iff, this, Dict.get?_isSome_iff] at hf
          exact absurd hf hold

theorem runCluster_keys {order : List Path} (sched : List (Nat × SaverOp)) : ∀ {fs : FS} {ss : Nat → Saver} {fs1 : FS} {ss1 : Nat → Saver},
    (∀ r, (ss r).rank = r) → runCluster order sched fs ss = (fs1, ss1, .ok ()) →
    (∀ q, (ss q).flushCount ≤ (ss1 q).flushCount) ∧
    ∀ f ∈ Dict.keys fs1, f ∈ Dict.keys fs ∨ ∃ q k, k < (ss1 q).flushCount ∧
      (f = loaderDataFile (chunkKey q k) ∨ f = loaderMetaFile (chunkKey q k)) := by
  induction sched with
  | nil =>
    intro fs ss fs1 ss1 _ h
    simp only [runCluster, Prod.mk.injEq] at h
    obtain ⟨rfl, rfl, _⟩ := h
    exact ⟨fun q => Nat.le_refl _, fun f hf => Or.inl hf⟩
  | cons x sched ih =>
    obtain ⟨r, op⟩ := x
    intro fs ss fs1 ss1 hr h
    simp only [runCluster] at h
    have hrk := SaverOp.run_rank order fs (ss r) op
    rcases hop : op.run order fs (ss r) with ⟨fs2, s2, e | u⟩
    · rw [hop] at h; simp at h
    · rw [hop] at h hrk
      simp only at h hrk
      have hr2 : ∀ p, (if p = r then s2 else ss p).rank = p := by
        intro p; by_cases e : p = r
        · subst e; simpa [hr p] using hrk.1
        · simp [e, hr]
      obtain ⟨g1, g2⟩ := ih hr2 h
      have g0 : ∀ q, (ss q).flushCount ≤ (if q = r then s2 else ss q).flushCount := by
        intro q; by_cases e : q = r
        · subst e; simpa using hrk.2
        · simp [e]
      refine ⟨fun q => Nat.le_trans (g0 q) (g1 q), ?_⟩
      intro f hf
      rcases g2 f hf with hf | hf
      · have hk := SaverOp.run_keys (by rw [hop]) f hf
        rcases hk with hk | ⟨hlt, hk⟩
        · exact Or.inl hk
        · right
          refine ⟨r, (ss r).flushCount, ?_, by rw [hr r] at hk; exact hk⟩
          have := g1 r
          rw [if_pos rfl] at this; omega
      · exact Or.inr hf

/-- No log files (data or metadata) in the directory. -/
def Spec.NoLogFiles (fs : FS) : Prop := ∀ f ∈ Dict.keys fs, ¬ ∃ b, f = "log_".toList ++ b

/-- What a reader can find after rank `r` stopped inside the write of a chunk: the write has not started, or it is complete, or the
directory cannot be opened. -/
theorem crash_trichotomy (order : List Path) (ho : GoodOrder order) (n : Nat) (fs : FS) (hfs : (Dict.keys fs).Nodup)
    (hclean : NoLogFiles fs) (nw : Nat → Nat) (hnw : ∀ r, nw r ≤ 1) (thr : Nat → Int)
    (W : Nat) (sched : List (Nat × SaverOp)) (hgood : ∀ x ∈ sched, x.1 < W ∧ GoodOp order n x.2) (r : Nat) (hrW : r < W) :
    ∃ fs1 ss1, runCluster order sched fs (fun r => Saver.init r (nw r) (thr r)) = (fs1, ss1, .ok ()) ∧
      ∀ fs', CrashState fs1 ((ss1 r).serializedActions order) fs' →
        fs' = fs1 ∨ fs' = runActions fs1 ((ss1 r).serializedActions order) ∨
        ∀ listing : List PyStr, listing.Perm (Dict.keys fs') → ∃ e, openDataset fs' listing = .error e := by
  have hno : NoLogs fs := fun f hf _ => hclean f hf
  obtain ⟨fs1, ss1, chunks, h1, h2, _, h4, h5⟩ := cluster_inv ho (Inv.init (order := order) (n := n) hfs hno nw hnw thr)
    (fun r => rfl) sched (fun x hx => (hgood x hx).2)
  refine ⟨fs1, ss1, h1, ?_⟩
  have hdisk : (fun r => disk [] (chunks r)) = chunks := by funext q; exact disk_nil_old _
  have hW : ∀ q, W ≤ q → chunks q = [] := by
    intro q hq
    have hops : opsOf q sched = [] := by
      simp only [opsOf, List.map_eq_nil_iff, List.filter_eq_nil_iff]
      intro x hx
      have := (hgood x hx).1
      simp; omega
    have hn : ((history (opsOf q sched)).map Prod.fst).Nodup := by rw [hops]; simp [history]
    have := h5 q hn
    rw [hops] at this
    simp only [history, allViews, List.append_eq_nil_iff] at this
    exact chunks_eq_nil (fun es hes => h2.chunk_ne_nil q es (by rw [disk_nil_old]; exact hes)) this.1
  intro fs' hcr
  by_cases hb : (ss1 r).buffer = []
  · left
    have hemp : (ss1 r).serializedActions order = [] := by simp [Saver.serializedActions, hb]
    rw [hemp] at hcr
    cases hcr with
    | between pre post e =>
      have : pre = [] := (List.append_eq_nil_iff.1 e.symm).1
      subst this; rfl
    | inside pre post a t e => simp at e
  -- the write is complete or has an incomplete prefix
  have hwork := flushSerialized_ok ho fs1 (ss1 r) (h2.bufGood r) hb
  have hbne : (ss1 r).buffer.isEmpty = false := by simpa using hb
  have hok : (writeChunk (chunkFile (ss1 r).rank (ss1 r).flushCount) (ss1 r).items order).2 = .ok () := by
    have := hwork.1
    unfold Saver.flushSerialized at this
    rw [hbne] at this
    simp only [Bool.false_eq_true, if_false] at this
    split at this
    · simp at this
    · next he => exact he
  generalize hk : (ss1 r).flushCount = k at *
  have hrank := h2.rank r
  rw [hrank] at hok
  have hshape : ∃ c0 stores ms, (ss1 r).serializedActions order =
      (.create (loaderDataFile (chunkKey r k)) c0 :: stores) ++
        [.create (loaderMetaFile (chunkKey r k)) .incomplete, .create (loaderMetaFile (chunkKey r k)) (.metadata ms)] ∧
      (∀ a ∈ stores, Touches (loaderDataFile (chunkKey r k)) a) ∧ ∃ bs, c0 = .data bs := by
    unfold Saver.serializedActions
    rw [hbne, hrank, hk]
    simp only [Bool.false_eq_true, if_false]
    unfold writeChunk at hok ⊢
    rw [writeNames_chunkFile] at hok ⊢
    simp only at hok ⊢
    split at hok
    · simp at hok
    · next htot =>
      rw [if_neg htot]
      split at hok
      · simp at hok
      · next ms hms =>
        refine ⟨_, _, ms, rfl, writeEntries_touches _ _ _ _ _, _, rfl⟩
  obtain ⟨c0, stores, ms, hacts, hst, bs0, rfl⟩ := hshape
  rw [hacts] at hcr ⊢
  have hA : ∀ a ∈ (Action.create (loaderDataFile (chunkKey r k)) (.data bs0) :: stores), Unfinished r k a := by
    intro a ha
    rw [List.mem_cons] at ha
    rcases ha with rfl | ha
    · exact Or.inl (by simp [Touches])
    · exact Or.inl (hst a ha)
  -- metadata of this chunk is not there yet
  have hmeta : Dict.get? fs1 (loaderMetaFile (chunkKey r k)) = none := by
    rw [← Option.not_isSome_iff_eq_none, Dict.get?_isSome_iff]
    intro hm
    rcases (runCluster_keys sched (fun r => rfl) h1).2 _ hm with hm | ⟨q, j, hj, e | e⟩
    · exact hclean _ hm ⟨_, rfl⟩
    · exact loaderMetaFile_ne_dataFile _ _ e
    · have := chunkKey_inj (loaderMetaFile_inj e)
      obtain ⟨rfl, rfl⟩ := this
      omega
  -- any incomplete prefix
  have hbad : ∀ acts : List Action, (∃ c rest, acts = .create (loaderDataFile (chunkKey r k)) c :: rest) →
      (∀ a ∈ acts, Unfinished r k a) → ∀ listing : List PyStr, listing.Perm (Dict.keys (runActions fs1 acts)) →
      ∃ e, openDataset (runActions fs1 acts) listing = .error e := by
    intro acts ⟨c, rest, hcr⟩ hun listing hl
    obtain ⟨u1, u2, u3, u4⟩ := unfinished_run acts hun fs1
    have hin : chunkFile r k ∈ Dict.keys (runActions fs1 acts) := by
      subst hcr
      have e : runActions fs1 (.create (loaderDataFile (chunkKey r k)) c :: rest)
          = runActions (Dict.set fs1 (loaderDataFile (chunkKey r k)) c) rest := rfl
      rw [e]
      apply (unfinished_run rest (fun a ha => hun a (by simp [ha])) _).2.2.1
      rw [← loaderDataFile_chunkKey, ← Dict.get?_isSome_iff, Dict.get?_set_self]; rfl
    have hdir := h2.dirHas W (by intro q hq; rw [disk_nil_old]; exact hW q hq)
    simp only [disk_nil_old] at hdir
    have hdir2 : ((chunkList W (upd chunks r (chunks r ++ [[]]))).map Prod.fst).Pairwise PairLt :=
      List.pairwise_map.2 (chunkList_sorted _ _)
    have hmem : ∀ q j, (q, j) ∈ (chunkList W (upd chunks r (chunks r ++ [[]]))).map Prod.fst ↔
        q < W ∧ (j < (chunks q).length ∨ (q = r ∧ j = k)) := by
      intro q j
      rw [mem_chunkList_fst]
      by_cases e : q = r
      · subst e
        have hc := h2.count q
        rw [hk] at hc
        simp only [upd_self, List.length_append, List.length_cons, List.length_nil, true_and]
        constructor
        · rintro ⟨a, b⟩; exact ⟨a, by omega⟩
        · rintro ⟨a, b⟩; exact ⟨a, by omega⟩
      · rw [upd_ne _ _ e]; simp [e]
    have hfind := findChunkIndices_files hdir2
      (by
        intro c hc
        obtain ⟨q, j⟩ := c
        rw [hmem] at hc
        rcases hc with ⟨_, hc | ⟨rfl, rfl⟩⟩
        · apply u3
          have := h2.onDisk q j ((chunks q)[j]) (by rw [disk_nil_old]; exact List.getElem?_eq_getElem hc)
          rw [← loaderDataFile_chunkKey, ← Dict.get?_isSome_iff, this.data]; rfl
        · exact hin)
      (by
        intro f hf ha hbb
        rcases u2 f hf with hf | hf | hf
        · obtain ⟨q, j, hj, e⟩ := h2.only f hf ha hbb
          rw [disk_nil_old] at hj
          refine ⟨(q, j), ?_, e⟩
          rw [hmem]
          refine ⟨?_, Or.inl hj⟩
          apply Nat.lt_of_not_le
          intro hge
          rw [hW q hge] at hj; simp at hj
        · exact ⟨(r, k), (hmem r k).2 ⟨hrW, Or.inr ⟨rfl, rfl⟩⟩, hf⟩
        · subst hf; exact absurd ha (metaFile_shape _))
      (u4 h2.nodup) hl
    unfold openDataset
    rw [hfind]
    simp only
    cases hfd : fetchData (runActions fs1 acts) ((chunkList W (upd chunks r (chunks r ++ [[]]))).map Prod.fst |>.map fun c => chunkKey c.1 c.2) ⟨[], []⟩ with
    | error e => exact ⟨e, rfl⟩
    | ok ds =>
      exfalso
      obtain ⟨_, m, hm⟩ := fetchData_ok_readable _ _ _ _ hfd (chunkKey r k)
        (List.mem_map.2 ⟨(r, k), (hmem r k).2 ⟨hrW, Or.inr ⟨rfl, rfl⟩⟩, rfl⟩)
      unfold readMetafile at hm
      rcases u1 (Or.inl hmeta) with h | h
      · rw [h] at hm; simp at hm
      · rw [h] at hm; simp at hm
  -- a proper prefix of the effects
  have hpre : ∀ (pre post : List Action) (a : Action),
      (Action.create (loaderDataFile (chunkKey r k)) (.data bs0) :: stores) ++
        [.create (loaderMetaFile (chunkKey r k)) .incomplete, .create (loaderMetaFile (chunkKey r k)) (.metadata ms)]
        = pre ++ a :: post → (∀ x ∈ pre, Unfinished r k x) ∧
        (Unfinished r k a ∨ ∃ ms, a = .create (loaderMetaFile (chunkKey r k)) (.metadata ms)) ∧
        (pre = [] → a = .create (loaderDataFile (chunkKey r k)) (.data bs0)) ∧
        (pre ≠ [] → ∃ rest, pre = .create (loaderDataFile (chunkKey r k)) (.data bs0) :: rest) := by
    intro pre post a e
    have hinit : ((Action.create (loaderDataFile (chunkKey r k)) (.data bs0) :: stores) ++
        [.create (loaderMetaFile (chunkKey r k)) .incomplete]) ++ [.create (loaderMetaFile (chunkKey r k)) (.metadata ms)]
        = pre ++ a :: post := by rw [← e]; simp
    have hun : ∀ x ∈ (Action.create (loaderDataFile (chunkKey r k)) (.data bs0) :: stores) ++
        [.create (loaderMetaFile (chunkKey r k)) .incomplete], Unfinished r k x := by
      intro x hx
      rw [List.mem_append] at hx
      rcases hx with hx | hx
      · exact hA x hx
      · simp at hx; exact Or.inr hx
    refine ⟨?_, ?_, ?_, ?_⟩
    · have hp : pre <+: (Action.create (loaderDataFile (chunkKey r k)) (.data bs0) :: stores) ++
          [.create (loaderMetaFile (chunkKey r k)) .incomplete] := by
        refine List.prefix_of_prefix_length_le (l₃ := pre ++ a :: post) (List.prefix_append _ _) ?_ ?_
        · rw [← hinit]; exact List.prefix_append _ _
        · have := congrArg List.length hinit
          simp only [List.length_append, List.length_cons, List.length_nil] at this ⊢; omega
      intro x hx
      exact hun x (hp.subset hx)
    · have ha : a ∈ ((Action.create (loaderDataFile (chunkKey r k)) (.data bs0) :: stores) ++
        [.create (loaderMetaFile (chunkKey r k)) .incomplete]) ++ [.create (loaderMetaFile (chunkKey r k)) (.metadata ms)] := by
        rw [hinit]; simp
      rw [List.mem_append] at ha
      rcases ha with ha | ha
      · exact Or.inl (hun a ha)
      · simp at ha; exact Or.inr ⟨ms, ha⟩
    · rintro rfl
      simp only [List.cons_append, List.nil_append, List.cons.injEq] at e
      exact e.1.symm
    · intro hne
      cases pre with
      | nil => exact absurd rfl hne
      | cons x pre =>
        simp only [List.cons_append, List.cons.injEq] at e
        exact ⟨pre, by rw [e.1]⟩
  cases hcr with
  | between pre post e =>
    cases post with
    | nil =>
      right; left
      rw [e]; simp
    | cons a post =>
      obtain ⟨p1, p2, p3, p4⟩ := hpre pre post a e
      by_cases hp : pre = []
      · left; subst hp; rfl
      · right; right
        obtain ⟨rest, hrest⟩ := p4 hp
        exact hbad pre ⟨_, rest, hrest⟩ p1
  | inside pre post a t e ht =>
    obtain ⟨p1, p2, p3, p4⟩ := hpre pre post a e
    right; right
    apply hbad
    · by_cases hp : pre = []
      · have := p3 hp
        subst hp this
        cases ht; exact ⟨_, [], rfl⟩
      · obtain ⟨rest, hrest⟩ := p4 hp
        exact ⟨_, rest ++ [t], by rw [hrest]; rfl⟩
    · intro x hx
      rw [List.mem_append] at hx
      rcases hx with hx | hx
      · exact p1 x hx
      · simp at hx; subst hx; exact ht.unfinished p2

/-- **C10 is false**: after any history, if a rank with a non-empty buffer stops right after it created the data file of its
next chunk, no dataset can be built on the directory, although all earlier chunks are intact. -/
theorem C10_unreadable_after_crash_refuted (order : List Path) (ho : GoodOrder order) (n : Nat) (fs : FS) (hfs : (Dict.keys fs).Nodup)
    (hclean : NoLogFiles fs) (nw : Nat → Nat) (hnw : ∀ r, nw r ≤ 1) (thr : Nat → Int)
    (W : Nat) (sched : List (Nat × SaverOp)) (hgood : ∀ x ∈ sched, x.1 < W ∧ GoodOp order n x.2) (r : Nat) (hrW : r < W)
    (fs1 : FS) (ss1 : Nat → Saver)
    (hrun : runCluster order sched fs (fun r => Saver.init r (nw r) (thr r)) = (fs1, ss1, .ok ()))
    (hbuf : (ss1 r).buffer ≠ []) :
    ∃ fs', CrashState fs1 (SaverOp.finalize.actions order (ss1 r)) fs' ∧
      ∀ listing : List PyStr, listing.Perm (Dict.keys fs') → ∃ e, openDataset fs' listing = .error e := by
  obtain ⟨fs1', ss1', h1, h2⟩ := crash_trichotomy order ho n fs hfs hclean nw hnw thr W sched hgood r hrW
  rw [hrun] at h1
  obtain ⟨rfl, rfl, _⟩ := Prod.mk.injEq .. ▸ h1
  simp only [SaverOp.actions]
  have hno : NoLogs fs := fun f hf _ => hclean f hf
  obtain ⟨fs2, ss2, chunks, g1, g2, _, _, _⟩ := cluster_inv ho (Inv.init (order := order) (n := n) hfs hno nw hnw thr)
    (fun r => rfl) sched (fun x hx => (hgood x hx).2)
  rw [hrun] at g1
  obtain ⟨rfl, rfl, _⟩ := Prod.mk.injEq .. ▸ g1
  have hbne : (ss1 r).buffer.isEmpty = false := by simpa using hbuf
  -- the first effect creates the data file
  have hwork := flushSerialized_ok ho fs1 (ss1 r) (g2.bufGood r) hbuf
  have hcons : ∃ bs rest, (ss1 r).serializedActions order =
      .create (loaderDataFile (chunkKey r (ss1 r).flushCount)) (.data bs) :: rest := by
    unfold Saver.serializedActions writeChunk
    rw [hbne, g2.rank r, writeNames_chunkFile]
    simp only [Bool.false_eq_true, if_false]
    split
    · exact ⟨_, _, rfl⟩
    · split <;> exact ⟨_, _, rfl⟩
  obtain ⟨bs, rest, hc⟩ := hcons
  have hcs : CrashState fs1 ((ss1 r).serializedActions order)
      (runActions fs1 ([] ++ [.create (loaderDataFile (chunkKey r (ss1 r).flushCount)) (.data [])])) :=
    .inside [] rest (.create (loaderDataFile (chunkKey r (ss1 r).flushCount)) (.data bs)) _ (by rw [hc]; rfl) (.data _ _)
  refine ⟨_, hcs, ?_⟩
  have hdata : Dict.get? (runActions fs1 ([] ++ [.create (loaderDataFile (chunkKey r (ss1 r).flushCount)) (.data [])]))
      (loaderDataFile (chunkKey r (ss1 r).flushCount)) = some (.data []) := by
    simp only [List.nil_append, runActions, List.foldl_cons, List.foldl_nil, Action.run]
    rw [Dict.get?_set_self]
  rcases h2 _ hcs with h | h | h
  · exfalso
    rw [h] at hdata
    have hm : loaderDataFile (chunkKey r (ss1 r).flushCount) ∈ Dict.keys fs1 := by
      rw [← Dict.get?_isSome_iff, hdata]; rfl
    rcases (runCluster_keys sched (fun r => rfl) hrun).2 _ hm with hm | ⟨q, j, hj, e | e⟩
    · exact hclean _ hm ⟨_, rfl⟩
    · obtain ⟨rfl, rfl⟩ := chunkKey_inj (loaderDataFile_inj e)
      omega
    · exact loaderMetaFile_ne_dataFile _ _ e.symm
  · exfalso
    rw [← serialized_eq_actions, hwork.1] at h
    have hon := addChunk_onDisk_self fs1 order (ss1 r).rank (ss1 r).flushCount (ss1 r).items hwork.2
    have := hon.data
    simp only at h
    rw [← h, g2.rank r, hdata] at this
    exact hwork.2 (by simpa using this.symm)
  · exact h

/-- **C10, the part that holds**: a process that stops between operations, or inside the write of a chunk before its first or after its
last effect, leaves a directory that opens and contains exactly the samples of the completed chunks (in the second case
including the chunk just written); what is not in the dataset is what was still waiting in memory. Missing: the crash points in between, where by
`crash_trichotomy` the directory never opens. -/
theorem C10_readable_between_writes_partial (order : List Path) (ho : GoodOrder order) (n : Nat) (fs : FS) (hfs : (Dict.keys fs).Nodup)
    (hclean : NoLogFiles fs) (nw : Nat) (hnw : nw ≤ 1) (thr : Int) (ops : List SaverOp) (hgood : ∀ op ∈ ops, GoodOp order n op)
    (hids : ((history ops).map Prod.fst).Nodup) :
    ∃ fs1 s1 done, runSession order ops fs (Saver.init 0 nw thr) = (fs1, s1, .ok ()) ∧
      done ++ views s1.items = history ops ∧
      (∀ listing : List PyStr, listing.Perm (Dict.keys fs1) →
        ∃ ds, openDataset fs1 listing = .ok ds ∧ Stores ds order done) ∧
      ∀ listing : List PyStr, listing.Perm (Dict.keys (runActions fs1 (SaverOp.finalize.actions order s1))) →
        ∃ ds, openDataset (runActions fs1 (SaverOp.finalize.actions order s1)) listing = .ok ds ∧
          Stores ds order (history ops) := by
  have hno : NoLogs fs := fun f hf _ => hclean f hf
  obtain ⟨fs1, s1, ss1, ch, a1, a2, a3, a4, _, _, a7⟩ := session_inv ho
    (Inv.init_zero (order := order) (n := n) hfs hno hnw thr) ops hgood
  have e1 := a7 hids
  have hnd : ((views (disk [] (ch 0)).flatten).map Prod.fst).Nodup := by
    rw [disk_nil_old]
    rw [← e1, allViews, List.map_append, List.nodup_append] at hids
    exact hids.1
  refine ⟨fs1, s1, views (ch 0).flatten, a1, e1, ?_, ?_⟩
  · intro listing hl
    obtain ⟨ds, d1, d2⟩ := a3.opens_zero ho a4 hl
    rw [firstOcc_of_nodup _ _ hnd, disk_nil_old] at d2
    exact ⟨ds, d1, d2⟩
  · intro listing hl
    obtain ⟨fs2, s2, b1, b2⟩ := C02_no_loss order ho n fs hfs hno nw hnw thr ops hgood hids
    have : fs2 = runActions fs1 (SaverOp.finalize.actions order s1) := by
      rw [runSession_append, a1] at b1
      simp only [runSession] at b1
      rw [← SaverOp.run_eq_actions order fs1 s1 .finalize]
      split at b1
      · cases b1
      · next h => rw [h]; cases b1; rfl
    rw [← this] at hl ⊢
    exact b2 listing hl

/-! ### the hypotheses are met -/

namespace Example

/-- Two ranks have logged, rank 1 has a chunk on disk and one sample in memory. -/
example : (runCluster order (sched.take 4) [] (fun r => Saver.init r 1 3)).2.2 = .ok () ∧
    0 < ((runCluster order (sched.take 4) [] (fun r => Saver.init r 1 3)).2.1 1).flushCount ∧
    ((runCluster order [(0, .save ["a".toList] (blog [(1, 2)]))] [] (fun r => Saver.init r 1 100)).2.1 0).buffer ≠ [] := by
  decide +kernel

end Example

end Logix
