import Verif.Model.Crash
import Verif.Props.SaverFaults

namespace Logix
open Spec

theorem serialized_eq_actions (order : List Path) (fs : FS) (s : Saver) :
    (s.flushSerialized order fs).1 = runActions fs (s.serializedActions order) := by
  unfold Saver.flushSerialized Saver.serializedActions
  split
  · rfl
  · simp only
    split <;> rfl

theorem flush_eq_actions (order : List Path) (fs : FS) (s : Saver) :
    (s.flush order fs).1 = runActions fs (s.flushActions order) := by
  unfold Saver.flush Saver.flushActions
  split
  · split
    · rfl
    · exact serialized_eq_actions order fs s
  · rfl

/-- The listed effects are those of the operation. -/
theorem SaverOp.run_eq_actions (order : List Path) (fs : FS) (s : Saver) (op : SaverOp) :
    (op.run order fs s).1 = runActions fs (op.actions order s) := by
  cases op with
  | finalize => exact serialized_eq_actions order fs s
  | save ids log =>
    simp only [SaverOp.run, Saver.saveLog, SaverOp.actions]
    rcases h : s.bufferWrite ids log with ⟨s', e | u⟩
    · rfl
    · exact flush_eq_actions order fs s'

/-- The action affects only the two files of one chunk. -/
def TouchesChunk (r k : Nat) : Action → Prop
  | .create n _ => n = loaderDataFile (chunkKey r k) ∨ n = loaderMetaFile (chunkKey r k)
  | .store n _ _ => n = loaderDataFile (chunkKey r k) ∨ n = loaderMetaFile (chunkKey r k)

theorem Touches.chunk {r k : Nat} {a : Action} (h : Touches (loaderDataFile (chunkKey r k)) a) : TouchesChunk r k a := by
  cases a <;> simp only [Touches] at h <;> simp only [TouchesChunk] <;> exact Or.inl h

theorem Torn.touches {r k : Nat} {a t : Action} (h : Torn a t) (ha : TouchesChunk r k a) : TouchesChunk r k t := by
  cases h <;> simpa [TouchesChunk] using ha

theorem runActions_frame_chunk (fs : FS) (acts : List Action) (r k : Nat) (other : PyStr)
    (h1 : other ≠ loaderDataFile (chunkKey r k)) (h2 : other ≠ loaderMetaFile (chunkKey r k))
    (h : ∀ a ∈ acts, TouchesChunk r k a) : Dict.get? (runActions fs acts) other = Dict.get? fs other := by
  induction acts generalizing fs with
  | nil => rfl
  | cons a acts ih =>
    have : runActions fs (a :: acts) = runActions (a.run fs) acts := rfl
    rw [this, ih _ (fun b hb => h b (by simp [hb]))]
    have ha := h a (by simp)
    cases a with
    | create n c =>
      simp only [TouchesChunk] at ha
      simp only [Action.run]
      rw [Dict.get?_set_ne]
      rcases ha with rfl | rfl
      · exact fun e => h1 e.symm
      · exact fun e => h2 e.symm
    | store n o bs =>
      simp only [TouchesChunk] at ha
      simp only [Action.run]
      split
      · rw [Dict.get?_set_ne]
        rcases ha with rfl | rfl
        · exact fun e => h1 e.symm
        · exact fun e => h2 e.symm
      · rfl

theorem writeChunk_touches (r k : Nat) (es : List (PyStr × Nested Arr)) (order : List Path) :
    ∀ a ∈ (writeChunk (chunkFile r k) es order).1, TouchesChunk r k a := by
  unfold writeChunk
  rw [writeNames_chunkFile]
  simp only
  split
  · simp [TouchesChunk]
  · have h := writeEntries_touches (loaderDataFile (chunkKey r k)) (totalSize es) order es 0
    split
    · intro a ha
      simp only [List.mem_cons] at ha
      rcases ha with rfl | ha
      · simp [TouchesChunk]
      · exact Touches.chunk (h a ha)
    · intro a ha
      simp only [List.mem_append, List.mem_cons, List.not_mem_nil, or_false] at ha
      rcases ha with (rfl | ha) | rfl | rfl
      · simp [TouchesChunk]
      · exact Touches.chunk (h a ha)
      · simp [TouchesChunk]
      · simp [TouchesChunk]

theorem bufferWriteFrom_rank (log : List (PyStr × Nested Arr)) (ids : List PyStr) (idx : Nat) (s : Saver) :
    (Saver.bufferWriteFrom log idx ids s).1.rank = s.rank ∧
    (Saver.bufferWriteFrom log idx ids s).1.flushCount = s.flushCount ∧
    (Saver.bufferWriteFrom log idx ids s).1.numWorkers = s.numWorkers ∧
    (Saver.bufferWriteFrom log idx ids s).1.flushThreshold = s.flushThreshold := by
  induction ids generalizing idx s with
  | nil => simp [Saver.bufferWriteFrom]
  | cons a ids ih =>
    simp only [Saver.bufferWriteFrom]
    split
    · simp
    · exact ih _ _

theorem serializedActions_touches (order : List Path) (s : Saver) :
    ∀ a ∈ s.serializedActions order, TouchesChunk s.rank s.flushCount a := by
  unfold Saver.serializedActions
  split
  · simp
  · exact writeChunk_touches _ _ _ _

theorem flushActions_touches (order : List Path) (s : Saver) :
    ∀ a ∈ s.flushActions order, TouchesChunk s.rank s.flushCount a := by
  unfold Saver.flushActions
  split
  · split
    · unfold Saver.flushUnsafeEffects
      split
      · rw [writeNames_chunkFile]; simp [TouchesChunk]
      · simp
    · exact serializedActions_touches order s
  · simp

/-- Every operation touches only the files of the chunk the saver is about to write. -/
theorem SaverOp.actions_touch (order : List Path) (s : Saver) (op : SaverOp) :
    ∀ a ∈ op.actions order s, TouchesChunk s.rank s.flushCount a := by
  cases op with
  | finalize => exact serializedActions_touches order s
  | save ids log =>
    simp only [SaverOp.actions]
    split
    · simp
    · next s' _ heq =>
      have h1 : (s.bufferWrite ids log).1 = s' := by rw [heq]
      have h := bufferWriteFrom_rank log ids 0 s
      unfold Saver.bufferWrite at h1
      rw [h1] at h
      have := flushActions_touches order s'
      rw [h.1, h.2.1] at this
      exact this

theorem CrashState.frame {fs fs' : FS} {acts : List Action} (h : CrashState fs acts fs') (r k : Nat)
    (ht : ∀ a ∈ acts, TouchesChunk r k a) (other : PyStr) (h1 : other ≠ loaderDataFile (chunkKey r k))
    (h2 : other ≠ loaderMetaFile (chunkKey r k)) : Dict.get? fs' other = Dict.get? fs other := by
  cases h with
  | between pre post e =>
    exact runActions_frame_chunk _ _ r k other h1 h2 (fun a ha => ht a (by rw [e]; simp [ha]))
  | inside pre post a t e htorn =>
    refine runActions_frame_chunk _ _ r k other h1 h2 ?_
    intro b hb
    rw [List.mem_append] at hb
    rcases hb with hb | hb
    · exact ht b (by rw [e]; simp [hb])
    · simp at hb; subst hb
      exact htorn.touches (ht a (by rw [e]; simp))

theorem serialized_rank (order : List Path) (fs : FS) (s : Saver) :
    (s.flushSerialized order fs).2.1.rank = s.rank ∧ s.flushCount ≤ (s.flushSerialized order fs).2.1.flushCount := by
  unfold Saver.flushSerialized
  split
  · simp
  · simp only
    split
    · simp
    · simp [Saver.bufferClear]

theorem SaverOp.run_rank (order : List Path) (fs : FS) (s : Saver) (op : SaverOp) :
    (op.run order fs s).2.1.rank = s.rank ∧ s.flushCount ≤ (op.run order fs s).2.1.flushCount := by
  cases op with
  | finalize => exact serialized_rank order fs s
  | save ids log =>
    have h := bufferWriteFrom_rank log ids 0 s
    simp only [SaverOp.run, Saver.saveLog, Saver.bufferWrite]
    split
    · next s' _ heq => rw [heq] at h; exact ⟨h.1, Nat.le_of_eq h.2.1.symm⟩
    · next s' _ heq =>
      rw [heq] at h
      simp only at h
      unfold Saver.flush
      split
      · split
        · simp [Saver.flushSafe, Saver.bufferClear, h.1, h.2.1]
        · have := serialized_rank order fs s'
          rw [this.1, h.1]
          exact ⟨rfl, by rw [← h.2.1]; exact this.2⟩
      · exact ⟨h.1, by simp [h.2.1]⟩

theorem runCluster_rank (order : List Path) (sched : List (Nat × SaverOp)) (fs : FS) (ss : Nat → Saver)
    (h : ∀ r, (ss r).rank = r) (r : Nat) : ((runCluster order sched fs ss).2.1 r).rank = r := by
  induction sched generalizing fs ss with
  | nil => exact h r
  | cons x sched ih =>
    obtain ⟨q, op⟩ := x
    simp only [runCluster]
    have hr := (SaverOp.run_rank order fs (ss q) op).1
    split
    · next heq =>
      rw [heq] at hr
      by_cases e : r = q
      · subst e; simpa [h] using hr
      · simp [e, h]
    · next heq =>
      rw [heq] at hr
      apply ih
      intro p
      by_cases e : p = q
      · subst e; simpa [h] using hr
      · simp [e, h]

/-- Opening a dataset succeeds only if every chunk is readable. -/
theorem fetchData_ok_readable (fs : FS) (keys : List PyStr) (ds ds' : Dataset) (h : fetchData fs keys ds = .ok ds') :
    ∀ key ∈ keys, (∃ bs, openData fs (loaderDataFile key) = .ok bs) ∧ ∃ m, readMetafile fs (loaderMetaFile key) = .ok m := by
  induction keys generalizing ds with
  | nil => simp
  | cons k keys ih =>
    simp only [fetchData] at h
    split at h
    · cases h
    · next bs hbs =>
      split at h
      · cases h
      · next m hm =>
        intro key hk
        rw [List.mem_cons] at hk
        rcases hk with rfl | hk
        · exact ⟨⟨bs, hbs⟩, m, hm⟩
        · exact ih _ h key hk

end Logix

namespace Logix

theorem chunkList_sorted (W : Nat) (chunks : Nat → List Chunk) : (chunkList W chunks).Pairwise fun a b => PairLt a.1 b.1 := by
  unfold chunkList
  rw [List.pairwise_flatMap]
  constructor
  · intro r _
    rw [List.pairwise_map, List.pairwise_iff_getElem]
    intro i j hi hj hij
    simp only [List.getElem_zipIdx, PairLt]
    right; exact ⟨trivial, by omega⟩
  · apply List.Pairwise.imp _ List.pairwise_lt_range
    intro a b hab x hx y hy
    rw [List.mem_map] at hx hy
    obtain ⟨_, _, rfl⟩ := hx
    obtain ⟨_, _, rfl⟩ := hy
    simp only [PairLt]; omega

theorem mem_chunkList_fst (W : Nat) (chunks : Nat → List Chunk) (q j : Nat) :
    (q, j) ∈ (chunkList W chunks).map Prod.fst ↔ q < W ∧ j < (chunks q).length := by
  simp only [chunkList, List.mem_map, List.mem_flatMap, List.mem_range]
  constructor
  · rintro ⟨c, ⟨r, hr, x, hx, rfl⟩, e⟩
    simp only [Prod.mk.injEq] at e
    obtain ⟨rfl, rfl⟩ := e
    obtain ⟨es, i⟩ := x
    rw [List.mem_zipIdx_iff_getElem?] at hx
    exact ⟨hr, (List.getElem?_eq_some_iff.1 hx).1⟩
  · rintro ⟨h1, h2⟩
    refine ⟨((q, j), (chunks q)[j]), ⟨q, h1, ((chunks q)[j], j), ?_, rfl⟩, rfl⟩
    rw [List.mem_zipIdx_iff_getElem?]; exact List.getElem?_eq_getElem h2

end Logix
