/-
Lemmas about sessions: saving is what the value-level model of the saver does with the current values.
-/
import Verif.Lemmas.SessionHooks
import Verif.Lemmas.Saver
import Verif.Lemmas.Tensor

namespace Logix
variable {K : Type}

theorem take_drop_flatMap_const {α β : Type _} (f : α → List β) (c : Nat) : ∀ (l : List α) (i : Nat) (h : i < l.length),
    (∀ a ∈ l, (f a).length = c) → ((l.flatMap f).drop (i * c)).take c = f l[i]
  | a :: l, 0, _, hc => by
    rw [List.flatMap_cons, Nat.zero_mul, List.drop_zero, List.take_append_of_le_length (le_of_eq (hc a (List.mem_cons_self ..)).symm)]
    rw [← hc a (List.mem_cons_self ..), List.take_length]
    rfl
  | a :: l, i + 1, h, hc => by
    have ha := hc a (List.mem_cons_self ..)
    rw [List.flatMap_cons, Nat.succ_mul, Nat.add_comm, ← List.drop_drop, List.drop_append_of_le_length (le_of_eq ha.symm)]
    rw [show List.drop c (f a) = [] by rw [← ha]; exact List.drop_length, List.nil_append]
    exact take_drop_flatMap_const f c l i (by simpa using h) fun b hb => hc b (List.mem_cons_of_mem _ hb)

namespace Sess

theorem Arr.ext' {a b : Arr} (h1 : a.dtype = b.dtype) (h2 : a.shape = b.shape) (h3 : a.bytes = b.bytes) : a = b := by
  cases a; cases b
  cases h1; cases h2; cases h3
  rfl

theorem flatMap_encode_length (E : SEnv K) (d : DType) (l : List K) :
    (l.flatMap fun x => (E.encode d x).1).length = l.length * d.itemsize := by
  induction l with
  | nil => simp
  | cons x xs ih => rw [List.flatMap_cons, List.length_append, ih, (E.encode d x).2, List.length_cons, Nat.succ_mul, Nat.add_comm]

/-- Taking a row and converting to an array commute. -/
theorem toArr_row [Zero K] (E : SEnv K) (d : DType) (t : Tensor K) (i : Nat) :
    (toArr E d t).row i = match rowOf t i with
      | .ok r => .ok (toArr E d r)
      | .error e => .error e := by
  cases hs : t.shape with
  | nil =>
    have h1 : rowOf t i = .error .indexError := by unfold rowOf; rw [hs]
    rw [h1]
    cases h : (toArr E d t).row i with
    | error e => rw [row_error h]
    | ok r =>
      obtain ⟨b, s, h2, _⟩ := row_ok_iff.1 ⟨r, h⟩
      have h2 : t.shape = b :: s := h2
      rw [hs] at h2
      cases h2
  | cons b sh =>
    by_cases hi : i < b
    · have h1 : rowOf t i = .ok (Tensor.ofFn t.dev sh fun idx => t.el (i :: idx)) := by unfold rowOf; rw [hs]; exact if_pos hi
      rw [h1]
      obtain ⟨r, h⟩ := row_ok_iff.2 ⟨b, sh, (show (toArr E d t).shape = b :: sh from hs), hi⟩
      rw [h]
      obtain ⟨r1, r2, r3⟩ := row_spec h
      have htail : (toArr E d t).shape.tail = sh := by show t.shape.tail = sh; rw [hs]; rfl
      rw [htail] at r2 r3
      dsimp only
      congr 1
      refine Arr.ext' r1 r2 (r3.trans ?_)
      have hd : t.data = (List.range b).flatMap fun i => (indices sh).map fun idx => t.el (i :: idx) := by
        have := congrArg Tensor.data (Tensor.ofFn_el t)
        simp only [Tensor.ofFn] at this
        rw [← this, hs]
        simp only [indices, List.map_flatMap, List.map_map]
        rfl
      show List.take (numel sh * d.itemsize) (List.drop (i * (numel sh * d.itemsize)) (t.data.flatMap fun x => (E.encode d x).1)) =
        ((indices sh).map fun idx => t.el (i :: idx)).flatMap fun x => (E.encode d x).1
      rw [hd, List.flatMap_assoc]
      have := take_drop_flatMap_const (fun i => ((indices sh).map fun idx => t.el (i :: idx)).flatMap fun x => (E.encode d x).1)
        (numel sh * d.itemsize) (List.range b) i (by simpa using hi) (by
          intro a _
          rw [flatMap_encode_length, List.length_map, indices_length])
      rw [this, List.getElem_range]
    · have h1 : rowOf t i = .error .indexError := by unfold rowOf; rw [hs]; exact if_neg hi
      rw [h1]
      cases h : (toArr E d t).row i with
      | error e => rw [row_error h]
      | ok r =>
        obtain ⟨b', s', h2, h3⟩ := row_ok_iff.1 ⟨r, h⟩
        have h2 : t.shape = b' :: s' := h2
        rw [hs] at h2
        cases h2
        exact absurd h3 hi

/-- The array of a logged tensor. -/
def arrOf (E : SEnv K) (s : Sess K) (r : TRef) : Arr :=
  match s.obj r with
  | some o => toArr E o.dtype o.val
  | none => ⟨.uint8, [], [0], rfl⟩

theorem toArr_onDev (E : SEnv K) (d : DType) (t : Tensor K) (dev : Dev) : toArr E d (t.onDev dev) = toArr E d t := rfl

theorem bufferVal_spec [Zero K] (E : SEnv K) (s : Sess K) (r : TRef) (i : Nat) :
    (arrOf E s r).row i = match s.bufferVal r i with
      | .ok v => .ok (s.readVal E v.1)
      | .error e => .error e := by
  unfold arrOf bufferVal
  cases ho : s.obj r with
  | none => rfl
  | some o =>
    dsimp only
    rw [toArr_row]
    cases hr : rowOf o.val i with
    | error e => rfl
    | ok t =>
      dsimp only
      congr 1
      split
      · simp only [readVal, ho]
        unfold rowOf at hr
        split at hr
        · cases hr
        · next b sh hs =>
          split at hr
          · rw [hs]
            cases hr
            rfl
          · cases hr
      · simp only [readVal, toArr_onDev]

theorem bufferVal_size [Zero K] (E : SEnv K) (s : Sess K) (r : TRef) (i : Nat) (v : BVal K × Nat) (h : s.bufferVal r i = .ok v) :
    v.2 = (s.readVal E v.1).size := by
  unfold bufferVal at h
  cases ho : s.obj r with
  | none => rw [ho] at h; cases h
  | some o =>
    rw [ho] at h
    dsimp only at h
    cases hr : rowOf o.val i with
    | error e => rw [hr] at h; cases h
    | ok t =>
      rw [hr] at h
      dsimp only at h
      cases h
      split
      · simp only [readVal, ho]
        unfold rowOf at hr
        split at hr
        · cases hr
        · next b sh hs =>
          split at hr
          · cases hr
            rw [hs]
            rfl
          · cases hr
      · rfl

/-- One module of the buffer, and the buffer of one sample, as arrays. -/
def readTypes [Zero K] (E : SEnv K) (s : Sess K) (b : Dict PyStr (BVal K)) : List (PyStr × Nested Arr) :=
  b.map fun t => (t.1, .leaf (s.readVal E t.2))
def readMods [Zero K] (E : SEnv K) (s : Sess K) (b : Dict PyStr (Dict PyStr (BVal K))) : List (PyStr × Nested Arr) :=
  b.map fun m => (m.1, .node (readTypes E s m.2))
def logTypes (E : SEnv K) (s : Sess K) (l : List (PyStr × TRef)) : List (PyStr × Nested Arr) := l.map fun t => (t.1, .leaf (arrOf E s t.2))
def logMods (E : SEnv K) (s : Sess K) (l : List (PyStr × Dict PyStr TRef)) : List (PyStr × Nested Arr) :=
  l.map fun m => (m.1, .node (logTypes E s m.2))

theorem readLog_eq (E : SEnv K) (s : Sess K) : s.readLog E = logMods E s s.log := rfl
theorem readBuffer_eq [Zero K] (E : SEnv K) (s : Sess K) : s.readBuffer E = s.buffer.map fun e => (e.1, readMods E s e.2) := rfl

theorem addTypes_spec [Zero K] (E : SEnv K) (s : Sess K) (i : Nat) (l : List (PyStr × TRef)) : ∀ (b : Dict PyStr (BVal K)) (n : Nat),
    addLog i (logTypes E s l) (readTypes E s b, n) =
      ((readTypes E s (addTypes s i l (b, n)).1.1, (addTypes s i l (b, n)).1.2), (addTypes s i l (b, n)).2) := by
  induction l with
  | nil => intro b n; rfl
  | cons a l ih =>
    intro b n
    obtain ⟨k, r⟩ := a
    have hv := bufferVal_spec E s r i
    show addLog i ((k, .leaf (arrOf E s r)) :: logTypes E s l) (readTypes E s b, n) = _
    unfold addTypes
    rw [addLog]
    cases hb : s.bufferVal r i with
    | error e =>
      rw [hb] at hv
      dsimp only at hv ⊢
      rw [addValue, hv]
    | ok v =>
      have hz := bufferVal_size E s r i v hb
      rw [hb] at hv
      obtain ⟨v, m⟩ := v
      dsimp only at hv hz ⊢
      rw [addValue, hv]
      dsimp only
      rw [← ih, ← hz]
      congr 2
      exact (Dict.map_set b k v fun v => Nested.leaf (s.readVal E v)).symm

theorem Dict.get?_map' {κ α β : Type _} [DecidableEq κ] (d : Dict κ α) (f : α → β) (k : κ) :
    Dict.get? (d.map fun e => (e.1, f e.2)) k = (Dict.get? d k).map f := by
  induction d with
  | nil => rfl
  | cons a d ih =>
    obtain ⟨k', v⟩ := a
    rw [List.map_cons, Dict.get?_cons, Dict.get?_cons]
    split
    · rfl
    · exact ih

theorem addModules_spec [Zero K] (E : SEnv K) (s : Sess K) (i : Nat) (l : List (PyStr × Dict PyStr TRef)) :
    ∀ (b : Dict PyStr (Dict PyStr (BVal K))) (n : Nat), addLog i (logMods E s l) (readMods E s b, n) =
      ((readMods E s (addModules s i l (b, n)).1.1, (addModules s i l (b, n)).1.2), (addModules s i l (b, n)).2) := by
  induction l with
  | nil => intro b n; rfl
  | cons a l ih =>
    intro b n
    obtain ⟨k, m⟩ := a
    show addLog i ((k, .node (logTypes E s m)) :: logMods E s l) (readMods E s b, n) = _
    have hg : Dict.get? (readMods E s b) k = (Dict.get? b k).map fun x => Nested.node (readTypes E s x) :=
      Dict.get?_map' b (fun x => Nested.node (readTypes E s x)) k
    have key : addValue i k (.node (logTypes E s m)) (readMods E s b, n) =
        ((Dict.set (readMods E s b) k (.node (addLog i (logTypes E s m) (readTypes E s ((Dict.get? b k).getD []), n)).1.1),
          (addLog i (logTypes E s m) (readTypes E s ((Dict.get? b k).getD []), n)).1.2),
          (addLog i (logTypes E s m) (readTypes E s ((Dict.get? b k).getD []), n)).2) := by
      rw [addValue, hg]
      cases Dict.get? b k with
      | none => rfl
      | some x => rfl
    rw [addLog, key, addTypes_spec]
    unfold addModules
    dsimp only
    have hset : ∀ x, Dict.set (readMods E s b) k (.node (readTypes E s x)) = readMods E s (Dict.set b k x) := fun x =>
      (Dict.map_set b k x fun v => Nested.node (readTypes E s v)).symm
    rw [hset]
    cases (addTypes s i m ((Dict.get? b k).getD [], n)).2 with
    | some e => rfl
    | none => exact ih _ _

theorem bufferWriteFrom_spec [Zero K] (E : SEnv K) (ids : List PyStr) : ∀ (i : Nat) (s : Sess K),
    Saver.bufferWriteFrom (s.readLog E) i ids (s.valueSaver E) =
      ((bufferWriteFrom i ids s).1.valueSaver E, match (bufferWriteFrom i ids s).2 with | none => .ok () | some e => .error e) := by
  induction ids with
  | nil => intro i s; rfl
  | cons d ids ih =>
    intro i s
    have hg : (Dict.get? (s.valueSaver E).buffer d).getD [] = readMods E s ((Dict.get? s.buffer d).getD []) := by
      show (Dict.get? (s.readBuffer E) d).getD [] = _
      rw [readBuffer_eq, Dict.get?_map']
      cases Dict.get? s.buffer d <;> rfl
    unfold Saver.bufferWriteFrom bufferWriteFrom
    dsimp only
    rw [hg, readLog_eq]
    show (match (addLog i (logMods E s s.log) (readMods E s ((Dict.get? s.buffer d).getD []), s.bufferSize)).2 with
      | some e => _
      | none => _) = _
    rw [addModules_spec]
    dsimp only
    have hsv : ({ s.valueSaver E with
        buffer := Dict.set (s.valueSaver E).buffer d
          (addLog i (logMods E s s.log) (readMods E s ((Dict.get? s.buffer d).getD []), (s.valueSaver E).bufferSize)).1.1
        bufferSize := (addLog i (logMods E s s.log) (readMods E s ((Dict.get? s.buffer d).getD []), (s.valueSaver E).bufferSize)).1.2 }
          : Saver) = valueSaver E { s with
        buffer := Dict.set s.buffer d (addModules s i s.log ((Dict.get? s.buffer d).getD [], s.bufferSize)).1.1
        bufferSize := (addModules s i s.log ((Dict.get? s.buffer d).getD [], s.bufferSize)).1.2 } := by
      rw [show (s.valueSaver E).bufferSize = s.bufferSize from rfl, addModules_spec]
      have hm := (Dict.map_set s.buffer d (addModules s i s.log ((Dict.get? s.buffer d).getD [], s.bufferSize)).1.1
        fun v => readMods E s v).symm
      show Saver.mk _ _ _ _ (Dict.set (s.buffer.map fun e => (e.1, readMods E s e.2)) d _) _ = Saver.mk _ _ _ _ _ _
      rw [hm]
      rfl
    cases he : (addModules s i s.log ((Dict.get? s.buffer d).getD [], s.bufferSize)).2 with
    | some e =>
      dsimp only
      rw [← hsv, show (s.valueSaver E).bufferSize = s.bufferSize from rfl, addModules_spec]
    | none =>
      dsimp only
      have := ih (i + 1) { s with
        buffer := Dict.set s.buffer d (addModules s i s.log ((Dict.get? s.buffer d).getD [], s.bufferSize)).1.1
        bufferSize := (addModules s i s.log ((Dict.get? s.buffer d).getD [], s.bufferSize)).1.2 }
      rw [← hsv] at this
      exact this

/-- The directory, the saver and the exception after a step, in terms of values. -/
def saved [Zero K] (E : SEnv K) (r : Sess K × Option PyErr) : FS × Saver × Py Unit :=
  (r.1.fs, r.1.valueSaver E, match r.2 with | none => .ok () | some e => .error e)

theorem flushSerialized_buffer (order : List Path) (fs : FS) (v : Saver) :
    (v.flushSerialized order fs).2.1.buffer = [] ∨ (v.flushSerialized order fs).2.1.buffer = v.buffer := by
  unfold Saver.flushSerialized
  split
  · exact Or.inr rfl
  · dsimp only
    split
    · exact Or.inr rfl
    · exact Or.inl rfl

theorem flush_buffer (order : List Path) (fs : FS) (v : Saver) :
    (v.flush order fs).2.1.buffer = [] ∨ (v.flush order fs).2.1.buffer = v.buffer := by
  unfold Saver.flush
  split
  · split
    · exact Or.inl rfl
    · exact flushSerialized_buffer order fs v
  · exact Or.inr rfl

theorem withSaver_spec [Zero K] (E : SEnv K) (f : List Path → FS → Saver → FS × Saver × Py Unit)
    (hf : ∀ order fs v, (f order fs v).2.1.buffer = [] ∨ (f order fs v).2.1.buffer = v.buffer) (s : Sess K) :
    saved E (withSaver E f s) = f s.paths s.fs (s.valueSaver E) := by
  have h := hf s.paths s.fs (s.valueSaver E)
  unfold saved withSaver
  dsimp only
  generalize hr : f s.paths s.fs (s.valueSaver E) = r at h ⊢
  obtain ⟨fs', v, e⟩ := r
  dsimp only at h ⊢
  have h1 : (if v.buffer.isEmpty then [] else s.buffer).map (fun e => (e.1, readMods E s e.2)) = v.buffer := by
    rcases h with h | h
    · rw [h]; rfl
    · rw [h]
      split
      · next h' => exact (List.isEmpty_iff.1 h').symm
      · rfl
  refine Prod.ext rfl (Prod.ext ?_ ?_)
  · show Saver.mk v.rank v.numWorkers v.flushThreshold v.flushCount
      ((if v.buffer.isEmpty then [] else s.buffer).map fun e => (e.1, readMods E s e.2)) v.bufferSize = v
    rw [h1]
  · cases e <;> rfl

theorem bufferWriteFrom_fs [Zero K] (ids : List PyStr) : ∀ (i : Nat) (s : Sess K),
    (bufferWriteFrom i ids s).1.fs = s.fs ∧ (bufferWriteFrom i ids s).1.paths = s.paths := by
  induction ids with
  | nil => exact fun _ _ => ⟨rfl, rfl⟩
  | cons d ids ih =>
    intro i s
    unfold bufferWriteFrom
    dsimp only
    split
    · exact ⟨rfl, rfl⟩
    · exact ih _ _

/-- **Saving in a session is what the value-level saver does** with the values that the log has at that moment. -/
theorem saveLog_spec [Zero K] (E : SEnv K) (s : Sess K) (ids : List PyStr) (hi : s.dataId = some ids) :
    saved E (saveLog E s) = (s.valueSaver E).saveLog s.paths ids (s.readLog E) s.fs := by
  have h := bufferWriteFrom_spec E ids 0 s
  have hso := bufferWriteFrom_fs ids 0 s
  unfold saveLog Saver.saveLog Saver.bufferWrite
  rw [h]
  have hb : bufferWrite s = bufferWriteFrom 0 ids s := by unfold bufferWrite; rw [hi]
  cases hw : bufferWriteFrom 0 ids s with
  | mk s' e =>
    rw [hw] at hso
    cases e with
    | some e =>
      have : SAct.seq bufferWrite (withSaver E fun order fs sv => sv.flush order fs) s = (s', some e) := by
        unfold SAct.seq
        rw [hb, hw]
      rw [this]
      show (s'.fs, _) = (s.fs, _)
      rw [hso.1]
    | none =>
      rw [SAct.seq_eq (hb.trans hw), withSaver_spec E _ flush_buffer]
      dsimp only
      rw [hso.1, hso.2]

end Sess
end Logix
