import Verif.Lemmas.Session

namespace Logix
open Spec

theorem elements_leaf (a : Arr) : elements (.leaf a) = a.size := by simp [elements, Nested.leaves]

theorem elements_node_nil : elements (.node []) = 0 := rfl

theorem elements_node_cons (k : PyStr) (v : Nested Arr) (rest : List (PyStr × Nested Arr)) :
    elements (.node ((k, v) :: rest)) = elements v + elements (.node rest) := by
  simp [elements, Nested.leaves, Nested.leavesList, List.map_map, Function.comp_def]

/-- Number of elements under a key. -/
def elementsAt (buf : List (PyStr × Nested Arr)) (k : PyStr) : Nat := ((Dict.get? buf k).map elements).getD 0

theorem elements_set (buf : List (PyStr × Nested Arr)) (k : PyStr) (v : Nested Arr) :
    elements (.node (Dict.set buf k v)) + elementsAt buf k = elements (.node buf) + elements v := by
  induction buf with
  | nil => simp [Dict.set, elements_node_cons, elements_node_nil, elementsAt]
  | cons x rest ih =>
    obtain ⟨a, b⟩ := x
    simp only [Dict.set, elementsAt, Dict.get?_cons] at ih ⊢
    by_cases e : a = k
    · simp only [e, if_true, elements_node_cons, Option.map_some, Option.getD_some]; omega
    · simp only [if_neg e, elements_node_cons]; omega

mutual
theorem addValue_elements (idx : Nat) (key : PyStr) : ∀ (v : Nested Arr) (buf : List (PyStr × Nested Arr)) (n : Nat),
    elements (.node (addValue idx key v (buf, n)).1.1) + n
      ≤ elements (.node buf) + (addValue idx key v (buf, n)).1.2
  | .leaf t, buf, n => by
    simp only [addValue]
    cases h : t.row idx with
    | error e => simp
    | ok r =>
      have := elements_set buf key (.leaf r)
      rw [elements_leaf] at this
      simp only; omega
  | .node m, buf, n => by
    simp only [addValue]
    cases h : Dict.get? buf key with
    | none =>
      have h1 := addLog_elements idx m [] n
      have h2 := elements_set buf key (.node (addLog idx m ([], n)).1.1)
      rw [elements_node_nil] at h1
      simp only; omega
    | some u =>
      cases u with
      | leaf b => simp
      | node sub =>
        have h1 := addLog_elements idx m sub n
        have h2 := elements_set buf key (.node (addLog idx m (sub, n)).1.1)
        have h3 : elementsAt buf key = elements (.node sub) := by simp [elementsAt, h]
        simp only; omega
theorem addLog_elements (idx : Nat) : ∀ (log buf : List (PyStr × Nested Arr)) (n : Nat),
    elements (.node (addLog idx log (buf, n)).1.1) + n ≤ elements (.node buf) + (addLog idx log (buf, n)).1.2
  | [], buf, n => by simp [addLog]
  | (k, v) :: rest, buf, n => by
    have h1 := addValue_elements idx k v buf n
    simp only [addLog]
    cases h : addValue idx k v (buf, n) with
    | mk st o =>
      obtain ⟨buf1, n1⟩ := st
      rw [h] at h1
      cases o with
      | some e => simpa using h1
      | none =>
        have h2 := addLog_elements idx rest buf1 n1
        simp only at h1 ⊢; omega
end

/-- Total number of elements in a buffer. -/
def bufElements (b : Dict PyStr (List (PyStr × Nested Arr))) : Nat := (b.map fun e => elements (.node e.2)).sum

theorem unflushed_eq (s : Saver) : unflushed s = bufElements s.buffer := by
  simp [unflushed, bufElements, Saver.items, List.map_map, Function.comp_def]

theorem bufElements_set (b : Dict PyStr (List (PyStr × Nested Arr))) (k : PyStr) (v : List (PyStr × Nested Arr)) :
    bufElements (Dict.set b k v) + elements (.node ((Dict.get? b k).getD [])) = bufElements b + elements (.node v) := by
  induction b with
  | nil => simp [Dict.set, bufElements, elements_node_nil]
  | cons x rest ih =>
    obtain ⟨a, c⟩ := x
    simp only [Dict.set, Dict.get?_cons]
    by_cases e : a = k
    · simp only [e, if_true, Option.getD_some, bufElements, List.map_cons, List.sum_cons]; omega
    · simp only [if_neg e, bufElements, List.map_cons, List.sum_cons] at ih ⊢; omega

theorem bufferWriteFrom_elements (log : List (PyStr × Nested Arr)) : ∀ (ids : List PyStr) (idx : Nat) (s : Saver),
    unflushed s ≤ s.bufferSize →
    unflushed (Saver.bufferWriteFrom log idx ids s).1 ≤ (Saver.bufferWriteFrom log idx ids s).1.bufferSize ∧
    (Saver.bufferWriteFrom log idx ids s).1.flushThreshold = s.flushThreshold ∧
    (Saver.bufferWriteFrom log idx ids s).1.numWorkers = s.numWorkers := by
  intro ids
  induction ids with
  | nil => intro idx s h; exact ⟨h, rfl, rfl⟩
  | cons a ids ih =>
    intro idx s h
    have h1 := addLog_elements idx log ((Dict.get? s.buffer a).getD []) s.bufferSize
    have h2 := bufElements_set s.buffer a (addLog idx log ((Dict.get? s.buffer a).getD [], s.bufferSize)).1.1
    rw [unflushed_eq] at h
    have hs' : unflushed { s with
        buffer := Dict.set s.buffer a (addLog idx log ((Dict.get? s.buffer a).getD [], s.bufferSize)).1.1,
        bufferSize := (addLog idx log ((Dict.get? s.buffer a).getD [], s.bufferSize)).1.2 }
        ≤ (addLog idx log ((Dict.get? s.buffer a).getD [], s.bufferSize)).1.2 := by
      rw [unflushed_eq]; simp only; omega
    simp only [Saver.bufferWriteFrom]
    cases hr : (addLog idx log ((Dict.get? s.buffer a).getD [], s.bufferSize)).2 with
    | some e => exact ⟨hs', rfl, rfl⟩
    | none => exact ih (idx + 1) _ hs'

/-- Counter invariant, for every operation (also those that raise). -/
theorem op_elements (order : List Path) (fs : FS) (s : Saver) (op : SaverOp) (h : unflushed s ≤ s.bufferSize) :
    unflushed (op.run order fs s).2.1 ≤ (op.run order fs s).2.1.bufferSize ∧
    (op.run order fs s).2.1.flushThreshold = s.flushThreshold ∧
    (op.run order fs s).2.1.numWorkers = s.numWorkers := by
  have hflush : ∀ (s : Saver), unflushed s ≤ s.bufferSize →
      unflushed (s.flushSerialized order fs).2.1 ≤ (s.flushSerialized order fs).2.1.bufferSize ∧
      (s.flushSerialized order fs).2.1.flushThreshold = s.flushThreshold ∧
      (s.flushSerialized order fs).2.1.numWorkers = s.numWorkers := by
    intro s h
    unfold Saver.flushSerialized
    simp only
    split
    · exact ⟨h, rfl, rfl⟩
    · split
      · exact ⟨h, rfl, rfl⟩
      · exact ⟨by simp [unflushed, Saver.items, Saver.bufferClear], rfl, rfl⟩
  cases op with
  | finalize => exact hflush s h
  | save ids log =>
    have h1 := bufferWriteFrom_elements log ids 0 s h
    simp only [SaverOp.run, Saver.saveLog, Saver.bufferWrite]
    cases hb : Saver.bufferWriteFrom log 0 ids s with
    | mk s1 r =>
      rw [hb] at h1
      simp only at h1
      cases r with
      | error e => exact h1
      | ok u =>
        simp only [Saver.flush]
        split
        · split
          · exact ⟨by simp [unflushed, Saver.items, Saver.bufferClear, Saver.flushSafe], h1.2.1, h1.2.2⟩
          · have := hflush s1 h1.1
            exact ⟨this.1, this.2.1.trans h1.2.1, this.2.2.trans h1.2.2⟩
        · exact h1

theorem session_elements (order : List Path) (ops : List SaverOp) : ∀ (fs : FS) (s : Saver), unflushed s ≤ s.bufferSize →
    unflushed (runSession order ops fs s).2.1 ≤ (runSession order ops fs s).2.1.bufferSize ∧
    (runSession order ops fs s).2.1.flushThreshold = s.flushThreshold ∧
    (runSession order ops fs s).2.1.numWorkers = s.numWorkers := by
  induction ops with
  | nil => intro fs s h; exact ⟨h, rfl, rfl⟩
  | cons op ops ih =>
    intro fs s h
    have h1 := op_elements order fs s op h
    simp only [runSession]
    cases hr : op.run order fs s with
    | mk fs1 x =>
      obtain ⟨s1, r⟩ := x
      rw [hr] at h1
      simp only at h1
      cases r with
      | error e => exact h1
      | ok u =>
        have := ih fs1 s1 h1.1
        exact ⟨this.1, this.2.1.trans h1.2.1, this.2.2.trans h1.2.2⟩

theorem runSession_append (order : List Path) (a b : List SaverOp) (fs : FS) (s : Saver) :
    runSession order (a ++ b) fs s =
      match runSession order a fs s with
      | (fs', s', .error e) => (fs', s', .error e)
      | (fs', s', .ok _) => runSession order b fs' s' := by
  induction a generalizing fs s with
  | nil => rfl
  | cons x a ih =>
    simp only [List.cons_append, runSession]
    cases hr : x.run order fs s with
    | mk fs1 y =>
      obtain ⟨s1, r⟩ := y
      cases r with
      | error e => rfl
      | ok u => exact ih fs1 s1

mutual
/-- If `_add` does not raise, every tensor of the log has the row. -/
theorem addValue_ok_rows (idx : Nat) (key : PyStr) : ∀ (v : Nested Arr) (st : List (PyStr × Nested Arr) × Nat),
    (addValue idx key v st).2 = none → ∀ pa ∈ v.leaves, ∃ r, pa.2.row idx = .ok r
  | .leaf t, (buf, n), h => by
    simp only [addValue] at h
    intro pa hpa
    simp only [Nested.leaves, List.mem_singleton] at hpa
    subst hpa
    cases hr : t.row idx with
    | error e => rw [hr] at h; cases h
    | ok r => exact ⟨r, rfl⟩
  | .node m, (buf, n), h => by
    simp only [addValue] at h
    simp only [Nested.leaves]
    cases hg : Dict.get? buf key with
    | none => rw [hg] at h; exact addLog_ok_rows idx m _ h
    | some u =>
      rw [hg] at h
      cases u with
      | leaf b =>
        cases m with
        | nil => intro pa hpa; simp [Nested.leavesList] at hpa
        | cons x m => simp at h
      | node sub => exact addLog_ok_rows idx m _ h
theorem addLog_ok_rows (idx : Nat) : ∀ (log : List (PyStr × Nested Arr)) (st : List (PyStr × Nested Arr) × Nat),
    (addLog idx log st).2 = none → ∀ pa ∈ Nested.leavesList log, ∃ r, pa.2.row idx = .ok r
  | [], _, _ => by intro pa hpa; simp [Nested.leavesList] at hpa
  | (k, v) :: rest, st, h => by
    simp only [addLog] at h
    intro pa hpa
    simp only [Nested.leavesList, List.mem_append, List.mem_map] at hpa
    cases hv : addValue idx k v st with
    | mk st1 o =>
      rw [hv] at h
      cases o with
      | some e => cases h
      | none =>
        rcases hpa with ⟨pb, hpb, rfl⟩ | hpa
        · exact addValue_ok_rows idx k v st (by rw [hv]) pb hpb
        · exact addLog_ok_rows idx rest st1 h pa hpa
end

mutual
/-- The only exception `_add` raises is IndexError. -/
theorem addValue_error (idx : Nat) (key : PyStr) : ∀ (v : Nested Arr) (st : List (PyStr × Nested Arr) × Nat) (e : PyErr),
    (addValue idx key v st).2 = some e → e = .indexError
  | .leaf t, (buf, n), e, h => by
    simp only [addValue] at h
    cases hr : t.row idx with
    | error e' => rw [hr] at h; cases h; exact row_error hr
    | ok r => rw [hr] at h; cases h
  | .node m, (buf, n), e, h => by
    simp only [addValue] at h
    cases hg : Dict.get? buf key with
    | none => rw [hg] at h; exact addLog_error idx m _ e h
    | some u =>
      rw [hg] at h
      cases u with
      | leaf b =>
        simp only at h
        split at h
        · cases h
        · cases h; rfl
      | node sub => exact addLog_error idx m _ e h
theorem addLog_error (idx : Nat) : ∀ (log : List (PyStr × Nested Arr)) (st : List (PyStr × Nested Arr) × Nat) (e : PyErr),
    (addLog idx log st).2 = some e → e = .indexError
  | [], _, e, h => by simp [addLog] at h
  | (k, v) :: rest, st, e, h => by
    simp only [addLog] at h
    cases hv : addValue idx k v st with
    | mk st1 o =>
      rw [hv] at h
      cases o with
      | some e' => cases h; exact addValue_error idx k v st e (by rw [hv])
      | none => exact addLog_error idx rest st1 e h
end

theorem bufferWriteFrom_error (log : List (PyStr × Nested Arr)) : ∀ (ids : List PyStr) (idx : Nat) (s : Saver) (e : PyErr),
    (Saver.bufferWriteFrom log idx ids s).2 = .error e → e = .indexError := by
  intro ids
  induction ids with
  | nil => intro idx s e h; cases h
  | cons a ids ih =>
    intro idx s e h
    simp only [Saver.bufferWriteFrom] at h
    cases hr : (addLog idx log ((Dict.get? s.buffer a).getD [], s.bufferSize)).2 with
    | some e' => rw [hr] at h; cases h; exact addLog_error _ _ _ _ hr
    | none => rw [hr] at h; exact ih _ _ _ h

theorem bufferWriteFrom_ok_rows (log : List (PyStr × Nested Arr)) : ∀ (ids : List PyStr) (idx : Nat) (s : Saver),
    (Saver.bufferWriteFrom log idx ids s).2 = .ok () →
    ∀ i, idx ≤ i → i < idx + ids.length → ∀ pa ∈ Nested.leavesList log, ∃ r, pa.2.row i = .ok r := by
  intro ids
  induction ids with
  | nil => intro idx s _ i h1 h2; simp at h2; omega
  | cons a ids ih =>
    intro idx s h i h1 h2
    simp only [Saver.bufferWriteFrom] at h
    cases hr : (addLog idx log ((Dict.get? s.buffer a).getD [], s.bufferSize)).2 with
    | some e' => rw [hr] at h; cases h
    | none =>
      rw [hr] at h
      by_cases e : i = idx
      · subst e; exact addLog_ok_rows _ _ _ hr
      · exact ih _ _ h i (by omega) (by simp at h2; omega)

end Logix
