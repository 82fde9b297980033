/-
C103: the ids that the integrations give to the samples of a batch.
-/
import Verif.Spec.BatchIds
import Verif.Props.DataId
import Verif.Lemmas.Saver

namespace Logix
open Spec

/-- The generator of the integrations: `DataIDGenerator()`. -/
abbrev defaultGen : IdGen := IdGen.init "hash".toList

theorem mapPy_rows {a : Arr} {n : Nat} {s : List Nat} (ha : a.shape = n :: s) : ∀ l : List Nat, (∀ i ∈ l, i < n) →
    ∃ rs : List Arr, mapPy (rowSample a) l = .ok (rs.map .arr) ∧ List.Forall₂ (fun i r => r.bytes = rowBytes a i) l rs
  | [], _ => ⟨[], rfl, .nil⟩
  | i :: l, hl => by
    obtain ⟨rs, h1, h2⟩ := mapPy_rows ha l fun j hj => hl j (by simp [hj])
    obtain ⟨r, hr⟩ := row_ok_iff.2 ⟨n, s, ha, hl i (by simp)⟩
    refine ⟨r :: rs, ?_, .cons (row_spec hr).2.2 h2⟩
    have : rowSample a i = .ok (.arr r) := by unfold rowSample; rw [hr]
    unfold mapPy
    rw [this, h1]
    rfl

theorem defaultGen_call (H : List UInt8 → PyStr) (l : List Sample) : defaultGen.call H l = (defaultGen, hashIds H l) := by
  unfold IdGen.call
  rw [if_pos (by decide +kernel)]

/-- **C103, Lightning, batches that are a single tensor.** One id for each row, and it depends on the bytes of the row alone. -/
theorem C103_tensor_partial (H : List UInt8 → PyStr) (a : Arr) (n : Nat) (h : BatchSize n (.tensor a)) :
    ∃ ids, (lightningIds H defaultGen (.tensor a)).2 = .ok ids ∧ RowIds H a n ids := by
  obtain ⟨s, ha⟩ := h
  obtain ⟨rs, h1, h2⟩ := mapPy_rows ha (List.range n) fun i hi => List.mem_range.1 hi
  have he : (Batch.tensor a).elems = .ok (rs.map .arr) := by
    unfold Batch.elems
    dsimp only
    rw [ha]
    exact h1
  refine ⟨rs.map fun r => H r.bytes, ?_, ?_, ?_⟩
  · unfold lightningIds
    rw [he]
    dsimp only
    rw [defaultGen_call]
    exact hashIds_ok H rs
  · rw [List.length_map, ← h2.length_eq, List.length_range]
  · intro i hi
    have hr : i < rs.length := by rw [← h2.length_eq, List.length_range]; exact hi
    have := (List.forall₂_iff_get.1 h2).2 i (by simpa using hi) hr
    simp only [List.get_eq_getElem, List.getElem_range] at this
    rw [List.getElem?_map, List.getElem?_eq_getElem hr, Option.map_some, this]

/-- **C103, Hugging Face.** If the batch has the input key, there is one id for each row of the inputs, and it depends on the bytes of the row alone. -/
theorem C103_hugging_face (H : List UInt8 → PyStr) (key : PyStr) (d : List (PyStr × Arr)) (a : Arr) (n : Nat) (hk : Dict.get? d key = some a)
    (h : BatchSize n (.dict d)) : ∃ ids, (hfIds H defaultGen key d).2 = .ok ids ∧ RowIds H a n ids := by
  have hm : (key, a) ∈ d := Dict.mem_of_get? _ hk
  unfold hfIds
  rw [hk]
  exact C103_tensor_partial H a n (h.2 _ hm)

/-- **C103, what happens with a list or tuple of tensors** such as inputs and labels: each tensor gets an id, whatever the number of samples. -/
theorem C103_tuple (H : List UInt8 → PyStr) (ts : List Arr) : (lightningIds H defaultGen (.seq ts)).2 = .ok (ts.map fun a => H a.bytes) := by
  unfold lightningIds Batch.elems
  dsimp only
  rw [defaultGen_call]
  exact hashIds_ok H ts

/-- **C103, what happens with a dictionary of tensors.** ValueError. -/
theorem C103_dict (H : List UInt8 → PyStr) (d : List (PyStr × Arr)) (hd : d ≠ []) :
    (lightningIds H defaultGen (.dict d)).2 = .error .valueError := by
  cases d with
  | nil => exact absurd rfl hd
  | cons e d => exact C73_rejects H _ (by simp)

theorem length_set_le {α : Type} (d : Dict PyStr α) (k : PyStr) (v : α) : (Dict.set d k v).length ≤ d.length + 1 := by
  induction d with
  | nil => simp [Dict.set]
  | cons x d ih =>
    obtain ⟨a, b⟩ := x
    unfold Dict.set
    split
    · simp
    · simp only [List.length_cons]; omega

theorem bufferWriteFrom_length (log : List (PyStr × Nested Arr)) : ∀ (ids : List PyStr) (i : Nat) (s : Saver),
    (Saver.bufferWriteFrom log i ids s).1.buffer.length ≤ s.buffer.length + ids.length
  | [], i, s => by simp [Saver.bufferWriteFrom]
  | d :: ids, i, s => by
    unfold Saver.bufferWriteFrom
    dsimp only
    have hl := length_set_le s.buffer d (addLog i log ((Dict.get? s.buffer d).getD [], s.bufferSize)).1.1
    split
    · simp only [List.length_cons]; omega
    · refine (bufferWriteFrom_length log ids _ _).trans ?_
      simp only [List.length_cons]; omega

/-- **C103, samples are lost.** Saving a batch that is a list of tensors adds at most as many samples to the log as there are tensors, however many samples
the batch has. -/
theorem C103_lost (H : List UInt8 → PyStr) (ts : List Arr) (ids : List PyStr) (h : (lightningIds H defaultGen (.seq ts)).2 = .ok ids)
    (log : List (PyStr × Nested Arr)) (s : Saver) : (s.bufferWrite ids log).1.buffer.length ≤ s.buffer.length + ts.length := by
  rw [C103_tuple] at h
  have hl : ids.length = ts.length := by rw [← Except.ok.inj h, List.length_map]
  have := bufferWriteFrom_length log ids 0 s
  rw [hl] at this
  exact this

mutual
theorem addValue_rows (idx : Nat) (key : PyStr) : ∀ (v : Nested Arr) (st st' : List (PyStr × Nested Arr) × Nat), addValue idx key v st = (st', none) →
    ∀ p t, v.lookup p = some t → ∃ r, t.row idx = .ok r
  | .leaf a, (buf, n), st', h, p, t, hp => by
    unfold addValue at h
    cases hr : a.row idx with
    | error e => rw [hr] at h; cases congrArg Prod.snd h
    | ok r =>
      cases p with
      | nil =>
        have : a = t := by unfold Nested.lookup at hp; exact Option.some.inj hp
        rw [← this]; exact ⟨r, hr⟩
      | cons k p => unfold Nested.lookup at hp; cases hp
  | .node m, (buf, n), st', h, p, t, hp => by
    cases p with
    | nil => unfold Nested.lookup at hp; cases hp
    | cons k p =>
      unfold addValue at h
      split at h
      · have h := congrArg Prod.snd h
        dsimp only at h
        cases m with
        | nil => unfold Nested.lookup at hp; cases hp
        | cons e m => cases h
      · next sub _ =>
        have h2 := congrArg Prod.snd h
        dsimp only at h2
        exact addLog_rows idx m (sub, n) _ (Prod.ext rfl h2) (k :: p) t hp
      · have h2 := congrArg Prod.snd h
        dsimp only at h2
        exact addLog_rows idx m ([], n) _ (Prod.ext rfl h2) (k :: p) t hp
theorem addLog_rows (idx : Nat) : ∀ (log : List (PyStr × Nested Arr)) (st st' : List (PyStr × Nested Arr) × Nat), addLog idx log st = (st', none) →
    ∀ p t, (Nested.node log).lookup p = some t → ∃ r, t.row idx = .ok r
  | [], _, _, _, p, t, hp => by
    cases p with
    | nil => unfold Nested.lookup at hp; cases hp
    | cons k p => unfold Nested.lookup at hp; cases hp
  | (k, v) :: rest, st, st', h, p, t, hp => by
    unfold addLog at h
    split at h
    · cases congrArg Prod.snd h
    · next st1 h1 =>
      cases p with
      | nil => unfold Nested.lookup at hp; cases hp
      | cons k' p =>
        by_cases hk : k = k'
        · subst hk
          refine addValue_rows idx k v st st1 h1 p t ?_
          unfold Nested.lookup at hp
          simpa [Dict.get?] using hp
        · refine addLog_rows idx rest st1 st' h (k' :: p) t ?_
          unfold Nested.lookup at hp ⊢
          simpa [Dict.get?, hk] using hp
end

theorem bufferWriteFrom_rows (log : List (PyStr × Nested Arr)) {p : Path} {t : Arr} {n : Nat} (hp : (Nested.node log).lookup p = some t) (ht : Rows t n) :
    ∀ (ids : List PyStr) (i : Nat) (s : Saver), (Saver.bufferWriteFrom log i ids s).2 = .ok () → ids = [] ∨ i + ids.length ≤ n
  | [], _, _, _ => Or.inl rfl
  | d :: ids, i, s, h => by
    unfold Saver.bufferWriteFrom at h
    dsimp only at h
    split at h
    · cases h
    · next h1 =>
      obtain ⟨r, hr⟩ := addLog_rows i log _ _ (Prod.ext rfl h1) p t hp
      obtain ⟨b, u, hb, hi⟩ := row_ok_iff.1 ⟨r, hr⟩
      obtain ⟨u', hu⟩ := ht
      rw [hu] at hb
      have hn : n = b := (List.cons.inj hb).1
      refine Or.inr ?_
      rcases bufferWriteFrom_rows log hp ⟨u', hu⟩ ids (i + 1) _ h with rfl | h2
      · simp only [List.length_cons, List.length_nil]; omega
      · simp only [List.length_cons]; omega

/-- **C103, small batches raise.** If a batch that is a list of tensors has fewer samples than tensors, saving its log raises. -/
theorem C103_raises (H : List UInt8 → PyStr) (ts : List Arr) (ids : List PyStr) (h : (lightningIds H defaultGen (.seq ts)).2 = .ok ids)
    (log : List (PyStr × Nested Arr)) (p : Path) (t : Arr) (n : Nat) (hp : (Nested.node log).lookup p = some t) (ht : Rows t n) (hn : n < ts.length) (s : Saver) :
    ∃ e, (s.bufferWrite ids log).2 = .error e := by
  rw [C103_tuple] at h
  have hl : ids.length = ts.length := by rw [← Except.ok.inj h, List.length_map]
  cases hw : (s.bufferWrite ids log).2 with
  | error e => exact ⟨e, rfl⟩
  | ok u =>
    exfalso
    rcases bufferWriteFrom_rows log hp ht ids 0 s hw with rfl | h2
    · simp only [List.length_nil] at hl; omega
    · omega

namespace ExBatch

def H₀ (bs : List UInt8) : PyStr := bs.map fun b => Char.ofNat (97 + b.toNat)

/-- Three samples: inputs and labels. -/
def inputs : Arr := ⟨.uint8, [3, 2], [1, 2, 3, 4, 5, 6], rfl⟩
def labels : Arr := ⟨.uint8, [3], [0, 1, 0], rfl⟩

theorem three : BatchSize 3 (.seq [inputs, labels]) := by
  refine ⟨by simp, ?_⟩
  intro a ha
  simp only [List.mem_cons, List.not_mem_nil, or_false] at ha
  rcases ha with rfl | rfl
  · exact ⟨[2], rfl⟩
  · exact ⟨[], rfl⟩

/-- **C103 is false for Lightning.** A batch of three samples, given as inputs and labels, gets two ids. -/
theorem C103_refuted : ¬ ∀ (H : List UInt8 → PyStr) (b : Batch) (n : Nat), BatchSize n b →
    ∃ ids, (lightningIds H defaultGen b).2 = .ok ids ∧ ids.length = n := by
  intro h
  obtain ⟨ids, h1, h2⟩ := h H₀ _ _ three
  rw [C103_tuple] at h1
  rw [← Except.ok.inj h1] at h2
  cases h2

/-- The two ids are those of all inputs and of all labels. -/
example : (lightningIds H₀ defaultGen (.seq [inputs, labels])).2 = .ok [['b', 'c', 'd', 'e', 'f', 'g'], ['a', 'b', 'a']] := by decide +kernel

/-- The log of the batch has three rows; two are stored. -/
def gradLog : List (PyStr × Nested Arr) := [(['m'], .node [(['g'], .leaf ⟨.uint8, [3, 1], [7, 8, 9], rfl⟩)])]
example : (Saver.bufferWrite (Saver.init 0 1 0) [['b', 'c', 'd', 'e', 'f', 'g'], ['a', 'b', 'a']] gradLog).1.buffer =
    [(['b', 'c', 'd', 'e', 'f', 'g'], [(['m'], .node [(['g'], .leaf ⟨.uint8, [1], [7], rfl⟩)])]),
     (['a', 'b', 'a'], [(['m'], .node [(['g'], .leaf ⟨.uint8, [1], [8], rfl⟩)])])] := rfl

/-- A batch that is one tensor. -/
example : BatchSize 3 (.tensor inputs) := ⟨[2], rfl⟩
example : (lightningIds H₀ defaultGen (.tensor inputs)).2 = .ok [['b', 'c'], ['d', 'e'], ['f', 'g']] := by decide +kernel

/-- A batch of the Hugging Face trainer. -/
def hfBatch : List (PyStr × Arr) := [(['l'], labels), (['i'], inputs)]
example : BatchSize 3 (.dict hfBatch) := by
  refine ⟨by simp [hfBatch], ?_⟩
  intro e he
  simp only [hfBatch, List.mem_cons, List.not_mem_nil, or_false] at he
  rcases he with rfl | rfl
  · exact ⟨[], rfl⟩
  · exact ⟨[2], rfl⟩
example : (hfIds H₀ defaultGen ['i'] hfBatch).2 = .ok [['b', 'c'], ['d', 'e'], ['f', 'g']] := by decide +kernel
example : (lightningIds H₀ defaultGen (.dict hfBatch)).2 = .error .valueError := C103_dict _ _ (by simp [hfBatch])

/-- A batch with one sample: two ids, one row. -/
def small : List Arr := [⟨.uint8, [1, 2], [1, 2], rfl⟩, ⟨.uint8, [1], [0], rfl⟩]
def smallLog : List (PyStr × Nested Arr) := [(['m'], .node [(['g'], .leaf ⟨.uint8, [1, 1], [7], rfl⟩)])]
example : ∃ e, (Saver.bufferWrite (Saver.init 0 1 0) [['b', 'c'], ['a']] smallLog).2 = .error e :=
  C103_raises H₀ small _ (by decide +kernel) smallLog [['m'], ['g']] _ 1 rfl ⟨[1], rfl⟩ (by decide) _

end ExBatch
end Logix
