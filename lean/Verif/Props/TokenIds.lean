/-
C116: the ids of the Hugging Face trainer identify the samples.
-/
import Verif.Spec.TokenIds
import Verif.Props.BatchIds

namespace Logix
open Spec

theorem int64Bytes_length (t : Nat) : (int64Bytes t).length = 8 := by simp [int64Bytes]

/-- Token ids below 2^63 have different bytes. -/
theorem int64Bytes_inj {a b : Nat} (ha : a < 2 ^ 63) (hb : b < 2 ^ 63) (h : int64Bytes a = int64Bytes b) : a = b := by
  have key : ∀ k, k < 8 → a / 256 ^ k % 256 = b / 256 ^ k % 256 := fun k hk => by
    have := congrArg (fun l => l[k]?) h
    simp only [int64Bytes, List.getElem?_map, List.getElem?_range hk, Option.map_some, Option.some.injEq] at this
    have := congrArg UInt8.toNat this
    simpa using this
  have k0 := key 0 (by decide)
  have k1 := key 1 (by decide)
  have k2 := key 2 (by decide)
  have k3 := key 3 (by decide)
  have k4 := key 4 (by decide)
  have k5 := key 5 (by decide)
  have k6 := key 6 (by decide)
  have k7 := key 7 (by decide)
  omega

theorem rowBytes_inj : ∀ {x y : List Nat}, x.length = y.length → (∀ t ∈ x, t < 2 ^ 63) → (∀ t ∈ y, t < 2 ^ 63) → x.flatMap int64Bytes = y.flatMap int64Bytes → x = y
  | [], [], _, _, _, _ => rfl
  | [], _ :: _, hl, _, _, _ => by cases hl
  | _ :: _, [], hl, _, _, _ => by cases hl
  | a :: x, b :: y, hl, hx, hy, h => by
    rw [List.flatMap_cons, List.flatMap_cons] at h
    obtain ⟨h1, h2⟩ := List.append_inj h (by rw [int64Bytes_length, int64Bytes_length])
    rw [int64Bytes_inj (hx a (by simp)) (hy b (by simp)) h1, rowBytes_inj (Nat.succ.inj hl) (fun t ht => hx t (by simp [ht])) (fun t ht => hy t (by simp [ht])) h2]

theorem flat8 (r : List Nat) : (r.flatMap int64Bytes).length = r.length * 8 := by
  induction r with
  | nil => rfl
  | cons t r ih => rw [List.flatMap_cons, List.length_append, ih, int64Bytes_length, List.length_cons]; omega

/-- The bytes of a row of a batch. -/
theorem rowBytes_arr (b : TokBatch) {i : Nat} {r : List Nat} (h : b.rows[i]? = some r) : rowBytes b.arr i = r.flatMap int64Bytes := by
  have main : ∀ (rows : List (List Nat)) (i : Nat), (∀ r ∈ rows, r.length = b.len) → ∀ r, rows[i]? = some r →
      ((rows.flatMap fun r => r.flatMap int64Bytes).drop (i * (b.len * 8))).take (b.len * 8) = r.flatMap int64Bytes := by
    intro rows
    induction rows with
    | nil => intro i _ r h; simp at h
    | cons r₀ rows ih =>
      intro i hw r h
      have h0 : (r₀.flatMap int64Bytes).length = b.len * 8 := by rw [flat8, hw r₀ (by simp)]
      cases i with
      | zero =>
        simp only [List.getElem?_cons_zero, Option.some.injEq] at h
        subst h
        rw [Nat.zero_mul, List.drop_zero, List.flatMap_cons, ← h0, List.take_left]
      | succ i =>
        simp only [List.getElem?_cons_succ] at h
        rw [Nat.succ_mul, Nat.add_comm, ← List.drop_drop, List.flatMap_cons, ← h0, List.drop_left, h0]
        exact ih i (fun r hr => hw r (by simp [hr])) r h
  have := main b.rows i b.wf r h
  unfold rowBytes
  simpa [TokBatch.arr, numel, DType.itemsize] using this

/-- With `data_id="hash"` id `i` is the hash of row `i`. -/
theorem hash_ids (H : List UInt8 → PyStr) (decode : Option (List Nat → PyStr)) (key : PyStr) (b : TokBatch) :
    idsOf H decode "hash".toList key b = .ok (some (b.rows.map fun r => H (r.flatMap int64Bytes))) := by
  obtain ⟨ids, h1, h2, h3⟩ := C103_hugging_face H key [(key, b.arr)] b.arr b.rows.length (by simp [Dict.get?]) ⟨by simp, fun e he => by
    rw [List.mem_singleton] at he; subst he; exact ⟨[b.len], rfl⟩⟩
  unfold idsOf getDataId
  rw [if_neg (by decide +kernel), if_pos rfl]
  have h1' : (hfIds H (IdGen.init "hash".toList) key [(key, b.arr)]).2 = .ok ids := h1
  simp only [List.map_cons, List.map_nil]
  rw [h1']
  have : ids = b.rows.map fun r => H (r.flatMap int64Bytes) := by
    apply List.ext_getElem?
    intro i
    by_cases hi : i < b.rows.length
    · rw [h3 i hi, List.getElem?_map, List.getElem?_eq_getElem hi, Option.map_some, rowBytes_arr b (List.getElem?_eq_getElem hi)]
    · rw [List.getElem?_eq_none (by rw [h2]; omega), List.getElem?_eq_none (by rw [List.length_map]; omega)]
  rw [this]
  rfl

theorem detok_ids (H : List UInt8 → PyStr) (dec : List Nat → PyStr) (key : PyStr) (b : TokBatch) :
    idsOf H (some dec) "detokenize".toList key b = .ok (some (b.rows.map dec)) := by
  unfold idsOf getDataId
  rw [if_pos rfl]
  simp [Dict.get?]

theorem padTo_length {left : Bool} {p n : Nat} {x : List Nat} (h : x.length ≤ n) : (padTo left p n x).length = n := by
  unfold padTo
  split <;> simp <;> omega

theorem length_le_longest {xs : List (List Nat)} {x : List Nat} (h : x ∈ xs) : x.length ≤ longest xs := by
  unfold longest
  induction xs with
  | nil => cases h
  | cons y xs ih =>
    simp only [List.map_cons, List.foldr_cons]
    rcases List.mem_cons.1 h with rfl | h
    · exact Nat.le_max_left _ _
    · exact (ih h).trans (Nat.le_max_right _ _)

/-- Padding to the same length can be undone if the sequences do not contain the padding token. -/
theorem padTo_inj {left : Bool} {p n : Nat} {x y : List Nat} (hx : p ∉ x) (hy : p ∉ y) (h : padTo left p n x = padTo left p n y) : x = y := by
  have f : ∀ z : List Nat, p ∉ z → (padTo left p n z).filter (fun t => t ≠ p) = z := by
    intro z hz
    have hz' : z.filter (fun t => t ≠ p) = z := by
      rw [List.filter_eq_self]
      intro a ha
      simp only [ne_eq, decide_not, Bool.not_eq_eq_eq_not, Bool.not_true, decide_eq_false_iff_not]
      rintro rfl
      exact hz ha
    unfold padTo
    split <;> rw [List.filter_append, hz'] <;> simp
  rw [← f x hx, ← f y hy, h]

/-- **C116, ids from the hash** (without collisions): two sequences in two batches get the same id exactly if their padded rows are the same. -/
theorem C116_hash (H : List UInt8 → PyStr) (hH : ∀ u v, H u = H v → u = v) {decode decode' : Option (List Nat → PyStr)} {key key' : PyStr} {left left' : Bool} {p p' : Nat}
    {xs ys : List (List Nat)} {b b' : TokBatch} (hb : IsPadded left p xs b) (hb' : IsPadded left' p' ys b') (hp : p < 2 ^ 63) (hp' : p' < 2 ^ 63)
    (hx : ∀ x ∈ xs, ∀ t ∈ x, t < 2 ^ 63) (hy : ∀ y ∈ ys, ∀ t ∈ y, t < 2 ^ 63) :
    ∃ ids ids', idsOf H decode "hash".toList key b = .ok (some ids) ∧ idsOf H decode' "hash".toList key' b' = .ok (some ids') ∧
      ids.length = xs.length ∧ ids'.length = ys.length ∧
      ∀ (i j : Nat) u v x y, ids[i]? = some u → ids'[j]? = some v → xs[i]? = some x → ys[j]? = some y →
        (u = v ↔ b.len = b'.len ∧ padTo left p b.len x = padTo left' p' b'.len y) := by
  refine ⟨_, _, hash_ids H _ _ b, hash_ids H _ _ b', by simp [hb.2], by simp [hb'.2], fun i j u v x y hu hv hxi hyj => ?_⟩
  have hx1 := List.mem_of_getElem? hxi
  have hy1 := List.mem_of_getElem? hyj
  simp only [hb.2, List.map_map, List.getElem?_map, hxi, Option.map_some, Option.some.injEq, Function.comp_apply] at hu
  simp only [hb'.2, List.map_map, List.getElem?_map, hyj, Option.map_some, Option.some.injEq, Function.comp_apply] at hv
  have l1 : (padTo left p b.len x).length = b.len := padTo_length ((length_le_longest hx1).trans hb.1)
  have l2 : (padTo left' p' b'.len y).length = b'.len := padTo_length ((length_le_longest hy1).trans hb'.1)
  have small : ∀ (left : Bool) (p n : Nat) (z : List Nat), p < 2 ^ 63 → (∀ t ∈ z, t < 2 ^ 63) → ∀ t ∈ padTo left p n z, t < 2 ^ 63 := by
    intro left p n z hp hz t ht
    unfold padTo at ht
    split at ht <;> rcases List.mem_append.1 ht with h | h
    · rw [(List.mem_replicate.1 h).2]; exact hp
    · exact hz t h
    · exact hz t h
    · rw [(List.mem_replicate.1 h).2]; exact hp
  subst hu hv
  constructor
  · intro h
    have h := hH _ _ h
    have hl := congrArg List.length h
    rw [flat8, flat8, l1, l2] at hl
    have hl : b.len = b'.len := by omega
    exact ⟨hl, rowBytes_inj (by rw [l1, l2, hl]) (small _ _ _ _ hp (hx x hx1)) (small _ _ _ _ hp' (hy y hy1)) h⟩
  · rintro ⟨-, h⟩
    rw [h]

/-- **C116** (partial: the property is false, see `C116_refuted`, `C116_other_length`, `C116_same_text`). With hash ids, padding always to the same length and
sequences without padding tokens the ids identify the sequences. -/
theorem C116_hash_partial (H : List UInt8 → PyStr) (hH : ∀ u v, H u = H v → u = v) {decode decode' : Option (List Nat → PyStr)} {key key' : PyStr} {left : Bool} {p : Nat}
    {xs ys : List (List Nat)} {b b' : TokBatch} (hb : IsPadded left p xs b) (hb' : IsPadded left p ys b') (hn : b.len = b'.len) (hp : p < 2 ^ 63)
    (hx : ∀ x ∈ xs, p ∉ x ∧ ∀ t ∈ x, t < 2 ^ 63) (hy : ∀ y ∈ ys, p ∉ y ∧ ∀ t ∈ y, t < 2 ^ 63) :
    ∃ ids ids', idsOf H decode "hash".toList key b = .ok (some ids) ∧ idsOf H decode' "hash".toList key' b' = .ok (some ids') ∧ Identify ids ids' xs ys := by
  obtain ⟨ids, ids', h1, h2, h3, h4, h5⟩ := C116_hash H hH (decode := decode) (decode' := decode') (key := key) (key' := key') hb hb' hp hp
    (fun x h => (hx x h).2) (fun y h => (hy y h).2)
  refine ⟨ids, ids', h1, h2, h3, h4, fun i j u v x y hu hv hxi hyj => (h5 i j u v x y hu hv hxi hyj).trans ⟨fun h => ?_, fun h => ⟨hn, by rw [h, hn]⟩⟩⟩
  rw [hn] at h
  exact padTo_inj (hx x (List.mem_of_getElem? hxi)).1 (hy y (List.mem_of_getElem? hyj)).1 h.2

/-- **C116, why it fails for hash ids**: in batches of different lengths all ids are different, also those of the same sequence. -/
theorem C116_other_length (H : List UInt8 → PyStr) (hH : ∀ u v, H u = H v → u = v) {decode decode' : Option (List Nat → PyStr)} {key key' : PyStr} {left left' : Bool} {p p' : Nat}
    {xs ys : List (List Nat)} {b b' : TokBatch} (hb : IsPadded left p xs b) (hb' : IsPadded left' p' ys b') (hp : p < 2 ^ 63) (hp' : p' < 2 ^ 63)
    (hx : ∀ x ∈ xs, ∀ t ∈ x, t < 2 ^ 63) (hy : ∀ y ∈ ys, ∀ t ∈ y, t < 2 ^ 63) (hn : b.len ≠ b'.len) :
    ∃ ids ids', idsOf H decode "hash".toList key b = .ok (some ids) ∧ idsOf H decode' "hash".toList key' b' = .ok (some ids') ∧
      ids.length = xs.length ∧ ids'.length = ys.length ∧ ∀ u ∈ ids, u ∉ ids' := by
  obtain ⟨ids, ids', h1, h2, h3, h4, h5⟩ := C116_hash H hH (decode := decode) (decode' := decode') (key := key) (key' := key') hb hb' hp hp' hx hy
  refine ⟨ids, ids', h1, h2, h3, h4, fun u hu hu' => ?_⟩
  obtain ⟨i, hi, rfl⟩ := List.getElem_of_mem hu
  obtain ⟨j, hj, e⟩ := List.getElem_of_mem hu'
  have := (h5 i j _ _ (xs[i]'(h3 ▸ hi)) (ys[j]'(h4 ▸ hj)) (List.getElem?_eq_getElem hi) (List.getElem?_eq_getElem hj) (List.getElem?_eq_getElem _)
    (List.getElem?_eq_getElem _)).1 e.symm
  exact hn this.1

/-- **C116** for decoded ids (partial: see `C116_same_text`): the id of a sequence is the text of its tokens that are not special, whatever the batch and the
padding. So the same sequence has the same id in all batches, and sequences with different texts have different ids. -/
theorem C116_detokenize_partial (H : List UInt8 → PyStr) {special : Nat → Bool} {dec : List Nat → PyStr} (hdec : SkipsSpecial special dec) {key key' : PyStr} {left left' : Bool}
    {p p' : Nat} (hp : special p = true) (hp' : special p' = true) {xs ys : List (List Nat)} {b b' : TokBatch} (hb : IsPadded left p xs b) (hb' : IsPadded left' p' ys b') :
    ∃ ids ids', idsOf H (some dec) "detokenize".toList key b = .ok (some ids) ∧ idsOf H (some dec) "detokenize".toList key' b' = .ok (some ids') ∧
      ids.length = xs.length ∧ ids'.length = ys.length ∧
      ∀ (i j : Nat) u v x y, ids[i]? = some u → ids'[j]? = some v → xs[i]? = some x → ys[j]? = some y → (x = y → u = v) ∧ (u = v ↔ dec x = dec y) := by
  have f : ∀ (left : Bool) (p n : Nat) (z : List Nat), special p = true → dec (padTo left p n z) = dec z := by
    intro left p n z hp
    rw [hdec (padTo left p n z), hdec z]
    unfold padTo
    split <;> rw [List.filter_append] <;> simp [hp]
  refine ⟨_, _, detok_ids H dec key b, detok_ids H dec key' b', by simp [hb.2], by simp [hb'.2], fun i j u v x y hu hv hxi hyj => ?_⟩
  simp only [hb.2, List.map_map, List.getElem?_map, hxi, Option.map_some, Option.some.injEq, Function.comp_apply, f _ _ _ _ hp] at hu
  simp only [hb'.2, List.map_map, List.getElem?_map, hyj, Option.map_some, Option.some.injEq, Function.comp_apply, f _ _ _ _ hp'] at hv
  subst hu hv
  exact ⟨fun h => by rw [h], Iff.rfl⟩

/-- **C116, why it fails for decoded ids**: sequences that differ in special tokens only have the same id. -/
theorem C116_same_text (H : List UInt8 → PyStr) {special : Nat → Bool} {dec : List Nat → PyStr} (hdec : SkipsSpecial special dec) {key : PyStr} {left : Bool}
    {p : Nat} (hp : special p = true) {xs : List (List Nat)} {b : TokBatch} (hb : IsPadded left p xs b) {i j : Nat} {x y : List Nat} (hx : xs[i]? = some x)
    (hy : xs[j]? = some y) (h : x.filter (fun t => !special t) = y.filter fun t => !special t) :
    ∃ ids, idsOf H (some dec) "detokenize".toList key b = .ok (some ids) ∧ i < ids.length ∧ ids[i]? = ids[j]? := by
  obtain ⟨ids, ids', h1, h2, h3, h4, h5⟩ := C116_detokenize_partial H hdec (key := key) (key' := key) hp hp hb hb
  obtain rfl : ids = ids' := by
    rw [h1] at h2
    exact Option.some.inj (Except.ok.inj h2)
  have hi : i < ids.length := by rw [h3]; exact (List.getElem?_eq_some_iff.1 hx).1
  have hj : j < ids.length := by rw [h3]; exact (List.getElem?_eq_some_iff.1 hy).1
  refine ⟨ids, h1, hi, ?_⟩
  rw [List.getElem?_eq_getElem hi, List.getElem?_eq_getElem hj]
  congr 1
  exact ((h5 i j _ _ x y (List.getElem?_eq_getElem hi) (List.getElem?_eq_getElem hj) hx hy).2).2 (by rw [hdec x, hdec y, h])

/-! ### The property is false -/

namespace ExTok

def short : List Nat := [5, 6]
def long : List Nat := [5, 6, 7]
def alone : TokBatch := ⟨2, [[5, 6]], by simp⟩
def withLong : TokBatch := ⟨3, [[5, 6, 0], [5, 6, 7]], by simp⟩

/-- The padding token is 0, the token 1 separates sentences; both are special. -/
def special (t : Nat) : Bool := t ≤ 1
def dec (x : List Nat) : PyStr := (x.filter fun t => !special t).map fun t => Char.ofNat (t + 90)

theorem dec_skips : SkipsSpecial special dec := fun x => by unfold dec; rw [List.filter_filter]; simp

theorem alone_padded : IsPadded false 0 [short] alone := ⟨by decide, rfl⟩
theorem withLong_padded : IsPadded false 0 [short, long] withLong := ⟨by decide, rfl⟩

/-- **C116, refuted** for both kinds of ids. With hash ids the same sequence has different ids alone and beside a longer one (if the hash has no collisions);
with decoded ids, the default, two different sequences in one batch have the same id. -/
theorem C116_refuted : (∀ H : List UInt8 → PyStr, (∀ u v, H u = H v → u = v) → ∀ key, ¬ ∃ ids ids', idsOf H none "hash".toList key alone = .ok (some ids) ∧
      idsOf H none "hash".toList key withLong = .ok (some ids') ∧ Identify ids ids' [short] [short, long]) ∧
    ∀ H key, ∃ (xs : List (List Nat)) (b : TokBatch), IsPadded false 0 xs b ∧ xs.Nodup ∧
      ¬ ∃ ids, idsOf H (some dec) "detokenize".toList key b = .ok (some ids) ∧ Identify ids ids xs xs := by
  refine ⟨fun H hH key => ?_, fun H key => ⟨[[5, 1, 6], [5, 6]], ⟨3, [[5, 1, 6], [5, 6, 0]], by simp⟩, ⟨by decide, rfl⟩, by decide, ?_⟩⟩
  · rintro ⟨ids, ids', h1, h2, h3, h4, h5⟩
    obtain ⟨i1, i2, g1, g2, g3, g4, g5⟩ := C116_other_length H hH (decode := none) (decode' := none) (key := key) (key' := key) alone_padded withLong_padded (by decide) (by decide)
      (by decide) (by decide) (by decide)
    rw [g1] at h1
    rw [g2] at h2
    obtain rfl := Option.some.inj (Except.ok.inj h1)
    obtain rfl := Option.some.inj (Except.ok.inj h2)
    have a0 : 0 < i1.length := by rw [h3]; decide
    have b0 : 0 < i2.length := by rw [h4]; decide
    have := (h5 0 0 _ _ short short (List.getElem?_eq_getElem a0) (List.getElem?_eq_getElem b0) rfl rfl).2 rfl
    exact g5 _ (List.getElem_mem a0) (this ▸ List.getElem_mem b0)
  · rintro ⟨ids, h1, h2, -, h3⟩
    obtain ⟨ids', g1, g2, g3⟩ := C116_same_text H dec_skips (key := key) (left := false) (p := 0) rfl (xs := [[5, 1, 6], [5, 6]]) (b := ⟨3, [[5, 1, 6], [5, 6, 0]], by simp⟩) ⟨by decide, rfl⟩
      (i := 0) (j := 1) rfl rfl (by decide)
    rw [g1] at h1
    obtain rfl := Option.some.inj (Except.ok.inj h1)
    have a0 : 0 < ids'.length := g2
    have a1 : 1 < ids'.length := by rw [h2]; decide
    have := (h3 0 1 _ _ [5, 1, 6] [5, 6] (List.getElem?_eq_getElem a0) (List.getElem?_eq_getElem a1) rfl rfl).1 (by
      rw [List.getElem?_eq_getElem a0, List.getElem?_eq_getElem a1] at g3
      exact Option.some.inj g3)
    exact absurd this (by decide)

/-- The hypotheses of `C116_hash_partial` are met by two batches, padded to 3, with a sequence in common. The hash here is the identity on bytes. -/
example : ∃ ids ids', idsOf (fun u => u.map fun c => Char.ofNat c.toNat) none "hash".toList ['k'] ⟨3, [[5, 6, 0]], by simp⟩ = .ok (some ids) ∧
    idsOf (fun u => u.map fun c => Char.ofNat c.toNat) none "hash".toList ['k'] withLong = .ok (some ids') ∧ Identify ids ids' [short] [short, long] := by
  refine C116_hash_partial (left := false) (p := 0) _ (fun u v h => ?_) ⟨by decide, rfl⟩ withLong_padded rfl (by decide) (by decide) (by decide)
  refine List.map_injective_iff.2 (fun c d hcd => ?_) h
  have hv' : ∀ n, n < 256 → (Char.ofNat n).toNat = n := by decide +kernel
  have hv : ∀ n : UInt8, (Char.ofNat n.toNat).toNat = n.toNat := fun n => hv' _ n.toNat_lt
  have := congrArg Char.toNat hcd
  rw [hv, hv] at this
  exact UInt8.toNat_inj.1 this

/-- And those of `C116_detokenize_partial`. -/
example : ∃ ids ids', idsOf (fun _ => []) (some dec) "detokenize".toList ['k'] alone = .ok (some ids) ∧
    idsOf (fun _ => []) (some dec) "detokenize".toList ['k'] withLong = .ok (some ids') ∧ ids[0]? = some ['_', '`'] ∧ ids'[0]? = some ['_', '`'] ∧ ids'[1]? = some ['_', '`', 'a'] := by
  obtain ⟨ids, ids', h1, h2, -⟩ := C116_detokenize_partial (fun _ => []) dec_skips (key := ['k']) (key' := ['k']) (p := 0) (p' := 0) rfl rfl alone_padded withLong_padded
  refine ⟨ids, ids', h1, h2, ?_⟩
  rw [detok_ids] at h1 h2
  rw [← Option.some.inj (Except.ok.inj h1), ← Option.some.inj (Except.ok.inj h2)]
  decide +kernel

end ExTok
end Logix
