/-
Lemmas about tensors.
-/
import Verif.Model.Tensor
import Mathlib.Data.List.Nodup
import Mathlib.Algebra.BigOperators.Group.List.Basic
import Mathlib.Algebra.BigOperators.Intervals
import Mathlib.Algebra.BigOperators.Ring.Finset
import Mathlib.Tactic.Ring

namespace Logix

theorem mem_indices : ∀ (s idx : List Nat), idx ∈ indices s ↔ inRange s idx = true
  | [], [] => by simp [indices, inRange]
  | [], _ :: _ => by simp [indices, inRange]
  | n :: s, [] => by simp [indices, inRange]
  | n :: s, i :: idx => by
    simp only [indices, inRange, List.mem_flatMap, List.mem_range, List.mem_map, List.cons.injEq, Bool.and_eq_true,
      decide_eq_true_eq]
    constructor
    · rintro ⟨a, ha, b, hb, rfl, rfl⟩
      exact ⟨ha, (mem_indices s b).1 hb⟩
    · rintro ⟨h1, h2⟩
      exact ⟨i, h1, idx, (mem_indices s idx).2 h2, rfl, rfl⟩

theorem ravel_lt : ∀ (s idx : List Nat), inRange s idx = true → ravel s idx < numel s
  | [], [], _ => by simp [ravel, numel]
  | [], _ :: _, h => by simp [inRange] at h
  | n :: s, [], h => by simp [inRange] at h
  | n :: s, i :: idx, h => by
    simp only [inRange, Bool.and_eq_true, decide_eq_true_eq] at h
    have := ravel_lt s idx h.2
    rw [ravel, numel_cons]
    have h3 : (i + 1) * numel s ≤ n * numel s := Nat.mul_le_mul_right _ h.1
    have h4 : (i + 1) * numel s = i * numel s + numel s := by rw [Nat.add_mul, Nat.one_mul]
    omega

theorem getElem?_flatMap_const {α β : Type _} (l : List α) (f : α → List β) (c : Nat) (h : ∀ a ∈ l, (f a).length = c)
    (i j : Nat) (hj : j < c) : (l.flatMap f)[i * c + j]? = (l[i]?).bind fun a => (f a)[j]? := by
  induction l generalizing i with
  | nil => simp
  | cons a l ih =>
    have ha : (f a).length = c := h a (by simp)
    rw [List.flatMap_cons]
    cases i with
    | zero =>
      rw [Nat.zero_mul, Nat.zero_add, List.getElem?_append_left (by omega)]
      rfl
    | succ i =>
      have : (i + 1) * c + j = c + (i * c + j) := by rw [Nat.add_mul]; omega
      rw [this, List.getElem?_append_right (by omega), ha]
      have : c + (i * c + j) - c = i * c + j := by omega
      rw [this, ih (fun b hb => h b (List.mem_cons_of_mem _ hb))]
      rfl

theorem getElem?_indices : ∀ (s idx : List Nat), inRange s idx = true → (indices s)[ravel s idx]? = some idx
  | [], [], _ => by simp [ravel, indices]
  | [], _ :: _, h => by simp [inRange] at h
  | n :: s, [], h => by simp [inRange] at h
  | n :: s, i :: idx, h => by
    simp only [inRange, Bool.and_eq_true, decide_eq_true_eq] at h
    rw [indices, ravel, getElem?_flatMap_const _ _ (numel s) (by simp [indices_length]) _ _ (ravel_lt s idx h.2)]
    simp [h.1, getElem?_indices s idx h.2]

namespace Tensor
variable {K : Type}

@[simp] theorem ofFn_dev (dev : Dev) (s : List Nat) (f : List Nat → K) : (ofFn dev s f).dev = dev := rfl
@[simp] theorem ofFn_shape (dev : Dev) (s : List Nat) (f : List Nat → K) : (ofFn dev s f).shape = s := rfl
@[simp] theorem onDev_shape (t : Tensor K) (d : Dev) : (t.onDev d).shape = t.shape := rfl
@[simp] theorem onDev_dev (t : Tensor K) (d : Dev) : (t.onDev d).dev = d := rfl
@[simp] theorem onDev_data (t : Tensor K) (d : Dev) : (t.onDev d).data = t.data := rfl
@[simp] theorem onDev_onDev (t : Tensor K) (d e : Dev) : (t.onDev d).onDev e = t.onDev e := rfl
@[simp] theorem onDev_self (t : Tensor K) : t.onDev t.dev = t := rfl
@[simp] theorem onDev_size (t : Tensor K) (d : Dev) (i : Nat) : (t.onDev d).size i = t.size i := rfl

variable [Zero K]

@[simp] theorem onDev_el (t : Tensor K) (d : Dev) (idx : List Nat) : (t.onDev d).el idx = t.el idx := rfl

theorem el_ofFn (dev : Dev) (s : List Nat) (f : List Nat → K) (idx : List Nat) :
    (ofFn dev s f).el idx = if inRange s idx then f idx else 0 := by
  show (if inRange s idx = true then (ofFn dev s f).data.getD (ravel s idx) 0 else 0) = _
  by_cases h : inRange s idx = true
  · rw [if_pos h, if_pos h]
    simp [ofFn, List.getD_eq_getElem?_getD, getElem?_indices s idx h]
  · rw [if_neg h, if_neg h]

section
variable (dev : Dev) (a b c d e g : Nat)
omit [Zero K] in
theorem inRange1 {n i : Nat} : inRange [n] [i] = true ↔ i < n := by simp [inRange]

theorem el_ofFn1 (f : Nat → K) {i} (hi : i < a) : (ofFn1 dev a f).el [i] = f i := by
  rw [ofFn1, el_ofFn, if_pos (by simp [inRange, hi])]
theorem el_ofFn2 (f : Nat → Nat → K) {i j} (hi : i < a) (hj : j < b) : (ofFn2 dev a b f).el [i, j] = f i j := by
  rw [ofFn2, el_ofFn, if_pos (by simp [inRange, hi, hj])]
theorem el_ofFn3 (f : Nat → Nat → Nat → K) {i j k} (hi : i < a) (hj : j < b) (hk : k < c) :
    (ofFn3 dev a b c f).el [i, j, k] = f i j k := by
  rw [ofFn3, el_ofFn, if_pos (by simp [inRange, hi, hj, hk])]
theorem el_ofFn4 (f : Nat → Nat → Nat → Nat → K) {i j k l} (hi : i < a) (hj : j < b) (hk : k < c) (hl : l < d) :
    (ofFn4 dev a b c d f).el [i, j, k, l] = f i j k l := by
  rw [ofFn4, el_ofFn, if_pos (by simp [inRange, hi, hj, hk, hl])]
theorem el_ofFn6 (f : Nat → Nat → Nat → Nat → Nat → Nat → K) {i j k l m n} (hi : i < a) (hj : j < b) (hk : k < c) (hl : l < d)
    (hm : m < e) (hn : n < g) : (ofFn6 dev a b c d e g f).el [i, j, k, l, m, n] = f i j k l m n := by
  rw [ofFn6, el_ofFn, if_pos (by simp [inRange, hi, hj, hk, hl, hm, hn])]

@[simp] theorem ofFn1_shape (f : Nat → K) : (ofFn1 dev a f).shape = [a] := rfl
@[simp] theorem ofFn2_shape (f : Nat → Nat → K) : (ofFn2 dev a b f).shape = [a, b] := rfl
@[simp] theorem ofFn3_shape (f : Nat → Nat → Nat → K) : (ofFn3 dev a b c f).shape = [a, b, c] := rfl
@[simp] theorem ofFn4_shape (f : Nat → Nat → Nat → Nat → K) : (ofFn4 dev a b c d f).shape = [a, b, c, d] := rfl
@[simp] theorem ofFn6_shape (f : Nat → Nat → Nat → Nat → Nat → Nat → K) :
    (ofFn6 dev a b c d e g f).shape = [a, b, c, d, e, g] := rfl
@[simp] theorem ofFn1_dev (f : Nat → K) : (ofFn1 dev a f).dev = dev := rfl
@[simp] theorem ofFn2_dev (f : Nat → Nat → K) : (ofFn2 dev a b f).dev = dev := rfl
@[simp] theorem ofFn3_dev (f : Nat → Nat → Nat → K) : (ofFn3 dev a b c f).dev = dev := rfl
@[simp] theorem ofFn4_dev (f : Nat → Nat → Nat → Nat → K) : (ofFn4 dev a b c d f).dev = dev := rfl
@[simp] theorem ofFn6_dev (f : Nat → Nat → Nat → Nat → Nat → Nat → K) : (ofFn6 dev a b c d e g f).dev = dev := rfl
end

theorem el_of_not (t : Tensor K) (idx : List Nat) (h : inRange t.shape idx = false) : t.el idx = 0 := by
  simp [el, h]

theorem ofFn_el (t : Tensor K) : ofFn t.dev t.shape t.el = t := by
  refine Tensor.ext rfl rfl ?_
  show (indices t.shape).map t.el = t.data
  apply List.ext_getElem?
  intro n
  by_cases hn : n < numel t.shape
  · have hi : n < (indices t.shape).length := by rw [indices_length]; exact hn
    obtain ⟨idx, hidx⟩ : ∃ idx, (indices t.shape)[n]? = some idx := ⟨_, List.getElem?_eq_getElem hi⟩
    have hr : inRange t.shape idx = true := (mem_indices _ _).1 (List.mem_of_getElem? hidx)
    have hrav : ravel t.shape idx = n := by
      have h1 := getElem?_indices t.shape idx hr
      have hnd : (indices t.shape).Nodup := by
        clear h1 hr hidx hi hn
        generalize t.shape = s
        induction s with
        | nil => simp [indices]
        | cons m s ih =>
          rw [indices, List.nodup_flatMap]
          constructor
          · intro i _
            exact ih.map (fun a b h => (List.cons.inj h).2)
          · apply (List.nodup_range (n := m)).imp
            intro a b hab l h1 h2
            simp only [List.mem_map] at h1 h2
            obtain ⟨x, _, rfl⟩ := h1
            obtain ⟨y, _, hy⟩ := h2
            exact hab (List.cons.inj hy).1.symm
      have h2 : ravel t.shape idx < (indices t.shape).length := by rw [indices_length]; exact ravel_lt _ _ hr
      rw [List.getElem?_eq_getElem h2] at h1
      rw [List.getElem?_eq_getElem hi] at hidx
      exact (List.Nodup.getElem_inj_iff hnd).1 (Option.some.inj (h1.trans hidx.symm))
    rw [List.getElem?_map, hidx, Option.map_some, el, if_pos hr, hrav, List.getD_eq_getElem?_getD,
      List.getElem?_eq_getElem (by rw [t.wf]; exact hn)]
    rfl
  · rw [List.getElem?_eq_none (by rw [List.length_map, indices_length]; omega), List.getElem?_eq_none (by rw [t.wf]; omega)]

theorem ext_el {t u : Tensor K} (hd : t.dev = u.dev) (hs : t.shape = u.shape) (h : ∀ idx, inRange t.shape idx = true → t.el idx = u.el idx) :
    t = u := by
  rw [← ofFn_el t, ← ofFn_el u, hd, hs]
  refine Tensor.ext rfl rfl ?_
  show (indices u.shape).map t.el = (indices u.shape).map u.el
  apply List.map_congr_left
  intro idx hidx
  exact h idx (by rw [hs]; exact (mem_indices _ _).1 hidx)

omit [Zero K] in
theorem reshape_ok {t u : Tensor K} {s : List Nat} (h : t.reshape s = .ok u) :
    u.dev = t.dev ∧ u.shape = s ∧ u.data = t.data ∧ numel t.shape = numel s := by
  unfold reshape at h
  split at h
  · next hn => cases h; exact ⟨rfl, rfl, rfl, hn⟩
  · cases h

end Tensor
end Logix

namespace Logix
open Tensor
variable {K : Type}

theorem numel_append (s s' : List Nat) : numel (s ++ s') = numel s * numel s' := by
  induction s with
  | nil => simp [numel]
  | cons a s ih => rw [List.cons_append, numel_cons, numel_cons, ih, Nat.mul_assoc]

@[simp] theorem numel_nil : numel [] = 1 := rfl

theorem numel_singleton (n : Nat) : numel [n] = n := by simp [numel]

theorem ravel_append : ∀ (s s' idx idx' : List Nat), inRange s idx = true →
    ravel (s ++ s') (idx ++ idx') = ravel s idx * numel s' + ravel s' idx'
  | [], s', [], idx', _ => by simp [ravel]
  | [], _, _ :: _, _, h => by simp [inRange] at h
  | _ :: _, _, [], _, h => by simp [inRange] at h
  | n :: s, s', i :: idx, idx', h => by
    simp only [inRange, Bool.and_eq_true] at h
    simp only [List.cons_append, ravel]
    rw [ravel_append s s' idx idx' h.2, numel_append, Nat.add_mul, Nat.add_assoc, Nat.mul_assoc]

theorem inRange_append : ∀ (s s' idx idx' : List Nat), inRange s idx = true → inRange s' idx' = true →
    inRange (s ++ s') (idx ++ idx') = true
  | [], s', [], idx', _, h => by simpa using h
  | [], _, _ :: _, _, h, _ => by simp [inRange] at h
  | _ :: _, _, [], _, h, _ => by simp [inRange] at h
  | n :: s, s', i :: idx, idx', h, h' => by
    simp only [inRange, Bool.and_eq_true] at h
    simp only [List.cons_append, inRange, Bool.and_eq_true]
    exact ⟨h.1, inRange_append s s' idx idx' h.2 h'⟩

theorem map_ravel_indices (s : List Nat) : (indices s).map (ravel s) = List.range (numel s) := by
  apply List.ext_getElem?
  intro n
  by_cases hn : n < numel s
  · have hi : n < (indices s).length := by rw [indices_length]; exact hn
    -- the tensor whose entry at position n is n
    have h := congrArg Tensor.data (Tensor.ofFn_el (K := Nat) ⟨.cpu, s, List.range (numel s), List.length_range⟩)
    have h2 : (indices s).map (fun idx => ravel s idx) = List.range (numel s) := by
      refine Eq.trans ?_ h
      show _ = (indices s).map _
      apply List.map_congr_left
      intro idx hidx
      have hr := (mem_indices s idx).1 hidx
      show _ = if inRange s idx = true then (List.range (numel s)).getD (ravel s idx) 0 else 0
      rw [if_pos hr, List.getD_eq_getElem?_getD, List.getElem?_range (ravel_lt s idx hr)]
      rfl
    rw [← h2]
  · rw [List.getElem?_eq_none (by rw [List.length_map, indices_length]; omega), List.getElem?_eq_none (by simp; omega)]

theorem list_sum_range [AddCommMonoid K] (f : Nat → K) (n : Nat) :
    ((List.range n).map f).sum = ∑ t ∈ Finset.range n, f t := by
  induction n with
  | zero => simp
  | succ n ih => rw [List.range_succ, List.map_append, List.sum_append, ih, Finset.sum_range_succ]; simp

/-- A sum over positions in C order is a sum over index tuples. -/
theorem sum_range_numel [AddCommMonoid K] (s : List Nat) (f : Nat → K) :
    ∑ t ∈ Finset.range (numel s), f t = ((indices s).map fun idx => f (ravel s idx)).sum := by
  have h : ((indices s).map fun idx => f (ravel s idx)) = (List.range (numel s)).map f := by
    rw [← map_ravel_indices, List.map_map]; rfl
  rw [h, list_sum_range]

theorem el_reshape [Zero K] {t u : Tensor K} {s : List Nat} (h : t.reshape s = .ok u) (idx idx' : List Nat)
    (hi : inRange t.shape idx = true) (hi' : inRange s idx' = true) (hr : ravel t.shape idx = ravel s idx') : u.el idx' = t.el idx := by
  obtain ⟨_, h2, h3, _⟩ := Tensor.reshape_ok h
  unfold Tensor.el
  rw [h2, if_pos hi, if_pos hi', h3, hr]

theorem reshape_eq_ok {t : Tensor K} {s : List Nat} (h : numel t.shape = numel s) :
    ∃ u, t.reshape s = .ok u ∧ u.shape = s ∧ u.dev = t.dev := by
  unfold Tensor.reshape
  rw [dif_pos h]
  exact ⟨_, rfl, rfl, rfl⟩

theorem reshapeInfer_eq (t : Tensor K) (pre post : List Nat) (m : Nat) (h0 : numel pre * numel post ≠ 0)
    (h : numel t.shape = numel pre * numel post * m) : t.reshapeInfer pre post = t.reshape (pre ++ m :: post) := by
  unfold Tensor.reshapeInfer
  rw [if_neg h0, h, Nat.mul_div_cancel_left _ (Nat.pos_of_ne_zero h0)]

end Logix
