/-
C72, C73: data ids.
-/
import Verif.Model.DataId
import Verif.Lemmas.Names

namespace Logix

theorem map_inj_of_injective {f : α → β} (hf : Function.Injective f) : Function.Injective (List.map f) := by
  intro a
  induction a with
  | nil => intro b h; cases b with
    | nil => rfl
    | cons _ _ => cases h
  | cons x a ih => intro b h; cases b with
    | nil => cases h
    | cons y b =>
      simp only [List.map_cons, List.cons.injEq] at h
      rw [hf h.1, ih h.2]

/-- `str(n)`. -/
theorem decimal_eq_repr (n : Nat) : decimal n = (toString n).toList := by
  simp [decimal, toString, Nat.repr]

theorem index_calls (H : List UInt8 → PyStr) (batches : List (List Sample)) (c : Nat) :
    ∃ outs : List (List PyStr), IdGen.calls H ⟨['i', 'n', 'd', 'e', 'x'], some c⟩ batches = outs.map .ok ∧ outs.length = batches.length ∧
      (∀ j (h : j < outs.length) (h' : j < batches.length), outs[j].length = batches[j].length) ∧
      outs.flatten = (List.range' c (batches.map List.length).sum).map decimal := by
  induction batches generalizing c with
  | nil => exact ⟨[], rfl, rfl, by simp, by simp⟩
  | cons b bs ih =>
    obtain ⟨outs, h1, h2, h3, h4⟩ := ih (c + b.length)
    have hm : (['i', 'n', 'd', 'e', 'x'] : List Char) ≠ ['h', 'a', 's', 'h'] := by decide
    refine ⟨(List.range' c b.length).map decimal :: outs, ?_, by simp [h2], ?_, ?_⟩
    · simp only [IdGen.calls, IdGen.call, if_neg hm, if_true, List.map_cons, h1]
    · intro j h h'
      cases j with
      | zero => simp
      | succ j => simpa using h3 j (by simpa using h) (by simpa using h')
    · simp only [List.flatten_cons, h4, List.map_cons, List.sum_cons]
      rw [← List.map_append]
      congr 1
      simp

/-- **C72.** Any sequence of calls of a fresh generator in index mode succeeds, returns one id per sample, and numbers all samples of all
calls 0, 1, 2, ... as decimal strings. -/
theorem C72_index_ids (H : List UInt8 → PyStr) (batches : List (List Sample)) :
    ∃ outs : List (List PyStr), IdGen.calls H (IdGen.init "index".toList) batches = outs.map .ok ∧
      outs.length = batches.length ∧
      (∀ j (h : j < outs.length) (h' : j < batches.length), outs[j].length = batches[j].length) ∧
      outs.flatten = (List.range (batches.map List.length).sum).map fun n => (toString n).toList := by
  have hi : IdGen.init "index".toList = ⟨['i', 'n', 'd', 'e', 'x'], some 0⟩ := by decide +kernel
  obtain ⟨outs, h1, h2, h3, h4⟩ := index_calls H batches 0
  refine ⟨outs, by rw [hi, h1], h2, h3, ?_⟩
  rw [h4, List.range_eq_range']
  congr 1; funext n; exact decimal_eq_repr n

/-- **C72, uniqueness.** No id is returned twice. -/
theorem C72_index_ids_unique (H : List UInt8 → PyStr) (batches : List (List Sample)) (outs : List (List PyStr))
    (h : IdGen.calls H (IdGen.init "index".toList) batches = outs.map .ok) : outs.flatten.Nodup := by
  obtain ⟨outs', h1, _, _, h4⟩ := C72_index_ids H batches
  have : outs = outs' := by
    rw [h1] at h
    have hinj : Function.Injective (Except.ok : List PyStr → Py (List PyStr)) := fun a b e => Except.ok.inj e
    exact (map_inj_of_injective hinj h).symm
  rw [this, h4]
  have : (fun n => (toString n).toList) = decimal := by funext n; exact (decimal_eq_repr n).symm
  rw [this]
  rw [List.Nodup, List.pairwise_map]
  exact List.nodup_range.imp fun hne e => hne (decimal_inj e)

theorem hashIds_ok (H : List UInt8 → PyStr) (as : List Arr) : hashIds H (as.map .arr) = .ok (as.map fun a => H a.bytes) := by
  induction as with
  | nil => rfl
  | cons a as ih => simp [hashIds, ih]

theorem hash_calls (H : List UInt8 → PyStr) (g : IdGen) (hg : g.mode = ['h', 'a', 's', 'h']) (batches : List (List Sample)) :
    IdGen.calls H g batches = batches.map (hashIds H) := by
  induction batches with
  | nil => rfl
  | cons b bs ih => simp only [IdGen.calls, IdGen.call, if_pos hg, List.map_cons, ih]

/-- **C73.** In hash mode, over any sequence of calls, the ids of a batch of arrays are the hashes of their bytes, in order: neither the
position, nor the other samples, nor earlier calls matter. -/
theorem C73_hash_ids (H : List UInt8 → PyStr) (batches : List (List Arr)) :
    IdGen.calls H (IdGen.init "hash".toList) (batches.map fun b => b.map .arr) =
      batches.map fun b => .ok (b.map fun a => H a.bytes) := by
  rw [hash_calls H _ (by decide +kernel), List.map_map]
  apply List.map_congr_left
  intro b _
  exact hashIds_ok H b

/-- **C73, equality of ids.** With a collision-free hash two samples of any two calls get the same id exactly if their bytes are equal. -/
theorem C73_hash_ids_eq_iff (H : List UInt8 → PyStr) (hH : Function.Injective H) (batches : List (List Arr)) :
    ∃ outs : List (List PyStr), IdGen.calls H (IdGen.init "hash".toList) (batches.map fun b => b.map .arr) = outs.map .ok ∧
      ∀ (j k i l : Nat) (a b : Arr) (x y : PyStr), (batches[j]?.bind (·[i]?)) = some a → (batches[k]?.bind (·[l]?)) = some b →
        (outs[j]?.bind (·[i]?)) = some x → (outs[k]?.bind (·[l]?)) = some y → (x = y ↔ a.bytes = b.bytes) := by
  refine ⟨batches.map fun b => b.map fun a => H a.bytes, by rw [C73_hash_ids, List.map_map]; rfl, ?_⟩
  have key : ∀ (j i : Nat) (a : Arr) (x : PyStr), (batches[j]?.bind (·[i]?)) = some a →
      ((batches.map fun b => b.map fun a => H a.bytes)[j]?.bind (·[i]?)) = some x → x = H a.bytes := by
    intro j i a x ha hx
    rw [List.getElem?_map] at hx
    cases hb : batches[j]? with
    | none => rw [hb] at ha; cases ha
    | some b =>
      rw [hb] at ha hx
      simp only [Option.bind_some, Option.map_some, List.getElem?_map] at ha hx
      rw [ha] at hx
      simpa using hx.symm
  intro j k i l a b x y ha hb hx hy
  rw [key j i a x ha hx, key k l b y hb hy]
  exact ⟨fun h => hH h, fun h => by rw [h]⟩

/-- **C73, rejection.** In hash mode a batch with an element that is neither a NumPy array nor a tensor raises ValueError; in any other
mode than "hash" and "index" every call does. -/
theorem C73_rejects (H : List UInt8 → PyStr) (b : List Sample) (h : .unsupported ∈ b) :
    ((IdGen.init "hash".toList).call H b).2 = .error .valueError := by
  have : hashIds H b = .error .valueError := by
    induction b with
    | nil => simp at h
    | cons x b ih =>
      cases x with
      | unsupported => rfl
      | arr a =>
        have := ih (by simpa using h)
        simp [hashIds, this]
  have hm : (IdGen.init "hash".toList).mode = ['h', 'a', 's', 'h'] := by decide +kernel
  simp only [IdGen.call, if_pos hm, this]

theorem C73_rejects_mode (H : List UInt8 → PyStr) (mode : String) (h1 : mode ≠ "hash") (h2 : mode ≠ "index") (b : List Sample) :
    ((IdGen.init mode.toList).call H b).2 = .error .valueError := by
  have e1 : mode.toList ≠ ['h', 'a', 's', 'h'] := fun e => h1 (String.toList_inj.1 (by rw [e]; rfl))
  have e2 : mode.toList ≠ ['i', 'n', 'd', 'e', 'x'] := fun e => h2 (String.toList_inj.1 (by rw [e]; rfl))
  simp only [IdGen.call, IdGen.init, if_neg e1, if_neg e2]

namespace Example

/-- Three calls with batches of 2, 0 and 1 samples. -/
example : IdGen.calls (fun _ => []) (IdGen.init "index".toList) [[.unsupported, .unsupported], [], [.unsupported]] =
    [.ok [['0'], ['1']], .ok [], .ok [['2']]] := by decide +kernel

/-- A collision-free function exists, so the hypothesis of `C73_hash_ids_eq_iff` can be met. -/
example : Function.Injective (fun l : List UInt8 => l.map fun b => Char.ofNat b.toNat) := by
  have : Function.Injective (fun b : UInt8 => Char.ofNat b.toNat) := by
    intro a b h
    have ha : (Char.ofNat a.toNat).toNat = a.toNat := by
      have := a.toNat_lt
      simp only [Char.ofNat]
      rw [dif_pos (by left; omega)]
      simp [Char.ofNatAux, Char.toNat]
    have hb : (Char.ofNat b.toNat).toNat = b.toNat := by
      have := b.toNat_lt
      simp only [Char.ofNat]
      rw [dif_pos (by left; omega)]
      simp [Char.ofNatAux, Char.toNat]
    have h' : Char.ofNat a.toNat = Char.ofNat b.toNat := h
    apply UInt8.toNat_inj.1
    rw [← ha, ← hb, h']
  exact map_inj_of_injective this

end Example
end Logix
