/-
Python-level notions shared by all models: exceptions as values and
insertion-ordered dictionaries.
-/

namespace Logix

/-- Exceptions the modelled code can raise (one constructor per Python exception class). -/
inductive PyErr where
  | attributeError | keyError | valueError | indexError | typeError
  | assertionError | fileNotFoundError | jsonDecodeError | notImplementedError
  | runtimeError | stopIteration | unboundLocalError | invalidModuleError
  deriving DecidableEq, Repr

/-- A Python computation without side effects: a value or an exception. -/
abbrev Py (α : Type _) := Except PyErr α

/-- `Except` values over decidable types can be compared (used in the non-vacuity checks). -/
instance instDecidableEqExcept {ε α} [DecidableEq ε] [DecidableEq α] :
    DecidableEq (Except ε α)
  | .ok a, .ok b => if h : a = b then isTrue (by rw [h]) else isFalse (by simpa using h)
  | .error a, .error b => if h : a = b then isTrue (by rw [h]) else isFalse (by simpa using h)
  | .ok _, .error _ => isFalse (by simp)
  | .error _, .ok _ => isFalse (by simp)

/-- Python `dict`: insertion-ordered association list. Assigning to an existing key keeps its
position, assigning to a new key appends. -/
abbrev Dict (κ : Type u) (α : Type v) := List (κ × α)

namespace Dict
variable {κ : Type u} {α : Type v} [DecidableEq κ]

/-- `d.keys()` -/
def keys (d : Dict κ α) : List κ := d.map Prod.fst

/-- `d.get(k)` -/
def get? (d : Dict κ α) (k : κ) : Option α :=
  match d with
  | [] => none
  | (k', v) :: rest => if k' = k then some v else get? rest k

/-- `k in d` -/
def contains (d : Dict κ α) (k : κ) : Bool := (get? d k).isSome

/-- `d[k] = v` -/
def set (d : Dict κ α) (k : κ) (v : α) : Dict κ α :=
  match d with
  | [] => [(k, v)]
  | (k', v') :: rest => if k' = k then (k', v) :: rest else (k', v') :: set rest k v

@[simp] theorem get?_nil (k : κ) : get? ([] : Dict κ α) k = none := rfl

theorem get?_cons (k' : κ) (v : α) (rest : Dict κ α) (k : κ) :
    get? ((k', v) :: rest) k = if k' = k then some v else get? rest k := rfl

@[simp] theorem get?_cons_self (k : κ) (v : α) (rest : Dict κ α) :
    get? ((k, v) :: rest) k = some v := by simp [get?]

theorem get?_set (d : Dict κ α) (k k' : κ) (v : α) :
    get? (set d k v) k' = if k = k' then some v else get? d k' := by
  induction d with
  | nil => simp [set, get?]
  | cons p rest ih =>
    obtain ⟨a, b⟩ := p
    by_cases h : a = k
    · subst h
      simp only [set, if_true, get?]
      split <;> simp_all
    · simp only [set, if_neg h, get?, ih]
      by_cases h2 : a = k'
      · subst h2; simp [Ne.symm h]
      · simp [h2]

@[simp] theorem get?_set_self (d : Dict κ α) (k : κ) (v : α) : get? (set d k v) k = some v := by
  simp [get?_set]

theorem get?_set_ne (d : Dict κ α) {k k' : κ} (v : α) (h : k ≠ k') :
    get? (set d k v) k' = get? d k' := by simp [get?_set, h]

theorem get?_eq_none_iff (d : Dict κ α) (k : κ) : get? d k = none ↔ k ∉ keys d := by
  induction d with
  | nil => simp [keys]
  | cons p rest ih =>
    obtain ⟨a, b⟩ := p
    simp only [get?, keys, List.map_cons, List.mem_cons, not_or]
    by_cases h : a = k
    · simp [h]
    · simp only [if_neg h]
      rw [ih]
      constructor
      · intro h2; exact ⟨fun e => h e.symm, h2⟩
      · intro h2; exact h2.2

theorem get?_isSome_iff (d : Dict κ α) (k : κ) : (get? d k).isSome ↔ k ∈ keys d := by
  by_cases h : k ∈ keys d
  · simp only [h, iff_true]
    cases h2 : get? d k with
    | none => exact absurd h ((get?_eq_none_iff d k).1 h2)
    | some v => rfl
  · simp [h, (get?_eq_none_iff d k).2 h]

theorem contains_iff (d : Dict κ α) (k : κ) : contains d k = true ↔ k ∈ keys d :=
  get?_isSome_iff d k

theorem contains_eq_false_iff (d : Dict κ α) (k : κ) : contains d k = false ↔ k ∉ keys d := by
  rw [← contains_iff]; simp

/-- Assigning to a key that is not present appends. -/
theorem set_of_not_mem (d : Dict κ α) (k : κ) (v : α) (h : k ∉ keys d) :
    set d k v = d ++ [(k, v)] := by
  induction d with
  | nil => rfl
  | cons p rest ih =>
    obtain ⟨a, b⟩ := p
    simp only [keys, List.map_cons, List.mem_cons, not_or] at h
    have : a ≠ k := fun e => h.1 e.symm
    simp [set, this, ih h.2]

/-- Assigning to a key that is present keeps the list of keys. -/
theorem keys_set_of_mem (d : Dict κ α) (k : κ) (v : α) (h : k ∈ keys d) :
    keys (set d k v) = keys d := by
  induction d with
  | nil => simp [keys] at h
  | cons p rest ih =>
    obtain ⟨a, b⟩ := p
    by_cases e : a = k
    · simp [set, e, keys]
    · have h2 : k ∈ keys rest := by
        simp only [keys, List.map_cons, List.mem_cons] at h
        rcases h with h | h
        · exact absurd h.symm e
        · exact h
      have := ih h2
      simp only [keys] at this
      simp [set, e, keys, this]

theorem keys_set (d : Dict κ α) (k : κ) (v : α) :
    keys (set d k v) = if k ∈ keys d then keys d else keys d ++ [k] := by
  split
  · next h => exact keys_set_of_mem d k v h
  · next h => rw [set_of_not_mem d k v h]; simp [keys]

theorem nodup_keys_set (d : Dict κ α) (k : κ) (v : α) (h : (keys d).Nodup) :
    (keys (set d k v)).Nodup := by
  rw [keys_set]
  split
  · exact h
  · next h2 =>
    rw [List.nodup_append]
    refine ⟨h, by simp, ?_⟩
    intro a ha b hb
    simp at hb
    subst hb
    exact fun e => h2 (e ▸ ha)

theorem get?_append (d e : Dict κ α) (k : κ) :
    get? (d ++ e) k = (get? d k).or (get? e k) := by
  induction d with
  | nil => simp
  | cons p rest ih =>
    obtain ⟨a, b⟩ := p
    simp only [List.cons_append, get?]
    split <;> simp [ih]

theorem get?_of_mem (d : Dict κ α) (hn : (keys d).Nodup) {k : κ} {v : α} (h : (k, v) ∈ d) :
    get? d k = some v := by
  induction d with
  | nil => simp at h
  | cons p rest ih =>
    obtain ⟨a, b⟩ := p
    simp only [keys, List.map_cons, List.nodup_cons] at hn
    rcases List.mem_cons.1 h with h | h
    · cases h; simp
    · have : a ≠ k := by
        intro e; subst e
        exact hn.1 (List.mem_map.2 ⟨_, h, rfl⟩)
      simp [get?, this, ih hn.2 h]

theorem mem_of_get? (d : Dict κ α) {k : κ} {v : α} (h : get? d k = some v) : (k, v) ∈ d := by
  induction d with
  | nil => simp at h
  | cons p rest ih =>
    obtain ⟨a, b⟩ := p
    simp only [get?] at h
    split at h
    · next e => simp at h; simp [e, h]
    · exact List.mem_cons_of_mem _ (ih h)

theorem get?_map {β : Type w} (d : Dict κ α) (f : α → β) (k : κ) :
    get? (d.map fun p => (p.1, f p.2)) k = (get? d k).map f := by
  induction d with
  | nil => rfl
  | cons p rest ih =>
    obtain ⟨a, b⟩ := p
    simp only [List.map_cons, get?]
    split <;> simp_all

/-- Two dictionaries with the same keys in the same order and the same lookups are equal. -/
theorem ext_get? (d e : Dict κ α) (hk : keys d = keys e) (hn : (keys d).Nodup)
    (h : ∀ k, get? d k = get? e k) : d = e := by
  induction d generalizing e with
  | nil => cases e with
    | nil => rfl
    | cons _ _ => simp [keys] at hk
  | cons p rest ih =>
    cases e with
    | nil => simp [keys] at hk
    | cons q rest' =>
      obtain ⟨a, b⟩ := p
      obtain ⟨c, d'⟩ := q
      simp only [keys, List.map_cons, List.cons.injEq] at hk
      obtain ⟨h1, h2⟩ := hk
      subst h1
      have hv := h a
      simp at hv
      subst hv
      simp only [keys, List.map_cons, List.nodup_cons] at hn
      congr 1
      apply ih rest' h2 hn.2
      intro k
      by_cases hk2 : a = k
      · subst hk2
        rw [(get?_eq_none_iff rest a).2 hn.1, (get?_eq_none_iff rest' a).2]
        have : keys rest' = keys rest := h2.symm
        rw [this]; exact hn.1
      · have := h k
        simpa [get?, hk2] using this

end Dict
end Logix
