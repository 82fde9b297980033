/-
`state_dict` and `load_state_dict`.
-/
import Verif.Lemmas.LoraWF

set_option linter.unusedSectionVars false

namespace Logix
variable {K : Type} [Zero K]

theorem Reach.cons {h : MHeap K} {p c : Nat} {k : PyStr} (he : Entry h p k c) {ks : List PyStr} {id : Nat} (hr : Reach h c ks id) : Reach h p (k :: ks) id := by
  induction hr with
  | nil => exact Reach.snoc (ks := []) .nil he
  | @snoc ks' p' k' c' _ he' ih => rw [← List.cons_append]; exact ih.snoc he'

theorem Reach.uncons {h : MHeap K} {p : Nat} {ks : List PyStr} {id : Nat} (hr : Reach h p ks id) :
    (ks = [] ∧ id = p) ∨ ∃ k c ks', ks = k :: ks' ∧ Entry h p k c ∧ Reach h c ks' id := by
  induction hr with
  | nil => exact Or.inl ⟨rfl, rfl⟩
  | @snoc ks' p' k' c' _ he' ih =>
    right
    rcases ih with ⟨rfl, rfl⟩ | ⟨k, c, ks2, rfl, h1, h2⟩
    · exact ⟨k', c', [], rfl, he', .nil⟩
    · exact ⟨k, c, ks2 ++ [k'], rfl, h1, h2.snoc he'⟩

/-- The prefix of names below a path. -/
def pathPrefix (ks : List PyStr) : PyStr := if ks = [] then [] else dotted ks ++ ['.']

theorem pathPrefix_name (ks : List PyStr) (a : PyStr) : pathPrefix ks ++ a = dotted (ks ++ [a]) := by
  unfold pathPrefix
  by_cases h : ks = []
  · subst h; simp [dotted]
  · rw [if_neg h, dotted_snoc a h]; simp

theorem pathPrefix_snoc (ks : List PyStr) (a : PyStr) : pathPrefix ks ++ a ++ ['.'] = pathPrefix (ks ++ [a]) := by
  rw [pathPrefix_name]
  unfold pathPrefix
  rw [if_neg (by simp)]

/-- A parameter of a module reached by a path. -/
def ItemAt (h : MHeap K) (root : Nat) (ks : List PyStr) (id : Nat) (a : PyStr) (i : Nat) : Prop :=
  Reach h root ks id ∧ ∃ m, h.mods[id]? = some m ∧ (a, i) ∈ m.params

theorem mem_stateItemsFrom {h : MHeap K} {d : Nat → Nat} (hd : ∀ p k c, Entry h p k c → d c < d p) : ∀ (n : Nat) (ks0 : List PyStr) (id0 : Nat), d id0 < n →
    ∀ (k : PyStr) (i : Nat), (k, i) ∈ h.stateItemsFrom n (pathPrefix ks0) id0 ↔ ∃ ks id a, ItemAt h id0 ks id a i ∧ k = dotted (ks0 ++ ks ++ [a])
  | 0, _, _, h, _, _ => by omega
  | n + 1, ks0, id0, hlt, k, i => by
    unfold MHeap.stateItemsFrom
    cases hm : h.mods[id0]? with
    | none =>
      simp only [List.not_mem_nil, false_iff]
      rintro ⟨ks, id, a, ⟨hr, m, h1, h2⟩, _⟩
      rcases hr.uncons with ⟨rfl, rfl⟩ | ⟨k, c, ks', _, ⟨m', h3, _⟩, _⟩
      · rw [hm] at h1; cases h1
      · rw [hm] at h3; cases h3
    | some m =>
      dsimp only
      rw [List.mem_append]
      constructor
      · rintro (hp | hc)
        · obtain ⟨e, he, heq⟩ := List.mem_map.1 hp
          obtain ⟨a, j⟩ := e
          dsimp only at heq
          have e1 := congrArg Prod.fst heq
          have e2 := congrArg Prod.snd heq
          dsimp only at e1 e2
          subst e2
          exact ⟨[], id0, a, ⟨.nil, m, hm, he⟩, by rw [← e1, pathPrefix_name, List.append_nil]⟩
        · obtain ⟨e, he, hin⟩ := List.mem_flatMap.1 hc
          obtain ⟨k', c⟩ := e
          dsimp only at hin
          have hent : Entry h id0 k' c := ⟨m, hm, he⟩
          rw [pathPrefix_snoc, mem_stateItemsFrom hd n _ c (by have := hd _ _ _ hent; omega)] at hin
          obtain ⟨ks, id, a, ⟨h1, h2⟩, h3⟩ := hin
          exact ⟨k' :: ks, id, a, ⟨h1.cons hent, h2⟩, by rw [h3]; simp⟩
      · rintro ⟨ks, id, a, ⟨hr, m', h1, h2⟩, rfl⟩
        rcases hr.uncons with ⟨rfl, rfl⟩ | ⟨k', c, ks', rfl, hent, hr'⟩
        · left
          rw [hm] at h1
          cases h1
          rw [List.append_nil, ← pathPrefix_name]
          exact List.mem_map.2 ⟨(a, i), h2, rfl⟩
        · right
          obtain ⟨m2, hm2, hin⟩ := hent
          rw [hm] at hm2
          cases hm2
          refine List.mem_flatMap.2 ⟨(k', c), hin, ?_⟩
          dsimp only
          rw [pathPrefix_snoc, mem_stateItemsFrom hd n _ c (by have := hd _ _ _ (show Entry h id0 k' c from ⟨m, hm, hin⟩); omega)]
          exact ⟨ks', id, a, ⟨hr', m', h1, h2⟩, by simp⟩

theorem mem_stateItems {h : MHeap K} (hw : WFModel h) {root : Nat} {k : PyStr} {i : Nat} :
    (k, i) ∈ h.stateItems root ↔ ∃ ks id a, ItemAt h root ks id a i ∧ k = dotted (ks ++ [a]) := by
  obtain ⟨d, hd1, hd2⟩ := hw.rank
  have := mem_stateItemsFrom hd2 (h.mods.length + 1) [] root (by have := hd1 root; omega) k i
  simpa [MHeap.stateItems, pathPrefix] using this

/-- A name is the name of one parameter. -/
theorem stateItems_functional {h : MHeap K} (hw : WFModel h) (hp : WFParams h) {root : Nat} {k : PyStr} {i j : Nat} (hi : (k, i) ∈ h.stateItems root)
    (hj : (k, j) ∈ h.stateItems root) : i = j := by
  rw [mem_stateItems hw] at hi hj
  obtain ⟨ks, id, a, ⟨r1, m1, m2, m3⟩, e1⟩ := hi
  obtain ⟨ks', id', a', ⟨r1', m1', m2', m3'⟩, e1'⟩ := hj
  have n1 : ∀ x ∈ ks ++ [a], '.' ∉ x := by
    intro x hx
    rcases List.mem_append.1 hx with hx | hx
    · exact (r1.names hw x hx).2
    · rw [List.mem_singleton.1 hx]; exact (hp id m1 m2).2 a i m3
  have n2 : ∀ x ∈ ks' ++ [a'], '.' ∉ x := by
    intro x hx
    rcases List.mem_append.1 hx with hx | hx
    · exact (r1'.names hw x hx).2
    · rw [List.mem_singleton.1 hx]; exact (hp id' m1' m2').2 a' j m3'
  have : ks ++ [a] = ks' ++ [a'] := by
    rw [← splitDot_dotted n1 (by simp), ← e1, e1', splitDot_dotted n2 (by simp)]
  obtain ⟨t1, t2⟩ := List.append_inj' this rfl
  subst t1
  cases t2
  have := r1.functional hw r1'
  subst this
  rw [m2] at m2'
  cases m2'
  have x1 := Dict.get?_of_mem m1.params (hp id m1 m2).1 m3
  have x2 := Dict.get?_of_mem m1.params (hp id m1 m2).1 m3'
  rw [x1] at x2
  exact Option.some.inj x2

theorem stateItems_lt {h : MHeap K} (hw : WFModel h) {root : Nat} {k : PyStr} {i : Nat} (hi : (k, i) ∈ h.stateItems root) : i < h.params.length := by
  rw [mem_stateItems hw] at hi
  obtain ⟨ks, id, a, ⟨r1, m1, m2, m3⟩, e1⟩ := hi
  exact hw.params id m1 a i m2 m3

theorem paramIs_iff {h : MHeap K} (hw : WFModel h) {root : Nat} {k : PyStr} {shape : List Nat} {data : List K} :
    ParamIs h root k shape data ↔ ∃ i p, (k, i) ∈ h.stateItems root ∧ h.params[i]? = some p ∧ p.val.shape = shape ∧ p.val.data = data := by
  constructor
  · rintro ⟨ks, id, m, a, i, p, h1, h2, h3, h4, h5, h6, h7⟩
    exact ⟨i, p, (mem_stateItems hw).2 ⟨ks, id, a, ⟨h1, m, h2, h3⟩, h4⟩, h5, h6, h7⟩
  · rintro ⟨i, p, h1, h5, h6, h7⟩
    obtain ⟨ks, id, a, ⟨r1, m, h2, h3⟩, h4⟩ := (mem_stateItems hw).1 h1
    exact ⟨ks, id, m, a, i, p, r1, h2, h3, h4, h5, h6, h7⟩

/-! ### The dictionary -/

theorem stateDictOf_absent (h : MHeap K) (k : PyStr) : ∀ (l : List (PyStr × Nat)) (d : Dict PyStr (Tensor K)), (∀ j, (k, j) ∉ l) →
    Dict.get? (l.foldl (fun d e => match h.params[e.2]? with | none => d | some p => Dict.set d e.1 p.val) d) k = Dict.get? d k
  | [], d, _ => rfl
  | e :: l, d, hl => by
    rw [List.foldl_cons, stateDictOf_absent h k l _ fun j hj => hl j (List.mem_cons_of_mem _ hj)]
    cases h.params[e.2]? with
    | none => rfl
    | some p =>
      dsimp only
      rw [Dict.get?_set_ne]
      rintro rfl
      exact hl e.2 List.mem_cons_self

theorem stateDictOf_present (h : MHeap K) (k : PyStr) (i : Nat) (p : Param K) (hp : h.params[i]? = some p) : ∀ (l : List (PyStr × Nat)) (d : Dict PyStr (Tensor K)),
    (∀ j, (k, j) ∈ l → j = i) → (k, i) ∈ l →
    Dict.get? (l.foldl (fun d e => match h.params[e.2]? with | none => d | some p => Dict.set d e.1 p.val) d) k = some p.val
  | [], d, _, hm => by simp at hm
  | e :: l, d, hl, hm => by
    rw [List.foldl_cons]
    by_cases hin : ∃ j, (k, j) ∈ l
    · obtain ⟨j, hj⟩ := hin
      have := hl j (List.mem_cons_of_mem _ hj)
      subst this
      exact stateDictOf_present h k j p hp l _ (fun j hj => hl j (List.mem_cons_of_mem _ hj)) hj
    · have hn : ∀ j, (k, j) ∉ l := fun j hj => hin ⟨j, hj⟩
      rw [stateDictOf_absent h k l _ hn]
      rcases List.mem_cons.1 hm with rfl | hm
      · dsimp only
        rw [hp]
        simp
      · exact absurd hm (hn i)

/-- `model.state_dict()[name]` -/
theorem get?_stateDict {h : MHeap K} (hw : WFModel h) (hp : WFParams h) {root : Nat} {k : PyStr} {t : Tensor K} :
    Dict.get? (h.stateDict root) k = some t ↔ ∃ i p, (k, i) ∈ h.stateItems root ∧ h.params[i]? = some p ∧ p.val = t := by
  by_cases hin : ∃ i, (k, i) ∈ h.stateItems root
  · obtain ⟨i, hi⟩ := hin
    have hlt := stateItems_lt hw hi
    have e := stateDictOf_present h k i _ (List.getElem?_eq_getElem hlt) _ [] (fun j hj => stateItems_functional hw hp hj hi) hi
    change Dict.get? (h.stateDict root) k = _ at e
    rw [e]
    constructor
    · intro e
      exact ⟨i, _, hi, List.getElem?_eq_getElem hlt, Option.some.inj e⟩
    · rintro ⟨j, p, hj, hjp, rfl⟩
      have := stateItems_functional hw hp hj hi
      subst this
      rw [List.getElem?_eq_getElem hlt] at hjp
      rw [Option.some.inj hjp]
  · have e := stateDictOf_absent h k (h.stateItems root) [] fun j hj => hin ⟨j, hj⟩
    change Dict.get? (h.stateDict root) k = _ at e
    rw [e]
    simp only [Dict.get?_nil, reduceCtorEq, false_iff]
    rintro ⟨i, _, hi, _⟩
    exact hin ⟨i, hi⟩

theorem get?_filter_key {α : Type} (f : PyStr → Bool) (d : Dict PyStr α) (k : PyStr) :
    Dict.get? (d.filter fun e => f e.1) k = if f k then Dict.get? d k else none := by
  induction d with
  | nil => simp
  | cons e d ih =>
    obtain ⟨k', v⟩ := e
    rw [List.filter_cons]
    by_cases hf : f k' = true
    · rw [if_pos hf, Dict.get?_cons, Dict.get?_cons]
      by_cases hk : k' = k
      · subst hk; simp [hf]
      · rw [if_neg hk, if_neg hk]; exact ih
    · rw [if_neg hf, ih, Dict.get?_cons]
      by_cases hk : k' = k
      · subst hk; simp [hf]
      · rw [if_neg hk]

theorem get?_loraDict {h : MHeap K} (hw : WFModel h) (hp : WFParams h) {root : Nat} {k : PyStr} {t : Tensor K} :
    Dict.get? (h.loraDict root) k = some t ↔ nLora <:+: k ∧ ∃ i p, (k, i) ∈ h.stateItems root ∧ h.params[i]? = some p ∧ p.val = t := by
  unfold MHeap.loraDict
  rw [get?_filter_key (fun k => isSub nLora k), ← get?_stateDict hw hp]
  by_cases hk : isSub nLora k = true
  · rw [if_pos hk]
    exact ⟨fun e => ⟨(isSub_iff _ _).1 hk, e⟩, fun e => e.2⟩
  · rw [if_neg hk]
    constructor
    · intro e; cases e
    · rintro ⟨h1, _⟩
      exact absurd ((isSub_iff _ _).2 h1) hk

/-! ### Loading -/

theorem SameModel.get {h1 h2 : MHeap K} (h : SameModel h1 h2) {i : Nat} {p : Param K} (hp : h1.params[i]? = some p) :
    ∃ q, h2.params[i]? = some q ∧ q.val.shape = p.val.shape := by
  have hlt := (List.getElem?_eq_some_iff.1 hp).1
  rw [h.length] at hlt
  refine ⟨_, List.getElem?_eq_getElem hlt, ?_⟩
  have := congrArg (fun l => l[i]?) h.2
  simp only [MHeap.shapes, List.getElem?_map, hp, List.getElem?_eq_getElem hlt, Option.map_some] at this
  exact (Option.some.inj this).symm

theorem SameModel.symm {h1 h2 : MHeap K} (h : SameModel h1 h2) : SameModel h2 h1 := ⟨h.1.symm, h.2.symm⟩

theorem SameModel.trans {h1 h2 h3 : MHeap K} (h : SameModel h1 h2) (h' : SameModel h2 h3) : SameModel h1 h3 := ⟨h.1.trans h'.1, h.2.trans h'.2⟩

theorem stateItemsFrom_congr {h1 h2 : MHeap K} (h : h1.mods = h2.mods) : ∀ (n : Nat) (pre : PyStr) (id : Nat), h1.stateItemsFrom n pre id = h2.stateItemsFrom n pre id
  | 0, _, _ => rfl
  | n + 1, pre, id => by
    unfold MHeap.stateItemsFrom
    rw [h]
    cases h2.mods[id]? with
    | none => rfl
    | some m =>
      dsimp only
      congr 1
      exact List.flatMap_congr fun e _ => stateItemsFrom_congr h n _ _

theorem SameModel.stateItems {h1 h2 : MHeap K} (h : SameModel h1 h2) (root : Nat) : h1.stateItems root = h2.stateItems root := by
  unfold MHeap.stateItems
  rw [h.1]
  exact stateItemsFrom_congr h.1 _ _ _

theorem SameModel.reach {h1 h2 : MHeap K} (h : SameModel h1 h2) {root : Nat} {ks : List PyStr} {id : Nat} (hr : Reach h1 root ks id) : Reach h2 root ks id := by
  induction hr with
  | nil => exact .nil
  | snoc _ he ih =>
    obtain ⟨m, hm, hk⟩ := he
    exact ih.snoc ⟨m, by rw [← h.1]; exact hm, hk⟩

theorem SameModel.entry {h1 h2 : MHeap K} (h : SameModel h1 h2) {p : Nat} {k : PyStr} {c : Nat} : Entry h1 p k c ↔ Entry h2 p k c := by
  unfold Entry
  rw [h.1]

theorem SameModel.wf {h1 h2 : MHeap K} (h : SameModel h1 h2) (hw : WFModel h1) : WFModel h2 := by
  refine ⟨?_, ?_, ?_, ?_, ?_⟩
  · rw [← h.1]; exact hw.keys
  · intro p k c he; exact hw.names p k c (h.entry.2 he)
  · intro p k c he; rw [← h.1]; exact hw.inside p k c (h.entry.2 he)
  · obtain ⟨d, hd⟩ := hw.acyclic
    exact ⟨d, fun p k c he => hd p k c (h.entry.2 he)⟩
  · rw [← h.1, ← h.length]; exact hw.params

theorem SameModel.wfParams {h1 h2 : MHeap K} (h : SameModel h1 h2) (hw : WFParams h1) : WFParams h2 := by
  unfold WFParams at hw ⊢
  rw [← h.1]; exact hw

theorem SameModel.leaf {h1 h2 : MHeap K} (h : SameModel h1 h2) {id : Nat} : IsLeaf h1 id ↔ IsLeaf h2 id := by
  unfold IsLeaf
  rw [h.1]

theorem copyTo_same (h : MHeap K) (i : Nat) (t : Tensor K) {p : Param K} (hp : h.params[i]? = some p) (ht : t.shape = p.val.shape) :
    SameModel h (h.copyTo i t) := by
  refine ⟨rfl, ?_⟩
  unfold MHeap.copyTo MHeap.mapParam MHeap.shapes
  dsimp only
  apply List.ext_getElem?
  intro j
  rw [List.getElem?_map, List.getElem?_map, List.getElem?_modify]
  by_cases hi : i = j
  · subst hi
    rw [hp]
    simp [ht, Tensor.onDev]
  · cases h.params[j]? <;> simp [hi]

theorem copyTo_get (h : MHeap K) (i j : Nat) (t : Tensor K) {q : Param K} (hq : h.params[j]? = some q) :
    (h.copyTo i t).params[j]? = some (if i = j then { q with val := t.onDev q.val.dev } else q) := by
  unfold MHeap.copyTo MHeap.mapParam
  dsimp only
  rw [List.getElem?_modify, hq]
  by_cases hi : i = j <;> simp [hi]

/-- Loading entries that are the values of the parameters in `h1`. -/
theorem loadItems_spec {sd : Dict PyStr (Tensor K)} {h1 : MHeap K} : ∀ (l : List (PyStr × Nat)) (h : MHeap K), SameModel h h1 →
    (∀ k i t, (k, i) ∈ l → Dict.get? sd k = some t → ∃ q, h1.params[i]? = some q ∧ q.val = t) →
    ∃ h', MHeap.loadItems sd l h = .ok h' ∧ SameModel h h' ∧ ∀ i p, h.params[i]? = some p → ∃ p', h'.params[i]? = some p' ∧ p'.reqGrad = p.reqGrad ∧
      p'.val.dev = p.val.dev ∧ ((∃ k t, (k, i) ∈ l ∧ Dict.get? sd k = some t) → ∃ q, h1.params[i]? = some q ∧ p'.val.data = q.val.data) ∧
      ((¬ ∃ k t, (k, i) ∈ l ∧ Dict.get? sd k = some t) → p' = p)
  | [], h, _, _ => ⟨h, rfl, ⟨rfl, rfl⟩, fun i p hp => ⟨p, hp, rfl, rfl, by rintro ⟨k, t, hm, _⟩; simp at hm, fun _ => rfl⟩⟩
  | (k, i) :: l, h, hs, hsd => by
    have hsd' : ∀ k i t, (k, i) ∈ l → Dict.get? sd k = some t → ∃ q, h1.params[i]? = some q ∧ q.val = t :=
      fun k i t hm => hsd k i t (List.mem_cons_of_mem _ hm)
    have skip : (Dict.get? sd k = none ∨ h.params[i]? = none) → MHeap.loadItems sd ((k, i) :: l) h = MHeap.loadItems sd l h := by
      intro hn
      rcases hn with hn | hn <;> conv_lhs => unfold MHeap.loadItems
      · rw [hn]
      · rw [hn]
        cases Dict.get? sd k <;> rfl
    cases hk : Dict.get? sd k with
    | none =>
      obtain ⟨h', a1, a2, a3⟩ := loadItems_spec l h hs hsd'
      rw [skip (Or.inl hk)]
      refine ⟨h', a1, a2, ?_⟩
      intro j p hp
      obtain ⟨p', b1, b2, b3, b4, b5⟩ := a3 j p hp
      have hiff : (∃ k' t, (k', j) ∈ (k, i) :: l ∧ Dict.get? sd k' = some t) → ∃ k' t, (k', j) ∈ l ∧ Dict.get? sd k' = some t := by
        rintro ⟨k', t, hm, hg⟩
        rcases List.mem_cons.1 hm with he | hm
        · cases he; rw [hk] at hg; cases hg
        · exact ⟨k', t, hm, hg⟩
      refine ⟨p', b1, b2, b3, fun h => b4 (hiff h), fun h => b5 ?_⟩
      rintro ⟨k', t, hm, hg⟩
      exact h ⟨k', t, List.mem_cons_of_mem _ hm, hg⟩
    | some t =>
      obtain ⟨q, hq, hqt⟩ := hsd k i t List.mem_cons_self hk
      obtain ⟨p, hp, hpq⟩ := hs.symm.get hq
      have hshape : t.shape = p.val.shape := by rw [hpq, hqt]
      have hc := copyTo_same h i t hp hshape
      obtain ⟨h', a1, a2, a3⟩ := loadItems_spec l (h.copyTo i t) (hc.symm.trans hs) hsd'
      have hrun : MHeap.loadItems sd ((k, i) :: l) h = MHeap.loadItems sd l (h.copyTo i t) := by
        conv_lhs => unfold MHeap.loadItems
        rw [hk, hp]
        dsimp only
        rw [if_pos hshape]
      rw [hrun]
      refine ⟨h', a1, hc.trans a2, ?_⟩
      intro j r hr
      obtain ⟨p', b1, b2, b3, b4, b5⟩ := a3 j _ (copyTo_get h i j t hr)
      refine ⟨p', b1, ?_, ?_, ?_, ?_⟩
      · rw [b2]; split <;> rfl
      · rw [b3]; split <;> rfl
      · rintro ⟨k', t', hm, hg⟩
        by_cases hin : ∃ k' t, (k', j) ∈ l ∧ Dict.get? sd k' = some t
        · exact b4 hin
        · have hij : i = j := by
            rcases List.mem_cons.1 hm with he | hm
            · exact (congrArg Prod.snd he).symm
            · exact absurd ⟨k', t', hm, hg⟩ hin
          subst hij
          refine ⟨q, hq, ?_⟩
          rw [b5 hin, if_pos rfl, hqt]
          rfl
      · intro hno
        have hij : i ≠ j := by
          rintro rfl
          exact hno ⟨k, t, List.mem_cons_self, hk⟩
        rw [b5 (by rintro ⟨k', t', hm, hg⟩; exact hno ⟨k', t', List.mem_cons_of_mem _ hm, hg⟩), if_neg hij]

/-- Loading the saved LoRA entries of a model built alike always succeeds; the LoRA parameters get the saved values, nothing else changes. -/
theorem loadLora_spec {h h1 : MHeap K} {root : Nat} (hw : WFModel h1) (hp : WFParams h1) (hs : SameModel h h1) :
    ∃ h', h.loadLora root (h1.loraDict root) = .ok h' ∧ SameModel h h' ∧ ∀ i p, h.params[i]? = some p → ∃ p', h'.params[i]? = some p' ∧
      p'.reqGrad = p.reqGrad ∧ p'.val.dev = p.val.dev ∧
      ((∃ k, nLora <:+: k ∧ (k, i) ∈ h.stateItems root) → ∃ q, h1.params[i]? = some q ∧ p'.val.data = q.val.data) ∧
      ((¬ ∃ k, nLora <:+: k ∧ (k, i) ∈ h.stateItems root) → p' = p) := by
  have hw' := hs.symm.wf hw
  have hp' := hs.symm.wfParams hp
  have hall : ((h1.loraDict root).all fun e => (Dict.get? (h.stateDict root) e.1).isSome) = true := by
    rw [List.all_eq_true]
    intro e he
    have hk : e.1 ∈ Dict.keys (h1.loraDict root) := List.mem_map_of_mem (f := Prod.fst) he
    rw [← Dict.get?_isSome_iff] at hk
    obtain ⟨t, ht⟩ := Option.isSome_iff_exists.1 hk
    obtain ⟨_, i, p, h1', _, _⟩ := (get?_loraDict hw hp).1 ht
    rw [← hs.stateItems] at h1'
    have hlt := stateItems_lt hw' h1'
    rw [(get?_stateDict hw' hp').2 ⟨i, _, h1', List.getElem?_eq_getElem hlt, rfl⟩]
    rfl
  unfold MHeap.loadLora
  rw [if_pos hall]
  obtain ⟨h', a1, a2, a3⟩ := loadItems_spec (sd := h1.loraDict root) (h.stateItems root) h hs (by
    intro k i t hm hg
    obtain ⟨_, j, q, b1, b2, b3⟩ := (get?_loraDict hw hp).1 hg
    rw [hs.stateItems] at hm
    have := stateItems_functional hw hp hm b1
    subst this
    exact ⟨q, b2, b3⟩)
  refine ⟨h', a1, a2, ?_⟩
  intro i p hpi
  obtain ⟨p', b1, b2, b3, b4, b5⟩ := a3 i p hpi
  have hiff : (∃ k t, (k, i) ∈ h.stateItems root ∧ Dict.get? (h1.loraDict root) k = some t) ↔ ∃ k, nLora <:+: k ∧ (k, i) ∈ h.stateItems root := by
    constructor
    · rintro ⟨k, t, hm, hg⟩
      exact ⟨k, ((get?_loraDict hw hp).1 hg).1, hm⟩
    · rintro ⟨k, hk, hm⟩
      have hm1 := hm
      rw [hs.stateItems] at hm1
      have hlt := stateItems_lt hw hm1
      exact ⟨k, _, hm, (get?_loraDict hw hp).2 ⟨hk, i, _, hm1, List.getElem?_eq_getElem hlt, rfl⟩⟩
  rw [hiff] at b4 b5
  exact ⟨p', b1, b2, b3, b4, b5⟩

/-- After loading, the LoRA parameters are those of the model that was saved. -/
theorem loadLora_sameLora {h h1 h' : MHeap K} {root : Nat} (hw : WFModel h1) (hp : WFParams h1) (hs : SameModel h h1)
    (hl : h.loadLora root (h1.loraDict root) = .ok h') : SameModel h h' ∧ SameLora h1 h' root := by
  obtain ⟨h2, a1, a2, a3⟩ := loadLora_spec (root := root) hw hp hs
  rw [hl] at a1
  have := Except.ok.inj a1
  subst this
  refine ⟨a2, ?_⟩
  have hs1 : SameModel h1 h' := hs.symm.trans a2
  intro name hn shape data
  rw [paramIs_iff hw, paramIs_iff (hs1.wf hw), ← hs1.stateItems]
  have key : ∀ i, (name, i) ∈ h1.stateItems root → ∀ q, h1.params[i]? = some q → ∃ p', h'.params[i]? = some p' ∧ p'.val.shape = q.val.shape ∧ p'.val.data = q.val.data := by
    intro i hi q hq
    obtain ⟨p, hpi, hpq⟩ := hs.symm.get hq
    obtain ⟨p', b1, _, _, b4, _⟩ := a3 i p hpi
    obtain ⟨q', c1, c2⟩ := b4 ⟨name, hn, by rw [hs.stateItems]; exact hi⟩
    rw [hq] at c1
    have c1 := Option.some.inj c1
    subst c1
    obtain ⟨p2, d1, d2⟩ := a2.get hpi
    rw [b1] at d1
    have d1 := Option.some.inj d1
    subst d1
    exact ⟨p', b1, by rw [d2, hpq], c2⟩
  constructor
  · rintro ⟨i, q, hi, hq, h1, h2⟩
    obtain ⟨p', k1, k2, k3⟩ := key i hi q hq
    exact ⟨i, p', hi, k1, by rw [k2, h1], by rw [k3, h2]⟩
  · rintro ⟨i, p', hi, hp', h1', h2'⟩
    have hlt := stateItems_lt hw hi
    obtain ⟨p2, k1, k2, k3⟩ := key i hi _ (List.getElem?_eq_getElem hlt)
    rw [hp'] at k1
    have k1 := Option.some.inj k1
    subst k1
    exact ⟨i, _, hi, List.getElem?_eq_getElem hlt, by rw [← k2, h1'], by rw [← k3, h2']⟩

/-- Without LoRA parameters there is nothing to save. -/
theorem loraDict_nil {h : MHeap K} (hw : WFModel h) (hp : WFParams h) {root : Nat} (hn : (h.loraDict root).isEmpty = true) {name : PyStr} (hk : nLora <:+: name)
    {i : Nat} : (name, i) ∉ h.stateItems root := by
  intro hi
  have hlt := stateItems_lt hw hi
  have := (get?_loraDict hw hp).2 ⟨hk, i, _, hi, List.getElem?_eq_getElem hlt, rfl⟩
  rw [List.isEmpty_iff.1 hn] at this
  cases this

end Logix
