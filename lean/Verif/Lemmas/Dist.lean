/-
Lemmas on `synchronize`: layouts of state dictionaries, and sums over processes.
-/
import Verif.Model.Dist
import Verif.Lemmas.State
import Verif.Lemmas.Collate
import Verif.Lemmas.Storage

namespace Logix
variable {K : Type}

/-! ### Layouts -/

mutual
/-- A nested dictionary without its values. -/
def skelN {α : Type} : Nested α → Nested Unit
  | .leaf _ => .leaf ()
  | .node d => .node (skelD d)
def skelD {α : Type} : List (PyStr × Nested α) → List (PyStr × Nested Unit)
  | [] => []
  | (k, v) :: rest => (k, skelN v) :: skelD rest
end

theorem skelD_get {α : Type} (d : List (PyStr × Nested α)) (k : PyStr) : Dict.get? (skelD d) k = (Dict.get? d k).map skelN := by
  induction d with
  | nil => rfl
  | cons p rest ih =>
    obtain ⟨a, v⟩ := p
    simp only [skelD, Dict.get?, ih]
    split <;> rfl

mutual
theorem skelN_lookup {α : Type} : ∀ (v : Nested α) (q : Path), (skelN v).lookup q = (v.lookup q).map fun _ => ()
  | .leaf a, q => by cases q <;> rfl
  | .node d, q => by
    cases q with
    | nil => rfl
    | cons k ks => exact skelD_lookup d k ks
theorem skelD_lookup {α : Type} : ∀ (d : List (PyStr × Nested α)) (k : PyStr) (ks : Path),
    (Nested.node (skelD d)).lookup (k :: ks) = ((Nested.node d).lookup (k :: ks)).map fun _ => ()
  | [], k, ks => rfl
  | (k', v) :: rest, k, ks => by
    rw [skelD, lookup_cons_cons, lookup_cons_cons]
    split
    · exact skelN_lookup v ks
    · exact skelD_lookup rest k ks
end

theorem skelD_set {α : Type} (d : List (PyStr × Nested α)) (k : PyStr) (v : Nested α) : skelD (Dict.set d k v) = Dict.set (skelD d) k (skelN v) := by
  induction d with
  | nil => rfl
  | cons p rest ih =>
    obtain ⟨a, w⟩ := p
    simp only [skelD, Dict.set]
    split
    · rfl
    · simp only [skelD, ih]

/-- The layout after `d[m][t] = v`. -/
def sset2 (d : List (PyStr × Nested Unit)) (mt : PyStr × PyStr) : List (PyStr × Nested Unit) :=
  match Dict.get? d mt.1 with
  | some (.node sub) => Dict.set d mt.1 (.node (Dict.set sub mt.2 (.leaf ())))
  | _ => Dict.set d mt.1 (.node [(mt.2, .leaf ())])

theorem skelD_set2 (d : StateDict K) (m t : PyStr) (v : SVal K) : skelD (set2 d m t v) = sset2 (skelD d) (m, t) := by
  unfold set2 sset2
  simp only [skelD_get]
  cases Dict.get? d m with
  | none => rw [skelD_set]; rfl
  | some w =>
    cases w with
    | leaf _ => rw [skelD_set]; rfl
    | node sub =>
      simp only [Option.map_some, skelN]
      rw [skelD_set, skelN, skelD_set]
      rfl

/-- The layout has an entry. -/
def shas (d : List (PyStr × Nested Unit)) (mt : PyStr × PyStr) : Prop :=
  ∃ sub, Dict.get? d mt.1 = some (.node sub) ∧ Dict.get? sub mt.2 = some (.leaf ())

theorem shas_sset2 (d : List (PyStr × Nested Unit)) (a : PyStr × PyStr) : shas (sset2 d a) a := by
  unfold sset2 shas
  split
  · exact ⟨_, by rw [Dict.get?_set_self], by rw [Dict.get?_set_self]⟩
  · exact ⟨_, by rw [Dict.get?_set_self], by simp [Dict.get?]⟩

theorem shas_sset2_of (d : List (PyStr × Nested Unit)) (a b : PyStr × PyStr) (h : shas d a) : shas (sset2 d b) a := by
  obtain ⟨sub, h1, h2⟩ := h
  unfold sset2 shas
  by_cases hb : b.1 = a.1
  · rw [hb, h1]
    simp only [Dict.get?_set_self, Option.some.injEq, Nested.node.injEq, exists_eq_left']
    rw [Dict.get?_set]
    split
    · rfl
    · exact h2
  · split
    · exact ⟨sub, by rw [Dict.get?_set, if_neg hb, h1], h2⟩
    · exact ⟨sub, by rw [Dict.get?_set, if_neg hb, h1], h2⟩

theorem sset2_of_shas (d : List (PyStr × Nested Unit)) (a : PyStr × PyStr) (h : shas d a) : sset2 d a = d := by
  obtain ⟨sub, h1, h2⟩ := h
  unfold sset2
  rw [h1]
  simp only
  rw [Dict.set_get?_self sub a.2 _ h2, Dict.set_get?_self d a.1 _ h1]

theorem foldl_sset2_filter (a : PyStr × PyStr) : ∀ (l : List (PyStr × PyStr)) (d : List (PyStr × Nested Unit)), shas d a →
    l.foldl sset2 d = (l.filter (· ≠ a)).foldl sset2 d := by
  intro l
  induction l with
  | nil => intro d _; rfl
  | cons b rest ih =>
    intro d h
    by_cases hb : b = a
    · subst hb
      simp only [List.foldl_cons, ne_eq, not_true_eq_false, decide_false, Bool.false_eq_true, not_false_eq_true, List.filter_cons_of_neg]
      rw [sset2_of_shas d b h]
      exact ih d h
    · simp only [List.foldl_cons, ne_eq, hb, not_false_eq_true, decide_true, List.filter_cons_of_pos]
      exact ih _ (shas_sset2_of d a b h)

theorem foldl_sset2_firstSeen : ∀ (l : List (PyStr × PyStr)) (d : List (PyStr × Nested Unit)),
    l.foldl sset2 d = (Spec.firstSeen l).foldl sset2 d := by
  intro l
  induction l with
  | nil => intro d; rfl
  | cons b rest ih =>
    intro d
    simp only [List.foldl_cons, Spec.firstSeen]
    rw [ih, foldl_sset2_filter b _ _ (shas_sset2 d b)]

theorem firstSeen_map {α β : Type} [DecidableEq α] [DecidableEq β] {f : α → β} (hf : ∀ a b, f a = f b → a = b) : ∀ l : List α,
    Spec.firstSeen (l.map f) = (Spec.firstSeen l).map f := by
  intro l
  induction l with
  | nil => rfl
  | cons a rest ih =>
    simp only [List.map_cons, Spec.firstSeen, ih, List.filter_map]
    congr 2
    apply List.filter_congr
    intro b _
    simp only [Function.comp, ne_eq, decide_not]
    congr 1
    exact decide_eq_decide.2 ⟨fun h => hf _ _ h, fun h => by rw [h]⟩

theorem firstSeen_filter {α : Type} [DecidableEq α] (f : α → Bool) : ∀ l : List α, Spec.firstSeen (l.filter f) = (Spec.firstSeen l).filter f := by
  intro l
  induction l with
  | nil => rfl
  | cons a rest ih =>
    rw [List.filter_cons]
    by_cases h : f a = true
    · rw [if_pos h, Spec.firstSeen, Spec.firstSeen, List.filter_cons, if_pos h, ih, List.filter_filter, List.filter_filter]
      congr 2
      funext b
      exact Bool.and_comm ..
    · rw [if_neg h, Spec.firstSeen, List.filter_cons, if_neg h, ih, List.filter_filter]
      apply List.filter_congr
      intro b _
      by_cases hb : b = a
      · subst hb; simp [h]
      · simp [hb]

theorem grouped_cons {α β : Type} [DecidableEq α] (x : α × β) (l : List (α × β)) :
    Spec.grouped (x :: l) = x :: l.filter (fun a => a.1 = x.1) ++ Spec.grouped (l.filter fun a => a.1 ≠ x.1) := by
  have h1 : (l.filter fun a => a.1 ≠ x.1).map Prod.fst = (l.map Prod.fst).filter (· ≠ x.1) := by
    rw [List.filter_map]
    rfl
  unfold Spec.grouped
  rw [List.map_cons, Spec.firstSeen, List.flatMap_cons, h1, firstSeen_filter]
  congr 1
  · simp
  · apply List.flatMap_congr
    intro m hm
    have hm' : m ≠ x.1 := by simpa using (List.mem_filter.1 hm).2
    rw [List.filter_cons, if_neg (by simpa using hm'.symm), List.filter_filter]
    apply List.filter_congr
    intro b _
    by_cases hb : b.1 = m
    · simp [hb, hm']
    · simp [hb]

theorem mem_grouped {α β : Type} [DecidableEq α] (a : α × β) : ∀ (n : Nat) (l : List (α × β)), l.length ≤ n → (a ∈ Spec.grouped l ↔ a ∈ l) := by
  intro n
  induction n with
  | zero => intro l h; obtain rfl := List.eq_nil_of_length_eq_zero (Nat.le_zero.1 h); rfl
  | succ n ih =>
    intro l h
    cases l with
    | nil => rfl
    | cons x l =>
      rw [grouped_cons, List.mem_append, List.mem_cons, List.mem_cons, ih _ ((List.length_filter_le _ _).trans (by simpa using h)), List.mem_filter, List.mem_filter]
      by_cases hx : a.1 = x.1 <;> simp [hx]

theorem grouped_map {α β γ : Type} [DecidableEq α] (f : β → γ) (l : List (α × β)) :
    Spec.grouped (l.map fun a => (a.1, f a.2)) = (Spec.grouped l).map fun a => (a.1, f a.2) := by
  unfold Spec.grouped
  rw [List.map_map, List.map_flatMap]
  congr 1
  funext m
  rw [List.filter_map]
  rfl

/-- Entries for different modules can be set in either order, when one of the modules has entries. -/
theorem sset2_comm (d : List (PyStr × Nested Unit)) (a b : PyStr × PyStr) (hab : a.1 ≠ b.1) (h : ∃ sub, Dict.get? d a.1 = some (.node sub)) :
    sset2 (sset2 d b) a = sset2 (sset2 d a) b := by
  obtain ⟨sub, h⟩ := h
  have comm : ∀ (d : List (PyStr × Nested Unit)) v w, (Dict.get? d a.1).isSome → Dict.set (Dict.set d b.1 w) a.1 v = Dict.set (Dict.set d a.1 v) b.1 w := by
    intro d v w
    induction d with
    | nil => intro h; cases h
    | cons kv d ih =>
      obtain ⟨k, u⟩ := kv
      intro h
      by_cases h1 : k = a.1
      · subst h1
        simp [Dict.set, hab]
      · by_cases h2 : k = b.1
        · subst h2
          simp [Dict.set, h1]
        · rw [Dict.get?_cons, if_neg h1] at h
          simp only [Dict.set, if_neg h1, if_neg h2, ih h]
  have ha : ∀ w, Dict.get? (Dict.set d b.1 w) a.1 = some (.node sub) := fun w => by rw [Dict.get?_set, if_neg hab.symm, h]
  have hb : ∀ w, Dict.get? (Dict.set d a.1 w) b.1 = Dict.get? d b.1 := fun w => by rw [Dict.get?_set, if_neg hab]
  have hsome : (Dict.get? d a.1).isSome := by rw [h]; rfl
  have e : sset2 d a = Dict.set d a.1 (.node (Dict.set sub a.2 (.leaf ()))) := by unfold sset2; rw [h]
  rw [e]
  have e' : ∀ w, sset2 (Dict.set d b.1 w) a = Dict.set (Dict.set d b.1 w) a.1 (.node (Dict.set sub a.2 (.leaf ()))) := fun w => by
    unfold sset2; rw [ha w]
  obtain ⟨w, hw⟩ : ∃ w, ∀ d', Dict.get? d' b.1 = Dict.get? d b.1 → sset2 d' b = Dict.set d' b.1 w := by
    cases hd : Dict.get? d b.1 with
    | none => exact ⟨_, fun d' h' => by unfold sset2; rw [h']⟩
    | some x =>
      cases x with
      | leaf _ => exact ⟨_, fun d' h' => by unfold sset2; rw [h']⟩
      | node sub' => exact ⟨_, fun d' h' => by unfold sset2; rw [h']⟩
  rw [hw d rfl, hw _ (hb _), e', comm _ _ _ hsome]

theorem foldl_sset2_front (m : PyStr) : ∀ (l : List (PyStr × PyStr)) (d : List (PyStr × Nested Unit)), (∃ sub, Dict.get? d m = some (.node sub)) →
    l.foldl sset2 d = (l.filter (fun a => a.1 ≠ m)).foldl sset2 ((l.filter fun a => a.1 = m).foldl sset2 d) := by
  have keep : ∀ (d : List (PyStr × Nested Unit)) (b : PyStr × PyStr), (∃ sub, Dict.get? d m = some (.node sub)) → ∃ sub, Dict.get? (sset2 d b) m = some (.node sub) := by
    rintro d b ⟨sub, h⟩
    unfold sset2
    split <;>
    · rw [Dict.get?_set]
      split
      · exact ⟨_, rfl⟩
      · exact ⟨sub, h⟩
  have past : ∀ (l : List (PyStr × PyStr)) (d : List (PyStr × Nested Unit)) (b : PyStr × PyStr), (∀ a ∈ l, a.1 = m) → b.1 ≠ m →
      (∃ sub, Dict.get? d m = some (.node sub)) → l.foldl sset2 (sset2 d b) = sset2 (l.foldl sset2 d) b := by
    intro l
    induction l with
    | nil => intros; rfl
    | cons a l ih =>
      intro d b hl hb h
      have ha := hl a List.mem_cons_self
      rw [List.foldl_cons, List.foldl_cons, sset2_comm d a b (by rw [ha]; exact hb.symm) (by rw [ha]; exact h)]
      exact ih _ b (fun c hc => hl c (List.mem_cons_of_mem _ hc)) hb (keep d a h)
  intro l
  induction l with
  | nil => intros; rfl
  | cons b l ih =>
    intro d h
    rw [List.foldl_cons, ih _ (keep d b h)]
    by_cases hb : b.1 = m
    · simp only [List.filter_cons, hb, decide_true, ne_eq, not_true_eq_false, decide_false, Bool.false_eq_true, if_false, if_true, List.foldl_cons]
    · simp only [List.filter_cons, hb, decide_true, ne_eq, not_false_eq_true, decide_false, Bool.false_eq_true, if_false, if_true, List.foldl_cons]
      rw [past _ d b (fun a ha => by simpa using (List.mem_filter.1 ha).2) hb h]

theorem foldl_grouped : ∀ (n : Nat) (l : List (PyStr × PyStr)), l.length ≤ n → ∀ d : List (PyStr × Nested Unit),
    l.foldl sset2 d = (Spec.grouped l).foldl sset2 d := by
  intro n
  induction n with
  | zero => intro l h; obtain rfl := List.eq_nil_of_length_eq_zero (Nat.le_zero.1 h); intro d; rfl
  | succ n ih =>
    intro l h d
    cases l with
    | nil => rfl
    | cons x l =>
      rw [grouped_cons, List.foldl_append, List.foldl_cons, List.foldl_cons, ← ih _ ((List.length_filter_le _ _).trans (by simpa using h))]
      refine foldl_sset2_front x.1 l _ ?_
      obtain ⟨sub, h1, -⟩ := shas_sset2 d x
      exact ⟨sub, h1⟩

/-- The layout of a statistic and of its counter after some updates. -/
theorem updates_skel [Semiring K] (L : Lib K) {p : Plugin} {st cn : PyStr} {z : Nat → List Nat} {term : (Nat → K) → List Nat → K}
    (S : StatOf p st cn z term) : ∀ {calls : List (Plugin × StatCall K)} {s s' : LState K} {d0 e0 : StateDict K}, updates L s calls = .ok s' →
    s.getAttr st = .ok d0 → s.getAttr cn = .ok e0 → ∃ d e, s'.getAttr st = .ok d ∧ s'.getAttr cn = .ok e ∧
      skelD d = ((calls.filter fun pc => pc.1 = p).map fun pc => (pc.2.name, pc.2.logType.name)).foldl sset2 (skelD d0) ∧
      skelD e = ((calls.filter fun pc => pc.1 = p).map fun pc => (pc.2.name, pc.2.logType.name)).foldl sset2 (skelD e0) := by
  intro calls
  induction calls with
  | nil => intro s s' d0 e0 h hd he; cases h; exact ⟨d0, e0, hd, he, rfl, rfl⟩
  | cons a rest ih =>
    obtain ⟨q, c⟩ := a
    intro s s' d0 e0 h hd he
    unfold updates at h
    split at h
    · cases h
    · next s1 hs1 =>
      by_cases hq : q = p
      · subst hq
        obtain ⟨acc, A, hacc⟩ := S.acc
        rw [hacc] at hs1
        obtain ⟨d1, e1, t0, n0, t, hd1, he1, -, -, -, -, -, e', he', -, hs'⟩ := statUpdate_ok A hs1
        obtain rfl := Except.ok.inj (hd.symm.trans hd1)
        obtain rfl := Except.ok.inj (he.symm.trans he1)
        obtain ⟨d, e, k1, k2, k3, k4⟩ := ih h (d0 := set2 d0 c.name c.logType.name (.tensor t))
          (e0 := set2 e' c.name c.logType.name (.num (n0 + batchCount c)))
          (by rw [hs', getAttr_setAttr, if_neg (Ne.symm S.ne), getAttr_setAttr, if_pos rfl])
          (by rw [hs', getAttr_setAttr, if_pos rfl])
        refine ⟨d, e, k1, k2, ?_, ?_⟩
        · rw [k3, skelD_set2]; simp
        · rw [k4, skelD_set2]
          have : sset2 (skelD e') (c.name, c.logType.name) = sset2 (skelD e0) (c.name, c.logType.name) := by
            rcases he' with rfl | ⟨_, rfl⟩
            · rfl
            · rw [skelD_set2, sset2_of_shas _ _ (shas_sset2 _ _)]
          rw [this]; simp
      · obtain ⟨o1, o2⟩ := S.other q hq
        have F := (pluginUpdate_frame L hs1).2
        obtain ⟨d, e, k1, k2, k3, k4⟩ := ih h (d0 := d0) (e0 := e0) (by rw [getAttr_congr (F _ o1)]; exact hd) (by rw [getAttr_congr (F _ o2)]; exact he)
        exact ⟨d, e, k1, k2, by rw [k3]; simp [hq], by rw [k4]; simp [hq]⟩

/-- Two histories with the same order of first occurrences leave the same layout. -/
theorem order_foldl [Semiring K] (p : Plugin) (calls : List (Plugin × StatCall K)) (d : List (PyStr × Nested Unit)) :
    ((calls.filter fun pc => pc.1 = p).map fun pc => (pc.2.name, pc.2.logType.name)).foldl sset2 d =
      ((Spec.order p calls).map fun ml => (ml.1, ml.2.name)).foldl sset2 d := by
  rw [foldl_sset2_firstSeen, foldl_grouped _ _ (Nat.le_refl _)]
  unfold Spec.order
  rw [← grouped_map, ← firstSeen_map (f := fun ml : PyStr × LogType => (ml.1, ml.2.name))
    (fun a b h => by obtain ⟨a1, a2⟩ := a; obtain ⟨b1, b2⟩ := b; simp only [Prod.mk.injEq] at h; rw [h.1, logTypeName_inj h.2]),
    List.map_map]
  rfl

/-! ### Sums -/

/-- The values of a nested dictionary in order. -/
def valsN (v : Nested (SVal K)) : List (SVal K) := v.leaves.map Prod.snd

theorem treeVals_cons (k : PyStr) (v : Nested (SVal K)) (rest : StateDict K) : treeVals ((k, v) :: rest) = valsN v ++ treeVals rest := by
  simp [treeVals, valsN, Nested.leavesList]

theorem valsN_node (d : StateDict K) : valsN (.node d) = treeVals d := rfl

/-- What the values of two processes at a path are summed to. -/
def PathSum [Semiring K] (a b c : Option (SVal K)) : Prop :=
  (a = none ∧ b = none ∧ c = none) ∨ ∃ x y r, a = some x ∧ b = some y ∧ c = some r ∧ addVal x y = .ok r

mutual
theorem reduce_node [Semiring K] : ∀ (v w : Nested (SVal K)), skelN v = skelN w → ∀ xs ys zs, reduceSeq (valsN v ++ xs) (valsN w ++ ys) = .ok zs →
    ∃ z rest, skelN z = skelN v ∧ zs = valsN z ++ rest ∧ reduceSeq xs ys = .ok rest ∧ ∀ q, PathSum (v.lookup q) (w.lookup q) (z.lookup q)
  | .leaf a, .leaf b, _, xs, ys, zs, h => by
    simp only [valsN, Nested.leaves, List.map_cons, List.map_nil, List.cons_append, List.nil_append, reduceSeq] at h
    cases hc : addVal a b with
    | error _ => simp only [hc] at h; cases h
    | ok c =>
      simp only [hc] at h
      cases hr : reduceSeq xs ys with
      | error _ => simp only [hr] at h; cases h
      | ok rest =>
        simp only [hr] at h
        cases h
        refine ⟨.leaf c, rest, rfl, rfl, rfl, fun q => ?_⟩
        cases q with
        | nil => exact .inr ⟨a, b, c, rfl, rfl, rfl, hc⟩
        | cons k ks => exact .inl ⟨rfl, rfl, rfl⟩
  | .leaf _, .node _, hs, _, _, _, _ => by simp [skelN] at hs
  | .node _, .leaf _, hs, _, _, _, _ => by simp [skelN] at hs
  | .node d, .node e, hs, xs, ys, zs, h => by
    simp only [skelN, Nested.node.injEq] at hs
    obtain ⟨z, rest, h1, h2, h3, h4⟩ := reduce_list d e hs xs ys zs h
    refine ⟨.node z, rest, by rw [skelN, h1, skelN], h2, h3, fun q => ?_⟩
    cases q with
    | nil => exact .inl ⟨rfl, rfl, rfl⟩
    | cons k ks => exact h4 k ks
theorem reduce_list [Semiring K] : ∀ (d e : List (PyStr × Nested (SVal K))), skelD d = skelD e → ∀ xs ys zs,
    reduceSeq (treeVals d ++ xs) (treeVals e ++ ys) = .ok zs →
    ∃ z rest, skelD z = skelD d ∧ zs = treeVals z ++ rest ∧ reduceSeq xs ys = .ok rest ∧
      ∀ k ks, PathSum ((Nested.node d).lookup (k :: ks)) ((Nested.node e).lookup (k :: ks)) ((Nested.node z).lookup (k :: ks))
  | [], [], _, xs, ys, zs, h => ⟨[], zs, rfl, rfl, h, fun _ _ => .inl ⟨rfl, rfl, rfl⟩⟩
  | [], (_, _) :: _, hs, _, _, _, _ => by simp [skelD] at hs
  | (_, _) :: _, [], hs, _, _, _, _ => by simp [skelD] at hs
  | (k, v) :: d, (k', w) :: e, hs, xs, ys, zs, h => by
    simp only [skelD, List.cons.injEq, Prod.mk.injEq] at hs
    obtain ⟨⟨rfl, hs1⟩, hs2⟩ := hs
    rw [treeVals_cons, treeVals_cons, List.append_assoc, List.append_assoc] at h
    obtain ⟨z, r1, a1, a2, a3, a4⟩ := reduce_node v w hs1 _ _ _ h
    obtain ⟨zs', r2, b1, b2, b3, b4⟩ := reduce_list d e hs2 _ _ _ a3
    refine ⟨(k, z) :: zs', r2, by simp only [skelD, a1, b1], by rw [a2, b2, treeVals_cons, List.append_assoc], b3, fun j js => ?_⟩
    rw [lookup_cons_cons, lookup_cons_cons, lookup_cons_cons]
    split
    · exact a4 js
    · exact b4 j js
end

/-- The value that ends up at a path. -/
def copyAt (a b : Option (SVal K)) : Option (SVal K) :=
  match a, b with
  | some x, some y => some (copyVal x y)
  | _, _ => none

mutual
theorem put_node : ∀ (v z : Nested (SVal K)), skelN v = skelN z → ∀ rest, ∃ z', putLeaves v (valsN z ++ rest) = (z', rest) ∧
    ∀ q, z'.lookup q = copyAt (v.lookup q) (z.lookup q)
  | .leaf a, .leaf b, _, rest => by
    refine ⟨.leaf (copyVal a b), by simp [valsN, Nested.leaves, putLeaves], fun q => ?_⟩
    cases q <;> rfl
  | .leaf _, .node _, hs, _ => by simp [skelN] at hs
  | .node _, .leaf _, hs, _ => by simp [skelN] at hs
  | .node d, .node e, hs, rest => by
    simp only [skelN, Nested.node.injEq] at hs
    obtain ⟨z', h1, h2⟩ := put_list d e hs rest
    refine ⟨.node z', ?_, fun q => ?_⟩
    · rw [valsN_node, putLeaves, h1]
    · cases q with
      | nil => rfl
      | cons k ks => exact h2 k ks
theorem put_list : ∀ (d e : List (PyStr × Nested (SVal K))), skelD d = skelD e → ∀ rest, ∃ z', putLeavesList d (treeVals e ++ rest) = (z', rest) ∧
    ∀ k ks, (Nested.node z').lookup (k :: ks) = copyAt ((Nested.node d).lookup (k :: ks)) ((Nested.node e).lookup (k :: ks))
  | [], [], _, rest => ⟨[], rfl, fun _ _ => rfl⟩
  | [], (_, _) :: _, hs, _ => by simp [skelD] at hs
  | (_, _) :: _, [], hs, _ => by simp [skelD] at hs
  | (k, v) :: d, (k', w) :: e, hs, rest => by
    simp only [skelD, List.cons.injEq, Prod.mk.injEq] at hs
    obtain ⟨⟨rfl, hs1⟩, hs2⟩ := hs
    obtain ⟨z1, a1, a2⟩ := put_node v w hs1 (treeVals e ++ rest)
    obtain ⟨z2, b1, b2⟩ := put_list d e hs2 rest
    refine ⟨(k, z1) :: z2, ?_, fun j js => ?_⟩
    · rw [treeVals_cons, List.append_assoc, putLeavesList, a1]
      simp only [b1]
    · rw [lookup_cons_cons, lookup_cons_cons, lookup_cons_cons]
      split
      · exact a2 js
      · exact b2 j js
end

/-- The sum of several values. -/
def foldVal [Semiring K] (x : SVal K) : List (SVal K) → Py (SVal K)
  | [] => .ok x
  | y :: ys =>
    match addVal x y with
    | .error e => .error e
    | .ok r => foldVal r ys

/-- What the values of all processes at a path are summed to. -/
theorem reduceAll_ok [Semiring K] : ∀ (ts : List (StateDict K)) (t : StateDict K) (sums : List (SVal K)), (∀ u ∈ ts, skelD u = skelD t) →
    reduceAll (treeVals t) (ts.map treeVals) = .ok sums → ∃ z, skelD z = skelD t ∧ sums = treeVals z ∧
      ∀ q, (∀ x, (Nested.node t).lookup q = some x → ∃ ys r, ts.map (fun u => (Nested.node u).lookup q) = ys.map some ∧
        foldVal x ys = .ok r ∧ (Nested.node z).lookup q = some r) := by
  intro ts
  induction ts with
  | nil =>
    intro t sums _ h
    cases h
    exact ⟨t, rfl, rfl, fun q x hx => ⟨[], x, rfl, rfl, hx⟩⟩
  | cons u rest ih =>
    intro t sums hs h
    simp only [List.map_cons, reduceAll] at h
    cases hr : reduceSeq (treeVals t) (treeVals u) with
    | error _ => simp only [hr] at h; cases h
    | ok c =>
      simp only [hr] at h
      obtain ⟨z, rest', a1, a2, a3, a4⟩ := reduce_list t u (hs u List.mem_cons_self).symm [] [] c (by simpa using hr)
      have hrest : rest' = [] := by simpa [reduceSeq] using a3.symm
      rw [hrest, List.append_nil] at a2
      rw [a2] at h
      obtain ⟨z', b1, b2, b3⟩ := ih z sums (fun v hv => by rw [hs v (List.mem_cons_of_mem _ hv), a1]) h
      refine ⟨z', by rw [b1, a1], b2, fun q x hx => ?_⟩
      cases q with
      | nil => cases hx
      | cons k ks =>
        rcases a4 k ks with ⟨h1, _, _⟩ | ⟨x', y, r, h1, h2, h3, h4⟩
        · rw [hx] at h1; cases h1
        · obtain rfl := Option.some.inj (hx.symm.trans h1)
          obtain ⟨ys, r', c1, c2, c3⟩ := b3 _ r h3
          refine ⟨y :: ys, r', by simp only [List.map_cons, h2, c1], ?_, c3⟩
          simp only [foldVal, h4, c2]

theorem foldVal_tensor [Semiring K] : ∀ (ys : List (SVal K)) (t : Tensor K) (r : SVal K), foldVal (.tensor t) ys = .ok r →
    ∃ (us : List (Tensor K)) (u : Tensor K), ys = us.map .tensor ∧ r = .tensor u ∧ u.shape = t.shape ∧ (∀ v ∈ us, v.shape = t.shape) ∧
      ∀ idx, inRange t.shape idx = true → u.el idx = t.el idx + (us.map fun v => v.el idx).sum := by
  intro ys
  induction ys with
  | nil => intro t r h; cases h; exact ⟨[], t, rfl, rfl, rfl, by simp, fun idx _ => by simp⟩
  | cons y ys ih =>
    intro t r h
    cases y with
    | num _ => simp [foldVal, addVal] at h
    | paths _ => simp [foldVal, addVal] at h
    | dims _ => simp [foldVal, addVal] at h
    | tensor v =>
      simp only [foldVal, addVal] at h
      by_cases hv : t.shape = v.shape
      · simp only [hv, if_true] at h
        obtain ⟨us, u, a1, a2, a3, a4, a5⟩ := ih _ r h
        refine ⟨v :: us, u, by rw [a1]; rfl, a2, by rw [a3, hv]; rfl, ?_, fun idx hidx => ?_⟩
        · intro w hw
          rcases List.mem_cons.1 hw with rfl | hw
          · exact hv.symm
          · rw [a4 w hw, hv]; rfl
        · rw [a5 idx (by rw [← hidx, hv]; rfl), Tensor.el_ofFn, if_pos (by rw [← hv]; exact hidx)]
          simp [add_assoc]
      · simp only [hv, if_false] at h; cases h

theorem foldVal_num [Semiring K] : ∀ (ys : List (SVal K)) (x : K) (r : SVal K), foldVal (.num x) ys = .ok r →
    ∃ ns : List K, ys = ns.map .num ∧ r = .num (x + ns.sum) := by
  intro ys
  induction ys with
  | nil => intro x r h; cases h; exact ⟨[], rfl, by simp⟩
  | cons y ys ih =>
    intro x r h
    cases y with
    | tensor _ => simp [foldVal, addVal] at h
    | paths _ => simp [foldVal, addVal] at h
    | dims _ => simp [foldVal, addVal] at h
    | num y =>
      simp only [foldVal, addVal] at h
      obtain ⟨ns, a1, a2⟩ := ih _ r h
      exact ⟨y :: ns, by rw [a1]; rfl, by rw [a2]; simp [add_assoc]⟩

/-! ### Trees of states -/

theorem syncTree_get {s : LState K} : ∀ {names : List PyStr} {t : StateDict K}, syncTree s names = .ok t →
    Dict.keys t = names ∧ ∀ n ∈ names, ∃ d, s.getAttr n = .ok d ∧ Dict.get? t n = some (.node d) := by
  intro names
  induction names with
  | nil => intro t h; cases h; exact ⟨rfl, fun n hn => absurd hn List.not_mem_nil⟩
  | cons k rest ih =>
    intro t h
    simp only [syncTree] at h
    split at h
    · next d t' h1 h2 =>
      cases h
      obtain ⟨i1, i2⟩ := ih h2
      refine ⟨by simp only [Dict.keys, List.map_cons] at i1 ⊢; rw [i1], fun n hn => ?_⟩
      rw [Dict.get?_cons]
      by_cases hk : k = n
      · subst hk; exact ⟨d, h1, by simp⟩
      · rw [if_neg hk]
        rcases List.mem_cons.1 hn with rfl | hn
        · exact absurd rfl hk
        · exact i2 n hn
    · cases h

theorem syncTree_skel {s u : LState K} : ∀ {names : List PyStr} {t v : StateDict K}, syncTree s names = .ok t → syncTree u names = .ok v →
    (∀ n ∈ names, ∀ d e, s.getAttr n = .ok d → u.getAttr n = .ok e → skelD d = skelD e) → skelD t = skelD v := by
  intro names
  induction names with
  | nil => intro t v h1 h2 _; cases h1; cases h2; rfl
  | cons k rest ih =>
    intro t v h1 h2 h
    simp only [syncTree] at h1 h2
    split at h1
    · next d t' a1 a2 =>
      cases h1
      split at h2
      · next e v' b1 b2 =>
        cases h2
        simp only [skelD, skelN]
        rw [h k List.mem_cons_self d e a1 b1, ih a2 b2 fun n hn => h n (List.mem_cons_of_mem _ hn)]
      · cases h2
    · cases h1

theorem writeTree_frame : ∀ (t : StateDict K) (s : LState K), (writeTree s t).states = s.states ∧ (writeTree s t).toSync = s.toSync ∧
    (writeTree s t).toSave = s.toSave ∧ (writeTree s t).toNormalize = s.toNormalize ∧ (writeTree s t).notClear = s.notClear ∧
    ∀ n, n ∉ Dict.keys t → Dict.get? (writeTree s t).attrs n = Dict.get? s.attrs n := by
  intro t
  induction t with
  | nil => intro s; exact ⟨rfl, rfl, rfl, rfl, rfl, fun _ _ => rfl⟩
  | cons p rest ih =>
    obtain ⟨k, v⟩ := p
    intro s
    cases v with
    | leaf a =>
      obtain ⟨h1, h2, h3, h4, h5, h6⟩ := ih s
      exact ⟨h1, h2, h3, h4, h5, fun n hn => h6 n fun hh => hn (List.mem_cons_of_mem _ hh)⟩
    | node d =>
      obtain ⟨h1, h2, h3, h4, h5, h6⟩ := ih (s.setAttr k d)
      refine ⟨h1, h2, h3, h4, h5, fun n hn => ?_⟩
      rw [show writeTree s ((k, Nested.node d) :: rest) = writeTree (s.setAttr k d) rest from rfl, h6 n fun hh => hn (List.mem_cons_of_mem _ hh),
        get?_setAttr, if_neg]
      rintro rfl
      exact hn List.mem_cons_self

theorem writeTree_keys : ∀ (t : StateDict K) (s : LState K), (∀ n ∈ Dict.keys t, ∃ d, Dict.get? s.attrs n = some d) →
    Dict.keys (writeTree s t).attrs = Dict.keys s.attrs := by
  intro t
  induction t with
  | nil => intro s _; rfl
  | cons p rest ih =>
    obtain ⟨k, v⟩ := p
    intro s h
    cases v with
    | leaf a => exact ih s fun n hn => h n (List.mem_cons_of_mem _ hn)
    | node d =>
      rw [show writeTree s ((k, Nested.node d) :: rest) = writeTree (s.setAttr k d) rest from rfl, ih (s.setAttr k d) fun n hn => ?_]
      · obtain ⟨d', hd'⟩ := h k List.mem_cons_self
        have hk : k ∈ Dict.keys s.attrs := (Dict.get?_isSome_iff _ _).1 (by rw [hd']; rfl)
        show Dict.keys (Dict.set s.attrs k d) = _
        rw [Dict.keys_set, if_pos hk]
      · rw [get?_setAttr]
        split
        · exact ⟨d, rfl⟩
        · exact h n (List.mem_cons_of_mem _ hn)

theorem writeTree_get : ∀ {t : StateDict K} {s : LState K} {n : PyStr} {d : StateDict K}, (Dict.keys t).Nodup → Dict.get? t n = some (.node d) →
    (writeTree s t).getAttr n = .ok d := by
  intro t
  induction t with
  | nil => intro s n d _ h; cases h
  | cons p rest ih =>
    obtain ⟨k, v⟩ := p
    intro s n d hn h
    simp only [Dict.keys, List.map_cons, List.nodup_cons] at hn
    rw [Dict.get?_cons] at h
    by_cases hk : k = n
    · subst hk
      rw [if_pos rfl] at h
      cases h
      rw [show writeTree s ((k, Nested.node d) :: rest) = writeTree (s.setAttr k d) rest from rfl, getAttr_eq,
        (writeTree_frame rest (s.setAttr k d)).2.2.2.2.2 k hn.1, get?_setAttr, if_pos rfl]
    · rw [if_neg hk] at h
      cases v with
      | leaf a => exact ih hn.2 h
      | node e => exact ih hn.2 h

theorem put_keys : ∀ (d : StateDict K) (xs : List (SVal K)), Dict.keys (putLeavesList d xs).1 = Dict.keys d := by
  intro d
  induction d with
  | nil => intro xs; rfl
  | cons p rest ih =>
    obtain ⟨k, v⟩ := p
    intro xs
    simp only [putLeavesList, Dict.keys, List.map_cons]
    rw [show List.map Prod.fst _ = Dict.keys (putLeavesList rest (putLeaves v xs).2).1 from rfl, ih]
    rfl

theorem put_get : ∀ (d : StateDict K) (xs : List (SVal K)) (n : PyStr) (e : StateDict K), Dict.get? d n = some (.node e) →
    ∃ e', Dict.get? (putLeavesList d xs).1 n = some (.node e') := by
  intro d
  induction d with
  | nil => intro xs n e h; cases h
  | cons p rest ih =>
    obtain ⟨k, v⟩ := p
    intro xs n e h
    simp only [putLeavesList]
    rw [Dict.get?_cons] at h ⊢
    split at h
    · next hk =>
      rw [if_pos hk]
      cases h
      exact ⟨_, rfl⟩
    · next hk =>
      rw [if_neg hk]
      exact ih _ n e h

theorem syncTrees_ok : ∀ {ss : List (LState K)} {ts : List (StateDict K)}, syncTrees ss = .ok ts → ts.length = ss.length ∧
    ∀ (i : Nat) (s : LState K), ss[i]? = some s → ∃ t, ts[i]? = some t ∧ syncTree s s.toSync = .ok t := by
  intro ss
  induction ss with
  | nil => intro ts h; cases h; exact ⟨rfl, fun i s h => by simp at h⟩
  | cons u rest ih =>
    intro ts h
    simp only [syncTrees] at h
    split at h
    · next t ts' h1 h2 =>
      cases h
      obtain ⟨i1, i2⟩ := ih h2
      refine ⟨by simp [i1], fun i s hs => ?_⟩
      cases i with
      | zero => simp only [List.getElem?_cons_zero, Option.some.injEq] at hs ⊢; exact ⟨t, rfl, hs ▸ h1⟩
      | succ i => simpa using i2 i s (by simpa using hs)
    · cases h

mutual
theorem put_skelN : ∀ (v : Nested (SVal K)) (xs : List (SVal K)), skelN (putLeaves v xs).1 = skelN v
  | .leaf _, [] => rfl
  | .leaf _, _ :: _ => rfl
  | .node d, xs => by simp only [putLeaves, skelN, put_skelD d xs]
/-- Values are put back without changing the layout. -/
theorem put_skelD : ∀ (d : StateDict K) (xs : List (SVal K)), skelD (putLeavesList d xs).1 = skelD d
  | [], _ => rfl
  | (k, v) :: rest, xs => by simp only [putLeavesList, skelD, put_skelN v xs, put_skelD rest]
end

/-- A successful synchronization of states with the same layout: on every process, every value of a synchronized state has become the sum of the
values of all processes, and nothing else has changed. -/
theorem synchronize_ok [Semiring K] {ss ss' : List (LState K)} {names : List PyStr} (hnames : ∀ s ∈ ss, s.toSync = names) (hnd : names.Nodup)
    (hskel : ∀ s ∈ ss, ∀ u ∈ ss, ∀ n ∈ names, ∀ d e, s.getAttr n = .ok d → u.getAttr n = .ok e → skelD d = skelD e)
    (h : synchronize ss = .ok ss') : ss'.length = ss.length ∧ ∀ (i : Nat) (s' : LState K), ss'[i]? = some s' → ∃ s : LState K, ss[i]? = some s ∧
      s'.toNormalize = s.toNormalize ∧ s'.toSave = s.toSave ∧ s'.states = s.states ∧ s'.toSync = s.toSync ∧ s'.notClear = s.notClear ∧
      Dict.keys s'.attrs = Dict.keys s.attrs ∧ (∀ n, n ∉ names → Dict.get? s'.attrs n = Dict.get? s.attrs n) ∧
      ∀ n ∈ names, ∃ d d', s.getAttr n = .ok d ∧ s'.getAttr n = .ok d' ∧ skelD d' = skelD d ∧ ∀ q x, (Nested.node d).lookup q = some x →
        ∃ y ys r, ss.map (fun u => (Dict.get? u.attrs n).bind fun e => (Nested.node e).lookup q) = (y :: ys).map some ∧
          foldVal y ys = .ok r ∧ (Nested.node d').lookup q = some (copyVal x r) := by
  unfold synchronize at h
  cases hts : syncTrees ss with
  | error _ => simp only [hts] at h; cases h
  | ok ts =>
  obtain ⟨hlen, htree⟩ := syncTrees_ok hts
  simp only [hts] at h
  cases ts with
  | nil =>
    cases h
    obtain rfl : ss = [] := List.length_eq_zero_iff.1 (by simpa using hlen.symm)
    exact ⟨rfl, fun i s' hs => by simp at hs⟩
  | cons t ts =>
    simp only at h
    cases hsum : reduceAll (treeVals t) (ts.map treeVals) with
    | error _ => simp only [hsum] at h; cases h
    | ok sums =>
      simp only [hsum] at h
      cases h
      have tree : ∀ (i : Nat) (u : StateDict K), (t :: ts)[i]? = some u → ∃ s, ss[i]? = some s ∧ syncTree s names = .ok u := by
        intro i u hu
        have hi : i < ss.length := by
          rw [← hlen]
          exact (List.getElem?_eq_some_iff.1 hu).1
        obtain ⟨u', h1, h2⟩ := htree i ss[i] (List.getElem?_eq_getElem hi)
        obtain rfl := Option.some.inj (hu.symm.trans h1)
        exact ⟨ss[i], List.getElem?_eq_getElem hi, by rw [← hnames _ (List.getElem_mem hi)]; exact h2⟩
      have skel : ∀ u ∈ t :: ts, ∀ v ∈ t :: ts, skelD u = skelD v := by
        intro u hu v hv
        obtain ⟨i, hi⟩ := List.getElem?_of_mem hu
        obtain ⟨j, hj⟩ := List.getElem?_of_mem hv
        obtain ⟨s, s1, s2⟩ := tree i u hi
        obtain ⟨s', s1', s2'⟩ := tree j v hj
        exact syncTree_skel s2 s2' (hskel s (List.mem_of_getElem? s1) s' (List.mem_of_getElem? s1'))
      obtain ⟨z, z1, rfl, z3⟩ := reduceAll_ok ts t sums (fun u hu => skel u (List.mem_cons_of_mem _ hu) t List.mem_cons_self) hsum
      refine ⟨by simp only [List.length_zipWith, hlen, Nat.min_self], fun i s' hs' => ?_⟩
      rw [List.getElem?_zipWith] at hs'
      cases hs : ss[i]? with
      | none => simp only [hs] at hs'; cases hs'
      | some s =>
      cases hu : (t :: ts)[i]? with
      | none => simp only [hs, hu] at hs'; cases hs'
      | some u =>
      simp only [hs, hu, Option.some.injEq] at hs'
      obtain ⟨s0, e1, e2⟩ := tree i u hu
      obtain rfl := Option.some.inj (hs.symm.trans e1)
      obtain ⟨k1, k2⟩ := syncTree_get e2
      have hput := put_keys u (treeVals z)
      obtain ⟨f1, f2, f3, f4, f5, f6⟩ := writeTree_frame (putLeavesList u (treeVals z)).1 s
      refine ⟨s, rfl, by rw [← hs', f4], by rw [← hs', f3], by rw [← hs', f1], by rw [← hs', f2], by rw [← hs', f5],
        by rw [← hs']; exact writeTree_keys _ s (fun n hn => by rw [hput, k1] at hn; obtain ⟨d, g, -⟩ := k2 n hn; exact ⟨d, getAttr_eq.1 g⟩),
        fun n hn => by rw [← hs', f6 n (by rw [hput, k1]; exact hn)], fun n hn => ?_⟩
      obtain ⟨d, g1, g2⟩ := k2 n hn
      obtain ⟨d', g3⟩ := put_get u (treeVals z) n d g2
      have hsk : skelD d' = skelD d := by
        have h1 := skelD_get (putLeavesList u (treeVals z)).1 n
        rw [put_skelD, skelD_get, g2, g3] at h1
        simpa [skelN] using h1.symm
      refine ⟨d, d', g1, by rw [← hs']; exact writeTree_get (by rw [hput, k1]; exact hnd) g3, hsk, fun q x hx => ?_⟩
      obtain ⟨z', p1, p2⟩ := put_list u z (by rw [z1]; exact skel u (List.mem_of_getElem? hu) t List.mem_cons_self) []
      rw [List.append_nil] at p1
      rw [p1] at g3
      have p2' := p2 n q
      rw [lookup_node_cons, lookup_node_cons, g3, g2] at p2'
      simp only [Option.bind_some] at p2'
      rw [hx] at p2'
      have look : ∀ v ∈ t :: ts, ((Nested.node v).lookup (n :: q)).isSome = true := by
        intro v hv
        have h2 : (Nested.node u).lookup (n :: q) = some x := by rw [lookup_node_cons, g2]; exact hx
        have h1 := skelN_lookup (.node v) (n :: q)
        rw [skelN, skel v hv u (List.mem_of_getElem? hu), ← skelN, skelN_lookup, h2] at h1
        cases hl : (Nested.node v).lookup (n :: q) with
        | none => rw [hl] at h1; cases h1
        | some _ => rfl
      obtain ⟨y, hy⟩ := Option.isSome_iff_exists.1 (look t List.mem_cons_self)
      obtain ⟨ys, r, c1, c2, c3⟩ := z3 _ y hy
      refine ⟨y, ys, r, ?_, c2, ?_⟩
      · rw [List.map_cons, ← hy, ← c1, ← List.map_cons (f := fun u => (Nested.node u).lookup (n :: q))]
        apply List.ext_getElem?
        intro j
        rw [List.getElem?_map, List.getElem?_map]
        cases hj : ss[j]? with
        | none =>
          rw [List.getElem?_eq_none (by rw [hlen]; exact List.getElem?_eq_none_iff.1 hj)]
          rfl
        | some w =>
          obtain ⟨v, v1, v2⟩ := htree j w hj
          rw [hnames w (List.mem_of_getElem? hj)] at v2
          obtain ⟨e, w1, w2⟩ := (syncTree_get v2).2 n hn
          rw [v1]
          simp only [Option.map_some, Option.some.injEq]
          rw [lookup_node_cons, w2, getAttr_eq.1 w1]
          rfl
      · rw [lookup_node_cons, ← lookup_node_cons z n q, c3] at p2'
        exact p2'

theorem item2_of_lookup {d : StateDict K} {m t : PyStr} {v : SVal K} (h : (Nested.node d).lookup [m, t] = some v) : item2 d m t = .ok (some v) := by
  unfold item2
  rw [lookup_node_cons] at h
  cases hm : Dict.get? d m with
  | none => rw [hm] at h; cases h
  | some w =>
    rw [hm] at h
    cases w with
    | leaf _ => cases h
    | node sub =>
      simp only [Option.bind_some] at h ⊢
      rw [lookup_node_cons] at h
      cases ht : Dict.get? sub t with
      | none => rw [ht] at h; cases h
      | some x =>
        rw [ht] at h
        cases x with
        | leaf a => cases h; rfl
        | node _ => cases h

end Logix
