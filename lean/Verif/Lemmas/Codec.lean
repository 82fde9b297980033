/-
Numbers that are written and read back.
-/
import Verif.Spec.Codec
import Verif.Lemmas.Skel
import Verif.Lemmas.Scores

set_option linter.unusedSectionVars false

namespace Logix
variable {K : Type}

/-- The bytes of element `k`. -/
def Arr.chunk (a : Arr) (k : Nat) : List UInt8 := (a.bytes.drop (k * a.dtype.itemsize)).take a.dtype.itemsize

theorem tensor_el [Zero K] (C : Codec K) (a : Arr) {idx : List Nat} (h : inRange a.shape idx = true) :
    (C.tensor a).el idx = C.dec a.dtype (a.chunk (ravel a.shape idx)) := by
  unfold Tensor.el
  have hs : (C.tensor a).shape = a.shape := rfl
  rw [hs, if_pos h]
  have := ravel_lt _ _ h
  simp only [Codec.tensor, Arr.chunk]
  rw [List.getD_eq_getElem?_getD, List.getElem?_map, List.getElem?_range this]
  rfl

theorem drop_take_drop_take {α : Type} (l : List α) (x y u v : Nat) (h : u + v ≤ y) : (((l.drop x).take y).drop u).take v = (l.drop (x + u)).take v := by
  rw [List.drop_take, List.take_take, List.drop_drop, Nat.min_eq_left (by omega)]

theorem chunk_row {a r : Arr} {i k : Nat} (h : a.row i = .ok r) (hk : k < numel r.shape) : r.chunk k = a.chunk (i * numel r.shape + k) := by
  obtain ⟨h1, h2, h3⟩ := row_spec h
  unfold Arr.chunk
  rw [h1, h3, ← h2]
  have : (k + 1) * a.dtype.itemsize ≤ numel r.shape * a.dtype.itemsize := Nat.mul_le_mul_right _ hk
  rw [Nat.add_mul, Nat.one_mul] at this
  rw [drop_take_drop_take _ _ _ _ _ this]
  congr 2
  rw [Nat.add_mul, Nat.mul_assoc]

theorem row_shape {a r : Arr} {i : Nat} (h : a.row i = .ok r) : ∃ b, a.shape = b :: r.shape ∧ i < b := by
  obtain ⟨b, s, h1, h2⟩ := (row_ok_iff (t := a) (i := i)).1 ⟨r, h⟩
  obtain ⟨-, h3, -⟩ := row_spec h
  rw [h1] at h3
  exact ⟨b, by rw [h1, h3]; rfl, h2⟩

/-- A row of a loaded tensor is the tensor of the row. -/
theorem tensor_row [Zero K] (C : Codec K) {a r : Arr} {i : Nat} (h : a.row i = .ok r) {idx : List Nat} (hi : inRange r.shape idx = true) :
    (C.tensor a).el (i :: idx) = (C.tensor r).el idx := by
  obtain ⟨b, h1, h2⟩ := row_shape h
  have hin : inRange a.shape (i :: idx) = true := by rw [h1]; simp [inRange, h2, hi]
  rw [tensor_el C a hin, tensor_el C r hi, (row_spec h).1, chunk_row h (ravel_lt _ _ hi), h1]
  rfl

theorem flatMap_chunk {α β : Type} (f : α → List β) (n : Nat) : ∀ (l : List α) (k : Nat), (∀ a ∈ l, (f a).length = n) → ∀ (hk : k < l.length),
    ((l.flatMap f).drop (k * n)).take n = f l[k]
  | [], k, _, hk => by simp at hk
  | a :: l, 0, h, hk => by
    have ha := h a (by simp)
    rw [Nat.zero_mul, List.drop_zero, List.flatMap_cons, List.take_append_of_le_length (by omega), List.take_of_length_le (by omega)]
    rfl
  | a :: l, k + 1, h, hk => by
    have ha := h a (by simp)
    rw [List.flatMap_cons, List.drop_append, List.drop_eq_nil_of_le (by rw [ha, Nat.add_mul]; omega), List.nil_append, ha, Nat.add_mul, Nat.one_mul, Nat.add_sub_cancel]
    exact flatMap_chunk f n l k (fun b hb => h b (by simp [hb])) (by simpa using hk)

theorem chunk_arr (C : Codec K) (d : DType) (t : Tensor K) {k : Nat} (hk : k < t.data.length) : (C.arr d t).chunk k = (C.enc d t.data[k]).1 :=
  flatMap_chunk (fun x => (C.enc d x).1) d.itemsize t.data k (fun x _ => (C.enc d x).2) hk

/-- What was written is read back. -/
theorem tensor_arr [Zero K] (C : Codec K) (d : DType) (t : Tensor K) (hex : ∀ c ∈ t.data, C.dec d (C.enc d c).1 = c) {idx : List Nat}
    (h : inRange t.shape idx = true) : (C.tensor (C.arr d t)).el idx = t.el idx := by
  have hr : ravel t.shape idx < t.data.length := by rw [t.wf]; exact ravel_lt _ _ h
  rw [tensor_el C (C.arr d t) h]
  show C.dec d ((C.arr d t).chunk (ravel t.shape idx)) = _
  rw [chunk_arr C d t hr, hex _ (List.getElem_mem hr)]
  unfold Tensor.el
  rw [if_pos h, List.getD_eq_getElem?_getD, List.getElem?_eq_getElem hr]
  rfl

/-! ### dictionaries -/

theorem get?_log (C : Codec K) (d : List (PyStr × Nested Arr)) (m : PyStr) : Dict.get? (C.log d) m = (Dict.get? d m).map fun v => match v with
    | .leaf _ => []
    | .node sub => sub.map fun t => (t.1, C.tensor t.2.arr) :=
  get?_map_val (fun v : Nested Arr => (match v with
    | .leaf _ => []
    | .node sub => sub.map fun t => (t.1, C.tensor t.2.arr) : Dict PyStr (Tensor K))) d m

theorem get?_arrs (C : Codec K) (d : DType) (log : GLog K) (m : PyStr) : Dict.get? (C.arrs d log) m = (Dict.get? log m).map fun v =>
    Nested.node (List.map (fun t : PyStr × Tensor K => (t.1, Nested.leaf (C.arr d t.2))) v) :=
  get?_map_val (fun v : Dict PyStr (Tensor K) => Nested.node (List.map (fun t : PyStr × Tensor K => (t.1, Nested.leaf (C.arr d t.2))) v)) log m

theorem get?_sub (C : Codec K) (d : DType) (sub : Dict PyStr (Tensor K)) (t : PyStr) :
    Dict.get? (List.map (fun t : PyStr × Tensor K => (t.1, Nested.leaf (C.arr d t.2))) sub) t = (Dict.get? sub t).map fun x => Nested.leaf (C.arr d x) :=
  get?_map_val (fun x : Tensor K => Nested.leaf (C.arr d x)) sub t

theorem keys_log (C : Codec K) (d : List (PyStr × Nested Arr)) : Dict.keys (C.log d) = Dict.keys d := by
  simp [Dict.keys, Codec.log]

theorem item_log (C : Codec K) {d : List (PyStr × Nested Arr)} (hwf : (Nested.node d).WF) (hsol : Nested.SolidList d)
    (hd : ∀ p a, (Nested.node d).lookup p = some a → p.length = 2) (m t : PyStr) :
    Spec.item (C.log d) m t = ((Nested.node d).lookup [m, t]).map C.tensor := by
  unfold Spec.item
  rw [get?_log, lookup_node_cons]
  cases hm : Dict.get? d m with
  | none => rfl
  | some v =>
    cases v with
    | leaf a =>
      have := hd [m] a (by rw [lookup_node_cons, hm]; rfl)
      simp at this
    | node sub =>
      simp only [Option.map_some, Option.bind_some]
      rw [get?_map_val (fun v : Nested Arr => C.tensor v.arr) sub t, lookup_node_cons]
      cases ht : Dict.get? sub t with
      | none => rfl
      | some w =>
        cases w with
        | leaf a => rfl
        | node x =>
          have h1 := (WF_node_iff.1 hwf).2 _ (Dict.mem_of_get? _ hm)
          have h2 := (WF_node_iff.1 h1).2 _ (Dict.mem_of_get? _ ht)
          have h3 := solidList_iff.1 hsol _ (Dict.mem_of_get? _ hm)
          simp only [Nested.Solid] at h3
          have h4 := solidList_iff.1 h3.2 _ (Dict.mem_of_get? _ ht)
          obtain ⟨q, a, hq⟩ := Nested.Solid.hasLeaf _ h2 h4
          have := hd (m :: t :: q) a (by rw [lookup_node_cons, hm]; simp only [Option.bind_some]; rw [lookup_node_cons, ht]; exact hq)
          cases q with
          | nil => cases hq
          | cons k q => simp at this

theorem lookup_arrs (C : Codec K) (d : DType) (log : GLog K) (m t : PyStr) :
    (Nested.node (C.arrs d log)).lookup [m, t] = (Spec.item log m t).map (C.arr d) := by
  unfold Spec.item
  rw [lookup_node_cons, get?_arrs]
  cases Dict.get? log m with
  | none => rfl
  | some sub =>
    simp only [Option.map_some, Option.bind_some]
    rw [lookup_node_cons, get?_sub]
    cases Dict.get? sub t with
    | none => rfl
    | some x => rfl

theorem lookup_arrs_some {C : Codec K} {d : DType} {log : GLog K} {p : Path} {a : Arr} (h : (Nested.node (C.arrs d log)).lookup p = some a) :
    ∃ m t x, p = [m, t] ∧ Spec.item log m t = some x ∧ a = C.arr d x := by
  match p, h with
  | [], h => cases h
  | [m], h =>
    rw [lookup_node_cons, get?_arrs] at h
    cases hm : Dict.get? log m with
    | none => rw [hm] at h; cases h
    | some sub => rw [hm] at h; cases h
  | [m, t], h =>
    rw [lookup_arrs] at h
    cases hx : Spec.item log m t with
    | none => rw [hx] at h; cases h
    | some x => rw [hx] at h; cases h; exact ⟨m, t, x, rfl, hx, rfl⟩
  | m :: t :: u :: q, h =>
    rw [lookup_node_cons, get?_arrs] at h
    cases hm : Dict.get? log m with
    | none => rw [hm] at h; cases h
    | some sub =>
      rw [hm] at h
      simp only [Option.map_some] at h
      simp only [Option.bind_some] at h
      rw [lookup_node_cons, get?_sub] at h
      cases ht : Dict.get? sub t with
      | none => rw [ht] at h; cases h
      | some x => rw [ht] at h; cases h

/-- A batch of the plan is one that the saver can take. -/
theorem planBatch_good {C : Codec K} {d : DType} {order : List Path} {shape : PyStr → PyStr → List Nat} (hp : Spec.LogPlan order shape) {ids : List PyStr} {log : GLog K}
    (h : Spec.PlanBatch C d order shape ids log) : Spec.GoodBatch order 2 ids (C.arrs d log) := by
  refine ⟨?_, ?_, ?_, ?_, ⟨d, ?_⟩, ?_⟩
  · rw [WF_node_iff]
    refine ⟨by unfold Dict.keys Codec.arrs; rw [List.map_map]; exact h.modules, fun kv hkv => ?_⟩
    obtain ⟨m, hm, rfl⟩ := List.mem_map.1 hkv
    rw [WF_node_iff]
    refine ⟨by unfold Dict.keys; rw [List.map_map]; exact h.types m hm, fun kv hkv => ?_⟩
    obtain ⟨t, -, rfl⟩ := List.mem_map.1 hkv
    trivial
  · intro kv hkv
    obtain ⟨m, hm, rfl⟩ := List.mem_map.1 hkv
    intro kv hkv
    obtain ⟨t, -, rfl⟩ := List.mem_map.1 hkv
    trivial
  · intro p a ha
    obtain ⟨m, t, x, rfl, hx, rfl⟩ := lookup_arrs_some ha
    obtain ⟨s, hs⟩ := h.rows m t x hx
    exact ⟨_, s, hs, Nat.le_refl _⟩
  · intro p hpo
    obtain ⟨m, t, rfl⟩ := hp.pairs p hpo
    obtain ⟨x, hx, hs⟩ := h.watched m t hpo
    refine ⟨C.arr d x, by rw [lookup_arrs, hx]; rfl, ?_⟩
    have := hp.dims m t hpo
    show 2 ≤ x.shape.length
    rw [hs]
    cases hh : shape m t with
    | nil => exact absurd hh this
    | cons a b => simp
  · intro p _ a ha
    obtain ⟨m, t, x, rfl, hx, rfl⟩ := lookup_arrs_some ha
    rfl
  · obtain ⟨m, t, h1, h2⟩ := hp.some
    obtain ⟨x, hx, hs⟩ := h.watched m t h1
    refine ⟨[m, t], h1, C.arr d x, by rw [lookup_arrs, hx]; rfl, ?_⟩
    show numel x.shape.tail ≠ 0
    rw [hs]; exact h2

theorem plan_goodOrder {order : List Path} {shape : PyStr → PyStr → List Nat} (hp : Spec.LogPlan order shape) : Spec.GoodOrder order := by
  refine ⟨?_, ?_, ?_⟩
  · obtain ⟨m, t, h, -⟩ := hp.some
    intro he; rw [he] at h; cases h
  · intro p hpo
    obtain ⟨m, t, rfl⟩ := hp.pairs p hpo
    simp
  · have key : ∀ p q : Path, p ∈ order → q ∈ order → p ≠ q → ¬ p <+: q := by
      intro p q h1 h2 hne hpre
      obtain ⟨m, t, rfl⟩ := hp.pairs p h1
      obtain ⟨m', t', rfl⟩ := hp.pairs q h2
      exact hne (hpre.eq_of_length rfl)
    refine List.Pairwise.imp_of_mem ?_ hp.nodup
    intro p q h1 h2 hne
    exact ⟨key p q h1 h2 hne, key q p h2 h1 hne.symm⟩

theorem history_saves (C : Codec K) (d : DType) : ∀ ops : List (LogOp K), Spec.history (ops.map (LogOp.saver C d)) =
    (Spec.saves ops).flatMap fun b => Spec.batchViews b.1 (C.arrs d b.2)
  | [] => rfl
  | .save ids log :: ops => by simp only [List.map_cons, LogOp.saver, Spec.history, Spec.saves, List.flatMap_cons, history_saves C d ops]
  | .finalize :: ops => by simp only [List.map_cons, LogOp.saver, Spec.history, Spec.saves, history_saves C d ops]

theorem batchViews_ids (ids : List PyStr) (log : List (PyStr × Nested Arr)) : (Spec.batchViews ids log).map Prod.fst = ids := by
  unfold Spec.batchViews
  rw [List.map_map]
  have : (Prod.fst ∘ fun x : PyStr × Nat => (x.1, Spec.rowView log x.2)) = Prod.fst := rfl
  rw [this, List.zipIdx_map_fst]

theorem batchViews_length (ids : List PyStr) (log : List (PyStr × Nested Arr)) : (Spec.batchViews ids log).length = ids.length := by
  have := congrArg List.length (batchViews_ids ids log)
  simpa using this

theorem history_ids (C : Codec K) (d : DType) (ops : List (LogOp K)) : (Spec.history (ops.map (LogOp.saver C d))).map Prod.fst = (Spec.saves ops).flatMap (·.1) := by
  rw [history_saves, List.map_flatMap]
  congr 1
  funext b
  exact batchViews_ids _ _

/-- The sample at a position of the history is a row of a saved batch. -/
theorem history_get (C : Codec K) (d : DType) (ops : List (LogOp K)) {g : Nat} (hg : g < (Spec.history (ops.map (LogOp.saver C d))).length) :
    ∃ l b r j, Spec.saves ops = l ++ b :: r ∧ ∃ hj : j < b.1.length, g = (l.flatMap (·.1)).length + j ∧
      (Spec.history (ops.map (LogOp.saver C d)))[g] = (b.1[j], Spec.rowView (C.arrs d b.2) j) := by
  have key : ∀ (S : List (List PyStr × GLog K)) (g : Nat) (hg : g < (S.flatMap fun b => Spec.batchViews b.1 (C.arrs d b.2)).length),
      ∃ l b r j, S = l ++ b :: r ∧ ∃ hj : j < b.1.length, g = (l.flatMap (·.1)).length + j ∧
        (S.flatMap fun b => Spec.batchViews b.1 (C.arrs d b.2))[g] = (b.1[j], Spec.rowView (C.arrs d b.2) j) := by
    intro S
    induction S with
    | nil => intro g hg; simp at hg
    | cons b S ih =>
      intro g hg
      by_cases hlt : g < b.1.length
      · refine ⟨[], b, S, g, rfl, hlt, by simp, ?_⟩
        have : g < (Spec.batchViews b.1 (C.arrs d b.2)).length := by rw [batchViews_length]; exact hlt
        simp only [List.flatMap_cons]
        rw [List.getElem_append_left this]
        simp [Spec.batchViews]
      · have hlen := batchViews_length b.1 (C.arrs d b.2)
        rw [List.flatMap_cons, List.length_append, hlen] at hg
        obtain ⟨l, b', r, j, rfl, hj, h1, h2⟩ := ih (g - b.1.length) (by omega)
        refine ⟨b :: l, b', r, j, rfl, hj, by rw [List.flatMap_cons, List.length_append]; omega, ?_⟩
        simp only [List.flatMap_cons] at h2 ⊢
        rw [List.getElem_append_right (by omega)]
        simp only [hlen]
        exact h2
  simp only [history_saves] at hg ⊢
  exact key _ g hg

end Logix
