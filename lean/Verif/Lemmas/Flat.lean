/-
Flat rows: the stored bytes read as one vector, and `flatten_log`.
-/
import Verif.Lemmas.Stored
import Verif.Lemmas.Returns

set_option linter.unusedSectionVars false

namespace Logix
open Spec
variable {K : Type}

/-! ### bytes in a row -/

/-- The numbers in a piece of memory. -/
def Codec.read (C : Codec K) (D : DType) (n : Nat) (bytes : List UInt8) : List K :=
  (List.range n).map fun i => C.dec D ((bytes.drop (i * D.itemsize)).take D.itemsize)

theorem tensor_data (C : Codec K) (a : Arr) : (C.tensor a).data = C.read a.dtype (numel a.shape) a.bytes := rfl

theorem read_append (C : Codec K) (D : DType) {n : Nat} (m : Nat) {x : List UInt8} (y : List UInt8) (hx : x.length = n * D.itemsize) :
    C.read D (n + m) (x ++ y) = C.read D n x ++ C.read D m y := by
  unfold Codec.read
  rw [List.range_add, List.map_append, List.map_map]
  congr 1
  · apply List.map_congr_left
    intro i hi
    have hi' : (i + 1) * D.itemsize ≤ n * D.itemsize := Nat.mul_le_mul_right _ (List.mem_range.1 hi)
    rw [Nat.add_mul, Nat.one_mul] at hi'
    rw [List.drop_append_of_le_length (by omega), List.take_append_of_le_length (by rw [List.length_drop]; omega)]
  · apply List.map_congr_left
    intro i _
    simp only [Function.comp]
    rw [Nat.add_mul, ← hx, List.drop_append, List.drop_of_length_le (by omega), List.nil_append, Nat.add_sub_cancel_left]

theorem read_flat (C : Codec K) (D : DType) : ∀ arrs : List Arr, (∀ a ∈ arrs, a.dtype = D) →
    C.read D (arrs.map Arr.size).sum (arrs.flatMap Arr.bytes) = arrs.flatMap fun a => (C.tensor a).data
  | [], _ => rfl
  | a :: arrs, h => by
    rw [List.map_cons, List.sum_cons, List.flatMap_cons, List.flatMap_cons, read_append C D _ _ (by rw [a.wf, h a (by simp)]; rfl),
      read_flat C D arrs fun a ha => h a (List.mem_cons_of_mem _ ha), tensor_data, h a (by simp)]
    rfl

/-! ### rows of a matrix -/

/-- The first `n` entries of row `i`. -/
def rowList [Zero K] (t : Tensor K) (i n : Nat) : List K := (List.range n).map fun c => t.el [i, c]

theorem data_el [Zero K] (t : Tensor K) : t.data = (indices t.shape).map t.el := by
  have := congrArg Tensor.data (Tensor.ofFn_el t)
  exact this.symm

theorem indices_one (n : Nat) : indices [n] = (List.range n).map fun c => [c] := by
  simp only [indices, List.map_cons, List.map_nil]
  induction List.range n with
  | nil => rfl
  | cons x l ih => simp [ih]

theorem rowList_data [Zero K] (C : Codec K) {a r : Arr} {i n : Nat} (h : a.row i = .ok r) (hr : r.shape = [n]) : rowList (C.tensor a) i n = (C.tensor r).data := by
  rw [data_el]
  show _ = (indices r.shape).map _
  rw [hr, indices_one, List.map_map]
  apply List.map_congr_left
  intro c hc
  exact tensor_row C h (by rw [hr]; simpa [inRange] using hc)

theorem dot_rowList [Semiring K] (a b : Tensor K) (i j n : Nat) : Spec.dot [n] (row a i) (row b j) = inner (rowList a i n) (rowList b j n) := by
  unfold rowList
  rw [inner_map]
  unfold Spec.dot
  rw [indices_one, List.map_map]
  rfl

theorem rowList_onDev [Zero K] (t : Tensor K) (dev : Dev) (i n : Nat) : rowList (t.onDev dev) i n = rowList t i n := rfl

/-! ### a stored sample as one vector -/

/-- The numbers of a sample, and how many there are. -/
theorem sample_flat [Zero K] {C : Codec K} {v : Nested Arr} {e : GLog K} {i : Nat} {size : PyStr → Nat} : ∀ {mods : List PyStr},
    (∀ m ∈ mods, ∃ a h, v.lookup [m, LogType.name .grad] = some a ∧ a.size = size m ∧ Spec.grad e m = some h ∧
      (C.tensor a).data = (indices h.shape.tail).map (row h i)) →
    ((arrays (gradOrder mods) v).flatMap fun a => (C.tensor a).data) = flatGrad mods e i ∧
      ((arrays (gradOrder mods) v).map Arr.size).sum = (mods.map size).sum
  | [], _ => ⟨rfl, rfl⟩
  | m :: mods, h => by
    obtain ⟨a, t, h1, h2, h3, h4⟩ := h m (by simp)
    obtain ⟨ih1, ih2⟩ := sample_flat (mods := mods) fun m hm => h m (List.mem_cons_of_mem _ hm)
    unfold arrays gradOrder at ih1 ih2 ⊢
    rw [List.map_cons, List.filterMap_cons, h1]
    simp only [List.flatMap_cons, List.map_cons, List.sum_cons, ih1, ih2, h2]
    refine ⟨?_, trivial⟩
    unfold flatGrad
    rw [List.flatMap_cons, h3, h4]

/-- Row `j` of batch `k` of the flat loader is the concatenated gradient of its sample. -/
theorem flat_batch [Zero K] {C : Codec K} {d : DType} {mods : List PyStr} {shape : PyStr → PyStr → List Nat} {S : List (List PyStr × GLog K)}
    {es : List (PyStr × Nested Arr)}
    (hS : ∀ (g : Nat) (hg : g < es.length), SampleOf C d (gradOrder mods) shape S g es[g]) {b : Nat} {bs : List (List PyStr × Arr)}
    (hy : YieldsFlat (gradOrder mods) es b bs) {allIds : List PyStr} {e : GLog K} (hB : Batches S allIds e)
    (hm : ∀ m ∈ mods, m ∈ Dict.keys e) (k : Nat) (hk : k < bs.length) :
    (C.tensor bs[k].2).shape = [bs[k].1.length, (mods.map fun m => numel (shape m (LogType.name .grad))).sum] ∧
      ∀ j, j < bs[k].1.length → rowList (C.tensor bs[k].2) j (mods.map fun m => numel (shape m (LogType.name .grad))).sum = flatGrad mods e (k * b + j) := by
  have key : ∀ j, j < bs[k].1.length → ∃ r, bs[k].2.row j = .ok r ∧ r.shape = [(mods.map fun m => numel (shape m (LogType.name .grad))).sum] ∧
      (C.tensor r).data = flatGrad mods e (k * b + j) := by
    intro j hj
    obtain ⟨hlt, -, r, h1, h2, h3, h4⟩ := hy.rows k hk j hj
    obtain ⟨lS, bS, rS, jS, s1, hjS, s2, -, hpb, s3⟩ := hS _ hlt
    obtain ⟨f1, f2⟩ := sample_flat (C := C) (v := es[k * b + j].2) (e := e) (i := k * b + j) (size := fun m => numel (shape m (LogType.name .grad))) (mods := mods) (by
      intro m hmm
      have hmo : [m, LogType.name .grad] ∈ gradOrder mods := List.mem_map.2 ⟨m, hmm, rfl⟩
      obtain ⟨x, a, g1, g2, g3, g4⟩ := s3 _ _ hmo
      obtain ⟨g, h, p1, p2, p3, p4⟩ := hB.2 lS bS rS s1 jS hjS m (hm m hmm)
      rw [grad_item, g1] at p1
      cases p1
      have hex := hpb.exact _ _ _ hmo g1
      obtain ⟨-, e2, -⟩ := row_spec g4
      have e2' : a.shape = x.shape.tail := e2
      refine ⟨a, h, g3, ?_, p2, ?_⟩
      · show numel a.shape = _
        rw [e2', g2]; rfl
      · rw [data_el]
        show (indices a.shape).map _ = _
        rw [e2', p3]
        apply List.map_congr_left
        intro idx hidx
        have hin : inRange a.shape idx = true := by rw [e2', p3]; exact (mem_indices _ _).1 hidx
        have hin' : inRange x.shape (jS :: idx) = true := by
          rw [g2]
          rw [e2', g2] at hin
          simp only [inRange, Bool.and_eq_true, decide_eq_true_eq]
          exact ⟨hjS, hin⟩
        rw [← tensor_row C g4 hin, tensor_arr C d x hex hin', s2]
        exact (p4 idx hidx).symm)
    refine ⟨r, h1, by rw [h3, f2], ?_⟩
    rw [tensor_data, h3, h2]
    have : numel [((arrays (gradOrder mods) es[k * b + j].2).map Arr.size).sum] =
        ((arrays (gradOrder mods) es[k * b + j].2).map Arr.size).sum := by simp [numel]
    rw [this, read_flat C r.dtype _ h4, f1]
  refine ⟨?_, fun j hj => ?_⟩
  · obtain ⟨-, hne, hhead⟩ := hy.size k hk
    obtain ⟨r, h1, h2, -⟩ := key 0 (List.length_pos_of_ne_nil hne)
    obtain ⟨n, h3, -⟩ := row_shape h1
    show bs[k].2.shape = _
    rw [h3] at hhead ⊢
    cases hhead
    rw [h2]
  · obtain ⟨r, h1, h2, h3⟩ := key j hj
    rw [rowList_data C h1 h2, h3]

/-! ### flatten_log -/

theorem mapM_ok {α β : Type} {f : α → Py β} : ∀ {l : List α} {r : List β}, l.mapM f = .ok r → List.Forall₂ (fun a b => f a = .ok b) l r
  | [], r, h => by cases h; exact .nil
  | a :: l, r, h => by
    rw [List.mapM_cons] at h
    cases ha : f a with
    | error e => rw [ha] at h; cases h
    | ok b =>
      rw [ha] at h
      cases hl : l.mapM f with
      | error e => rw [hl] at h; cases h
      | ok bs => rw [hl] at h; cases h; exact .cons ha (mapM_ok hl)

theorem mapM_returns {α β : Type} {f : α → Py β} : ∀ {l : List α}, (∀ a ∈ l, ∃ b, f a = .ok b) → ∃ r, l.mapM f = .ok r
  | [], _ => ⟨[], rfl⟩
  | a :: l, h => by
    obtain ⟨b, hb⟩ := h a (by simp)
    obtain ⟨r, hr⟩ := mapM_returns (l := l) fun a ha => h a (List.mem_cons_of_mem _ ha)
    exact ⟨b :: r, by rw [List.mapM_cons, hb, hr]; rfl⟩

theorem logItem_some {d : GLog K} {m : PyStr} {g : Tensor K} (h : logItem d m (LogType.name .grad) = .ok g) : Spec.grad d m = some g := by
  unfold logItem at h
  unfold Spec.grad
  split at h
  · cases h
  · next sub hs =>
    split at h
    · cases h
    · next x hx => cases h; rw [hs, Option.bind_some, hx]

theorem make2d_row [Zero K] {g x : Tensor K} (h : make2d g none .grad = .ok x) : ∃ n r, g.shape = n :: r ∧ x.shape = [n, numel r] ∧ x.dev = g.dev ∧
    ∀ i, i < n → rowList x i (numel r) = (indices r).map (row g i) := by
  obtain ⟨n, r, h1, -, h2, h3, h4⟩ := make2d_none_ok h
  refine ⟨n, r, h1, h2, h3, fun i hi => ?_⟩
  unfold rowList
  rw [← map_ravel_indices, List.map_map]
  apply List.map_congr_left
  intro idx hidx
  exact h4 i idx hi ((mem_indices _ _).1 hidx)

theorem getD_range [Zero K] (l : List K) : ((List.range l.length).map fun j => l.getD j 0) = l := by
  apply List.ext_getElem (by simp)
  intro i h1 h2
  simp [List.getElem?_eq_getElem h2]

theorem ofFn2_row [Zero K] (dev : Dev) {n m i : Nat} (hi : i < n) (f : Nat → Nat → K) : rowList (Tensor.ofFn2 dev n m f) i m = (List.range m).map (f i) := by
  unfold rowList
  apply List.map_congr_left
  intro c hc
  exact Tensor.el_ofFn2 _ _ _ _ hi (List.mem_range.1 hc)

/-- `flatten_log` of gradients puts the gradients of a sample one after another. -/
theorem flattenLog_ok [Zero K] {p : GLog K} {mods : List PyStr} {a : Tensor K} (h : flattenLog p (mods.map fun m => (m, LogType.name .grad)) = .ok a) :
    ∃ n D, a.shape = [n, D] ∧ mods ≠ [] ∧ (∀ m ∈ mods, ∃ g r, Spec.grad p m = some g ∧ g.shape = n :: r ∧ g.dev = a.dev) ∧
      ∀ i, i < n → rowList a i D = flatGrad mods p i := by
  unfold flattenLog at h
  split at h
  · cases h
  · cases h
  · next t ts hm =>
    split at h
    · next hall =>
      cases h
      have hf := mapM_ok hm
      have hu : ∀ u ∈ t :: ts, u.size 0 = t.size 0 ∧ u.dev = t.dev := by
        intro u hu
        rcases List.mem_cons.1 hu with rfl | hu
        · exact ⟨rfl, rfl⟩
        · simpa using (List.all_eq_true.1 hall) u hu
      have key : ∀ {ms : List PyStr} {us : List (Tensor K)}, (∀ u ∈ us, u.size 0 = t.size 0 ∧ u.dev = t.dev) →
          List.Forall₂ (fun (q : PyStr × PyStr) b => ((logItem p q.1 q.2).bind fun t => make2d t none .grad) = .ok b) (ms.map fun m => (m, LogType.name .grad)) us →
          (∀ m ∈ ms, ∃ g r, Spec.grad p m = some g ∧ g.shape = t.size 0 :: r ∧ g.dev = t.dev) ∧
          ∀ i, i < t.size 0 → (us.flatMap fun u => rowList u i (u.size 1)) = flatGrad ms p i := by
        intro ms
        induction ms with
        | nil => intro us _ hf; cases hf; exact ⟨fun m hm => (by cases hm), fun i _ => rfl⟩
        | cons m ms ih =>
          intro us hus hf
          cases hf with
          | cons h1 hrest =>
            rename_i u us
            obtain ⟨ih1, ih2⟩ := ih (fun v hv => hus v (List.mem_cons_of_mem _ hv)) hrest
            cases hg : logItem p m (LogType.name .grad) with
            | error e => simp only [hg] at h1; cases h1
            | ok g =>
              simp only [hg] at h1
              have h1' : make2d g none .grad = .ok u := h1
              obtain ⟨n, r, k1, k2, k3, k4⟩ := make2d_row h1'
              have hn : n = t.size 0 := by
                rw [← (hus u (by simp)).1]
                simp [Tensor.size, k2]
              subst hn
              refine ⟨?_, fun i hi => ?_⟩
              · intro m' hm'
                rcases List.mem_cons.1 hm' with rfl | hm'
                · exact ⟨g, r, logItem_some hg, k1, k3.symm.trans (hus u (by simp)).2⟩
                · exact ih1 m' hm'
              · rw [List.flatMap_cons, ih2 i hi]
                have : u.size 1 = numel r := by simp [Tensor.size, k2]
                rw [this, k4 i hi]
                unfold flatGrad
                rw [List.flatMap_cons, logItem_some hg]
                simp only [k1, List.tail_cons]
      obtain ⟨k1, k2⟩ := key hu hf
      refine ⟨t.size 0, _, rfl, ?_, k1, fun i hi => ?_⟩
      · rintro rfl
        cases hf
      · rw [ofFn2_row _ hi, ← k2 i hi]
        have hlen : (((t :: ts).map fun u => u.size 1).sum) = ((t :: ts).flatMap fun u => rowList u i (u.size 1)).length := by
          rw [List.length_flatMap]
          congr 1
          apply List.map_congr_left
          intro u _
          simp [rowList]
        rw [hlen]
        exact getD_range _
    · cases h

/-- `flatten_log` returns for gradients with the same positive number of samples on one device. -/
theorem flattenLog_returns [Zero K] {p : GLog K} {mods : List PyStr} {n : Nat} {dev : Dev} (hn : n ≠ 0) (hne : mods ≠ [])
    (h : ∀ m ∈ mods, ∃ g r, Spec.grad p m = some g ∧ g.shape = n :: r ∧ g.dev = dev) :
    ∃ a, flattenLog p (mods.map fun m => (m, LogType.name .grad)) = .ok a := by
  have hmk : ∀ g : Tensor K, ∀ r, g.shape = n :: r → ∃ x, make2d g none .grad = .ok x ∧ x.size 0 = n ∧ x.dev = g.dev := by
    intro g r hg
    unfold make2d
    simp only [hg]
    have h0 : numel [n] * numel [] = n := by simp [numel]
    rw [reshapeInfer_eq g [n] [] (numel r) (by rw [h0]; exact hn) (by rw [h0, hg, numel_cons])]
    unfold Tensor.reshape
    have h2 : numel g.shape = numel ([n] ++ [numel r]) := by
      show _ = numel [n, numel r]
      rw [hg, numel_cons, numel_cons, numel_cons, numel_nil, Nat.mul_one]
    rw [dif_pos h2]
    exact ⟨_, rfl, rfl, rfl⟩
  obtain ⟨ts, hts⟩ := mapM_returns (f := fun q : PyStr × PyStr => (logItem p q.1 q.2).bind fun t => make2d t none .grad)
    (l := mods.map fun m => (m, LogType.name .grad)) (by
      intro q hq
      obtain ⟨m, hm, rfl⟩ := List.mem_map.1 hq
      obtain ⟨g, r, h1, h2, -⟩ := h m hm
      obtain ⟨x, hx, -⟩ := hmk g r h2
      exact ⟨x, by simp only [logItem_grad h1]; exact hx⟩)
  have hall : ∀ u ∈ ts, u.size 0 = n ∧ u.dev = dev := by
    intro u hu
    obtain ⟨hl, hget⟩ := List.forall₂_iff_get.1 (mapM_ok hts)
    obtain ⟨i, hi, rfl⟩ := List.getElem_of_mem hu
    have hq := List.getElem_mem (l := mods.map fun m => (m, LogType.name .grad)) (by rw [hl]; exact hi)
    have hqu := hget i (by rw [hl]; exact hi) hi
    obtain ⟨m, hm, hmq⟩ := List.mem_map.1 hq
    obtain ⟨g, r, h1, h2, h3⟩ := h m hm
    obtain ⟨x, hx, hx1, hx2⟩ := hmk g r h2
    simp only [List.get_eq_getElem] at hqu
    rw [← hmq] at hqu
    simp only [logItem_grad h1] at hqu
    have hqu' : make2d g none .grad = .ok ts[i] := hqu
    rw [hx] at hqu'
    obtain rfl := Except.ok.inj hqu'
    exact ⟨hx1, hx2.trans h3⟩
  unfold flattenLog
  rw [hts]
  cases ts with
  | nil =>
    have := (mapM_ok hts).length_eq
    simp only [List.length_map, List.length_nil, List.length_eq_zero_iff] at this
    exact absurd this hne
  | cons t ts =>
    simp only
    rw [if_pos]
    · exact ⟨_, rfl⟩
    · rw [List.all_eq_true]
      intro u hu
      obtain ⟨a1, a2⟩ := hall u (List.mem_cons_of_mem _ hu)
      obtain ⟨b1, b2⟩ := hall t (by simp)
      simp [a1, a2, b1, b2]

/-! ### preconditioning leaves the paths alone -/

theorem precondition_paths [Field K] {L : Lib K} {s s' : LState K} {src o : LogArg K} {hessian : Hess} {damping : Option K}
    (h : precondition L s src hessian damping = .ok (s', o)) : Dict.get? s'.attrs nModelModule = Dict.get? s.attrs nModelModule := by
  unfold precondition at h
  split at h
  · cases h
  · cases src with
    | flat t => cases h
    | dict d =>
      simp only at h
      split at h
      · cases h
      · next cov hcov =>
        split at h
        · cases h; rfl
        · split at h
          · cases h
          · next raw hraw =>
            cases raw with
            | true =>
              rw [if_pos rfl] at h
              unfold preconditionRaw at h
              split at h
              · cases h
              · next s₁ out hr =>
                cases h
                split at hr
                · cases hr
                · next s₂ inv hinv =>
                  split at hr
                  · cases hr
                  · cases hr
                    unfold LState.getCovarianceInverse at hinv
                    split at hinv
                    · cases hinv
                    · next s₃ hs =>
                      split at hinv
                      · cases hinv
                      · cases hinv
                        split at hs
                        · cases hs; rfl
                        · unfold LState.covarianceInverse at hs
                          simp only at hs
                          split at hs
                          · split at hs
                            · cases hs
                            · cases hs
                              rw [get?_setAttr, if_neg (by decide), registerState_frame _ _ _ _ _ _ (by decide)]
                          · cases hs
            | false =>
              simp only [Bool.false_eq_true, if_false] at h
              unfold preconditionKfac at h
              split at h
              · cases h
              · next s₁ out hr =>
                cases h
                split at hr
                · cases hr
                · next s₂ n hsvd =>
                  split at hr
                  · split at hr
                    · cases hr
                    · cases hr
                      unfold LState.getCovarianceSvd at hsvd
                      split at hsvd
                      · cases hsvd
                      · next s₃ hs =>
                        cases hsvd
                        have hn : (if s₂.hasAttr nEkfac = true then nEkfac else nEigval) ≠ nModelModule := by
                          split <;> decide
                        rw [get?_setAttr, if_neg hn]
                        split at hs
                        · cases hs; rfl
                        · exact (covarianceSvd_frame L hs).2 _ (by decide) (by decide)
                  · cases hr

/-! ### one flat batch -/

theorem rawScores_flat [Semiring K] {s : LState K} {mods : List PyStr} (hs : PathIs s mods) (p : GLog K) (t : Tensor K) {groups : Option (List PyStr)}
    (hg : groups.getD [] = []) : rawScores s (.dict p) (.flat t) groups =
      match flattenLog p (mods.map fun m => (m, LogType.name .grad)) with
      | .error e => .error e
      | .ok a =>
        match crossDot a (t.onDev a.dev) with
        | .error e => .error e
        | .ok u => .ok ([(nTotal, some u)], .flat t) := by
  obtain ⟨mm, h1, h2⟩ := hs
  unfold rawScores
  simp only [h1, h2, hg]
  cases flattenLog p (mods.map fun m => (m, LogType.name .grad)) with
  | error e => rfl
  | ok a =>
    simp only
    cases crossDot a (t.onDev a.dev) with
    | error e => rfl
    | ok u =>
      have h0 : scoreOp (fun x1 x2 : K => x1 + x2) none u = .ok u := by
        unfold scoreOp
        simp only [zero_add]
        rw [Tensor.ofFn_el]
      simp [initScores, addScores, Dict.set, h0]

/-- A call with a flat target. -/
theorem flat_call [Field K] {L : Lib K} {sqrt : K → K} {s s' : LState K} {ids tids mods : List PyStr} {p : GLog K} {t : Tensor K} {hessian : Hess}
    {groups : Option (List PyStr)} {damping : Option K} {v : IFResult K} (hs : PathIs s mods) (hg : groups.getD [] = [])
    (h : computeInfluence L sqrt s ids (.dict p) tids (.flat t) .dot false hessian groups damping = .ok (s', v)) :
    ∃ a u, flattenLog p (mods.map fun m => (m, LogType.name .grad)) = .ok a ∧ crossDot a (t.onDev a.dev) = .ok u ∧ u.shape = [ids.length, tids.length] ∧
      v.influence.get? nTotal = some (u.onDev .cpu) := by
  obtain ⟨s₁, src', sc, tgt', sc₂, d, h1, hraw, hmode, hc, hf, -, -⟩ := computeInfluence_parts h
  simp only [Bool.false_eq_true, if_false] at h1
  cases h1
  rw [rawScores_flat hs p t hg] at hraw
  have : sc₂ = sc := by
    unfold modeScores at hmode
    rw [if_pos rfl] at hmode
    cases hmode; rfl
  subst this
  split at hraw
  · cases hraw
  · next a ha =>
    split at hraw
    · cases hraw
    · next u hu =>
      cases hraw
      unfold checkScores at hc
      split at hc
      · next hsh =>
        simp only [checkScores] at hc
        cases hc
        refine ⟨a, u, ha, hu, hsh, ?_⟩
        cases groups with
        | none => rw [← Except.ok.inj hf]; rfl
        | some gs => rw [← Except.ok.inj hf]; rfl
      · cases hc

/-- A call with a flat target returns. -/
theorem flat_returns [Field K] {L : Lib K} {sqrt : K → K} {s : LState K} {ids tids mods : List PyStr} {p : GLog K} {t a u : Tensor K} {hessian : Hess}
    {groups : Option (List PyStr)} {damping : Option K} (hs : PathIs s mods) (hg : groups.getD [] = [])
    (ha : flattenLog p (mods.map fun m => (m, LogType.name .grad)) = .ok a) (hu : crossDot a (t.onDev a.dev) = .ok u) (hsh : u.shape = [ids.length, tids.length]) :
    ∃ v, computeInfluence L sqrt s ids (.dict p) tids (.flat t) .dot false hessian groups damping = .ok (s, v) := by
  have hraw := rawScores_flat hs p t hg
  simp only [ha, hu] at hraw
  have hc : checkScores [ids.length, tids.length] [(nTotal, some u)] = .ok [(nTotal, u.onDev .cpu)] := by
    unfold checkScores
    simp [hsh, checkScores]
  obtain ⟨inf, hinf⟩ := finish_returns (groups := groups) (d := [(nTotal, u.onDev .cpu)]) (by simp [Dict.keys])
  exact ⟨_, computeInfluence_dot hraw hc hinf⟩

/-- The total of a call with everything in memory. -/
theorem total_sum [Field K] {L : Lib K} {sqrt : K → K} {s s' : LState K} {ids tids : List PyStr} {p e : GLog K} {hessian : Hess}
    {groups : Option (List PyStr)} {damping : Option K} {w : IFResult K} (hg : groups.getD [] = [])
    (hw : computeInfluence L sqrt s ids (.dict p) tids (.dict e) .dot false hessian groups damping = .ok (s', w)) (hp : Labelled ids p) (he : Labelled tids e) :
    ∃ x, w.influence.get? nTotal = some x ∧ x.shape = [ids.length, tids.length] ∧
      ∀ i j, i < ids.length → j < tids.length → x.el [i, j] = ((Dict.keys p).map fun m => moduleDot p i e j m).sum := by
  obtain ⟨H, H', s₁, -, h1, -, -, -, -, -, -, h6⟩ := computeInfluence_ok' hw hp he
  unfold PreOf at h1
  simp only [Bool.false_eq_true, if_false] at h1
  obtain ⟨rfl, rfl⟩ := h1
  obtain ⟨x, h2, -, h3, h4⟩ := h6 nTotal (.inl rfl)
  refine ⟨x, h2, h3, fun i j hi hj => ?_⟩
  rw [(h4 (.inl rfl)).2 i j hi hj]
  unfold scoreKeys
  rw [hg]
  simp only [modeFn, List.filter_nil, List.count_singleton_self, Nat.cast_one, one_mul]
  rfl

end Logix
