/-
C32: masked positions are ignored in forward statistics.
-/
import Verif.Props.Stats

namespace Logix
variable {K : Type}

theorem updates_append [Semiring K] (L : Lib K) : ∀ {a b : List (Plugin × StatCall K)} {s s1 s2 : LState K}, updates L s a = .ok s1 →
    updates L s1 b = .ok s2 → updates L s (a ++ b) = .ok s2 := by
  intro a
  induction a with
  | nil => intro b s s1 s2 h1 h2; cases h1; exact h2
  | cons x rest ih =>
    obtain ⟨p, c⟩ := x
    intro b s s1 s2 h1 h2
    unfold updates at h1
    split at h1
    · cases h1
    · next s' hs' =>
      rw [List.cons_append]
      unfold updates
      rw [hs']
      exact ih h1 h2

/-- The batch as the plugins see it. -/
def maskedCall [Semiring K] (c : StatCall K) : StatCall K :=
  match maskActivations c.mask c.data with
  | .ok a => { c with data := a, logType := .forward }
  | .error _ => c

theorem forwardHooks_updates [Semiring K] (L : Lib K) : ∀ {hs : List (List Plugin × StatCall K)} {s s' : LState K},
    forwardHooks L s hs = .ok s' → updates L s (hs.flatMap fun h => h.1.map fun p => (p, maskedCall h.2)) = .ok s' ∧
      ∀ h ∈ hs, ∃ a, maskActivations h.2.mask h.2.data = .ok a := by
  intro hs
  induction hs with
  | nil => intro s s' h; exact ⟨h, by simp⟩
  | cons x rest ih =>
    obtain ⟨ps, c⟩ := x
    intro s s' h
    unfold forwardHooks at h
    split at h
    · cases h
    · next s1 hs1 =>
      obtain ⟨g1, g2⟩ := ih h
      unfold forwardHook at hs1
      split at hs1
      · cases hs1
      · next a ha =>
        refine ⟨?_, fun x hx => ?_⟩
        · rw [List.flatMap_cons]
          refine updates_append L ?_ g1
          simp only [maskedCall, ha]
          exact hs1
        · rcases List.mem_cons.1 hx with rfl | hx
          · exact ⟨a, ha⟩
          · exact g2 x hx

theorem callsOf_hooks [Semiring K] (p : Plugin) (m : PyStr) : ∀ (hs : List (List Plugin × StatCall K)),
    (∀ h ∈ hs, ∃ a, maskActivations h.2.mask h.2.data = .ok a) →
    Spec.callsOf p m .forward (hs.flatMap fun h => h.1.map fun q => (q, maskedCall h.2)) =
      (Spec.callsOf p m .forward (Spec.hookCalls hs)).map maskedCall := by
  intro hs
  induction hs with
  | nil => intro _; rfl
  | cons x rest ih =>
    obtain ⟨ps, c⟩ := x
    intro h
    obtain ⟨a, ha⟩ := h _ List.mem_cons_self
    have key : ∀ ps : List Plugin, Spec.callsOf p m .forward (ps.map fun q => (q, maskedCall c)) =
        (Spec.callsOf p m .forward (ps.map fun q => (q, { c with logType := .forward }))).map maskedCall := by
      intro ps
      have hm : maskedCall c = maskedCall { c with logType := .forward } := by
        simp only at ha
        unfold maskedCall
        simp only [ha]
      have hn : (maskedCall c).name = c.name ∧ (maskedCall c).logType = .forward := by
        simp only at ha
        unfold maskedCall
        simp only [ha]
        exact ⟨trivial, trivial⟩
      induction ps with
      | nil => rfl
      | cons q ps ihp =>
        rw [List.map_cons, List.map_cons, ← List.singleton_append, ← List.singleton_append (l := List.map _ ps), callsOf_append, callsOf_append,
          List.map_append, ihp, callsOf_single, callsOf_single, hn.1, hn.2]
        simp only [and_true]
        split
        · rw [List.map_singleton, ← hm]
        · rfl
    have ih' := ih fun h' hh => h h' (List.mem_cons_of_mem _ hh)
    unfold Spec.hookCalls at ih' ⊢
    rw [List.flatMap_cons, List.flatMap_cons, callsOf_append, callsOf_append, List.map_append, ih', key]

theorem data_eq [Zero K] (t : Tensor K) : t.data = (indices t.shape).map t.el := by
  apply List.ext_getElem?
  intro n
  by_cases hn : n < numel t.shape
  · have hl : n < (indices t.shape).length := by rw [indices_length]; exact hn
    have hmem : (indices t.shape)[n] ∈ indices t.shape := List.getElem_mem hl
    have hr := (mem_indices _ _).1 hmem
    have hrav : ravel t.shape ((indices t.shape)[n]) = n := by
      have := congrArg (fun l => l[n]?) (map_ravel_indices t.shape)
      simp only [List.getElem?_map, List.getElem?_eq_getElem hl, List.getElem?_range hn, Option.map_some, Option.some.injEq] at this
      exact this
    rw [List.getElem?_map, List.getElem?_eq_getElem hl, Option.map_some, Tensor.el, if_pos hr, hrav]
    rw [List.getElem?_eq_getElem (by rw [t.wf]; exact hn)]
    simp [List.getD, List.getElem?_eq_getElem (show n < t.data.length by rw [t.wf]; exact hn)]
  · rw [List.getElem?_eq_none (by rw [t.wf]; omega), List.getElem?_eq_none (by rw [List.length_map, indices_length]; omega)]

/-- Summing over positions weighted with a mask of zeros and ones is summing over the kept positions. -/
theorem sum_mask [Semiring K] [DecidableEq K] (f g : List Nat → K) (l : List (List Nat)) (hg : ∀ p ∈ l, g p = 0 ∨ g p = 1) :
    (l.map fun p => g p * f p).sum = ((l.filter fun p => g p = 1).map f).sum := by
  induction l with
  | nil => rfl
  | cons p rest ih =>
    have ih' := ih fun q hq => hg q (List.mem_cons_of_mem _ hq)
    rw [List.map_cons, List.sum_cons, ih']
    by_cases h1 : g p = 1
    · rw [List.filter_cons_of_pos (by simp [h1]), List.map_cons, List.sum_cons, h1, one_mul]
    · have h0 : g p = 0 := by
        rcases hg p List.mem_cons_self with h | h
        · exact h
        · exact absurd h h1
      rw [List.filter_cons_of_neg (by simp [h1]), h0, zero_mul, zero_add]

theorem count_mask [Semiring K] [DecidableEq K] (g : List Nat → K) (l : List (List Nat)) (hg : ∀ p ∈ l, g p = 0 ∨ g p = 1) :
    (l.map g).sum = ((l.filter fun p => g p = 1).length : K) := by
  have := sum_mask (fun _ => 1) g l hg
  simp only [mul_one] at this
  rw [this]
  simp

/-- One masked batch. -/
theorem masked_batch [Semiring K] [DecidableEq K] {c : StatCall K} (h : Spec.Masked c) {a : Tensor K}
    (ha : maskActivations c.mask c.data = .ok a) : batchCount (maskedCall c) = ((Spec.keptRows c).length : K) ∧
      Spec.callWidth (maskedCall c) = c.data.shape.getLastD 0 ∧
      ∃ mk, c.mask = some mk ∧ (∀ p, mk.el p = 0 ∨ mk.el p = 1) ∧
      ∀ f : (Nat → K) → K, (∀ r r' : Nat → K, (∀ j, j < c.data.shape.getLastD 0 → r j = r' j) → f r = f r') →
        ((Spec.callRows (maskedCall c)).map f).sum =
          ((indices mk.shape).map fun p => f fun j => mk.el p * c.data.el (p ++ [j])).sum := by
  obtain ⟨h1, h2, mk, h3, h4, h5⟩ := h
  rw [h3] at ha
  unfold maskActivations at ha
  simp only at ha
  obtain ⟨s0, w, hs⟩ : ∃ s0 w, c.data.shape = s0 ++ [w] := ⟨_, _, (List.dropLast_append_getLast h2).symm⟩
  have hd : c.data.shape.dropLast = s0 := by rw [hs]; simp
  have hw : c.data.shape.getLastD 0 = w := by rw [hs]; simp
  rw [hd] at h4
  rw [if_pos (by rw [h4, hs]; simp), if_pos (by rw [h4, hs]; simp), if_pos (by rw [h4, hd])] at ha
  split at ha
  · cases ha
    have hm : maskedCall c = { c with data := (Tensor.ofFn c.data.dev c.data.shape fun idx => c.data.el idx * mk.el idx.dropLast), logType := .forward } := by
      unfold maskedCall maskActivations
      rw [h3]
      simp only
      rw [if_pos (by rw [h4, hs]; simp), if_pos (by rw [h4, hs]; simp), if_pos (by rw [h4, hd])]
      rw [if_pos (by assumption)]
    refine ⟨?_, ?_, mk, h3, h5, fun f hfc => ?_⟩
    · rw [hm]
      unfold batchCount
      simp only [h3]
      rw [if_neg (by decide), data_eq mk, count_mask _ _ fun p _ => h5 p]
      unfold Spec.keptRows
      rw [h3]
      simp
    · rw [hm]
      unfold Spec.callWidth Spec.width
      simp only [h1]
      rfl
    · rw [hm]
      unfold Spec.callRows Spec.rows
      simp only [h1, Tensor.ofFn_shape, hd, h4, List.map_map]
      congr 1
      apply List.map_congr_left
      intro p hp
      apply hfc
      intro j hj
      rw [hw] at hj
      have hr : inRange c.data.shape (p ++ [j]) = true := by
        rw [hs]
        exact inRange_append _ _ _ _ ((mem_indices _ _).1 hp) (by simp [inRange, hj])
      beta_reduce
      rw [Tensor.el_ofFn, if_pos hr]
      simp only [List.dropLast_concat]
      rcases h5 p with h | h <;> simp [h]
  · cases ha

theorem mask_term [CommSemiring K] [DecidableEq K] {m x y : K} (h : m = 0 ∨ m = 1) : m * x * (m * y) = m * (x * y) := by
  rcases h with h | h <;> simp [h]

/-- What the kept rows are, summed up. -/
theorem masked_sum [CommSemiring K] [DecidableEq K] {cs : List (StatCall K)} {W : Nat} (f : (Nat → K) → K)
    (hf : ∀ r r' : Nat → K, (∀ j, j < W → r j = r' j) → f r = f r') (hmul : ∀ (m : K) (r : Nat → K), (m = 0 ∨ m = 1) → f (fun j => m * r j) = m * f r)
    (hcs : ∀ c ∈ cs, Spec.Masked c ∧ c.logType = .forward ∧ (∃ a, maskActivations c.mask c.data = .ok a) ∧ Spec.callWidth (maskedCall c) = W) :
    ((Spec.allRows (cs.map maskedCall)).map f).sum = ((cs.flatMap Spec.keptRows).map f).sum ∧
      ((cs.map maskedCall).map batchCount).sum = ((cs.flatMap Spec.keptRows).length : K) := by
  induction cs with
  | nil => simp [Spec.allRows]
  | cons c cs ih =>
    obtain ⟨i1, i2⟩ := ih fun c hc => hcs c (List.mem_cons_of_mem _ hc)
    obtain ⟨h1, h2, ⟨a, ha⟩, h3⟩ := hcs c List.mem_cons_self
    obtain ⟨b1, b2, mk, b3, b4, b5⟩ := masked_batch h1 ha
    rw [h3] at b2
    constructor
    · rw [List.map_cons, ← List.singleton_append, allRows_append, allRows_single, List.map_append, List.sum_append, i1, List.flatMap_cons,
        List.map_append, List.sum_append, b5 f (by rw [← b2]; exact hf)]
      congr 1
      have : ∀ p ∈ indices mk.shape, f (fun j => mk.el p * c.data.el (p ++ [j])) = mk.el p * f fun j => c.data.el (p ++ [j]) :=
        fun p _ => hmul _ _ (b4 p)
      rw [List.map_congr_left this, sum_mask (fun p => f fun j => c.data.el (p ++ [j])) mk.el _ fun p _ => b4 p]
      unfold Spec.keptRows
      rw [b3, List.map_map]
      rfl
    · simp only [List.map_cons, List.sum_cons, List.flatMap_cons, List.length_append, Nat.cast_add, i2, b1]

/-- The statistic computed from masked activations. -/
theorem masked_stat [Field K] [DecidableEq K] (L : Lib K) {p : Plugin} {st cn : PyStr} {z : Nat → List Nat} {term : (Nat → K) → List Nat → K}
    (S : StatOf p st cn z term) (hp : (st, cn) ∈ basePairs) {hs : List (List Plugin × StatCall K)} {s s' : LState K} {dir dir' : StateDir K}
    (hrun : forwardHooks L .init hs = .ok s) (hfin : s.finalize dir = .ok (s', dir')) (m : PyStr)
    (hne : Spec.callsOf p m .forward (Spec.hookCalls hs) ≠ [])
    (hmask : ∀ c ∈ Spec.callsOf p m .forward (Spec.hookCalls hs), Spec.Masked c)
    (hterm : ∀ idx W, inRange (z W) idx = true → (∀ r r' : Nat → K, (∀ j, j < W → r j = r' j) → term r idx = term r' idx) ∧
      ∀ (k : K) (r : Nat → K), (k = 0 ∨ k = 1) → term (fun j => k * r j) idx = k * term r idx) :
    ∃ t W, Spec.tensorAt s'.attrs st [m, LogType.name .forward] = some t ∧ t.shape = z W ∧
      ∀ idx, inRange (z W) idx = true → t.el idx =
        (((Spec.callsOf p m .forward (Spec.hookCalls hs)).flatMap Spec.keptRows).map (term · idx)).sum /
          (((Spec.callsOf p m .forward (Spec.hookCalls hs)).flatMap Spec.keptRows).length : K) := by
  obtain ⟨h1, h2⟩ := forwardHooks_updates L hrun
  have hc := callsOf_hooks p m hs h2
  obtain ⟨t, W, g1, g2, g3, g4⟩ := stat_finalize L S hp h1 hfin m .forward (by rw [hc]; simpa using hne)
  rw [hc] at g3 g4
  refine ⟨t, W, g1, g2, fun idx hidx => ?_⟩
  have hcs : ∀ c ∈ Spec.callsOf p m .forward (Spec.hookCalls hs), Spec.Masked c ∧ c.logType = .forward ∧
      (∃ a, maskActivations c.mask c.data = .ok a) ∧ Spec.callWidth (maskedCall c) = W := by
    intro c hcm
    refine ⟨hmask c hcm, ?_, ?_, g3 _ (List.mem_map_of_mem hcm)⟩
    · unfold Spec.callsOf at hcm
      simp only [List.mem_map, List.mem_filter, decide_eq_true_eq] at hcm
      obtain ⟨pc, ⟨_, _, _, h⟩, rfl⟩ := hcm
      exact h
    · unfold Spec.callsOf Spec.hookCalls at hcm
      simp only [List.mem_map, List.mem_filter, List.mem_flatMap] at hcm
      obtain ⟨pc, ⟨⟨h, hh, q, _, rfl⟩, _⟩, rfl⟩ := hcm
      exact h2 h hh
  obtain ⟨k1, k2⟩ := masked_sum (term · idx) (hterm idx W hidx).1 (hterm idx W hidx).2 hcs
  rw [g4 idx hidx, k2]
  unfold rowSum
  rw [k1]

/-- **C32**, covariance. Run forward hooks with any plugins on any batches and finalize. If the batches of a module came with masks of zeros
and ones, its forward covariance is the average of the outer products of the activations at the unmasked positions. -/
theorem C32_covariance [Field K] [DecidableEq K] (L : Lib K) {hs : List (List Plugin × StatCall K)} {s s' : LState K} {dir dir' : StateDir K}
    (hrun : forwardHooks L .init hs = .ok s) (hfin : s.finalize dir = .ok (s', dir')) (m : PyStr)
    (hne : Spec.callsOf .covariance m .forward (Spec.hookCalls hs) ≠ [])
    (hmask : ∀ c ∈ Spec.callsOf .covariance m .forward (Spec.hookCalls hs), Spec.Masked c) :
    ∃ t W, Spec.tensorAt s'.attrs nCov [m, LogType.name .forward] = some t ∧ t.shape = [W, W] ∧ ∀ i j, i < W → j < W → t.el [i, j] =
      (((Spec.callsOf .covariance m .forward (Spec.hookCalls hs)).flatMap Spec.keptRows).map fun r => r i * r j).sum /
        (((Spec.callsOf .covariance m .forward (Spec.hookCalls hs)).flatMap Spec.keptRows).length : K) := by
  obtain ⟨t, W, g1, g2, g3⟩ := masked_stat L statOf_cov (by decide) hrun hfin m hne hmask (fun idx W hidx => by
    obtain ⟨i, j, hi, hj, rfl⟩ := idx2 hidx
    refine ⟨fun r r' h => ?_, fun k r hk => ?_⟩
    · show r i * r j = r' i * r' j
      rw [h i hi, h j hj]
    · exact mask_term hk)
  exact ⟨t, W, g1, g2, fun i j hi hj => g3 [i, j] (by simp [inRange, hi, hj])⟩

/-- **C32**, mean. -/
theorem C32_mean [Field K] [DecidableEq K] (L : Lib K) {hs : List (List Plugin × StatCall K)} {s s' : LState K} {dir dir' : StateDir K}
    (hrun : forwardHooks L .init hs = .ok s) (hfin : s.finalize dir = .ok (s', dir')) (m : PyStr)
    (hne : Spec.callsOf .mean m .forward (Spec.hookCalls hs) ≠ [])
    (hmask : ∀ c ∈ Spec.callsOf .mean m .forward (Spec.hookCalls hs), Spec.Masked c) :
    ∃ t W, Spec.tensorAt s'.attrs nMean [m, LogType.name .forward] = some t ∧ t.shape = [W] ∧ ∀ j, j < W → t.el [j] =
      (((Spec.callsOf .mean m .forward (Spec.hookCalls hs)).flatMap Spec.keptRows).map fun r => r j).sum /
        (((Spec.callsOf .mean m .forward (Spec.hookCalls hs)).flatMap Spec.keptRows).length : K) := by
  obtain ⟨t, W, g1, g2, g3⟩ := masked_stat L statOf_mean (by decide) hrun hfin m hne hmask (fun idx W hidx => by
    obtain ⟨j, hj, rfl⟩ := idx1 hidx
    exact ⟨fun r r' h => h j hj, fun k r hk => rfl⟩)
  exact ⟨t, W, g1, g2, fun j hj => g3 [j] (by simp [inRange, hj])⟩

namespace ExMask

/-- Two sequences of length two, the second with one masked position. -/
def batch : StatCall Rat :=
  ⟨some .linear, ExStats.nm, .forward, ⟨.cuda 0, [2, 2, 1], [1, 2, 3, 100], rfl⟩, some ⟨.cuda 0, [2, 2], [1, 1, 1, 0], rfl⟩, false⟩

def hooks : List (List Plugin × StatCall Rat) := [([.log, .mean, .covariance], batch), ([.mean, .covariance], batch)]

example : (match forwardHooks ExStats.lib .init hooks with
    | .ok s => (ExStats.outcome s nMean [ExStats.nm, LogType.name .forward], ExStats.outcome s nCov [ExStats.nm, LogType.name .forward])
    | .error _ => (none, none)) = (some ⟨.cuda 0, [1], [2], rfl⟩, some ⟨.cuda 0, [1, 1], [14 / 3], rfl⟩) := by
  decide +kernel

example : Spec.Masked batch := by
  refine ⟨rfl, by decide, _, rfl, rfl, fun p => ?_⟩
  rw [Tensor.el]
  split
  · next h =>
    have H : ∀ p ∈ indices [2, 2], [1, 1, 1, (0 : Rat)].getD (ravel [2, 2] p) 0 = 0 ∨ [1, 1, 1, (0 : Rat)].getD (ravel [2, 2] p) 0 = 1 := by
      decide +kernel
    exact H p ((mem_indices _ _).2 h)
  · exact .inl rfl

end ExMask

/-! ### Masks that do not match -/

theorem unmatched_call [Semiring K] {c : StatCall K} (h : Spec.Unmatched c) : maskedCall c = { c with logType := .forward } := by
  obtain ⟨_, mk, h1, h2, h3⟩ := h
  unfold maskedCall maskActivations
  rw [h1]
  simp only
  rw [if_neg (by simpa using h2), if_neg h3]

/-- **C82** is false, in general form: if a module's batches come with masks that do not match, its forward covariance is the sum of the
outer products over all rows (as without masks), but divided by the sum of the masks instead of the number of samples. -/
theorem C82_covariance_scaled [Field K] (L : Lib K) {hs : List (List Plugin × StatCall K)} {s s' : LState K} {dir dir' : StateDir K}
    (hrun : forwardHooks L .init hs = .ok s) (hfin : s.finalize dir = .ok (s', dir')) (m : PyStr)
    (hne : Spec.callsOf .covariance m .forward (Spec.hookCalls hs) ≠ [])
    (hmask : ∀ c ∈ Spec.callsOf .covariance m .forward (Spec.hookCalls hs), Spec.Unmatched c) :
    ∃ t W, Spec.tensorAt s'.attrs nCov [m, LogType.name .forward] = some t ∧ t.shape = [W, W] ∧ ∀ i j, i < W → j < W → t.el [i, j] =
      ((Spec.allRows (Spec.callsOf .covariance m .forward (Spec.hookCalls hs))).map fun r => r i * r j).sum /
        Spec.maskTotal (Spec.callsOf .covariance m .forward (Spec.hookCalls hs)) := by
  obtain ⟨h1, h2⟩ := forwardHooks_updates L hrun
  have hc := callsOf_hooks .covariance m hs h2
  have hlt : ∀ c ∈ Spec.callsOf .covariance m .forward (Spec.hookCalls hs), c.logType = .forward := by
    intro c hcm
    unfold Spec.callsOf at hcm
    simp only [List.mem_map, List.mem_filter, decide_eq_true_eq] at hcm
    obtain ⟨pc, ⟨_, _, _, h⟩, rfl⟩ := hcm
    exact h
  have hid : (Spec.callsOf .covariance m .forward (Spec.hookCalls hs)).map maskedCall = Spec.callsOf .covariance m .forward (Spec.hookCalls hs) := by
    rw [List.map_congr_left (g := id), List.map_id]
    intro c hcm
    rw [unmatched_call (hmask c hcm), ← hlt c hcm]
    rfl
  rw [hid] at hc
  obtain ⟨t, W, g1, g2, g3, g4⟩ := stat_finalize L statOf_cov (by decide) h1 hfin m .forward (by rw [hc]; exact hne)
  rw [hc] at g4
  refine ⟨t, W, g1, g2, fun i j hi hj => ?_⟩
  rw [g4 [i, j] (by simp [inRange, hi, hj])]
  have hcount : ((Spec.callsOf .covariance m .forward (Spec.hookCalls hs)).map batchCount).sum =
      Spec.maskTotal (Spec.callsOf .covariance m .forward (Spec.hookCalls hs)) := by
    unfold Spec.maskTotal
    congr 1
    apply List.map_congr_left
    intro c hcm
    obtain ⟨_, mk, k1, _⟩ := hmask c hcm
    unfold batchCount
    simp only [k1]
    rw [if_neg (by rw [hlt c hcm]; decide)]
  rw [hcount]
  rfl

namespace ExMask

/-- Pooled activations of two sequences with the token mask of the sequences. -/
def pooled (mask : Option (Tensor Rat)) : StatCall Rat := ⟨some .linear, ExStats.nm, .forward, ⟨.cuda 0, [2, 1], [1, 3], rfl⟩, mask, false⟩

def tokens : Tensor Rat := ⟨.cuda 0, [2, 5], [1, 1, 1, 1, 1, 1, 1, 1, 0, 0], rfl⟩

theorem pooled_unmatched : Spec.Unmatched (pooled (some tokens)) := ⟨rfl, tokens, rfl, rfl, by decide +kernel⟩

end ExMask

/-- **C82** is false: with a token mask of eight ones the covariance of pooled activations comes out four times too small. -/
theorem C82_refuted :
    ¬ (∀ (L : Lib Rat) (c : StatCall Rat) (s s' u u' : LState Rat) (dir₁ dir₁' dir₂ dir₂' : StateDir Rat) (t₁ t₂ : Tensor Rat),
      Spec.Unmatched c → forwardHooks L .init [([.covariance], c)] = .ok s → s.finalize dir₁ = .ok (s', dir₁') →
      forwardHooks L .init [([.covariance], { c with mask := none })] = .ok u → u.finalize dir₂ = .ok (u', dir₂') →
      Spec.tensorAt s'.attrs nCov [c.name, LogType.name .forward] = some t₁ →
      Spec.tensorAt u'.attrs nCov [c.name, LogType.name .forward] = some t₂ → t₁ = t₂) := by
  intro H
  have run : ∀ (mask : Option (Tensor Rat)) (t : Tensor Rat), (match forwardHooks ExStats.lib .init [([.covariance], ExMask.pooled mask)] with
      | .ok s => ExStats.outcome s nCov [ExStats.nm, LogType.name .forward]
      | .error _ => none) = some t → ∃ s s' d, forwardHooks ExStats.lib .init [([.covariance], ExMask.pooled mask)] = .ok s ∧
        s.finalize ExStats.dir = .ok (s', d) ∧ Spec.tensorAt s'.attrs nCov [ExStats.nm, LogType.name .forward] = some t := by
    intro mask t h
    split at h
    · next s hs =>
      unfold ExStats.outcome at h
      split at h
      · next s' d hf => exact ⟨s, s', d, hs, hf, h⟩
      · cases h
    · cases h
  obtain ⟨s, s', d, a1, a2, a3⟩ := run (some ExMask.tokens) ⟨.cuda 0, [1, 1], [5 / 4], rfl⟩ (by decide +kernel)
  obtain ⟨u, u', d', b1, b2, b3⟩ := run none ⟨.cuda 0, [1, 1], [5], rfl⟩ (by decide +kernel)
  have := H _ _ _ _ _ _ _ _ _ _ _ _ ExMask.pooled_unmatched a1 a2 b1 b2 a3 b3
  revert this
  decide +kernel

end Logix
