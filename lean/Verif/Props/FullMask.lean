/-
C123: a mask that keeps everything, against no mask.
-/
import Verif.Props.Mask
import Verif.Props.Stats
import Verif.Spec.FullMask

namespace Logix
variable {K : Type}

theorem inRange_dropLast (s : List Nat) : ∀ {w : Nat} {idx : List Nat}, inRange (s ++ [w]) idx = true → inRange s idx.dropLast = true := by
  induction s with
  | nil =>
    intro w idx h
    match idx with
    | [] => cases h
    | [i] => rfl
    | i :: j :: idx => simp [inRange] at h
  | cons n s ih =>
    intro w idx h
    match idx with
    | [] => cases h
    | [i] =>
      cases s <;> simp [inRange] at h
    | i :: j :: idx =>
      rw [List.cons_append, inRange, Bool.and_eq_true] at h
      rw [List.dropLast_cons₂, inRange, Bool.and_eq_true]
      exact ⟨h.1, ih h.2⟩

section
variable [Semiring K]

theorem el_of_all {mk : Tensor K} {a : K} (h : ∀ x ∈ mk.data, x = a) {p : List Nat} (hp : inRange mk.shape p = true) : mk.el p = a := by
  rw [Tensor.el, if_pos hp, List.getD_eq_getElem?_getD, List.getElem?_eq_getElem (by rw [mk.wf]; exact ravel_lt _ _ hp)]
  exact h _ (List.getElem_mem _)

theorem fullMask_call {T : Nat} {c : StatCall K} (h : Spec.FullMask T c) : maskedCall c = { c with logType := .forward } := by
  obtain ⟨_, ⟨n, mid, w, hs, -⟩, mk, h1, h2, h3, h4⟩ := h
  have hl : mk.shape.length + 1 = c.data.shape.length := by rw [h3, hs]; simp
  have e : Tensor.ofFn c.data.dev c.data.shape (fun idx => c.data.el idx * mk.el idx.dropLast) = c.data := by
    refine Tensor.ext_el rfl rfl fun idx hi => ?_
    have hi' : inRange c.data.shape idx = true := hi
    rw [Tensor.el_ofFn, if_pos hi', el_of_all h4, mul_one]
    rw [h3]
    rw [hs, ← List.cons_append] at hi' ⊢
    rw [List.dropLast_concat]
    exact inRange_dropLast _ hi'
  unfold maskedCall maskActivations
  rw [h1]
  simp only
  rw [if_pos (by omega), if_pos hl, if_pos (by rw [h3]), if_pos ⟨h3, h2⟩]
  simp only
  rw [e]

theorem sum_ones {l : List K} (h : ∀ x ∈ l, x = 1) : l.sum = (l.length : K) := by
  induction l with
  | nil => simp
  | cons a l ih =>
    rw [List.sum_cons, ih fun x hx => h x (List.mem_cons_of_mem _ hx), h a List.mem_cons_self, List.length_cons, Nat.cast_add, Nat.cast_one, add_comm]

/-- A mask of ones counts positions. -/
theorem fullMask_count {T : Nat} {c : StatCall K} (h : Spec.FullMask T c) (hlt : c.logType ≠ .grad) : batchCount c = (T : K) * batchCount (Spec.bare c) := by
  obtain ⟨_, ⟨n, mid, w, hs, hT⟩, mk, h1, h2, h3, h4⟩ := h
  have h5 : mk.data.length = n * T := by
    rw [mk.wf, h3, hs, ← List.cons_append, List.dropLast_concat, numel_cons, hT]
  unfold batchCount
  simp only [h1, Spec.bare]
  rw [if_neg hlt, sum_ones h4, h5, Tensor.size, hs, Nat.cast_mul]
  exact (Nat.cast_commute ..)

end

section
variable [Field K] [CharZero K]

/-- Statistics of the same rows with other counts. -/
theorem stat_scaled (L : Lib K) {p : Plugin} {st cn : PyStr} {z : Nat → List Nat} {term : (Nat → K) → List Nat → K} (S : StatOf p st cn z term)
    (hp : (st, cn) ∈ basePairs) {calls calls' : List (Plugin × StatCall K)} {s s' u u' : LState K} {dir dir₁ dir' dir₁' : StateDir K}
    (h : updates L .init calls = .ok s) (hf : s.finalize dir = .ok (s', dir₁)) (h' : updates L .init calls' = .ok u) (hf' : u.finalize dir' = .ok (u', dir₁'))
    {m : PyStr} {lt : LogType} (hlt : lt ≠ .grad) (hne : Spec.callsOf p m lt calls ≠ []) (hb : Spec.callsOf p m lt calls' = (Spec.callsOf p m lt calls).map Spec.bare)
    {T : Nat} (hT : 0 < T) (hm : ∀ c ∈ Spec.callsOf p m lt calls, Spec.FullMask T c) :
    ∃ t t' W, Spec.tensorAt s'.attrs st [m, lt.name] = some t ∧ Spec.tensorAt u'.attrs st [m, lt.name] = some t' ∧ t.shape = z W ∧ t'.shape = z W ∧
      ∀ idx, inRange (z W) idx = true → t'.el idx = (T : K) * t.el idx := by
  obtain ⟨t, W, g1, g2, g3, g4⟩ := stat_finalize L S hp h hf m lt hne
  obtain ⟨t', W', k1, k2, k3, k4⟩ := stat_finalize L S hp h' hf' m lt (by rw [hb]; simpa using hne)
  obtain ⟨c, hc⟩ := List.exists_mem_of_ne_nil _ hne
  have hW : W' = W := by
    rw [← g3 c hc, ← k3 (Spec.bare c) (by rw [hb]; exact List.mem_map_of_mem hc)]
    rfl
  subst hW
  refine ⟨t, t', W', g1, k1, g2, k2, fun idx hi => ?_⟩
  rw [g4 idx hi, k4 idx hi, hb]
  have hr : Spec.allRows ((Spec.callsOf p m lt calls).map Spec.bare) = Spec.allRows (Spec.callsOf p m lt calls) := by
    unfold Spec.allRows
    rw [List.flatMap_map]
    rfl
  have hcnt : ((Spec.callsOf p m lt calls).map batchCount).sum = (T : K) * (((Spec.callsOf p m lt calls).map Spec.bare).map batchCount).sum := by
    have hl : ∀ c ∈ Spec.callsOf p m lt calls, Spec.FullMask T c ∧ c.logType ≠ .grad := by
      intro c hc
      refine ⟨hm c hc, ?_⟩
      unfold Spec.callsOf at hc
      simp only [List.mem_map, List.mem_filter, decide_eq_true_eq] at hc
      obtain ⟨pc, ⟨_, _, _, h⟩, rfl⟩ := hc
      rw [h]; exact hlt
    generalize Spec.callsOf p m lt calls = cs at hl
    induction cs with
    | nil => simp
    | cons c cs ih =>
      simp only [List.map_cons, List.sum_cons]
      rw [ih fun c hc => hl c (List.mem_cons_of_mem _ hc), fullMask_count (hl c List.mem_cons_self).1 (hl c List.mem_cons_self).2, mul_add]
  rw [hr, hcnt, ← mul_div_assoc, mul_div_mul_left _ _ (Nat.cast_ne_zero.2 (Nat.pos_iff_ne_zero.1 hT))]

theorem callsOf_bare (p : Plugin) (m : PyStr) (lt : LogType) (calls : List (Plugin × StatCall K)) :
    Spec.callsOf p m lt (calls.map fun pc => (pc.1, Spec.bare pc.2)) = (Spec.callsOf p m lt calls).map Spec.bare := by
  unfold Spec.callsOf
  rw [List.filter_map, List.map_map, List.map_map]
  rfl

theorem forward_scaled (L : Lib K) {p : Plugin} {st cn : PyStr} {z : Nat → List Nat} {term : (Nat → K) → List Nat → K} (S : StatOf p st cn z term)
    (hp : (st, cn) ∈ basePairs) {hs : List (List Plugin × StatCall K)} {s s' u u' : LState K} {dir dir₁ dir' dir₁' : StateDir K}
    (h : forwardHooks L .init hs = .ok s) (hf : s.finalize dir = .ok (s', dir₁)) (h' : forwardHooks L .init (hs.map fun h => (h.1, Spec.bare h.2)) = .ok u)
    (hf' : u.finalize dir' = .ok (u', dir₁')) {m : PyStr} (hne : Spec.callsOf p m .forward (Spec.hookCalls hs) ≠ [])
    {T : Nat} (hT : 0 < T) (hm : ∀ c ∈ Spec.callsOf p m .forward (Spec.hookCalls hs), Spec.FullMask T c) :
    ∃ t t' W, Spec.tensorAt s'.attrs st [m, LogType.name .forward] = some t ∧ Spec.tensorAt u'.attrs st [m, LogType.name .forward] = some t' ∧
      t.shape = z W ∧ t'.shape = z W ∧ ∀ idx, inRange (z W) idx = true → t'.el idx = (T : K) * t.el idx := by
  obtain ⟨a1, a2⟩ := forwardHooks_updates L h
  obtain ⟨b1, b2⟩ := forwardHooks_updates L h'
  have hlt : ∀ c ∈ Spec.callsOf p m .forward (Spec.hookCalls hs), c.logType = .forward := by
    intro c hcm
    unfold Spec.callsOf at hcm
    simp only [List.mem_map, List.mem_filter, decide_eq_true_eq] at hcm
    obtain ⟨pc, ⟨_, _, _, h⟩, rfl⟩ := hcm
    exact h
  have ha : Spec.callsOf p m .forward (hs.flatMap fun h => h.1.map fun q => (q, maskedCall h.2)) = Spec.callsOf p m .forward (Spec.hookCalls hs) := by
    rw [callsOf_hooks p m hs a2, List.map_congr_left (g := id), List.map_id]
    intro c hc
    rw [fullMask_call (hm c hc), ← hlt c hc]
    rfl
  have hb : Spec.callsOf p m .forward ((hs.map fun h => (h.1, Spec.bare h.2)).flatMap fun h => h.1.map fun q => (q, maskedCall h.2)) =
      (Spec.callsOf p m .forward (Spec.hookCalls hs)).map Spec.bare := by
    rw [callsOf_hooks p m _ b2]
    have e : Spec.hookCalls (hs.map fun h => (h.1, Spec.bare h.2)) = (Spec.hookCalls hs).map fun pc => (pc.1, Spec.bare pc.2) := by
      unfold Spec.hookCalls
      rw [List.flatMap_map, List.map_flatMap]
      refine congrArg (fun f => List.flatMap f hs) (funext fun h => ?_)
      rw [List.map_map]
      rfl
    rw [e, callsOf_bare, List.map_map]
    refine List.map_congr_left fun c hc => ?_
    show maskedCall (Spec.bare c) = Spec.bare c
    unfold maskedCall maskActivations Spec.bare
    simp only
    rw [← hlt c hc]
  exact stat_scaled L S hp a1 hf b1 hf' (by decide) (by rw [ha]; exact hne) (by rw [ha, hb]) hT (by rw [ha]; exact hm)

/-- **C123** is false, in general form: run the forward hooks on batches of a module with `T` positions per sample, once with masks of ones and once
without masks. The covariance without masks is `T` times the one with masks: without a mask samples are counted, with a mask positions. -/
theorem C123_forward_scaled (L : Lib K) {hs : List (List Plugin × StatCall K)} {s s' u u' : LState K} {dir dir₁ dir' dir₁' : StateDir K}
    (h : forwardHooks L .init hs = .ok s) (hf : s.finalize dir = .ok (s', dir₁)) (h' : forwardHooks L .init (hs.map fun h => (h.1, Spec.bare h.2)) = .ok u)
    (hf' : u.finalize dir' = .ok (u', dir₁')) {m : PyStr} (hne : Spec.callsOf .covariance m .forward (Spec.hookCalls hs) ≠ [])
    {T : Nat} (hT : 0 < T) (hm : ∀ c ∈ Spec.callsOf .covariance m .forward (Spec.hookCalls hs), Spec.FullMask T c) :
    ∃ t t' W, Spec.tensorAt s'.attrs nCov [m, LogType.name .forward] = some t ∧ Spec.tensorAt u'.attrs nCov [m, LogType.name .forward] = some t' ∧
      t.shape = [W, W] ∧ t'.shape = [W, W] ∧ ∀ i j, i < W → j < W → t'.el [i, j] = (T : K) * t.el [i, j] := by
  obtain ⟨t, t', W, g1, g2, g3, g4, g5⟩ := forward_scaled L statOf_cov (by decide) h hf h' hf' hne hT hm
  exact ⟨t, t', W, g1, g2, g3, g4, fun i j hi hj => g5 [i, j] (by simp [inRange, hi, hj])⟩

/-- The same for the mean. -/
theorem C123_mean_scaled (L : Lib K) {hs : List (List Plugin × StatCall K)} {s s' u u' : LState K} {dir dir₁ dir' dir₁' : StateDir K}
    (h : forwardHooks L .init hs = .ok s) (hf : s.finalize dir = .ok (s', dir₁)) (h' : forwardHooks L .init (hs.map fun h => (h.1, Spec.bare h.2)) = .ok u)
    (hf' : u.finalize dir' = .ok (u', dir₁')) {m : PyStr} (hne : Spec.callsOf .mean m .forward (Spec.hookCalls hs) ≠ [])
    {T : Nat} (hT : 0 < T) (hm : ∀ c ∈ Spec.callsOf .mean m .forward (Spec.hookCalls hs), Spec.FullMask T c) :
    ∃ t t' W, Spec.tensorAt s'.attrs nMean [m, LogType.name .forward] = some t ∧ Spec.tensorAt u'.attrs nMean [m, LogType.name .forward] = some t' ∧
      t.shape = [W] ∧ t'.shape = [W] ∧ ∀ j, j < W → t'.el [j] = (T : K) * t.el [j] := by
  obtain ⟨t, t', W, g1, g2, g3, g4, g5⟩ := forward_scaled L statOf_mean (by decide) h hf h' hf' hne hT hm
  exact ⟨t, t', W, g1, g2, g3, g4, fun j hj => g5 [j] (by simp [inRange, hj])⟩

/-- And for the covariance of the output gradients, which the backward hooks update with the gradients as they are. -/
theorem C123_backward_scaled (L : Lib K) {calls : List (Plugin × StatCall K)} {s s' u u' : LState K} {dir dir₁ dir' dir₁' : StateDir K}
    (h : updates L .init calls = .ok s) (hf : s.finalize dir = .ok (s', dir₁)) (h' : updates L .init (calls.map fun pc => (pc.1, Spec.bare pc.2)) = .ok u)
    (hf' : u.finalize dir' = .ok (u', dir₁')) {m : PyStr} (hne : Spec.callsOf .covariance m .backward calls ≠ [])
    {T : Nat} (hT : 0 < T) (hm : ∀ c ∈ Spec.callsOf .covariance m .backward calls, Spec.FullMask T c) :
    ∃ t t' W, Spec.tensorAt s'.attrs nCov [m, LogType.name .backward] = some t ∧ Spec.tensorAt u'.attrs nCov [m, LogType.name .backward] = some t' ∧
      t.shape = [W, W] ∧ t'.shape = [W, W] ∧ ∀ i j, i < W → j < W → t'.el [i, j] = (T : K) * t.el [i, j] := by
  obtain ⟨t, t', W, g1, g2, g3, g4, g5⟩ := stat_scaled L statOf_cov (by decide) h hf h' hf' (by decide) hne
    (callsOf_bare ..) hT hm
  exact ⟨t, t', W, g1, g2, g3, g4, fun i j hi hj => g5 [i, j] (by simp [inRange, hi, hj])⟩

/-- **C123**, what holds: with one position per sample a mask of ones changes nothing. -/
theorem C123_one_partial (L : Lib K) {hs : List (List Plugin × StatCall K)} {s s' u u' : LState K} {dir dir₁ dir' dir₁' : StateDir K}
    (h : forwardHooks L .init hs = .ok s) (hf : s.finalize dir = .ok (s', dir₁)) (h' : forwardHooks L .init (hs.map fun h => (h.1, Spec.bare h.2)) = .ok u)
    (hf' : u.finalize dir' = .ok (u', dir₁')) {m : PyStr} (hne : Spec.callsOf .covariance m .forward (Spec.hookCalls hs) ≠ [])
    (hm : ∀ c ∈ Spec.callsOf .covariance m .forward (Spec.hookCalls hs), Spec.FullMask 1 c) :
    ∃ t t' W, Spec.tensorAt s'.attrs nCov [m, LogType.name .forward] = some t ∧ Spec.tensorAt u'.attrs nCov [m, LogType.name .forward] = some t' ∧
      t.shape = [W, W] ∧ t'.shape = [W, W] ∧ ∀ i j, i < W → j < W → t'.el [i, j] = t.el [i, j] := by
  obtain ⟨t, t', W, g1, g2, g3, g4, g5⟩ := C123_forward_scaled L h hf h' hf' hne one_pos hm
  exact ⟨t, t', W, g1, g2, g3, g4, fun i j hi hj => by rw [g5 i j hi hj, Nat.cast_one, one_mul]⟩

end

theorem grad_bare [Semiring K] (L : Lib K) {p : Plugin} (hp : p = .log ∨ p = .mean ∨ p = .covariance) (s : LState K) {c : StatCall K} (h : c.logType = .grad) :
    pluginUpdate L p s (Spec.bare c) = pluginUpdate L p s c := by
  have e : batchCount (Spec.bare c) = batchCount c := by
    unfold batchCount Spec.bare
    cases hm : c.mask with
    | none => rfl
    | some mk => simp [h]
  have key : ∀ st cn z acc, statUpdate (K := K) st cn z acc s (Spec.bare c) = statUpdate st cn z acc s c := by
    intro st cn z acc
    unfold statUpdate
    rw [e]
    rfl
  rcases hp with rfl | rfl | rfl
  · rfl
  · exact key nMean nMeanCounter (fun w => [w]) fun t x => t.add_ x.sum0
  · exact key nCov nCovCounter (fun w => [w, w]) fun t x => t.addmmT_ x

/-- **C123**, what holds: the statistics of per-sample gradients do not depend on the masks at all. -/
theorem C123_grad_partial [Semiring K] (L : Lib K) (calls : List (Plugin × StatCall K))
    (hc : ∀ pc ∈ calls, (pc.1 = .log ∨ pc.1 = .mean ∨ pc.1 = .covariance) ∧ pc.2.logType = .grad) (s : LState K) :
    updates L s (calls.map fun pc => (pc.1, Spec.bare pc.2)) = updates L s calls := by
  induction calls generalizing s with
  | nil => rfl
  | cons pc calls ih =>
    obtain ⟨h1, h2⟩ := hc pc List.mem_cons_self
    rw [List.map_cons]
    unfold updates
    rw [grad_bare L h1 s h2]
    cases pluginUpdate L pc.1 s pc.2 with
    | error e => rfl
    | ok s => exact ih (fun pc h => hc pc (List.mem_cons_of_mem _ h)) s

namespace ExMask

/-- Two sequences of length two. -/
def seqs (mask : Option (Tensor Rat)) : StatCall Rat := ⟨some .linear, ExStats.nm, .forward, ⟨.cuda 0, [2, 2, 1], [1, 2, 3, 4], rfl⟩, mask, false⟩
def ones : Tensor Rat := ⟨.cuda 0, [2, 2], [1, 1, 1, 1], rfl⟩

/-- The hypotheses of the theorems above are met by these runs. -/
example : (match forwardHooks ExStats.lib .init [([.mean, .covariance], seqs (some ones)), ([.covariance], seqs (some ones))] with
    | .ok s => (ExStats.outcome s nMean [ExStats.nm, LogType.name .forward], ExStats.outcome s nCov [ExStats.nm, LogType.name .forward])
    | .error _ => (none, none)) = (some ⟨.cuda 0, [1], [5 / 2], rfl⟩, some ⟨.cuda 0, [1, 1], [15 / 2], rfl⟩) ∧
    (match forwardHooks ExStats.lib .init [([.mean, .covariance], seqs none), ([.covariance], seqs none)] with
    | .ok s => (ExStats.outcome s nMean [ExStats.nm, LogType.name .forward], ExStats.outcome s nCov [ExStats.nm, LogType.name .forward])
    | .error _ => (none, none)) = (some ⟨.cuda 0, [1], [5], rfl⟩, some ⟨.cuda 0, [1, 1], [15], rfl⟩) := by decide +kernel

/-- One position per sample. -/
example : Spec.FullMask 1 (⟨some .linear, ExStats.nm, .forward, ⟨.cpu, [2, 3], [1, 2, 3, 4, 5, 6], rfl⟩, some ⟨.cpu, [2], [1, 1], rfl⟩, false⟩ : StatCall Rat) :=
  ⟨rfl, ⟨2, [], 3, rfl, rfl⟩, _, rfl, rfl, rfl, by decide +kernel⟩

theorem seqs_full : Spec.FullMask 2 (seqs (some ones)) := ⟨rfl, ⟨2, [2], 1, rfl, rfl⟩, ones, rfl, rfl, rfl, by decide +kernel⟩

end ExMask

/-- **C123** is false: for two sequences of length two the covariance with a mask of ones is half the one without. -/
theorem C123_refuted :
    ¬ (∀ (L : Lib Rat) (T : Nat) (c : StatCall Rat) (s s' u u' : LState Rat) (dir₁ dir₁' dir₂ dir₂' : StateDir Rat) (t₁ t₂ : Tensor Rat),
      Spec.FullMask T c → forwardHooks L .init [([.covariance], c)] = .ok s → s.finalize dir₁ = .ok (s', dir₁') →
      forwardHooks L .init [([.covariance], Spec.bare c)] = .ok u → u.finalize dir₂ = .ok (u', dir₂') →
      Spec.tensorAt s'.attrs nCov [c.name, LogType.name .forward] = some t₁ →
      Spec.tensorAt u'.attrs nCov [c.name, LogType.name .forward] = some t₂ → t₁ = t₂) := by
  intro H
  have run : ∀ (mask : Option (Tensor Rat)) (t : Tensor Rat), (match forwardHooks ExStats.lib .init [([.covariance], ExMask.seqs mask)] with
      | .ok s => ExStats.outcome s nCov [ExStats.nm, LogType.name .forward]
      | .error _ => none) = some t → ∃ s s' d, forwardHooks ExStats.lib .init [([.covariance], ExMask.seqs mask)] = .ok s ∧
        s.finalize ExStats.dir = .ok (s', d) ∧ Spec.tensorAt s'.attrs nCov [ExStats.nm, LogType.name .forward] = some t := by
    intro mask t h
    split at h
    · next s hs =>
      unfold ExStats.outcome at h
      split at h
      · next s' d hf => exact ⟨s, s', d, hs, hf, h⟩
      · cases h
    · cases h
  obtain ⟨s, s', d, a1, a2, a3⟩ := run (some ExMask.ones) ⟨.cuda 0, [1, 1], [15 / 2], rfl⟩ (by decide +kernel)
  obtain ⟨u, u', d', b1, b2, b3⟩ := run none ⟨.cuda 0, [1, 1], [15], rfl⟩ (by decide +kernel)
  have := H _ _ _ _ _ _ _ _ _ _ _ _ _ ExMask.seqs_full a1 a2 b1 b2 a3 b3
  revert this
  decide +kernel

end Logix
