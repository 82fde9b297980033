/-
C125: statistics of masked sequences, read off the program that the user wrote.
-/
import Verif.Props.Mask
import Verif.Props.SessionStats
import Verif.Spec.Padding

set_option linter.unusedSectionVars false

namespace Logix
open Spec
variable {K : Type}

section
variable [Semiring K] [DecidableEq K]

/-- The tokens as the rows of a call that are kept. -/
theorem keptRows_tokens {c : StatCall K} {mk : Tensor K} (hm : c.mask = some mk) (ht : TokenMask mk c.data) : keptRows c = tokens mk c.data := by
  obtain ⟨h1, h2, -⟩ := ht
  unfold keptRows tokens sampleTokens
  rw [hm]
  match hs : c.data.shape, h1 with
  | n :: w :: s, _ =>
    have h3 : mk.shape = n :: mk.shape.tail := by rw [h2, hs]; rfl
    have h4 : c.data.size 0 = n := by rw [Tensor.size, hs]; rfl
    rw [h4]
    simp only
    rw [h3, indices, List.filter_flatMap, List.map_flatMap]
    apply List.flatMap_congr
    intro i hi
    rw [List.tail_cons, List.filter_map, List.map_map]
    rfl

theorem tokenMask_masked {c : StatCall K} {mk : Tensor K} (hk : c.module = some .linear) (hm : c.mask = some mk) (ht : TokenMask mk c.data) : Masked c :=
  ⟨hk, fun h => by have := ht.1; rw [h] at this; simp at this, mk, hm, ht.2.1, ht.2.2⟩

end

section
variable [CommSemiring K] [DecidableEq K]

/-- Output gradients that are zero at the padding, summed up. -/
theorem padded_batch {c : StatCall K} {mk : Tensor K} (hk : c.module = some .linear) (hlt : c.logType = .backward) (hm : c.mask = some mk)
    (ht : TokenMask mk c.data) (hz : ZeroPadded mk c.data) :
    batchCount c = ((keptRows c).length : K) ∧
      ∀ f : (Nat → K) → K, f (fun _ => 0) = 0 → ((callRows c).map f).sum = ((keptRows c).map f).sum := by
  obtain ⟨-, h4, h5⟩ := ht
  constructor
  · unfold batchCount keptRows
    rw [hm]
    simp only
    rw [if_neg (by rw [hlt]; decide), data_eq mk, count_mask _ _ fun p _ => h5 p]
    simp
  · intro f hf
    unfold callRows rows keptRows
    rw [hk, hm]
    simp only
    rw [← h4, List.map_map, List.map_map]
    have : ∀ p ∈ indices mk.shape, (f ∘ fun p j => c.data.el (p ++ [j])) p = mk.el p * f fun j => c.data.el (p ++ [j]) := by
      intro p _
      rcases h5 p with h | h
      · rw [h, zero_mul, ← hf]
        exact congrArg f (funext fun j => hz p j h)
      · rw [h, one_mul]; rfl
    rw [List.map_congr_left this, sum_mask (fun p => f fun j => c.data.el (p ++ [j])) mk.el _ fun p _ => h5 p]
    rfl

theorem padded_sum {cs : List (StatCall K)} (hcs : ∀ c ∈ cs, c.module = some .linear ∧ c.logType = .backward ∧
      ∃ mk, c.mask = some mk ∧ TokenMask mk c.data ∧ ZeroPadded mk c.data) :
    (cs.map batchCount).sum = ((cs.flatMap keptRows).length : K) ∧
      ∀ f : (Nat → K) → K, f (fun _ => 0) = 0 → ((allRows cs).map f).sum = ((cs.flatMap keptRows).map f).sum := by
  induction cs with
  | nil => simp [allRows]
  | cons c cs ih =>
    obtain ⟨i1, i2⟩ := ih fun c hc => hcs c (List.mem_cons_of_mem _ hc)
    obtain ⟨h1, h2, mk, h3, h4, h5⟩ := hcs c List.mem_cons_self
    obtain ⟨b1, b2⟩ := padded_batch h1 h2 h3 h4 h5
    constructor
    · simp only [List.map_cons, List.sum_cons, List.flatMap_cons, List.length_append, Nat.cast_add, i1, b1]
    · intro f hf
      rw [← List.singleton_append, allRows_append, allRows_single, List.map_append, List.sum_append, i2 f hf, List.flatMap_append, List.flatMap_singleton,
        List.map_append, List.sum_append, b2 f hf]

end

section
variable [Field K] [DecidableEq K]

/-- A statistic of calls whose rows and counts are those of some rows. -/
theorem stat_rows {L : Lib K} {p : Plugin} {st cn : PyStr} {z : Nat → List Nat} {term : (Nat → K) → List Nat → K}
    (S : StatOf p st cn z term) (hp : (st, cn) ∈ basePairs) {calls : List (Plugin × StatCall K)} {s s' : LState K} {dir dir' : StateDir K}
    (h : updates L .init calls = .ok s) (hf : s.finalize dir = .ok (s', dir')) {nm : PyStr} {lt : LogType} {f : List (StatCall K)} {ps : List Plugin}
    (e : ∀ p, callsOf p nm lt calls = f.flatMap (List.replicate (ps.count p))) (h1 : ps.count p = 1) (hne : f ≠ []) {ms : List (Tensor K × Tensor K)}
    (hwd : ∀ W, (∀ c ∈ f, callWidth c = W) → ∀ a ∈ ms, a.2.shape.getLastD 0 = W)
    (hrows : ∀ W idx, (∀ c ∈ f, callWidth c = W) → inRange (z W) idx = true → rowSum term (allRows f) idx / (f.map batchCount).sum =
      rowSum term (ms.flatMap fun a => tokens a.1 a.2) idx / ((ms.flatMap fun a => tokens a.1 a.2).length : K)) :
    ∃ T W, tensorAt s'.attrs st [nm, lt.name] = some T ∧ T.shape = z W ∧ (∀ a ∈ ms, a.2.shape.getLastD 0 = W) ∧
      ∀ idx, inRange (z W) idx = true → T.el idx =
        rowSum term (ms.flatMap fun a => tokens a.1 a.2) idx / ((ms.flatMap fun a => tokens a.1 a.2).length : K) := by
  have e' := e p
  rw [h1, flatMap_once] at e'
  obtain ⟨T, W, a1, a2, a3, a4⟩ := stat_finalize L S hp h hf nm lt (by rw [e']; exact hne)
  rw [e'] at a3 a4
  exact ⟨T, W, a1, a2, hwd W a3, fun idx hi => by rw [a4 idx hi, hrows W idx a3 hi]⟩

/-- The forward calls of masked data. -/
theorem forward_tokens {tensors : List (TObj K)} {nm : PyStr} {off : Bool} {ns : List (Nat × Option (Tensor K))} {f : List (StatCall K)}
    {ms : List (Tensor K × Tensor K)} (hms : MaskedValues tensors ns ms)
    (h : List.Forall₂ (fun u c => ∃ x v, tensors[u.1]? = some x ∧ maskActivations u.2 x.val = .ok v ∧
      c = ⟨some .linear, nm, .forward, v, u.2, off⟩) ns f) :
    ∃ cs : List (StatCall K), f = cs.map maskedCall ∧ (∀ c ∈ cs, Masked c ∧ c.logType = .forward ∧ ∃ a, maskActivations c.mask c.data = .ok a) ∧
      cs.flatMap keptRows = (ms.flatMap fun a => tokens a.1 a.2) ∧ ∀ W, (∀ c ∈ f, callWidth c = W) → ∀ a ∈ ms, a.2.shape.getLastD 0 = W := by
  induction hms generalizing f with
  | nil =>
    cases h
    exact ⟨[], rfl, (fun _ hc => nomatch hc), rfl, (fun _ _ _ ha => nomatch ha)⟩
  | @cons u a ns ms hu _ ih =>
    cases h with
    | @cons _ c _ f hc hr =>
      obtain ⟨cs, i1, i2, i3, i4⟩ := ih hr
      obtain ⟨o, e1, e2, e3, e4⟩ := hu
      obtain ⟨x, v, g1, g2, rfl⟩ := hc
      obtain rfl := Option.some.inj (e1.symm.trans g1)
      have hmc : maskedCall (⟨some .linear, nm, .forward, o.val, u.2, off⟩ : StatCall K) = ⟨some .linear, nm, .forward, v, u.2, off⟩ := by
        unfold maskedCall
        simp only [g2]
      have htk : TokenMask a.1 o.val := by rw [← e3]; exact e4
      have hM : Masked (⟨some .linear, nm, .forward, o.val, u.2, off⟩ : StatCall K) := tokenMask_masked (mk := a.1) rfl e2 htk
      refine ⟨⟨some .linear, nm, .forward, o.val, u.2, off⟩ :: cs, by rw [List.map_cons, hmc, i1], fun c hc => ?_, ?_, fun W hW b hb => ?_⟩
      · rcases List.mem_cons.1 hc with rfl | hc
        · exact ⟨hM, rfl, v, g2⟩
        · exact i2 c hc
      · rw [List.flatMap_cons, List.flatMap_cons, i3, keptRows_tokens (mk := a.1) e2 htk, e3]
      · rcases List.mem_cons.1 hb with rfl | hb
        · have := (masked_batch hM g2).2.1
          rw [hmc, hW _ List.mem_cons_self] at this
          rw [e3]; exact this.symm
        · exact i4 W (fun c hc => hW c (List.mem_cons_of_mem _ hc)) b hb

/-- The backward calls of padded data. -/
theorem backward_tokens {tensors : List (TObj K)} {nm : PyStr} {off : Bool} {ns : List (Nat × Option (Tensor K))} {f : List (StatCall K)}
    {ms : List (Tensor K × Tensor K)} (hms : MaskedValues tensors ns ms) (hz : ∀ a ∈ ms, ZeroPadded a.1 a.2)
    (h : List.Forall₂ (fun u c => ∃ x, tensors[u.1]? = some x ∧ c = ⟨some .linear, nm, .backward, x.val, u.2, off⟩) ns f) :
    (∀ c ∈ f, c.module = some .linear ∧ c.logType = .backward ∧ ∃ mk, c.mask = some mk ∧ TokenMask mk c.data ∧ ZeroPadded mk c.data) ∧
      f.flatMap keptRows = (ms.flatMap fun a => tokens a.1 a.2) ∧ ∀ W, (∀ c ∈ f, callWidth c = W) → ∀ a ∈ ms, a.2.shape.getLastD 0 = W := by
  induction hms generalizing f with
  | nil =>
    cases h
    exact ⟨(fun _ hc => nomatch hc), rfl, (fun _ _ _ ha => nomatch ha)⟩
  | @cons u a ns ms hu _ ih =>
    cases h with
    | @cons _ c _ f hc hr =>
      obtain ⟨i2, i3, i4⟩ := ih (fun a ha => hz a (List.mem_cons_of_mem _ ha)) hr
      obtain ⟨o, e1, e2, e3, e4⟩ := hu
      obtain ⟨x, g1, rfl⟩ := hc
      obtain rfl := Option.some.inj (e1.symm.trans g1)
      have htk : TokenMask a.1 o.val := by rw [← e3]; exact e4
      refine ⟨fun c hc => ?_, ?_, fun W hW b hb => ?_⟩
      · rcases List.mem_cons.1 hc with rfl | hc
        · exact ⟨rfl, rfl, a.1, e2, htk, by rw [← e3]; exact hz a List.mem_cons_self⟩
        · exact i2 c hc
      · rw [List.flatMap_cons, List.flatMap_cons, i3, keptRows_tokens (mk := a.1) e2 htk, e3]
      · rcases List.mem_cons.1 hb with rfl | hb
        · have := hW _ List.mem_cons_self
          rw [e3]; exact this
        · exact i4 W (fun c hc => hW c (List.mem_cons_of_mem _ hc)) b hb

theorem mean_term (idx : List Nat) (W : Nat) (h : inRange [W] idx = true) : (∀ r r' : Nat → K, (∀ j, j < W → r j = r' j) → meanTerm r idx = meanTerm r' idx) ∧
    ∀ (k : K) (r : Nat → K), (k = 0 ∨ k = 1) → meanTerm (fun j => k * r j) idx = k * meanTerm r idx := by
  obtain ⟨j, hj, rfl⟩ := idx1 h
  exact ⟨fun r r' h => h j hj, fun k r hk => rfl⟩

theorem cov_term (idx : List Nat) (W : Nat) (h : inRange [W, W] idx = true) : (∀ r r' : Nat → K, (∀ j, j < W → r j = r' j) → covTerm r idx = covTerm r' idx) ∧
    ∀ (k : K) (r : Nat → K), (k = 0 ∨ k = 1) → covTerm (fun j => k * r j) idx = k * covTerm r idx := by
  obtain ⟨i, j, hi, hj, rfl⟩ := idx2 h
  refine ⟨fun r r' h => ?_, fun k r hk => mask_term hk⟩
  show r i * r j = r' i * r' j
  rw [h i hi, h j hj]

end

/-- **C125, forward.** Let a new run be configured in any way in which the raw inputs and output gradients are not logged, with the linear layer `m`
watched (once, under a name of its own). Then let batches be logged by any program with masks of zeros and ones over the positions of the inputs of
the layer, without exception, and `finalize` be called. The mean and the covariance of `forward` for the layer, where configured, are the mean and
the second moment of the inputs at all tokens, in all batches: both the sum and the count leave out the padding. -/
theorem C125_forward [Field K] [DecidableEq K] (E : SEnv K) (ops : List (SOp K)) (hops : ∀ o ∈ ops, Configures o) (n : Nat) (th : Int) (fs : FS) (m : Nat)
    (nm : PyStr) (hk : E.kind m = .linear) (ctx : List (SOp K)) (ids : List PyStr) (mask : Option (Tensor K)) (hx : Context ctx ids mask)
    (body : List (SOp K)) (hbody : ∀ o ∈ body, Logs nm o) (dir : StateDir K) (xs : List (Tensor K × Tensor K))
    (hxs : MaskedValues (allocs body) (notes (input m) m ⟨mask, [], [], []⟩ body) xs) (hne : xs ≠ []) :
    let s := runHistory E ops (Sess.init n th fs)
    Watches s m nm → OnlyStatistics s.opt →
    ∀ t, SAct.each (SOp.run E) (ctx ++ body.map (shift s.user.length) ++ [.finalize dir]) s = (t, none) →
      (s.opt.forward.count .mean = 1 → ∃ T, tensorAt t.st.attrs nMean [nm, LogType.name .forward] = some T ∧ IsTokenMean xs T) ∧
      (s.opt.forward.count .covariance = 1 → ∃ T, tensorAt t.st.attrs nCov [nm, LogType.name .forward] = some T ∧ IsTokenMoment xs T) := by
  intro s hw ho t ht
  obtain ⟨u, dir', h1, h2⟩ := each_finalize ht
  obtain ⟨calls, f, b, g, hup, c1, -, -, r1, -, -⟩ := C105_updates E ops n th fs m nm ctx ids mask hx body hbody hw ho u h1
  rw [show (runHistory E ops (Sess.init n th fs)).st = LState.init from configured_st E ops _ hops] at hup
  rw [hk] at r1
  obtain ⟨cs, rfl, k2, k3, k4⟩ := forward_tokens hxs r1
  have hfne : cs.map maskedCall ≠ [] := by
    rintro h
    rw [h] at r1
    rw [List.forall₂_nil_right_iff.1 r1] at hxs
    cases hxs
    exact hne rfl
  have hcs : ∀ W, (∀ c ∈ cs.map maskedCall, callWidth c = W) → ∀ c ∈ cs, Masked c ∧ c.logType = .forward ∧
      (∃ a, maskActivations c.mask c.data = .ok a) ∧ callWidth (maskedCall c) = W := fun W hW c hc =>
    ⟨(k2 c hc).1, (k2 c hc).2.1, (k2 c hc).2.2, hW _ (List.mem_map_of_mem hc)⟩
  constructor
  · intro hm
    obtain ⟨T, W, a1, a2, a3, a4⟩ := stat_rows statOf_mean (by decide) hup h2 c1 hm hfne k4 (fun W idx hW hi => by
      obtain ⟨q1, q2⟩ := masked_sum (W := W) (meanTerm · idx) (mean_term idx W hi).1 (mean_term idx W hi).2 (hcs W hW)
      unfold rowSum
      rw [q1, q2, k3])
    exact ⟨T, a1, W, a2, a3, fun i hi => a4 [i] (by simp [inRange, hi])⟩
  · intro hm
    obtain ⟨T, W, a1, a2, a3, a4⟩ := stat_rows statOf_cov (by decide) hup h2 c1 hm hfne k4 (fun W idx hW hi => by
      obtain ⟨q1, q2⟩ := masked_sum (W := W) (covTerm · idx) (cov_term idx W hi).1 (cov_term idx W hi).2 (hcs W hW)
      unfold rowSum
      rw [q1, q2, k3])
    exact ⟨T, a1, W, a2, a3, fun i j hi hj => a4 [i, j] (by simp [inRange, hi, hj])⟩

/-- **C125, backward.** The same for `backward`, when the gradients of the outputs of the layer are zero at the padding, as they are when the loss
leaves it out: the statistics are those of the output gradients at all tokens. -/
theorem C125_backward [Field K] [DecidableEq K] (E : SEnv K) (ops : List (SOp K)) (hops : ∀ o ∈ ops, Configures o) (n : Nat) (th : Int) (fs : FS) (m : Nat)
    (nm : PyStr) (hk : E.kind m = .linear) (ctx : List (SOp K)) (ids : List PyStr) (mask : Option (Tensor K)) (hx : Context ctx ids mask)
    (body : List (SOp K)) (hbody : ∀ o ∈ body, Logs nm o) (dir : StateDir K) (gs : List (Tensor K × Tensor K))
    (hgs : MaskedValues (allocs body) (notes outGrad m ⟨mask, [], [], []⟩ body) gs) (hz : ∀ a ∈ gs, ZeroPadded a.1 a.2) (hne : gs ≠ []) :
    let s := runHistory E ops (Sess.init n th fs)
    Watches s m nm → OnlyStatistics s.opt → s.opt.backward ≠ [] →
    ∀ t, SAct.each (SOp.run E) (ctx ++ body.map (shift s.user.length) ++ [.finalize dir]) s = (t, none) →
      (s.opt.backward.count .mean = 1 → ∃ T, tensorAt t.st.attrs nMean [nm, LogType.name .backward] = some T ∧ IsTokenMean gs T) ∧
      (s.opt.backward.count .covariance = 1 → ∃ T, tensorAt t.st.attrs nCov [nm, LogType.name .backward] = some T ∧ IsTokenMoment gs T) := by
  intro s hw ho hb t ht
  obtain ⟨u, dir', h1, h2⟩ := each_finalize ht
  obtain ⟨calls, _, f, _, hup, -, c1, -, -, r1, -⟩ := C105_updates E ops n th fs m nm ctx ids mask hx body hbody hw ho u h1
  rw [show (runHistory E ops (Sess.init n th fs)).st = LState.init from configured_st E ops _ hops] at hup
  have r1 := r1 hb
  rw [hk] at r1
  obtain ⟨k2, k3, k4⟩ := backward_tokens hgs hz r1
  have hfne : f ≠ [] := by
    rintro rfl
    rw [List.forall₂_nil_right_iff.1 r1] at hgs
    cases hgs
    exact hne rfl
  obtain ⟨q1, q2⟩ := padded_sum k2
  constructor
  · intro hm
    obtain ⟨T, W, a1, a2, a3, a4⟩ := stat_rows statOf_mean (by decide) hup h2 c1 hm hfne k4 (fun W idx hW hi => by
      unfold rowSum
      rw [q1, q2 _ rfl, k3])
    exact ⟨T, a1, W, a2, a3, fun i hi => a4 [i] (by simp [inRange, hi])⟩
  · intro hm
    obtain ⟨T, W, a1, a2, a3, a4⟩ := stat_rows statOf_cov (by decide) hup h2 c1 hm hfne k4 (fun W idx hW hi => by
      unfold rowSum
      rw [q1, q2 _ (mul_zero _), k3])
    exact ⟨T, a1, W, a2, a3, fun i j hi hj => a4 [i, j] (by simp [inRange, hi, hj])⟩

end Logix
