/-
C126: padding does not matter.
-/
import Verif.Props.TokenScores
import Verif.Props.Grad

set_option linter.unusedSectionVars false

namespace Logix
open Spec
variable {K : Type}

theorem zipWith_maps {α β γ δ : Type} (h : β → γ → δ) (f : α → β) (g : α → γ) (l : List α) :
    List.zipWith h (l.map f) (l.map g) = l.map fun p => h (f p) (g p) := by
  induction l with
  | nil => rfl
  | cons a l ih => rw [List.map_cons, List.map_cons, List.zipWith_cons_cons, ih]; rfl

section
variable [CommSemiring K] [DecidableEq K]

theorem tokenMask_shape {mk x : Tensor K} (h : TokenMask mk x) : ∃ N mid w, x.shape = N :: (mid ++ [w]) ∧ mk.shape = N :: mid := by
  obtain ⟨h1, h2, -⟩ := h
  match hs : x.shape, h1 with
  | n :: a :: s, _ =>
    obtain ⟨s0, w, e⟩ : ∃ s0 w, a :: s = s0 ++ [w] := ⟨_, _, (List.dropLast_append_getLast (by simp)).symm⟩
    refine ⟨n, s0, w, by rw [e], ?_⟩
    rw [h2, hs, e, ← List.cons_append, List.dropLast_concat]

/-- The per-sample gradient of a linear layer from the tokens. -/
theorem gradient_tokens {mk x g v : Tensor K} (hx : TokenMask mk x) (hg : TokenMask mk g) (hz : ZeroPadded mk g)
    (h : computePerSampleGradient x g .linear = .ok v) :
    v.shape = [x.size 0, g.shape.getLastD 0, x.shape.getLastD 0] ∧ ∀ n i j, n < x.size 0 → i < g.shape.getLastD 0 → j < x.shape.getLastD 0 →
      v.el [n, i, j] = (List.zipWith (fun a b => a i * b j) (sampleTokens mk g n) (sampleTokens mk x n)).sum := by
  obtain ⟨N, mid, J, x1, x2⟩ := tokenMask_shape hx
  obtain ⟨N', mid', I, g1, g2⟩ := tokenMask_shape hg
  obtain ⟨rfl, rfl⟩ := List.cons.inj (x2.symm.trans g2)
  have hd : g.dev = x.dev := by
    change outerSum g x = .ok v at h
    unfold outerSum at h
    split at h
    · simp only at h
      split at h
      · next hc => exact hc.2.2
      · cases h
    · cases h
  obtain ⟨v', k1, k2, -, k4⟩ := outerSum_ok g x N I J mid g1 x1 hd
  obtain rfl := Except.ok.inj (k1.symm.trans h)
  have s0 : x.size 0 = N := by rw [Tensor.size, x1]; rfl
  have sx : x.shape.getLastD 0 = J := by rw [x1, ← List.cons_append]; exact List.getLastD_concat ..
  have sg : g.shape.getLastD 0 = I := by rw [g1, ← List.cons_append]; exact List.getLastD_concat ..
  rw [s0, sx, sg]
  refine ⟨k2, fun n i j hn hi hj => ?_⟩
  rw [k4 n i j hn hi hj]
  unfold sampleTokens
  rw [zipWith_maps, x2, List.tail_cons, ← sum_mask (fun p => g.el (n :: (p ++ [i])) * x.el (n :: (p ++ [j]))) (fun p => mk.el (n :: p)) _ fun p _ => hx.2.2 _]
  congr 1
  apply List.map_congr_left
  intro p _
  rcases hx.2.2 (n :: p) with h0 | h1
  · have := hz (n :: p) i h0
    rw [List.cons_append] at this
    rw [this, zero_mul, mul_zero]
  · rw [h1, one_mul]

end

section
variable [CommSemiring K] [DecidableEq K]

/-- Both tensors have the same shape and the same entries. -/
def SameEntries (t t' : Tensor K) : Prop := t.shape = t'.shape ∧ ∀ idx, t.el idx = t'.el idx

theorem inRange_three_lt {a b c : Nat} {idx : List Nat} (h : inRange [a, b, c] idx = true) : ∃ i j k, idx = [i, j, k] ∧ i < a ∧ j < b ∧ k < c := by
  match idx, h with
  | [], h => cases h
  | [i], h => simp [inRange] at h
  | [i, j], h => simp [inRange] at h
  | [i, j, k], h =>
    simp only [inRange, Bool.and_eq_true, decide_eq_true_eq, and_true] at h
    exact ⟨i, j, k, rfl, h.1, h.2.1, h.2.2⟩
  | _ :: _ :: _ :: _ :: _, h => simp [inRange] at h

theorem el_out {t : Tensor K} {idx : List Nat} (h : ¬ inRange t.shape idx = true) : t.el idx = 0 := by
  rw [Tensor.el, if_neg h]

/-- Uses that are the same up to padding have the same per-sample gradients. -/
theorem sameUse_gradient {x g x' g' mk mk' v v' : Tensor K} (h1 : TokenMask mk x) (h2 : TokenMask mk g) (h3 : TokenMask mk' x') (h4 : TokenMask mk' g')
    (hx : SameTokens (mk, x) (mk', x')) (hg : SameTokens (mk, g) (mk', g')) (hz : ZeroPadded mk g) (hz' : ZeroPadded mk' g')
    (h : computePerSampleGradient x g .linear = .ok v) (h' : computePerSampleGradient x' g' .linear = .ok v') : SameEntries v v' := by
  obtain ⟨a1, a2⟩ := gradient_tokens h1 h2 hz h
  obtain ⟨b1, b2⟩ := gradient_tokens h3 h4 hz' h'
  obtain ⟨x1, x2, x3⟩ := hx
  obtain ⟨-, g2, g3⟩ := hg
  simp only at x1 x2 x3 g2 g3
  have hs : v.shape = v'.shape := by rw [a1, b1, x1, x2, g2]
  refine ⟨hs, fun idx => ?_⟩
  by_cases hi : inRange v.shape idx = true
  · have hi' := hi
    rw [a1] at hi'
    obtain ⟨n, i, j, rfl, hn, hi1, hj⟩ := inRange_three_lt hi'
    rw [a2 n i j hn hi1 hj, b2 n i j (by rw [← x1]; exact hn) (by rw [← g2]; exact hi1) (by rw [← x2]; exact hj), x3, g3]
  · rw [el_out hi, el_out (by rw [← hs]; exact hi)]

/-- **C126, gradients.** Two batches in which the uses of a linear layer are the same up to padding have the same per-sample gradients. -/
theorem C126_gradients {tensors tensors' : List (TObj K)} {us us' : List (Nat × Nat)} {T T' : Tensor K} (hu : List.Forall₂ (SameUse tensors tensors') us us')
    (h : BatchGrad tensors .linear us T) (h' : BatchGrad tensors' .linear us' T') : T.shape = T'.shape ∧ ∀ idx, T.el idx = T'.el idx := by
  obtain ⟨vs, v1, v2, v3, v4⟩ := h
  obtain ⟨vs', w1, w2, w3, w4⟩ := h'
  have key : List.Forall₂ SameEntries vs vs' := by
    clear v2 v3 v4 w2 w3 w4
    induction hu generalizing vs vs' with
    | nil => cases v1; cases w1; exact .nil
    | cons hc _ ih =>
      cases v1 with
      | cons a1 a2 =>
        cases w1 with
        | cons b1 b2 =>
          refine .cons ?_ (ih _ a2 _ b2)
          obtain ⟨x, g, x', g', mk, mk', e1, e2, e3, e4, t1, t2, t3, t4, s1, s2, z1, z2⟩ := hc
          obtain ⟨y, k, f1, f2, f3⟩ := a1
          obtain ⟨y', k', f4, f5, f6⟩ := b1
          obtain rfl := Option.some.inj (e1.symm.trans f1)
          obtain rfl := Option.some.inj (e2.symm.trans f2)
          obtain rfl := Option.some.inj (e3.symm.trans f4)
          obtain rfl := Option.some.inj (e4.symm.trans f5)
          exact sameUse_gradient t1 t2 t3 t4 s1 s2 z1 z2 f3 f6
  constructor
  · cases key with
    | nil => exact absurd rfl v2
    | cons hc _ => rw [← v3 _ List.mem_cons_self, ← w3 _ List.mem_cons_self]; exact hc.1
  · intro idx
    rw [v4, w4]
    congr 1
    clear v1 w1 v2 v3 v4 w2 w3 w4
    induction key with
    | nil => rfl
    | cons hc _ ih => rw [List.map_cons, List.map_cons, hc.2 idx, ih]

theorem sameTokens_tokens {a a' : Tensor K × Tensor K} (h : SameTokens a a') : tokens a.1 a.2 = tokens a'.1 a'.2 := by
  obtain ⟨h1, -, h2⟩ := h
  unfold tokens
  rw [h1]
  exact List.flatMap_congr fun n _ => h2 n

theorem sameTokens_all {ms ms' : List (Tensor K × Tensor K)} (h : List.Forall₂ SameTokens ms ms') :
    (ms.flatMap fun a => tokens a.1 a.2) = ms'.flatMap fun a => tokens a.1 a.2 := by
  induction h with
  | nil => rfl
  | cons hc _ ih => rw [List.flatMap_cons, List.flatMap_cons, ih, sameTokens_tokens hc]

end

section
variable [Field K] [DecidableEq K]

theorem tokenMean_same {ms ms' : List (Tensor K × Tensor K)} (h : List.Forall₂ SameTokens ms ms') (hne : ms ≠ []) {T T' : Tensor K}
    (hT : IsTokenMean ms T) (hT' : IsTokenMean ms' T') : T.shape = T'.shape ∧ ∀ idx, inRange T.shape idx = true → T.el idx = T'.el idx := by
  obtain ⟨W, a1, a2, a3⟩ := hT
  obtain ⟨W', b1, b2, b3⟩ := hT'
  have hW : W' = W := by
    cases h with
    | nil => exact absurd rfl hne
    | cons hc _ => rw [← a2 _ List.mem_cons_self, ← b2 _ List.mem_cons_self]; exact hc.2.1.symm
  subst hW
  refine ⟨a1.trans b1.symm, fun idx hi => ?_⟩
  rw [a1] at hi
  obtain ⟨i, hi', rfl⟩ := idx1 hi
  rw [a3 i hi', b3 i hi', sameTokens_all h]

theorem tokenMoment_same {ms ms' : List (Tensor K × Tensor K)} (h : List.Forall₂ SameTokens ms ms') (hne : ms ≠ []) {T T' : Tensor K}
    (hT : IsTokenMoment ms T) (hT' : IsTokenMoment ms' T') : T.shape = T'.shape ∧ ∀ idx, inRange T.shape idx = true → T.el idx = T'.el idx := by
  obtain ⟨W, a1, a2, a3⟩ := hT
  obtain ⟨W', b1, b2, b3⟩ := hT'
  have hW : W' = W := by
    cases h with
    | nil => exact absurd rfl hne
    | cons hc _ => rw [← a2 _ List.mem_cons_self, ← b2 _ List.mem_cons_self]; exact hc.2.1.symm
  subst hW
  refine ⟨a1.trans b1.symm, fun idx hi => ?_⟩
  rw [a1] at hi
  obtain ⟨i, j, hi', hj', rfl⟩ := idx2 hi
  rw [a3 i j hi' hj', b3 i j hi' hj', sameTokens_all h]

theorem forall₂_ne_nil {α β : Type} {R : α → β → Prop} {l : List α} {l' : List β} (h : List.Forall₂ R l l') (hl : l ≠ []) : l' ≠ [] := by
  rintro rfl
  exact hl (List.forall₂_nil_right_iff.1 h)

/-- **C126, forward.** Two sessions of the same configuration run programs whose calls of a linear layer have the same inputs up to padding: in each
call the same samples with the same tokens, and any padding, marked by the masks. Then the mean and the covariance of `forward` are the same. -/
theorem C126_forward (E : SEnv K) (ops : List (SOp K)) (hops : ∀ o ∈ ops, Configures o) (n : Nat) (th : Int) (fs : FS) (m : Nat)
    (nm : PyStr) (hk : E.kind m = .linear) (ctx ctx' : List (SOp K)) (ids ids' : List PyStr) (mask mask' : Option (Tensor K)) (hx : Context ctx ids mask)
    (hx' : Context ctx' ids' mask') (body body' : List (SOp K)) (hbody : ∀ o ∈ body, Logs nm o) (hbody' : ∀ o ∈ body', Logs nm o) (dir dir' : StateDir K)
    (hsame : SameNotes (allocs body) (allocs body') (notes (input m) m ⟨mask, [], [], []⟩ body) (notes (input m) m ⟨mask', [], [], []⟩ body'))
    (hne : notes (input m) m ⟨mask, [], [], []⟩ body ≠ []) :
    let s := runHistory E ops (Sess.init n th fs)
    Watches s m nm → OnlyStatistics s.opt →
    ∀ t t', SAct.each (SOp.run E) (ctx ++ body.map (shift s.user.length) ++ [.finalize dir]) s = (t, none) →
      SAct.each (SOp.run E) (ctx' ++ body'.map (shift s.user.length) ++ [.finalize dir']) s = (t', none) →
      (s.opt.forward.count .mean = 1 →
        SameTensor (tensorAt t.st.attrs nMean [nm, LogType.name .forward]) (tensorAt t'.st.attrs nMean [nm, LogType.name .forward])) ∧
      (s.opt.forward.count .covariance = 1 →
        SameTensor (tensorAt t.st.attrs nCov [nm, LogType.name .forward]) (tensorAt t'.st.attrs nCov [nm, LogType.name .forward])) := by
  intro s hw ho t t' ht ht'
  obtain ⟨ms, ms', v1, v2, v3⟩ := hsame
  have n1 := forall₂_ne_nil v1 hne
  obtain ⟨a1, a2⟩ := C125_forward E ops hops n th fs m nm hk ctx ids mask hx body hbody dir ms v1 n1 hw ho t ht
  obtain ⟨b1, b2⟩ := C125_forward E ops hops n th fs m nm hk ctx' ids' mask' hx' body' hbody' dir' ms' v2 (forall₂_ne_nil v3 n1) hw ho t' ht'
  constructor
  · intro hm
    obtain ⟨T, p1, p2⟩ := a1 hm
    obtain ⟨T', q1, q2⟩ := b1 hm
    exact ⟨T, T', p1, q1, tokenMean_same v3 n1 p2 q2⟩
  · intro hm
    obtain ⟨T, p1, p2⟩ := a2 hm
    obtain ⟨T', q1, q2⟩ := b2 hm
    exact ⟨T, T', p1, q1, tokenMoment_same v3 n1 p2 q2⟩

/-- **C126, backward.** The same for `backward`, when the output gradients are zero at the padding. -/
theorem C126_backward (E : SEnv K) (ops : List (SOp K)) (hops : ∀ o ∈ ops, Configures o) (n : Nat) (th : Int) (fs : FS) (m : Nat)
    (nm : PyStr) (hk : E.kind m = .linear) (ctx ctx' : List (SOp K)) (ids ids' : List PyStr) (mask mask' : Option (Tensor K)) (hx : Context ctx ids mask)
    (hx' : Context ctx' ids' mask') (body body' : List (SOp K)) (hbody : ∀ o ∈ body, Logs nm o) (hbody' : ∀ o ∈ body', Logs nm o) (dir dir' : StateDir K)
    (hsame : SameGradNotes (allocs body) (allocs body') (notes outGrad m ⟨mask, [], [], []⟩ body) (notes outGrad m ⟨mask', [], [], []⟩ body'))
    (hne : notes outGrad m ⟨mask, [], [], []⟩ body ≠ []) :
    let s := runHistory E ops (Sess.init n th fs)
    Watches s m nm → OnlyStatistics s.opt → s.opt.backward ≠ [] →
    ∀ t t', SAct.each (SOp.run E) (ctx ++ body.map (shift s.user.length) ++ [.finalize dir]) s = (t, none) →
      SAct.each (SOp.run E) (ctx' ++ body'.map (shift s.user.length) ++ [.finalize dir']) s = (t', none) →
      (s.opt.backward.count .mean = 1 →
        SameTensor (tensorAt t.st.attrs nMean [nm, LogType.name .backward]) (tensorAt t'.st.attrs nMean [nm, LogType.name .backward])) ∧
      (s.opt.backward.count .covariance = 1 →
        SameTensor (tensorAt t.st.attrs nCov [nm, LogType.name .backward]) (tensorAt t'.st.attrs nCov [nm, LogType.name .backward])) := by
  intro s hw ho hb t t' ht ht'
  obtain ⟨ms, ms', v1, v2, v3, v4⟩ := hsame
  have n1 := forall₂_ne_nil v1 hne
  obtain ⟨a1, a2⟩ := C125_backward E ops hops n th fs m nm hk ctx ids mask hx body hbody dir ms v1 (fun a ha => v4 a (List.mem_append_left _ ha)) n1 hw ho hb t ht
  obtain ⟨b1, b2⟩ := C125_backward E ops hops n th fs m nm hk ctx' ids' mask' hx' body' hbody' dir' ms' v2
    (fun a ha => v4 a (List.mem_append_right _ ha)) (forall₂_ne_nil v3 n1) hw ho hb t' ht'
  constructor
  · intro hm
    obtain ⟨T, p1, p2⟩ := a1 hm
    obtain ⟨T', q1, q2⟩ := b1 hm
    exact ⟨T, T', p1, q1, tokenMean_same v3 n1 p2 q2⟩
  · intro hm
    obtain ⟨T, p1, p2⟩ := a2 hm
    obtain ⟨T', q1, q2⟩ := b2 hm
    exact ⟨T, T', p1, q1, tokenMoment_same v3 n1 p2 q2⟩

/-! ### Statistics of gradients -/

theorem sameEntries_rows {gs gs' : List (Tensor K)} (h : List.Forall₂ SameEntries gs gs') :
    (gs.flatMap fun a => rows a none .grad) = (gs'.flatMap fun a => rows a none .grad) ∧ gs.map (fun a => a.size 0) = gs'.map fun a => a.size 0 := by
  induction h with
  | nil => exact ⟨rfl, rfl⟩
  | @cons g g' gs gs' hc _ ih =>
    obtain ⟨h1, h2⟩ := hc
    have hs : g.size 0 = g'.size 0 := by rw [Tensor.size, Tensor.size, h1]
    constructor
    · rw [List.flatMap_cons, List.flatMap_cons, ih.1]
      congr 1
      unfold rows
      rw [hs, h1]
      apply List.map_congr_left
      intro i _
      funext j
      exact h2 _
    · rw [List.map_cons, List.map_cons, ih.2, hs]

/-- **C126, grad.** The same for `grad`, when gradients are logged: batches whose uses of the layer are the same up to padding. -/
theorem C126_grad (E : SEnv K) (ops : List (SOp K)) (hops : ∀ o ∈ ops, Configures o) (n : Nat) (th : Int) (fs : FS) (m : Nat)
    (nm : PyStr) (hk : E.kind m = .linear) (ctx ctx' : List (SOp K)) (ids ids' : List PyStr) (mask mask' : Option (Tensor K)) (hx : Context ctx ids mask)
    (hx' : Context ctx' ids' mask') (body body' : List (SOp K)) (hbody : ∀ o ∈ body, Logs nm o) (hbody' : ∀ o ∈ body', Logs nm o) (dir dir' : StateDir K)
    (hsame : List.Forall₂ (fun u u' => List.Forall₂ (SameUse (allocs body) (allocs body')) u.1 u'.1)
      (notes batchGrads m ⟨mask, [], [], []⟩ body) (notes batchGrads m ⟨mask', [], [], []⟩ body'))
    (hne : notes batchGrads m ⟨mask, [], [], []⟩ body ≠ []) :
    let s := runHistory E ops (Sess.init n th fs)
    Watches s m nm → OnlyStatistics s.opt → s.opt.grad.head? = some .log →
    ∀ t t', SAct.each (SOp.run E) (ctx ++ body.map (shift s.user.length) ++ [.finalize dir]) s = (t, none) →
      SAct.each (SOp.run E) (ctx' ++ body'.map (shift s.user.length) ++ [.finalize dir']) s = (t', none) →
      (s.opt.grad.tail.count .mean = 1 →
        SameTensor (tensorAt t.st.attrs nMean [nm, LogType.name .grad]) (tensorAt t'.st.attrs nMean [nm, LogType.name .grad])) ∧
      (s.opt.grad.tail.count .covariance = 1 →
        SameTensor (tensorAt t.st.attrs nCov [nm, LogType.name .grad]) (tensorAt t'.st.attrs nCov [nm, LogType.name .grad])) := by
  intro s hw ho hg t t' ht ht'
  obtain ⟨gs, a0, a1, a2⟩ := C105_grad E ops hops n th fs m nm ctx ids mask hx body hbody dir hw ho hg t ht (fun h => hne (List.map_eq_nil_iff.1 h))
  obtain ⟨gs', b0, b1, b2⟩ := C105_grad E ops hops n th fs m nm ctx' ids' mask' hx' body' hbody' dir' hw ho hg t' ht'
    (fun h => forall₂_ne_nil hsame hne (List.map_eq_nil_iff.1 h))
  rw [hk] at a0 b0
  have hgs : List.Forall₂ SameEntries gs gs' := by
    clear a1 a2 b1 b2 hne ht ht'
    rw [List.forall₂_map_left_iff] at a0 b0
    generalize notes batchGrads m ⟨mask, [], [], []⟩ body = ns at hsame a0
    generalize notes batchGrads m ⟨mask', [], [], []⟩ body' = ns' at hsame b0
    induction hsame generalizing gs gs' with
    | nil => cases a0; cases b0; exact .nil
    | cons hc _ ih =>
      cases a0 with
      | cons p1 p2 =>
        cases b0 with
        | cons q1 q2 => exact .cons (C126_gradients hc p1 q1) (ih _ _ p2 q2)
  have hgn : gs ≠ [] := forall₂_ne_nil a0 (fun h => hne (List.map_eq_nil_iff.1 h))
  obtain ⟨r1, r2⟩ := sameEntries_rows hgs
  have hwid : ∀ W W', (∀ a ∈ gs, width a none .grad = W) → (∀ a ∈ gs', width a none .grad = W') → W' = W := by
    intro W W' hW hW'
    cases hgs with
    | nil => exact absurd rfl hgn
    | cons hc _ =>
      rw [← hW _ List.mem_cons_self, ← hW' _ List.mem_cons_self]
      unfold width
      rw [hc.1]
  constructor
  · intro hm
    obtain ⟨T, p1, W, p2, p3, p4⟩ := a1 hm
    obtain ⟨T', q1, W', q2, q3, q4⟩ := b1 hm
    obtain rfl := hwid W W' p3 q3
    refine ⟨T, T', p1, q1, p2.trans q2.symm, fun idx hi => ?_⟩
    rw [p2] at hi
    obtain ⟨i, hi', rfl⟩ := idx1 hi
    rw [p4 i hi', q4 i hi', r1, r2]
  · intro hm
    obtain ⟨T, p1, W, p2, p3, p4⟩ := a2 hm
    obtain ⟨T', q1, W', q2, q3, q4⟩ := b2 hm
    obtain rfl := hwid W W' p3 q3
    refine ⟨T, T', p1, q1, p2.trans q2.symm, fun idx hi => ?_⟩
    rw [p2] at hi
    obtain ⟨i, j, hi', hj', rfl⟩ := idx2 hi
    rw [p4 i j hi' hj', q4 i j hi' hj', r1, r2]

end

section
variable [Field K] [LinearOrder K] [IsStrictOrderedRing K]

/-- Two sessions that log the same tokens end with the same covariances. -/
theorem padding_hessian (E : SEnv K) (hE : EighOk E.lib) (hI : InverseOk E.lib) (ops : List (SOp K)) (hops : ∀ o ∈ ops, Configures o) (n : Nat) (th : Int) (fs : FS)
    (mods : PyStr → Nat) (ctx ctx' : List (SOp K)) (ids ids' : List PyStr) (mask mask' : Option (Tensor K)) (hx : Context ctx ids mask)
    (hx' : Context ctx' ids' mask') (hmk : NonnegMask mask) (hmk' : NonnegMask mask') (body body' : List (SOp K)) (d : GLog K)
    (hbody : ∀ o ∈ body, Masks NonnegMask o ∧ ∀ nm ∈ Dict.keys d, Logs nm o) (hbody' : ∀ o ∈ body', Masks NonnegMask o ∧ ∀ nm ∈ Dict.keys d, Logs nm o)
    (dir dir' : StateDir K) (hessian : Hess) (hne : Dict.keys d ≠ []) :
    let s := runHistory E ops (Sess.init n th fs)
    OnlyStatistics s.opt → PlainStats s.opt →
    (((hessian = .kfac ∨ hessian = .auto ∧ .covariance ∉ s.opt.grad.tail) ∧ s.opt.forward.count .covariance = 1 ∧ s.opt.backward.count .covariance = 1 ∧
        SameKfacTokens E s mods (Dict.keys d) mask mask' body body') ∨
      ((hessian = .raw ∨ hessian = .auto) ∧ s.opt.grad.head? = some .log ∧ s.opt.grad.tail.count .covariance = 1 ∧
        SameRawTokens E s mods (Dict.keys d) mask mask' body body')) →
    ∀ t t', SAct.each (SOp.run E) (ctx ++ body.map (shift s.user.length) ++ [.finalize dir]) s = (t, none) →
      SAct.each (SOp.run E) (ctx' ++ body'.map (shift s.user.length) ++ [.finalize dir']) s = (t', none) →
    ∀ c, 0 < c → PosHessian E.lib t.st (Dict.keys d) hessian c ∧ PosHessian E.lib t'.st (Dict.keys d) hessian c ∧ t.st.hasAttr nEkfac = false ∧
      t'.st.hasAttr nEkfac = false ∧ SameHessian t.st t'.st (Dict.keys d) hessian := by
  intro s ho hp hh t t' ht ht' c hc
  have hwat : ∀ nm ∈ Dict.keys d, Watches s (mods nm) nm := by
    rcases hh with ⟨-, -, -, k⟩ | ⟨-, -, -, k⟩
    · exact fun nm hm => (k.watched nm hm).1
    · exact fun nm hm => (k.watched nm hm).1
  have fin := fun nm (hm : nm ∈ Dict.keys d) => masked_finalized E ops hops n th fs (mods nm) nm ctx ids mask hx hmk body
    (fun o h => ⟨(hbody o h).2 nm hm, (hbody o h).1⟩) dir (hwat nm hm) ho hp t ht
  have fin' := fun nm (hm : nm ∈ Dict.keys d) => masked_finalized E ops hops n th fs (mods nm) nm ctx' ids' mask' hx' hmk' body'
    (fun o h => ⟨(hbody' o h).2 nm hm, (hbody' o h).1⟩) dir' (hwat nm hm) ho hp t' ht'
  have hb : ∀ nm ∈ Dict.keys d, ∀ o ∈ body, Logs nm o := fun nm hm o h => (hbody o h).2 nm hm
  have hb' : ∀ nm ∈ Dict.keys d, ∀ o ∈ body', Logs nm o := fun nm hm o h => (hbody' o h).2 nm hm
  have key : (SameHessian t.st t'.st (Dict.keys d) hessian ∧ HasHessian t.st (Dict.keys d) hessian ∧ HasHessian t'.st (Dict.keys d) hessian) := by
    rcases hh with ⟨h0, h1, h2, k⟩ | ⟨h0, h1, h2, k⟩
    · obtain ⟨nm, hm⟩ := List.exists_mem_of_ne_nil _ hne
      obtain ⟨calls, hfin, hg, -⟩ := fin nm hm
      obtain ⟨calls', hfin', hg', -⟩ := fin' nm hm
      have hu := usesKfac_of_calls (keys := Dict.keys d) hfin (h0.imp id fun h => ⟨h.1, fun m _ => hg h.2 m⟩)
      have hu' := usesKfac_of_calls (keys := Dict.keys d) hfin' (h0.imp id fun h => ⟨h.1, fun m _ => hg' h.2 m⟩)
      have sc : ∀ m ∈ Dict.keys d, SameCov t.st t'.st m .forward ∧ SameCov t.st t'.st m .backward := fun m hm =>
        ⟨(C126_forward E ops hops n th fs (mods m) m (k.watched m hm).2 ctx ctx' ids ids' mask mask' hx hx' body body' (hb m hm) (hb' m hm) dir dir'
            (k.forward m hm) (k.used m hm).1 (hwat m hm) ho t t' ht ht').2 h1,
          (C126_backward E ops hops n th fs (mods m) m (k.watched m hm).2 ctx ctx' ids ids' mask mask' hx hx' body body' (hb m hm) (hb' m hm) dir dir'
            (k.backward m hm) (k.used m hm).2 (hwat m hm) ho (count_one_ne_nil h2) t t' ht ht').2 h2⟩
      refine ⟨.inl ⟨hu, hu', sc⟩, .inl ⟨hu, fun m hm => ?_⟩, .inl ⟨hu', fun m hm => ?_⟩⟩
      · obtain ⟨⟨t, t', a, -⟩, ⟨v, v', b, -⟩⟩ := sc m hm
        rw [a, b]; exact ⟨rfl, rfl⟩
      · obtain ⟨⟨t, t', -, a, -⟩, ⟨v, v', -, b, -⟩⟩ := sc m hm
        rw [a, b]; exact ⟨rfl, rfl⟩
    · have sc : ∀ m ∈ Dict.keys d, SameCov t.st t'.st m .grad := fun m hm =>
        (C126_grad E ops hops n th fs (mods m) m (k.watched m hm).2 ctx ctx' ids ids' mask mask' hx hx' body body' (hb m hm) (hb' m hm) dir dir'
            (k.grads m hm) (k.used m hm) (hwat m hm) ho h1 t t' ht ht').2 h2
      have raw : ∀ m ∈ Dict.keys d, UsesRaw t.st [m] hessian := fun m hm => by
        obtain ⟨calls, hfin, -, hr⟩ := fin m hm
        exact usesRaw_of_calls hfin h0 fun m' h' => by rw [List.mem_singleton.1 h']; exact hr h2 h1 (k.used m hm)
      have raw' : ∀ m ∈ Dict.keys d, UsesRaw t'.st [m] hessian := fun m hm => by
        obtain ⟨calls, hfin, -, hr⟩ := fin' m hm
        exact usesRaw_of_calls hfin h0 fun m' h' => by rw [List.mem_singleton.1 h']; exact hr h2 h1 (forall₂_ne_nil (k.grads m hm) (k.used m hm))
      have lift : ∀ st : LState K, (∀ m ∈ Dict.keys d, UsesRaw st [m] hessian) → UsesRaw st (Dict.keys d) hessian := fun st hr =>
        h0.imp id fun h => ⟨h, fun cov hcov m hm sub hsub => by
          rcases hr m hm with h' | ⟨-, h'⟩
          · rw [h] at h'; cases h'
          · exact h' cov hcov m (List.mem_singleton.2 rfl) sub hsub⟩
      have hu := lift _ raw
      have hu' := lift _ raw'
      refine ⟨.inr ⟨hu, hu', sc⟩, .inr ⟨hu, fun m hm => ?_⟩, .inr ⟨hu', fun m hm => ?_⟩⟩
      · obtain ⟨t, t', a, -⟩ := sc m hm
        rw [a]; rfl
      · obtain ⟨t, t', -, a, -⟩ := sc m hm
        rw [a]; rfl
  obtain ⟨h1, h2, h3⟩ := key
  obtain ⟨nm, hm⟩ := List.exists_mem_of_ne_nil _ hne
  obtain ⟨calls, hfin, -⟩ := fin nm hm
  obtain ⟨calls', hfin', -⟩ := fin' nm hm
  exact ⟨posHessian_of_logged hE hI hfin hc h2, posHessian_of_logged hE hI hfin' hc h3, finalized_hasAttr hfin (by decide) rfl,
    finalized_hasAttr hfin' (by decide) rfl, h1⟩

/-- **C126, scores.** Two sessions of the same configuration, with covariances of `forward` and `backward` (KFAC) or with logs and covariances of `grad`
(empirical Fisher), log the same tokens with any padding, and are finalized. Then `compute_influence` gives the same scores in both, for the same
sources and targets, any mode, groups and positive damping. -/
theorem C126_scores (E : SEnv K) (hE : EighOk E.lib) (hI : InverseOk E.lib) (ops : List (SOp K)) (hops : ∀ o ∈ ops, Configures o) (n : Nat) (th : Int) (fs : FS)
    (mods : PyStr → Nat) (ctx ctx' : List (SOp K)) (ids ids' : List PyStr) (mask mask' : Option (Tensor K)) (hx : Context ctx ids mask)
    (hx' : Context ctx' ids' mask') (hmk : NonnegMask mask) (hmk' : NonnegMask mask') (body body' : List (SOp K)) (d e : GLog K)
    (hbody : ∀ o ∈ body, Masks NonnegMask o ∧ ∀ nm ∈ Dict.keys d, Logs nm o) (hbody' : ∀ o ∈ body', Masks NonnegMask o ∧ ∀ nm ∈ Dict.keys d, Logs nm o)
    (dir dir' : StateDir K) (hessian : Hess) (hne : Dict.keys d ≠ []) :
    let s := runHistory E ops (Sess.init n th fs)
    OnlyStatistics s.opt → PlainStats s.opt →
    (((hessian = .kfac ∨ hessian = .auto ∧ .covariance ∉ s.opt.grad.tail) ∧ s.opt.forward.count .covariance = 1 ∧ s.opt.backward.count .covariance = 1 ∧
        SameKfacTokens E s mods (Dict.keys d) mask mask' body body') ∨
      ((hessian = .raw ∨ hessian = .auto) ∧ s.opt.grad.head? = some .log ∧ s.opt.grad.tail.count .covariance = 1 ∧
        SameRawTokens E s mods (Dict.keys d) mask mask' body body')) →
    ∀ t t', SAct.each (SOp.run E) (ctx ++ body.map (shift s.user.length) ++ [.finalize dir]) s = (t, none) →
      SAct.each (SOp.run E) (ctx' ++ body'.map (shift s.user.length) ++ [.finalize dir']) s = (t', none) →
    ∀ srcIds tgtIds, Labelled srcIds d → Labelled tgtIds e → ∀ mode pre groups sqrt c, 0 < c → mode = .dot ∨ Dict.keys d = Dict.keys e → ∀ u u' r r',
      computeInfluence E.lib sqrt t.st srcIds (.dict d) tgtIds (.dict e) mode pre hessian groups (some c) = .ok (u, r) →
      computeInfluence E.lib sqrt t'.st srcIds (.dict d) tgtIds (.dict e) mode pre hessian groups (some c) = .ok (u', r') →
      r.srcIds = r'.srcIds ∧ r.tgtIds = r'.tgtIds ∧ ∀ k, k = ['t', 'o', 't', 'a', 'l'] ∨ k ∈ groups.getD [] →
        ∃ T, r.influence.get? k = some T ∧ r'.influence.get? k = some T := by
  intro s ho hp hh t t' ht ht' srcIds tgtIds hd he mode pre groups sqrt c hc hk u u' r r' h h'
  obtain ⟨h1, h2, h3, h4, h5⟩ := padding_hessian E hE hI ops hops n th fs mods ctx ctx' ids ids' mask mask' hx hx' hmk hmk' body body' d hbody hbody' dir dir' hessian hne ho hp hh t t' ht ht' c hc
  exact C93_covariances h1 h2 h3 h4 h5 hd he hk h h'

/-- **C126, self-influence.** -/
theorem C126_self (E : SEnv K) (hE : EighOk E.lib) (hI : InverseOk E.lib) (ops : List (SOp K)) (hops : ∀ o ∈ ops, Configures o) (n : Nat) (th : Int) (fs : FS)
    (mods : PyStr → Nat) (ctx ctx' : List (SOp K)) (ids ids' : List PyStr) (mask mask' : Option (Tensor K)) (hx : Context ctx ids mask)
    (hx' : Context ctx' ids' mask') (hmk : NonnegMask mask) (hmk' : NonnegMask mask') (body body' : List (SOp K)) (d : GLog K)
    (hbody : ∀ o ∈ body, Masks NonnegMask o ∧ ∀ nm ∈ Dict.keys d, Logs nm o) (hbody' : ∀ o ∈ body', Masks NonnegMask o ∧ ∀ nm ∈ Dict.keys d, Logs nm o)
    (dir dir' : StateDir K) (hessian : Hess) (hne : Dict.keys d ≠ []) :
    let s := runHistory E ops (Sess.init n th fs)
    OnlyStatistics s.opt → PlainStats s.opt →
    (((hessian = .kfac ∨ hessian = .auto ∧ .covariance ∉ s.opt.grad.tail) ∧ s.opt.forward.count .covariance = 1 ∧ s.opt.backward.count .covariance = 1 ∧
        SameKfacTokens E s mods (Dict.keys d) mask mask' body body') ∨
      ((hessian = .raw ∨ hessian = .auto) ∧ s.opt.grad.head? = some .log ∧ s.opt.grad.tail.count .covariance = 1 ∧
        SameRawTokens E s mods (Dict.keys d) mask mask' body body')) →
    ∀ t t', SAct.each (SOp.run E) (ctx ++ body.map (shift s.user.length) ++ [.finalize dir]) s = (t, none) →
      SAct.each (SOp.run E) (ctx' ++ body'.map (shift s.user.length) ++ [.finalize dir']) s = (t', none) →
    ∀ srcIds, Labelled srcIds d → ∀ pre groups c, 0 < c → ∀ u u' r r',
      computeSelf E.lib t.st srcIds (.dict d) pre hessian groups (some c) = .ok (u, r) →
      computeSelf E.lib t'.st srcIds (.dict d) pre hessian groups (some c) = .ok (u', r') →
      r.srcIds = r'.srcIds ∧ ∀ k, k = ['t', 'o', 't', 'a', 'l'] ∨ k ∈ groups.getD [] →
        ∃ T, r.influence.get? k = some T ∧ r'.influence.get? k = some T := by
  intro s ho hp hh t t' ht ht' srcIds hd pre groups c hc u u' r r' h h'
  obtain ⟨h1, h2, h3, h4, h5⟩ := padding_hessian E hE hI ops hops n th fs mods ctx ctx' ids ids' mask mask' hx hx' hmk hmk' body body' d hbody hbody' dir dir' hessian hne ho hp hh t t' ht ht' c hc
  exact C93_covariances_self h1 h2 h3 h4 h5 hd h h'

end

end Logix
