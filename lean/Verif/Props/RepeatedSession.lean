/-
C137, from programs: several passes over the data give the scores of one.
-/
import Verif.Props.Batching
import Verif.Spec.Repeated

namespace Logix
open Spec Sess
variable {K : Type} [Field K] [LinearOrder K] [IsStrictOrderedRing K]

theorem mem_times {α : Type} {n : Nat} {xs : List α} {x : α} (h : x ∈ (List.replicate n xs).flatten) : x ∈ xs := by
  obtain ⟨l, hl, hx⟩ := List.mem_flatten.1 h
  rw [List.eq_of_mem_replicate hl] at hx
  exact hx

theorem forall₂_times {α β : Type} {R : α → β → Prop} {xs : List α} {ys : List β} (h : List.Forall₂ R xs ys) : ∀ n,
    List.Forall₂ R (List.replicate n xs).flatten (List.replicate n ys).flatten
  | 0 => .nil
  | n + 1 => by
    rw [List.replicate_succ, List.replicate_succ, List.flatten_cons, List.flatten_cons]
    exact List.rel_append h (forall₂_times h n)

theorem isSecondMoment_times {n : Nat} (hn : n ≠ 0) {xs : List (Tensor K)} {kind : Option ModKind} {lt : LogType} {A : Tensor K}
    (h : IsSecondMoment xs kind lt A) : IsSecondMoment (List.replicate n xs).flatten kind lt A := by
  obtain ⟨W, a1, a2, a3⟩ := h
  refine ⟨W, a1, fun x hx => a2 x (mem_times hx), fun i j hi hj => ?_⟩
  have h1 : ∀ f : Tensor K → List (Nat → K), (((List.replicate n xs).flatten.flatMap f).map fun r => r i * r j).sum = (n : K) * ((xs.flatMap f).map fun r => r i * r j).sum := by
    intro f
    clear hn
    induction n with
    | zero => simp
    | succ n ih =>
      rw [List.replicate_succ, List.flatten_cons, List.flatMap_append, List.map_append, List.sum_append, ih]
      push_cast; ring
  have h2 : ((List.replicate n xs).flatten.map fun a => a.size 0).sum = n * (xs.map fun a => a.size 0).sum := by
    clear hn h1
    induction n with
    | zero => simp
    | succ n ih =>
      rw [List.replicate_succ, List.flatten_cons, List.map_append, List.sum_append, ih]
      ring
  rw [a3 i j hi hj, h1, h2, Nat.cast_mul, mul_div_mul_left _ _ (Nat.cast_ne_zero.2 hn)]

/-- **C137, KFAC, from programs.** Two runs, each in any number of processes, whose programs may cut the data into batches in different ways. When the inputs of the
modules and the gradients of their outputs in the second are those of the first, each the same number of times, and inputs and outputs have covariances, then both runs go through without an exception, and after `finalize`
every process of one and every process of the other give the same scores for all logs and every positive damping. -/
theorem C137_kfac {n : Nat} (hn : n ≠ 0) (E E' : SEnv K) (hE : EighOk E.lib) (hI : InverseOk E.lib) (hL : LibTotal E.lib) (hE' : EighOk E'.lib) (hI' : InverseOk E'.lib)
    (hL' : LibTotal E'.lib) (keys : List PyStr) (mods mods' rows cols : PyStr → Nat) (hk : ∀ nm ∈ keys, E.kind (mods nm) = E'.kind (mods' nm))
    (ps ps' : List (Process K)) (hps : ∀ p ∈ ps, p.Fits E keys mods rows cols) (hps' : ∀ p ∈ ps', p.Fits E' keys mods' rows cols)
    (hstep : InStep E ps) (hstep' : InStep E' ps') (hsame : SameActivationsTimes n keys mods mods' ps ps') (dir₀ dir₀' : StateDir K) (hessian : Hess)
    (hf : ∀ p ∈ ps, (p.before E).opt.forward.count .covariance = 1 ∧ (p.before E).opt.backward.count .covariance = 1)
    (hf' : ∀ p ∈ ps', (p.before E').opt.forward.count .covariance = 1 ∧ (p.before E').opt.backward.count .covariance = 1)
    (hh : hessian = .kfac ∨ hessian = .auto ∧ (∀ p ∈ ps, .covariance ∉ (p.before E).opt.grad.tail) ∧ ∀ p ∈ ps', .covariance ∉ (p.before E').opt.grad.tail)
    (hne : ∀ nm ∈ keys, (∃ p ∈ ps, inputs (mods nm) p.body ≠ []) ∧ ∃ p ∈ ps, notes outGrad (mods nm) ⟨none, [], [], []⟩ p.body ≠ [])
    (hne' : ∀ nm ∈ keys, (∃ p ∈ ps', inputs (mods' nm) p.body ≠ []) ∧ ∃ p ∈ ps', notes outGrad (mods' nm) ⟨none, [], [], []⟩ p.body ≠ []) :
    ∃ (us ts us' ts' : List (Sess K)) (dir₁ dir₁' : StateDir K), List.Forall₂ (Process.Runs E) ps us ∧ List.Forall₂ (Process.Runs E') ps' us' ∧
      finalizeSessions E us dir₀ = .ok (ts.map (fun t => (t, none)), dir₁) ∧ ts.length = ps.length ∧
      finalizeSessions E' us' dir₀' = .ok (ts'.map (fun t => (t, none)), dir₁') ∧ ts'.length = ps'.length ∧
      ∀ t ∈ ts, ∀ t' ∈ ts', ∀ (d e : GLog K) srcIds tgtIds (dev dev' : Dev), GradLog srcIds d dev rows cols → GradLog tgtIds e dev' rows cols →
        Dict.keys d = keys → (∀ m, m ∈ keys ↔ m ∈ Dict.keys e) → ∀ c, 0 < c → ∀ sqrt sqrt',
        EqualScores (computeInfluence E.lib sqrt t.st srcIds (.dict d) tgtIds (.dict e) .dot true hessian none (some c))
          (computeInfluence E'.lib sqrt' t'.st srcIds (.dict d) tgtIds (.dict e) .dot true hessian none (some c)) := by
  obtain ⟨us, ts, dir₁, h1, h2, h3, h4⟩ := C128_kfac E hE hI hL keys mods rows cols ps hps hstep dir₀ hessian hf (hh.imp id fun h => ⟨h.1, h.2.1⟩) hne
  obtain ⟨us', ts', dir₁', g1, g2, g3, g4⟩ := C128_kfac E' hE' hI' hL' keys mods' rows cols ps' hps' hstep' dir₀' hessian hf' (hh.imp id fun h => ⟨h.1, h.2.2⟩) hne'
  refine ⟨us, ts, us', ts', dir₁, dir₁', h1, g1, h2, h3, g2, g3, ?_⟩
  intro t ht t' ht' d e srcIds tgtIds dev dev' hd he hkd hke c hc sqrt sqrt'
  obtain ⟨A, B, a1, a2⟩ := h4 t ht
  obtain ⟨A', B', b1, b2⟩ := g4 t' ht'
  have hAB : ∀ m ∈ keys, entries (A m) = entries (A' m) ∧ entries (B m) = entries (B' m) := by
    intro m hm
    obtain ⟨⟨xs, x1, x2⟩, ⟨gs, y1, y2⟩⟩ := a1 m hm
    obtain ⟨⟨xs', x1', x2'⟩, ⟨gs', y1', y2'⟩⟩ := b1 m hm
    obtain ⟨⟨zs, zs', z1, z2, z3⟩, ws, ws', w1, w2, w3⟩ := hsame m hm
    rw [← hk m hm] at x2' y2'
    obtain rfl := allInputs_unique x1 z1
    obtain rfl := allInputs_unique x1' z2
    obtain rfl := allOutGrads_unique y1 w1
    obtain rfl := allOutGrads_unique y1' w2
    exact ⟨secondMoment_samples z3 (isSecondMoment_times hn x2) x2', secondMoment_samples w3 (isSecondMoment_times hn y2) y2'⟩
  have hsys : ∀ i (x : PyStr → List Nat → K), (∀ m ∈ keys, KfacSystem (entries (A' m)) (entries (B' m)) c d i m (x m)) ↔
      ∀ m ∈ keys, KfacSystem (entries (A m)) (entries (B m)) c d i m (x m) := fun i x =>
    forall₂_congr fun m hm => by rw [(hAB m hm).1, (hAB m hm).2]
  refine sameScores_of (S := fun i x => ∀ m ∈ keys, KfacSystem (entries (A m)) (entries (B m)) c d i m (x m)) (val := fun x j => against x e j keys)
    (a2 d e srcIds tgtIds dev dev' hd he hkd hke c hc sqrt) ?_
  have := b2 d e srcIds tgtIds dev dev' hd he hkd hke c hc sqrt'
  simpa only [hsys] using this

/-- **C137, empirical Fisher, from programs.** The same with covariances of the per-sample gradients, when those of the second run are those of the first, each the
same number of times. -/
theorem C137_raw {n : Nat} (hn : n ≠ 0) (E E' : SEnv K) (hE : EighOk E.lib) (hI : InverseOk E.lib) (hL : LibTotal E.lib) (hE' : EighOk E'.lib) (hI' : InverseOk E'.lib)
    (hL' : LibTotal E'.lib) (keys : List PyStr) (mods mods' rows cols : PyStr → Nat)
    (ps ps' : List (Process K)) (hps : ∀ p ∈ ps, p.Fits E keys mods rows cols) (hps' : ∀ p ∈ ps', p.Fits E' keys mods' rows cols)
    (hstep : InStep E ps) (hstep' : InStep E' ps') (hsame : SameGradientsTimes n E E' keys mods mods' ps ps') (dir₀ dir₀' : StateDir K) (hessian : Hess)
    (hg : ∀ p ∈ ps, (p.before E).opt.grad.tail.count .covariance = 1) (hg' : ∀ p ∈ ps', (p.before E').opt.grad.tail.count .covariance = 1)
    (hh : hessian = .raw ∨ hessian = .auto)
    (hne : ∀ nm ∈ keys, ∃ p ∈ ps, notes batchGrads (mods nm) ⟨none, [], [], []⟩ p.body ≠ [])
    (hne' : ∀ nm ∈ keys, ∃ p ∈ ps', notes batchGrads (mods' nm) ⟨none, [], [], []⟩ p.body ≠ []) :
    ∃ (us ts us' ts' : List (Sess K)) (dir₁ dir₁' : StateDir K), List.Forall₂ (Process.Runs E) ps us ∧ List.Forall₂ (Process.Runs E') ps' us' ∧
      finalizeSessions E us dir₀ = .ok (ts.map (fun t => (t, none)), dir₁) ∧ ts.length = ps.length ∧
      finalizeSessions E' us' dir₀' = .ok (ts'.map (fun t => (t, none)), dir₁') ∧ ts'.length = ps'.length ∧
      ∀ t ∈ ts, ∀ t' ∈ ts', ∀ (d e : GLog K) srcIds tgtIds (dev dev' : Dev), GradLog srcIds d dev rows cols → GradLog tgtIds e dev' rows cols →
        Dict.keys d = keys → (∀ m, m ∈ keys ↔ m ∈ Dict.keys e) → ∀ c, 0 < c → ∀ sqrt sqrt',
        EqualScores (computeInfluence E.lib sqrt t.st srcIds (.dict d) tgtIds (.dict e) .dot true hessian none (some c))
          (computeInfluence E'.lib sqrt' t'.st srcIds (.dict d) tgtIds (.dict e) .dot true hessian none (some c)) := by
  obtain ⟨us, ts, dir₁, h1, h2, h3, h4⟩ := C128_raw E hE hI hL keys mods rows cols ps hps hstep dir₀ hessian hg hh hne
  obtain ⟨us', ts', dir₁', g1, g2, g3, g4⟩ := C128_raw E' hE' hI' hL' keys mods' rows cols ps' hps' hstep' dir₀' hessian hg' hh hne'
  refine ⟨us, ts, us', ts', dir₁, dir₁', h1, g1, h2, h3, g2, g3, ?_⟩
  intro t ht t' ht' d e srcIds tgtIds dev dev' hd he hkd hke c hc sqrt sqrt'
  obtain ⟨C, a1, a2⟩ := h4 t ht
  obtain ⟨C', b1, b2⟩ := g4 t' ht'
  have hC : ∀ m ∈ keys, entries (C m) = entries (C' m) := by
    intro m hm
    obtain ⟨gs, y1, y2⟩ := a1 m hm
    obtain ⟨gs', y1', y2'⟩ := b1 m hm
    obtain ⟨ws, ws', w1, w2, w3⟩ := hsame m hm
    exact secondMoment_samples (sameSamples_congr w3 (forall₂_times (allBatchGrads_unique w1 y1) n) (allBatchGrads_unique w2 y1')) (isSecondMoment_times hn y2) y2'
  have hsys : ∀ i (x : PyStr → List Nat → K), (∀ m ∈ keys, RawSystem (entries (C' m)) c d i m (x m)) ↔
      ∀ m ∈ keys, RawSystem (entries (C m)) c d i m (x m) := fun i x => forall₂_congr fun m hm => by rw [hC m hm]
  refine sameScores_of (S := fun i x => ∀ m ∈ keys, RawSystem (entries (C m)) c d i m (x m)) (val := fun x j => against x e j keys)
    (a2 d e srcIds tgtIds dev dev' hd he hkd hke c hc sqrt) ?_
  have := b2 d e srcIds tgtIds dev dev' hd he hkd hke c hc sqrt'
  simpa only [hsys] using this

end Logix
