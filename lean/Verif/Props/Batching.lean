/-
C130: the scores do not depend on how the data is cut into batches and divided among processes.
-/
import Verif.Lemmas.Batching
import Verif.Props.DistSession

namespace Logix
open Spec Sess
variable {K : Type} [Field K] [LinearOrder K] [IsStrictOrderedRing K]

theorem sameScores_of {a b : Py (LState K × IFResult K)} {src tgt : List PyStr} {S : Nat → (PyStr → List Nat → K) → Prop}
    {val : (PyStr → List Nat → K) → Nat → K} 
    (ha : ∃ u r T, a = .ok (u, r) ∧ r.influence = .one T ∧ r.srcIds = src ∧ r.tgtIds = tgt ∧ T.shape = [src.length, tgt.length] ∧
      ∀ i, i < src.length → (∃ x, S i x) ∧ ∀ x, S i x → ∀ j, j < tgt.length → T.el [i, j] = val x j)
    (hb : ∃ u r T, b = .ok (u, r) ∧ r.influence = .one T ∧ r.srcIds = src ∧ r.tgtIds = tgt ∧ T.shape = [src.length, tgt.length] ∧
      ∀ i, i < src.length → (∃ x, S i x) ∧ ∀ x, S i x → ∀ j, j < tgt.length → T.el [i, j] = val x j) : EqualScores a b := by
  obtain ⟨u, r, T, a1, a2, a3, a4, a5, a6⟩ := ha
  obtain ⟨u', r', T', b1, b2, b3, b4, b5, b6⟩ := hb
  refine ⟨u, r, T, u', r', T', a1, a2, b1, b2, a3.trans b3.symm, a4.trans b4.symm, a5.trans b5.symm, ?_⟩
  have hd : ∀ {T : Tensor K}, T.data = (indices T.shape).map T.el := fun {T} => congrArg Tensor.data (Tensor.ofFn_el T).symm
  rw [hd, hd (T := T'), a5, b5]
  refine List.map_congr_left fun idx hidx => ?_
  obtain ⟨i, j, hi, hj, rfl⟩ : ∃ i j, i < src.length ∧ j < tgt.length ∧ idx = [i, j] := by
    simp only [indices, List.mem_flatMap, List.mem_range, List.mem_map, List.mem_singleton] at hidx
    obtain ⟨i, hi, p, ⟨j, hj, q, rfl, rfl⟩, rfl⟩ := hidx
    exact ⟨i, j, hi, hj, rfl⟩
  obtain ⟨x, hx⟩ := (a6 i hi).1
  rw [(a6 i hi).2 x hx j hj, (b6 i hi).2 x hx j hj]

/-- **C130, KFAC.** Two runs, each in any number of processes, whose programs may cut the data into batches in different ways. When the inputs of the modules and the
gradients of their outputs are the same samples in both, and inputs and outputs have covariances, then both runs go through without an exception, and after `finalize`
every process of one and every process of the other give the same scores for all logs and every positive damping. -/
theorem C130_kfac (E E' : SEnv K) (hE : EighOk E.lib) (hI : InverseOk E.lib) (hL : LibTotal E.lib) (hE' : EighOk E'.lib) (hI' : InverseOk E'.lib)
    (hL' : LibTotal E'.lib) (keys : List PyStr) (mods mods' rows cols : PyStr → Nat) (hk : ∀ nm ∈ keys, E.kind (mods nm) = E'.kind (mods' nm))
    (ps ps' : List (Process K)) (hps : ∀ p ∈ ps, p.Fits E keys mods rows cols) (hps' : ∀ p ∈ ps', p.Fits E' keys mods' rows cols)
    (hstep : InStep E ps) (hstep' : InStep E' ps') (hsame : SameActivations keys mods mods' ps ps') (dir₀ dir₀' : StateDir K) (hessian : Hess)
    (hf : ∀ p ∈ ps, (p.before E).opt.forward.count .covariance = 1 ∧ (p.before E).opt.backward.count .covariance = 1)
    (hf' : ∀ p ∈ ps', (p.before E').opt.forward.count .covariance = 1 ∧ (p.before E').opt.backward.count .covariance = 1)
    (hh : hessian = .kfac ∨ hessian = .auto ∧ (∀ p ∈ ps, .covariance ∉ (p.before E).opt.grad.tail) ∧ ∀ p ∈ ps', .covariance ∉ (p.before E').opt.grad.tail)
    (hne : ∀ nm ∈ keys, (∃ p ∈ ps, inputs (mods nm) p.body ≠ []) ∧ ∃ p ∈ ps, notes outGrad (mods nm) ⟨none, [], [], []⟩ p.body ≠ [])
    (hne' : ∀ nm ∈ keys, (∃ p ∈ ps', inputs (mods' nm) p.body ≠ []) ∧ ∃ p ∈ ps', notes outGrad (mods' nm) ⟨none, [], [], []⟩ p.body ≠ []) :
    ∃ (us ts us' ts' : List (Sess K)) (dir₁ dir₁' : StateDir K), List.Forall₂ (Process.Runs E) ps us ∧ List.Forall₂ (Process.Runs E') ps' us' ∧
      finalizeSessions E us dir₀ = .ok (ts.map (fun t => (t, none)), dir₁) ∧ ts.length = ps.length ∧
      finalizeSessions E' us' dir₀' = .ok (ts'.map (fun t => (t, none)), dir₁') ∧ ts'.length = ps'.length ∧
      ∀ t ∈ ts, ∀ t' ∈ ts', ∀ (d e : GLog K) srcIds tgtIds (dev dev' : Dev), GradLog srcIds d dev rows cols → GradLog tgtIds e dev' rows cols →
        Dict.keys d = keys → (∀ m, m ∈ keys ↔ m ∈ Dict.keys e) → ∀ c, 0 < c → ∀ sqrt sqrt',
        EqualScores (computeInfluence E.lib sqrt t.st srcIds (.dict d) tgtIds (.dict e) .dot true hessian none (some c))
          (computeInfluence E'.lib sqrt' t'.st srcIds (.dict d) tgtIds (.dict e) .dot true hessian none (some c)) := by
  obtain ⟨us, ts, dir₁, h1, h2, h3, h4⟩ := C128_kfac E hE hI hL keys mods rows cols ps hps hstep dir₀ hessian hf (hh.imp id fun h => ⟨h.1, h.2.1⟩) hne
  obtain ⟨us', ts', dir₁', g1, g2, g3, g4⟩ := C128_kfac E' hE' hI' hL' keys mods' rows cols ps' hps' hstep' dir₀' hessian hf' (hh.imp id fun h => ⟨h.1, h.2.2⟩) hne'
  refine ⟨us, ts, us', ts', dir₁, dir₁', h1, g1, h2, h3, g2, g3, ?_⟩
  intro t ht t' ht' d e srcIds tgtIds dev dev' hd he hkd hke c hc sqrt sqrt'
  obtain ⟨A, B, a1, a2⟩ := h4 t ht
  obtain ⟨A', B', b1, b2⟩ := g4 t' ht'
  have hAB : ∀ m ∈ keys, entries (A m) = entries (A' m) ∧ entries (B m) = entries (B' m) := by
    intro m hm
    obtain ⟨⟨xs, x1, x2⟩, ⟨gs, y1, y2⟩⟩ := a1 m hm
    obtain ⟨⟨xs', x1', x2'⟩, ⟨gs', y1', y2'⟩⟩ := b1 m hm
    obtain ⟨⟨zs, zs', z1, z2, z3⟩, ws, ws', w1, w2, w3⟩ := hsame m hm
    rw [← hk m hm] at x2' y2'
    obtain rfl := allInputs_unique x1 z1
    obtain rfl := allInputs_unique x1' z2
    obtain rfl := allOutGrads_unique y1 w1
    obtain rfl := allOutGrads_unique y1' w2
    exact ⟨secondMoment_samples z3 x2 x2', secondMoment_samples w3 y2 y2'⟩
  have hsys : ∀ i (x : PyStr → List Nat → K), (∀ m ∈ keys, KfacSystem (entries (A' m)) (entries (B' m)) c d i m (x m)) ↔
      ∀ m ∈ keys, KfacSystem (entries (A m)) (entries (B m)) c d i m (x m) := fun i x =>
    forall₂_congr fun m hm => by rw [(hAB m hm).1, (hAB m hm).2]
  refine sameScores_of (S := fun i x => ∀ m ∈ keys, KfacSystem (entries (A m)) (entries (B m)) c d i m (x m)) (val := fun x j => against x e j keys)
    (a2 d e srcIds tgtIds dev dev' hd he hkd hke c hc sqrt) ?_
  have := b2 d e srcIds tgtIds dev dev' hd he hkd hke c hc sqrt'
  simpa only [hsys] using this

/-- **C130, empirical Fisher.** The same with covariances of the per-sample gradients, when these are the same samples in both runs. -/
theorem C130_raw (E E' : SEnv K) (hE : EighOk E.lib) (hI : InverseOk E.lib) (hL : LibTotal E.lib) (hE' : EighOk E'.lib) (hI' : InverseOk E'.lib)
    (hL' : LibTotal E'.lib) (keys : List PyStr) (mods mods' rows cols : PyStr → Nat)
    (ps ps' : List (Process K)) (hps : ∀ p ∈ ps, p.Fits E keys mods rows cols) (hps' : ∀ p ∈ ps', p.Fits E' keys mods' rows cols)
    (hstep : InStep E ps) (hstep' : InStep E' ps') (hsame : SameGradients E E' keys mods mods' ps ps') (dir₀ dir₀' : StateDir K) (hessian : Hess)
    (hg : ∀ p ∈ ps, (p.before E).opt.grad.tail.count .covariance = 1) (hg' : ∀ p ∈ ps', (p.before E').opt.grad.tail.count .covariance = 1)
    (hh : hessian = .raw ∨ hessian = .auto)
    (hne : ∀ nm ∈ keys, ∃ p ∈ ps, notes batchGrads (mods nm) ⟨none, [], [], []⟩ p.body ≠ [])
    (hne' : ∀ nm ∈ keys, ∃ p ∈ ps', notes batchGrads (mods' nm) ⟨none, [], [], []⟩ p.body ≠ []) :
    ∃ (us ts us' ts' : List (Sess K)) (dir₁ dir₁' : StateDir K), List.Forall₂ (Process.Runs E) ps us ∧ List.Forall₂ (Process.Runs E') ps' us' ∧
      finalizeSessions E us dir₀ = .ok (ts.map (fun t => (t, none)), dir₁) ∧ ts.length = ps.length ∧
      finalizeSessions E' us' dir₀' = .ok (ts'.map (fun t => (t, none)), dir₁') ∧ ts'.length = ps'.length ∧
      ∀ t ∈ ts, ∀ t' ∈ ts', ∀ (d e : GLog K) srcIds tgtIds (dev dev' : Dev), GradLog srcIds d dev rows cols → GradLog tgtIds e dev' rows cols →
        Dict.keys d = keys → (∀ m, m ∈ keys ↔ m ∈ Dict.keys e) → ∀ c, 0 < c → ∀ sqrt sqrt',
        EqualScores (computeInfluence E.lib sqrt t.st srcIds (.dict d) tgtIds (.dict e) .dot true hessian none (some c))
          (computeInfluence E'.lib sqrt' t'.st srcIds (.dict d) tgtIds (.dict e) .dot true hessian none (some c)) := by
  obtain ⟨us, ts, dir₁, h1, h2, h3, h4⟩ := C128_raw E hE hI hL keys mods rows cols ps hps hstep dir₀ hessian hg hh hne
  obtain ⟨us', ts', dir₁', g1, g2, g3, g4⟩ := C128_raw E' hE' hI' hL' keys mods' rows cols ps' hps' hstep' dir₀' hessian hg' hh hne'
  refine ⟨us, ts, us', ts', dir₁, dir₁', h1, g1, h2, h3, g2, g3, ?_⟩
  intro t ht t' ht' d e srcIds tgtIds dev dev' hd he hkd hke c hc sqrt sqrt'
  obtain ⟨C, a1, a2⟩ := h4 t ht
  obtain ⟨C', b1, b2⟩ := g4 t' ht'
  have hC : ∀ m ∈ keys, entries (C m) = entries (C' m) := by
    intro m hm
    obtain ⟨gs, y1, y2⟩ := a1 m hm
    obtain ⟨gs', y1', y2'⟩ := b1 m hm
    obtain ⟨ws, ws', w1, w2, w3⟩ := hsame m hm
    exact secondMoment_samples (sameSamples_congr w3 (allBatchGrads_unique w1 y1) (allBatchGrads_unique w2 y1')) y2 y2'
  have hsys : ∀ i (x : PyStr → List Nat → K), (∀ m ∈ keys, RawSystem (entries (C' m)) c d i m (x m)) ↔
      ∀ m ∈ keys, RawSystem (entries (C m)) c d i m (x m) := fun i x => forall₂_congr fun m hm => by rw [hC m hm]
  refine sameScores_of (S := fun i x => ∀ m ∈ keys, RawSystem (entries (C m)) c d i m (x m)) (val := fun x j => against x e j keys)
    (a2 d e srcIds tgtIds dev dev' hd he hkd hke c hc sqrt) ?_
  have := b2 d e srcIds tgtIds dev dev' hd he hkd hke c hc sqrt'
  simpa only [hsys] using this

end Logix
