/-
C152: the mean square of the influences on the data.
-/
import Verif.Props.AverageSelf

namespace Logix
open Spec Sess
variable {K : Type} [Field K] [LinearOrder K] [IsStrictOrderedRing K]

/-- The products of a solution with the vectors of the Gram matrix. -/
theorem damped_mean_square {ι : Type} {s : Finset ι} {T : ι → ι → K} {c ρ : K} {n : Nat} {φ : Nat → ι → K} {g x : ι → K} (hc : 0 ≤ c)
    (hT : ∀ a b, T a b = ρ * ((List.range n).map fun i => φ i a * φ i b).sum) (hx : DampedOn s T c g x) :
    ρ * ((List.range n).map fun i => (∑ a ∈ s, x a * φ i a) * ∑ a ∈ s, x a * φ i a).sum ≤ ∑ a ∈ s, x a * g a := by
  have h1 := damped_pair hx x
  rw [gram_form (Φ := (List.range n).map φ) (ρ := ρ) (fun a b => by rw [hT, List.map_map]; rfl), List.map_map] at h1
  rw [h1]
  have := mul_nonneg hc (sq_sum_nonneg (s := s) x)
  simp only [Function.comp_def]
  linarith

theorem square_sum_le (ks : List PyStr) (f : PyStr → K) : (ks.map f).sum * (ks.map f).sum ≤ (ks.length : K) * (ks.map fun m => f m * f m).sum := by
  induction ks with
  | nil => simp
  | cons m ks ih =>
    simp only [List.map_cons, List.sum_cons, List.length_cons, Nat.cast_succ]
    have hQ : 0 ≤ (ks.map fun m => f m * f m).sum := list_sum_nonneg fun m _ => mul_self_nonneg (f m)
    generalize (ks.map f).sum = S at ih ⊢
    generalize (ks.map fun m => f m * f m).sum = Q at ih hQ ⊢
    generalize f m = a
    rcases ks.length.eq_zero_or_pos with h0 | h0
    · rw [h0] at ih ⊢
      simp only [Nat.cast_zero, zero_mul, zero_add, one_mul] at ih ⊢
      have : S = 0 := mul_self_eq_zero.1 (le_antisymm ih (mul_self_nonneg S))
      subst this
      simp only [add_zero]
      linarith
    · have hn : (0 : K) < (ks.length : K) := Nat.cast_pos.2 h0
      generalize (ks.length : K) = k at ih hn ⊢
      have h1 := mul_self_nonneg (k * a - S)
      refine le_of_mul_le_mul_left ?_ hn
      have h2 := mul_le_mul_of_nonneg_left ih hn.le
      nlinarith

/-- One module. -/
theorem mean_square_module {E : SEnv K} {body : List (SOp K)} {m : Nat} {nm : PyStr} {C : Tensor K} {c : K} {d : GLog K} {i : Nat} {x : List Nat → K}
    {gs : List (Tensor K)} {g h : Tensor K} (hC : BatchGradMoment E body m C) (hc : 0 < c) (hx : RawSystem (entries C) c d i nm x)
    (hgs : GradsOf E body none m gs) (hd : grad d nm = some h) (ht : h.shape.tail = g.shape.tail) (hs : ∀ T ∈ gs, T.shape.tail = g.shape.tail)
    (hp : ((List.range (g.size 0)).map (row g)).Perm (gs.flatMap fun T => (List.range (T.size 0)).map (row T))) :
    ((List.range (g.size 0)).map fun j => dot g.shape.tail x (row g j) * dot g.shape.tail x (row g j)).sum ≤ (g.size 0 : K) * dot h.shape.tail x (row h i) := by
  rcases Nat.eq_zero_or_pos (g.size 0) with h0 | h0
  · rw [h0]; simp
  have hM0 : (0 : K) < (g.size 0 : K) := Nat.cast_pos.2 h0
  have key := damped_mean_square (s := (indices g.shape.tail).toFinset) (ρ := (g.size 0 : K)⁻¹) (n := g.size 0) (φ := row g) (x := x) (g := row h i) (c := c)
    (T := fun a b => (g.size 0 : K)⁻¹ * ((List.range (g.size 0)).map fun i => row g i a * row g i b).sum) hc.le (fun _ _ => rfl) ?_
  · simp only [ht, dot_finset]
    rwa [inv_mul_le_iff₀ hM0] at key
  · intro a ha
    have ha' := List.mem_toFinset.1 ha
    obtain ⟨h', hh', h4⟩ := hx
    obtain rfl := Option.some.inj (hd.symm.trans hh')
    rw [ht] at h4
    rw [List.sum_toFinset _ (indices_nodup _), show row h i a = h.el (i :: a) from rfl, ← h4 a ha']
    congr 2
    refine List.map_congr_left fun b hb => ?_
    congr 1
    exact (moment_rows hC hgs hs hp h0 a ha' b hb).symm

/-- **C152.** A new run is configured with logs and covariances of `grad`, batches are logged by any program, without masks and without exception, and
`finalize` is called. The influences of a source on all samples of the program, each taken once: the sum of their squares is at most the number of samples
times the number of modules times the self-influence of the source. -/
theorem C152_mean_square (E : SEnv K) (hE : EighOk E.lib) (hI : InverseOk E.lib) (ops : List (SOp K)) (hops : ∀ o ∈ ops, Configures o) (n : Nat) (th : Int)
    (fs : FS) (ctx : List (SOp K)) (ids : List PyStr) (hx : Context ctx ids none) (body : List (SOp K)) (dir : StateDir K) (keys : List PyStr)
    (mods : PyStr → Nat) (hbody : ∀ o ∈ body, Unmasked o ∧ ∀ nm ∈ keys, Logs nm o) (hessian : Hess) :
    let s := runHistory E ops (Sess.init n th fs)
    OnlyStatistics s.opt → PlainStats s.opt → s.opt.grad.head? = some .log → s.opt.grad.tail.count .covariance = 1 → (hessian = .raw ∨ hessian = .auto) →
    (∀ nm ∈ keys, Watches s (mods nm) nm ∧ notes batchGrads (mods nm) ⟨none, [], [], []⟩ body ≠ []) →
    ∀ t, SAct.each (SOp.run E) (ctx ++ body.map (shift s.user.length) ++ [.finalize dir]) s = (t, none) →
      ∀ d e : GLog K, Dict.keys d = keys → AllOfProgram E body keys mods e → ∀ srcIds tgtIds, Labelled srcIds d → Labelled tgtIds e → Dict.keys e = keys →
      ∀ c, 0 < c → ∀ sqrt u r u' r',
        computeInfluence E.lib sqrt t.st srcIds (.dict d) tgtIds (.dict e) .dot true hessian none (some c) = .ok (u, r) →
        computeSelf E.lib t.st srcIds (.dict d) true hessian none (some c) = .ok (u', r') →
        ∃ T S, r.influence = .one T ∧ r'.influence.get? ['t', 'o', 't', 'a', 'l'] = some S ∧ ∀ i, i < srcIds.length →
          ((List.range tgtIds.length).map fun j => T.el [i, j] * T.el [i, j]).sum ≤ (tgtIds.length : K) * (keys.length : K) * S.el [i] := by
  intro s ho hp hl hg hh hmods t ht d e hd hall srcIds tgtIds hlab hlab' hek c hc sqrt u r u' r' h h'
  obtain ⟨C, h1, h2⟩ := session_raw E hE hI ops hops n th fs ctx ids hx body dir keys mods hbody hessian ho hp hl hg hh hmods t ht
  subst hd
  obtain ⟨T, a1, -, -, -, a2⟩ := influence_of_solutions (S := fun i m x => RawSystem (entries (C m)) c d i m x) hlab hlab'
    (fun s₁ s₂ o H => h2 d rfl srcIds hlab c hc s₁ s₂ o H) h
  obtain ⟨S, b1, -, -, b2⟩ := self_of_solutions (S := fun i m x => RawSystem (entries (C m)) c d i m x) hlab
    (fun s₁ s₂ o H => h2 d rfl srcIds hlab c hc s₁ s₂ o H) h'
  obtain ⟨-, -, -, -, -, -, -, sz, -⟩ := computeInfluence_ok h hlab hlab'
  refine ⟨T, S, a1, b1, fun i hi => ?_⟩
  obtain ⟨⟨x, hx⟩, e1⟩ := a2 i hi
  rw [(b2 i hi).2 x hx, List.map_congr_left (g := fun j => against x e j (Dict.keys d) * against x e j (Dict.keys d)) fun j hj => by rw [e1 x hx j (List.mem_range.1 hj)]]
  have hsq : ∀ j, against x e j (Dict.keys d) * against x e j (Dict.keys d) ≤ ((Dict.keys d).length : K) * ((Dict.keys d).map fun m => (match grad e m with
      | some h => dot h.shape.tail (x m) (row h j)
      | none => 0) * (match grad e m with
      | some h => dot h.shape.tail (x m) (row h j)
      | none => 0)).sum := fun j => square_sum_le _ _
  refine (list_sum_le fun j _ => hsq j).trans ?_
  rw [List.sum_map_mul_left, mul_comm (tgtIds.length : K), mul_assoc]
  refine mul_le_mul_of_nonneg_left ?_ (Nat.cast_nonneg _)
  unfold against
  rw [sum_map_range, sum_list_map, ← List.sum_map_mul_left]
  refine list_sum_le fun m hm => ?_
  obtain ⟨gs, g, c1, c2, c3, c4⟩ := hall m hm
  obtain ⟨g', g'', q1, q2, q3⟩ := sz m hm
  obtain rfl := Option.some.inj (c2.symm.trans q2)
  have hn : g.size 0 = tgtIds.length := by
    obtain ⟨g₂, p1, p2⟩ := hlab'.rows m (hek ▸ hm)
    obtain rfl := Option.some.inj (c2.symm.trans p1)
    exact p2
  simp only [c2, q1]
  rw [← sum_map_range, ← hn]
  exact mean_square_module (h1 m hm) hc (hx m hm) c1 q1 q3 c3 c4

namespace ExSess

/-- The hypotheses of C152 are met: the influences of the first sample on both samples are `961 / 702` and `651 / 702`. -/
example : ∃ u r u' r' T S, computeInfluence EI.lib Rat.sqrt tInf.1.st [['x'], ['y']] (.dict dBoth) [['x'], ['y']] (.dict dBoth) .dot true .auto none (some 1) = .ok (u, r) ∧
    computeSelf EI.lib tInf.1.st [['x'], ['y']] (.dict dBoth) true .auto none (some 1) = .ok (u', r') ∧ r.influence = .one T ∧
    r'.influence.get? ['t', 'o', 't', 'a', 'l'] = some S ∧ T.el [0, 0] * T.el [0, 0] + T.el [0, 1] * T.el [0, 1] ≤ 2 * S.el [0] := by
  obtain ⟨u, r, h⟩ := ExInfl.isOk (x := computeInfluence EI.lib Rat.sqrt tInf.1.st [['x'], ['y']] (.dict dBoth) [['x'], ['y']] (.dict dBoth) .dot true .auto none (some 1))
    (by decide +kernel)
  obtain ⟨u', r', h'⟩ := ExInfl.isOk (x := computeSelf EI.lib tInf.1.st [['x'], ['y']] (.dict dBoth) true .auto none (some 1)) (by decide +kernel)
  obtain ⟨T, S, h1, h2, h3⟩ := C152_mean_square EI ExInfl.eighOk ExInfl.inverseOk statConf statConf_ok 1 1000 [] _ _ (.with [i1] none false) statBody ⟨[], none⟩ [na]
    (fun _ => 0) statBody_ok .auto conf_ok.1 conf_ok.2.1 conf_ok.2.2.2.2.1 conf_ok.2.2.2.2.2 (.inr rfl)
    (fun nm h => by rw [List.mem_singleton.1 h]; exact ⟨watches_ok, by decide +kernel⟩) tInf.1 run_ok
    dBoth dBoth rfl both_all _ _ labBoth labBoth rfl 1 (by decide +kernel) Rat.sqrt u r u' r' h h'
  refine ⟨u, r, u', r', T, S, h, h', h1, h2, ?_⟩
  simpa [List.range_succ] using h3 0 (by decide)

end ExSess
end Logix
