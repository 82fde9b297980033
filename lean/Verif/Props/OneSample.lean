/-
C157: the influence on a single sample of the data.
-/
import Verif.Props.MeanSquare

namespace Logix
open Spec Sess
variable {K : Type} [Field K] [LinearOrder K] [IsStrictOrderedRing K]

/-- The product of a solution with one of the vectors of the Gram matrix. -/
theorem damped_member {ι : Type} {s : Finset ι} {T : ι → ι → K} {c ρ : K} {Φ : List (ι → K)} {φ g h x : ι → K} (hρ : 0 ≤ ρ)
    (hT : ∀ a b, T a b = ρ * (Φ.map fun φ => φ a * φ b).sum) (hφ : φ ∈ Φ) (hh : ∀ a ∈ s, φ a = h a) (hc : 0 ≤ c) (hx : DampedOn s T c g x) :
    ρ * ((∑ a ∈ s, x a * h a) * ∑ a ∈ s, x a * h a) ≤ ∑ a ∈ s, x a * g a := by
  have h1 := damped_pair hx x
  rw [gram_form hT] at h1
  have h2 : (∑ a ∈ s, x a * h a) * (∑ a ∈ s, x a * h a) ≤ (Φ.map fun φ => (∑ a ∈ s, x a * φ a) * ∑ b ∈ s, x b * φ b).sum := by
    have e : ∑ a ∈ s, x a * φ a = ∑ a ∈ s, x a * h a := Finset.sum_congr rfl fun a ha => by rw [hh a ha]
    have := List.single_le_sum (l := Φ.map fun φ => (∑ a ∈ s, x a * φ a) * ∑ b ∈ s, x b * φ b)
      (fun v hv => by obtain ⟨ψ, -, rfl⟩ := List.mem_map.1 hv; exact mul_self_nonneg _) _ (List.mem_map.2 ⟨φ, hφ, rfl⟩)
    rwa [e] at this
  have h3 := mul_le_mul_of_nonneg_left h2 hρ
  have h4 := mul_nonneg hc (sq_sum_nonneg (s := s) x)
  linarith

/-- One module. -/
theorem one_sample_module {E : SEnv K} {body : List (SOp K)} {m : Nat} {nm : PyStr} {C : Tensor K} {c : K} {d : GLog K} {i j N k : Nat} {x : List Nat → K}
    {arrived : List (Nat × Nat)} {T g h : Tensor K} (hC : BatchGradMoment E body m C) (hN : ∀ gs, GradsOf E body none m gs → (gs.map fun g => g.size 0).sum ≤ N)
    (hc : 0 < c) (hx : RawSystem (entries C) c d i nm x) (ha : arrived ∈ (notes batchGrads m ⟨none, [], [], []⟩ body).map Prod.fst)
    (hT : BatchGrad (allocs body) (E.kind m) arrived T) (hk : k < T.size 0) (hd : grad d nm = some h) (ht : h.shape.tail = g.shape.tail)
    (hs : g.shape.tail = T.shape.tail) (he : ∀ idx, g.el (j :: idx) = T.el (k :: idx)) :
    dot g.shape.tail x (row g j) * dot g.shape.tail x (row g j) ≤ (N : K) * dot h.shape.tail x (row h i) := by
  obtain ⟨gs, h1, W, -, h2, h3⟩ := hC
  obtain ⟨h', hh', h4⟩ := hx
  obtain rfl := Option.some.inj (hd.symm.trans hh')
  rw [ht] at h4 ⊢
  have h5 := hN gs h1
  obtain ⟨T', hT', hb⟩ := forall₂_mem_left h1 ha
  obtain ⟨hsh, hel⟩ := batchGrad_entries hT hb
  have hsize : k < T'.size 0 := by rw [Tensor.size, ← hsh]; exact hk
  have hpos : 0 < (gs.map fun g => g.size 0).sum :=
    lt_of_lt_of_le (Nat.zero_lt_of_lt hsize) (List.single_le_sum (fun _ _ => Nat.zero_le _) _ (List.mem_map.2 ⟨T', hT', rfl⟩))
  generalize hM : (gs.map fun g => g.size 0).sum = M at h3 h5 hpos
  have hM0 : (0 : K) < (M : K) := Nat.cast_pos.2 hpos
  have hW : W = numel g.shape.tail := by rw [← h2 T' hT', hs, hsh]; rfl
  simp only [dot_finset]
  have hsys : DampedOn (indices g.shape.tail).toFinset
      (fun a b => (M : K)⁻¹ * (((gs.flatMap fun a => rows a none .grad).map fun r idx => r (ravel g.shape.tail idx)).map fun φ => φ a * φ b).sum)
      c (row h i) x := by
    intro a ha
    have ha' := List.mem_toFinset.1 ha
    have := h4 a ha'
    rw [List.sum_toFinset _ (indices_nodup _)]
    rw [show row h i a = h.el (i :: a) from rfl, ← this]
    congr 2
    refine List.map_congr_left fun b hb => ?_
    congr 1
    unfold entries
    rw [h3 _ _ (hW ▸ ravel_lt _ _ ((mem_indices _ _).1 ha')) (hW ▸ ravel_lt _ _ ((mem_indices _ _).1 hb)), div_eq_inv_mul]
    dsimp only
    rw [List.map_map]
    rfl
  have hG : IsGram (fun a b => (M : K)⁻¹ * (((gs.flatMap fun a => rows a none .grad).map fun r idx => r (ravel g.shape.tail idx)).map fun φ => φ a * φ b).sum) :=
    ⟨_, _, inv_nonneg.2 hM0.le, fun _ _ => rfl⟩
  have h0 := damped_nonneg hG hc.le hsys
  have key := damped_member (h := row g j)
    (φ := fun idx => T'.el (k :: (indices T'.shape.tail).getD (ravel g.shape.tail idx) []))
    (inv_nonneg.2 hM0.le) (fun _ _ => rfl) ?_ ?_ hc.le hsys
  · rw [inv_mul_le_iff₀ hM0] at key
    exact key.trans (mul_le_mul_of_nonneg_right (Nat.cast_le.2 h5) h0)
  · refine List.mem_map.2 ⟨fun j => T'.el (k :: (indices T'.shape.tail).getD j []), List.mem_flatMap.2 ⟨T', hT', ?_⟩, rfl⟩
    exact List.mem_map.2 ⟨k, List.mem_range.2 hsize, rfl⟩
  · intro a ha
    have ha' := (mem_indices _ _).1 (List.mem_toFinset.1 ha)
    show T'.el _ = g.el _
    rw [← hsh, ← hs, getD_ravel _ _ ha', he, hel]

/-- **C157.** A new run is configured with logs and covariances of `grad`, batches are logged by any program, without masks and without exception, and
`finalize` is called. Then the square of the influence of any source on a sample of the program is at most the number of samples times the number of modules
times the self-influence of the source, whatever the gradients are and whatever positive damping is used. -/
theorem C157_one_sample (E : SEnv K) (hE : EighOk E.lib) (hI : InverseOk E.lib) (ops : List (SOp K)) (hops : ∀ o ∈ ops, Configures o) (n : Nat) (th : Int)
    (fs : FS) (ctx : List (SOp K)) (ids : List PyStr) (hx : Context ctx ids none) (body : List (SOp K)) (dir : StateDir K) (keys : List PyStr)
    (mods : PyStr → Nat) (hbody : ∀ o ∈ body, Unmasked o ∧ ∀ nm ∈ keys, Logs nm o) (hessian : Hess) :
    let s := runHistory E ops (Sess.init n th fs)
    OnlyStatistics s.opt → PlainStats s.opt → s.opt.grad.head? = some .log → s.opt.grad.tail.count .covariance = 1 → (hessian = .raw ∨ hessian = .auto) →
    (∀ nm ∈ keys, Watches s (mods nm) nm ∧ notes batchGrads (mods nm) ⟨none, [], [], []⟩ body ≠ []) →
    ∀ t, SAct.each (SOp.run E) (ctx ++ body.map (shift s.user.length) ++ [.finalize dir]) s = (t, none) →
      ∀ N, AtMostSamples E body keys mods N → ∀ d e : GLog K, Dict.keys d = keys → ∀ srcIds tgtIds, Labelled srcIds d → Labelled tgtIds e →
      ∀ c, 0 < c → ∀ sqrt u r u' r',
        computeInfluence E.lib sqrt t.st srcIds (.dict d) tgtIds (.dict e) .dot true hessian none (some c) = .ok (u, r) →
        computeSelf E.lib t.st srcIds (.dict d) true hessian none (some c) = .ok (u', r') →
        ∃ T S, r.influence = .one T ∧ r'.influence.get? ['t', 'o', 't', 'a', 'l'] = some S ∧ ∀ i j, i < srcIds.length → j < tgtIds.length →
          OfProgram E body keys mods e j → T.el [i, j] * T.el [i, j] ≤ (N : K) * (keys.length : K) * S.el [i] := by
  intro s ho hp hl hg hh hmods t ht N hN d e hd srcIds tgtIds hlab hlab' c hc sqrt u r u' r' h h'
  obtain ⟨C, h1, h2⟩ := session_raw E hE hI ops hops n th fs ctx ids hx body dir keys mods hbody hessian ho hp hl hg hh hmods t ht
  subst hd
  obtain ⟨T, a1, -, -, -, a2⟩ := influence_of_solutions (S := fun i m x => RawSystem (entries (C m)) c d i m x) hlab hlab'
    (fun s₁ s₂ o H => h2 d rfl srcIds hlab c hc s₁ s₂ o H) h
  obtain ⟨S, b1, -, -, b2⟩ := self_of_solutions (S := fun i m x => RawSystem (entries (C m)) c d i m x) hlab
    (fun s₁ s₂ o H => h2 d rfl srcIds hlab c hc s₁ s₂ o H) h'
  obtain ⟨-, -, -, -, -, -, -, sz, -⟩ := computeInfluence_ok h hlab hlab'
  refine ⟨T, S, a1, b1, fun i j hi hj hof => ?_⟩
  obtain ⟨⟨x, hx⟩, e1⟩ := a2 i hi
  rw [(b2 i hi).2 x hx, e1 x hx j hj]
  refine (square_sum_le _ _).trans ?_
  rw [mul_comm (N : K), mul_assoc]
  refine mul_le_mul_of_nonneg_left ?_ (Nat.cast_nonneg _)
  unfold against
  rw [← List.sum_map_mul_left]
  refine list_sum_le fun m hm => ?_
  obtain ⟨g', g'', q1, q2, q3⟩ := sz m hm
  obtain ⟨arrived, p1, T', k, p2, p3, g, p4, p5, p6⟩ := hof m hm
  obtain rfl := Option.some.inj (p4.symm.trans q2)
  simp only [p4, q1]
  exact one_sample_module (h1 m hm) (hN m hm) hc (hx m hm) p1 p2 p3 q1 q3 p5 p6

/-- **C157**, between two samples of the program: the influence is between `-N` and `N` times the number of modules. -/
theorem C157_pair (E : SEnv K) (hE : EighOk E.lib) (hI : InverseOk E.lib) (ops : List (SOp K)) (hops : ∀ o ∈ ops, Configures o) (n : Nat) (th : Int)
    (fs : FS) (ctx : List (SOp K)) (ids : List PyStr) (hx : Context ctx ids none) (body : List (SOp K)) (dir : StateDir K) (keys : List PyStr)
    (mods : PyStr → Nat) (hbody : ∀ o ∈ body, Unmasked o ∧ ∀ nm ∈ keys, Logs nm o) (hessian : Hess) :
    let s := runHistory E ops (Sess.init n th fs)
    OnlyStatistics s.opt → PlainStats s.opt → s.opt.grad.head? = some .log → s.opt.grad.tail.count .covariance = 1 → (hessian = .raw ∨ hessian = .auto) →
    (∀ nm ∈ keys, Watches s (mods nm) nm ∧ notes batchGrads (mods nm) ⟨none, [], [], []⟩ body ≠ []) →
    ∀ t, SAct.each (SOp.run E) (ctx ++ body.map (shift s.user.length) ++ [.finalize dir]) s = (t, none) →
      ∀ N, AtMostSamples E body keys mods N → ∀ d e : GLog K, Dict.keys d = keys → ∀ srcIds tgtIds, Labelled srcIds d → Labelled tgtIds e →
      ∀ c, 0 < c → ∀ sqrt u r u' r',
        computeInfluence E.lib sqrt t.st srcIds (.dict d) tgtIds (.dict e) .dot true hessian none (some c) = .ok (u, r) →
        computeSelf E.lib t.st srcIds (.dict d) true hessian none (some c) = .ok (u', r') →
        ∃ T, r.influence = .one T ∧ ∀ i j, i < srcIds.length → j < tgtIds.length → OfProgram E body keys mods d i → OfProgram E body keys mods e j →
          |T.el [i, j]| ≤ (N : K) * (keys.length : K) := by
  intro s ho hp hl hg hh hmods t ht N hN d e hd srcIds tgtIds hlab hlab' c hc sqrt u r u' r' h h'
  obtain ⟨T, S, h1, h2, h3⟩ := C157_one_sample E hE hI ops hops n th fs ctx ids hx body dir keys mods hbody hessian ho hp hl hg hh hmods t ht N hN d e hd srcIds tgtIds
    hlab hlab' c hc sqrt u r u' r' h h'
  obtain ⟨S', h4, -, h5⟩ := C146_leverage E hE hI ops hops n th fs ctx ids hx body dir keys mods hbody hessian ho hp hl hg hh hmods t ht N hN d hd srcIds hlab c hc u' r' h'
  obtain rfl := Option.some.inj (h2.symm.trans h4)
  refine ⟨T, h1, fun i j hi hj h6 h7 => ?_⟩
  have hB : (0 : K) ≤ (N : K) * (keys.length : K) := mul_nonneg (Nat.cast_nonneg _) (Nat.cast_nonneg _)
  have := (h3 i j hi hj h7).trans (mul_le_mul_of_nonneg_left (h5 i hi h6) hB)
  exact abs_le_of_sq_le_sq (by rwa [sq, sq]) hB

namespace ExSess

theorem at_most_two : AtMostSamples EI statBody [na] (fun _ => 0) 2 := by
  intro nm _ gs hgs
  unfold GradsOf at hgs
  rw [stat_notes] at hgs
  cases hgs with
  | cons a t =>
    cases t with
    | cons b t =>
      cases t
      have e1 := (batchGrad_entries stat_first a).1
      have e2 := (batchGrad_entries stat_second b).1
      simp only [List.map_cons, List.map_nil, Tensor.size, ← e1, ← e2]
      decide

theorem first_of_program : OfProgram EI statBody [na] (fun _ => 0) dBoth 0 := by
  intro nm hnm
  obtain rfl := List.mem_singleton.1 hnm
  refine ⟨[(3, 5), (0, 2)], by rw [stat_notes]; simp, (grd 31).val, 0, stat_first, by decide, _, rfl, rfl, fun idx => ?_⟩
  rcases idx with _ | ⟨a, _ | ⟨b, _ | ⟨c, l⟩⟩⟩
  · rfl
  · simp [Tensor.el, inRange, grd]
  · by_cases ha : a = 0
    · by_cases hb : b = 0
      · subst ha hb; decide +kernel
      · have : ¬ b < 1 := by omega
        simp [Tensor.el, inRange, grd, this]
    · have : ¬ a < 1 := by omega
      simp [Tensor.el, inRange, grd, this]
  · simp [Tensor.el, inRange, grd]

/-- The hypotheses of C157 are met: the influence of the second sample on the first is `651 / 702`, and the self-influence of the second is `441 / 702`. -/
example : ∃ u r u' r' T S, computeInfluence EI.lib Rat.sqrt tInf.1.st [['x'], ['y']] (.dict dBoth) [['x'], ['y']] (.dict dBoth) .dot true .auto none (some 1) = .ok (u, r) ∧
    computeSelf EI.lib tInf.1.st [['x'], ['y']] (.dict dBoth) true .auto none (some 1) = .ok (u', r') ∧ r.influence = .one T ∧
    r'.influence.get? ['t', 'o', 't', 'a', 'l'] = some S ∧ T.el [1, 0] * T.el [1, 0] ≤ 2 * S.el [1] := by
  obtain ⟨u, r, h⟩ := ExInfl.isOk (x := computeInfluence EI.lib Rat.sqrt tInf.1.st [['x'], ['y']] (.dict dBoth) [['x'], ['y']] (.dict dBoth) .dot true .auto none (some 1))
    (by decide +kernel)
  obtain ⟨u', r', h'⟩ := ExInfl.isOk (x := computeSelf EI.lib tInf.1.st [['x'], ['y']] (.dict dBoth) true .auto none (some 1)) (by decide +kernel)
  obtain ⟨T, S, h1, h2, h3⟩ := C157_one_sample EI ExInfl.eighOk ExInfl.inverseOk statConf statConf_ok 1 1000 [] _ _ (.with [i1] none false) statBody ⟨[], none⟩ [na]
    (fun _ => 0) statBody_ok .auto conf_ok.1 conf_ok.2.1 conf_ok.2.2.2.2.1 conf_ok.2.2.2.2.2 (.inr rfl)
    (fun nm h => by rw [List.mem_singleton.1 h]; exact ⟨watches_ok, by decide +kernel⟩) tInf.1 run_ok 2 at_most_two
    dBoth dBoth rfl _ _ labBoth labBoth 1 (by decide +kernel) Rat.sqrt u r u' r' h h'
  refine ⟨u, r, u', r', T, S, h, h', h1, h2, ?_⟩
  simpa using h3 1 0 (by decide) (by decide) first_of_program

end ExSess
end Logix
