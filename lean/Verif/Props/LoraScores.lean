/-
C133: the scores of a session with LoRA, in terms of the second moments of the layers.
-/
import Verif.Props.LoraStats
import Verif.Props.SessionInfluence

namespace Logix
open Spec Sess
variable {K : Type} [Field K] [LinearOrder K] [IsStrictOrderedRing K]

theorem kfacSystem_congr {A B A' B' : Nat → Nat → K} {c : K} {d : GLog K} {i : Nat} {m : PyStr} {x : List Nat → K} {r : Nat}
    (hd : ∀ g, grad d m = some g → g.shape.tail = [r, r]) (hA : ∀ s t, s < r → t < r → A s t = A' s t) (hB : ∀ s t, s < r → t < r → B s t = B' s t)
    (h : KfacSystem A B c d i m x) : KfacSystem A' B' c d i m x := by
  obtain ⟨g, n, a, b, h1, h2, h3⟩ := h
  have e := hd g h1
  rw [h2] at e
  simp only [List.tail_cons, List.cons.injEq, and_true] at e
  obtain ⟨rfl, e⟩ := e
  subst e
  refine ⟨g, n, _, _, h1, h2, fun p q hp hq => ?_⟩
  rw [← h3 p q hp hq]
  congr 1
  refine Finset.sum_congr rfl fun p' hp' => Finset.sum_congr rfl fun q' hq' => ?_
  rw [hA _ _ (Finset.mem_range.1 hq') hq, hB _ _ hp (Finset.mem_range.1 hp')]

theorem rawSystem_congr {S S' : Nat → Nat → K} {c : K} {d : GLog K} {i : Nat} {m : PyStr} {x : List Nat → K} {r : Nat}
    (hd : ∀ g, grad d m = some g → g.shape.tail = [r, r])
    (hS : ∀ s t s' t', s < r → t < r → s' < r → t' < r → S (s * r + t) (s' * r + t') = S' (s * r + t) (s' * r + t'))
    (h : RawSystem S c d i m x) : RawSystem S' c d i m x := by
  obtain ⟨g, h1, h2⟩ := h
  have e := hd g h1
  have pair : ∀ idx ∈ indices [r, r], ∃ s t, idx = [s, t] ∧ s < r ∧ t < r ∧ ravel [r, r] idx = s * r + t := by
    intro idx hidx
    have := (mem_indices _ _).1 hidx
    match idx, this with
    | [s, t], h =>
      simp only [inRange, Bool.and_true, Bool.and_eq_true, decide_eq_true_eq] at h
      exact ⟨s, t, rfl, h.1, h.2, by simp [ravel, numel]⟩
    | [], h => exact absurd h (by simp [inRange])
    | [_], h => exact absurd h (by simp [inRange])
    | _ :: _ :: _ :: _, h => exact absurd h (by simp [inRange])
  refine ⟨g, h1, fun idx hidx => ?_⟩
  rw [← h2 idx hidx, e]
  rw [e] at hidx
  congr 2
  refine List.map_congr_left fun idx' hidx' => ?_
  obtain ⟨s, t, rfl, a1, a2, a3⟩ := pair idx hidx
  obtain ⟨s', t', rfl, b1, b2, b3⟩ := pair idx' hidx'
  rw [a3, b3, hS s t s' t' a1 a2 b1 b2]

/-- **C133, KFAC.** A session with LoRA, as in C106, and a program `full` that uses the layers as the session uses the bottlenecks of their wrappers. The scores of the session
are those of the influence function in which the second moments of the layers are projected: `A M Aᵀ` for the inputs and `Dᵀ N D` for the output gradients. -/
theorem C133_kfac (E : SEnv K) (hE : EighOk E.lib) (hI : InverseOk E.lib) (ops : List (SOp K)) (hops : ∀ o ∈ ops, Configures o) (n : Nat) (th : Int)
    (fs : FS) (ctx : List (SOp K)) (ids : List PyStr) (hx : Context ctx ids none) (body : List (SOp K)) (dir : StateDir K) (keys : List PyStr)
    (mods : PyStr → Nat) (hbody : ∀ o ∈ body, Unmasked o ∧ ∀ nm ∈ keys, Logs nm o) (hessian : Hess)
    (env : SEnv K) (full : List (SOp K)) (layers : PyStr → Nat) (rank : PyStr → Nat) (layer : PyStr → Layer) (A D M N : PyStr → Tensor K)
    (hkind : ∀ nm ∈ keys, env.kind (layers nm) = layerKind (layer nm) ∧ E.kind (mods nm) = bottleneckKind (rank nm) (layer nm))
    (hfwd : ∀ nm ∈ keys, InputMoment env full (layers nm) (M nm) ∧
      List.Forall₂ (Related (Encodes (rank nm) (layer nm) (A nm)) (allocs full) (allocs body)) (inputs (layers nm) full) (inputs (mods nm) body))
    (hbwd : ∀ nm ∈ keys, OutGradMoment env full (layers nm) (N nm) ∧
      List.Forall₂ (Related (Decodes (rank nm) (layer nm) (D nm)) (allocs full) (allocs body)) ((notes outGrad (layers nm) ⟨none, [], [], []⟩ full).map Prod.fst)
        ((notes outGrad (mods nm) ⟨none, [], [], []⟩ body).map Prod.fst)) :
    let s := runHistory E ops (Sess.init n th fs)
    let S := fun (c : K) (d : GLog K) (i : Nat) (m : PyStr) (x : List Nat → K) =>
      KfacSystem (congruent (fanIn (layer m)) (encoderMatrix (layer m) (A m)) (entries (M m))) (congruent (fanOut (layer m)) (decoderMatrix (layer m) (D m)) (entries (N m))) c d i m x
    OnlyStatistics s.opt → PlainStats s.opt → s.opt.forward.count .covariance = 1 → s.opt.backward.count .covariance = 1 →
    (hessian = .kfac ∨ hessian = .auto ∧ .covariance ∉ s.opt.grad.tail) →
    (∀ nm ∈ keys, Watches s (mods nm) nm ∧ inputs (mods nm) body ≠ [] ∧ notes outGrad (mods nm) ⟨none, [], [], []⟩ body ≠ []) →
    ∀ t, SAct.each (SOp.run E) (ctx ++ body.map (shift s.user.length) ++ [.finalize dir]) s = (t, none) →
    ∀ d e : GLog K, Dict.keys d = keys → SquareGrads d keys rank → ∀ srcIds tgtIds, Labelled srcIds d → Labelled tgtIds e → ∀ c, 0 < c → ∀ sqrt u r,
      computeInfluence E.lib sqrt t.st srcIds (.dict d) tgtIds (.dict e) .dot true hessian none (some c) = .ok (u, r) →
      ∃ T, r.influence = .one T ∧ r.srcIds = srcIds ∧ r.tgtIds = tgtIds ∧ T.shape = [srcIds.length, tgtIds.length] ∧ ∀ i, i < srcIds.length →
        (∃ x : PyStr → List Nat → K, ∀ m ∈ keys, S c d i m (x m)) ∧
        ∀ x : PyStr → List Nat → K, (∀ m ∈ keys, S c d i m (x m)) → ∀ j, j < tgtIds.length → T.el [i, j] = against x e j keys := by
  intro s S ho hp hf hb hh hmods t ht d e hd hsq srcIds tgtIds hl hl' c hc sqrt u r hr
  obtain ⟨MA, MB, h1, h2⟩ := C106_kfac E hE hI ops hops n th fs ctx ids hx body dir keys mods hbody hessian ho hp hf hb hh hmods t ht
  have eA : ∀ m ∈ keys, ∀ s t, s < rank m → t < rank m → entries (MA m) s t = congruent (fanIn (layer m)) (encoderMatrix (layer m) (A m)) (entries (M m)) s t := by
    intro m hm
    refine (C133_forward env E full body (layers m) (mods m) (rank m) (layer m) (A m) (M m) (MA m) (hkind m hm).1 (hkind m hm).2 ?_ (hfwd m hm).2 (hfwd m hm).1 (h1 m hm).1).2
    intro h0
    have := (hfwd m hm).2
    rw [h0] at this
    exact (hmods m hm).2.1 (List.forall₂_nil_left_iff.1 this)
  have eB : ∀ m ∈ keys, ∀ s t, s < rank m → t < rank m → entries (MB m) s t = congruent (fanOut (layer m)) (decoderMatrix (layer m) (D m)) (entries (N m)) s t := by
    intro m hm
    refine (C133_backward env E full body (layers m) (mods m) (rank m) (layer m) (D m) (N m) (MB m) (hkind m hm).1 (hkind m hm).2 ?_ (hbwd m hm).2 (hbwd m hm).1 (h1 m hm).2).2
    intro h0
    have := (hbwd m hm).2
    rw [h0] at this
    exact (hmods m hm).2.2 (List.map_eq_nil_iff.1 (List.forall₂_nil_left_iff.1 this))
  obtain ⟨T, t1, t2, t3, t4, t5⟩ := h2 d e hd srcIds tgtIds hl hl' c hc sqrt u r hr
  refine ⟨T, t1, t2, t3, t4, fun i hi => ?_⟩
  obtain ⟨⟨x, hx'⟩, huniq⟩ := t5 i hi
  refine ⟨⟨x, fun m hm => kfacSystem_congr (hsq m hm) (eA m hm) (eB m hm) (hx' m hm)⟩, fun x hx => huniq x fun m hm => ?_⟩
  exact kfacSystem_congr (hsq m hm) (fun s t a b => (eA m hm s t a b).symm) (fun s t a b => (eB m hm s t a b).symm) (hx m hm)

/-- **C133, empirical Fisher.** Otherwise as before; the matrix is the projected second moment of the gradients of the layers. -/
theorem C133_raw (E : SEnv K) (hE : EighOk E.lib) (hI : InverseOk E.lib) (ops : List (SOp K)) (hops : ∀ o ∈ ops, Configures o) (n : Nat) (th : Int)
    (fs : FS) (ctx : List (SOp K)) (ids : List PyStr) (hx : Context ctx ids none) (body : List (SOp K)) (dir : StateDir K) (keys : List PyStr)
    (mods : PyStr → Nat) (hbody : ∀ o ∈ body, Unmasked o ∧ ∀ nm ∈ keys, Logs nm o) (hessian : Hess)
    (env : SEnv K) (full : List (SOp K)) (layers : PyStr → Nat) (rank : PyStr → Nat) (layer : PyStr → Layer) (A D M : PyStr → Tensor K)
    (hkind : ∀ nm ∈ keys, env.kind (layers nm) = layerKind (layer nm) ∧ E.kind (mods nm) = bottleneckKind (rank nm) (layer nm))
    (hgrad : ∀ nm ∈ keys, BatchGradMoment env full (layers nm) (M nm) ∧
      List.Forall₂ (fun b b' => ∃ N, List.Forall₂ (WrappedUse (rank nm) (layer nm) (A nm) (D nm) N (allocs full) (allocs body)) b b')
        ((notes batchGrads (layers nm) ⟨none, [], [], []⟩ full).map Prod.fst) ((notes batchGrads (mods nm) ⟨none, [], [], []⟩ body).map Prod.fst)) :
    let s := runHistory E ops (Sess.init n th fs)
    let S := fun (c : K) (d : GLog K) (i : Nat) (m : PyStr) (x : List Nat → K) => RawSystem (projectedMoment (rank m) (layer m) (A m) (D m) (M m)) c d i m x
    OnlyStatistics s.opt → PlainStats s.opt → s.opt.grad.head? = some .log → s.opt.grad.tail.count .covariance = 1 → (hessian = .raw ∨ hessian = .auto) →
    (∀ nm ∈ keys, Watches s (mods nm) nm ∧ notes batchGrads (mods nm) ⟨none, [], [], []⟩ body ≠ []) →
    ∀ t, SAct.each (SOp.run E) (ctx ++ body.map (shift s.user.length) ++ [.finalize dir]) s = (t, none) →
    ∀ d e : GLog K, Dict.keys d = keys → SquareGrads d keys rank → ∀ srcIds tgtIds, Labelled srcIds d → Labelled tgtIds e → ∀ c, 0 < c → ∀ sqrt u r,
      computeInfluence E.lib sqrt t.st srcIds (.dict d) tgtIds (.dict e) .dot true hessian none (some c) = .ok (u, r) →
      ∃ T, r.influence = .one T ∧ r.srcIds = srcIds ∧ r.tgtIds = tgtIds ∧ T.shape = [srcIds.length, tgtIds.length] ∧ ∀ i, i < srcIds.length →
        (∃ x : PyStr → List Nat → K, ∀ m ∈ keys, S c d i m (x m)) ∧
        ∀ x : PyStr → List Nat → K, (∀ m ∈ keys, S c d i m (x m)) → ∀ j, j < tgtIds.length → T.el [i, j] = against x e j keys := by
  intro s S ho hp hg hc1 hh hmods t ht d e hd hsq srcIds tgtIds hl hl' c hc sqrt u r hr
  obtain ⟨C, h1, h2⟩ := C106_raw E hE hI ops hops n th fs ctx ids hx body dir keys mods hbody hessian ho hp hg hc1 hh hmods t ht
  have eC : ∀ m ∈ keys, ∀ a b a' b', a < rank m → b < rank m → a' < rank m → b' < rank m →
      entries (C m) (a * rank m + b) (a' * rank m + b') = projectedMoment (rank m) (layer m) (A m) (D m) (M m) (a * rank m + b) (a' * rank m + b') := by
    intro m hm a b a' b' h3 h4 h5 h6
    have q := C133_grad env E full body (layers m) (mods m) (rank m) (layer m) (A m) (D m) (M m) (C m) (hkind m hm).1 (hkind m hm).2 ?_ (hgrad m hm).2 (hgrad m hm).1 (h1 m hm) a b a' b'
      h3 h4 h5 h6
    · unfold projectedMoment entries
      have dm : ∀ {x y : Nat}, y < rank m → (x * rank m + y) / rank m = x ∧ (x * rank m + y) % rank m = y := fun {x y} hy => by
        constructor
        · rw [Nat.mul_comm, Nat.mul_add_div (by omega), Nat.div_eq_of_lt hy, Nat.add_zero]
        · rw [Nat.mul_comm, Nat.mul_add_mod, Nat.mod_eq_of_lt hy]
      rw [(dm h4).1, (dm h4).2, (dm h6).1, (dm h6).2]
      exact q
    · intro h0
      have := (hgrad m hm).2
      rw [h0] at this
      exact (hmods m hm).2 (List.map_eq_nil_iff.1 (List.forall₂_nil_left_iff.1 this))
  obtain ⟨T, t1, t2, t3, t4, t5⟩ := h2 d e hd srcIds tgtIds hl hl' c hc sqrt u r hr
  refine ⟨T, t1, t2, t3, t4, fun i hi => ?_⟩
  obtain ⟨⟨x, hx'⟩, huniq⟩ := t5 i hi
  refine ⟨⟨x, fun m hm => rawSystem_congr (hsq m hm) (eC m hm) (hx' m hm)⟩, fun x hx => huniq x fun m hm => ?_⟩
  exact rawSystem_congr (hsq m hm) (fun a b a' b' h3 h4 h5 h6 => (eC m hm a b a' b' h3 h4 h5 h6).symm) (hx m hm)

end Logix
