/-
C125, scores: with masks the matrices of the influence function are those of the tokens.
-/
import Verif.Props.TokenStats
import Verif.Props.SessionInfluence

set_option linter.unusedSectionVars false

namespace Logix
open Spec
variable {K : Type} [Field K] [LinearOrder K] [IsStrictOrderedRing K]

/-- The state at the end of a session with masks, as that of a history of updates. -/
theorem masked_finalized (E : SEnv K) (ops : List (SOp K)) (hops : ∀ o ∈ ops, Configures o) (n : Nat) (th : Int) (fs : FS) (m : Nat) (nm : PyStr)
    (ctx : List (SOp K)) (ids : List PyStr) (mask : Option (Tensor K)) (hx : Context ctx ids mask) (hmk : NonnegMask mask) (body : List (SOp K))
    (hbody : ∀ o ∈ body, Logs nm o ∧ Masks NonnegMask o)
    (dir : StateDir K) (hw : Watches (runHistory E ops (Sess.init n th fs)) m nm) (ho : OnlyStatistics (runHistory E ops (Sess.init n th fs)).opt)
    (hp : PlainStats (runHistory E ops (Sess.init n th fs)).opt) (t : Sess K)
    (ht : SAct.each (SOp.run E) (ctx ++ body.map (shift (runHistory E ops (Sess.init n th fs)).user.length) ++ [.finalize dir])
      (runHistory E ops (Sess.init n th fs)) = (t, none)) :
    ∃ calls, Finalized E.lib calls t.st ∧ (.covariance ∉ (runHistory E ops (Sess.init n th fs)).opt.grad.tail → ∀ m', callsOf .covariance m' .grad calls = []) ∧
      ((runHistory E ops (Sess.init n th fs)).opt.grad.tail.count .covariance = 1 → (runHistory E ops (Sess.init n th fs)).opt.grad.head? = some .log →
        notes batchGrads m ⟨mask, [], [], []⟩ body ≠ [] → callsOf .covariance nm .grad calls ≠ []) := by
  obtain ⟨u, dir', h1, h2⟩ := each_finalize ht
  obtain ⟨calls, f, b, g, hup, -, -, c3, -, -, r3, hq⟩ := session_updates E ops n th fs m nm ctx ids mask hx body (fun o h => (hbody o h).1)
    NonnegMask (fun o h => (hbody o h).2) hmk hw ho u h1
  rw [show (runHistory E ops (Sess.init n th fs)).st = LState.init from configured_st E ops _ hops] at hup
  refine ⟨calls, ⟨fun pc hpc => hp _ (plugs_mem (hq pc hpc).1), fun pc hpc mk hm => ((hq pc hpc).2 mk hm).1, u.st, dir, dir', hup, h2⟩, fun hg m' => ?_, fun hg hl hne => ?_⟩
  · rw [List.eq_nil_iff_forall_not_mem]
    intro c hc
    obtain ⟨a1, a2⟩ := callsOf_mem hc
    have := (hq _ a1).1
    simp only [a2] at this
    exact hg this
  · rw [c3, hg, flatMap_once]
    rintro rfl
    exact hne (List.forall₂_nil_right_iff.1 (r3 hl))

/-- **C125, scores.** A new run is configured with covariances of `forward` and `backward` (and possibly means), and the linear layers `mods nm` are
watched under the names `nm`. Batches are logged by any program, with masks of zeros and ones over the positions, without exception, and with output
gradients that are zero at the padding; and `finalize` is called. Then the score of `compute_influence` for source `i` and target `j` is the inner
product of the gradient of the target with the solution of `B x A + c x = g` for the gradient `g` of the source, summed over the modules. Here
`A` is the average of the outer products of the inputs of the layer over all tokens, and `B` that of its output gradients. -/
theorem C125_scores (E : SEnv K) (hE : EighOk E.lib) (hI : InverseOk E.lib) (ops : List (SOp K)) (hops : ∀ o ∈ ops, Configures o) (n : Nat) (th : Int)
    (fs : FS) (ctx : List (SOp K)) (ids : List PyStr) (mask : Option (Tensor K)) (hx : Context ctx ids mask) (hmk : NonnegMask mask)
    (body : List (SOp K)) (dir : StateDir K) (keys : List PyStr) (mods : PyStr → Nat) (hbody : ∀ o ∈ body, Masks NonnegMask o ∧ ∀ nm ∈ keys, Logs nm o)
    (hessian : Hess) (xs gs : PyStr → List (Tensor K × Tensor K)) :
    let s := runHistory E ops (Sess.init n th fs)
    OnlyStatistics s.opt → PlainStats s.opt → s.opt.forward.count .covariance = 1 → s.opt.backward.count .covariance = 1 →
    (hessian = .kfac ∨ hessian = .auto ∧ .covariance ∉ s.opt.grad.tail) →
    (∀ nm ∈ keys, Watches s (mods nm) nm ∧ E.kind (mods nm) = .linear ∧ xs nm ≠ [] ∧ gs nm ≠ [] ∧
      MaskedValues (allocs body) (notes (input (mods nm)) (mods nm) ⟨mask, [], [], []⟩ body) (xs nm) ∧
      MaskedValues (allocs body) (notes outGrad (mods nm) ⟨mask, [], [], []⟩ body) (gs nm) ∧ ∀ a ∈ gs nm, ZeroPadded a.1 a.2) →
    ∀ t, SAct.each (SOp.run E) (ctx ++ body.map (shift s.user.length) ++ [.finalize dir]) s = (t, none) →
    ∃ A B : PyStr → Tensor K, (∀ nm ∈ keys, IsTokenMoment (xs nm) (A nm) ∧ IsTokenMoment (gs nm) (B nm)) ∧
      ∀ d e : GLog K, Dict.keys d = keys → ∀ srcIds tgtIds, Labelled srcIds d → Labelled tgtIds e → ∀ c, 0 < c → ∀ sqrt u r,
        computeInfluence E.lib sqrt t.st srcIds (.dict d) tgtIds (.dict e) .dot true hessian none (some c) = .ok (u, r) →
        ∃ T, r.influence = .one T ∧ r.srcIds = srcIds ∧ r.tgtIds = tgtIds ∧ T.shape = [srcIds.length, tgtIds.length] ∧ ∀ i, i < srcIds.length →
          (∃ x : PyStr → List Nat → K, ∀ m ∈ keys, KfacSystem (entries (A m)) (entries (B m)) c d i m (x m)) ∧
          ∀ x : PyStr → List Nat → K, (∀ m ∈ keys, KfacSystem (entries (A m)) (entries (B m)) c d i m (x m)) →
            ∀ j, j < tgtIds.length → T.el [i, j] = against x e j keys := by
  intro s ho hp hf hb hh hmods t ht
  have key : ∀ nm, ∃ A B : Tensor K, nm ∈ keys → (IsTokenMoment (xs nm) A ∧ IsTokenMoment (gs nm) B) ∧
      tensorAt t.st.attrs nCov [nm, LogType.name .forward] = some A ∧ tensorAt t.st.attrs nCov [nm, LogType.name .backward] = some B := by
    intro nm
    by_cases hm : nm ∈ keys
    · obtain ⟨hw, hk, n1, n2, v1, v2, hz⟩ := hmods nm hm
      have hbd : ∀ o ∈ body, Logs nm o := fun o h => (hbody o h).2 nm hm
      obtain ⟨A, a1, a2⟩ := (C125_forward E ops hops n th fs (mods nm) nm hk ctx ids mask hx body hbd dir (xs nm) v1 n1 hw ho t ht).2 hf
      obtain ⟨B, b1, b2⟩ := (C125_backward E ops hops n th fs (mods nm) nm hk ctx ids mask hx body hbd dir (gs nm) v2 hz n2 hw ho (count_one_ne_nil hb) t ht).2 hb
      exact ⟨A, B, fun _ => ⟨⟨a2, b2⟩, a1, b1⟩⟩
    · exact ⟨Tensor.ofFn2 .cpu 0 0 fun _ _ => 0, Tensor.ofFn2 .cpu 0 0 fun _ _ => 0, fun h => absurd h hm⟩
  choose A B hAB using key
  refine ⟨A, B, fun nm hm => (hAB nm hm).1, ?_⟩
  rintro d e rfl srcIds tgtIds hd he c hc sqrt u r h
  refine influence_of_solutions (S := fun i m x => KfacSystem (entries (A m)) (entries (B m)) c d i m x) hd he (fun s₁ s₂ o H hpre hH => ?_) h
  by_cases hk : Dict.keys d = []
  · exact ⟨fun i _ => ⟨fun _ _ => 0, fun m hm => by rw [hk] at hm; cases hm⟩, fun i m x hm => by rw [hk] at hm; cases hm⟩
  · obtain ⟨nm, hm⟩ := List.exists_mem_of_ne_nil _ hk
    obtain ⟨calls, hfin, hg, -⟩ := masked_finalized E ops hops n th fs (mods nm) nm ctx ids mask hx hmk body
      (fun o h => ⟨(hbody o h).2 nm hm, (hbody o h).1⟩) dir (hmods nm hm).1 ho hp t ht
    have hu : UsesKfac t.st (Dict.keys d) hessian := usesKfac_of_calls hfin (hh.imp id fun h => ⟨h.1, fun m _ => hg h.2 m⟩)
    have hsA : ∀ m, ∃ w, m ∈ Dict.keys d → (A m).shape = [w, w] := fun m => by
      by_cases h : m ∈ Dict.keys d
      · obtain ⟨w, h1, -⟩ := (hAB m h).1.1
        exact ⟨w, fun _ => h1⟩
      · exact ⟨0, fun h' => absurd h' h⟩
    have hsB : ∀ m, ∃ w, m ∈ Dict.keys d → (B m).shape = [w, w] := fun m => by
      by_cases h : m ∈ Dict.keys d
      · obtain ⟨w, h1, -⟩ := (hAB m h).1.2
        exact ⟨w, fun _ => h1⟩
      · exact ⟨0, fun h' => absurd h' h⟩
    choose wA hwA using hsA
    choose wB hwB using hsB
    exact kfac_solutions (a := fun m => entries (A m)) (b := fun m => entries (B m)) hE hI hfin hu
      (fun m h => ⟨(hAB m h).2.1, hwA m h, fun _ _ _ _ => rfl⟩) (fun m h => ⟨(hAB m h).2.2, hwB m h, fun _ _ _ _ => rfl⟩) hc hd hpre hH

end Logix
