/-
C106: the scores after a session are the influence function of the data of the program.
-/
import Verif.Props.SessionStats
import Verif.Props.Formula
import Verif.Spec.SessionInfluence

set_option linter.unusedSectionVars false

namespace Logix
open Spec
variable {K : Type} [Field K] [LinearOrder K] [IsStrictOrderedRing K]

theorem plugs_mem {o : LogOption} {p : Plugin} {lt : LogType} (h : p ∈ plugs o lt) : p ∈ o.forward ++ o.backward ++ o.grad := by
  cases lt with
  | forward => exact List.mem_append_left _ (List.mem_append_left _ h)
  | backward => exact List.mem_append_left _ (List.mem_append_right _ h)
  | grad => exact List.mem_append_right _ (List.mem_of_mem_tail h)

theorem callsOf_mem {p : Plugin} {nm : PyStr} {lt : LogType} {calls : List (Plugin × StatCall K)} {c : StatCall K} (h : c ∈ callsOf p nm lt calls) :
    (p, c) ∈ calls ∧ c.logType = lt := by
  unfold callsOf at h
  obtain ⟨pc, hpc, rfl⟩ := List.mem_map.1 h
  obtain ⟨h1, h2⟩ := List.mem_filter.1 hpc
  simp only [decide_eq_true_eq] at h2
  obtain ⟨p', c'⟩ := pc
  obtain ⟨rfl, -, h3⟩ := h2
  exact ⟨h1, h3⟩

/-- The state at the end of the session, as that of a history of updates. -/
theorem session_finalized (E : SEnv K) (ops : List (SOp K)) (hops : ∀ o ∈ ops, Configures o) (n : Nat) (th : Int) (fs : FS) (m : Nat) (nm : PyStr)
    (ctx : List (SOp K)) (ids : List PyStr) (hx : Context ctx ids none) (body : List (SOp K)) (hbody : ∀ o ∈ body, Logs nm o ∧ Unmasked o)
    (dir : StateDir K) (hw : Watches (runHistory E ops (Sess.init n th fs)) m nm) (ho : OnlyStatistics (runHistory E ops (Sess.init n th fs)).opt)
    (hp : PlainStats (runHistory E ops (Sess.init n th fs)).opt) (t : Sess K)
    (ht : SAct.each (SOp.run E) (ctx ++ body.map (shift (runHistory E ops (Sess.init n th fs)).user.length) ++ [.finalize dir])
      (runHistory E ops (Sess.init n th fs)) = (t, none)) :
    ∃ calls, Finalized E.lib calls t.st ∧ (.covariance ∉ (runHistory E ops (Sess.init n th fs)).opt.grad.tail → ∀ m', callsOf .covariance m' .grad calls = []) ∧
      ((runHistory E ops (Sess.init n th fs)).opt.grad.tail.count .covariance = 1 → (runHistory E ops (Sess.init n th fs)).opt.grad.head? = some .log →
        notes batchGrads m ⟨none, [], [], []⟩ body ≠ [] → callsOf .covariance nm .grad calls ≠ []) := by
  obtain ⟨u, dir', h1, h2⟩ := each_finalize ht
  obtain ⟨calls, f, b, g, hup, -, -, c3, -, -, r3, hq⟩ := session_updates E ops n th fs m nm ctx ids none hx body (fun o h => (hbody o h).1)
    (fun mask => mask = none) (fun o h => (hbody o h).2) rfl hw ho u h1
  rw [show (runHistory E ops (Sess.init n th fs)).st = LState.init from configured_st E ops _ hops] at hup
  refine ⟨calls, ⟨fun pc hpc => hp _ (plugs_mem (hq pc hpc).1), fun pc hpc mk hmk => ?_, u.st, dir, dir', hup, h2⟩, fun hg m' => ?_, fun hg hl hne => ?_⟩
  · rw [(hq pc hpc).2] at hmk; cases hmk
  · rw [List.eq_nil_iff_forall_not_mem]
    intro c hc
    obtain ⟨a1, a2⟩ := callsOf_mem hc
    have := (hq _ a1).1
    simp only [a2] at this
    exact hg this
  · rw [c3, hg, flatMap_once]
    rintro rfl
    exact hne (List.forall₂_nil_right_iff.1 (r3 hl))

theorem count_one_ne_nil {ps : List Plugin} {p : Plugin} (h : ps.count p = 1) : ps ≠ [] := by
  rintro rfl; cases h

/-- What KFAC needs of the session. -/
theorem session_kfac (E : SEnv K) (hE : EighOk E.lib) (hI : InverseOk E.lib) (ops : List (SOp K)) (hops : ∀ o ∈ ops, Configures o) (n : Nat) (th : Int)
    (fs : FS) (ctx : List (SOp K)) (ids : List PyStr) (hx : Context ctx ids none) (body : List (SOp K)) (dir : StateDir K) (keys : List PyStr)
    (mods : PyStr → Nat) (hbody : ∀ o ∈ body, Unmasked o ∧ ∀ nm ∈ keys, Logs nm o) (hessian : Hess) :
    let s := runHistory E ops (Sess.init n th fs)
    OnlyStatistics s.opt → PlainStats s.opt → s.opt.forward.count .covariance = 1 → s.opt.backward.count .covariance = 1 →
    (hessian = .kfac ∨ hessian = .auto ∧ .covariance ∉ s.opt.grad.tail) →
    (∀ nm ∈ keys, Watches s (mods nm) nm ∧ inputs (mods nm) body ≠ [] ∧ notes outGrad (mods nm) ⟨none, [], [], []⟩ body ≠ []) →
    ∀ t, SAct.each (SOp.run E) (ctx ++ body.map (shift s.user.length) ++ [.finalize dir]) s = (t, none) →
    ∃ A B : PyStr → Tensor K, (∀ nm ∈ keys, InputMoment E body (mods nm) (A nm) ∧ OutGradMoment E body (mods nm) (B nm)) ∧
      ∀ d : GLog K, Dict.keys d = keys → ∀ lids, Labelled lids d → ∀ c, 0 < c → ∀ s₁ s₂ o H,
        precondition E.lib t.st (.dict d) hessian (some c) = .ok (s₂, o) → hessOf E.lib t.st (Dict.keys d) hessian (some c) = .ok (s₁, H) →
        (∀ i, i < lids.length → ∃ x : PyStr → List Nat → K, ∀ m ∈ Dict.keys d, KfacSystem (entries (A m)) (entries (B m)) c d i m (x m)) ∧
        ∀ i m x, m ∈ Dict.keys d → KfacSystem (entries (A m)) (entries (B m)) c d i m x → ∀ g, Spec.grad d m = some g → ∀ f,
          H.form m g.shape.tail (Spec.row g i) f = Spec.dot g.shape.tail x f := by
  intro s ho hp hf hb hh hmods t ht
  have key : ∀ nm, ∃ A B : Tensor K, nm ∈ keys → (InputMoment E body (mods nm) A ∧ OutGradMoment E body (mods nm) B) ∧
      tensorAt t.st.attrs nCov [nm, LogType.name .forward] = some A ∧ tensorAt t.st.attrs nCov [nm, LogType.name .backward] = some B := by
    intro nm
    by_cases hm : nm ∈ keys
    · obtain ⟨hw, hin, hout⟩ := hmods nm hm
      have hbd : ∀ o ∈ body, Logs nm o ∧ Unmasked o := fun o h => ⟨(hbody o h).2 nm hm, (hbody o h).1⟩
      obtain ⟨xs, v1, -, c1⟩ := C105_forward E ops hops n th fs (mods nm) nm ctx ids hx body hbd dir hw ho t ht hin
      obtain ⟨gs, v2, -, c2⟩ := C105_backward E ops hops n th fs (mods nm) nm ctx ids hx body hbd dir hw ho (count_one_ne_nil hb) t ht
        (fun h => hout (List.map_eq_nil_iff.1 h))
      obtain ⟨A, a1, a2⟩ := c1 hf
      obtain ⟨B, b1, b2⟩ := c2 hb
      exact ⟨A, B, fun _ => ⟨⟨⟨xs, v1, a2⟩, gs, v2, b2⟩, a1, b1⟩⟩
    · exact ⟨Tensor.ofFn2 .cpu 0 0 fun _ _ => 0, Tensor.ofFn2 .cpu 0 0 fun _ _ => 0, fun h => absurd h hm⟩
  choose A B hAB using key
  refine ⟨A, B, fun nm hm => (hAB nm hm).1, ?_⟩
  rintro d rfl lids hd c hc s₁ s₂ o H hpre hH
  by_cases he : Dict.keys d = []
  · exact ⟨fun i _ => ⟨fun _ _ => 0, fun m hm => by rw [he] at hm; cases hm⟩, fun i m x hm => by rw [he] at hm; cases hm⟩
  · obtain ⟨nm, hm⟩ := List.exists_mem_of_ne_nil _ he
    obtain ⟨calls, hfin, hg, -⟩ := session_finalized E ops hops n th fs (mods nm) nm ctx ids hx body
      (fun o h => ⟨(hbody o h).2 nm hm, (hbody o h).1⟩) dir (hmods nm hm).1 ho hp t ht
    have hu : UsesKfac t.st (Dict.keys d) hessian := usesKfac_of_calls hfin (hh.imp id fun h => ⟨h.1, fun m _ => hg h.2 m⟩)
    have hsA : ∀ m, ∃ w, m ∈ Dict.keys d → (A m).shape = [w, w] := fun m => by
      by_cases h : m ∈ Dict.keys d
      · obtain ⟨xs, -, w, h1, -⟩ := (hAB m h).1.1
        exact ⟨w, fun _ => h1⟩
      · exact ⟨0, fun h' => absurd h' h⟩
    have hsB : ∀ m, ∃ w, m ∈ Dict.keys d → (B m).shape = [w, w] := fun m => by
      by_cases h : m ∈ Dict.keys d
      · obtain ⟨xs, -, w, h1, -⟩ := (hAB m h).1.2
        exact ⟨w, fun _ => h1⟩
      · exact ⟨0, fun h' => absurd h' h⟩
    choose wA hwA using hsA
    choose wB hwB using hsB
    exact kfac_solutions (a := fun m => entries (A m)) (b := fun m => entries (B m)) hE hI hfin hu
      (fun m h => ⟨(hAB m h).2.1, hwA m h, fun _ _ _ _ => rfl⟩) (fun m h => ⟨(hAB m h).2.2, hwB m h, fun _ _ _ _ => rfl⟩) hc hd hpre hH

/-- After a session with covariances of `grad` these are used. -/
theorem session_usesRaw (E : SEnv K) (ops : List (SOp K)) (hops : ∀ o ∈ ops, Configures o) (n : Nat) (th : Int)
    (fs : FS) (ctx : List (SOp K)) (ids : List PyStr) (hx : Context ctx ids none) (body : List (SOp K)) (dir : StateDir K) (keys : List PyStr)
    (mods : PyStr → Nat) (hbody : ∀ o ∈ body, Unmasked o ∧ ∀ nm ∈ keys, Logs nm o) (hessian : Hess) :
    let s := runHistory E ops (Sess.init n th fs)
    OnlyStatistics s.opt → PlainStats s.opt → s.opt.grad.head? = some .log → s.opt.grad.tail.count .covariance = 1 → (hessian = .raw ∨ hessian = .auto) →
    (∀ nm ∈ keys, Watches s (mods nm) nm ∧ notes batchGrads (mods nm) ⟨none, [], [], []⟩ body ≠ []) →
    ∀ t, SAct.each (SOp.run E) (ctx ++ body.map (shift s.user.length) ++ [.finalize dir]) s = (t, none) → keys ≠ [] →
    (∃ calls, Finalized E.lib calls t.st) ∧ UsesRaw t.st keys hessian := by
  intro s ho hp hl hg hh hmods t ht he
  have hf : ∀ nm ∈ keys, ∃ calls, Finalized E.lib calls t.st ∧ callsOf .covariance nm .grad calls ≠ [] := fun nm hm => by
    obtain ⟨calls, hfin, -, hr⟩ := session_finalized E ops hops n th fs (mods nm) nm ctx ids hx body
      (fun o h => ⟨(hbody o h).2 nm hm, (hbody o h).1⟩) dir (hmods nm hm).1 ho hp t ht
    exact ⟨calls, hfin, hr hg hl (hmods nm hm).2⟩
  obtain ⟨nm, hm⟩ := List.exists_mem_of_ne_nil _ he
  obtain ⟨calls, hfin, -⟩ := hf nm hm
  refine ⟨⟨calls, hfin⟩, hh.imp id fun h => ⟨h, fun cov hcov m hmm sub hsub => ?_⟩⟩
  obtain ⟨calls', hfin', hne⟩ := hf m hmm
  rcases usesRaw_of_calls hfin' hh (keys := [m]) (fun m' h' => by rw [List.mem_singleton.1 h']; exact hne) with h' | ⟨-, h'⟩
  · rw [h] at h'; cases h'
  · exact h' cov hcov m (List.mem_singleton.2 rfl) sub hsub

/-- What the empirical Fisher matrix needs of the session. -/
theorem session_raw (E : SEnv K) (hE : EighOk E.lib) (hI : InverseOk E.lib) (ops : List (SOp K)) (hops : ∀ o ∈ ops, Configures o) (n : Nat) (th : Int)
    (fs : FS) (ctx : List (SOp K)) (ids : List PyStr) (hx : Context ctx ids none) (body : List (SOp K)) (dir : StateDir K) (keys : List PyStr)
    (mods : PyStr → Nat) (hbody : ∀ o ∈ body, Unmasked o ∧ ∀ nm ∈ keys, Logs nm o) (hessian : Hess) :
    let s := runHistory E ops (Sess.init n th fs)
    OnlyStatistics s.opt → PlainStats s.opt → s.opt.grad.head? = some .log → s.opt.grad.tail.count .covariance = 1 → (hessian = .raw ∨ hessian = .auto) →
    (∀ nm ∈ keys, Watches s (mods nm) nm ∧ notes batchGrads (mods nm) ⟨none, [], [], []⟩ body ≠ []) →
    ∀ t, SAct.each (SOp.run E) (ctx ++ body.map (shift s.user.length) ++ [.finalize dir]) s = (t, none) →
    ∃ C : PyStr → Tensor K, (∀ nm ∈ keys, BatchGradMoment E body (mods nm) (C nm)) ∧
      ∀ d : GLog K, Dict.keys d = keys → ∀ lids, Labelled lids d → ∀ c, 0 < c → ∀ s₁ s₂ o H,
        precondition E.lib t.st (.dict d) hessian (some c) = .ok (s₂, o) → hessOf E.lib t.st (Dict.keys d) hessian (some c) = .ok (s₁, H) →
        (∀ i, i < lids.length → ∃ x : PyStr → List Nat → K, ∀ m ∈ Dict.keys d, RawSystem (entries (C m)) c d i m (x m)) ∧
        ∀ i m x, m ∈ Dict.keys d → RawSystem (entries (C m)) c d i m x → ∀ g, Spec.grad d m = some g → ∀ f,
          H.form m g.shape.tail (Spec.row g i) f = Spec.dot g.shape.tail x f := by
  intro s ho hp hl hg hh hmods t ht
  have key : ∀ nm, ∃ C : Tensor K, nm ∈ keys → BatchGradMoment E body (mods nm) C ∧ tensorAt t.st.attrs nCov [nm, LogType.name .grad] = some C := by
    intro nm
    by_cases hm : nm ∈ keys
    · obtain ⟨hw, hne⟩ := hmods nm hm
      obtain ⟨gs, v1, -, c1⟩ := C105_grad E ops hops n th fs (mods nm) nm ctx ids none hx body (fun o h => (hbody o h).2 nm hm) dir hw ho hl t ht
        (fun h => hne (List.map_eq_nil_iff.1 h))
      obtain ⟨C, a1, a2⟩ := c1 hg
      exact ⟨C, fun _ => ⟨⟨gs, v1, a2⟩, a1⟩⟩
    · exact ⟨Tensor.ofFn2 .cpu 0 0 fun _ _ => 0, fun h => absurd h hm⟩
  choose C hC using key
  refine ⟨C, fun nm hm => (hC nm hm).1, ?_⟩
  rintro d rfl lids hd c hc s₁ s₂ o H hpre hH
  by_cases he : Dict.keys d = []
  · exact ⟨fun i _ => ⟨fun _ _ => 0, fun m hm => by rw [he] at hm; cases hm⟩, fun i m x hm => by rw [he] at hm; cases hm⟩
  · obtain ⟨⟨calls, hfin⟩, hu⟩ := session_usesRaw E ops hops n th fs ctx ids hx body dir (Dict.keys d) mods hbody hessian ho hp hl hg hh hmods t ht he
    have hs : ∀ m, ∃ w, m ∈ Dict.keys d → (C m).shape = [w, w] := fun m => by
      by_cases h : m ∈ Dict.keys d
      · obtain ⟨xs, -, w, h1, -⟩ := (hC m h).1
        exact ⟨w, fun _ => h1⟩
      · exact ⟨0, fun h' => absurd h' h⟩
    choose w hw using hs
    exact raw_solutions (S := fun m => entries (C m)) hE hI hfin hu (fun m h => ⟨(hC m h).2, hw m h, fun _ _ _ _ => rfl⟩) hc hd hpre hH

/-- **C106, KFAC.** A new run is configured with covariances of `forward` and `backward` (and possibly means), the modules `mods nm` are watched under
the names `nm`. Batches are logged by any program, without masks and without exception, and `finalize` is called. For every log `d` with these names,
every log `e` and positive damping `c`, the score of `compute_influence` for source `i` and target `j` is the inner product of the gradient of the
target with the solution of `B x A + c x = g` for the gradient `g` of the source, summed over the modules. Here `A` is the second moment of all inputs
of the module in the program, and `B` that of the gradients of its outputs. The system has a solution, and the score is the same for all solutions. -/
theorem C106_kfac (E : SEnv K) (hE : EighOk E.lib) (hI : InverseOk E.lib) (ops : List (SOp K)) (hops : ∀ o ∈ ops, Configures o) (n : Nat) (th : Int)
    (fs : FS) (ctx : List (SOp K)) (ids : List PyStr) (hx : Context ctx ids none) (body : List (SOp K)) (dir : StateDir K) (keys : List PyStr)
    (mods : PyStr → Nat) (hbody : ∀ o ∈ body, Unmasked o ∧ ∀ nm ∈ keys, Logs nm o) (hessian : Hess) :
    let s := runHistory E ops (Sess.init n th fs)
    OnlyStatistics s.opt → PlainStats s.opt → s.opt.forward.count .covariance = 1 → s.opt.backward.count .covariance = 1 →
    (hessian = .kfac ∨ hessian = .auto ∧ .covariance ∉ s.opt.grad.tail) →
    (∀ nm ∈ keys, Watches s (mods nm) nm ∧ inputs (mods nm) body ≠ [] ∧ notes outGrad (mods nm) ⟨none, [], [], []⟩ body ≠ []) →
    ∀ t, SAct.each (SOp.run E) (ctx ++ body.map (shift s.user.length) ++ [.finalize dir]) s = (t, none) →
    ∃ A B : PyStr → Tensor K, (∀ nm ∈ keys, InputMoment E body (mods nm) (A nm) ∧ OutGradMoment E body (mods nm) (B nm)) ∧
      ∀ d e : GLog K, Dict.keys d = keys → ∀ srcIds tgtIds, Labelled srcIds d → Labelled tgtIds e → ∀ c, 0 < c → ∀ sqrt u r,
        computeInfluence E.lib sqrt t.st srcIds (.dict d) tgtIds (.dict e) .dot true hessian none (some c) = .ok (u, r) →
        ∃ T, r.influence = .one T ∧ r.srcIds = srcIds ∧ r.tgtIds = tgtIds ∧ T.shape = [srcIds.length, tgtIds.length] ∧ ∀ i, i < srcIds.length →
          (∃ x : PyStr → List Nat → K, ∀ m ∈ keys, KfacSystem (entries (A m)) (entries (B m)) c d i m (x m)) ∧
          ∀ x : PyStr → List Nat → K, (∀ m ∈ keys, KfacSystem (entries (A m)) (entries (B m)) c d i m (x m)) →
            ∀ j, j < tgtIds.length → T.el [i, j] = against x e j keys := by
  intro s ho hp hf hb hh hmods t ht
  obtain ⟨A, B, h1, h2⟩ := session_kfac E hE hI ops hops n th fs ctx ids hx body dir keys mods hbody hessian ho hp hf hb hh hmods t ht
  refine ⟨A, B, h1, ?_⟩
  rintro d e rfl srcIds tgtIds hd he c hc sqrt u r h
  exact influence_of_solutions (S := fun i m x => KfacSystem (entries (A m)) (entries (B m)) c d i m x) hd he
    (fun s₁ s₂ o H => h2 d rfl srcIds hd c hc s₁ s₂ o H) h

/-- **C106, KFAC**, self-influence: the score of sample `i` is the inner product of its gradient with the solution for it. -/
theorem C106_kfac_self (E : SEnv K) (hE : EighOk E.lib) (hI : InverseOk E.lib) (ops : List (SOp K)) (hops : ∀ o ∈ ops, Configures o) (n : Nat) (th : Int)
    (fs : FS) (ctx : List (SOp K)) (ids : List PyStr) (hx : Context ctx ids none) (body : List (SOp K)) (dir : StateDir K) (keys : List PyStr)
    (mods : PyStr → Nat) (hbody : ∀ o ∈ body, Unmasked o ∧ ∀ nm ∈ keys, Logs nm o) (hessian : Hess) :
    let s := runHistory E ops (Sess.init n th fs)
    OnlyStatistics s.opt → PlainStats s.opt → s.opt.forward.count .covariance = 1 → s.opt.backward.count .covariance = 1 →
    (hessian = .kfac ∨ hessian = .auto ∧ .covariance ∉ s.opt.grad.tail) →
    (∀ nm ∈ keys, Watches s (mods nm) nm ∧ inputs (mods nm) body ≠ [] ∧ notes outGrad (mods nm) ⟨none, [], [], []⟩ body ≠ []) →
    ∀ t, SAct.each (SOp.run E) (ctx ++ body.map (shift s.user.length) ++ [.finalize dir]) s = (t, none) →
    ∃ A B : PyStr → Tensor K, (∀ nm ∈ keys, InputMoment E body (mods nm) (A nm) ∧ OutGradMoment E body (mods nm) (B nm)) ∧
      ∀ d : GLog K, Dict.keys d = keys → ∀ srcIds, Labelled srcIds d → ∀ c, 0 < c → ∀ u r,
        computeSelf E.lib t.st srcIds (.dict d) true hessian none (some c) = .ok (u, r) →
        ∃ T, r.influence.get? ['t', 'o', 't', 'a', 'l'] = some T ∧ r.srcIds = srcIds ∧ T.shape = [srcIds.length] ∧ ∀ i, i < srcIds.length →
          (∃ x : PyStr → List Nat → K, ∀ m ∈ keys, KfacSystem (entries (A m)) (entries (B m)) c d i m (x m)) ∧
          ∀ x : PyStr → List Nat → K, (∀ m ∈ keys, KfacSystem (entries (A m)) (entries (B m)) c d i m (x m)) → T.el [i] = against x d i keys := by
  intro s ho hp hf hb hh hmods t ht
  obtain ⟨A, B, h1, h2⟩ := session_kfac E hE hI ops hops n th fs ctx ids hx body dir keys mods hbody hessian ho hp hf hb hh hmods t ht
  refine ⟨A, B, h1, ?_⟩
  rintro d rfl srcIds hd c hc u r h
  exact self_of_solutions (S := fun i m x => KfacSystem (entries (A m)) (entries (B m)) c d i m x) hd
    (fun s₁ s₂ o H => h2 d rfl srcIds hd c hc s₁ s₂ o H) h

/-- **C106, empirical Fisher.** A new run is configured with logs and covariances of `grad`. Otherwise as before; the score is the inner product of the
gradient of the target with the solution of `C x + c x = g`, where `C` is the second moment of the per-sample gradients of the module in all batches. -/
theorem C106_raw (E : SEnv K) (hE : EighOk E.lib) (hI : InverseOk E.lib) (ops : List (SOp K)) (hops : ∀ o ∈ ops, Configures o) (n : Nat) (th : Int)
    (fs : FS) (ctx : List (SOp K)) (ids : List PyStr) (hx : Context ctx ids none) (body : List (SOp K)) (dir : StateDir K) (keys : List PyStr)
    (mods : PyStr → Nat) (hbody : ∀ o ∈ body, Unmasked o ∧ ∀ nm ∈ keys, Logs nm o) (hessian : Hess) :
    let s := runHistory E ops (Sess.init n th fs)
    OnlyStatistics s.opt → PlainStats s.opt → s.opt.grad.head? = some .log → s.opt.grad.tail.count .covariance = 1 → (hessian = .raw ∨ hessian = .auto) →
    (∀ nm ∈ keys, Watches s (mods nm) nm ∧ notes batchGrads (mods nm) ⟨none, [], [], []⟩ body ≠ []) →
    ∀ t, SAct.each (SOp.run E) (ctx ++ body.map (shift s.user.length) ++ [.finalize dir]) s = (t, none) →
    ∃ C : PyStr → Tensor K, (∀ nm ∈ keys, BatchGradMoment E body (mods nm) (C nm)) ∧
      ∀ d e : GLog K, Dict.keys d = keys → ∀ srcIds tgtIds, Labelled srcIds d → Labelled tgtIds e → ∀ c, 0 < c → ∀ sqrt u r,
        computeInfluence E.lib sqrt t.st srcIds (.dict d) tgtIds (.dict e) .dot true hessian none (some c) = .ok (u, r) →
        ∃ T, r.influence = .one T ∧ r.srcIds = srcIds ∧ r.tgtIds = tgtIds ∧ T.shape = [srcIds.length, tgtIds.length] ∧ ∀ i, i < srcIds.length →
          (∃ x : PyStr → List Nat → K, ∀ m ∈ keys, RawSystem (entries (C m)) c d i m (x m)) ∧
          ∀ x : PyStr → List Nat → K, (∀ m ∈ keys, RawSystem (entries (C m)) c d i m (x m)) →
            ∀ j, j < tgtIds.length → T.el [i, j] = against x e j keys := by
  intro s ho hp hl hg hh hmods t ht
  obtain ⟨C, h1, h2⟩ := session_raw E hE hI ops hops n th fs ctx ids hx body dir keys mods hbody hessian ho hp hl hg hh hmods t ht
  refine ⟨C, h1, ?_⟩
  rintro d e rfl srcIds tgtIds hd he c hc sqrt u r h
  exact influence_of_solutions (S := fun i m x => RawSystem (entries (C m)) c d i m x) hd he
    (fun s₁ s₂ o H => h2 d rfl srcIds hd c hc s₁ s₂ o H) h

/-- **C106, empirical Fisher**, self-influence. -/
theorem C106_raw_self (E : SEnv K) (hE : EighOk E.lib) (hI : InverseOk E.lib) (ops : List (SOp K)) (hops : ∀ o ∈ ops, Configures o) (n : Nat) (th : Int)
    (fs : FS) (ctx : List (SOp K)) (ids : List PyStr) (hx : Context ctx ids none) (body : List (SOp K)) (dir : StateDir K) (keys : List PyStr)
    (mods : PyStr → Nat) (hbody : ∀ o ∈ body, Unmasked o ∧ ∀ nm ∈ keys, Logs nm o) (hessian : Hess) :
    let s := runHistory E ops (Sess.init n th fs)
    OnlyStatistics s.opt → PlainStats s.opt → s.opt.grad.head? = some .log → s.opt.grad.tail.count .covariance = 1 → (hessian = .raw ∨ hessian = .auto) →
    (∀ nm ∈ keys, Watches s (mods nm) nm ∧ notes batchGrads (mods nm) ⟨none, [], [], []⟩ body ≠ []) →
    ∀ t, SAct.each (SOp.run E) (ctx ++ body.map (shift s.user.length) ++ [.finalize dir]) s = (t, none) →
    ∃ C : PyStr → Tensor K, (∀ nm ∈ keys, BatchGradMoment E body (mods nm) (C nm)) ∧
      ∀ d : GLog K, Dict.keys d = keys → ∀ srcIds, Labelled srcIds d → ∀ c, 0 < c → ∀ u r,
        computeSelf E.lib t.st srcIds (.dict d) true hessian none (some c) = .ok (u, r) →
        ∃ T, r.influence.get? ['t', 'o', 't', 'a', 'l'] = some T ∧ r.srcIds = srcIds ∧ T.shape = [srcIds.length] ∧ ∀ i, i < srcIds.length →
          (∃ x : PyStr → List Nat → K, ∀ m ∈ keys, RawSystem (entries (C m)) c d i m (x m)) ∧
          ∀ x : PyStr → List Nat → K, (∀ m ∈ keys, RawSystem (entries (C m)) c d i m (x m)) → T.el [i] = against x d i keys := by
  intro s ho hp hl hg hh hmods t ht
  obtain ⟨C, h1, h2⟩ := session_raw E hE hI ops hops n th fs ctx ids hx body dir keys mods hbody hessian ho hp hl hg hh hmods t ht
  refine ⟨C, h1, ?_⟩
  rintro d rfl srcIds hd c hc u r h
  exact self_of_solutions (S := fun i m x => RawSystem (entries (C m)) c d i m x) hd
    (fun s₁ s₂ o H => h2 d rfl srcIds hd c hc s₁ s₂ o H) h

end Logix
