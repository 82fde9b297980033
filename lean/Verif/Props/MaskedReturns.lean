/-
C122, with masks: programs that fit together never raise, and influence computations after them return.
-/
import Verif.Props.SessionReturns
import Verif.Props.TokenScores

set_option linter.unusedSectionVars false

namespace Logix
open Spec
variable {K : Type} [Field K] [LinearOrder K] [IsStrictOrderedRing K]

/-- The covariances at the end of a session exist. -/
theorem session_covs (E : SEnv K) (ops : List (SOp K)) (hops : ∀ o ∈ ops, Configures o) (n : Nat) (th : Int) (fs : FS) (m : Nat) (nm : PyStr)
    (ctx : List (SOp K)) (ids : List PyStr) (mask : Option (Tensor K)) (hx : Context ctx ids mask) (body : List (SOp K)) (hbody : ∀ o ∈ body, Logs nm o)
    (dir : StateDir K) (hw : Watches (runHistory E ops (Sess.init n th fs)) m nm) (ho : OnlyStatistics (runHistory E ops (Sess.init n th fs)).opt) (t : Sess K)
    (ht : SAct.each (SOp.run E) (ctx ++ body.map (shift (runHistory E ops (Sess.init n th fs)).user.length) ++ [.finalize dir])
      (runHistory E ops (Sess.init n th fs)) = (t, none)) :
    ((runHistory E ops (Sess.init n th fs)).opt.forward.count .covariance = 1 → notes (input m) m ⟨mask, [], [], []⟩ body ≠ [] →
      (tensorAt t.st.attrs nCov [nm, LogType.name .forward]).isSome) ∧
    ((runHistory E ops (Sess.init n th fs)).opt.backward.count .covariance = 1 → notes outGrad m ⟨mask, [], [], []⟩ body ≠ [] →
      (tensorAt t.st.attrs nCov [nm, LogType.name .backward]).isSome) ∧
    ((runHistory E ops (Sess.init n th fs)).opt.grad.tail.count .covariance = 1 → (runHistory E ops (Sess.init n th fs)).opt.grad.head? = some .log →
      notes batchGrads m ⟨mask, [], [], []⟩ body ≠ [] → (tensorAt t.st.attrs nCov [nm, LogType.name .grad]).isSome) := by
  obtain ⟨u, dir', h1, h2⟩ := each_finalize ht
  obtain ⟨calls, f, b, g, hup, c1, c2, c3, r1, r2, r3⟩ := C105_updates E ops n th fs m nm ctx ids mask hx body hbody hw ho u h1
  rw [show (runHistory E ops (Sess.init n th fs)).st = LState.init from configured_st E ops _ hops] at hup
  have key : ∀ (ps : List Plugin) (lt : LogType) (l : List (StatCall K)), (∀ p, callsOf p nm lt calls = l.flatMap (List.replicate (ps.count p))) →
      ps.count .covariance = 1 → l ≠ [] → (tensorAt t.st.attrs nCov [nm, lt.name]).isSome := by
    intro ps lt l e hc hl
    have e' := e .covariance
    rw [hc, flatMap_once] at e'
    obtain ⟨T, W, a1, -⟩ := stat_finalize E.lib statOf_cov (by decide) hup h2 nm lt (by rw [e']; exact hl)
    rw [a1]; rfl
  refine ⟨fun hc hne => key _ _ f c1 hc ?_, fun hc hne => key _ _ b c2 hc ?_, fun hc hl hne => key _ _ g c3 hc ?_⟩
  · rintro rfl
    exact hne (List.forall₂_nil_right_iff.1 r1)
  · rintro rfl
    exact hne (List.forall₂_nil_right_iff.1 (r2 (count_one_ne_nil hc)))
  · rintro rfl
    exact hne (List.forall₂_nil_right_iff.1 (r3 hl))

/-- **C122, with masks, in all modes and for all groups.** A new run is configured, a program logs batches that fit together, with any masks that fit and have
no negative entries and some positive one or without, and `finalize` is called. This returns. The covariances that the Hessian asks for are configured and every module is used.
Then `compute_influence` and `compute_self_influence` return for all logs of the watched modules with gradients of their shapes, with positive damping,
with or without preconditioning, for groups that each match some module; in the modes `l2` and `cosine` with the sources on the CPU. -/
theorem C122_masked (E : SEnv K) (hE : EighOk E.lib) (hI : InverseOk E.lib) (hL : LibTotal E.lib) (pre : List (SOp K)) (hpre : ∀ o ∈ pre, Configures o) (n : Nat)
    (th : Int) (fs : FS) (ctx : List (SOp K)) (ids : List PyStr) (mask : Option (Tensor K)) (hx : Context ctx ids mask) (hmk : NonnegMask mask) (keys : List PyStr)
    (mods : PyStr → Nat) (lay : Layout) (body : List (SOp K)) (hbody : ∀ o ∈ body, Masks NonnegMask o) (dir : StateDir K) (hessian : Hess) :
    let s := runHistory E pre (Sess.init n th fs)
    Configured s keys mods lay →
    ((hessian = .kfac ∨ hessian = .auto ∧ .covariance ∉ s.opt.grad.tail) ∧ s.opt.forward.count .covariance = 1 ∧ s.opt.backward.count .covariance = 1 ∧
        (∀ nm ∈ keys, notes (input (mods nm)) (mods nm) ⟨mask, [], [], []⟩ body ≠ [] ∧ notes outGrad (mods nm) ⟨mask, [], [], []⟩ body ≠ []) ∨
      (hessian = .raw ∨ hessian = .auto) ∧ s.opt.grad.tail.count .covariance = 1 ∧ ∀ nm ∈ keys, notes batchGrads (mods nm) ⟨mask, [], [], []⟩ body ≠ []) →
    ProgramFits E s.opt keys mods lay [] (Saving.after (pre ++ ctx)) (fun _ => ⟨mask, [], [], []⟩) body →
    ∃ t : Sess K, SAct.each (SOp.run E) (ctx ++ body.map (shift s.user.length) ++ [.finalize dir]) s = (t, none) ∧
      ∀ (d : GLog K) srcIds (dev : Dev), GradLog srcIds d dev lay.rows lay.cols → Dict.keys d = keys → ∀ c, 0 < c → ∀ precond groups, GroupsHit groups keys →
        (∃ u r, computeSelf E.lib t.st srcIds (.dict d) precond hessian groups (some c) = .ok (u, r)) ∧
        ∀ (e : GLog K) tgtIds (dev' : Dev), GradLog tgtIds e dev' lay.rows lay.cols → (∀ m, m ∈ keys ↔ m ∈ Dict.keys e) →
          ∀ sqrt mode, mode = .dot ∨ (mode = .l2 ∨ mode = .cosine) ∧ dev = .cpu →
          ∃ u r, computeInfluence E.lib sqrt t.st srcIds (.dict d) tgtIds (.dict e) mode precond hessian groups (some c) = .ok (u, r) := by
  intro s hc hh hp
  obtain ⟨v, t, g1, g2, hst⟩ := session_returns E hpre n th fs hx dir hc hp (Q := fun _ => True) trivial fun o _ => masks_true o
  have ht : SAct.each (SOp.run E) (ctx ++ body.map (shift s.user.length) ++ [.finalize dir]) s = (t, none) := by
    rw [SAct.each_append, SAct.seq_eq g1]
    show SAct.seq ((SOp.finalize dir).run E) (SAct.each (SOp.run E) []) v = _
    rw [SAct.seq_eq g2]
    rfl
  refine ⟨t, ht, fun d srcIds dev hd hk c hcp precond groups hgr => ?_⟩
  have hlogs : ∀ nm, ∀ o ∈ body, Logs nm o := fun nm o h => programFits_logs body _ _ _ hp o h nm
  have hcovs := fun nm (hm : nm ∈ keys) => session_covs E pre hpre n th fs (mods nm) nm ctx ids mask hx body (hlogs nm) dir (hc.watches nm hm) hc.stats t ht
  have fin := fun nm (hm : nm ∈ keys) => masked_finalized E pre hpre n th fs (mods nm) nm ctx ids mask hx hmk body
    (fun o h => ⟨hlogs nm o h, hbody o h⟩) dir (hc.watches nm hm) hc.stats hc.plain t ht
  obtain ⟨nm0, hm0⟩ := List.exists_mem_of_ne_nil keys hc.nonempty
  obtain ⟨calls, hfin, hg, -⟩ := fin nm0 hm0
  have hR : InfReady E.lib t.st keys hessian c lay.rows lay.cols := by
    refine session_ready hE hI hL hst g2 hfin hcp ?_
    rcases hh with ⟨h0, h1, h2, h3⟩ | ⟨h0, h1, h2⟩
    · exact .inl ⟨usesKfac_of_calls hfin (h0.imp id fun h => ⟨h.1, fun m _ => hg h.2 m⟩), fun nm hm =>
        ⟨(hcovs nm hm).1 h1 (h3 nm hm).1, (hcovs nm hm).2.1 h2 (h3 nm hm).2⟩⟩
    · have hl : s.opt.grad.head? = some .log := hc.grad.resolve_left fun h => by rw [h] at h1; cases h1
      refine .inr ⟨h0.imp id fun h => ⟨h, fun cov hcov m hm sub hsub => ?_⟩, fun nm hm => (hcovs nm hm).2.2 h1 hl (h2 nm hm)⟩
      obtain ⟨calls', hfin', -, hr⟩ := fin m hm
      rcases usesRaw_of_calls hfin' h0 (keys := [m]) (fun m' h' => by rw [List.mem_singleton.1 h']; exact hr h1 hl (h2 m hm)) with h' | ⟨-, h'⟩
      · rw [h] at h'; cases h'
      · exact h' cov hcov m (List.mem_singleton.2 rfl) sub hsub
  subst hk
  constructor
  · obtain ⟨u, r, h1, -⟩ := C115_self_returns hR hd precond hgr
    exact ⟨u, r, h1⟩
  · intro e tgtIds dev' he hke sqrt mode hmode
    obtain ⟨u, r, h3, -⟩ := C115_influence_returns (sqrt := sqrt) hR hd he hke precond hgr hmode
    exact ⟨u, r, h3⟩

end Logix
