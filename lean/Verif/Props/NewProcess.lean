/-
C142: another process that reads the directory of a finalized run gets the scores of that run.
-/
import Verif.Props.SessionDirectory
import Verif.Props.Restore
import Verif.Spec.NewProcess

set_option linter.unusedSectionVars false

namespace Logix
open Spec Sess
variable {K : Type}

section
variable [Field K] {L : Lib K}

theorem batchLoop_sim (sqrt : K → K) (ids : List PyStr) (src : LogArg K) (mode : Mode) (hessian : Hess) (groups : Option (List PyStr)) (damping : Option K) :
    ∀ (loader : List (List PyStr × LogArg K)) {s u : LState K}, Sim s u → ∀ (h : RHeap K) (all : Option (RRec K)),
      SimOut (batchLoop L sqrt ids src mode hessian groups damping loader s h all) (batchLoop L sqrt ids src mode hessian groups damping loader u h all)
  | [], _, _, hs, _, _ => .inr ⟨_, _, _, rfl, rfl, hs⟩
  | (tgtIds, tgt) :: rest, s, u, hs, h, all => by
    unfold batchLoop
    rcases computeInfluence_sim (L := L) hs sqrt ids tgtIds src tgt mode false hessian groups damping with ⟨e, e1, e2⟩ | ⟨s₁, u₁, r, e1, e2, e3⟩
    · rw [e1, e2]; exact .inl ⟨e, rfl, rfl⟩
    · rw [e1, e2]
      simp only
      cases mergeResults (h.alloc r).1 all (some (h.alloc r).2) .tgt with
      | error e => exact .inl ⟨e, rfl, rfl⟩
      | ok x => exact batchLoop_sim sqrt ids src mode hessian groups damping rest e3 x.1 x.2

/-- `compute_influence_all` in two states that look the same. -/
theorem computeInfluenceAll_sim (sqrt : K → K) {s u : LState K} (hs : Sim s u) (h : RHeap K) (saved : Option (RRec K)) (ids : List PyStr) (src : LogArg K)
    (loader : List (List PyStr × LogArg K)) (mode : Mode) (pre save : Bool) (hessian : Hess) (groups : Option (List PyStr)) (damping : Option K) :
    (∃ e, computeInfluenceAll L sqrt ⟨s, h, saved⟩ ids src loader mode pre save hessian groups damping = .error e ∧
      computeInfluenceAll L sqrt ⟨u, h, saved⟩ ids src loader mode pre save hessian groups damping = .error e) ∨
    ∃ s₁ u₁ h₁ saved₁ r, computeInfluenceAll L sqrt ⟨s, h, saved⟩ ids src loader mode pre save hessian groups damping = .ok (⟨s₁, h₁, saved₁⟩, r) ∧
      computeInfluenceAll L sqrt ⟨u, h, saved⟩ ids src loader mode pre save hessian groups damping = .ok (⟨u₁, h₁, saved₁⟩, r) ∧ Sim s₁ u₁ := by
  unfold computeInfluenceAll
  simp only
  rcases pre_sim (L := L) hs pre src hessian damping with ⟨e, e1, e2⟩ | ⟨s₁, u₁, o, e1, e2, e3⟩
  · rw [e1, e2]; exact .inl ⟨e, rfl, rfl⟩
  · rw [e1, e2]
    simp only
    rcases batchLoop_sim (L := L) sqrt ids o mode hessian groups damping loader e3 h none with ⟨e, f1, f2⟩ | ⟨s₂, u₂, ⟨h₂, all⟩, f1, f2, f3⟩
    · rw [f1, f2]; exact .inl ⟨e, rfl, rfl⟩
    · rw [f1, f2]
      simp only
      cases save with
      | false => exact .inr ⟨s₂, u₂, h₂, saved, all, rfl, rfl, f3⟩
      | true =>
        simp only [if_true]
        cases mergeResults h₂ saved all .src with
        | error e => exact .inl ⟨e, rfl, rfl⟩
        | ok x => exact .inr ⟨s₂, u₂, x.1, x.2, all, rfl, rfl, f3⟩

theorem allAnswers_sim (sqrt : K → K) : ∀ (calls : List (AllCall K)) {s u : LState K}, Sim s u → ∀ (h : RHeap K) (saved : Option (RRec K)),
    allAnswers L sqrt ⟨u, h, saved⟩ calls = allAnswers L sqrt ⟨s, h, saved⟩ calls
  | [], _, _, _, _, _ => rfl
  | c :: cs, s, u, hs, h, saved => by
    unfold allAnswers
    rcases computeInfluenceAll_sim (L := L) sqrt hs h saved c.ids c.src c.loader c.mode c.pre c.save c.hessian c.groups c.damping with
      ⟨e, e1, e2⟩ | ⟨s₁, u₁, h₁, saved₁, r, e1, e2, e3⟩
    · rw [e1, e2]
    · rw [e1, e2]
      simp only
      rw [allAnswers_sim sqrt cs e3]

/-- The state of the run that finalized, and the one that a new process loads. -/
theorem loaded_sim {ops : List (StateOp K)} {s s' : LState K} {dir dir' : StateDir K}
    (hrun : runOps L .init ops = .ok s) (hfin : s.finalize dir = .ok (s', dir')) : ∃ u, LState.init.loadState dir' = .ok u ∧ Sim s' u := by
  obtain ⟨u, hu, -⟩ := saveState_load (finalize_ok hfin).2 LState.init
  refine ⟨u, hu, .load ((reg_init.run hrun).finalize hfin) ((cacheReg_init.run hrun).finalize hfin) (finalize_ok hfin).2 reg_init ?_ hu⟩
  intro n hn
  simp only [List.mem_cons, List.not_mem_nil, or_false] at hn
  rcases hn with rfl | rfl | rfl | rfl <;> rfl

/-- **C142, whole sequences of calls.** Any history of the statistics, then `finalize`. A new process that loads what finalize has saved sees, in every
sequence of calls of `compute_influence_all` with any loaders, modes, groups and dampings, saving or not, the results, saved scores and errors that the
run itself sees. -/
theorem C142_all_calls (sqrt : K → K) {ops : List (StateOp K)} {s s' : LState K} {dir dir' : StateDir K}
    (hrun : runOps L .init ops = .ok s) (hfin : s.finalize dir = .ok (s', dir')) :
    ∃ u, LState.init.loadState dir' = .ok u ∧ ∀ calls, allAnswers L sqrt (.new u) calls = allAnswers L sqrt (.new s') calls := by
  obtain ⟨u, h1, h2⟩ := loaded_sim hrun hfin
  exact ⟨u, h1, fun calls => allAnswers_sim sqrt calls h2 _ _⟩

end

variable [Field K] [LinearOrder K] [IsStrictOrderedRing K]

/-- What the end-to-end theorems need. -/
private theorem leaves_loaded (E : SEnv K) {pre : List (SOp K)} (hpre : ∀ o ∈ pre, Configures o) (n : Nat) (th : Int) (fs : FS) {ctx : List (SOp K)} {ids : List PyStr}
    (hx : Context ctx ids none) {keys : List PyStr} {mods : PyStr → Nat} {lay : Layout} {body : List (SOp K)} (dir : StateDir K)
    (hlogs : ∀ o ∈ body, ∀ nm ∈ keys, Logs nm o)
    (hc : Configured (runHistory E pre (Sess.init n th fs)) keys mods lay) {t : Sess K}
    (ht : SAct.each (SOp.run E) (ctx ++ body.map (shift (runHistory E pre (Sess.init n th fs)).user.length) ++ [.finalize dir])
      (runHistory E pre (Sess.init n th fs)) = (t, none)) :
    ∃ files u, Leaves E (ctx ++ body.map (shift (runHistory E pre (Sess.init n th fs)).user.length)) dir (runHistory E pre (Sess.init n th fs)) t files ∧
      LState.init.loadState files = .ok u ∧ Sim t.st u := by
  obtain ⟨v, files, h1, h2⟩ := each_finalize ht
  obtain ⟨nm, hm⟩ := List.exists_mem_of_ne_nil keys hc.nonempty
  obtain ⟨calls, -, -, -, hup, -⟩ := session_updates E pre n th fs (mods nm) nm ctx ids none hx body (fun o h => hlogs o h nm hm)
    (fun _ => True) (fun o _ => by cases o <;> trivial) trivial (hc.watches nm hm) hc.stats v h1
  rw [show (runHistory E pre (Sess.init n th fs)).st = LState.init from configured_st E pre _ hpre] at hup
  have hrun := updates_runOps hup []
  rw [List.append_nil] at hrun
  obtain ⟨u, h3, h4⟩ := loaded_sim (L := E.lib) hrun h2
  exact ⟨files, u, ⟨ht, v, h1, h2⟩, h3, h4⟩

/-- **C142, KFAC.** The program of C124 logs and is finalized; all this returns. Another process loads the statistics that finalize has left in the directory
(this returns), builds a loader of the log directory and calls `compute_influence_all`. This returns, and the scores are the influence function of the data of
the program, as in C124. -/
theorem C142_kfac (E : SEnv K) (hE : EighOk E.lib) (hI : InverseOk E.lib) (hL : LibTotal E.lib) (dec : DType → List UInt8 → K) (d : DType) (pre : List (SOp K))
    (n : Nat) (th : Int) (fs : FS) (ctx : List (SOp K)) (ids : List PyStr) (hx : Context ctx ids none) (keys : List PyStr) (mods : PyStr → Nat) (lay : Layout)
    (body : List (SOp K)) (hbody : ∀ o ∈ body, Unmasked o) (hP : SavedProgram E dec d pre n fs ctx body keys mods) (dir : StateDir K) (hessian : Hess) :
    let s := runHistory E pre (Sess.init n th fs)
    Configured s keys mods lay → s.opt.grad.head? = some .log → s.opt.forward.count .covariance = 1 → s.opt.backward.count .covariance = 1 →
    (hessian = .kfac ∨ hessian = .auto ∧ .covariance ∉ s.opt.grad.tail) →
    ProgramFits E s.opt keys mods lay [] (Saving.after (pre ++ ctx)) (fun _ => ⟨none, [], [], []⟩) body →
    (∀ nm ∈ keys, inputs (mods nm) body ≠ [] ∧ notes outGrad (mods nm) ⟨none, [], [], []⟩ body ≠ []) →
    ∃ (t : Sess K) (files : StateDir K) (u : LState K) (A B : PyStr → Tensor K), Leaves E (ctx ++ body.map (shift s.user.length)) dir s t files ∧
      LState.init.loadState files = .ok u ∧ (∀ nm ∈ keys, InputMoment E body (mods nm) (A nm) ∧ OutGradMoment E body (mods nm) (B nm)) ∧
      ∀ listing : List PyStr, listing.Perm (Dict.keys t.fs) → ∀ b, 0 < b → ∀ f : Front, f.fs = t.fs → f.dataset = none → f.loader = none →
      ∃ l bs, (f.buildLoader listing b false).2 = .ok l ∧ l.batches = .ok bs ∧
        ∀ srcIds src dev save c sqrt, GradLog srcIds src dev lay.rows lay.cols → Dict.keys src = keys → 0 < c →
          ∃ o' x T, computeInfluenceAll E.lib sqrt (.new u) srcIds (.dict src) (bs.map (LogBatch.arg ⟨E.encode, dec⟩)) .dot true save hessian none (some c) =
              .ok (o', some x) ∧
            (o'.heap.deref x).srcIds = srcIds ∧ (o'.heap.deref x).tgtIds = (savedBy pre ctx none body).flatMap (·.1) ∧
            (o'.heap.deref x).influence.get? ['t', 'o', 't', 'a', 'l'] = some T ∧
            T.shape = [srcIds.length, ((savedBy pre ctx none body).flatMap (·.1)).length] ∧
            ∀ i, i < srcIds.length →
              (∃ x : PyStr → List Nat → K, ∀ m ∈ keys, KfacSystem (entries (A m)) (entries (B m)) c src i m (x m)) ∧
              ∀ x : PyStr → List Nat → K, (∀ m ∈ keys, KfacSystem (entries (A m)) (entries (B m)) c src i m (x m)) →
                ScoredBy E body mods keys (fun nm => [lay.rows nm, lay.cols nm]) (savedBy pre ctx none body) T i x := by
  intro s hc hgr hf hb hh hp hne
  obtain ⟨t, A, B, ht, h1, h2⟩ := C124_kfac E hE hI hL dec d pre n th fs ctx ids hx keys mods lay body hbody hP dir hessian hc hgr hf hb hh hp hne
  obtain ⟨files, u, hl, hu, hs⟩ := leaves_loaded E hP.configures n th fs hx dir (fun o h nm _ => programFits_logs body _ _ _ hp o h nm) hc ht
  refine ⟨t, files, u, A, B, hl, hu, h1, fun listing hlist b hbp f hf1 hf2 hf3 => ?_⟩
  obtain ⟨l, bs, h3, h4, h5⟩ := h2 listing hlist b hbp f hf1 hf2 hf3
  refine ⟨l, bs, h3, h4, fun srcIds src dev save c sqrt hsrc hk hcp => ?_⟩
  obtain ⟨o', x, T, h6, h7⟩ := h5 (.new t.st) [] srcIds src dev save c sqrt rfl (.new _) (.inr rfl) hsrc hk hcp
  rcases computeInfluenceAll_sim (L := E.lib) sqrt hs ⟨[], []⟩ none srcIds (.dict src) (bs.map (LogBatch.arg ⟨E.encode, dec⟩)) .dot true save hessian none (some c) with
    ⟨e, e1, -⟩ | ⟨s₁, u₁, h₁, saved₁, r, e1, e2, -⟩
  · have := h6.symm.trans e1
    cases this
  · have := h6.symm.trans e1
    cases this
    exact ⟨_, x, T, e2, h7⟩

/-- **C142, empirical Fisher matrix.** The same with the covariances of the gradients. -/
theorem C142_raw (E : SEnv K) (hE : EighOk E.lib) (hI : InverseOk E.lib) (hL : LibTotal E.lib) (dec : DType → List UInt8 → K) (d : DType) (pre : List (SOp K))
    (n : Nat) (th : Int) (fs : FS) (ctx : List (SOp K)) (ids : List PyStr) (hx : Context ctx ids none) (keys : List PyStr) (mods : PyStr → Nat) (lay : Layout)
    (body : List (SOp K)) (hbody : ∀ o ∈ body, Unmasked o) (hP : SavedProgram E dec d pre n fs ctx body keys mods) (dir : StateDir K) (hessian : Hess) :
    let s := runHistory E pre (Sess.init n th fs)
    Configured s keys mods lay → s.opt.grad.tail.count .covariance = 1 → (hessian = .raw ∨ hessian = .auto) →
    ProgramFits E s.opt keys mods lay [] (Saving.after (pre ++ ctx)) (fun _ => ⟨none, [], [], []⟩) body →
    (∀ nm ∈ keys, notes batchGrads (mods nm) ⟨none, [], [], []⟩ body ≠ []) →
    ∃ (t : Sess K) (files : StateDir K) (u : LState K) (C : PyStr → Tensor K), Leaves E (ctx ++ body.map (shift s.user.length)) dir s t files ∧
      LState.init.loadState files = .ok u ∧ (∀ nm ∈ keys, BatchGradMoment E body (mods nm) (C nm)) ∧
      ∀ listing : List PyStr, listing.Perm (Dict.keys t.fs) → ∀ b, 0 < b → ∀ f : Front, f.fs = t.fs → f.dataset = none → f.loader = none →
      ∃ l bs, (f.buildLoader listing b false).2 = .ok l ∧ l.batches = .ok bs ∧
        ∀ srcIds src dev save c sqrt, GradLog srcIds src dev lay.rows lay.cols → Dict.keys src = keys → 0 < c →
          ∃ o' x T, computeInfluenceAll E.lib sqrt (.new u) srcIds (.dict src) (bs.map (LogBatch.arg ⟨E.encode, dec⟩)) .dot true save hessian none (some c) =
              .ok (o', some x) ∧
            (o'.heap.deref x).srcIds = srcIds ∧ (o'.heap.deref x).tgtIds = (savedBy pre ctx none body).flatMap (·.1) ∧
            (o'.heap.deref x).influence.get? ['t', 'o', 't', 'a', 'l'] = some T ∧
            T.shape = [srcIds.length, ((savedBy pre ctx none body).flatMap (·.1)).length] ∧
            ∀ i, i < srcIds.length →
              (∃ x : PyStr → List Nat → K, ∀ m ∈ keys, RawSystem (entries (C m)) c src i m (x m)) ∧
              ∀ x : PyStr → List Nat → K, (∀ m ∈ keys, RawSystem (entries (C m)) c src i m (x m)) →
                ScoredBy E body mods keys (fun nm => [lay.rows nm, lay.cols nm]) (savedBy pre ctx none body) T i x := by
  intro s hc hg hh hp hne
  obtain ⟨t, C, ht, h1, h2⟩ := C124_raw E hE hI hL dec d pre n th fs ctx ids hx keys mods lay body hbody hP dir hessian hc hg hh hp hne
  obtain ⟨files, u, hl, hu, hs⟩ := leaves_loaded E hP.configures n th fs hx dir (fun o h nm _ => programFits_logs body _ _ _ hp o h nm) hc ht
  refine ⟨t, files, u, C, hl, hu, h1, fun listing hlist b hbp f hf1 hf2 hf3 => ?_⟩
  obtain ⟨l, bs, h3, h4, h5⟩ := h2 listing hlist b hbp f hf1 hf2 hf3
  refine ⟨l, bs, h3, h4, fun srcIds src dev save c sqrt hsrc hk hcp => ?_⟩
  obtain ⟨o', x, T, h6, h7⟩ := h5 (.new t.st) [] srcIds src dev save c sqrt rfl (.new _) (.inr rfl) hsrc hk hcp
  rcases computeInfluenceAll_sim (L := E.lib) sqrt hs ⟨[], []⟩ none srcIds (.dict src) (bs.map (LogBatch.arg ⟨E.encode, dec⟩)) .dot true save hessian none (some c) with
    ⟨e, e1, -⟩ | ⟨s₁, u₁, h₁, saved₁, r, e1, e2, -⟩
  · have := h6.symm.trans e1
    cases this
  · have := h6.symm.trans e1
    cases this
    exact ⟨_, x, T, e2, h7⟩

end Logix
