/-
C122: programs that log tensors that fit together return, and so does the influence computation after them.
-/
import Verif.Lemmas.SessionSteps
import Verif.Props.SessionInfluence
import Verif.Props.SuccessLogged

set_option linter.unusedSectionVars false

namespace Logix
open Spec Sess
variable {K : Type}

section
variable [Field K]

theorem configured_empty (E : SEnv K) (ops : List (SOp K)) : ∀ s : Sess K, (∀ o ∈ ops, Configures o) →
    (runHistory E ops s).calls = s.calls ∧ (runHistory E ops s).buffer = s.buffer := by
  induction ops with
  | nil => exact fun _ _ => ⟨rfl, rfl⟩
  | cons o ops ih =>
    intro s h
    change (runHistory E ops (o.run E s).1).calls = s.calls ∧ (runHistory E ops (o.run E s).1).buffer = s.buffer
    obtain ⟨h1, h2⟩ := ih (o.run E s).1 fun o ho => h o (List.mem_cons_of_mem _ ho)
    rw [h1, h2]
    have := h o (List.mem_cons_self ..)
    cases o with
    | watch sel =>
      change (Sess.watch sel s).1.calls = s.calls ∧ (Sess.watch sel s).1.buffer = s.buffer
      unfold Sess.watch
      dsimp only
      split <;> exact ⟨rfl, rfl⟩
    | setup kw => exact ⟨rfl, rfl⟩
    | save b => exact ⟨rfl, rfl⟩
    | eval => exact ⟨rfl, rfl⟩
    | alloc a => exact ⟨rfl, rfl⟩
    | _ => exact this.elim

theorem masks_true (o : SOp K) : Masks (fun _ => True) o := by cases o <;> trivial

/-- The context opens. -/
theorem context_returns (E : SEnv K) {pre : List (SOp K)} (hpre : ∀ o ∈ pre, Configures o) (n : Nat) (th : Int) (fs : FS) {ctx : List (SOp K)} {ids : List PyStr}
    {mask : Option (Tensor K)} (hx : Context ctx ids mask) {keys : List PyStr} {mods : PyStr → Nat} {lay : Layout}
    (hc : Configured (runHistory E pre (Sess.init n th fs)) keys mods lay) {Q : Option (Tensor K) → Prop} (hQ : Q mask) :
    ∃ u, SAct.each (SOp.run E) ctx (runHistory E pre (Sess.init n th fs)) = (u, none) ∧
      Tame E (runHistory E pre (Sess.init n th fs)).opt Q keys mods lay (runHistory E pre (Sess.init n th fs)).user.length [] (Saving.after (pre ++ ctx)) (fun _ => ⟨mask, [], [], []⟩) u := by
  generalize hs : runHistory E pre (Sess.init n th fs) = s at hc
  have hh : Handles s := by rw [← hs]; exact history_handles E pre n th fs
  obtain ⟨hcalls, hbuf⟩ := configured_empty E pre (Sess.init n th fs) hpre
  have hst := configured_st E pre (Sess.init n th fs) hpre
  rw [hs] at hcalls hbuf hst
  have hwatched : ∀ m ∈ s.modules, ∃ nm ∈ keys, Dict.get? s.names m = some nm := by
    intro m hm
    obtain ⟨nm, h1, rfl⟩ := hc.all m hm
    exact ⟨nm, h1, (hc.watches nm h1).2.1⟩
  have hstat : Stat E lay s.opt Q s := ⟨[], by rw [hst]; rfl, ⟨nofun, nofun, nofun, nofun, nofun⟩, nofun⟩
  have hagr : ∀ u, SAct.each (SOp.run E) ctx s = (u, none) → Agrees (Saving.after (pre ++ ctx)) u := by
    intro u hu
    have h1 := agrees_history E (pre ++ ctx) ⟨[], false, false⟩ (Sess.init n th fs) ⟨rfl, rfl, rfl⟩
    rw [runHistory_append, hs, history_each E ctx s u hu] at h1
    exact h1
  -- what the open context is like, from the session before hooks are registered
  have key : ∀ v : Sess K, ({ v with saveBatch := s.saveBatch } : Sess K) = s.setBatch ids mask →
      ∃ u, registerAllModuleHooks v.clearHooks = (u, none) ∧
        (SAct.each (SOp.run E) ctx s = (u, none) → Tame E s.opt Q keys mods lay s.user.length [] (Saving.after (pre ++ ctx)) (fun _ => ⟨mask, [], [], []⟩) u) := by
    intro v hv
    have vh : Handles v := by
      have h' := congrArg hookPart hv
      exact hh.congr h'
    have vm : v.modules = s.modules := by
      have h' := congrArg Sess.modules hv
      exact h'
    have vn : v.names = s.names := by
      have h' := congrArg Sess.names hv
      exact h'
    obtain ⟨u, h1, h2, h3, h4⟩ := open_returns (s := v) vh (by rw [vm, vn]; exact hwatched)
    refine ⟨u, h1, fun hrun => ?_⟩
    have e : ({ u with nextId := v.nextId, pre := v.pre, bwd := v.bwd, fwd := v.fwd, tens := v.tens, hPre := v.hPre, hBwd := v.hBwd, hFwd := v.hFwd, hTens := v.hTens, saveBatch := s.saveBatch } : Sess K) = s.setBatch ids mask := by
      rw [← hv]
      have h' := congrArg (fun w : Sess K => { w with saveBatch := s.saveBatch }) h2
      exact h'
    refine ⟨⟨s.user, rfl, ?_⟩, h3, ?_, ?_, ?_, hstat.congr ?_, LogFine.empty ?_, hagr u hrun, ?_, ?_, ?_, nofun, fun _ _ => hQ⟩
    · have h' := congrArg Sess.user e
      rw [List.append_nil]
      exact h'
    · rw [h4]; nofun
    · have h' := congrArg Sess.calls e
      rw [show u.calls = s.calls from h', hcalls]
      nofun
    · have h' := congrArg Sess.modules e
      have h'' := congrArg Sess.names e
      rw [show u.modules = s.modules from h', show u.names = s.names from h'']
      exact hwatched
    · have h' := congrArg Sess.st e
      exact h'
    · have h' := congrArg Sess.log e
      exact h'
    · have h' := congrArg Sess.dataId e
      rw [show u.dataId = some ids from h']
      rfl
    · have h' := congrArg Sess.buffer e
      intro x hx'
      rw [show u.buffer = s.buffer from h', hbuf] at hx'
      cases hx'
    · have h' := congrArg Sess.paths e
      exact (show u.paths = s.paths from h').trans hc.paths
  cases hx with
  | start ids mask =>
    obtain ⟨u, h1, h2⟩ := key (s.setBatch ids mask) rfl
    have h3 : SAct.each (SOp.run E) [.start ids mask] s = (u, none) := by
      show SAct.seq (Sess.start ids mask) (SAct.each (SOp.run E) []) s = _
      rw [SAct.seq_eq (f := Sess.start ids mask) h1]
      rfl
    exact ⟨u, h3, h2 h3⟩
  | «with» ids mask sv =>
    obtain ⟨u, h1, h2⟩ := key { s.setBatch ids mask with saveBatch := sv } rfl
    have h3 : SAct.each (SOp.run E) [.call ids mask sv, .enter] s = (u, none) := by
      show SAct.seq (Sess.call ids mask sv) (SAct.seq Sess.enter (SAct.each (SOp.run E) [])) s = _
      rw [SAct.seq_eq (f := Sess.call ids mask sv) (u := { s.setBatch ids mask with saveBatch := sv }) rfl, SAct.seq_eq (f := Sess.enter) h1]
      rfl
    exact ⟨u, h3, h2 h3⟩

theorem finalize_returns {E : SEnv K} {keys : List PyStr} {lay : Layout} {opt : LogOption} {Q : Option (Tensor K) → Prop} {s : Sess K} (hst : Stat E lay opt Q s) (hb : BufOk lay keys s) (hp : s.paths = gradOrder keys)
    (hne : keys ≠ []) (hnd : keys.Nodup) (hpos : ∀ nm ∈ keys, 0 < lay.rows nm ∧ 0 < lay.cols nm) (dir : StateDir K) :
    ∃ t, Sess.finalize E dir s = (t, none) := by
  obtain ⟨calls, h1, h2, -⟩ := hst
  obtain ⟨s₁, g1, g2⟩ := ready_updates E.lib h2 ready_init
  obtain rfl := Except.ok.inj (g1.symm.trans h1)
  obtain ⟨st, dir', h3⟩ := ready_finalize g2 dir
  have h4 : Sess.stateOp E (.finalize dir) s = ({ s with st := st }, none) := by
    have h5 : stepOp E.lib s.st (.finalize dir) = .ok st := by
      show Except.map Prod.fst (s.st.finalize dir) = _
      rw [h3]
      rfl
    unfold Sess.stateOp
    rw [h5]
  unfold Sess.finalize
  rw [SAct.seq_eq h4]
  obtain ⟨t, h5, -⟩ := withSaver_returns (E := E) (lay := lay) (keys := keys) (s := { s with st := st }) (f := fun order fs sv => sv.finalize order fs)
    (hb.mono (Shapes.refl s) rfl) (by
      rw [show ({ s with st := st } : Sess K).paths = gradOrder keys from hp]
      exact flushSerialized_returns (E := E) (s := { s with st := st }) (hb.mono (Shapes.refl s) rfl) hne hnd hpos s.fs)
  exact ⟨t, h5⟩

/-- The run, and what is known about its statistics. -/
theorem session_returns (E : SEnv K) {pre : List (SOp K)} (hpre : ∀ o ∈ pre, Configures o) (n : Nat) (th : Int) (fs : FS) {ctx : List (SOp K)} {ids : List PyStr}
    {mask : Option (Tensor K)} (hx : Context ctx ids mask) {keys : List PyStr} {mods : PyStr → Nat} {lay : Layout} {body : List (SOp K)} (dir : StateDir K)
    (hc : Configured (runHistory E pre (Sess.init n th fs)) keys mods lay)
    (hp : ProgramFits E (runHistory E pre (Sess.init n th fs)).opt keys mods lay [] (Saving.after (pre ++ ctx)) (fun _ => ⟨mask, [], [], []⟩) body)
    {Q : Option (Tensor K) → Prop} (hQ : Q mask) (hb : ∀ o ∈ body, Masks Q o) :
    ∃ u t, SAct.each (SOp.run E) (ctx ++ body.map (shift (runHistory E pre (Sess.init n th fs)).user.length)) (runHistory E pre (Sess.init n th fs)) = (u, none) ∧
      (SOp.finalize dir).run E u = (t, none) ∧ Stat E lay (runHistory E pre (Sess.init n th fs)).opt Q u := by
  obtain ⟨v, h1, h2⟩ := context_returns E hpre n th fs hx hc hQ
  have hF : FixedConf (runHistory E pre (Sess.init n th fs)).opt keys lay := ⟨hc.stats, hc.plain, hc.grad, hc.nonempty, hc.nodup, hc.pos⟩
  have hins : ∀ nm ∈ keys, _ := fun nm hm =>
    context_opens (U := (runHistory E pre (Sess.init n th fs)).user ++ allocs body) (history_handles E pre n th fs) (history_calls E pre n th fs) (hc.watches nm hm)
      (List.prefix_append ..) hx h1
  obtain ⟨nm0, hnm0⟩ := List.exists_mem_of_ne_nil keys hc.nonempty
  obtain ⟨u, h3, h4, h5, h6⟩ := program_returns hF body [] _ _ v h2 (fun nm hm => (hins nm hm).1) hp hb (by rw [(hins nm0 hnm0).2.1])
  obtain ⟨t, h7⟩ := finalize_returns h4 h5 h6 hc.nonempty hc.nodup hc.pos dir
  refine ⟨u, t, ?_, h7, h4⟩
  rw [SAct.each_append, SAct.seq_eq h1]
  exact h3

/-- **C122.** A new run is configured with logs, means and covariances, and modules are watched. A batch context is opened in either interface, and a program
goes on from there that fits together: modules are called with inputs of their shape and outputs that require gradients, the gradients have the shapes of
the outputs, with one row for each id of the batch, masks have an entry for each position, and no batch is saved for which a module got no gradient. Modules
can be used several times or not at all in a batch, in any order, with any number of batches. Then nothing raises: neither any operation of the program
nor `finalize`. -/
theorem C122_returns (E : SEnv K) (pre : List (SOp K)) (hpre : ∀ o ∈ pre, Configures o) (n : Nat) (th : Int) (fs : FS) (ctx : List (SOp K)) (ids : List PyStr)
    (mask : Option (Tensor K)) (hx : Context ctx ids mask) (keys : List PyStr) (mods : PyStr → Nat) (lay : Layout) (body : List (SOp K)) (dir : StateDir K) :
    let s := runHistory E pre (Sess.init n th fs)
    Configured s keys mods lay →
    ProgramFits E s.opt keys mods lay [] (Saving.after (pre ++ ctx)) (fun _ => ⟨mask, [], [], []⟩) body →
    ∃ t, SAct.each (SOp.run E) (ctx ++ body.map (shift s.user.length) ++ [.finalize dir]) s = (t, none) := by
  intro s hc hp
  obtain ⟨u, t, h1, h2, -⟩ := session_returns E hpre n th fs hx dir hc hp (Q := fun _ => True) trivial fun o _ => masks_true o
  refine ⟨t, ?_⟩
  rw [SAct.each_append, SAct.seq_eq h1]
  show SAct.seq ((SOp.finalize dir).run E) (SAct.each (SOp.run E) []) u = _
  rw [SAct.seq_eq h2]
  rfl

theorem programFits_logs {E : SEnv K} {opt : LogOption} {keys : List PyStr} {mods : PyStr → Nat} {lay : Layout} (body : List (SOp K)) :
    ∀ (tensors : List (TObj K)) (f : Saving) (b : Nat → Book K), ProgramFits E opt keys mods lay tensors f b body → ∀ o ∈ body, ∀ nm, Logs nm o := by
  induction body with
  | nil => exact fun _ _ _ _ _ ho => nomatch ho
  | cons a body ih =>
    intro tensors f b h o ho nm
    rcases List.mem_cons.1 ho with rfl | ho
    · have h1 := h.1
      cases o with
      | watchActivation d => exact h1.elim
      | setup kw => exact h1
      | watch sel => exact h1
      | analysis o => exact h1
      | finalize d => exact h1
      | clear => exact h1
      | _ => trivial
    · exact ih _ _ _ h.2 o ho nm

end

section
variable [Field K] [LinearOrder K] [IsStrictOrderedRing K]

/-- After such a run the state is ready for influence computations. -/
theorem session_ready {E : SEnv K} (hE : EighOk E.lib) (hI : InverseOk E.lib) (hL : LibTotal E.lib) {keys : List PyStr} {lay : Layout} {hessian : Hess} {u t : Sess K}
    {dir : StateDir K} {opt : LogOption} {Q : Option (Tensor K) → Prop} (hst : Stat E lay opt Q u) (hfin : (SOp.finalize dir).run E u = (t, none)) {calls : List (Plugin × StatCall K)} (h : Finalized E.lib calls t.st)
    {c : K} (hc : 0 < c)
    (hcov : (UsesKfac t.st keys hessian ∧ ∀ m ∈ keys, (tensorAt t.st.attrs nCov [m, LogType.name .forward]).isSome ∧
        (tensorAt t.st.attrs nCov [m, LogType.name .backward]).isSome) ∨
      (UsesRaw t.st keys hessian ∧ ∀ m ∈ keys, (tensorAt t.st.attrs nCov [m, LogType.name .grad]).isSome)) :
    InfReady E.lib t.st keys hessian c lay.rows lay.cols := by
  obtain ⟨calls', g1, g2, -⟩ := hst
  obtain ⟨dir', g3⟩ := finalize_st hfin
  have shape : ∀ m (lt : LogType) x, tensorAt t.st.attrs nCov [m, lt.name] = some x → x.shape = [layWidth lay m lt, layWidth lay m lt] ∧
      x.dev = if E.cpuOffload then .cpu else lay.dev m := fun m lt x hx => regular_cov g1 g3 g2 hx
  have hfit : FitsCov t.st keys hessian lay.rows lay.cols := by
    rcases hcov with ⟨hu, hl⟩ | ⟨hu, hl⟩
    · refine .inl ⟨hu, fun m hm => ?_⟩
      obtain ⟨A, hA⟩ := Option.isSome_iff_exists.1 (hl m hm).1
      obtain ⟨B, hB⟩ := Option.isSome_iff_exists.1 (hl m hm).2
      exact ⟨⟨A, hA, (shape m .forward A hA).1⟩, B, hB, (shape m .backward B hB).1⟩
    · refine .inr ⟨hu, fun m hm => ?_⟩
      obtain ⟨C, hC⟩ := Option.isSome_iff_exists.1 (hl m hm)
      exact ⟨C, hC, (shape m .grad C hC).1⟩
  have hP : PosHessian E.lib t.st keys hessian c := posHessian_of_logged hE hI h hc hcov
  refine ⟨hP, finalized_hasAttr h (by decide) rfl, ⟨fun path x hx => ?_, hL.inverse⟩, ⟨fun m lt lt' x y hx hy => ?_, fun m lt lt' x y w w' _ _ hw' => ?_⟩, hfit⟩
  · obtain ⟨n, hn, -⟩ := posHessian_symm hP hx
    exact hL.eigh x n hn
  · rw [(shape m lt x hx).2, (shape m lt' y hy).2]
  · obtain ⟨d, hd, -⟩ := item2_of_tensorAt hw'
    have := finalized_hasAttr h (n := nEigval) (by decide) rfl
    unfold LState.hasAttr at this
    rw [hd] at this
    cases this

/-- **C122, KFAC.** From the program to the scores, without an assumption that anything returns: a new run is configured, a program logs batches without
masks that fit together, `finalize` is called. This returns, and so does `compute_influence` with positive damping for every pair of logs of the watched
modules with gradients of their shapes; the scores are the influence function of the data of the program, as in C106. -/
theorem C122_kfac (E : SEnv K) (hE : EighOk E.lib) (hI : InverseOk E.lib) (hL : LibTotal E.lib) (pre : List (SOp K)) (hpre : ∀ o ∈ pre, Configures o) (n : Nat)
    (th : Int) (fs : FS) (ctx : List (SOp K)) (ids : List PyStr) (hx : Context ctx ids none) (keys : List PyStr) (mods : PyStr → Nat) (lay : Layout)
    (body : List (SOp K)) (hbody : ∀ o ∈ body, Unmasked o) (dir : StateDir K) (hessian : Hess) :
    let s := runHistory E pre (Sess.init n th fs)
    Configured s keys mods lay → s.opt.forward.count .covariance = 1 → s.opt.backward.count .covariance = 1 →
    (hessian = .kfac ∨ hessian = .auto ∧ .covariance ∉ s.opt.grad.tail) →
    ProgramFits E s.opt keys mods lay [] (Saving.after (pre ++ ctx)) (fun _ => ⟨none, [], [], []⟩) body →
    (∀ nm ∈ keys, inputs (mods nm) body ≠ [] ∧ notes outGrad (mods nm) ⟨none, [], [], []⟩ body ≠ []) →
    ∃ (t : Sess K) (A B : PyStr → Tensor K), SAct.each (SOp.run E) (ctx ++ body.map (shift s.user.length) ++ [.finalize dir]) s = (t, none) ∧
      (∀ nm ∈ keys, InputMoment E body (mods nm) (A nm) ∧ OutGradMoment E body (mods nm) (B nm)) ∧
      ∀ (d e : GLog K) srcIds tgtIds (dev dev' : Dev), GradLog srcIds d dev lay.rows lay.cols → GradLog tgtIds e dev' lay.rows lay.cols →
        Dict.keys d = keys → (∀ m, m ∈ keys ↔ m ∈ Dict.keys e) → ∀ c, 0 < c → ∀ sqrt,
        ∃ u r T, computeInfluence E.lib sqrt t.st srcIds (.dict d) tgtIds (.dict e) .dot true hessian none (some c) = .ok (u, r) ∧
          r.influence = .one T ∧ r.srcIds = srcIds ∧ r.tgtIds = tgtIds ∧ T.shape = [srcIds.length, tgtIds.length] ∧ ∀ i, i < srcIds.length →
            (∃ x : PyStr → List Nat → K, ∀ m ∈ keys, KfacSystem (entries (A m)) (entries (B m)) c d i m (x m)) ∧
            ∀ x : PyStr → List Nat → K, (∀ m ∈ keys, KfacSystem (entries (A m)) (entries (B m)) c d i m (x m)) →
              ∀ j, j < tgtIds.length → T.el [i, j] = against x e j keys := by
  intro s hc hf hb hh hp hne
  obtain ⟨v, t, g1, g2, hst⟩ := session_returns E hpre n th fs hx dir hc hp (Q := fun _ => True) trivial fun o _ => masks_true o
  have ht : SAct.each (SOp.run E) (ctx ++ body.map (shift s.user.length) ++ [.finalize dir]) s = (t, none) := by
    rw [SAct.each_append, SAct.seq_eq g1]
    show SAct.seq ((SOp.finalize dir).run E) (SAct.each (SOp.run E) []) v = _
    rw [SAct.seq_eq g2]
    rfl
  have hlogs : ∀ o ∈ body, Unmasked o ∧ ∀ nm ∈ keys, Logs nm o := fun o h => ⟨hbody o h, fun nm _ => programFits_logs body _ _ _ hp o h nm⟩
  have hmods : ∀ nm ∈ keys, Watches s (mods nm) nm ∧ inputs (mods nm) body ≠ [] ∧ notes outGrad (mods nm) ⟨none, [], [], []⟩ body ≠ [] :=
    fun nm h => ⟨hc.watches nm h, hne nm h⟩
  obtain ⟨A, B, h1, h2⟩ := C106_kfac E hE hI pre hpre n th fs ctx ids hx body dir keys mods hlogs hessian hc.stats hc.plain hf hb hh hmods t ht
  refine ⟨t, A, B, ht, h1, fun d e srcIds tgtIds dev dev' hd he hk hke c hcp sqrt => ?_⟩
  obtain ⟨nm0, hm0⟩ := List.exists_mem_of_ne_nil keys hc.nonempty
  obtain ⟨calls, hfin, hg, -⟩ := session_finalized E pre hpre n th fs (mods nm0) nm0 ctx ids hx body
    (fun o h => ⟨(hlogs o h).2 nm0 hm0, (hlogs o h).1⟩) dir (hc.watches nm0 hm0) hc.stats hc.plain t ht
  have hu : UsesKfac t.st keys hessian := usesKfac_of_calls hfin (hh.imp id fun h => ⟨h.1, fun m _ => hg h.2 m⟩)
  have hcov : ∀ m ∈ keys, (tensorAt t.st.attrs nCov [m, LogType.name .forward]).isSome ∧ (tensorAt t.st.attrs nCov [m, LogType.name .backward]).isSome := by
    intro nm hm
    have hbd : ∀ o ∈ body, Logs nm o ∧ Unmasked o := fun o h => ⟨(hlogs o h).2 nm hm, (hlogs o h).1⟩
    obtain ⟨_, _, -, c1⟩ := C105_forward E pre hpre n th fs (mods nm) nm ctx ids hx body hbd dir (hc.watches nm hm) hc.stats t ht (hne nm hm).1
    obtain ⟨_, _, -, c2⟩ := C105_backward E pre hpre n th fs (mods nm) nm ctx ids hx body hbd dir (hc.watches nm hm) hc.stats (count_one_ne_nil hb) t ht
      (fun h => (hne nm hm).2 (List.map_eq_nil_iff.1 h))
    obtain ⟨A, a1, -⟩ := c1 hf
    obtain ⟨B, b1, -⟩ := c2 hb
    exact ⟨by rw [a1]; rfl, by rw [b1]; rfl⟩
  have hR := session_ready hE hI hL hst g2 hfin hcp (.inl ⟨hu, hcov⟩)
  subst hk
  obtain ⟨u, r, h3, -⟩ := C115_influence_returns (sqrt := sqrt) hR hd he hke true (groups := none) nofun (mode := .dot) (.inl rfl)
  obtain ⟨T, h4⟩ := h2 d e rfl srcIds tgtIds (GradLog.labelled hd) (GradLog.labelled he) c hcp sqrt u r h3
  exact ⟨u, r, T, h3, h4⟩

/-- **C122, empirical Fisher.** The same with covariances of `grad`. -/
theorem C122_raw (E : SEnv K) (hE : EighOk E.lib) (hI : InverseOk E.lib) (hL : LibTotal E.lib) (pre : List (SOp K)) (hpre : ∀ o ∈ pre, Configures o) (n : Nat)
    (th : Int) (fs : FS) (ctx : List (SOp K)) (ids : List PyStr) (hx : Context ctx ids none) (keys : List PyStr) (mods : PyStr → Nat) (lay : Layout)
    (body : List (SOp K)) (hbody : ∀ o ∈ body, Unmasked o) (dir : StateDir K) (hessian : Hess) :
    let s := runHistory E pre (Sess.init n th fs)
    Configured s keys mods lay → s.opt.grad.tail.count .covariance = 1 → (hessian = .raw ∨ hessian = .auto) →
    ProgramFits E s.opt keys mods lay [] (Saving.after (pre ++ ctx)) (fun _ => ⟨none, [], [], []⟩) body →
    (∀ nm ∈ keys, notes batchGrads (mods nm) ⟨none, [], [], []⟩ body ≠ []) →
    ∃ (t : Sess K) (C : PyStr → Tensor K), SAct.each (SOp.run E) (ctx ++ body.map (shift s.user.length) ++ [.finalize dir]) s = (t, none) ∧
      (∀ nm ∈ keys, BatchGradMoment E body (mods nm) (C nm)) ∧
      ∀ (d e : GLog K) srcIds tgtIds (dev dev' : Dev), GradLog srcIds d dev lay.rows lay.cols → GradLog tgtIds e dev' lay.rows lay.cols →
        Dict.keys d = keys → (∀ m, m ∈ keys ↔ m ∈ Dict.keys e) → ∀ c, 0 < c → ∀ sqrt,
        ∃ u r T, computeInfluence E.lib sqrt t.st srcIds (.dict d) tgtIds (.dict e) .dot true hessian none (some c) = .ok (u, r) ∧
          r.influence = .one T ∧ r.srcIds = srcIds ∧ r.tgtIds = tgtIds ∧ T.shape = [srcIds.length, tgtIds.length] ∧ ∀ i, i < srcIds.length →
            (∃ x : PyStr → List Nat → K, ∀ m ∈ keys, RawSystem (entries (C m)) c d i m (x m)) ∧
            ∀ x : PyStr → List Nat → K, (∀ m ∈ keys, RawSystem (entries (C m)) c d i m (x m)) →
              ∀ j, j < tgtIds.length → T.el [i, j] = against x e j keys := by
  intro s hc hg hh hp hne
  have hgr : s.opt.grad.head? = some .log := hc.grad.resolve_left fun h => by rw [h] at hg; cases hg
  obtain ⟨v, t, g1, g2, hst⟩ := session_returns E hpre n th fs hx dir hc hp (Q := fun _ => True) trivial fun o _ => masks_true o
  have ht : SAct.each (SOp.run E) (ctx ++ body.map (shift s.user.length) ++ [.finalize dir]) s = (t, none) := by
    rw [SAct.each_append, SAct.seq_eq g1]
    show SAct.seq ((SOp.finalize dir).run E) (SAct.each (SOp.run E) []) v = _
    rw [SAct.seq_eq g2]
    rfl
  have hlogs : ∀ o ∈ body, Unmasked o ∧ ∀ nm ∈ keys, Logs nm o := fun o h => ⟨hbody o h, fun nm _ => programFits_logs body _ _ _ hp o h nm⟩
  have hmods : ∀ nm ∈ keys, Watches s (mods nm) nm ∧ notes batchGrads (mods nm) ⟨none, [], [], []⟩ body ≠ [] := fun nm h => ⟨hc.watches nm h, hne nm h⟩
  obtain ⟨C, h1, h2⟩ := C106_raw E hE hI pre hpre n th fs ctx ids hx body dir keys mods hlogs hessian hc.stats hc.plain hgr hg hh hmods t ht
  refine ⟨t, C, ht, h1, fun d e srcIds tgtIds dev dev' hd he hk hke c hcp sqrt => ?_⟩
  obtain ⟨⟨calls, hfin⟩, hu⟩ := session_usesRaw E pre hpre n th fs ctx ids hx body dir keys mods hlogs hessian hc.stats hc.plain hgr hg hh hmods t ht hc.nonempty
  have hcov : ∀ m ∈ keys, (tensorAt t.st.attrs nCov [m, LogType.name .grad]).isSome := by
    intro nm hm
    obtain ⟨_, _, -, c1⟩ := C105_grad E pre hpre n th fs (mods nm) nm ctx ids none hx body (fun o h => (hlogs o h).2 nm hm) dir (hc.watches nm hm) hc.stats hgr t ht
      (fun h => hne nm hm (List.map_eq_nil_iff.1 h))
    obtain ⟨C, a1, -⟩ := c1 hg
    rw [a1]; rfl
  have hR := session_ready hE hI hL hst g2 hfin hcp (.inr ⟨hu, hcov⟩)
  subst hk
  obtain ⟨u, r, h3, -⟩ := C115_influence_returns (sqrt := sqrt) hR hd he hke true (groups := none) nofun (mode := .dot) (.inl rfl)
  obtain ⟨T, h4⟩ := h2 d e rfl srcIds tgtIds (GradLog.labelled hd) (GradLog.labelled he) c hcp sqrt u r h3
  exact ⟨u, r, T, h3, h4⟩

end
end Logix
