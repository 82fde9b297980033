/-
C124: from the program that logs to the scores against the log directory, where nothing is assumed to return.
-/
import Verif.Props.SessionReturns
import Verif.Props.SessionScores
import Verif.Spec.SessionDirectory

set_option linter.unusedSectionVars false

namespace Logix
open Spec Sess
variable {K : Type}

section
variable [Field K] {E : SEnv K} {opt : LogOption} {keys : List PyStr} {mods : PyStr → Nat} {lay : Layout}

/-- The uses of a module whose gradients have arrived fit together. -/
def Arrived (E : SEnv K) (lay : Layout) (tensors : List (TObj K)) (nm : PyStr) (m n : Nat) (l : List (Nat × Nat)) : Prop :=
  ∀ c ∈ l, 0 < n ∧ ∃ x g, tensors[c.1]? = some x ∧ tensors[c.2]? = some g ∧ (∃ n', IsInput lay nm n' x.val (E.kind m)) ∧ IsOutGrad lay nm n x.val g.val (E.kind m)

theorem Arrived.mono {tensors more : List (TObj K)} {nm : PyStr} {m n : Nat} {l : List (Nat × Nat)} (h : Arrived E lay tensors nm m n l) :
    Arrived E lay (tensors ++ more) nm m n l := by
  intro c hc
  obtain ⟨h0, x, g, h1, h2, h3⟩ := h c hc
  exact ⟨h0, x, g, prefix_get (List.prefix_append ..) h1, prefix_get (List.prefix_append ..) h2, h3⟩

theorem arrived_step {tensors : List (TObj K)} {f : Saving} {b : Nat → Book K} {o : SOp K} (ho : OpFits E opt keys mods lay tensors f b o)
    (hs : ∀ nm ∈ keys, ∀ c ∈ (b (mods nm)).uses ++ (b (mods nm)).fresh, ∃ n a, tensors[c.1]? = some a ∧ IsInput lay nm n a.val (E.kind (mods nm)))
    (h : ∀ nm ∈ keys, Arrived E lay tensors nm (mods nm) f.ids.length (b (mods nm)).arrived) :
    ∀ nm ∈ keys, Arrived E lay (tensors ++ allocs [o]) nm (mods nm) (f.step o).ids.length ((b (mods nm)).step (mods nm) o).arrived := by
  intro nm hm
  refine Arrived.mono ?_
  cases o with
  | gradAt y g =>
    intro c hc
    rcases List.mem_append.1 hc with hc | hc
    · exact h nm hm c hc
    · obtain ⟨u, hu, rfl⟩ := List.mem_map.1 hc
      obtain ⟨hu, hy⟩ := List.mem_filter.1 hu
      obtain ⟨x, o, g1, g2, g3, g4⟩ := ho nm hm u hu (of_decide_eq_true hy)
      obtain ⟨n', a, e1, e2⟩ := hs nm hm u (List.mem_append_right _ hu)
      rw [g1] at e1
      obtain rfl := Option.some.inj e1
      exact ⟨List.length_pos_of_ne_nil g3, x, o, g1, g2, ⟨n', e2⟩, g4⟩
  | forward m' x y =>
    have : ((b (mods nm)).step (mods nm) (.forward m' x y)).arrived = (b (mods nm)).arrived := by
      unfold Book.step
      dsimp only
      split <;> rfl
    rw [this]
    exact h nm hm
  | call ids mask save => exact fun _ hc => nomatch hc
  | start ids mask => exact fun _ hc => nomatch hc
  | log ids mask => exact fun _ hc => nomatch hc
  | _ => exact h nm hm

/-- In every saved batch gradients of all modules have arrived, with one row per id. -/
theorem saved_fit (body : List (SOp K)) : ∀ (tensors : List (TObj K)) (f : Saving) (b : Nat → Book K), ProgramFits E opt keys mods lay tensors f b body →
    (∀ nm ∈ keys, ∀ c ∈ (b (mods nm)).uses ++ (b (mods nm)).fresh, ∃ n a, tensors[c.1]? = some a ∧ IsInput lay nm n a.val (E.kind (mods nm))) →
    (∀ nm ∈ keys, Arrived E lay tensors nm (mods nm) f.ids.length (b (mods nm)).arrived) →
    ∀ u ∈ savedBatches f b body, ∀ nm ∈ keys, u.2 (mods nm) ≠ [] ∧ Arrived E lay (tensors ++ allocs body) nm (mods nm) u.1.length (u.2 (mods nm)) := by
  induction body with
  | nil => exact fun _ _ _ _ _ _ _ hu => nomatch hu
  | cons o body ih =>
    intro tensors f b hp hs ha u hu nm hm
    have happ : tensors ++ allocs (o :: body) = (tensors ++ allocs [o]) ++ allocs body := by
      rw [List.append_assoc, ← allocs_append']; rfl
    rcases List.mem_append.1 hu with hu | hu
    · split at hu
      · next he =>
        obtain rfl := List.mem_singleton.1 hu
        refine ⟨?_, (ha nm hm).mono⟩
        have ho := hp.1
        cases o with
        | exit => exact (ho he).2 nm hm
        | «end» save => exact (ho he).2 nm hm
        | _ => cases he
      · cases hu
    · rw [happ]
      exact ih _ _ _ hp.2 (seen_step hp.1 hs) (arrived_step hp.1 hs ha) u hu nm hm

/-- Gradients that fit together give a gradient of the batch with one row per id. -/
theorem arrived_shape {tensors : List (TObj K)} {nm : PyStr} {m n : Nat} {l : List (Nat × Nat)} (h : Arrived E lay tensors nm m n l) (hr : 0 < lay.rows nm)
    {T : Tensor K} (hT : BatchGrad tensors (E.kind m) l T) : T.shape = [n, lay.rows nm, lay.cols nm] := by
  obtain ⟨vs, h1, h2, h3, -⟩ := hT
  cases h1 with
  | nil => exact absurd rfl h2
  | @cons u v l' vs' hu _ =>
    obtain ⟨x, g, e1, e2, e3⟩ := hu
    obtain ⟨h0, x', g', f1, f2, f3, f4⟩ := h u (List.mem_cons_self ..)
    rw [e1] at f1
    rw [e2] at f2
    obtain rfl := Option.some.inj f1
    obtain rfl := Option.some.inj f2
    obtain ⟨w, w1, w2, -⟩ := isOutGrad_gradient f3 f4 h0 hr
    rw [e3] at w1
    obtain rfl := Except.ok.inj w1
    rw [← h3 v (List.mem_cons_self ..), w2]

/-- Such a program can be stored. -/
theorem storedProgram {dec : DType → List UInt8 → K} {d : DType} {pre : List (SOp K)} {n : Nat} {th : Int} {fs : FS} {ctx body : List (SOp K)}
    (hP : SavedProgram E dec d pre n fs ctx body keys mods) (hc : Configured (runHistory E pre (Sess.init n th fs)) keys mods lay)
    (hg : (runHistory E pre (Sess.init n th fs)).opt.grad.head? = some .log)
    (hp : ProgramFits E (runHistory E pre (Sess.init n th fs)).opt keys mods lay [] (Saving.after (pre ++ ctx)) (fun _ => ⟨none, [], [], []⟩) body) :
    StoredProgram E dec d pre n th fs ctx none body keys mods fun nm => [lay.rows nm, lay.cols nm] := by
  have hfit := saved_fit body [] _ _ hp (fun _ _ _ hc => nomatch hc) (fun _ _ _ hc => nomatch hc)
  obtain ⟨nm0, hm0⟩ := List.exists_mem_of_ne_nil keys hc.nonempty
  refine ⟨hP.configures, fun o ho nm _ => programFits_logs body _ _ _ hp o ho nm, hP.dtype, hc.stats, hg, hc.watches, hc.nodup, hc.paths,
    fun _ _ => List.cons_ne_nil _ _, ⟨nm0, hm0, ?_⟩, hP.tidy, fun u hu nm hm => ⟨(hfit u hu nm hm).1, fun T hT => ?_, hP.exact u hu nm hm⟩, hP.ids, hP.files, hP.clean, hP.one⟩
  · have := hc.pos nm0 hm0
    have := Nat.mul_pos this.1 this.2
    simp [numel]
    omega
  · exact arrived_shape (hfit u hu nm hm).2 (hc.pos nm hm).1 hT

theorem GradBatch.log {x : List PyStr × GLog K} (h : GradBatch keys (fun nm => [lay.rows nm, lay.cols nm]) x) (hne : keys ≠ []) :
    GradLog x.1 x.2 .cpu lay.rows lay.cols := by
  refine ⟨h.nodup, fun m hm => h.grads m ((h.same m).2 hm), h.only, h.ids, fun e => ?_⟩
  obtain ⟨nm0, hm0⟩ := List.exists_mem_of_ne_nil keys hne
  have := (h.same nm0).1 hm0
  rw [e] at this
  cases this

end

section
variable [Field K] [LinearOrder K] [IsStrictOrderedRing K]

/-- **C124, KFAC.** A new run is configured with gradients to be logged and covariances of `forward` and `backward`. A program logs batches without masks that
fit together and saves some of them; `finalize` is called. All this returns. Then a loader of nested batches can be built on the log directory, by the same or
by a new run, in whatever order the directory lists its files and for every batch size, and its batches can be read. For every source log of the watched modules with gradients of
their shapes, and every positive damping, `compute_influence_all` returns (without a result saved before, or without saving). It gives one score per source id and
saved id: the inner product of the per-sample gradient of the saved sample in the program with the solution of `B x A + c x = g` for the gradient `g` of the
source, summed over the modules, where `A` and `B` are the second moments of the inputs and output gradients in the program. -/
theorem C124_kfac (E : SEnv K) (hE : EighOk E.lib) (hI : InverseOk E.lib) (hL : LibTotal E.lib) (dec : DType → List UInt8 → K) (d : DType) (pre : List (SOp K))
    (n : Nat) (th : Int) (fs : FS) (ctx : List (SOp K)) (ids : List PyStr) (hx : Context ctx ids none) (keys : List PyStr) (mods : PyStr → Nat) (lay : Layout)
    (body : List (SOp K)) (hbody : ∀ o ∈ body, Unmasked o) (hP : SavedProgram E dec d pre n fs ctx body keys mods) (dir : StateDir K) (hessian : Hess) :
    let s := runHistory E pre (Sess.init n th fs)
    Configured s keys mods lay → s.opt.grad.head? = some .log → s.opt.forward.count .covariance = 1 → s.opt.backward.count .covariance = 1 →
    (hessian = .kfac ∨ hessian = .auto ∧ .covariance ∉ s.opt.grad.tail) →
    ProgramFits E s.opt keys mods lay [] (Saving.after (pre ++ ctx)) (fun _ => ⟨none, [], [], []⟩) body →
    (∀ nm ∈ keys, inputs (mods nm) body ≠ [] ∧ notes outGrad (mods nm) ⟨none, [], [], []⟩ body ≠ []) →
    ∃ (t : Sess K) (A B : PyStr → Tensor K), SAct.each (SOp.run E) (ctx ++ body.map (shift s.user.length) ++ [.finalize dir]) s = (t, none) ∧
      (∀ nm ∈ keys, InputMoment E body (mods nm) (A nm) ∧ OutGradMoment E body (mods nm) (B nm)) ∧
      ∀ listing : List PyStr, listing.Perm (Dict.keys t.fs) → ∀ b, 0 < b → ∀ f : Front, f.fs = t.fs → f.dataset = none → f.loader = none →
      ∃ l bs, (f.buildLoader listing b false).2 = .ok l ∧ l.batches = .ok bs ∧
        ∀ (o : IFObj K) hist srcIds src dev save c sqrt, o.st = t.st → History E.lib sqrt o hist → (save = false ∨ o.saved = none) →
          GradLog srcIds src dev lay.rows lay.cols → Dict.keys src = keys → 0 < c →
          ∃ o' x T, computeInfluenceAll E.lib sqrt o srcIds (.dict src) (bs.map (LogBatch.arg ⟨E.encode, dec⟩)) .dot true save hessian none (some c) = .ok (o', some x) ∧
            (o'.heap.deref x).srcIds = srcIds ∧ (o'.heap.deref x).tgtIds = (savedBy pre ctx none body).flatMap (·.1) ∧
            (o'.heap.deref x).influence.get? ['t', 'o', 't', 'a', 'l'] = some T ∧
            T.shape = [srcIds.length, ((savedBy pre ctx none body).flatMap (·.1)).length] ∧
            ∀ i, i < srcIds.length →
              (∃ x : PyStr → List Nat → K, ∀ m ∈ keys, KfacSystem (entries (A m)) (entries (B m)) c src i m (x m)) ∧
              ∀ x : PyStr → List Nat → K, (∀ m ∈ keys, KfacSystem (entries (A m)) (entries (B m)) c src i m (x m)) →
                ScoredBy E body mods keys (fun nm => [lay.rows nm, lay.cols nm]) (savedBy pre ctx none body) T i x := by
  intro s hc hgr hf hb hh hp hne
  obtain ⟨v, t, g1, g2, hst⟩ := session_returns E hP.configures n th fs hx dir hc hp (Q := fun _ => True) trivial fun o _ => masks_true o
  have ht : SAct.each (SOp.run E) (ctx ++ body.map (shift s.user.length) ++ [.finalize dir]) s = (t, none) := by
    rw [SAct.each_append, SAct.seq_eq g1]
    show SAct.seq ((SOp.finalize dir).run E) (SAct.each (SOp.run E) []) v = _
    rw [SAct.seq_eq g2]
    rfl
  have hS := storedProgram hP hc hgr hp
  obtain ⟨A, B, h1, h2⟩ := C112_kfac E hE hI dec d pre n th fs ctx ids hx body keys mods _ dir hS hbody hP.some hessian hc.plain hf hb hh hne t ht
  refine ⟨t, A, B, ht, h1, fun listing hlist b hbp f hf1 hf2 hf3 => ?_⟩
  obtain ⟨l, bs, h3, h4, h5⟩ := h2 listing hlist b hbp f hf1 hf2 hf3
  obtain ⟨l', bs', k3, k4, k5, -⟩ := program_scores E dec d pre n th fs ctx ids none hx body keys mods _ dir hS hP.some t ht listing hlist b hbp f hf1 hf2 hf3
  obtain rfl : l = l' := Except.ok.inj (h3.symm.trans k3)
  obtain rfl : bs = bs' := Except.ok.inj (h4.symm.trans k4)
  refine ⟨l, bs, h3, h4, fun o hist srcIds src dev save c sqrt ho hH hsv hsrc hk hcp => ?_⟩
  have hlogs : ∀ o ∈ body, Unmasked o ∧ ∀ nm ∈ keys, Logs nm o := fun o h => ⟨hbody o h, fun nm _ => programFits_logs body _ _ _ hp o h nm⟩
  obtain ⟨nm0, hm0⟩ := List.exists_mem_of_ne_nil keys hc.nonempty
  obtain ⟨calls, hfin, hg, -⟩ := session_finalized E pre hP.configures n th fs (mods nm0) nm0 ctx ids hx body
    (fun o h => ⟨(hlogs o h).2 nm0 hm0, (hlogs o h).1⟩) dir (hc.watches nm0 hm0) hc.stats hc.plain t ht
  have hu : UsesKfac t.st keys hessian := usesKfac_of_calls hfin (hh.imp id fun h => ⟨h.1, fun m _ => hg h.2 m⟩)
  have hcov : ∀ m ∈ keys, (tensorAt t.st.attrs nCov [m, LogType.name .forward]).isSome ∧ (tensorAt t.st.attrs nCov [m, LogType.name .backward]).isSome := by
    intro nm hm
    have hbd : ∀ o ∈ body, Logs nm o ∧ Unmasked o := fun o h => ⟨(hlogs o h).2 nm hm, (hlogs o h).1⟩
    obtain ⟨_, _, -, c1⟩ := C105_forward E pre hP.configures n th fs (mods nm) nm ctx ids hx body hbd dir (hc.watches nm hm) hc.stats t ht (hne nm hm).1
    obtain ⟨_, _, -, c2⟩ := C105_backward E pre hP.configures n th fs (mods nm) nm ctx ids hx body hbd dir (hc.watches nm hm) hc.stats (count_one_ne_nil hb) t ht
      (fun h => (hne nm hm).2 (List.map_eq_nil_iff.1 h))
    obtain ⟨A, a1, -⟩ := c1 hf
    obtain ⟨B, b1, -⟩ := c2 hb
    exact ⟨by rw [a1]; rfl, by rw [b1]; rfl⟩
  have hR := session_ready hE hI hL hst g2 hfin hcp (.inl ⟨hu, hcov⟩)
  subst hk
  rw [← ho] at hR
  obtain ⟨o', r, h6⟩ := C115_all_returns (sqrt := sqrt) hR hsrc (loader := bs.map (LogBatch.arg ⟨E.encode, dec⟩)) (fun z hz => by
    obtain ⟨e, e1, e2⟩ := k5 z hz
    exact ⟨e, .cpu, e1, GradBatch.log e2 hc.nonempty, e2.same⟩) true save hsv (groups := none) nofun (mode := .dot) (.inl rfl)
  obtain ⟨x, T, rfl, h7⟩ := h5 o o' hist srcIds src save c sqrt r ho hH (GradLog.labelled hsrc) rfl hcp h6
  exact ⟨o', x, T, h6, h7⟩

/-- **C124, empirical Fisher matrix.** The same with the covariance of the gradients: the system is `C x + c x = g`, where `C` is the second moment of the
per-sample gradients of the module in all batches of the program (saved or not). -/
theorem C124_raw (E : SEnv K) (hE : EighOk E.lib) (hI : InverseOk E.lib) (hL : LibTotal E.lib) (dec : DType → List UInt8 → K) (d : DType) (pre : List (SOp K))
    (n : Nat) (th : Int) (fs : FS) (ctx : List (SOp K)) (ids : List PyStr) (hx : Context ctx ids none) (keys : List PyStr) (mods : PyStr → Nat) (lay : Layout)
    (body : List (SOp K)) (hbody : ∀ o ∈ body, Unmasked o) (hP : SavedProgram E dec d pre n fs ctx body keys mods) (dir : StateDir K) (hessian : Hess) :
    let s := runHistory E pre (Sess.init n th fs)
    Configured s keys mods lay → s.opt.grad.tail.count .covariance = 1 → (hessian = .raw ∨ hessian = .auto) →
    ProgramFits E s.opt keys mods lay [] (Saving.after (pre ++ ctx)) (fun _ => ⟨none, [], [], []⟩) body →
    (∀ nm ∈ keys, notes batchGrads (mods nm) ⟨none, [], [], []⟩ body ≠ []) →
    ∃ (t : Sess K) (C : PyStr → Tensor K), SAct.each (SOp.run E) (ctx ++ body.map (shift s.user.length) ++ [.finalize dir]) s = (t, none) ∧
      (∀ nm ∈ keys, BatchGradMoment E body (mods nm) (C nm)) ∧
      ∀ listing : List PyStr, listing.Perm (Dict.keys t.fs) → ∀ b, 0 < b → ∀ f : Front, f.fs = t.fs → f.dataset = none → f.loader = none →
      ∃ l bs, (f.buildLoader listing b false).2 = .ok l ∧ l.batches = .ok bs ∧
        ∀ (o : IFObj K) hist srcIds src dev save c sqrt, o.st = t.st → History E.lib sqrt o hist → (save = false ∨ o.saved = none) →
          GradLog srcIds src dev lay.rows lay.cols → Dict.keys src = keys → 0 < c →
          ∃ o' x T, computeInfluenceAll E.lib sqrt o srcIds (.dict src) (bs.map (LogBatch.arg ⟨E.encode, dec⟩)) .dot true save hessian none (some c) = .ok (o', some x) ∧
            (o'.heap.deref x).srcIds = srcIds ∧ (o'.heap.deref x).tgtIds = (savedBy pre ctx none body).flatMap (·.1) ∧
            (o'.heap.deref x).influence.get? ['t', 'o', 't', 'a', 'l'] = some T ∧
            T.shape = [srcIds.length, ((savedBy pre ctx none body).flatMap (·.1)).length] ∧
            ∀ i, i < srcIds.length →
              (∃ x : PyStr → List Nat → K, ∀ m ∈ keys, RawSystem (entries (C m)) c src i m (x m)) ∧
              ∀ x : PyStr → List Nat → K, (∀ m ∈ keys, RawSystem (entries (C m)) c src i m (x m)) →
                ScoredBy E body mods keys (fun nm => [lay.rows nm, lay.cols nm]) (savedBy pre ctx none body) T i x := by
  intro s hc hg hh hp hne
  have hgr : s.opt.grad.head? = some .log := hc.grad.resolve_left fun h => by rw [h] at hg; cases hg
  obtain ⟨v, t, g1, g2, hst⟩ := session_returns E hP.configures n th fs hx dir hc hp (Q := fun _ => True) trivial fun o _ => masks_true o
  have ht : SAct.each (SOp.run E) (ctx ++ body.map (shift s.user.length) ++ [.finalize dir]) s = (t, none) := by
    rw [SAct.each_append, SAct.seq_eq g1]
    show SAct.seq ((SOp.finalize dir).run E) (SAct.each (SOp.run E) []) v = _
    rw [SAct.seq_eq g2]
    rfl
  have hS := storedProgram hP hc hgr hp
  obtain ⟨C, h1, h2⟩ := C112_raw E hE hI dec d pre n th fs ctx ids hx body keys mods _ dir hS hbody hP.some hessian hc.plain hg hh t ht hne
  refine ⟨t, C, ht, h1, fun listing hlist b hbp f hf1 hf2 hf3 => ?_⟩
  obtain ⟨l, bs, h3, h4, h5⟩ := h2 listing hlist b hbp f hf1 hf2 hf3
  obtain ⟨l', bs', k3, k4, k5, -⟩ := program_scores E dec d pre n th fs ctx ids none hx body keys mods _ dir hS hP.some t ht listing hlist b hbp f hf1 hf2 hf3
  obtain rfl : l = l' := Except.ok.inj (h3.symm.trans k3)
  obtain rfl : bs = bs' := Except.ok.inj (h4.symm.trans k4)
  refine ⟨l, bs, h3, h4, fun o hist srcIds src dev save c sqrt ho hH hsv hsrc hk hcp => ?_⟩
  have hlogs : ∀ o ∈ body, Unmasked o ∧ ∀ nm ∈ keys, Logs nm o := fun o h => ⟨hbody o h, fun nm _ => programFits_logs body _ _ _ hp o h nm⟩
  have hmods : ∀ nm ∈ keys, Watches s (mods nm) nm ∧ notes batchGrads (mods nm) ⟨none, [], [], []⟩ body ≠ [] := fun nm h => ⟨hc.watches nm h, hne nm h⟩
  obtain ⟨⟨calls, hfin⟩, hu⟩ := session_usesRaw E pre hP.configures n th fs ctx ids hx body dir keys mods hlogs hessian hc.stats hc.plain hgr hg hh hmods t ht hc.nonempty
  have hcov : ∀ m ∈ keys, (tensorAt t.st.attrs nCov [m, LogType.name .grad]).isSome := by
    intro nm hm
    obtain ⟨_, _, -, c1⟩ := C105_grad E pre hP.configures n th fs (mods nm) nm ctx ids none hx body (fun o h => (hlogs o h).2 nm hm) dir (hc.watches nm hm) hc.stats hgr t ht
      (fun h => hne nm hm (List.map_eq_nil_iff.1 h))
    obtain ⟨C, a1, -⟩ := c1 hg
    rw [a1]; rfl
  have hR := session_ready hE hI hL hst g2 hfin hcp (.inr ⟨hu, hcov⟩)
  subst hk
  rw [← ho] at hR
  obtain ⟨o', r, h6⟩ := C115_all_returns (sqrt := sqrt) hR hsrc (loader := bs.map (LogBatch.arg ⟨E.encode, dec⟩)) (fun z hz => by
    obtain ⟨e, e1, e2⟩ := k5 z hz
    exact ⟨e, .cpu, e1, GradBatch.log e2 hc.nonempty, e2.same⟩) true save hsv (groups := none) nofun (mode := .dot) (.inl rfl)
  obtain ⟨x, T, rfl, h7⟩ := h5 o o' hist srcIds src save c sqrt r ho hH (GradLog.labelled hsrc) rfl hcp h6
  exact ⟨o', x, T, h6, h7⟩

end
end Logix
