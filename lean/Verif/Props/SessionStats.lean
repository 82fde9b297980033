/-
**C105.** The statistics of a logging session are those of the data of the user's program.
-/
import Verif.Lemmas.SessionBook
import Verif.Props.Stats

set_option linter.unusedSectionVars false

namespace Logix
open Spec Sess
variable {K : Type}

section
variable [Field K]

theorem context_opens {E : SEnv K} {U : List (TObj K)} {m : Nat} {nm : PyStr} {s u : Sess K} (hh : Handles s)
    (hc : ∀ c ∈ s.calls, c.out < s.user.length) (hw : Watches s m nm) (hU : s.user <+: U)
    {ctx : List (SOp K)} {ids : List PyStr} {mask : Option (Tensor K)} (hx : Context ctx ids mask) (h : SAct.each (SOp.run E) ctx s = (u, none)) :
    Ins E s.opt U m s.user.length nm ⟨mask, [], [], []⟩ u ∧ u.user = s.user ∧ u.st = s.st := by
  have hb : Base E s.opt U m s.user.length nm ⟨mask, [], [], []⟩ (s.setBatch ids mask) := by
    have hlog : ∀ name ty, logRef (s.setBatch ids mask) name ty = none := fun _ _ => rfl
    refine ⟨hU, ⟨?_, ?_⟩, List.nodup_nil, rfl, hh.congr rfl, hw.1, hw.2.1, hw.2.2, rfl, ?_, ?_⟩
    · intro name ty r hr
      rw [hlog] at hr
      cases hr
    · intro n1 t1 n2 t2 r hr _
      rw [hlog] at hr
      cases hr
    · unfold callsFor
      rw [List.map_nil, List.flatMap_eq_nil_iff]
      intro c hcm
      rw [if_neg (Nat.not_le.2 (hc c hcm))]
    · intro _
      refine ⟨[], .nil, ?_⟩
      rw [logged_eq, hlog]
      rfl
  cases hx with
  | start ids mask =>
    obtain ⟨v, h1, h2⟩ := SAct.seq_none h
    cases h2
    exact open_step hb h1
  | «with» ids mask sv =>
    obtain ⟨v, h1, h2⟩ := SAct.seq_none h
    obtain ⟨v', h3, h4⟩ := SAct.seq_none h2
    cases h4
    have hv : ({ s.setBatch ids mask with saveBatch := sv } : Sess K) = v := congrArg Prod.fst h1
    subst hv
    have hw := still_of_fields (s := s.setBatch ids mask) (t := { s.setBatch ids mask with saveBatch := sv }) rfl rfl hb.wf
    exact open_step (hb.congr (t := { s.setBatch ids mask with saveBatch := sv }) rfl hb.user hw.1 hb.nodup (hw.2 _ _)) h3

theorem get_shift {s : List (TObj K)} {l : List (TObj K)} (n : Nat) : (s ++ l)[n + s.length]? = l[n]? := by
  rw [List.getElem?_append_right (Nat.le_add_left ..), Nat.add_sub_cancel]

end

/-- What every plugin receives, see C105; and the plugins and the masks of all other updates. -/
theorem session_updates [Field K] (E : SEnv K) (ops : List (SOp K)) (n : Nat) (th : Int) (fs : FS) (m : Nat) (nm : PyStr)
    (ctx : List (SOp K)) (ids : List PyStr) (mask : Option (Tensor K)) (hx : Context ctx ids mask) (body : List (SOp K)) (hbody : ∀ o ∈ body, Logs nm o)
    (Q : Option (Tensor K) → Prop) (hQ : ∀ o ∈ body, Masks Q o) (hQ0 : Q mask) :
    let s := runHistory E ops (Sess.init n th fs)
    Watches s m nm → OnlyStatistics s.opt →
    ∀ t, SAct.each (SOp.run E) (ctx ++ body.map (shift s.user.length)) s = (t, none) →
    ∃ calls f b g, updates E.lib s.st calls = .ok t.st ∧
      (∀ p, callsOf p nm .forward calls = f.flatMap (List.replicate (s.opt.forward.count p))) ∧
      (∀ p, callsOf p nm .backward calls = b.flatMap (List.replicate (s.opt.backward.count p))) ∧
      (∀ p, callsOf p nm .grad calls = g.flatMap (List.replicate (s.opt.grad.tail.count p))) ∧
      List.Forall₂ (fun u c => ∃ x v, (allocs body)[u.1]? = some x ∧ maskActivations u.2 x.val = .ok v ∧
        c = ⟨some (E.kind m), nm, .forward, v, u.2, E.cpuOffload⟩) (notes (input m) m ⟨mask, [], [], []⟩ body) f ∧
      (s.opt.backward ≠ [] → List.Forall₂ (fun u c => ∃ x, (allocs body)[u.1]? = some x ∧
        c = ⟨some (E.kind m), nm, .backward, x.val, u.2, E.cpuOffload⟩) (notes outGrad m ⟨mask, [], [], []⟩ body) b) ∧
      (s.opt.grad.head? = some .log → List.Forall₂ (fun u c => ∃ T, BatchGrad (allocs body) (E.kind m) u.1 T ∧
        c = ⟨none, nm, .grad, T, u.2, E.cpuOffload⟩) (notes batchGrads m ⟨mask, [], [], []⟩ body) g) ∧
      ∀ pc ∈ calls, pc.1 ∈ plugs s.opt pc.2.logType ∧ Q pc.2.mask := by
  intro s hw ho t ht
  rw [SAct.each_append] at ht
  obtain ⟨u, h1, h2⟩ := SAct.seq_none ht
  obtain ⟨hi, hu, hst⟩ := context_opens (U := s.user ++ allocs body) (history_handles E ops n th fs) (history_calls E ops n th fs) hw
    (List.prefix_append ..) hx h1
  obtain ⟨f, b, g, ⟨cs, em, c1, c2, c3, c4, c5⟩, r1, r2, r3⟩ := body_traced (Q := Q) ho.1 ho.2.1 ho.2.2 body _ u t hbody hQ hi (by rw [hu]) h2
  refine ⟨cs, f, b, g, ?_, c1, c2, c3, r1.imp ?_, fun hb => (r2 hb).imp ?_, fun hg => (r3 hg).imp ?_,
    fun pc hpc => ⟨c4 pc hpc, (c5 (by rw [hi.mask]; exact hQ0)).2 pc hpc⟩⟩
  · rw [← hst]; exact em
  · rintro x c ⟨a, v, e1, e2, e3⟩
    rw [get_shift] at e1
    exact ⟨a, v, e1, e2, e3⟩
  · rintro x c ⟨a, e1, e2⟩
    rw [get_shift] at e1
    exact ⟨a, e1, e2⟩
  · rintro x c ⟨T, vs, e1, e2, e3⟩
    refine ⟨T, ⟨vs, e1.imp ?_, e2⟩, e3⟩
    rintro w v ⟨a, b, f1, f2, f3⟩
    rw [get_shift] at f1 f2
    exact ⟨a, b, f1, f2, f3⟩

/-- **C105, the updates.** After any history, let a module be watched (once, under a name of its own) and the raw inputs and output gradients not be logged.
A batch context is opened, in either interface, and any program of model runs and further batches goes on from there without exception. Then
the statistics have received exactly the following for the module. Each plugin configured for `forward` received, for each call of the module in
order, the input of the call, masked by the mask of the batch. Each plugin configured for `backward` received the gradient of the output of each
call that the backward pass came through. Each plugin configured for `grad` (when gradients are logged) received, at the end of each batch, the sum
of the per-sample gradients of the uses of the module whose output gradients arrived in the batch. -/
theorem C105_updates [Field K] (E : SEnv K) (ops : List (SOp K)) (n : Nat) (th : Int) (fs : FS) (m : Nat) (nm : PyStr)
    (ctx : List (SOp K)) (ids : List PyStr) (mask : Option (Tensor K)) (hx : Context ctx ids mask) (body : List (SOp K)) (hbody : ∀ o ∈ body, Logs nm o) :
    let s := runHistory E ops (Sess.init n th fs)
    Watches s m nm → OnlyStatistics s.opt →
    ∀ t, SAct.each (SOp.run E) (ctx ++ body.map (shift s.user.length)) s = (t, none) →
    ∃ calls f b g, updates E.lib s.st calls = .ok t.st ∧
      (∀ p, callsOf p nm .forward calls = f.flatMap (List.replicate (s.opt.forward.count p))) ∧
      (∀ p, callsOf p nm .backward calls = b.flatMap (List.replicate (s.opt.backward.count p))) ∧
      (∀ p, callsOf p nm .grad calls = g.flatMap (List.replicate (s.opt.grad.tail.count p))) ∧
      List.Forall₂ (fun u c => ∃ x v, (allocs body)[u.1]? = some x ∧ maskActivations u.2 x.val = .ok v ∧
        c = ⟨some (E.kind m), nm, .forward, v, u.2, E.cpuOffload⟩) (notes (input m) m ⟨mask, [], [], []⟩ body) f ∧
      (s.opt.backward ≠ [] → List.Forall₂ (fun u c => ∃ x, (allocs body)[u.1]? = some x ∧
        c = ⟨some (E.kind m), nm, .backward, x.val, u.2, E.cpuOffload⟩) (notes outGrad m ⟨mask, [], [], []⟩ body) b) ∧
      (s.opt.grad.head? = some .log → List.Forall₂ (fun u c => ∃ T, BatchGrad (allocs body) (E.kind m) u.1 T ∧
        c = ⟨none, nm, .grad, T, u.2, E.cpuOffload⟩) (notes batchGrads m ⟨mask, [], [], []⟩ body) g) := by
  intro s hw ho t ht
  obtain ⟨calls, f, b, g, h1, h2, h3, h4, h5, h6, h7, -⟩ := session_updates E ops n th fs m nm ctx ids mask hx body hbody (fun _ => True)
    (fun o _ => by cases o <;> trivial) trivial hw ho t ht
  exact ⟨calls, f, b, g, h1, h2, h3, h4, h5, h6, h7⟩

section
variable [Field K]

theorem configured_st (E : SEnv K) (ops : List (SOp K)) : ∀ s : Sess K, (∀ o ∈ ops, Configures o) → (runHistory E ops s).st = s.st := by
  induction ops with
  | nil => exact fun _ _ => rfl
  | cons o ops ih =>
    intro s h
    change (runHistory E ops (o.run E s).1).st = s.st
    rw [ih _ fun o ho => h o (List.mem_cons_of_mem _ ho)]
    have := h o (List.mem_cons_self ..)
    cases o with
    | setup kw => rfl
    | watch sel =>
      change (Sess.watch sel s).1.st = s.st
      unfold Sess.watch
      dsimp only
      split <;> rfl
    | save b => rfl
    | eval => rfl
    | alloc a => rfl
    | _ => exact this.elim

theorem unmasked_step {m : Nat} {bk : Book K} {o : SOp K} (h : bk.mask = none) (ho : Unmasked o) : (bk.step m o).mask = none := by
  cases o with
  | forward m' x y =>
    unfold Book.step
    dsimp only
    split <;> exact h
  | call ids mask sv => exact ho
  | start ids mask => exact ho
  | log ids mask => exact ho
  | _ => exact h

theorem unmasked_notes {α : Type} {f : Book K → SOp K → List (α × Option (Tensor K))} {m : Nat}
    (hf : ∀ bk o, bk.mask = none → ∀ e ∈ f bk o, e.2 = none) (body : List (SOp K)) : ∀ bk : Book K, bk.mask = none → (∀ o ∈ body, Unmasked o) →
      ∀ e ∈ notes f m bk body, e.2 = none := by
  induction body with
  | nil => exact fun _ _ _ _ he => nomatch he
  | cons o body ih =>
    intro bk hb hu e he
    rcases List.mem_append.1 he with h | h
    · exact hf bk o hb e h
    · exact ih _ (unmasked_step hb (hu o (List.mem_cons_self ..))) (fun o ho => hu o (List.mem_cons_of_mem _ ho)) e h

theorem notes_inputs (m : Nat) (body : List (SOp K)) : ∀ bk : Book K, (notes (input m) m bk body).map Prod.fst = inputs m body := by
  induction body with
  | nil => exact fun _ => rfl
  | cons o body ih =>
    intro bk
    change List.map Prod.fst (input m bk o ++ notes (input m) m (bk.step m o) body) = _
    rw [List.map_append, ih]
    unfold inputs
    rw [List.flatMap_cons]
    congr 1
    cases o with
    | forward m' x y =>
      unfold input
      dsimp only
      split <;> rfl
    | _ => rfl

theorem input_mask (m : Nat) (bk : Book K) (o : SOp K) (h : bk.mask = none) : ∀ e ∈ input m bk o, e.2 = none := by
  intro e he
  cases o with
  | forward m' x y =>
    unfold input at he
    dsimp only at he
    split at he
    · rw [List.mem_singleton] at he
      subst he
      exact h
    · cases he
  | _ => cases he

theorem outGrad_mask (bk : Book K) (o : SOp K) (h : bk.mask = none) : ∀ e ∈ outGrad bk o, e.2 = none := by
  intro e he
  cases o with
  | backward y g =>
    obtain ⟨c, -, rfl⟩ := List.mem_map.1 he
    exact h
  | _ => cases he

theorem finalize_st {E : SEnv K} {dir : StateDir K} {t t' : Sess K} (h : (SOp.finalize dir).run E t = (t', none)) :
    ∃ dir', t.st.finalize dir = .ok (t'.st, dir') := by
  change (Sess.stateOp E (.finalize dir)).seq _ t = _ at h
  obtain ⟨u, h1, h2⟩ := SAct.seq_none h
  have h3 : u.st = t'.st := by
    have := congrArg (fun x : Sess K × Option PyErr => x.1.st) h2
    exact this
  unfold Sess.stateOp stepOp at h1
  dsimp only at h1
  cases hf : t.st.finalize dir with
  | error e => rw [hf] at h1; simp [Except.map] at h1
  | ok r =>
    rw [hf] at h1
    simp only [Except.map, Prod.mk.injEq, and_true] at h1
    refine ⟨r.2, ?_⟩
    rw [← h3, ← h1]

theorem flatMap_once {α : Type} (l : List α) : l.flatMap (List.replicate 1) = l := by
  induction l with
  | nil => rfl
  | cons a l ih => rw [List.flatMap_cons, ih]; rfl

/-- The statistics of a quantity whose calls carry the data `as`. -/
theorem stats_of {L : Lib K} {calls : List (Plugin × StatCall K)} {st st' : LState K} {dir dir' : StateDir K}
    (hrun : updates L .init calls = .ok st) (hfin : st.finalize dir = .ok (st', dir')) {nm : PyStr} {kind : Option ModKind} {lt : LogType}
    {as : List (Tensor K)} {f : List (StatCall K)} (hf : f.map (fun c => c.data) = as) (hne : f ≠ [])
    (hc : ∀ c ∈ f, c.module = kind ∧ c.logType = lt ∧ (c.mask = none ∨ c.logType = .grad)) {ps : List Plugin}
    (e : ∀ p, callsOf p nm lt calls = f.flatMap (List.replicate (ps.count p))) :
    (ps.count .mean = 1 → ∃ T, tensorAt st'.attrs nMean [nm, lt.name] = some T ∧ IsMean as kind lt T) ∧
    (ps.count .covariance = 1 → ∃ T, tensorAt st'.attrs nCov [nm, lt.name] = some T ∧ IsSecondMoment as kind lt T) := by
  have hrows : allRows f = as.flatMap fun a => rows a kind lt := by
    rw [← hf, List.flatMap_map]
    unfold allRows
    apply List.flatMap_congr
    intro c hcm
    obtain ⟨h1, h2, -⟩ := hc c hcm
    unfold callRows
    rw [h1, h2]
  have hsamples : samples f = (as.map fun a => a.size 0).sum := by
    rw [← hf, List.map_map]
    rfl
  have hwidth : ∀ W, (∀ c ∈ f, callWidth c = W) → ∀ a ∈ as, width a kind lt = W := by
    intro W h a ha
    rw [← hf] at ha
    obtain ⟨c, hcm, rfl⟩ := List.mem_map.1 ha
    obtain ⟨h1, h2, -⟩ := hc c hcm
    rw [← h1, ← h2]
    exact h c hcm
  constructor
  · intro h1
    have e' := e .mean
    rw [h1, flatMap_once] at e'
    obtain ⟨T, W, a1, a2, a3, a4⟩ := C30_mean L hrun hfin nm lt (by rw [e']; exact hne) (by rw [e']; exact fun c h => (hc c h).2.2)
    rw [e'] at a3 a4
    rw [hrows, hsamples] at a4
    exact ⟨T, a1, W, a2, hwidth W a3, a4⟩
  · intro h1
    have e' := e .covariance
    rw [h1, flatMap_once] at e'
    obtain ⟨T, W, a1, a2, a3, a4⟩ := C31_covariance L hrun hfin nm lt (by rw [e']; exact hne) (by rw [e']; exact fun c h => (hc c h).2.2)
    rw [e'] at a3 a4
    rw [hrows, hsamples] at a4
    exact ⟨T, a1, W, a2, hwidth W a3, a4⟩

theorem each_finalize {E : SEnv K} {l : List (SOp K)} {dir : StateDir K} {s t : Sess K}
    (h : SAct.each (SOp.run E) (l ++ [.finalize dir]) s = (t, none)) :
    ∃ u dir', SAct.each (SOp.run E) l s = (u, none) ∧ u.st.finalize dir = .ok (t.st, dir') := by
  rw [SAct.each_append] at h
  obtain ⟨u, h1, h2⟩ := SAct.seq_none h
  obtain ⟨v, h3, h4⟩ := SAct.seq_none h2
  cases h4
  obtain ⟨dir', h5⟩ := finalize_st h3
  exact ⟨u, dir', h1, h5⟩

end

/-- The inputs of a module in a program, as calls of the plugins. -/
theorem forward_data [Field K] (E : SEnv K) (ops : List (SOp K)) (hops : ∀ o ∈ ops, Configures o) (n : Nat) (th : Int) (fs : FS) (m : Nat) (nm : PyStr)
    (ctx : List (SOp K)) (ids : List PyStr) (hx : Context ctx ids none) (body : List (SOp K)) (hbody : ∀ o ∈ body, Logs nm o ∧ Unmasked o)
    (hw : Watches (runHistory E ops (Sess.init n th fs)) m nm) (ho : OnlyStatistics (runHistory E ops (Sess.init n th fs)).opt)
    (u : Sess K) (h1 : SAct.each (SOp.run E) (ctx ++ body.map (shift (runHistory E ops (Sess.init n th fs)).user.length)) (runHistory E ops (Sess.init n th fs)) = (u, none)) :
    ∃ calls, ∃ f : List (StatCall K), updates E.lib .init calls = .ok u.st ∧ Values (allocs body) (inputs m body) (f.map fun c => c.data) ∧
      (∀ c ∈ f, c.module = some (E.kind m) ∧ c.logType = .forward ∧ (c.mask = none ∨ c.logType = .grad)) ∧
      ∀ p, callsOf p nm .forward calls = f.flatMap (List.replicate ((runHistory E ops (Sess.init n th fs)).opt.forward.count p)) := by
  obtain ⟨calls, f, b, g, hup, c1, -, -, r1, -, -⟩ := C105_updates E ops n th fs m nm ctx ids none hx body (fun o h => (hbody o h).1) hw ho u h1
  rw [show (runHistory E ops (Sess.init n th fs)).st = LState.init from configured_st E ops _ hops] at hup
  have hmask := unmasked_notes (m := m) (input_mask m) body (⟨none, [], [], []⟩ : Book K) rfl fun o h => (hbody o h).2
  have key : ∀ (l : List (Nat × Option (Tensor K))) (f : List (StatCall K)), (∀ e ∈ l, e.2 = none) →
      List.Forall₂ (fun u c => ∃ x v, (allocs body)[u.1]? = some x ∧ maskActivations u.2 x.val = .ok v ∧
        c = ⟨some (E.kind m), nm, .forward, v, u.2, E.cpuOffload⟩) l f →
      Values (allocs body) (l.map Prod.fst) (f.map fun c => c.data) ∧
        ∀ c ∈ f, c.module = some (E.kind m) ∧ c.logType = .forward ∧ (c.mask = none ∨ c.logType = .grad) := by
    intro l f hl h
    induction h with
    | nil => exact ⟨.nil, fun _ hc => nomatch hc⟩
    | @cons e c l f hr _ ih =>
      obtain ⟨i1, i2⟩ := ih fun e he => hl e (List.mem_cons_of_mem _ he)
      obtain ⟨x, v, e1, e2, rfl⟩ := hr
      rw [hl e (List.mem_cons_self ..)] at e2 ⊢
      cases e2
      refine ⟨.cons ⟨x, e1, rfl⟩ i1, fun c hc => ?_⟩
      rcases List.mem_cons.1 hc with rfl | hc
      · exact ⟨rfl, rfl, .inl rfl⟩
      · exact i2 c hc
  obtain ⟨k1, k2⟩ := key _ _ hmask r1
  rw [notes_inputs] at k1
  exact ⟨calls, f, hup, k1, k2, c1⟩

/-- The gradients of the outputs of a module in a program, as calls of the plugins. -/
theorem backward_data [Field K] (E : SEnv K) (ops : List (SOp K)) (hops : ∀ o ∈ ops, Configures o) (n : Nat) (th : Int) (fs : FS) (m : Nat) (nm : PyStr)
    (ctx : List (SOp K)) (ids : List PyStr) (hx : Context ctx ids none) (body : List (SOp K)) (hbody : ∀ o ∈ body, Logs nm o ∧ Unmasked o)
    (hw : Watches (runHistory E ops (Sess.init n th fs)) m nm) (ho : OnlyStatistics (runHistory E ops (Sess.init n th fs)).opt)
    (hb : (runHistory E ops (Sess.init n th fs)).opt.backward ≠ [])
    (u : Sess K) (h1 : SAct.each (SOp.run E) (ctx ++ body.map (shift (runHistory E ops (Sess.init n th fs)).user.length)) (runHistory E ops (Sess.init n th fs)) = (u, none)) :
    ∃ calls, ∃ f : List (StatCall K), updates E.lib .init calls = .ok u.st ∧ Values (allocs body) ((notes outGrad m ⟨none, [], [], []⟩ body).map Prod.fst) (f.map fun c => c.data) ∧
      (∀ c ∈ f, c.module = some (E.kind m) ∧ c.logType = .backward ∧ (c.mask = none ∨ c.logType = .grad)) ∧
      ∀ p, callsOf p nm .backward calls = f.flatMap (List.replicate ((runHistory E ops (Sess.init n th fs)).opt.backward.count p)) := by
  obtain ⟨calls, f, b, g, hup, -, c2, -, -, r2, -⟩ := C105_updates E ops n th fs m nm ctx ids none hx body (fun o h => (hbody o h).1) hw ho u h1
  rw [show (runHistory E ops (Sess.init n th fs)).st = LState.init from configured_st E ops _ hops] at hup
  have hmask := unmasked_notes (m := m) outGrad_mask body (⟨none, [], [], []⟩ : Book K) rfl fun o h => (hbody o h).2
  have key : ∀ (l : List (Nat × Option (Tensor K))) (f : List (StatCall K)), (∀ e ∈ l, e.2 = none) →
      List.Forall₂ (fun u c => ∃ x, (allocs body)[u.1]? = some x ∧
        c = ⟨some (E.kind m), nm, .backward, x.val, u.2, E.cpuOffload⟩) l f →
      Values (allocs body) (l.map Prod.fst) (f.map fun c => c.data) ∧
        ∀ c ∈ f, c.module = some (E.kind m) ∧ c.logType = .backward ∧ (c.mask = none ∨ c.logType = .grad) := by
    intro l f hl h
    induction h with
    | nil => exact ⟨.nil, fun _ hc => nomatch hc⟩
    | @cons e c l f hr _ ih =>
      obtain ⟨i1, i2⟩ := ih fun e he => hl e (List.mem_cons_of_mem _ he)
      obtain ⟨x, e1, rfl⟩ := hr
      refine ⟨.cons ⟨x, e1, rfl⟩ i1, fun c hc => ?_⟩
      rcases List.mem_cons.1 hc with rfl | hc
      · exact ⟨rfl, rfl, .inl (hl e (List.mem_cons_self ..))⟩
      · exact i2 c hc
  obtain ⟨k1, k2⟩ := key _ _ hmask (r2 hb)
  exact ⟨calls, b, hup, k1, k2, c2⟩

/-- The gradients of the batches of a program, as calls of the plugins. -/
theorem grad_data [Field K] (E : SEnv K) (ops : List (SOp K)) (hops : ∀ o ∈ ops, Configures o) (n : Nat) (th : Int) (fs : FS) (m : Nat) (nm : PyStr)
    (ctx : List (SOp K)) (ids : List PyStr) (mask : Option (Tensor K)) (hx : Context ctx ids mask) (body : List (SOp K)) (hbody : ∀ o ∈ body, Logs nm o)
    (hw : Watches (runHistory E ops (Sess.init n th fs)) m nm) (ho : OnlyStatistics (runHistory E ops (Sess.init n th fs)).opt)
    (hg : (runHistory E ops (Sess.init n th fs)).opt.grad.head? = some .log)
    (u : Sess K) (h1 : SAct.each (SOp.run E) (ctx ++ body.map (shift (runHistory E ops (Sess.init n th fs)).user.length)) (runHistory E ops (Sess.init n th fs)) = (u, none)) :
    ∃ calls, ∃ f : List (StatCall K), updates E.lib .init calls = .ok u.st ∧
      List.Forall₂ (BatchGrad (allocs body) (E.kind m)) ((notes batchGrads m ⟨mask, [], [], []⟩ body).map Prod.fst) (f.map fun c => c.data) ∧
      (∀ c ∈ f, c.module = none ∧ c.logType = .grad ∧ (c.mask = none ∨ c.logType = .grad)) ∧
      ∀ p, callsOf p nm .grad calls = f.flatMap (List.replicate ((runHistory E ops (Sess.init n th fs)).opt.grad.tail.count p)) := by
  obtain ⟨calls, f, b, g, hup, -, -, c3, -, -, r3⟩ := C105_updates E ops n th fs m nm ctx ids mask hx body hbody hw ho u h1
  rw [show (runHistory E ops (Sess.init n th fs)).st = LState.init from configured_st E ops _ hops] at hup
  have key : ∀ (l : List (List (Nat × Nat) × Option (Tensor K))) (f : List (StatCall K)),
      List.Forall₂ (fun u c => ∃ T, BatchGrad (allocs body) (E.kind m) u.1 T ∧ c = ⟨none, nm, .grad, T, u.2, E.cpuOffload⟩) l f →
      List.Forall₂ (BatchGrad (allocs body) (E.kind m)) (l.map Prod.fst) (f.map fun c => c.data) ∧
        ∀ c ∈ f, c.module = none ∧ c.logType = .grad ∧ (c.mask = none ∨ c.logType = .grad) := by
    intro l f h
    induction h with
    | nil => exact ⟨.nil, fun _ hc => nomatch hc⟩
    | @cons e c l f hr _ ih =>
      obtain ⟨i1, i2⟩ := ih
      obtain ⟨T, e1, rfl⟩ := hr
      refine ⟨.cons e1 i1, fun c hc => ?_⟩
      rcases List.mem_cons.1 hc with rfl | hc
      · exact ⟨rfl, rfl, .inr rfl⟩
      · exact i2 c hc
  obtain ⟨k1, k2⟩ := key _ _ (r3 hg)
  exact ⟨calls, g, hup, k1, k2, c3⟩

/-- **C105, forward.** Let a new run be configured in any way in which the raw inputs and output gradients are not logged, with the module `m`
watched (once, under a name of its own). Then let batches be logged by any program, without masks and without exception, and `finalize` be called.
The mean and the covariance of `forward` for the module, where configured, are the mean and the second moment of the rows of the inputs of all
calls of the module, in all batches. -/
theorem C105_forward [Field K] (E : SEnv K) (ops : List (SOp K)) (hops : ∀ o ∈ ops, Configures o) (n : Nat) (th : Int) (fs : FS) (m : Nat) (nm : PyStr)
    (ctx : List (SOp K)) (ids : List PyStr) (hx : Context ctx ids none) (body : List (SOp K)) (hbody : ∀ o ∈ body, Logs nm o ∧ Unmasked o)
    (dir : StateDir K) :
    let s := runHistory E ops (Sess.init n th fs)
    Watches s m nm → OnlyStatistics s.opt →
    ∀ t, SAct.each (SOp.run E) (ctx ++ body.map (shift s.user.length) ++ [.finalize dir]) s = (t, none) → inputs m body ≠ [] →
    ∃ xs, Values (allocs body) (inputs m body) xs ∧
      (s.opt.forward.count .mean = 1 → ∃ T, tensorAt t.st.attrs nMean [nm, LogType.name .forward] = some T ∧ IsMean xs (some (E.kind m)) .forward T) ∧
      (s.opt.forward.count .covariance = 1 → ∃ T, tensorAt t.st.attrs nCov [nm, LogType.name .forward] = some T ∧
        IsSecondMoment xs (some (E.kind m)) .forward T) := by
  intro s hw ho t ht hne
  obtain ⟨u, dir', h1, h2⟩ := each_finalize ht
  obtain ⟨calls, f, hup, k1, k2, c1⟩ := forward_data E ops hops n th fs m nm ctx ids hx body hbody hw ho u h1
  refine ⟨_, k1, stats_of hup h2 rfl ?_ k2 c1⟩
  rintro rfl
  exact hne (List.forall₂_nil_right_iff.1 k1)

/-- **C105, backward.** The same for `backward`: the statistics are those of the gradients of the outputs of the module, over all calls that the
backward pass came through, in all batches. -/
theorem C105_backward [Field K] (E : SEnv K) (ops : List (SOp K)) (hops : ∀ o ∈ ops, Configures o) (n : Nat) (th : Int) (fs : FS) (m : Nat) (nm : PyStr)
    (ctx : List (SOp K)) (ids : List PyStr) (hx : Context ctx ids none) (body : List (SOp K)) (hbody : ∀ o ∈ body, Logs nm o ∧ Unmasked o)
    (dir : StateDir K) :
    let s := runHistory E ops (Sess.init n th fs)
    let grads := (notes outGrad m ⟨none, [], [], []⟩ body).map Prod.fst
    Watches s m nm → OnlyStatistics s.opt → s.opt.backward ≠ [] →
    ∀ t, SAct.each (SOp.run E) (ctx ++ body.map (shift s.user.length) ++ [.finalize dir]) s = (t, none) → grads ≠ [] →
    ∃ gs, Values (allocs body) grads gs ∧
      (s.opt.backward.count .mean = 1 → ∃ T, tensorAt t.st.attrs nMean [nm, LogType.name .backward] = some T ∧
        IsMean gs (some (E.kind m)) .backward T) ∧
      (s.opt.backward.count .covariance = 1 → ∃ T, tensorAt t.st.attrs nCov [nm, LogType.name .backward] = some T ∧
        IsSecondMoment gs (some (E.kind m)) .backward T) := by
  intro s grads hw ho hb t ht hne
  obtain ⟨u, dir', h1, h2⟩ := each_finalize ht
  obtain ⟨calls, f, hup, k1, k2, c1⟩ := backward_data E ops hops n th fs m nm ctx ids hx body hbody hw ho hb u h1
  refine ⟨_, k1, stats_of hup h2 rfl ?_ k2 c1⟩
  rintro rfl
  exact hne (List.forall₂_nil_right_iff.1 k1)

/-- **C105, grad.** The same for `grad`, when gradients are logged: the statistics are those of the gradients of the batches, each the sum of the
per-sample gradients of the uses of the module whose output gradients arrived in the batch. Masks play no role. -/
theorem C105_grad [Field K] (E : SEnv K) (ops : List (SOp K)) (hops : ∀ o ∈ ops, Configures o) (n : Nat) (th : Int) (fs : FS) (m : Nat) (nm : PyStr)
    (ctx : List (SOp K)) (ids : List PyStr) (mask : Option (Tensor K)) (hx : Context ctx ids mask) (body : List (SOp K))
    (hbody : ∀ o ∈ body, Logs nm o) (dir : StateDir K) :
    let s := runHistory E ops (Sess.init n th fs)
    let batches := (notes batchGrads m ⟨mask, [], [], []⟩ body).map Prod.fst
    Watches s m nm → OnlyStatistics s.opt → s.opt.grad.head? = some .log →
    ∀ t, SAct.each (SOp.run E) (ctx ++ body.map (shift s.user.length) ++ [.finalize dir]) s = (t, none) → batches ≠ [] →
    ∃ gs, List.Forall₂ (BatchGrad (allocs body) (E.kind m)) batches gs ∧
      (s.opt.grad.tail.count .mean = 1 → ∃ T, tensorAt t.st.attrs nMean [nm, LogType.name .grad] = some T ∧ IsMean gs none .grad T) ∧
      (s.opt.grad.tail.count .covariance = 1 → ∃ T, tensorAt t.st.attrs nCov [nm, LogType.name .grad] = some T ∧ IsSecondMoment gs none .grad T) := by
  intro s batches hw ho hg t ht hne
  obtain ⟨u, dir', h1, h2⟩ := each_finalize ht
  obtain ⟨calls, f, hup, k1, k2, c1⟩ := grad_data E ops hops n th fs m nm ctx ids mask hx body hbody hw ho hg u h1
  refine ⟨_, k1, stats_of hup h2 rfl ?_ k2 c1⟩
  rintro rfl
  exact hne (List.forall₂_nil_right_iff.1 k1)

end Logix
