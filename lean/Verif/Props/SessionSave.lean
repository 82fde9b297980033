/-
C23: a batch is saved exactly when it was asked for.
-/
import Verif.Props.SessionHooks

namespace Logix
open Spec Sess
variable {K : Type}

/-- The operations that neither open a batch nor change the configuration. -/
inductive Plain : SOp K → Prop where
  | run {o} (h : IsRun o) : Plain o
  | exit : Plain .exit
  | end (b) : Plain (.end b)
  | analysis (o) : Plain (.analysis o)
  | getLogCopy : Plain .getLogCopy
  | finalize (d) : Plain (.finalize d)

/-- A property that depends neither on tensors, log and statistics nor on what is saved is kept by plain operations, if it is kept when a
tensor hook is added and when a call is recorded. -/
theorem Plain.keeps [Field K] (E : SEnv K) {o : SOp K} (ho : Plain o) {P : Sess K → Prop} (hS : Structural P)
    (hreg : ∀ y fn, (registerTensorHook (K := K) y fn).Keeps P) (hcall : ∀ s c, P s → P { s with calls := s.calls ++ [c] }) :
    (o.run E).Keeps P := by
  have hst : ∀ op, (stateOp E op).Keeps P := by
    intro op s hs
    refine hS.quiet (s := s) ?_ hs
    unfold stateOp
    split <;> rfl
  cases ho with
  | run ho =>
    cases ho with
    | alloc o => exact fun s h => hS.quiet (s := s) rfl h
    | forward mod x y =>
      intro s h
      show P (forward E mod x y s).1
      unfold forward
      split
      · exact h
      · dsimp only
        refine SAct.Keeps.seq (P := P) (SAct.Keeps.each fun a _ s h => hS.quiet (forwardHook_quiet E _ _ _ s) h) ?_ s h
        refine SAct.Keeps.seq (P := P) (fun s h => hcall s _ h) ?_
        exact fun s h => SAct.Keeps.each (P := P) (fun a _ => hreg _ _) s h
    | gradAt y g => exact fun s h => hS.quiet (gradAt_quiet E y g s) h
    | backward y g => exact fun s h => hS.quiet (backward_quiet E y g s) h
    | watchActivation d =>
      refine SAct.Keeps.each (P := P) fun a _ => SAct.Keeps.seq ?_ (hreg _ _)
      intro s h
      exact hS.quiet ((convert_quiet E s (.user a.2)).trans (SAct.IsQuiet.each (fun p _ => plugin_quiet _ _ _ _ _ _) _)) h
  | exit => exact fun s h => hS.update_keeps E _ s h
  | «end» b => exact fun s h => hS.update_keeps E _ s h
  | analysis o => exact hst o
  | getLogCopy => exact fun s h => hS.quiet (getLogCopy_quiet s) h
  | finalize dir => exact SAct.Keeps.seq (hst _) fun s h => hS.saveOnly (withSaver_saveOnly E _ s) h

/-- The fields that plain operations never change. -/
def configPart (s : Sess K) := (s.save, s.saveBatch, s.opt, s.modules, s.names, s.dataId, s.mask, s.paths, s.pre, s.bwd, s.fwd)

theorem Quiet.configPart {s s' : Sess K} (h : Quiet s s') : Logix.configPart s' = Logix.configPart s := by
  have h' := congrArg Logix.configPart (show ({ s' with user := s.user, own := s.own, log := s.log, st := s.st } : Sess K) = s from h)
  exact h'

theorem SaveOnly.configPart {s s' : Sess K} (h : SaveOnly s s') : Logix.configPart s' = Logix.configPart s := by
  have h' := congrArg Logix.configPart
    (show ({ s' with saver := s.saver, buffer := s.buffer, bufferSize := s.bufferSize, fs := s.fs } : Sess K) = s from h)
  exact h'

theorem Plain.configPart [Field K] (E : SEnv K) {o : SOp K} (ho : Plain o) (s : Sess K) :
    Logix.configPart (o.run E s).1 = Logix.configPart s := by
  refine ho.keeps E (P := fun t => Logix.configPart t = Logix.configPart s) ?_ ?_ ?_ s rfl
  · exact ⟨fun h hs => (Quiet.configPart h).trans hs, fun h hs => (SaveOnly.configPart h).trans hs⟩
  · intro y fn t ht
    refine Eq.trans ?_ ht
    unfold registerTensorHook
    split
    · split <;> rfl
    · rfl
  · exact fun t c ht => ht

theorem registerAll_flags (ms : List Nat) : ∀ s : Sess K,
    (SAct.each registerModule ms s).1.save = s.save ∧ (SAct.each registerModule ms s).1.saveBatch = s.saveBatch := by
  induction ms with
  | nil => exact fun s => ⟨rfl, rfl⟩
  | cons m ms ih =>
    intro s
    have : (registerModule m s).1.save = s.save ∧ (registerModule m s).1.saveBatch = s.saveBatch := by
      unfold registerModule
      split <;> exact ⟨rfl, rfl⟩
    show ((registerModule m).seq (SAct.each registerModule ms) s).1.save = _ ∧ ((registerModule m).seq (SAct.each registerModule ms) s).1.saveBatch = _
    unfold SAct.seq
    split
    · next s' e h => rw [h] at this; exact this
    · next s' h =>
      rw [h] at this
      exact ⟨(ih s').1.trans this.1, (ih s').2.trans this.2⟩

theorem update_configPart [Semiring K] (E : SEnv K) (b : Bool) (s : Sess K) : Logix.configPart (update E b s).1 = Logix.configPart s :=
  Structural.update_keeps (P := fun t => Logix.configPart t = Logix.configPart s)
    ⟨fun h hs => (Quiet.configPart h).trans hs, fun h hs => (SaveOnly.configPart h).trans hs⟩ E b s rfl

theorem flags_step [Field K] (E : SEnv K) (s : Sess K) (o : SOp K) :
    ((o.run E s).1.save = match o with | .save e => e | .eval => false | _ => s.save) ∧
    ((o.run E s).1.saveBatch = match o with | .call _ _ e => e | _ => s.saveBatch) := by
  have hp : Plain o → (o.run E s).1.save = s.save ∧ (o.run E s).1.saveBatch = s.saveBatch := by
    intro ho
    have := ho.configPart E s
    simp only [Logix.configPart, Prod.mk.injEq] at this
    exact ⟨this.1, this.2.1⟩
  cases o with
  | alloc o => exact hp (.run (.alloc o))
  | forward m x y => exact hp (.run (.forward m x y))
  | gradAt y g => exact hp (.run (.gradAt y g))
  | backward y g => exact hp (.run (.backward y g))
  | watchActivation d => exact hp (.run (.watchActivation d))
  | call ids mask sv => exact ⟨rfl, rfl⟩
  | enter => exact registerAll_flags _ _
  | exit => exact hp .exit
  | start ids mask => exact registerAll_flags _ _
  | «end» b => exact hp (.end b)
  | log ids mask =>
    have := update_configPart E false (s.setBatch ids mask)
    simp only [Logix.configPart, Prod.mk.injEq] at this
    exact ⟨this.1, this.2.1⟩
  | save e => exact ⟨rfl, rfl⟩
  | eval => exact ⟨rfl, rfl⟩
  | setup kw => exact ⟨rfl, rfl⟩
  | watch sel =>
    show (Sess.watch sel s).1.save = s.save ∧ (Sess.watch sel s).1.saveBatch = s.saveBatch
    unfold Sess.watch
    dsimp only
    split <;> exact ⟨rfl, rfl⟩
  | analysis o => exact hp (.analysis o)
  | getLogCopy => exact hp .getLogCopy
  | finalize d => exact hp (.finalize d)
  | clear =>
    rw [show SOp.clear.run E s = Sess.clear E s from rfl]
    unfold Sess.clear SAct.seq stateOp
    cases hs : stepOp E.lib s.st .clear <;> exact ⟨rfl, rfl⟩

theorem flags_history [Field K] (E : SEnv K) (ops : List (SOp K)) : ∀ s : Sess K,
    (runHistory E ops s).save = ops.foldl (fun b o => match o with | .save e => e | .eval => false | _ => b) s.save ∧
    (runHistory E ops s).saveBatch = ops.foldl (fun b o => match o with | .call _ _ e => e | _ => b) s.saveBatch := by
  induction ops with
  | nil => exact fun s => ⟨rfl, rfl⟩
  | cons o ops ih =>
    intro s
    have h := flags_step E s o
    rw [List.foldl_cons, List.foldl_cons, runHistory]
    refine ⟨(ih _).1.trans ?_, (ih _).2.trans ?_⟩
    · rw [h.1]
    · rw [h.2]

/-- Only the statistics differ. -/
def StOnly (s s' : Sess K) : Prop := { s' with st := s.st } = s

theorem plugin_stOnly [Semiring K] (E : SEnv K) (mod : Option ModKind) (name : PyStr) (ty : LogType) (r : TRef) (p : Plugin) (hp : p ≠ .log)
    (s : Sess K) : StOnly s (plugin E mod name ty r p s).1 := by
  unfold plugin
  split
  · exact absurd rfl hp
  · split
    · rfl
    · dsimp only
      split <;> rfl

theorem StOnly.trans {a b c : Sess K} (h : StOnly a b) (h' : StOnly b c) : StOnly a c := by
  unfold StOnly at h h' ⊢
  have : ({ c with st := a.st } : Sess K) = { ({ c with st := b.st } : Sess K) with st := a.st } := rfl
  rw [this, h', h]

theorem each_stOnly {α : Type} {f : α → SAct K} {l : List α} (h : ∀ a ∈ l, ∀ s, StOnly s (f a s).1) : ∀ s, StOnly s (SAct.each f l s).1 := by
  induction l with
  | nil => exact fun s => rfl
  | cons a l ih =>
    intro s
    have h1 := h a (List.mem_cons_self ..) s
    show StOnly s ((f a).seq (SAct.each f l) s).1
    unfold SAct.seq
    split
    · next s' e h' => rw [h'] at h1; exact h1
    · next s' h' =>
      rw [h'] at h1
      exact StOnly.trans h1 (ih (fun b hb => h b (List.mem_cons_of_mem _ hb)) _)

theorem gradStats_stOnly [Semiring K] (E : SEnv K) (ps : List Plugin) (h : .log ∉ ps) (s : Sess K) : StOnly s (gradStats E ps s).1 := by
  refine each_stOnly (fun p hp s => each_stOnly (fun n _ s => ?_) s) s
  unfold gradStat
  split
  · rfl
  · exact plugin_stOnly _ _ _ _ _ _ (fun e => h (e ▸ hp)) _

/-- The plugins for gradients that `setup` can leave: `log` can only be the first. -/
theorem setup_grad_tail (o : LogOption) (kw : OptionKwargs) : .log ∉ (o.setup kw).1.grad.tail := by
  have key : ∀ req ps, (toPlugins req false).2 = .ok ps → .log ∉ ps.tail := by
    intro req ps h
    have hn : ps.Pairwise fun p q => rank p < rank q := by
      unfold toPlugins at h
      split at h
      · cases h
      · simp only [Bool.false_eq_true, if_false] at h
        cases h
        apply List.Pairwise.filter
        simp [pluginOrder, rank]
    cases ps with
    | nil => simp
    | cons p ps =>
      intro hl
      have := (List.pairwise_cons.1 hn).1 _ hl
      simp [rank] at this
  unfold LogOption.setup
  dsimp only
  split
  · simp [LogOption.clear]
  · split
    · simp [LogOption.clear]
    · split
      · simp [LogOption.clear]
      · next g hg => exact key _ g hg

theorem grad_tail_step [Field K] (E : SEnv K) (o : SOp K) : (o.run E).Keeps fun s => .log ∉ s.opt.grad.tail := by
  intro s h
  have hp : Plain o → .log ∉ (o.run E s).1.opt.grad.tail := by
    intro ho
    have := ho.configPart E s
    simp only [Logix.configPart, Prod.mk.injEq] at this
    rw [this.2.2.1]
    exact h
  have hreg : ∀ ms (s : Sess K), (SAct.each registerModule ms s).1.opt = s.opt := by
    intro ms
    induction ms with
    | nil => exact fun s => rfl
    | cons m ms ih =>
      intro s
      have : (registerModule m s).1.opt = s.opt := by
        unfold registerModule
        split <;> rfl
      show ((registerModule m).seq (SAct.each registerModule ms) s).1.opt = _
      unfold SAct.seq
      split
      · next s' e h => rw [h] at this; exact this
      · next s' h =>
        rw [h] at this
        exact (ih s').trans this
  cases o with
  | alloc o => exact hp (.run (.alloc o))
  | forward m x y => exact hp (.run (.forward m x y))
  | gradAt y g => exact hp (.run (.gradAt y g))
  | backward y g => exact hp (.run (.backward y g))
  | watchActivation d => exact hp (.run (.watchActivation d))
  | call ids mask sv => exact h
  | enter =>
    show .log ∉ (SAct.each registerModule s.clearHooks.modules s.clearHooks).1.opt.grad.tail
    rw [hreg]; exact h
  | exit => exact hp .exit
  | start ids mask =>
    show .log ∉ (SAct.each registerModule (s.setBatch ids mask).clearHooks.modules (s.setBatch ids mask).clearHooks).1.opt.grad.tail
    rw [hreg]; exact h
  | «end» b => exact hp (.end b)
  | log ids mask =>
    have := update_configPart E false (s.setBatch ids mask)
    simp only [Logix.configPart, Prod.mk.injEq] at this
    show .log ∉ (update E false (s.setBatch ids mask)).1.opt.grad.tail
    rw [this.2.2.1]
    exact h
  | save e => exact h
  | eval => exact h
  | setup kw => exact setup_grad_tail s.opt kw
  | watch sel =>
    show .log ∉ (Sess.watch sel s).1.opt.grad.tail
    unfold Sess.watch
    dsimp only
    split <;> exact h
  | analysis o => exact hp (.analysis o)
  | getLogCopy => exact hp .getLogCopy
  | finalize d => exact hp (.finalize d)
  | clear =>
    rw [show SOp.clear.run E s = Sess.clear E s from rfl]
    unfold Sess.clear SAct.seq stateOp
    cases hs : stepOp E.lib s.st .clear <;> exact h

theorem update_saved [Semiring K] (E : SEnv K) (s t : Sess K) (b : Bool) (hl : .log ∉ s.opt.grad.tail) (h : update E b s = (t, none)) :
    ∃ u, StOnly s u ∧ (if b then saveLog E u = (t, none) else u = t) := by
  rw [update_eq] at h
  obtain ⟨u, h1, h2⟩ := SAct.seq_none h
  have h3 := gradStats_stOnly E _ hl s
  rw [h1] at h3
  refine ⟨u, h3, ?_⟩
  cases b with
  | true => exact h2
  | false => simpa using h2

theorem update_unsaved [Semiring K] (E : SEnv K) (s : Sess K) (hl : .log ∉ s.opt.grad.tail) : StOnly s (update E false s).1 := by
  rw [update_eq]
  have h3 := gradStats_stOnly E _ hl s
  unfold SAct.seq
  split
  · next s' e h' => rw [h'] at h3; exact h3
  · next s' h' => rw [h'] at h3; exact h3

theorem StOnly.value [Zero K] (E : SEnv K) {s s' : Sess K} (h : StOnly s s') : s'.fs = s.fs ∧ s'.valueSaver E = s.valueSaver E ∧
    s'.readLog E = s.readLog E ∧ s'.paths = s.paths ∧ s'.dataId = s.dataId := by
  have h' : ({ s' with st := s.st } : Sess K) = s := h
  have e : s' = { s with st := s'.st } := by
    conv_rhs => rw [← h']
  rw [e]
  exact ⟨rfl, rfl, rfl, rfl, rfl⟩

theorem closes_update [Field K] (E : SEnv K) (ops : List (SOp K)) (n : Nat) (t : Int) (fs : FS) (c : SOp K) (flag : Bool)
    (hc : Closes ops c flag) : c.run E (runHistory E ops (Sess.init n t fs)) =
      update E (flag || globalSave ops) (runHistory E ops (Sess.init n t fs)) := by
  have h := flags_history E ops (Sess.init n t fs)
  cases hc with
  | exit =>
    show update E (_ || _) _ = _
    rw [h.1, h.2]
    rfl
  | «end» b =>
    show update E (flag || _) _ = _
    rw [h.1]
    rfl

/-- **C23, not requested.** After any history, if the batch was neither opened (`with`) nor ended (`end`) with `save=True` and saving is not
globally enabled, ending it changes neither the directory nor the save buffer (nor any other part of the saver), also when it raises. -/
theorem C23_not_saved [Field K] (E : SEnv K) (ops : List (SOp K)) (n : Nat) (t : Int) (fs : FS) (c : SOp K) (flag : Bool)
    (hc : Closes ops c flag) (hf : (flag || globalSave ops) = false) :
    let s := runHistory E ops (Sess.init n t fs)
    (c.run E s).1.fs = s.fs ∧ (c.run E s).1.valueSaver E = s.valueSaver E := by
  intro s
  rw [show c.run E s = _ from closes_update E ops n t fs c flag hc, hf]
  have hl := history_keeps E (grad_tail_step E) ops (Sess.init n t fs) (by simp [Sess.init, LogOption.init])
  have := (update_unsaved E _ hl).value E
  exact ⟨this.1, this.2.1⟩

/-- **C23, requested.** After any history, if the batch was opened or ended with `save=True` or saving is globally enabled, and ending it does
not raise, then the batch's data ids and log are handed to the saver: directory and saver (with the values in its buffer) change exactly
as `save_log` of the saver model does with these ids and the values of the log at that moment. -/
theorem C23_saved [Field K] (E : SEnv K) (ops : List (SOp K)) (n : Nat) (t : Int) (fs : FS) (c : SOp K) (flag : Bool)
    (hc : Closes ops c flag) (hf : (flag || globalSave ops) = true) :
    let s := runHistory E ops (Sess.init n t fs)
    ∀ s', c.run E s = (s', none) → ∃ ids, s.dataId = some ids ∧
      (s.valueSaver E).saveLog s.paths ids (s.readLog E) s.fs = (s'.fs, s'.valueSaver E, .ok ()) := by
  intro s s' h
  rw [show c.run E s = _ from closes_update E ops n t fs c flag hc, hf] at h
  have hl := history_keeps E (grad_tail_step E) ops (Sess.init n t fs) (by simp [Sess.init, LogOption.init])
  obtain ⟨u, h1, h2⟩ := update_saved E _ s' true hl h
  obtain ⟨e1, e2, e3, e4, e5⟩ := h1.value E
  rw [if_pos rfl] at h2
  cases hi : u.dataId with
  | none =>
    unfold saveLog at h2
    obtain ⟨v, hv, _⟩ := SAct.seq_none h2
    unfold bufferWrite at hv
    rw [hi] at hv
    cases hv
  | some ids =>
    refine ⟨ids, e5.symm.trans hi, ?_⟩
    have h3 := saveLog_spec E u ids hi
    rw [h2, e1, e2, e3, e4] at h3
    exact h3.symm

end Logix
