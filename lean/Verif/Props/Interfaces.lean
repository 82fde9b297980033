/-
C154: `start`/`end` and the `with` statement.
-/
import Verif.Spec.Interfaces
import Verif.Props.SessionInfluenceExample

namespace Logix
open Spec Sess
variable {K : Type}

/-- The step neither reads nor writes the flag. -/
def Blind (f : SAct K) : Prop := ∀ s b, f (flagged s b) = (flagged (f s).1 b, (f s).2)

theorem Blind.seq {f g : SAct K} (hf : Blind f) (hg : Blind g) : Blind (f.seq g) := by
  intro s b
  unfold SAct.seq
  rw [hf s b]
  rcases f s with ⟨s', _ | e⟩
  · exact hg s' b
  · rfl

theorem Blind.each {α : Type} {f : α → SAct K} {l : List α} (hf : ∀ a ∈ l, Blind (f a)) : Blind (SAct.each f l) := by
  induction l with
  | nil => exact fun s b => rfl
  | cons a l ih => exact (hf a List.mem_cons_self).seq (ih fun b hb => hf b (List.mem_cons_of_mem _ hb))

theorem flagged_obj (s : Sess K) (b : Bool) (r : TRef) : (flagged s b).obj r = s.obj r := by cases r <;> rfl

theorem flagged_setVal (s : Sess K) (b : Bool) (r : TRef) (v : Tensor K) : (flagged s b).setVal r v = flagged (s.setVal r v) b := by cases r <;> rfl

theorem flagged_convert (E : SEnv K) (s : Sess K) (b : Bool) (r : TRef) : (flagged s b).convert E r = (flagged (s.convert E r).1 b, (s.convert E r).2) := by
  unfold Sess.convert
  rw [flagged_obj]
  split
  · split <;> rfl
  · rfl

variable [Field K]

theorem flagged_masked (s : Sess K) (b : Bool) (r : TRef) : (flagged s b).masked r = (flagged (s.masked r).1 b, (s.masked r).2) := by
  unfold Sess.masked
  rw [flagged_obj, show (flagged s b).mask = s.mask from rfl]
  cases s.obj r with
  | none => rfl
  | some o =>
    dsimp only
    cases maskActivations s.mask o.val with
    | error e => rfl
    | ok v =>
      dsimp only
      cases maskApplies s.mask o.val <;> rfl

theorem blind_logUpdate (name ty : PyStr) (r : TRef) : Blind (K := K) (logUpdate name ty r) := by
  intro s b
  unfold logUpdate
  simp only [flagged_obj, flagged_setVal, show (flagged s b).log = s.log from rfl]
  split
  · rfl
  · split
    · split <;> rfl
    · rfl

theorem blind_plugin (E : SEnv K) (mod : Option ModKind) (name : PyStr) (ty : LogType) (r : TRef) (p : Plugin) : Blind (plugin E mod name ty r p) := by
  intro s b
  have h := blind_logUpdate name ty.name r s b
  cases p with
  | log => exact h
  | _ =>
    simp only [plugin, flagged_obj, show (flagged s b).mask = s.mask from rfl, show (flagged s b).st = s.st from rfl]
    split
    · rfl
    · split <;> rfl

theorem blind_convert (E : SEnv K) (mod : Option ModKind) (name : PyStr) (ty : LogType) (r : TRef) (sel : LogOption → List Plugin) :
    Blind fun s => SAct.each (plugin E mod name ty (s.convert E r).2) (sel (s.convert E r).1.opt) (s.convert E r).1 := by
  intro s b
  simp only [flagged_convert, show ∀ (u : Sess K), (flagged u b).opt = u.opt from fun _ => rfl]
  exact Blind.each (fun p _ => blind_plugin E mod name ty _ p) _ b

theorem blind_forwardHook (E : SEnv K) (mod x : Nat) (name : PyStr) : Blind (Sess.forwardHook E mod x name) := by
  intro s b
  unfold Sess.forwardHook
  rw [flagged_masked]
  rcases s.masked (.user x) with ⟨s', er | r⟩
  · rfl
  · exact blind_convert E (some (E.kind mod)) name .forward r LogOption.forward s' b

theorem blind_backwardHook (E : SEnv K) (mod g : Nat) (name : PyStr) : Blind (backwardHook E mod g name) :=
  blind_convert E _ name .backward (.user g) LogOption.backward

theorem blind_tensorBackwardHook (E : SEnv K) (g : Nat) (name : PyStr) : Blind (tensorBackwardHook E g name) :=
  blind_convert E none name .backward (.user g) LogOption.backward

theorem blind_gradBackwardHook (E : SEnv K) (mod x g : Nat) (name : PyStr) : Blind (gradBackwardHook E mod x g name) := by
  intro s b
  unfold gradBackwardHook
  simp only [flagged_obj, show (flagged s b).opt = s.opt from rfl]
  split
  · rfl
  · rfl
  · split
    · next a c _ _ =>
      split
      · rfl
      · next v _ =>
        exact blind_convert E (some (E.kind mod)) name .grad (s.alloc ⟨v, c.dtype, false, true⟩).2 (fun o => o.grad.take 1) (s.alloc ⟨v, c.dtype, false, true⟩).1 b
    · rfl

omit [Field K] in
theorem blind_registerTensorHook (y : Nat) (fn : HookFn) : Blind (K := K) (registerTensorHook y fn) := by
  intro s b
  unfold registerTensorHook
  rw [flagged_obj]
  split
  · split <;> rfl
  · rfl

theorem blind_forward (E : SEnv K) (mod x y : Nat) : Blind (Sess.forward E mod x y) := by
  intro s b
  unfold Sess.forward
  simp only [show (flagged s b).user = s.user from rfl, show (flagged s b).bwd = s.bwd from rfl, show (flagged s b).pre = s.pre from rfl]
  split
  · rfl
  · have h1 : Blind (SAct.each (fun h : ModHook => Sess.forwardHook E mod x h.name) (s.pre.filter fun h => h.mod = mod)) := .each fun h _ => blind_forwardHook E mod x h.name
    have h2 : Blind (fun u : Sess K => ({ u with calls := u.calls ++ [⟨y, mod, (List.filter (fun h => decide (h.mod = mod)) s.bwd).map ModHook.name⟩] }, none)) := fun s b => rfl
    have h3 : Blind (fun s : Sess K => SAct.each (fun h : ModHook => gradHook mod x y h.name) (s.fwd.filter fun h => h.mod = mod) s) :=
      fun s b => Blind.each (fun h _ => blind_registerTensorHook y _) s b
    exact (h1.seq (h2.seq h3)) s b

theorem blind_gradAt (E : SEnv K) (y g : Nat) : Blind (Sess.gradAt E y g) := fun s b =>
  Blind.each (fun h _ => by
    split
    · exact blind_gradBackwardHook _ _ _ _ _
    · exact blind_tensorBackwardHook _ _ _) s b

theorem blind_backward (E : SEnv K) (y g : Nat) : Blind (Sess.backward E y g) := fun s b =>
  Blind.each (fun c _ => .each fun name _ => blind_backwardHook E c.mod g name) s b

theorem blind_watchActivation (E : SEnv K) (d : List (PyStr × Nat)) : Blind (Sess.watchActivation E d) :=
  .each fun a _ => .seq (blind_convert E none a.1 .forward (.user a.2) LogOption.forward) (blind_registerTensorHook _ _)

omit [Field K] in
theorem blind_register : Blind (K := K) registerAllModuleHooks := fun s b =>
  Blind.each (fun m _ s b => by
    unfold registerModule
    simp only [show (flagged s b).names = s.names from rfl]
    split <;> rfl) s b

theorem flagged_bufferVal (s : Sess K) (b : Bool) (r : TRef) (i : Nat) : (flagged s b).bufferVal r i = s.bufferVal r i := by
  unfold bufferVal
  rw [flagged_obj]

theorem flagged_addTypes (s : Sess K) (b : Bool) (i : Nat) (l : List (PyStr × TRef)) (x) : addTypes (flagged s b) i l x = addTypes s i l x := by
  induction l generalizing x with
  | nil => rfl
  | cons a l ih => simp only [addTypes, flagged_bufferVal, ih]

theorem flagged_addModules (s : Sess K) (b : Bool) (i : Nat) (l : List (PyStr × Dict PyStr TRef)) (x) : addModules (flagged s b) i l x = addModules s i l x := by
  induction l generalizing x with
  | nil => rfl
  | cons a l ih => simp only [addModules, flagged_addTypes, ih]

theorem flagged_valueSaver (E : SEnv K) (s : Sess K) (b : Bool) : (flagged s b).valueSaver E = s.valueSaver E := by
  have h : ∀ v, (flagged s b).readVal E v = s.readVal E v := fun v => by
    cases v with
    | copy d t => rfl
    | view r i => simp only [readVal, flagged_obj]
  unfold valueSaver readBuffer
  simp only [h]
  rfl

theorem blind_withSaver (E : SEnv K) (f : List Path → FS → Saver → FS × Saver × Py Unit) : Blind (withSaver E f) := by
  intro s b
  unfold withSaver
  rw [flagged_valueSaver]
  rfl

theorem blind_saveLog (E : SEnv K) : Blind (saveLog E) := by
  refine .seq (fun s b => ?_) (blind_withSaver E _)
  unfold bufferWrite
  simp only [show (flagged s b).dataId = s.dataId from rfl]
  split
  · rfl
  · next ids _ =>
    have : ∀ (ids : List PyStr) (n : Nat), Blind (K := K) (bufferWriteFrom n ids) := by
      intro ids
      induction ids with
      | nil => exact fun n s b => rfl
      | cons a l ih =>
        intro n s b
        simp only [bufferWriteFrom, flagged_addModules, show (flagged s b).log = s.log from rfl, show (flagged s b).buffer = s.buffer from rfl,
          show (flagged s b).bufferSize = s.bufferSize from rfl]
        split
        · rfl
        · exact ih (n + 1) { s with
            buffer := Dict.set s.buffer a (addModules s n s.log ((Dict.get? s.buffer a).getD [], s.bufferSize)).1.1
            bufferSize := (addModules s n s.log ((Dict.get? s.buffer a).getD [], s.bufferSize)).1.2 } b
    exact this ids 0 s b

theorem blind_update (E : SEnv K) (sv : Bool) : Blind (update E sv) := by
  have h1 : ∀ p name, Blind (gradStat E p name) := by
    intro p name s b
    unfold gradStat
    simp only [show (flagged s b).log = s.log from rfl]
    split
    · rfl
    · exact blind_plugin E _ _ _ _ _ s b
  have h2 : ∀ p, Blind (fun s => SAct.each (gradStat E p) (Dict.keys s.log) s) := fun p s b => Blind.each (f := gradStat E p) (fun name _ => h1 p name) s b
  have h3 : Blind (if sv then saveLog E else fun s => (s, none)) := by
    cases sv
    · exact fun s b => rfl
    · exact blind_saveLog E
  intro s b
  exact (Blind.seq (Blind.each (l := s.opt.grad.tail) fun p _ => h2 p) h3) s b

theorem blind_stateOp (E : SEnv K) (o : StateOp K) : Blind (stateOp E o) := by
  intro s b
  unfold stateOp
  simp only [show (flagged s b).st = s.st from rfl]
  split <;> rfl

omit [Field K] in
theorem flagged_copyTypes (s₀ : Sess K) (b : Bool) (l : List (PyStr × TRef)) (s : Sess K) :
    copyTypes (flagged s₀ b) l (flagged s b) = (flagged (copyTypes s₀ l s).1 b, (copyTypes s₀ l s).2) := by
  induction l generalizing s with
  | nil => rfl
  | cons a l ih =>
    have h : copyTensor (flagged s₀ b) (flagged s b) a.2 = (flagged (copyTensor s₀ s a.2).1 b, (copyTensor s₀ s a.2).2) := by
      unfold copyTensor
      rw [flagged_obj]
      split
      · split <;> rfl
      · rfl
    simp only [copyTypes, h]
    rcases copyTensor s₀ s a.2 with ⟨u, e | r⟩
    · rfl
    · simp only [ih]
      rcases copyTypes s₀ l u with ⟨v, e | r⟩ <;> rfl

omit [Field K] in
theorem flagged_copyLog (s₀ : Sess K) (b : Bool) (l : List (PyStr × Dict PyStr TRef)) (s : Sess K) :
    copyLog (flagged s₀ b) l (flagged s b) = (flagged (copyLog s₀ l s).1 b, (copyLog s₀ l s).2) := by
  induction l generalizing s with
  | nil => rfl
  | cons a l ih =>
    simp only [copyLog, flagged_copyTypes]
    rcases copyTypes s₀ a.2 s with ⟨u, e | r⟩
    · rfl
    · simp only [ih]
      rcases copyLog s₀ l u with ⟨v, e | r⟩ <;> rfl

theorem blind_inside (E : SEnv K) {o : SOp K} (ho : InContext o) : Blind (o.run E) := by
  cases o with
  | alloc o => exact fun s b => rfl
  | forward mod x y => exact blind_forward _ _ _ _
  | gradAt y g => exact blind_gradAt _ _ _
  | backward y g => exact blind_backward _ _ _
  | watchActivation d => exact blind_watchActivation _ _
  | call ids mask sv => exact ho.elim
  | enter => exact fun s b => blind_register s.clearHooks b
  | exit => exact ho.elim
  | start ids mask => exact fun s b => blind_register (s.setBatch ids mask).clearHooks b
  | «end» sv => exact fun s b => blind_update E _ s b
  | log ids mask => exact fun s b => blind_update E false (s.setBatch ids mask) b
  | save v => exact fun s b => rfl
  | eval => exact fun s b => rfl
  | setup kw => exact fun s b => rfl
  | watch sel =>
    intro s b
    simp only [SOp.run, Sess.watch, show (flagged s b).names = s.names from rfl]
    split <;> rfl
  | analysis o => exact blind_stateOp E o
  | getLogCopy =>
    intro s b
    have h : (flagged s b).getLogCopy = (flagged s.getLogCopy.1 b, s.getLogCopy.2) := by
      unfold Sess.getLogCopy
      rw [show (flagged s b).log = s.log from rfl, flagged_copyLog]
      rcases copyLog s s.log s with ⟨v, e | r⟩ <;> rfl
    simp only [SOp.run, h]
  | finalize dir => exact .seq (blind_stateOp E _) (blind_withSaver E _)
  | clear => exact .seq (blind_stateOp E _) fun s b => rfl

theorem blind_history (E : SEnv K) {body : List (SOp K)} (hb : ∀ o ∈ body, InContext o) (s : Sess K) (b : Bool) :
    runHistory E body (flagged s b) = flagged (runHistory E body s) b := by
  induction body generalizing s with
  | nil => rfl
  | cons o l ih =>
    simp only [runHistory, blind_inside E (hb o List.mem_cons_self) s b]
    exact ih (fun o' h => hb o' (List.mem_cons_of_mem _ h)) _

omit [Field K] in
theorem each_append_run {α : Type} (f : α → SAct K) (l l' : List α) (s : Sess K) : SAct.each f (l ++ l') s = (SAct.each f l).seq (SAct.each f l') s := by
  induction l generalizing s with
  | nil => rfl
  | cons a l ih =>
    simp only [List.cons_append, SAct.each, SAct.seq]
    rcases f a s with ⟨s', _ | e⟩
    · simp only [ih, SAct.seq]
    · rfl

theorem runHistory_append' (E : SEnv K) (l l' : List (SOp K)) (s : Sess K) : runHistory E (l ++ l') s = runHistory E l' (runHistory E l s) := by
  induction l generalizing s with
  | nil => rfl
  | cons o l ih => exact ih _

/-- The two sequences of operations, up to the first exception. -/
theorem with_start_end (E : SEnv K) (s : Sess K) (ids : List PyStr) (mask : Option (Tensor K)) (sv : Bool) (body : List (SOp K)) (hb : ∀ o ∈ body, InContext o) :
    SAct.each (SOp.run E) ([.call ids mask sv, .enter] ++ body ++ [.exit]) s =
      (flagged (SAct.each (SOp.run E) ([.start ids mask] ++ body ++ [.end sv]) s).1 sv, (SAct.each (SOp.run E) ([.start ids mask] ++ body ++ [.end sv]) s).2) := by
  have hlast : ∀ u : Sess K, Sess.exit E (flagged u sv) = (flagged (Sess.end E sv u).1 sv, (Sess.end E sv u).2) := fun u => blind_update E (sv || u.save) u sv
  have hbody : Blind (SAct.each (SOp.run E) body) := .each fun o ho => blind_inside E (hb o ho)
  have h1 : SAct.each (SOp.run E) [.call ids mask sv, .enter] s = (flagged (SAct.each (SOp.run E) [.start ids mask] s).1 sv, (SAct.each (SOp.run E) [.start ids mask] s).2) := by
    have e := blind_register (s.setBatch ids mask).clearHooks sv
    simp only [SAct.each, SAct.seq, SOp.run, Sess.call, Sess.enter, Sess.start]
    change (match registerAllModuleHooks (flagged (s.setBatch ids mask).clearHooks sv) with
      | (s', some e) => (s', some e)
      | (s', none) => (s', none)) = _
    rw [e]
    rcases registerAllModuleHooks (s.setBatch ids mask).clearHooks with ⟨u, _ | er⟩ <;> rfl
  rw [each_append_run, each_append_run]
  unfold SAct.seq
  rw [each_append_run, each_append_run]
  unfold SAct.seq
  rw [h1]
  rcases SAct.each (SOp.run E) [.start ids mask] s with ⟨u, _ | er⟩
  · dsimp only
    rw [hbody u sv]
    rcases SAct.each (SOp.run E) body u with ⟨v, _ | er⟩
    · simp only [SAct.each, SAct.seq, SOp.run, hlast]
      rcases Sess.end E sv v with ⟨w, _ | er⟩ <;> rfl
    · rfl
  · rfl

/-- **C154.** In every state, `start(ids, mask)`, any operations, `end(save)` and `with run(ids, mask, save): ...` with the same operations have the same effect: one runs without
exception exactly when the other does, and the session is the same afterwards (logs, statistics, buffer, files, hooks, options), except for the flag of the last
`run(..., save=...)`. -/
theorem C154_same (E : SEnv K) (s : Sess K) (ids : List PyStr) (mask : Option (Tensor K)) (sv : Bool) (body : List (SOp K)) (hb : ∀ o ∈ body, InContext o) (t' : Sess K) :
    SAct.each (SOp.run E) ([.call ids mask sv, .enter] ++ body ++ [.exit]) s = (t', none) ↔
      ∃ t, SAct.each (SOp.run E) ([.start ids mask] ++ body ++ [.end sv]) s = (t, none) ∧ t' = flagged t sv := by
  rw [with_start_end E s ids mask sv body hb]
  generalize SAct.each (SOp.run E) ([.start ids mask] ++ body ++ [.end sv]) s = r
  obtain ⟨t, o⟩ := r
  simp only [Prod.mk.injEq]
  constructor
  · rintro ⟨rfl, rfl⟩
    exact ⟨t, ⟨rfl, rfl⟩, rfl⟩
  · rintro ⟨t, ⟨rfl, rfl⟩, rfl⟩
    exact ⟨rfl, rfl⟩

/-- **C154**, when operations raise: the `with` statement calls `__exit__` all the same, like `end` in a `finally` block. The operations are those that were executed. -/
theorem C154_history (E : SEnv K) (s : Sess K) (ids : List PyStr) (mask : Option (Tensor K)) (sv : Bool) (body : List (SOp K)) (hb : ∀ o ∈ body, InContext o) :
    runHistory E ([.call ids mask sv, .enter] ++ body ++ [.exit]) s = flagged (runHistory E ([.start ids mask] ++ body ++ [.end sv]) s) sv := by
  have h1 : runHistory E [.call ids mask sv, .enter] s = flagged (runHistory E [.start ids mask] s) sv := by
    simp only [runHistory, SOp.run, Sess.call, Sess.enter, Sess.start]
    have e := blind_register (s.setBatch ids mask).clearHooks sv
    change (registerAllModuleHooks (flagged (s.setBatch ids mask).clearHooks sv)).1 = _
    rw [e]
  have h2 : ∀ u : Sess K, runHistory E [.exit] (flagged u sv) = flagged (runHistory E [.end sv] u) sv := by
    intro u
    simp only [runHistory, SOp.run, Sess.exit, Sess.end]
    have e := blind_update E (sv || u.save) u sv
    change (update E (sv || u.save) (flagged u sv)).1 = _
    rw [e]
  rw [runHistory_append' E (_ ++ body), runHistory_append' E _ body, runHistory_append' E (_ ++ body), runHistory_append' E _ body, h1, blind_history E hb, h2]

namespace ExSess

/-- The batch of a test, saved. -/
def oneCall : List (SOp Rat) := [.alloc (inp 2), .alloc (out 6), .alloc (inp 5), .forward 0 8 9, .gradAt 9 10, .backward 9 10]

/-- The hypotheses of C154 are met: in both ways the batch is logged and waits in the save buffer. -/
example : (∀ o ∈ oneCall, InContext o) ∧
    (runHistory EI ([.call [i2] none true, .enter] ++ oneCall ++ [.exit]) tInf.1).bufferSize = 1 ∧
    (runHistory EI ([.start [i2] none] ++ oneCall ++ [.end true]) tInf.1).bufferSize = 1 := by
  refine ⟨?_, by decide +kernel, by decide +kernel⟩
  simp only [oneCall, List.mem_cons, List.not_mem_nil, or_false, forall_eq_or_imp, forall_eq]
  simp [InContext]

end ExSess
end Logix
