/-
C153: batches after `eval` and the statistics.
-/
import Verif.Spec.Testing
import Verif.Lemmas.InStep
import Verif.Props.MeanSquare

namespace Logix
open Spec Sess
variable {K : Type}

/-- The step leaves options and statistics alone if only logs are requested. -/
def Calm (f : SAct K) : Prop := ∀ s, LogOnly s.opt → (f s).1.st = s.st ∧ (f s).1.opt = s.opt

theorem Calm.seq {f g : SAct K} (hf : Calm f) (hg : Calm g) : Calm (f.seq g) := by
  intro s hs
  have h1 := hf s hs
  unfold SAct.seq
  rcases e : f s with ⟨s', _ | er⟩
  · rw [e] at h1
    have h2 := hg s' (by rw [h1.2]; exact hs)
    exact ⟨h2.1.trans h1.1, h2.2.trans h1.2⟩
  · rw [e] at h1
    exact h1

theorem Calm.each {α : Type} {f : α → SAct K} {l : List α} (hf : ∀ a ∈ l, Calm (f a)) : Calm (SAct.each f l) := by
  induction l with
  | nil => exact fun s _ => ⟨rfl, rfl⟩
  | cons a l ih => exact (hf a List.mem_cons_self).seq (ih fun b hb => hf b (List.mem_cons_of_mem _ hb))

/-- A step whose form depends on the state. -/
theorem Calm.of {f : SAct K} (h : ∀ s, LogOnly s.opt → ∃ g t, Calm g ∧ f s = g t ∧ t.st = s.st ∧ t.opt = s.opt) : Calm f := by
  intro s hs
  obtain ⟨g, t, h1, h2, h3, h4⟩ := h s hs
  obtain ⟨a, b⟩ := h1 t (by rw [h4]; exact hs)
  rw [h2]
  exact ⟨a.trans h3, b.trans h4⟩

variable [Field K]

omit [Field K] in
theorem opt_setVal (s : Sess K) (r : TRef) (v : Tensor K) : (s.setVal r v).st = s.st ∧ (s.setVal r v).opt = s.opt := by
  cases r <;> exact ⟨rfl, rfl⟩

omit [Field K] in
theorem opt_convert (E : SEnv K) (s : Sess K) (r : TRef) : (s.convert E r).1.st = s.st ∧ (s.convert E r).1.opt = s.opt := by
  unfold Sess.convert
  split
  · split <;> exact ⟨rfl, rfl⟩
  · exact ⟨rfl, rfl⟩

theorem opt_masked (s : Sess K) (r : TRef) : (s.masked r).1.st = s.st ∧ (s.masked r).1.opt = s.opt := by
  unfold Sess.masked
  split
  · exact ⟨rfl, rfl⟩
  · split
    · exact ⟨rfl, rfl⟩
    · split <;> exact ⟨rfl, rfl⟩

theorem calm_logUpdate (name ty : PyStr) (r : TRef) : Calm (K := K) (logUpdate name ty r) := by
  intro s _
  unfold logUpdate
  dsimp only
  split
  · exact ⟨rfl, rfl⟩
  · split
    · split
      · exact opt_setVal ..
      · exact ⟨rfl, rfl⟩
    · exact ⟨rfl, rfl⟩

theorem calm_plugins (E : SEnv K) (mod : Option ModKind) (name : PyStr) (ty : LogType) (r : TRef) {l : List Plugin} (hl : ∀ p ∈ l, p = .log) :
    Calm (SAct.each (plugin E mod name ty r) l) :=
  .each fun p hp => by rw [hl p hp]; exact calm_logUpdate name ty.name r

theorem calm_forwardHook (E : SEnv K) (mod x : Nat) (name : PyStr) : Calm (Sess.forwardHook E mod x name) := by
  intro s hs
  have h1 := opt_masked s (.user x)
  unfold Sess.forwardHook
  rcases e : s.masked (.user x) with ⟨s', er | r⟩
  · rw [e] at h1; exact h1
  · rw [e] at h1
    have h2 := opt_convert E s' r
    have h3 : (s'.convert E r).1.opt = s.opt := h2.2.trans h1.2
    have h4 := calm_plugins E (some (E.kind mod)) name .forward (s'.convert E r).2 (l := (s'.convert E r).1.opt.forward) (by rw [h3]; exact hs.1) (s'.convert E r).1
      (by rw [h3]; exact hs)
    exact ⟨h4.1.trans (h2.1.trans h1.1), h4.2.trans h3⟩

theorem calm_convert (E : SEnv K) (mod : Option ModKind) (name : PyStr) (ty : LogType) (r : TRef) (sel : LogOption → List Plugin) (hsel : ∀ o, LogOnly o → ∀ p ∈ sel o, p = .log) :
    Calm fun s => SAct.each (plugin E mod name ty (s.convert E r).2) (sel (s.convert E r).1.opt) (s.convert E r).1 := by
  intro s hs
  have h2 := opt_convert E s r
  have hs' : LogOnly (s.convert E r).1.opt := by rw [h2.2]; exact hs
  have h4 := calm_plugins E mod name ty (s.convert E r).2 (hsel _ hs') (s.convert E r).1 hs'
  exact ⟨h4.1.trans h2.1, h4.2.trans h2.2⟩

theorem calm_backwardHook (E : SEnv K) (mod g : Nat) (name : PyStr) : Calm (backwardHook E mod g name) :=
  calm_convert E _ name .backward (.user g) LogOption.backward fun _ h => h.2.1

theorem calm_tensorBackwardHook (E : SEnv K) (g : Nat) (name : PyStr) : Calm (tensorBackwardHook E g name) :=
  calm_convert E none name .backward (.user g) LogOption.backward fun _ h => h.2.1

theorem calm_gradBackwardHook (E : SEnv K) (mod x g : Nat) (name : PyStr) : Calm (gradBackwardHook E mod x g name) := by
  intro s hs
  unfold gradBackwardHook
  split
  · exact ⟨rfl, rfl⟩
  · exact ⟨rfl, rfl⟩
  · split
    · next a b _ _ =>
      split
      · exact ⟨rfl, rfl⟩
      · next v _ =>
        exact calm_convert E (some (E.kind mod)) name .grad (s.alloc ⟨v, b.dtype, false, true⟩).2 (fun o => o.grad.take 1) (fun _ h p hp => h.2.2 p (List.mem_of_mem_take hp))
          (s.alloc ⟨v, b.dtype, false, true⟩).1 hs
    · exact ⟨rfl, rfl⟩

omit [Field K] in
theorem calm_registerTensorHook (y : Nat) (fn : HookFn) : Calm (K := K) (registerTensorHook y fn) := by
  intro s _
  unfold registerTensorHook
  split
  · split <;> exact ⟨rfl, rfl⟩
  · exact ⟨rfl, rfl⟩

theorem calm_forward (E : SEnv K) (mod x y : Nat) : Calm (Sess.forward E mod x y) := by
  intro s hs
  unfold Sess.forward
  split
  · exact ⟨rfl, rfl⟩
  · exact (Calm.seq (.each fun h _ => calm_forwardHook E mod x h.name) (Calm.seq (fun s _ => ⟨rfl, rfl⟩)
      (fun s hs => Calm.each (fun h _ => calm_registerTensorHook y _) s hs))) s hs

theorem calm_gradAt (E : SEnv K) (y g : Nat) : Calm (Sess.gradAt E y g) := fun s hs =>
  Calm.each (fun h _ => by
    split
    · exact calm_gradBackwardHook _ _ _ _ _
    · exact calm_tensorBackwardHook _ _ _) s hs

theorem calm_backward (E : SEnv K) (y g : Nat) : Calm (Sess.backward E y g) := fun s hs =>
  Calm.each (fun c _ => .each fun name _ => calm_backwardHook E c.mod g name) s hs

theorem calm_watchActivation (E : SEnv K) (d : List (PyStr × Nat)) : Calm (Sess.watchActivation E d) :=
  .each fun a _ => .seq (calm_convert E none a.1 .forward (.user a.2) LogOption.forward fun _ h => h.1) (calm_registerTensorHook _ _)

omit [Field K] in
theorem calm_register : Calm (K := K) registerAllModuleHooks := fun s hs =>
  Calm.each (fun m _ s _ => by
    unfold registerModule
    split <;> exact ⟨rfl, rfl⟩) s hs

theorem calm_saveLog (E : SEnv K) : Calm (saveLog E) := by
  refine .seq (fun s hs => ?_) (fun s _ => ⟨rfl, rfl⟩)
  unfold bufferWrite
  split
  · exact ⟨rfl, rfl⟩
  · next ids _ =>
    have : ∀ (ids : List PyStr) (n : Nat), Calm (K := K) (bufferWriteFrom n ids) := by
      intro ids
      induction ids with
      | nil => exact fun n s _ => ⟨rfl, rfl⟩
      | cons a l ih =>
        intro n s hs
        simp only [bufferWriteFrom]
        split
        · exact ⟨rfl, rfl⟩
        · exact ih (n + 1) _ hs
    exact this ids 0 s hs

theorem calm_update (E : SEnv K) (sv : Bool) : Calm (update E sv) := by
  intro s hs
  unfold update
  refine Calm.seq (.each fun p hp s hs' => Calm.each (fun name _ => ?_) s hs') ?_ s hs
  · intro s _
    unfold gradStat
    split
    · exact ⟨rfl, rfl⟩
    · rw [hs.2.2 p (List.mem_of_mem_tail hp)]
      exact calm_logUpdate _ _ _ s ‹_›
  · cases sv
    · exact fun s _ => ⟨rfl, rfl⟩
    · exact calm_saveLog E

theorem calm_testing (E : SEnv K) {o : SOp K} (ho : Testing o) : Calm (o.run E) := by
  cases o with
  | alloc o => exact fun s _ => ⟨rfl, rfl⟩
  | forward mod x y => exact calm_forward _ _ _ _
  | gradAt y g => exact calm_gradAt _ _ _
  | backward y g => exact calm_backward _ _ _
  | watchActivation d => exact calm_watchActivation _ _
  | call ids mask sv => exact fun s _ => ⟨rfl, rfl⟩
  | enter => exact fun s hs => calm_register s.clearHooks hs
  | exit => exact fun s hs => calm_update E _ s hs
  | start ids mask => exact fun s hs => calm_register (s.setBatch ids mask).clearHooks hs
  | «end» sv => exact fun s hs => calm_update E _ s hs
  | log ids mask => exact fun s hs => calm_update E false (s.setBatch ids mask) hs
  | save b => exact fun s _ => ⟨rfl, rfl⟩
  | eval => exact fun s _ => ⟨rfl, rfl⟩
  | setup kw => exact ho.elim
  | watch sel =>
    intro s _
    simp only [SOp.run, Sess.watch]
    split <;> exact ⟨rfl, rfl⟩
  | analysis o => exact ho.elim
  | getLogCopy => exact fun s _ => ⟨(shell_getLogCopy s).2, congrArg Shell.opt (shell_getLogCopy s).1⟩
  | finalize dir => exact ho.elim
  | clear => exact ho.elim

/-- **C153, partial.** When only logs are requested, processing test data does not change the statistics, also when exceptions are raised on the way. -/
theorem C153_log_only_partial (E : SEnv K) (s : Sess K) (hs : LogOnly s.opt) (body : List (SOp K)) (hb : ∀ o ∈ body, Testing o) : (runHistory E body s).st = s.st := by
  induction body generalizing s with
  | nil => rfl
  | cons o l ih =>
    have h := calm_testing E (hb o List.mem_cons_self) s hs
    exact (ih _ (by rw [h.2]; exact hs) fun o' ho' => hb o' (List.mem_cons_of_mem _ ho')).trans h.1

/-- **C153, partial.** In every state: after `setup({"grad": ["log"]})`, with or without `eval`, the program can process any test data, and all scores are those of before. -/
theorem C153_setup_partial (E : SEnv K) (s : Sess K) (body : List (SOp K)) (hb : ∀ o ∈ body, Testing o) :
    (runHistory E (.setup { grad := some [.name ['l', 'o', 'g']] } :: body) s).st = s.st ∧
    ∀ ids d hessian c, computeSelf E.lib (runHistory E (.setup { grad := some [.name ['l', 'o', 'g']] } :: body) s).st ids (.dict d) true hessian none c =
      computeSelf E.lib s.st ids (.dict d) true hessian none c := by
  have h : (runHistory E (.setup { grad := some [.name ['l', 'o', 'g']] } :: body) s).st = s.st :=
    (C153_log_only_partial E _ (by
      refine ⟨fun p hp => ?_, fun p hp => ?_, fun p hp => ?_⟩
      · exact absurd hp (by change p ∉ ([] : List Plugin); simp)
      · exact absurd hp (by change p ∉ ([] : List Plugin); simp)
      · change p ∈ [Plugin.log] at hp; exact List.mem_singleton.1 hp) body hb).trans rfl
  exact ⟨h, fun ids d hessian c => by rw [h]⟩

namespace ExSess

/-- One test batch, after `eval`. -/
def testBatch : List (SOp Rat) :=
  [.eval, .call [i2] none false, .enter, .alloc (inp 2), .alloc (out 6), .alloc (inp 5), .forward 0 8 9, .gradAt 9 10, .backward 9 10, .exit]

theorem testBatch_ok : ∀ o ∈ testBatch, Testing o := by
  simp only [testBatch, List.mem_cons, List.not_mem_nil, or_false, forall_eq_or_imp, forall_eq]
  simp [Testing]

/-- The self-influence of the first sample. -/
def selfAt (x : Py (LState Rat × SelfResult Rat)) : Option Rat :=
  match x with
  | .ok (_, r) => (r.influence.get? ['t', 'o', 't', 'a', 'l']).map fun t => t.el [0]
  | _ => none

/-- **C153 is false for the code.** After a finalized program, `eval` and one test batch change the scores of the same gradients: the covariances are still updated. -/
theorem C153_refuted : ¬ ∀ (E : SEnv Rat) (s : Sess Rat) (body : List (SOp Rat)), (∀ o ∈ body, Testing o) → ∀ ids d c,
    selfAt (computeSelf E.lib (runHistory E (.eval :: body) s).st ids (.dict d) true .auto none (some c)) =
      selfAt (computeSelf E.lib s.st ids (.dict d) true .auto none (some c)) := by
  intro H
  have h := H EI tInf.1 testBatch testBatch_ok [['x'], ['y']] dBoth 1
  have h1 : selfAt (computeSelf EI.lib (runHistory EI (.eval :: testBatch) tInf.1).st [['x'], ['y']] (.dict dBoth) true .auto none (some 1)) = some (961 / 802) := by decide +kernel
  have h2 : selfAt (computeSelf EI.lib tInf.1.st [['x'], ['y']] (.dict dBoth) true .auto none (some 1)) = some (961 / 702) := by decide +kernel
  rw [h1, h2] at h
  exact absurd h (by decide +kernel)

/-- With `setup({"grad": ["log"]})` the same test batch is logged, and the scores stay. -/
example : ∃ t, t = runHistory EI (.setup { grad := some [.name ['l', 'o', 'g']] } :: testBatch) tInf.1 ∧ Dict.keys t.log = [na] ∧ t.st = tInf.1.st ∧
    selfAt (computeSelf EI.lib t.st [['x'], ['y']] (.dict dBoth) true .auto none (some 1)) = some (961 / 702) := by
  refine ⟨_, rfl, by decide +kernel, (C153_setup_partial EI tInf.1 testBatch testBatch_ok).1, ?_⟩
  rw [(C153_setup_partial EI tInf.1 testBatch testBatch_ok).2]
  decide +kernel

end ExSess
end Logix
