/-
C19, C23: hooks do not pile up; a batch is saved exactly when it was asked for.
-/
import Verif.Spec.Session
import Verif.Lemmas.SessionSave
import Verif.Props.Option

namespace Logix
open Spec Sess
variable {K : Type}

/-! ### C19 -/

theorem registerAll_modules (ms : List Nat) : ∀ s : Sess K, (∀ m ∈ ms, (Dict.get? s.names m).isSome) →
    ∃ s', SAct.each registerModule ms s = (s', none) ∧ (∀ m, hooksOn s'.pre m = hooksOn s.pre m + ms.count m) ∧
      (∀ m, hooksOn s'.bwd m = hooksOn s.bwd m + ms.count m) ∧ (∀ m, hooksOn s'.fwd m = hooksOn s.fwd m + ms.count m) ∧
      s'.tens = s.tens ∧ s'.modules = s.modules ∧ s'.names = s.names := by
  induction ms with
  | nil => exact fun s _ => ⟨s, rfl, fun _ => rfl, fun _ => rfl, fun _ => rfl, rfl, rfl, rfl⟩
  | cons a ms ih =>
    intro s hn
    obtain ⟨name, ha⟩ := Option.isSome_iff_exists.1 (hn a (List.mem_cons_self ..))
    have h1 : registerModule a s = ({ s with
        nextId := s.nextId + 3
        pre := s.pre ++ [⟨s.nextId, a, name⟩]
        bwd := s.bwd ++ [⟨s.nextId + 1, a, name⟩]
        fwd := s.fwd ++ [⟨s.nextId + 2, a, name⟩]
        hPre := s.hPre ++ [s.nextId]
        hBwd := s.hBwd ++ [s.nextId + 1]
        hFwd := s.hFwd ++ [s.nextId + 2] }, none) := by unfold registerModule; rw [ha]
    obtain ⟨s', h2, hp, hb, hf, ht, hm, hnm⟩ := ih { s with
        nextId := s.nextId + 3
        pre := s.pre ++ [⟨s.nextId, a, name⟩]
        bwd := s.bwd ++ [⟨s.nextId + 1, a, name⟩]
        fwd := s.fwd ++ [⟨s.nextId + 2, a, name⟩]
        hPre := s.hPre ++ [s.nextId]
        hBwd := s.hBwd ++ [s.nextId + 1]
        hFwd := s.hFwd ++ [s.nextId + 2] } fun m hm => hn m (List.mem_cons_of_mem _ hm)
    refine ⟨s', (SAct.seq_eq h1).trans h2, fun m => ?_, fun m => ?_, fun m => ?_, ht, hm, hnm⟩
    · rw [hp]
      by_cases h : a = m
      · simp [hooksOn, List.countP_append, h]; omega
      · simp [hooksOn, List.countP_append, h]
    · rw [hb]
      by_cases h : a = m
      · simp [hooksOn, List.countP_append, h]; omega
      · simp [hooksOn, List.countP_append, h]
    · rw [hf]
      by_cases h : a = m
      · simp [hooksOn, List.countP_append, h]; omega
      · simp [hooksOn, List.countP_append, h]

/-- Opening a batch gives every watched module exactly its hooks, whatever hooks there were before. -/
theorem opens_hooks [Field K] (E : SEnv K) (s : Sess K) (h : Handles s) (b : SOp K) (hb : Opens b) :
    ∃ s', b.run E s = (s', none) ∧ (∀ m, hooksOn s'.pre m = s.modules.count m) ∧ (∀ m, hooksOn s'.bwd m = s.modules.count m) ∧
      (∀ m, hooksOn s'.fwd m = s.modules.count m) ∧ s'.tens = [] := by
  have main : ∀ s : Sess K, Handles s → ∃ s', registerAllModuleHooks s.clearHooks = (s', none) ∧
      (∀ m, hooksOn s'.pre m = s.modules.count m) ∧ (∀ m, hooksOn s'.bwd m = s.modules.count m) ∧
      (∀ m, hooksOn s'.fwd m = s.modules.count m) ∧ s'.tens = [] := by
    intro s h
    obtain ⟨h1, hp, hb, hf, ht⟩ := clearHooks_handles h
    obtain ⟨s', e1, e2, e3, e4, e5, _⟩ := registerAll_modules s.clearHooks.modules s.clearHooks h1.named
    refine ⟨s', e1, fun m => ?_, fun m => ?_, fun m => ?_, e5.trans ht⟩
    · rw [e2, hp]; simp [hooksOn]; rfl
    · rw [e3, hb]; simp [hooksOn]; rfl
    · rw [e4, hf]; simp [hooksOn]; rfl
  cases hb with
  | enter => exact main s h
  | start ids mask => exact main (s.setBatch ids mask) (h.congr rfl)

theorem registerTensorHook_modules (y : Nat) (fn : HookFn) (s : Sess K) :
    (registerTensorHook y fn s).1.modules = s.modules ∧ (registerTensorHook y fn s).1.pre = s.pre ∧
    (registerTensorHook y fn s).1.bwd = s.bwd ∧ (registerTensorHook y fn s).1.fwd = s.fwd := by
  unfold registerTensorHook
  split
  · split <;> exact ⟨rfl, rfl, rfl, rfl⟩
  · exact ⟨rfl, rfl, rfl, rfl⟩

/-- The watched modules and the hooks on modules. -/
def modulePart (s : Sess K) := (s.modules, s.pre, s.bwd, s.fwd)

theorem modulePart_structural (v : List Nat × List ModHook × List ModHook × List ModHook) :
    Structural (K := K) fun s => modulePart s = v := by
  constructor
  · intro s s' h hs
    have := congrArg modulePart (show ({ s' with user := s.user, own := s.own, log := s.log, st := s.st } : Sess K) = s from h)
    exact this.trans hs
  · intro s s' h hs
    have := congrArg modulePart
      (show ({ s' with saver := s.saver, buffer := s.buffer, bufferSize := s.bufferSize, fs := s.fs } : Sess K) = s from h)
    exact this.trans hs

/-- Everything except opening, `watch` and `clear` leaves watched modules and hooks on modules alone. -/
theorem run_modulePart [Field K] (E : SEnv K) (o : SOp K) (h1 : ¬ Opens o) (h2 : o ≠ .clear) (h3 : ∀ sel, o ≠ .watch sel)
    (v : List Nat × List ModHook × List ModHook × List ModHook) : (o.run E).Keeps fun s => modulePart s = v := by
  have hS := modulePart_structural (K := K) v
  have hreg : ∀ y fn, (registerTensorHook (K := K) y fn).Keeps fun s => modulePart s = v := by
    intro y fn s hs
    obtain ⟨a, b, c, d⟩ := registerTensorHook_modules y fn s
    show (_, _, _, _) = v
    rw [a, b, c, d]
    exact hs
  have hst : ∀ op, (stateOp E op).Keeps fun s => modulePart s = v := by
    intro op s hs
    unfold stateOp
    split <;> exact hs
  cases o with
  | alloc o => exact fun s h => h
  | forward mod x y =>
    intro s h
    show modulePart (forward E mod x y s).1 = v
    unfold forward
    split
    · exact h
    · dsimp only
      refine SAct.Keeps.seq (P := fun s => modulePart s = v)
        (SAct.Keeps.each fun a _ s h => hS.quiet (forwardHook_quiet E _ _ _ s) h) ?_ s h
      refine SAct.Keeps.seq (P := fun s => modulePart s = v) (fun s h => h) ?_
      exact fun s h => SAct.Keeps.each (P := fun s => modulePart s = v) (fun a _ => hreg _ _) s h
  | gradAt y g => exact fun s h => hS.quiet (gradAt_quiet E y g s) h
  | backward y g => exact fun s h => hS.quiet (backward_quiet E y g s) h
  | watchActivation d =>
    refine SAct.Keeps.each (P := fun s => modulePart s = v) fun a _ => SAct.Keeps.seq ?_ (hreg _ _)
    intro s h
    exact hS.quiet ((convert_quiet E s (.user a.2)).trans (SAct.IsQuiet.each (fun p _ => plugin_quiet _ _ _ _ _ _) _)) h
  | call ids mask sv => exact fun s h => h
  | enter => exact absurd .enter h1
  | exit => exact fun s h => hS.update_keeps E _ s h
  | start ids mask => exact absurd (.start ids mask) h1
  | «end» sv => exact fun s h => hS.update_keeps E _ s h
  | log ids mask => exact fun s h => hS.update_keeps E _ (s.setBatch ids mask) h
  | save b => exact fun s h => h
  | eval => exact fun s h => h
  | setup kw => exact fun s h => h
  | watch sel => exact absurd rfl (h3 sel)
  | analysis o => exact hst o
  | getLogCopy => exact fun s h => hS.quiet (getLogCopy_quiet s) h
  | finalize dir => exact SAct.Keeps.seq (hst _) fun s h => hS.saveOnly (withSaver_saveOnly E _ s) h
  | clear => exact absurd rfl h2

theorem opens_modules [Field K] (E : SEnv K) (s : Sess K) (h : Handles s) (b : SOp K) (hb : Opens b) :
    (b.run E s).1.modules = s.modules := by
  have main : ∀ s : Sess K, Handles s → (registerAllModuleHooks s.clearHooks).1.modules = s.modules := by
    intro s h
    obtain ⟨s', e1, _, _, _, _, e6, _⟩ := registerAll_modules s.clearHooks.modules s.clearHooks (clearHooks_handles h).1.named
    show (SAct.each registerModule s.clearHooks.modules s.clearHooks).1.modules = _
    rw [e1]
    exact e6
  cases hb with
  | enter => exact main s h
  | start ids mask => exact main (s.setBatch ids mask) (h.congr rfl)

theorem modules_step [Field K] (E : SEnv K) (s : Sess K) (h : Handles s) (o : SOp K) :
    (o.run E s).1.modules = match o, (o.run E s).2 with
      | .watch sel, _ => s.modules ++ sel.map Prod.snd
      | .clear, none => []
      | _, _ => s.modules := by
  by_cases ho : Opens o
  · rw [opens_modules E s h o ho]
    cases ho <;> rfl
  · by_cases hc : o = .clear
    · subst hc
      rw [show SOp.clear.run E s = Sess.clear E s from rfl]
      unfold Sess.clear SAct.seq stateOp
      cases hs : stepOp E.lib s.st .clear with
      | ok st => rfl
      | error e => rfl
    · by_cases hw : ∃ sel, o = .watch sel
      · obtain ⟨sel, rfl⟩ := hw
        show (Sess.watch sel s).1.modules = s.modules ++ sel.map Prod.snd
        unfold Sess.watch
        dsimp only
        split <;> rfl
      · have := congrArg Prod.fst (run_modulePart E o ho hc (fun sel e => hw ⟨sel, e⟩) _ s rfl)
        refine (show (o.run E s).1.modules = s.modules from this).trans ?_
        split
        · next sel => exact absurd ⟨sel, rfl⟩ hw
        · exact absurd rfl hc
        · rfl

theorem modules_eq_watched [Field K] (E : SEnv K) (ops : List (SOp K)) : ∀ (s : Sess K) (l : List Nat), Handles s → s.modules = l →
    (runHistory E ops s).modules = (outcomes E ops s).foldl (fun l o => match o with
      | (.watch sel, _) => l ++ sel.map Prod.snd
      | (.clear, none) => []
      | _ => l) l := by
  induction ops with
  | nil => exact fun s l _ h => h
  | cons o ops ih =>
    intro s l hs hl
    rw [outcomes, List.foldl_cons]
    refine ih _ _ (run_handles E o s hs) ?_
    rw [modules_step E s hs o, hl]
    rcases o with _ | _ | _ | _ | _ | _ | _ | _ | _ | _ | _ | _ | _ | _ | _ | _ | _ | _ | _ <;> first | rfl | skip
    cases (SOp.run E SOp.clear s).2 <;> rfl

/-- **C19.** After any history of operations (with or without exceptions), when a batch is opened with `__enter__` or `start` this succeeds and
every module carries, of each of the three kinds, exactly as many LogIX hooks as it was selected by `watch` calls since the last `clear`:
one set per call that selected it, none on other modules; and no hook on a tensor of an earlier batch is left. -/
theorem C19_hooks [Field K] (E : SEnv K) (ops : List (SOp K)) (n : Nat) (t : Int) (fs : FS) (b : SOp K) (hb : Opens b) :
    ∃ s', b.run E (runHistory E ops (Sess.init n t fs)) = (s', none) ∧
      (∀ m, hooksOn s'.pre m = (watched (outcomes E ops (Sess.init n t fs))).count m) ∧
      (∀ m, hooksOn s'.bwd m = (watched (outcomes E ops (Sess.init n t fs))).count m) ∧
      (∀ m, hooksOn s'.fwd m = (watched (outcomes E ops (Sess.init n t fs))).count m) ∧ s'.tens = [] := by
  have h := history_handles E ops n t fs
  have hm := modules_eq_watched E ops (Sess.init n t fs) [] (init_handles n t fs) rfl
  obtain ⟨s', h1, h2, h3, h4, h5⟩ := opens_hooks E _ h b hb
  refine ⟨s', h1, fun m => ?_, fun m => ?_, fun m => ?_, h5⟩
  · rw [h2, hm]; rfl
  · rw [h3, hm]; rfl
  · rw [h4, hm]; rfl

/-- **C19, while the context is active.** Until the next batch is opened or everything is cleared, the hooks on the modules stay as they are. -/
theorem C19_stable [Field K] (E : SEnv K) (ops : List (SOp K)) (h : ∀ o ∈ ops, ¬ Opens o ∧ o ≠ .clear) (s : Sess K) (m : Nat) :
    hooksOn (runHistory E ops s).pre m = hooksOn s.pre m ∧ hooksOn (runHistory E ops s).bwd m = hooksOn s.bwd m ∧
      hooksOn (runHistory E ops s).fwd m = hooksOn s.fwd m := by
  induction ops generalizing s with
  | nil => exact ⟨rfl, rfl, rfl⟩
  | cons o ops ih =>
    obtain ⟨h1, h2⟩ := h o (List.mem_cons_self ..)
    obtain ⟨i1, i2, i3⟩ := ih (fun o' ho' => h o' (List.mem_cons_of_mem _ ho')) (o.run E s).1
    have : (o.run E s).1.pre = s.pre ∧ (o.run E s).1.bwd = s.bwd ∧ (o.run E s).1.fwd = s.fwd := by
      by_cases hw : ∃ sel, o = .watch sel
      · obtain ⟨sel, rfl⟩ := hw
        show (Sess.watch sel s).1.pre = s.pre ∧ (Sess.watch sel s).1.bwd = s.bwd ∧ (Sess.watch sel s).1.fwd = s.fwd
        unfold Sess.watch
        dsimp only
        split <;> exact ⟨rfl, rfl, rfl⟩
      · have := run_modulePart E o h1 h2 (fun sel e => hw ⟨sel, e⟩) _ s rfl
        simp only [modulePart, Prod.mk.injEq] at this
        exact this.2
    exact ⟨i1.trans (by rw [this.1]), i2.trans (by rw [this.2.1]), i3.trans (by rw [this.2.2])⟩

end Logix
