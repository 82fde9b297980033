/-
Lemmas about sessions: hooks, flags and handles.
-/
import Verif.Lemmas.SessionQuiet

namespace Logix
variable {K : Type}
namespace Sess

/-- Saving changes only the saver, its buffer and the directory. -/
def SaveOnly (s s' : Sess K) : Prop :=
  { s' with saver := s.saver, buffer := s.buffer, bufferSize := s.bufferSize, fs := s.fs } = s

theorem SaveOnly.refl (s : Sess K) : SaveOnly s s := rfl

theorem SaveOnly.trans {a b c : Sess K} (h : SaveOnly a b) (h' : SaveOnly b c) : SaveOnly a c := by
  unfold SaveOnly at h h' ⊢
  have : ({ c with saver := a.saver, buffer := a.buffer, bufferSize := a.bufferSize, fs := a.fs } : Sess K) =
      { ({ c with saver := b.saver, buffer := b.buffer, bufferSize := b.bufferSize, fs := b.fs } : Sess K) with
        saver := a.saver, buffer := a.buffer, bufferSize := a.bufferSize, fs := a.fs } := rfl
  rw [this, h', h]

theorem bufferWriteFrom_saveOnly [Zero K] (ids : List PyStr) : ∀ (idx : Nat) (s : Sess K), SaveOnly s (bufferWriteFrom idx ids s).1 := by
  induction ids with
  | nil => exact fun _ s => SaveOnly.refl s
  | cons i ids ih =>
    intro idx s
    unfold bufferWriteFrom
    dsimp only
    split
    · rfl
    · exact SaveOnly.trans (b := { s with
        buffer := Dict.set s.buffer i (addModules s idx s.log ((Dict.get? s.buffer i).getD [], s.bufferSize)).1.1
        bufferSize := (addModules s idx s.log ((Dict.get? s.buffer i).getD [], s.bufferSize)).1.2 }) rfl (ih _ _)

theorem bufferWrite_saveOnly [Zero K] (s : Sess K) : SaveOnly s (bufferWrite s).1 := by
  unfold bufferWrite
  split
  · rfl
  · exact bufferWriteFrom_saveOnly _ _ _

theorem withSaver_saveOnly [Zero K] (E : SEnv K) (f : List Path → FS → Saver → FS × Saver × Py Unit) (s : Sess K) :
    SaveOnly s (withSaver E f s).1 := rfl

theorem saveLog_saveOnly [Zero K] (E : SEnv K) (s : Sess K) : SaveOnly s (saveLog E s).1 := by
  have h := bufferWrite_saveOnly s
  unfold saveLog SAct.seq
  split
  · next s' e h' => rw [h'] at h; exact h
  · next s' h' => rw [h'] at h; exact h.trans (withSaver_saveOnly _ _ _)

/-- A property of the state that depends neither on tensors, log and statistics nor on what is saved. -/
structure Structural (P : Sess K → Prop) : Prop where
  quiet : ∀ {s s'}, Quiet s s' → P s → P s'
  saveOnly : ∀ {s s'}, SaveOnly s s' → P s → P s'

theorem Structural.update_keeps [Semiring K] {P : Sess K → Prop} (hP : Structural P) (E : SEnv K) (save : Bool) :
    (update E save).Keeps P := by
  intro s h
  rw [update_eq]
  refine SAct.Keeps.seq (fun s h => hP.quiet (gradStats_quiet E _ s) h) ?_ s h
  cases save
  · exact fun s h => h
  · exact fun s h => hP.saveOnly (saveLog_saveOnly E s) h

/-- The lists of handles are the handles of what is registered with PyTorch, and every watched module has a name. -/
structure Handles (s : Sess K) : Prop where
  pre : s.hPre = s.pre.map ModHook.id
  bwd : s.hBwd = s.bwd.map ModHook.id
  fwd : s.hFwd = s.fwd.map ModHook.id
  tens : s.hTens = s.tens.map TensorHook.id
  named : ∀ m ∈ s.modules, (Dict.get? s.names m).isSome

/-- `Handles` in terms of the fields it depends on. -/
def hookPart (s : Sess K) := (s.hPre, s.pre, s.hBwd, s.bwd, s.hFwd, s.fwd, s.hTens, s.tens, s.modules, s.names)

theorem Handles.congr {s s' : Sess K} (hs : Handles s) (h : s'.hookPart = s.hookPart) : Handles s' := by
  simp only [hookPart, Prod.mk.injEq] at h
  obtain ⟨a, b, c, d, e, f, g, i, j, k⟩ := h
  constructor
  · rw [a, b]; exact hs.pre
  · rw [c, d]; exact hs.bwd
  · rw [e, f]; exact hs.fwd
  · rw [g, i]; exact hs.tens
  · rw [j, k]; exact hs.named

theorem Quiet.hookPart {s s' : Sess K} (h : Quiet s s') : s'.hookPart = s.hookPart := by
  have h' := congrArg Sess.hookPart (show ({ s' with user := s.user, own := s.own, log := s.log, st := s.st } : Sess K) = s from h)
  exact h'
theorem SaveOnly.hookPart {s s' : Sess K} (h : SaveOnly s s') : s'.hookPart = s.hookPart := by
  have h' := congrArg Sess.hookPart (show ({ s' with saver := s.saver, buffer := s.buffer, bufferSize := s.bufferSize, fs := s.fs } : Sess K) = s from h)
  exact h'

theorem handles_structural : Structural (K := K) Handles :=
  ⟨fun h hs => hs.congr h.hookPart, fun h hs => hs.congr h.hookPart⟩

theorem registerTensorHook_handles (y : Nat) (fn : HookFn) : (registerTensorHook (K := K) y fn).Keeps Handles := by
  intro s h
  unfold registerTensorHook
  split
  · split
    · exact ⟨h.pre, h.bwd, h.fwd, by simp [h.tens], h.named⟩
    · exact h
  · exact h

theorem clearHooks_handles {s : Sess K} (h : Handles s) : Handles s.clearHooks ∧ s.clearHooks.pre = [] ∧ s.clearHooks.bwd = [] ∧
    s.clearHooks.fwd = [] ∧ s.clearHooks.tens = [] := by
  have hp : s.clearHooks.pre = [] := by
    simp only [clearHooks, h.pre, List.filter_eq_nil_iff]
    intro a ha
    simpa using ⟨a, ha, rfl⟩
  have hb : s.clearHooks.bwd = [] := by
    simp only [clearHooks, h.bwd, List.filter_eq_nil_iff]
    intro a ha
    simpa using ⟨a, ha, rfl⟩
  have hf : s.clearHooks.fwd = [] := by
    simp only [clearHooks, h.fwd, List.filter_eq_nil_iff]
    intro a ha
    simpa using ⟨a, ha, rfl⟩
  have ht : s.clearHooks.tens = [] := by
    simp only [clearHooks, h.tens, List.filter_eq_nil_iff]
    intro a ha
    simpa using ⟨a, ha, rfl⟩
  refine ⟨⟨?_, ?_, ?_, ?_, h.named⟩, hp, hb, hf, ht⟩
  · rw [hp]; rfl
  · rw [hb]; rfl
  · rw [hf]; rfl
  · rw [ht]; rfl

theorem registerModule_handles (mod : Nat) : (registerModule (K := K) mod).Keeps Handles := by
  intro s h
  unfold registerModule
  split
  · exact h
  · exact ⟨by simp [h.pre], by simp [h.bwd], by simp [h.fwd], h.tens, h.named⟩

theorem registerAll_handles : (registerAllModuleHooks (K := K)).Keeps Handles :=
  fun s h => SAct.Keeps.each (fun m _ => registerModule_handles m) s h

theorem forward_handles [Semiring K] (E : SEnv K) (mod x y : Nat) : (forward E mod x y).Keeps Handles := by
  intro s h
  unfold forward
  split
  · exact h
  · dsimp only
    refine SAct.Keeps.seq (SAct.Keeps.each fun a _ s h => handles_structural.quiet (forwardHook_quiet E _ _ _ s) h) ?_ s h
    refine SAct.Keeps.seq (fun s h => h.congr rfl) ?_
    exact fun s h => SAct.Keeps.each (fun a _ => registerTensorHook_handles _ _) s h

theorem watchActivation_handles [Semiring K] (E : SEnv K) (d : List (PyStr × Nat)) : (watchActivation E d).Keeps Handles := by
  refine SAct.Keeps.each fun a _ => SAct.Keeps.seq ?_ (registerTensorHook_handles _ _)
  intro s h
  exact handles_structural.quiet
    ((convert_quiet E s (.user a.2)).trans (SAct.IsQuiet.each (fun p _ => plugin_quiet _ _ _ _ _ _) _)) h

theorem stateOp_hookPart [Field K] (E : SEnv K) (o : StateOp K) (s : Sess K) : ((stateOp E o s).1).hookPart = s.hookPart := by
  unfold stateOp
  split <;> rfl

theorem watch_foldl_isSome (sel : List (PyStr × Nat)) : ∀ (d : Dict Nat PyStr) (m : Nat),
    ((Dict.get? d m).isSome ∨ m ∈ sel.map Prod.snd) →
      (Dict.get? (sel.foldl (fun d (e : PyStr × Nat) => Dict.set d e.2 e.1) d) m).isSome := by
  induction sel with
  | nil =>
    intro d m h
    rcases h with h | h
    · exact h
    · cases h
  | cons e sel ih =>
    intro d m h
    rw [List.foldl_cons]
    apply ih
    simp only [List.map_cons, List.mem_cons] at h
    by_cases hm : m = e.2
    · left
      rw [Dict.get?_set, if_pos hm.symm]
      rfl
    · rcases h with h | h | h
      · left
        rw [Dict.get?_set_ne _ _ (Ne.symm hm)]
        exact h
      · exact absurd h hm
      · exact Or.inr h

theorem watch_handles (sel : List (PyStr × Nat)) : (watch (K := K) sel).Keeps Handles := by
  intro s h
  have hn : ∀ m ∈ s.modules ++ sel.map Prod.snd,
      (Dict.get? (sel.foldl (fun d (e : PyStr × Nat) => Dict.set d e.2 e.1) s.names) m).isSome := by
    intro m hm
    apply watch_foldl_isSome
    rcases List.mem_append.1 hm with hm | hm
    · exact Or.inl (h.named m hm)
    · exact Or.inr hm
  unfold watch
  dsimp only
  split <;> exact ⟨h.pre, h.bwd, h.fwd, h.tens, hn⟩

theorem copyTensor_quiet (s₀ s : Sess K) (r : TRef) : Quiet s (copyTensor s₀ s r).1 := by
  unfold copyTensor
  split
  · split <;> rfl
  · rfl

theorem copyTypes_quiet (s₀ : Sess K) (l : List (PyStr × TRef)) : ∀ s : Sess K, Quiet s (copyTypes s₀ l s).1 := by
  induction l with
  | nil => exact fun s => Quiet.refl s
  | cons a l ih =>
    intro s
    obtain ⟨k, r⟩ := a
    have h := copyTensor_quiet s₀ s r
    unfold copyTypes
    split
    · next s' e h' => rw [h'] at h; exact h
    · next s' r' h' =>
      rw [h'] at h
      have h2 := ih s'
      split
      · next s2 e h3 => rw [h3] at h2; exact h.trans h2
      · next s2 d h3 => rw [h3] at h2; exact h.trans h2

theorem copyLog_quiet (s₀ : Sess K) (l : List (PyStr × Dict PyStr TRef)) : ∀ s : Sess K, Quiet s (copyLog s₀ l s).1 := by
  induction l with
  | nil => exact fun s => Quiet.refl s
  | cons a l ih =>
    intro s
    obtain ⟨k, r⟩ := a
    have h := copyTypes_quiet s₀ r s
    unfold copyLog
    split
    · next s' e h' => rw [h'] at h; exact h
    · next s' r' h' =>
      rw [h'] at h
      have h2 := ih s'
      split
      · next s2 e h3 => rw [h3] at h2; exact h.trans h2
      · next s2 d h3 => rw [h3] at h2; exact h.trans h2

theorem getLogCopy_quiet (s : Sess K) : Quiet s s.getLogCopy.1 := by
  have h := copyLog_quiet s s.log s
  unfold getLogCopy
  split
  · next s' e h' => rw [h'] at h; exact h
  · next s' d h' => rw [h'] at h; exact h

end Sess

open Sess

theorem run_handles [Field K] (E : SEnv K) (o : SOp K) : (o.run E).Keeps Handles := by
  cases o with
  | alloc o => exact fun s h => h.congr rfl
  | forward mod x y => exact forward_handles E mod x y
  | gradAt y g => exact fun s h => handles_structural.quiet (gradAt_quiet E y g s) h
  | backward y g => exact fun s h => handles_structural.quiet (backward_quiet E y g s) h
  | watchActivation d => exact watchActivation_handles E d
  | call ids mask sv => exact fun s h => h.congr rfl
  | enter => exact fun s h => registerAll_handles _ (clearHooks_handles h).1
  | exit => exact fun s h => handles_structural.update_keeps E _ s h
  | start ids mask =>
    exact fun s h => registerAll_handles _ (clearHooks_handles (s := s.setBatch ids mask) (h.congr rfl)).1
  | «end» sv => exact fun s h => handles_structural.update_keeps E _ s h
  | log ids mask => exact fun s h => handles_structural.update_keeps E _ _ (h.congr rfl)
  | save b => exact fun s h => h.congr rfl
  | eval => exact fun s h => h.congr rfl
  | setup kw => exact fun s h => h.congr rfl
  | watch sel => exact watch_handles sel
  | analysis o => exact fun s h => h.congr (stateOp_hookPart E o s)
  | getLogCopy => exact fun s h => h.congr (getLogCopy_quiet s).hookPart
  | finalize dir =>
    exact SAct.Keeps.seq (fun s h => h.congr (stateOp_hookPart E _ s)) fun s h => handles_structural.saveOnly (withSaver_saveOnly E _ s) h
  | clear =>
    refine SAct.Keeps.seq (fun s h => h.congr (stateOp_hookPart E _ s)) fun s h => ?_
    have h' := clearHooks_handles h
    refine ⟨h'.1.pre, h'.1.bwd, h'.1.fwd, h'.1.tens, ?_⟩
    intro m hm
    cases hm

theorem history_keeps [Field K] (E : SEnv K) {P : Sess K → Prop} (h : ∀ o : SOp K, (o.run E).Keeps P) (ops : List (SOp K)) :
    ∀ s, P s → P (runHistory E ops s) := by
  induction ops with
  | nil => exact fun s h => h
  | cons o ops ih => exact fun s hs => ih _ (h o s hs)

theorem init_handles (n : Nat) (t : Int) (fs : FS) : Handles (K := K) (Sess.init n t fs) :=
  ⟨rfl, rfl, rfl, rfl, fun m hm => by cases hm⟩

theorem history_handles [Field K] (E : SEnv K) (ops : List (SOp K)) (n : Nat) (t : Int) (fs : FS) :
    Handles (runHistory E ops (Sess.init n t fs)) :=
  history_keeps E (run_handles E) ops _ (init_handles n t fs)

end Logix
