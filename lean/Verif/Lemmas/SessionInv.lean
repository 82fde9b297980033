/-
Lemmas about sessions: invariants of the tensors and of the batch log.
-/
import Verif.Lemmas.SessionHooks

namespace Logix
variable {K : Type}
namespace Sess

/-- The tensors, the batch log and what else decides about them. -/
def heapPart (s : Sess K) := (s.user, s.own, s.log, s.calls, s.opt)

/-- The reference is in the batch log. -/
def InLog (s : Sess K) (r : TRef) : Prop := ∃ m ∈ s.log, ∃ t ∈ m.2, t.2 = r

/-- What an invariant `P` must satisfy to be kept by the hooks, when only the references `good` are logged. -/
structure HookInv [Semiring K] (P : Sess K → Prop) (good : TRef → Prop) : Prop where
  congr : ∀ {s s' : Sess K}, P s → s'.heapPart = s.heapPart → P s'
  alloc : ∀ {s : Sess K} {o : TObj K}, P s → P (s.alloc o).1 ∧ good (s.alloc o).2
  user : ∀ {s : Sess K} {x : Nat}, P s → Plugin.log ∈ s.opt.forward ∨ Plugin.log ∈ s.opt.backward → good (.user x)
  logged : ∀ {s : Sess K} {r : TRef}, P s → s.InLog r → good r
  logUpdate : ∀ {r : TRef} (name ty : PyStr), good r → (logUpdate name ty r).Keeps P

theorem opt_of_quiet {s s' : Sess K} (h : Quiet s s') : s'.opt = s.opt := by
  have h' := congrArg Sess.opt (show ({ s' with user := s.user, own := s.own, log := s.log, st := s.st } : Sess K) = s from h)
  exact h'

namespace HookInv
variable [Semiring K] {P : Sess K → Prop} {good : TRef → Prop} (H : HookInv P good) (E : SEnv K)
include H

theorem plugin_keeps (mod : Option ModKind) (name : PyStr) (ty : LogType) (r : TRef) (p : Plugin) (hg : p = .log → good r) :
    (plugin E mod name ty r p).Keeps P := by
  intro s h
  unfold plugin
  split
  · exact H.logUpdate _ _ (hg rfl) s h
  · split
    · exact h
    · dsimp only
      split <;> exact H.congr h rfl

theorem convert_keeps {s : Sess K} (r : TRef) (h : P s) : P (s.convert E r).1 ∧ (good r → good (s.convert E r).2) := by
  unfold convert
  split
  · split
    · exact ⟨h, id⟩
    · exact ⟨(H.alloc h).1, fun _ => (H.alloc h).2⟩
  · exact ⟨h, id⟩

theorem masked_keeps {s : Sess K} (r : TRef) (h : P s) : P (s.masked r).1 ∧ ∀ r', (s.masked r).2 = .ok r' → good r → good r' := by
  unfold masked
  split
  · exact ⟨h, nofun⟩
  · split
    · exact ⟨h, nofun⟩
    · dsimp only
      split
      · refine ⟨(H.alloc h).1, fun r' hr _ => ?_⟩
        cases hr
        exact (H.alloc h).2
      · refine ⟨h, fun r' hr hg => ?_⟩
        cases hr
        exact hg

theorem each_plugin (mod : Option ModKind) (name : PyStr) (ty : LogType) (r : TRef) (ps : List Plugin) (hg : .log ∈ ps → good r) :
    (SAct.each (plugin E mod name ty r) ps).Keeps P :=
  SAct.Keeps.each fun p hp => H.plugin_keeps E mod name ty r p fun e => hg (e ▸ hp)

theorem forwardHook_keeps (mod x : Nat) (name : PyStr) : (forwardHook E mod x name).Keeps P := by
  intro s h
  have h1 := H.masked_keeps (.user x) h
  have hq := masked_quiet s (.user x)
  unfold forwardHook
  split
  · next s' e he => rw [he] at h1; exact h1.1
  · next s' r he =>
    rw [he] at h1 hq
    have h2 := H.convert_keeps E r h1.1
    dsimp only
    have ho : (s'.convert E r).1.opt = s.opt := (opt_of_quiet (convert_quiet E s' r)).trans (opt_of_quiet hq)
    refine H.each_plugin E _ _ _ _ _ (fun hl => h2.2 (h1.2 r rfl (H.user h (Or.inl ?_)))) _ h2.1
    rw [ho] at hl
    exact hl

theorem backwardHook_keeps (mod g : Nat) (name : PyStr) : (backwardHook E mod g name).Keeps P := by
  intro s h
  have h2 := H.convert_keeps E (.user g) h
  refine H.each_plugin E _ _ _ _ _ (fun hl => h2.2 (H.user h (Or.inr ?_))) _ h2.1
  change Plugin.log ∈ (s.convert E (.user g)).1.opt.backward at hl
  rw [opt_of_quiet (convert_quiet E s _)] at hl
  exact hl

theorem tensorBackwardHook_keeps (g : Nat) (name : PyStr) : (tensorBackwardHook E g name).Keeps P := by
  intro s h
  have h2 := H.convert_keeps E (.user g) h
  refine H.each_plugin E _ _ _ _ _ (fun hl => h2.2 (H.user h (Or.inr ?_))) _ h2.1
  change Plugin.log ∈ (s.convert E (.user g)).1.opt.backward at hl
  rw [opt_of_quiet (convert_quiet E s _)] at hl
  exact hl

theorem gradBackwardHook_keeps (mod x g : Nat) (name : PyStr) : (gradBackwardHook E mod x g name).Keeps P := by
  intro s h
  unfold gradBackwardHook
  split
  · exact h
  · exact h
  · split
    · split
      · exact h
      · next a b _ _ _ v _ =>
        have h1 := H.alloc (o := ⟨v, b.dtype, false, true⟩) h
        have h2 := H.convert_keeps E (s.alloc ⟨v, b.dtype, false, true⟩).2 h1.1
        exact H.each_plugin E _ _ _ _ _ (fun _ => h2.2 h1.2) _ h2.1
    · exact h

theorem gradAt_keeps (y g : Nat) : (gradAt E y g).Keeps P := by
  intro s h
  refine SAct.Keeps.each (fun a _ => ?_) s h
  split
  · exact H.gradBackwardHook_keeps E _ _ _ _
  · exact H.tensorBackwardHook_keeps E _ _

theorem backward_keeps (y g : Nat) : (backward E y g).Keeps P := by
  intro s h
  exact SAct.Keeps.each (fun c _ => SAct.Keeps.each fun n _ => H.backwardHook_keeps E _ _ _) s h

theorem registerTensorHook_keeps (y : Nat) (fn : HookFn) : (registerTensorHook (K := K) y fn).Keeps P := by
  intro s h
  unfold registerTensorHook
  split
  · split
    · exact H.congr h rfl
    · exact h
  · exact h

theorem watchActivation_keeps (d : List (PyStr × Nat)) : (watchActivation E d).Keeps P := by
  refine SAct.Keeps.each fun a _ => SAct.Keeps.seq ?_ (H.registerTensorHook_keeps _ _)
  intro s h
  have h2 := H.convert_keeps E (.user a.2) h
  refine H.each_plugin E _ _ _ _ _ (fun hl => h2.2 (H.user h (Or.inl ?_))) _ h2.1
  change Plugin.log ∈ (s.convert E (.user a.2)).1.opt.forward at hl
  rw [opt_of_quiet (convert_quiet E s _)] at hl
  exact hl

theorem registerModule_keeps (mod : Nat) : (registerModule (K := K) mod).Keeps P := by
  intro s h
  unfold registerModule
  split
  · exact h
  · exact H.congr h rfl

theorem registerAll_keeps : (registerAllModuleHooks (K := K)).Keeps P :=
  fun s h => SAct.Keeps.each (fun m _ => H.registerModule_keeps m) s h

theorem gradStat_keeps (p : Plugin) (name : PyStr) : (gradStat E p name).Keeps P := by
  intro s h
  unfold gradStat
  split
  · exact h
  · next r hr =>
    refine H.plugin_keeps E _ _ _ _ _ (fun _ => H.logged h ?_) s h
    rw [Option.bind_eq_some_iff] at hr
    obtain ⟨tys, h1, h2⟩ := hr
    exact ⟨_, Dict.mem_of_get? _ h1, _, Dict.mem_of_get? _ h2, rfl⟩

theorem saveLog_keeps : (saveLog E).Keeps P := by
  intro s h
  refine H.congr h ?_
  have h' := congrArg Sess.heapPart (show ({ (saveLog E s).1 with saver := s.saver, buffer := s.buffer, bufferSize := s.bufferSize, fs := s.fs } : Sess K) = s
    from saveLog_saveOnly E s)
  exact h'

theorem update_keeps (save : Bool) : (update E save).Keeps P := by
  intro s h
  rw [update_eq]
  refine SAct.Keeps.seq ?_ ?_ s h
  · exact SAct.Keeps.each fun p _ s h => SAct.Keeps.each (fun n _ => H.gradStat_keeps E p n) s h
  · cases save
    · exact fun s h => h
    · exact H.saveLog_keeps E

theorem copyTensor_keeps (s₀ : Sess K) {s : Sess K} (r : TRef) (h : P s) : P (copyTensor s₀ s r).1 := by
  unfold copyTensor
  split
  · split
    · exact (H.alloc h).1
    · exact h
  · exact h

theorem copyTypes_keeps (s₀ : Sess K) (l : List (PyStr × TRef)) : ∀ {s : Sess K}, P s → P (copyTypes s₀ l s).1 := by
  induction l with
  | nil => exact fun h => h
  | cons a l ih =>
    intro s h
    obtain ⟨k, r⟩ := a
    have h1 := H.copyTensor_keeps s₀ r h
    unfold copyTypes
    split
    · next s' e h' => rw [h'] at h1; exact h1
    · next s' r' h' =>
      rw [h'] at h1
      have h2 := ih h1
      split
      · next s2 e h3 => rw [h3] at h2; exact h2
      · next s2 d h3 => rw [h3] at h2; exact h2

theorem copyLog_keeps (s₀ : Sess K) (l : List (PyStr × Dict PyStr TRef)) : ∀ {s : Sess K}, P s → P (copyLog s₀ l s).1 := by
  induction l with
  | nil => exact fun h => h
  | cons a l ih =>
    intro s h
    obtain ⟨k, r⟩ := a
    have h1 := H.copyTypes_keeps s₀ r h
    unfold copyLog
    split
    · next s' e h' => rw [h'] at h1; exact h1
    · next s' r' h' =>
      rw [h'] at h1
      have h2 := ih h1
      split
      · next s2 e h3 => rw [h3] at h2; exact h2
      · next s2 d h3 => rw [h3] at h2; exact h2

theorem getLogCopy_keeps {s : Sess K} (h : P s) : P s.getLogCopy.1 := by
  have h1 := H.copyLog_keeps s s.log h
  unfold getLogCopy
  split
  · next s' e h' => rw [h'] at h1; exact h1
  · next s' d h' => rw [h'] at h1; exact h1

end HookInv

/-- The hooks do not change how many tensors the user has. -/
theorem length_hookInv [Semiring K] (n : Nat) : HookInv (K := K) (fun s => s.user.length = n) fun _ => True where
  congr h e := by
    have := congrArg (fun p => p.1.length) e
    exact this.trans h
  alloc h := ⟨h, trivial⟩
  user _ _ := trivial
  logged _ _ := trivial
  logUpdate {r} name ty _ s h := by
    unfold Sess.logUpdate
    dsimp only
    split
    · exact h
    · next r₀ _ =>
      split
      · split
        · cases r₀ <;> simpa [setVal] using h
        · exact h
      · exact h

/-- What an invariant must satisfy to be kept by every operation except `setup` and new tensors of the user. -/
structure HistInv [Semiring K] (P : Sess K → Prop) (good : TRef → Prop) : Prop extends HookInv P good where
  calls : ∀ {s : Sess K} {y m : Nat} {names : List PyStr}, P s → y < s.user.length → P { s with calls := s.calls ++ [⟨y, m, names⟩] }
  empty : ∀ {s : Sess K}, P s → P { s with log := [] }

theorem HistInv.forward_keeps [Semiring K] {P : Sess K → Prop} {good : TRef → Prop} (H : HistInv P good) (E : SEnv K) (mod x y : Nat) :
    (forward E mod x y).Keeps P := by
  intro s h
  unfold forward
  split
  · exact h
  · next hy =>
    dsimp only
    have hl : y < s.user.length := by omega
    have key : ∀ l : List ModHook, (SAct.each (fun h => forwardHook E mod x h.name) l).Keeps fun s' => P s' ∧ s'.user.length = s.user.length := by
      intro l s' hs
      exact ⟨SAct.Keeps.each (fun a _ => H.toHookInv.forwardHook_keeps E _ _ _) s' hs.1,
        SAct.Keeps.each (fun a _ => (length_hookInv s.user.length).forwardHook_keeps E _ _ _) s' hs.2⟩
    refine (SAct.Keeps.seq (P := fun s' => P s' ∧ s'.user.length = s.user.length) (key _) (SAct.Keeps.seq ?_ ?_) s ⟨h, rfl⟩).1
    · exact fun s' hs => ⟨H.calls hs.1 (by rw [hs.2]; exact hl), hs.2⟩
    · intro s' hs
      exact ⟨SAct.Keeps.each (fun a _ => H.toHookInv.registerTensorHook_keeps _ _) s' hs.1,
        SAct.Keeps.each (fun a _ => (length_hookInv s.user.length).registerTensorHook_keeps _ _) s' hs.2⟩

end Sess

open Sess

theorem HistInv.run_keeps [Field K] {P : Sess K → Prop} {good : TRef → Prop} (H : HistInv P good) (E : SEnv K) (o : SOp K)
    (ho : ∀ kw, o = .setup kw → (o.run E).Keeps P) (ha : ∀ t, o = .alloc t → (o.run E).Keeps P) : (o.run E).Keeps P := by
  have hst : ∀ o, (stateOp E o).Keeps P := by
    intro o s h
    unfold stateOp
    split <;> exact H.congr h rfl
  have hset : ∀ ids mask s, P s → P (s.setBatch ids mask) := fun ids mask s h => H.congr (H.empty h) rfl
  cases o with
  | alloc o => exact ha o rfl
  | forward mod x y => exact H.forward_keeps E mod x y
  | gradAt y g => exact H.gradAt_keeps E y g
  | backward y g => exact H.backward_keeps E y g
  | watchActivation d => exact H.watchActivation_keeps E d
  | call ids mask sv => exact fun s h => H.congr (hset ids mask s h) rfl
  | enter => exact fun s h => H.registerAll_keeps _ (H.congr h rfl)
  | exit => exact fun s h => H.update_keeps E _ s h
  | start ids mask => exact fun s h => H.registerAll_keeps _ (H.congr (hset ids mask s h) rfl)
  | «end» sv => exact fun s h => H.update_keeps E _ s h
  | log ids mask => exact fun s h => H.update_keeps E _ _ (hset ids mask s h)
  | save b => exact fun s h => H.congr h rfl
  | eval => exact fun s h => H.congr h rfl
  | setup kw => exact ho kw rfl
  | watch sel =>
    intro s h
    show P (Sess.watch sel s).1
    unfold Sess.watch
    dsimp only
    split <;> exact H.congr h rfl
  | analysis o => exact hst o
  | getLogCopy => exact fun s h => H.getLogCopy_keeps h
  | finalize dir => exact SAct.Keeps.seq (hst _) fun s h => H.congr h rfl
  | clear => exact SAct.Keeps.seq (hst _) fun s h => H.congr h rfl

/-- Every finished call has its output among the user's tensors. -/
theorem calls_histInv [Semiring K] : HistInv (K := K) (fun s => ∀ c ∈ s.calls, c.out < s.user.length) fun _ => True where
  congr h e := by
    simp only [heapPart, Prod.mk.injEq] at e
    intro c hc
    rw [e.2.2.2.1] at hc
    rw [e.1]
    exact h c hc
  alloc h := ⟨h, trivial⟩
  user _ _ := trivial
  logged _ _ := trivial
  logUpdate {r} name ty _ s h := by
    intro c hc
    have h1 := (length_hookInv s.user.length).logUpdate name ty (r := r) trivial s rfl
    rw [show _ = _ from h1]
    apply h
    have hq := logUpdate_quiet name ty r s
    have h' := congrArg Sess.calls (show ({ (logUpdate name ty r s).1 with user := s.user, own := s.own, log := s.log, st := s.st } : Sess K) = s from hq)
    rw [← show _ = s.calls from h']
    exact hc
  calls h hy := by
    intro c hc
    rcases List.mem_append.1 hc with hc | hc
    · exact h c hc
    · rw [List.mem_singleton] at hc
      rw [hc]
      exact hy
  empty h := h

theorem history_calls [Field K] (E : SEnv K) (ops : List (SOp K)) (n : Nat) (t : Int) (fs : FS) :
    ∀ c ∈ (runHistory E ops (Sess.init n t fs)).calls, c.out < (runHistory E ops (Sess.init n t fs)).user.length :=
  history_keeps E (P := fun s => ∀ c ∈ s.calls, c.out < s.user.length)
    (fun o => HistInv.run_keeps calls_histInv E o (fun kw e s h => by subst e; exact h) fun t e s h => by
      subst e
      intro c hc
      have := h c hc
      show c.out < (s.user ++ [t]).length
      simp only [List.length_append]
      omega) ops _ (fun c hc => by cases hc)

end Logix
