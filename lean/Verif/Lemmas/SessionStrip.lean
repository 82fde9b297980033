/-
Lemmas about sessions: the batch log does not depend on the statistics, as long as they raise nothing.
-/
import Verif.Lemmas.SessionQuiet
import Verif.Spec.Session

namespace Logix
variable {K : Type}
open Spec

/-- The options without the statistics. -/
def LogOption.logOnly (o : LogOption) : LogOption :=
  ⟨o.forward.filter (· = .log), o.backward.filter (· = .log), o.grad.filter (· = .log)⟩

/-- The session without the statistics. -/
def Sess.strip (s : Sess K) : Sess K := { s with st := LState.init, opt := s.opt.logOnly }

/-- If the step raises nothing, it does the same without the statistics. -/
def Strips (f f' : SAct K) : Prop := ∀ s t, f s = (t, none) → f' s.strip = (t.strip, none)

theorem Strips.seq {f f' g g' : SAct K} (hf : Strips f f') (hg : Strips g g') : Strips (f.seq g) (f'.seq g') := by
  intro s t h
  obtain ⟨u, h1, h2⟩ := SAct.seq_none h
  rw [SAct.seq_eq (hf s u h1)]
  exact hg u t h2

theorem Strips.each {α : Type} {f f' : α → SAct K} {l : List α} (h : ∀ a ∈ l, Strips (f a) (f' a)) : Strips (SAct.each f l) (SAct.each f' l) := by
  induction l with
  | nil =>
    intro s t h
    cases h
    rfl
  | cons a l ih => exact Strips.seq (h a (List.mem_cons_self ..)) (ih fun b hb => h b (List.mem_cons_of_mem _ hb))

/-- Steps that have nothing to do with statistics and options. -/
theorem Strips.of_eq {f f' : SAct K} (h : ∀ s, f' s.strip = ((f s).1.strip, (f s).2)) : Strips f f' := by
  intro s t e
  rw [h, e]

namespace Sess

theorem strip_setVal (s : Sess K) (r : TRef) (v : Tensor K) : s.strip.setVal r v = (s.setVal r v).strip := by cases r <;> rfl

theorem logUpdate_strip [Semiring K] (name ty : PyStr) (r : TRef) (s : Sess K) :
    logUpdate name ty r s.strip = ((logUpdate name ty r s).1.strip, (logUpdate name ty r s).2) := by
  unfold logUpdate
  rw [show s.strip.log = s.log from rfl]
  dsimp only
  cases Dict.get? ((Dict.get? s.log name).getD []) ty with
  | none => rfl
  | some r₀ =>
    dsimp only
    rw [show s.strip.obj r₀ = s.obj r₀ from by cases r₀ <;> rfl, show s.strip.obj r = s.obj r from by cases r <;> rfl]
    cases s.obj r₀ with
    | none => rfl
    | some a =>
      cases s.obj r with
      | none => rfl
      | some b =>
        dsimp only
        cases a.val.add_ b.val with
        | error e => rfl
        | ok v =>
          dsimp only
          rw [strip_setVal]

theorem strip_obj (s : Sess K) (r : TRef) : s.strip.obj r = s.obj r := by cases r <;> rfl

theorem plugins_strip [Semiring K] (E : SEnv K) (mod : Option ModKind) (name : PyStr) (ty : LogType) (r : TRef) (ps : List Plugin) :
    Strips (SAct.each (plugin E mod name ty r) ps) (SAct.each (plugin E mod name ty r) (ps.filter (· = .log))) := by
  induction ps with
  | nil =>
    intro s t h
    cases h
    rfl
  | cons p ps ih =>
    by_cases hp : p = .log
    · rw [List.filter_cons_of_pos (by simpa using hp)]
      refine Strips.seq (Strips.of_eq fun s => ?_) ih
      rw [hp]
      exact logUpdate_strip _ _ _ _
    · rw [List.filter_cons_of_neg (by simpa using hp)]
      intro s t h
      obtain ⟨u, h1, h2⟩ := SAct.seq_none h
      have h3 := ih u t h2
      have hu : u.strip = s.strip := by
        unfold plugin at h1
        cases p with
        | log => exact absurd rfl hp
        | mean | variance | covariance | correctedEigval =>
          dsimp only at h1
          split at h1
          · cases h1
          · split at h1
            · cases h1
              rfl
            · cases h1
      rw [← hu]
      exact h3

theorem convert_strip (E : SEnv K) (s : Sess K) (r : TRef) : s.strip.convert E r = ((s.convert E r).1.strip, (s.convert E r).2) := by
  unfold convert
  rw [strip_obj]
  cases E.dtype with
  | none => rfl
  | some d =>
    cases s.obj r with
    | none => rfl
    | some o =>
      dsimp only
      split <;> rfl

theorem masked_strip [Semiring K] (s : Sess K) (r : TRef) : s.strip.masked r = ((s.masked r).1.strip, (s.masked r).2) := by
  unfold masked
  rw [strip_obj]
  cases s.obj r with
  | none => rfl
  | some o =>
    dsimp only
    rw [show s.strip.mask = s.mask from rfl]
    cases maskActivations s.mask o.val with
    | error e => rfl
    | ok v =>
      dsimp only
      split <;> rfl

theorem forwardHook_strip [Semiring K] (E : SEnv K) (mod x : Nat) (name : PyStr) : Strips (forwardHook E mod x name) (forwardHook E mod x name) := by
  intro s t h
  unfold forwardHook at h ⊢
  rw [masked_strip]
  cases hm : s.masked (.user x) with
  | mk s' r =>
    rw [hm] at h
    cases r with
    | error e => cases h
    | ok r =>
      dsimp only at h ⊢
      rw [convert_strip]
      exact plugins_strip E _ _ _ _ _ _ _ h

theorem backwardHook_strip [Semiring K] (E : SEnv K) (mod g : Nat) (name : PyStr) : Strips (backwardHook E mod g name) (backwardHook E mod g name) := by
  intro s t h
  unfold backwardHook at h ⊢
  rw [convert_strip]
  exact plugins_strip E _ _ _ _ _ _ _ h

theorem tensorBackwardHook_strip [Semiring K] (E : SEnv K) (g : Nat) (name : PyStr) :
    Strips (tensorBackwardHook E g name) (tensorBackwardHook E g name) := by
  intro s t h
  unfold tensorBackwardHook at h ⊢
  rw [convert_strip]
  exact plugins_strip E _ _ _ _ _ _ _ h

theorem gradHookCheck_logOnly (o : LogOption) (b : Bool) (h : gradHookCheck o = .ok b) :
    gradHookCheck o.logOnly = .ok b ∧ o.logOnly.grad.take 1 = (o.grad.take 1).filter (· = .log) := by
  unfold gradHookCheck LogOption.logOnly at *
  cases hg : o.grad with
  | nil =>
    rw [hg] at h
    exact ⟨h, rfl⟩
  | cons p ps =>
    rw [hg] at h
    dsimp only at h ⊢
    split at h
    · next hp =>
      subst hp
      exact ⟨h, rfl⟩
    · cases h

theorem gradBackwardHook_strip [Semiring K] (E : SEnv K) (mod x g : Nat) (name : PyStr) :
    Strips (gradBackwardHook E mod x g name) (gradBackwardHook E mod x g name) := by
  intro s t h
  unfold gradBackwardHook at h ⊢
  cases hc : gradHookCheck s.opt with
  | error e =>
    rw [hc] at h
    cases h
  | ok b =>
    rw [hc] at h
    have hc' := gradHookCheck_logOnly s.opt b hc
    rw [show s.strip.opt = s.opt.logOnly from rfl, hc'.1]
    cases b with
    | false =>
      cases h
      rfl
    | true =>
      dsimp only at h ⊢
      rw [strip_obj, strip_obj]
      cases ha : s.obj (.user x) with
      | none =>
        rw [ha] at h
        cases h
      | some a =>
        cases hb : s.obj (.user g) with
        | none =>
          rw [ha, hb] at h
          cases h
        | some b =>
          rw [ha, hb] at h
          dsimp only at h ⊢
          cases hv : computePerSampleGradient a.val b.val (E.kind mod) with
          | error e =>
            rw [hv] at h
            cases h
          | ok v =>
            rw [hv] at h
            dsimp only at h ⊢
            have ea : s.strip.alloc ⟨v, b.dtype, false, true⟩ =
                ((s.alloc ⟨v, b.dtype, false, true⟩).1.strip, (s.alloc ⟨v, b.dtype, false, true⟩).2) := rfl
            rw [ea, convert_strip]
            have ho : ((s.alloc ⟨v, b.dtype, false, true⟩).1.convert E (s.alloc ⟨v, b.dtype, false, true⟩).2).1.opt = s.opt := by
              have h' := congrArg Sess.opt (show ({ ((s.alloc ⟨v, b.dtype, false, true⟩).1.convert E (s.alloc ⟨v, b.dtype, false, true⟩).2).1 with
                user := _, own := _, log := _, st := _ } : Sess K) = _ from
                  convert_quiet E (s.alloc ⟨v, b.dtype, false, true⟩).1 (s.alloc ⟨v, b.dtype, false, true⟩).2)
              exact h'
            have := plugins_strip E _ _ _ _ _ _ _ h
            rw [ho] at this
            rw [← hc'.2] at this
            show SAct.each _ ((((s.alloc ⟨v, b.dtype, false, true⟩).1.convert E (s.alloc ⟨v, b.dtype, false, true⟩).2).1.opt.logOnly.grad.take 1)) _ = _
            rw [ho]
            exact this

theorem registerTensorHook_strip (y : Nat) (fn : HookFn) : Strips (registerTensorHook (K := K) y fn) (registerTensorHook y fn) := by
  refine Strips.of_eq fun s => ?_
  unfold registerTensorHook
  rw [strip_obj]
  cases s.obj (.user y) with
  | none => rfl
  | some o =>
    dsimp only
    split <;> rfl

theorem forward_strip [Semiring K] (E : SEnv K) (mod x y : Nat) : Strips (forward E mod x y) (forward E mod x y) := by
  intro s t h
  unfold forward at h ⊢
  rw [show s.strip.user = s.user from rfl]
  split at h
  · cases h
  · next hn =>
    rw [if_neg hn]
    refine Strips.seq (Strips.each fun a _ => forwardHook_strip E mod x a.name) (Strips.seq ?_ ?_) s t h
    · exact Strips.of_eq fun s => rfl
    · intro s t h
      exact Strips.each (fun (a : ModHook) _ => registerTensorHook_strip y (.grad mod x a.name)) s t h

theorem gradAt_strip [Semiring K] (E : SEnv K) (y g : Nat) : Strips (gradAt E y g) (gradAt E y g) := by
  intro s t h
  refine Strips.each (fun (a : TensorHook) _ => ?_) s t h
  obtain ⟨i, o, fn⟩ := a
  cases fn with
  | grad m x n => exact gradBackwardHook_strip E m x g n
  | activation n => exact tensorBackwardHook_strip E g n

theorem backward_strip [Semiring K] (E : SEnv K) (y g : Nat) : Strips (backward E y g) (backward E y g) := by
  intro s t h
  exact Strips.each (fun (c : PastCall) _ => Strips.each fun n _ => backwardHook_strip E c.mod g n) s t h

theorem watchActivation_strip [Semiring K] (E : SEnv K) (d : List (PyStr × Nat)) : Strips (watchActivation E d) (watchActivation E d) := by
  refine Strips.each fun e _ => Strips.seq ?_ (registerTensorHook_strip _ _)
  intro s t h
  dsimp only at h ⊢
  rw [convert_strip]
  exact plugins_strip E _ _ _ _ _ _ _ h

end Sess

open Sess

theorem run_strip [Field K] (E : SEnv K) {o : SOp K} (ho : IsRun o) : Strips (o.run E) (o.run E) := by
  cases ho with
  | alloc o => exact Strips.of_eq fun s => rfl
  | forward m x y => exact forward_strip E m x y
  | gradAt y g => exact gradAt_strip E y g
  | backward y g => exact backward_strip E y g
  | watchActivation d => exact watchActivation_strip E d

theorem runs_strip [Field K] (E : SEnv K) {ops : List (SOp K)} (ho : ∀ o ∈ ops, IsRun o) :
    Strips (SAct.each (SOp.run E) ops) (SAct.each (SOp.run E) ops) := Strips.each fun o h => run_strip E (ho o h)

theorem seen_strip (s : Sess K) : seen s.strip = seen s := by
  unfold seen view
  refine Prod.ext rfl ?_
  apply List.map_congr_left
  intro m _
  refine Prod.ext rfl ?_
  apply List.map_congr_left
  intro t _
  exact Prod.ext rfl (strip_obj s t.2)

end Logix
