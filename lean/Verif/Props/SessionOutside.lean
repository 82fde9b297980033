/-
C20, C26, what holds of them: without hooks nothing is logged; a batch that is not to be saved leaves nothing behind when its body raises.
-/
import Verif.Props.SessionSave
import Verif.Props.SessionHeap

namespace Logix
open Spec Sess
variable {K : Type}

/-! ### C20 -/

/-- No hook of LogIX is installed. -/
def NoHooks (s : Sess K) : Prop := s.pre = [] ∧ s.bwd = [] ∧ s.fwd = [] ∧ s.tens = []

theorem NoHooks.congr {s s' : Sess K} (h : NoHooks s) (e : s'.hookPart = s.hookPart) : NoHooks s' := by
  simp only [hookPart, Prod.mk.injEq] at e
  obtain ⟨_, b, _, d, _, f, _, i, _, _⟩ := e
  exact ⟨b.trans h.1, d.trans h.2.1, f.trans h.2.2.1, i.trans h.2.2.2⟩

theorem noHooks_structural : Structural (K := K) NoHooks := ⟨fun h hs => hs.congr h.hookPart, fun h hs => hs.congr h.hookPart⟩

/-- Without hooks a call of a module is only a call. -/
theorem forward_noHooks [Semiring K] (E : SEnv K) (mod x y : Nat) {s : Sess K} (h : NoHooks s) :
    (forward E mod x y s).1 = s ∨ (forward E mod x y s).1 = { s with calls := s.calls ++ [⟨y, mod, []⟩] } := by
  unfold forward
  split
  · exact Or.inl rfl
  · right
    have e1 : (s.pre.filter fun h => h.mod = mod) = [] := by rw [h.1]; rfl
    have e2 : (s.bwd.filter fun h => h.mod = mod) = [] := by rw [h.2.1]; rfl
    have e3 : (s.fwd.filter fun h => h.mod = mod) = [] := by rw [h.2.2.1]; rfl
    rw [e1, e2]
    show (SAct.each (fun h : ModHook => gradHook mod x y h.name) (s.fwd.filter fun h => h.mod = mod) _).1 = _
    rw [e3]
    rfl

theorem run_noHooks [Field K] (E : SEnv K) (o : SOp K) (h1 : o ≠ .enter) (h2 : ∀ ids mask, o ≠ .start ids mask)
    (h3 : ∀ d, o ≠ .watchActivation d) : (o.run E).Keeps NoHooks := by
  cases o with
  | alloc o => exact fun s h => h
  | forward mod x y =>
    intro s h
    show NoHooks (forward E mod x y s).1
    rcases forward_noHooks E mod x y h with e | e <;> rw [e] <;> exact h
  | gradAt y g => exact fun s h => noHooks_structural.quiet (gradAt_quiet E y g s) h
  | backward y g => exact fun s h => noHooks_structural.quiet (backward_quiet E y g s) h
  | watchActivation d => exact absurd rfl (h3 d)
  | call ids mask sv => exact fun s h => h
  | enter => exact absurd rfl h1
  | exit => exact fun s h => noHooks_structural.update_keeps E _ s h
  | start ids mask => exact absurd rfl (h2 ids mask)
  | «end» sv => exact fun s h => noHooks_structural.update_keeps E _ s h
  | log ids mask => exact fun s h => noHooks_structural.update_keeps E _ (s.setBatch ids mask) h
  | save b => exact fun s h => h
  | eval => exact fun s h => h
  | setup kw => exact fun s h => h
  | watch sel =>
    intro s h
    show NoHooks (Sess.watch sel s).1
    unfold Sess.watch
    dsimp only
    split <;> exact h
  | analysis o => exact fun s h => h.congr (stateOp_hookPart E o s)
  | getLogCopy => exact fun s h => h.congr (getLogCopy_quiet s).hookPart
  | finalize dir =>
    exact SAct.Keeps.seq (fun s h => h.congr (stateOp_hookPart E _ s)) fun s h => noHooks_structural.saveOnly (withSaver_saveOnly E _ s) h
  | clear =>
    refine SAct.Keeps.seq (fun s h => h.congr (stateOp_hookPart E _ s)) fun s h => ?_
    show NoHooks s.clearHooks
    unfold Sess.clearHooks NoHooks
    dsimp only
    rw [h.1, h.2.1, h.2.2.1, h.2.2.2]
    exact ⟨rfl, rfl, rfl, rfl⟩

theorem unhooked_noHooks [Field K] (E : SEnv K) (ops : List (SOp K)) : ∀ (s : Sess K) (b : Bool), Handles s → (b = true → NoHooks s) →
    (outcomes E ops s).foldl (fun b o => match o with
      | (.enter, _) => false
      | (.start _ _, _) => false
      | (.watchActivation _, _) => false
      | (.clear, none) => true
      | _ => b) b = true → NoHooks (runHistory E ops s) := by
  induction ops with
  | nil => exact fun s b _ h hb => h hb
  | cons o ops ih =>
    intro s b hs h hb
    refine ih (o.run E s).1 _ (run_handles E o s hs) ?_ hb
    intro hb'
    dsimp only at hb'
    cases o with
    | enter => cases hb'
    | start _ _ => cases hb'
    | watchActivation _ => cases hb'
    | clear =>
      cases hc : ((SOp.clear (K := K)).run E s).2 with
      | some e =>
        rw [hc] at hb'
        exact run_noHooks E .clear nofun nofun nofun s (h hb')
      | none =>
        have e : (SOp.clear (K := K)).run E s = ((SOp.clear.run E s).1, none) := Prod.ext rfl hc
        rw [show (SOp.clear (K := K)).run E s = Sess.clear E s from rfl] at e ⊢
        obtain ⟨u, hu, hv⟩ := SAct.seq_none e
        have hu' : Handles u := by
          have := hs.congr (stateOp_hookPart E .clear s)
          rw [hu] at this
          exact this
        have hv' : ({ u.clearHooks with modules := [], names := [], buffer := [], bufferSize := 0 } : Sess K) = (Sess.clear E s).1 := congrArg Prod.fst hv
        rw [← hv']
        exact (clearHooks_handles hu').2
    | _ => exact run_noHooks E _ (by intro e; cases e) (by intro _ _ e; cases e) (by intro _ e; cases e) s (h hb')

/-- **C20, partial.** While no context was opened yet, or none since the last `clear()`, running the model (with its own tensors, in any order,
with or without exceptions) changes neither the log, nor any statistic, nor any tensor, nor the save buffer and the directory. (After a
context was left it is false: the hooks stay until the next context or `clear()`.) -/
theorem C20_partial [Field K] (E : SEnv K) (ops : List (SOp K)) (n : Nat) (t : Int) (fs : FS)
    (hu : unhooked (outcomes E ops (Sess.init n t fs)) = true) (body : List (SOp K)) (hb : ∀ o ∈ body, IsRun o)
    (hw : ∀ d, SOp.watchActivation d ∉ body) :
    let s := runHistory E ops (Sess.init n t fs)
    let s' := runHistory E (body.map (shift s.user.length)) s
    s'.log = s.log ∧ s'.dataId = s.dataId ∧ s'.st = s.st ∧ s'.own = s.own ∧ s'.user = s.user ++ allocs body ∧
      s'.buffer = s.buffer ∧ s'.bufferSize = s.bufferSize ∧ s'.saver = s.saver ∧ s'.fs = s.fs := by
  intro s s'
  have h0 : NoHooks s := unhooked_noHooks E ops (Sess.init n t fs) true (init_handles n t fs) (fun _ => ⟨rfl, rfl, rfl, rfl⟩) hu
  have hc0 := history_calls E ops n t fs
  have key : ∀ (k : Nat) (body : List (SOp K)), (∀ o ∈ body, IsRun o) → (∀ d, SOp.watchActivation d ∉ body) → ∀ s : Sess K, NoHooks s →
      (∀ c ∈ s.calls, c.names = [] ∨ c.out < k) →
      ∃ calls, runHistory E (body.map (shift k)) s = { s with user := s.user ++ allocs body, calls := calls } := by
    intro k body
    induction body with
    | nil =>
      intro _ _ s _ _
      exact ⟨s.calls, by simp [runHistory, allocs]⟩
    | cons o body ih =>
      intro hb hw s hs hc
      have ihb := ih (fun o ho => hb o (List.mem_cons_of_mem _ ho)) (fun d hd => hw d (List.mem_cons_of_mem _ hd))
      have hskip : allocs [o] = [] → ((shift k o).run E s).1 = s → ∃ calls, runHistory E ((o :: body).map (shift k)) s =
          { s with user := s.user ++ allocs (o :: body), calls := calls } := by
        intro ha e
        obtain ⟨calls, h⟩ := ihb s hs hc
        refine ⟨calls, ?_⟩
        show runHistory E (body.map (shift k)) ((shift k o).run E s).1 = _
        rw [e, h]
        have : allocs (o :: body) = allocs [o] ++ allocs body := by simp [allocs]
        rw [this, ha]
        rfl
      cases hb o (List.mem_cons_self ..) with
      | alloc t =>
        obtain ⟨calls, h⟩ := ihb { s with user := s.user ++ [t] } hs hc
        refine ⟨calls, ?_⟩
        show runHistory E (body.map (shift k)) ({ s with user := s.user ++ [t] } : Sess K) = _
        rw [h]
        simp [allocs]
      | forward m x y =>
        rcases forward_noHooks E m (x + k) (y + k) hs with e | e
        · exact hskip rfl e
        · obtain ⟨calls, h⟩ := ihb { s with calls := s.calls ++ [⟨y + k, m, []⟩] } hs (by
            intro c hc'
            rcases List.mem_append.1 hc' with hc' | hc'
            · exact hc c hc'
            · rw [List.mem_singleton.1 hc']
              exact Or.inl rfl)
          refine ⟨calls, ?_⟩
          show runHistory E (body.map (shift k)) (forward E m (x + k) (y + k) s).1 = _
          rw [e, h]
          simp [allocs]
      | gradAt y g =>
        refine hskip rfl ?_
        show (gradAt E (y + k) (g + k) s).1 = s
        unfold gradAt
        rw [hs.2.2.2]
        rfl
      | backward y g =>
        refine hskip rfl ?_
        show (backward E (y + k) (g + k) s).1 = s
        unfold backward
        have : ∀ l : List PastCall, (∀ c ∈ l, c.names = []) →
            SAct.each (fun c => SAct.each (fun name => backwardHook E c.mod (g + k) name) c.names) l s = (s, none) := by
          intro l
          induction l with
          | nil => exact fun _ => rfl
          | cons c l ihl =>
            intro hl
            show SAct.seq (SAct.each _ c.names) _ s = _
            rw [hl c (List.mem_cons_self ..)]
            exact ihl fun c hc => hl c (List.mem_cons_of_mem _ hc)
        rw [this]
        intro c hc'
        obtain ⟨h1, h2⟩ := List.mem_filter.1 hc'
        rcases hc c h1 with h3 | h3
        · exact h3
        · simp only [decide_eq_true_eq] at h2
          omega
      | watchActivation d => exact absurd (List.mem_cons_self ..) (hw d)
  obtain ⟨calls, h⟩ := key s.user.length body hb hw s h0 fun c hc => Or.inr (hc0 c hc)
  have h' : s' = { s with user := s.user ++ allocs body, calls := calls } := h
  rw [h']
  exact ⟨rfl, rfl, rfl, rfl, rfl, rfl, rfl, rfl, rfl⟩

/-! ### C26 -/

/-- **C26, partial.** If saving was not requested for the batch and no gradient statistic is configured, ending the batch changes nothing at
all, wherever its body raised: the history may end at any point of the body. (If saving was requested it is false.) -/
theorem C26_partial [Field K] (E : SEnv K) (ops : List (SOp K)) (n : Nat) (t : Int) (fs : FS) (c : SOp K) (flag : Bool)
    (hc : Closes ops c flag) (hf : (flag || globalSave ops) = false) :
    let s := runHistory E ops (Sess.init n t fs)
    s.opt.grad.tail = [] → c.run E s = (s, none) := by
  intro s hg
  rw [show c.run E s = _ from closes_update E ops n t fs c flag hc, hf, update_eq]
  rw [show (runHistory E ops (Sess.init n t fs)).opt.grad.tail = [] from hg]
  rfl

end Logix
