/-
Lemmas about sessions: when only gradients are logged, the log has the gradients of watched modules and nothing else.
-/
import Verif.Props.SessionSave
import Verif.Props.SessionSum
import Verif.Lemmas.SessionBook
import Verif.Spec.SessionStats

set_option linter.unusedSectionVars false

namespace Logix
open Spec Sess
variable {K : Type}

/-- The log has gradients under names of watched modules, and hooks will log no others. -/
structure NamesInv (N : List PyStr) (s : Sess K) : Prop where
  fwdOpt : .log ∉ s.opt.forward
  bwdOpt : .log ∉ s.opt.backward
  tailOpt : .log ∉ s.opt.grad.tail
  names : ∀ e ∈ s.names, e.2 ∈ N
  fwd : ∀ h ∈ s.fwd, h.name ∈ N
  tens : ∀ h ∈ s.tens, ∀ mod x nm, h.fn = .grad mod x nm → nm ∈ N
  log : ∀ e ∈ s.log, e.1 ∈ N ∧ Dict.keys e.2 = [LogType.name .grad]
  nodup : (Dict.keys s.log).Nodup

variable {N : List PyStr}

/-- The invariant depends on these fields only. -/
theorem NamesInv.congr {s t : Sess K} (h : NamesInv N s) (h1 : t.opt = s.opt) (h2 : t.names = s.names) (h3 : t.fwd = s.fwd) (h4 : t.tens = s.tens)
    (h5 : t.log = s.log) : NamesInv N t :=
  ⟨by rw [h1]; exact h.fwdOpt, by rw [h1]; exact h.bwdOpt, by rw [h1]; exact h.tailOpt, by rw [h2]; exact h.names, by rw [h3]; exact h.fwd,
    by rw [h4]; exact h.tens, by rw [h5]; exact h.log, by rw [h5]; exact h.nodup⟩

theorem quiet_fields {s t : Sess K} (h : Quiet s t) : t.opt = s.opt ∧ t.names = s.names ∧ t.fwd = s.fwd ∧ t.tens = s.tens := by
  have h' := congrArg (fun x : Sess K => (x.opt, x.names, x.fwd, x.tens))
    (show ({ t with user := s.user, own := s.own, log := s.log, st := s.st } : Sess K) = s from h)
  simpa only [Prod.mk.injEq] using h'

theorem NamesInv.still {s t : Sess K} (h : NamesInv N s) (st : Still s t) : NamesInv N t := by
  obtain ⟨h1, h2, h3, h4⟩ := quiet_fields st.1
  exact h.congr h1 h2 h3 h4 st.2.2.1

theorem NamesInv.saveOnly {s t : Sess K} (h : NamesInv N s) (hs : SaveOnly s t) : NamesInv N t := by
  have h' := congrArg (fun x : Sess K => (x.opt, x.names, x.fwd, x.tens, x.log))
    (show ({ t with saver := s.saver, buffer := s.buffer, bufferSize := s.bufferSize, fs := s.fs } : Sess K) = s from hs)
  simp only [Prod.mk.injEq] at h'
  exact h.congr h'.1 h'.2.1 h'.2.2.1 h'.2.2.2.1 h'.2.2.2.2

theorem NamesInv.stOnly {s t : Sess K} (h : NamesInv N s) (hs : StOnly s t) : NamesInv N t := by
  have h' := congrArg (fun x : Sess K => (x.opt, x.names, x.fwd, x.tens, x.log)) (show ({ t with st := s.st } : Sess K) = s from hs)
  simp only [Prod.mk.injEq] at h'
  exact h.congr h'.1 h'.2.1 h'.2.2.1 h'.2.2.2.1 h'.2.2.2.2

theorem names_setBatch {s : Sess K} (h : NamesInv N s) (ids : List PyStr) (mask : Option (Tensor K)) : NamesInv N (s.setBatch ids mask) :=
  ⟨h.fwdOpt, h.bwdOpt, h.tailOpt, h.names, h.fwd, h.tens, (fun e he => nomatch he), List.nodup_nil⟩

theorem names_register {s : Sess K} (h : NamesInv N s) : NamesInv N (registerAllModuleHooks s.clearHooks).1 := by
  have hc : NamesInv N s.clearHooks :=
    ⟨h.fwdOpt, h.bwdOpt, h.tailOpt, h.names, fun x hx => h.fwd x (List.mem_filter.1 hx).1, fun x hx => h.tens x (List.mem_filter.1 hx).1, h.log, h.nodup⟩
  refine SAct.Keeps.each (P := NamesInv N) (fun m _ s hs => ?_) _ hc
  unfold registerModule
  split
  · exact hs
  · next name hn =>
    refine ⟨hs.fwdOpt, hs.bwdOpt, hs.tailOpt, hs.names, fun x hx => ?_, hs.tens, hs.log, hs.nodup⟩
    rcases List.mem_append.1 hx with hx | hx
    · exact hs.fwd x hx
    · rw [List.mem_singleton.1 hx]
      exact hs.names _ (Dict.mem_of_get? _ hn)

theorem names_registerTensor (y : Nat) (fn : HookFn) (hfn : ∀ mod x nm, fn = .grad mod x nm → nm ∈ N) : (registerTensorHook (K := K) y fn).Keeps (NamesInv N) := by
  intro s hs
  unfold registerTensorHook
  split
  · split
    · refine ⟨hs.fwdOpt, hs.bwdOpt, hs.tailOpt, hs.names, hs.fwd, fun x hx => ?_, hs.log, hs.nodup⟩
      rcases List.mem_append.1 hx with hx | hx
      · exact hs.tens x hx
      · rw [List.mem_singleton.1 hx]
        exact hfn
    · exact hs
  · exact hs

theorem keys_set_single {α : Type} (d : Dict PyStr α) (k : PyStr) (v : α) (h : Dict.keys d = [k]) : Dict.keys (Dict.set d k v) = [k] := by
  rw [Dict.keys_set, h, if_pos (List.mem_singleton.2 rfl)]

/-- A gradient of a watched module is logged. -/
theorem names_logUpdate [Semiring K] {name : PyStr} (hn : name ∈ N) (r : TRef) : (logUpdate (K := K) name (LogType.name .grad) r).Keeps (NamesInv N) := by
  intro s hs
  unfold logUpdate
  dsimp only
  split
  · next hg =>
    refine ⟨hs.fwdOpt, hs.bwdOpt, hs.tailOpt, hs.names, hs.fwd, hs.tens, fun e he => ?_, Dict.nodup_keys_set _ _ _ hs.nodup⟩
    rcases Dict.mem_set he with he | he
    · rw [he]
      refine ⟨hn, ?_⟩
      cases hl : Dict.get? s.log name with
      | none => rfl
      | some d => exact keys_set_single _ _ _ (hs.log _ (Dict.mem_of_get? _ hl)).2
    · exact hs.log e he
  · split
    · split
      · refine hs.congr ?_ ?_ ?_ ?_ ?_ <;> (unfold setVal; split <;> rfl)
      · exact hs
    · exact hs

theorem names_gradBackwardHook [Semiring K] (E : SEnv K) (mod x g : Nat) {name : PyStr} (hn : name ∈ N) : (gradBackwardHook E mod x g name).Keeps (NamesInv N) := by
  intro s hs
  unfold gradBackwardHook
  split
  · exact hs
  · exact hs
  · split
    · split
      · exact hs
      · dsimp only
        refine SAct.Keeps.each (P := NamesInv N) (fun p _ s hs => ?_) _ ((hs.still (alloc_still s _)).still (convert_still E _ _))
        unfold plugin
        split
        · exact names_logUpdate hn _ s hs
        · split
          · exact hs
          · dsimp only
            split <;> exact hs.congr rfl rfl rfl rfl rfl
    · exact hs

theorem names_update [Semiring K] (E : SEnv K) (b : Bool) : (update E b).Keeps (NamesInv N) := by
  intro s hs
  rw [update_eq]
  have h1 := hs.stOnly (gradStats_stOnly E _ hs.tailOpt s)
  unfold SAct.seq
  split
  · next h => rw [h] at h1; exact h1
  · next s' h =>
    rw [h] at h1
    cases b with
    | false => exact h1
    | true => exact h1.saveOnly (saveLog_saveOnly E s')

/-- Every operation of a program that logs keeps it. -/
theorem names_step [Field K] (E : SEnv K) {nm : PyStr} {o : SOp K} (ho : Logs nm o) : (o.run E).Keeps (NamesInv N) := by
  intro s hs
  cases o with
  | alloc a => exact hs.congr rfl rfl rfl rfl rfl
  | forward m x y =>
    show NamesInv N (Sess.forward E m x y s).1
    unfold Sess.forward
    split
    · exact hs
    · dsimp only
      refine SAct.Keeps.seq (P := NamesInv N) (SAct.Keeps.each fun h _ s hs => hs.still (forwardHook_still E m x h.name s hs.fwdOpt)) (SAct.Keeps.seq
        (fun s hs => hs.congr rfl rfl rfl rfl rfl) fun s hs => ?_) s hs
      refine SAct.Keeps.each (P := NamesInv N) (fun h hh => ?_) s hs
      refine names_registerTensor y _ fun mod x' nm' e => ?_
      cases e
      exact hs.fwd h (List.mem_filter.1 hh).1
  | gradAt y g =>
    show NamesInv N (Sess.gradAt E y g s).1
    unfold Sess.gradAt
    refine SAct.Keeps.each (P := NamesInv N) (fun h hh => ?_) s hs
    have hm := (List.mem_filter.1 hh).1
    obtain ⟨i, out, fn⟩ := h
    cases fn with
    | grad mod x name => exact names_gradBackwardHook E mod x g (hs.tens _ hm mod x name rfl)
    | activation name => exact fun s hs => hs.still (tensorBackwardHook_still E g name s hs.bwdOpt)
  | backward y g =>
    exact SAct.Keeps.each (P := NamesInv N) (fun c _ => SAct.Keeps.each fun name _ s hs => hs.still (backwardHook_still E c.mod g name s hs.bwdOpt)) s hs
  | watchActivation d =>
    refine SAct.Keeps.each (P := NamesInv N) (fun a _ => SAct.Keeps.seq (fun s hs => ?_) (names_registerTensor a.2 (.activation a.1) fun _ _ _ e => by cases e)) s hs
    have h2 := convert_still E s (.user a.2)
    refine hs.still (h2.trans (plugins_still E none a.1 .forward (s.convert E (.user a.2)).2 _ ?_ _))
    show .log ∉ (s.convert E (.user a.2)).1.opt.forward
    rw [opt_of_quiet h2.1]
    exact hs.fwdOpt
  | call ids mask sv => exact (names_setBatch hs ids mask).congr rfl rfl rfl rfl rfl
  | enter => exact names_register hs
  | exit => exact names_update E _ s hs
  | start ids mask => exact names_register (names_setBatch hs ids mask)
  | «end» b => exact names_update E _ s hs
  | log ids mask => exact names_update E false _ (names_setBatch hs ids mask)
  | save b => exact hs.congr rfl rfl rfl rfl rfl
  | eval => exact hs.congr rfl rfl rfl rfl rfl
  | setup kw => exact ho.elim
  | watch sel => exact ho.elim
  | analysis o => exact ho.elim
  | getLogCopy =>
    obtain ⟨l, hl⟩ := getLogCopy_makes s
    show NamesInv N s.getLogCopy.1
    rw [hl]
    exact hs.congr rfl rfl rfl rfl rfl
  | finalize dir => exact ho.elim
  | clear => exact ho.elim

end Logix
