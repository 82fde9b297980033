/-
C111: what a program saves is the data of the program.
-/
import Verif.Props.SessionStats
import Verif.Props.SessionStored
import Verif.Spec.SessionSaves

set_option linter.unusedSectionVars false

namespace Logix
open Spec Sess
variable {K : Type} [Field K]

theorem registerAll_dataId (ms : List Nat) : ∀ s : Sess K, (SAct.each registerModule ms s).1.dataId = s.dataId := by
  induction ms with
  | nil => exact fun s => rfl
  | cons m ms ih =>
    intro s
    have : (registerModule m s).1.dataId = s.dataId := by
      unfold registerModule
      split <;> rfl
    show ((registerModule m).seq (SAct.each registerModule ms) s).1.dataId = _
    unfold SAct.seq
    split
    · next s' e h => rw [h] at this; exact this
    · next s' h =>
      rw [h] at this
      exact (ih s').trans this

/-- The session agrees with the reader about saving. -/
def Agrees (f : Saving) (s : Sess K) : Prop := s.dataId.getD [] = f.ids ∧ s.saveBatch = f.batch ∧ s.save = f.always

theorem agrees_step (E : SEnv K) {f : Saving} {s : Sess K} (h : Agrees f s) (o : SOp K) : Agrees (f.step o) (o.run E s).1 := by
  obtain ⟨h1, h2, h3⟩ := h
  obtain ⟨f1, f2⟩ := flags_step E s o
  have hp : Plain o → (o.run E s).1.dataId = s.dataId := by
    intro ho
    have := ho.configPart E s
    simp only [Logix.configPart, Prod.mk.injEq] at this
    exact this.2.2.2.2.2.1
  have hd : (o.run E s).1.dataId.getD [] = (f.step o).ids := by
    cases o with
    | alloc o => rw [hp (.run (.alloc o))]; exact h1
    | forward m x y => rw [hp (.run (.forward m x y))]; exact h1
    | gradAt y g => rw [hp (.run (.gradAt y g))]; exact h1
    | backward y g => rw [hp (.run (.backward y g))]; exact h1
    | watchActivation d => rw [hp (.run (.watchActivation d))]; exact h1
    | call ids mask sv => rfl
    | enter => rw [show (SOp.run E .enter s).1.dataId = s.dataId from registerAll_dataId _ _]; exact h1
    | exit => rw [hp .exit]; exact h1
    | start ids mask => rw [show (SOp.run E (.start ids mask) s).1.dataId = some ids from registerAll_dataId _ _]; rfl
    | «end» b => rw [hp (.end b)]; exact h1
    | log ids mask =>
      have := update_configPart E false (s.setBatch ids mask)
      simp only [Logix.configPart, Prod.mk.injEq] at this
      rw [show (SOp.run E (.log ids mask) s).1.dataId = some ids from this.2.2.2.2.2.1]; rfl
    | save e => exact h1
    | eval => exact h1
    | setup kw => exact h1
    | watch sel =>
      rw [show (SOp.run E (.watch sel) s).1.dataId = s.dataId by
        show (Sess.watch sel s).1.dataId = s.dataId
        unfold Sess.watch
        dsimp only
        split <;> rfl]
      exact h1
    | analysis o => rw [hp (.analysis o)]; exact h1
    | getLogCopy => rw [hp .getLogCopy]; exact h1
    | finalize d => rw [hp (.finalize d)]; exact h1
    | clear =>
      rw [show (SOp.run E .clear s).1.dataId = s.dataId by
        show (Sess.clear E s).1.dataId = _
        unfold Sess.clear SAct.seq stateOp
        cases hs : stepOp E.lib s.st .clear <;> rfl]
      exact h1
  refine ⟨hd, ?_, ?_⟩
  · rw [f2]
    cases o <;> first | exact h2 | rfl
  · rw [f1]
    cases o <;> first | exact h3 | rfl

theorem agrees_history (E : SEnv K) (ops : List (SOp K)) : ∀ (f : Saving) (s : Sess K), Agrees f s →
    Agrees (ops.foldl Saving.step f) (runHistory E ops s) := by
  induction ops with
  | nil => exact fun f s h => h
  | cons o ops ih => exact fun f s h => ih _ _ (agrees_step E h o)

theorem saves_append (a b : List (LogOp K)) : saves (a ++ b) = saves a ++ saves b := by
  induction a with
  | nil => rfl
  | cons o a ih => cases o <;> simp [saves, ih]

theorem handed_append (E : SEnv K) (a b : List (SOp K)) : ∀ s, handed E (a ++ b) s = handed E a s ++ handed E b (runHistory E a s) := by
  induction a with
  | nil => exact fun s => rfl
  | cons o a ih =>
    intro s
    show handedBy s o ++ handed E (a ++ b) _ = _
    rw [ih]
    show _ = (handedBy s o ++ handed E a _) ++ _
    rw [List.append_assoc]
    rfl

theorem runHistory_append (E : SEnv K) (a b : List (SOp K)) : ∀ s, runHistory E (a ++ b) s = runHistory E b (runHistory E a s) := by
  induction a with
  | nil => exact fun s => rfl
  | cons o a ih => exact fun s => ih _

theorem history_each (E : SEnv K) (ops : List (SOp K)) : ∀ (s t : Sess K), SAct.each (SOp.run E) ops s = (t, none) → runHistory E ops s = t := by
  induction ops with
  | nil => intro s t h; cases h; rfl
  | cons o ops ih =>
    intro s t h
    obtain ⟨u, h1, h2⟩ := SAct.seq_none h
    show runHistory E ops (o.run E s).1 = t
    rw [h1]
    exact ih u t h2

/-- The tensor of a module among the tensors in the log. -/
theorem item_tensors {s : Sess K} {nm ty : PyStr} (h : ∀ r, logRef s nm ty = some r → (s.obj r).isSome) : item (tensors s) nm ty = logged s nm ty := by
  have h1 : ∀ l : List (PyStr × Dict PyStr TRef), Dict.get? (l.map fun m => (m.1, m.2.filterMap fun t => (s.obj t.2).map fun o => (t.1, o.val))) nm =
      (Dict.get? l nm).map fun d => d.filterMap fun t => (s.obj t.2).map fun o => (t.1, o.val) := by
    intro l
    induction l with
    | nil => rfl
    | cons a l ih =>
      rw [List.map_cons, Dict.get?_cons, Dict.get?_cons]
      split
      · rfl
      · exact ih
  unfold item tensors logged
  rw [h1]
  unfold logRef at h
  cases hd : Dict.get? s.log nm with
  | none => rfl
  | some d =>
    rw [hd] at h
    simp only [Option.bind_some, Option.map_some] at h ⊢
    clear h1 hd
    induction d with
    | nil => rfl
    | cons a d ih =>
      rw [Dict.get?_cons] at h ⊢
      by_cases ha : a.1 = ty
      · rw [if_pos ha] at h ⊢
        obtain ⟨o, ho⟩ := Option.isSome_iff_exists.1 (h _ rfl)
        rw [List.filterMap_cons, ho]
        simp only [Option.map_some]
        rw [Dict.get?_cons, if_pos ha, Option.bind_some, ho]
        rfl
      · rw [if_neg ha] at h ⊢
        rw [List.filterMap_cons]
        cases ho : s.obj a.2 with
        | none => exact ih h
        | some o =>
          simp only [Option.map_some]
          rw [Dict.get?_cons, if_neg ha]
          exact ih h

theorem logWF_obj {s : Sess K} (h : LogWF s) (nm ty : PyStr) (r : TRef) (hr : logRef s nm ty = some r) : (s.obj r).isSome := by
  obtain ⟨n, rfl, hn⟩ := h.own nm ty r hr
  show (s.own[n]?).isSome
  simp [hn]

/-- What an operation hands to the saver. -/
theorem handedBy_saves {f : Saving} {s : Sess K} (h : Agrees f s) (k : Nat) (o : SOp K) :
    saves (handedBy s (shift k o)) = if f.ends o then [(f.ids, tensors s)] else [] := by
  obtain ⟨h1, h2, h3⟩ := h
  cases o with
  | exit =>
    show saves (if s.saveBatch || s.save then _ else _) = if f.batch || f.always then _ else _
    rw [h1, h2, h3]
    split <;> rfl
  | «end» b =>
    show saves (if b || s.save then _ else _) = if b || f.always then _ else _
    rw [h1, h3]
    split <;> rfl
  | _ => rfl

/-- The gradients in the log, as far as the first `k` tensors are not the program's. -/
def HoldsAt (E : SEnv K) (U : List (TObj K)) (m k : Nat) (arrived : List (Nat × Nat)) (g : Option (Tensor K)) : Prop :=
  (arrived = [] ∧ g = none) ∨ ∃ T, g = some T ∧ ∃ vs, List.Forall₂ (PerSample E U m k) arrived vs ∧ IsSum vs T

theorem ins_holds {E : SEnv K} {opt : LogOption} {U : List (TObj K)} {m k : Nat} {nm : PyStr} {bk : Book K} {s : Sess K} (h : Ins E opt U m k nm bk s)
    (hg : opt.grad.head? = some .log) : HoldsAt E U m k bk.arrived (item (tensors s) nm (LogType.name .grad)) := by
  rw [item_tensors (logWF_obj h.wf nm _)]
  obtain ⟨vs, h1, h2⟩ := h.grads hg
  rcases accum_none vs _ h2 with ⟨rfl, h3⟩ | ⟨T, h3, h4⟩
  · exact Or.inl ⟨List.forall₂_nil_right_iff.1 h1, h3⟩
  · exact Or.inr ⟨T, h3, vs, h1, h4⟩

theorem body_saved {E : SEnv K} {opt : LogOption} {U : List (TObj K)} {k : Nat} (hf : .log ∉ opt.forward) (hb : .log ∉ opt.backward)
    (ht : .log ∉ opt.grad.tail) (hg : opt.grad.head? = some .log) (keys : List PyStr) (mods : PyStr → Nat) (body : List (SOp K)) :
    ∀ (f : Saving) (bk : Nat → Book K) (s t : Sess K), (∀ o ∈ body, ∀ nm ∈ keys, Logs nm o) → Agrees f s →
      (∀ nm ∈ keys, Ins E opt U (mods nm) k nm (bk (mods nm)) s ∧ s.user ++ allocs body = U) →
      SAct.each (SOp.run E) (body.map (shift k)) s = (t, none) →
      List.Forall₂ (fun u b => b.1 = u.1 ∧ ∀ nm ∈ keys, HoldsAt E U (mods nm) k (u.2 (mods nm)) (item b.2 nm (LogType.name .grad)))
        (savedBatches f bk body) (saves (handed E (body.map (shift k)) s)) := by
  induction body with
  | nil => exact fun f bk s t _ _ _ _ => .nil
  | cons o body ih =>
    intro f bk s t hl ha hi h
    obtain ⟨u, h1, h2⟩ := SAct.seq_none h
    have hu : ((shift k o).run E s).1 = u := by rw [h1]
    have ha' : Agrees (f.step o) u := by
      have := agrees_step E ha (shift k o)
      rw [hu] at this
      cases o <;> exact this
    have hal : allocs (o :: body) = allocs [o] ++ allocs body := by simp [allocs]
    have key := ih (f.step o) (fun m => (bk m).step m o) u t (fun o ho => hl o (List.mem_cons_of_mem _ ho)) ha' (fun nm hm => by
      obtain ⟨hi, hU⟩ := hi nm hm
      rw [hal, ← List.append_assoc] at hU
      obtain ⟨h3, h4, -⟩ := run_step (Q := fun _ => True) hf hb ht o (hl o (List.mem_cons_self ..) nm hm) (by cases o <;> trivial) hi ⟨_, hU⟩ h1
      exact ⟨h3, by rw [h4]; exact hU⟩) h2
    show List.Forall₂ _ ((if f.ends o then _ else _) ++ _) (saves (handedBy s (shift k o) ++ handed E (body.map (shift k)) ((shift k o).run E s).1))
    rw [saves_append, hu, handedBy_saves ha]
    refine List.rel_append ?_ key
    split
    · exact .cons ⟨rfl, fun nm hm => ins_holds (hi nm hm).1 hg⟩ .nil
    · exact .nil

theorem saves_context (E : SEnv K) {ctx : List (SOp K)} {ids : List PyStr} {mask : Option (Tensor K)} (hx : Context ctx ids mask) (s : Sess K) :
    saves (handed E ctx s) = [] := by
  cases hx <;> rfl

/-- **C111, what is handed to the saver.** After any history, let modules be watched (each once, under a name of its own), gradients be logged, and raw
inputs and output gradients not. A batch context is opened, in either interface, and any program of model runs and further batches goes on from
there without exception. The batches that are handed to the saver are, in order, those that the program asked to save (`Saving`), with the ids
of the batch, and for each of these modules with the gradient of the batch: the sum of the per-sample gradients of the uses of the module
whose output gradients arrived in the batch. -/
theorem C111_handed (E : SEnv K) (ops : List (SOp K)) (n : Nat) (th : Int) (fs : FS) (ctx : List (SOp K)) (ids : List PyStr) (mask : Option (Tensor K))
    (hx : Context ctx ids mask) (body : List (SOp K)) (keys : List PyStr) (mods : PyStr → Nat) (hbody : ∀ o ∈ body, ∀ nm ∈ keys, Logs nm o) :
    let s := runHistory E ops (Sess.init n th fs)
    OnlyStatistics s.opt → s.opt.grad.head? = some .log → (∀ nm ∈ keys, Watches s (mods nm) nm) →
    ∀ t, SAct.each (SOp.run E) (ctx ++ body.map (shift s.user.length)) s = (t, none) →
    List.Forall₂ (fun u b => b.1 = u.1 ∧ ∀ nm ∈ keys, HoldsGrad (allocs body) (E.kind (mods nm)) (u.2 (mods nm)) (item b.2 nm (LogType.name .grad)))
      (savedBatches (Saving.after (ops ++ ctx)) (fun _ => ⟨mask, [], [], []⟩) body)
      (saves (handed E (ctx ++ body.map (shift s.user.length)) s)) := by
  intro s ho hg hw t ht
  rw [SAct.each_append] at ht
  obtain ⟨u, h1, h2⟩ := SAct.seq_none ht
  have hu := history_each E ctx s u h1
  rw [handed_append, hu, saves_append, saves_context E hx, List.nil_append]
  have hag : Agrees (Saving.after (ops ++ ctx)) u := by
    have := agrees_history E (ops ++ ctx) ⟨[], false, false⟩ (Sess.init n th fs) ⟨rfl, rfl, rfl⟩
    rw [runHistory_append] at this
    rw [← hu]
    exact this
  refine (body_saved (U := s.user ++ allocs body) ho.1 ho.2.1 ho.2.2 hg keys mods body _ _ u t hbody hag (fun nm hm => ?_) h2).imp ?_
  · obtain ⟨hi, hu, -⟩ := context_opens (U := s.user ++ allocs body) (history_handles E ops n th fs) (history_calls E ops n th fs) (hw nm hm)
      (List.prefix_append ..) hx h1
    exact ⟨hi, by rw [hu]⟩
  · rintro a b ⟨e1, e2⟩
    refine ⟨e1, fun nm hm => ?_⟩
    rcases e2 nm hm with h | ⟨T, h, vs, e3, e4⟩
    · exact Or.inl h
    · refine Or.inr ⟨T, h, vs, e3.imp ?_, e4⟩
      rintro w v ⟨a, b, f1, f2, f3⟩
      rw [get_shift] at f1 f2
      exact ⟨a, b, f1, f2, f3⟩

end Logix
