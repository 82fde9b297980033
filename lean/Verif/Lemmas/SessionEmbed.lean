/-
Lemmas about sessions: a run of the model inside a session that has a past is the same run in a session without one.
-/
import Verif.Lemmas.SessionHooks
import Verif.Lemmas.SessionSave
import Verif.Spec.Session

namespace Logix
variable {K : Type}
open Spec

/-- References seen from a session with more tensors. -/
def TRef.shift (u o : Nat) : TRef → TRef
  | .user n => .user (n + u)
  | .own n => .own (n + o)

def HookFn.shift (u : Nat) : HookFn → HookFn
  | .grad m x n => .grad m (x + u) n
  | .activation n => .activation n

/-- The past of a session: tensors, calls, handles given out, and what is not involved in running the model. -/
structure Past (K : Type) where
  user : List (TObj K)
  own : List (TObj K)
  calls : List PastCall
  ids : Nat
  rest : Sess K
  old : ∀ c ∈ calls, c.out < user.length

namespace Past

def modHook (p : Past K) (h : ModHook) : ModHook := ⟨h.id + p.ids, h.mod, h.name⟩
def tensorHook (p : Past K) (h : TensorHook) : TensorHook := ⟨h.id + p.ids, h.out + p.user.length, h.fn.shift p.user.length⟩
def call (p : Past K) (c : PastCall) : PastCall := ⟨c.out + p.user.length, c.mod, c.names⟩
def ref (p : Past K) (r : TRef) : TRef := r.shift p.user.length p.own.length
def types (p : Past K) (l : Dict PyStr TRef) : Dict PyStr TRef := l.map fun t => (t.1, p.ref t.2)
def log (p : Past K) (l : Dict PyStr (Dict PyStr TRef)) : Dict PyStr (Dict PyStr TRef) := l.map fun m => (m.1, p.types m.2)

/-- The session with this past. -/
def embed (p : Past K) (s : Sess K) : Sess K :=
  { p.rest with
    user := p.user ++ s.user
    own := p.own ++ s.own
    nextId := s.nextId + p.ids
    pre := s.pre.map p.modHook
    bwd := s.bwd.map p.modHook
    fwd := s.fwd.map p.modHook
    tens := s.tens.map p.tensorHook
    calls := p.calls ++ s.calls.map p.call
    opt := s.opt
    modules := s.modules
    names := s.names
    hPre := s.hPre.map (· + p.ids)
    hBwd := s.hBwd.map (· + p.ids)
    hFwd := s.hFwd.map (· + p.ids)
    hTens := s.hTens.map (· + p.ids)
    dataId := s.dataId
    mask := s.mask
    log := p.log s.log
    st := s.st }

end Past

/-- The step `f'` does with the past what `f` does without. -/
def Comm (p : Past K) (f f' : SAct K) : Prop := ∀ s, f' (p.embed s) = (p.embed (f s).1, (f s).2)

theorem Comm.seq {p : Past K} {f f' g g' : SAct K} (hf : Comm p f f') (hg : Comm p g g') : Comm p (f.seq g) (f'.seq g') := by
  intro s
  unfold SAct.seq
  rw [hf s]
  cases h : f s with
  | mk s' e =>
    cases e with
    | some e => rfl
    | none => exact hg s'

theorem Comm.each {α β : Type} {p : Past K} {f : α → SAct K} {f' : β → SAct K} {g : α → β} {l : List α}
    (h : ∀ a ∈ l, Comm p (f a) (f' (g a))) : Comm p (SAct.each f l) (SAct.each f' (l.map g)) := by
  induction l with
  | nil => exact fun s => rfl
  | cons a l ih => exact Comm.seq (h a (List.mem_cons_self ..)) (ih fun b hb => h b (List.mem_cons_of_mem _ hb))

theorem Comm.each_same {α : Type} {p : Past K} {f f' : α → SAct K} {l : List α} (h : ∀ a ∈ l, Comm p (f a) (f' a)) :
    Comm p (SAct.each f l) (SAct.each f' l) := by
  have := Comm.each (g := id) h
  rwa [List.map_id] at this

namespace Sess
variable (p : Past K)

theorem embed_obj (s : Sess K) (r : TRef) : (p.embed s).obj (p.ref r) = s.obj r := by
  cases r with
  | user n =>
    show (p.user ++ s.user)[n + p.user.length]? = s.user[n]?
    rw [List.getElem?_append_right (Nat.le_add_left ..), Nat.add_sub_cancel]
  | own n =>
    show (p.own ++ s.own)[n + p.own.length]? = s.own[n]?
    rw [List.getElem?_append_right (Nat.le_add_left ..), Nat.add_sub_cancel]

theorem embed_obj_user (s : Sess K) (n : Nat) : (p.embed s).obj (.user (n + p.user.length)) = s.obj (.user n) := embed_obj p s (.user n)

theorem embed_alloc (s : Sess K) (o : TObj K) : (p.embed s).alloc o = (p.embed (s.alloc o).1, p.ref (s.alloc o).2) := by
  unfold alloc
  refine Prod.ext ?_ ?_
  · simp only [Past.embed, List.append_assoc]
  · show TRef.own (p.own ++ s.own).length = TRef.own (s.own.length + p.own.length)
    rw [List.length_append, Nat.add_comm]

theorem modify_append_right {α : Type _} (a b : List α) (n : Nat) (f : α → α) :
    (a ++ b).modify (n + a.length) f = a ++ b.modify n f := by
  induction a with
  | nil => rfl
  | cons x a ih =>
    show (x :: (a ++ b)).modify (n + a.length + 1) f = x :: (a ++ b.modify n f)
    rw [List.modify_succ_cons, ih]

theorem embed_setVal (s : Sess K) (r : TRef) (v : Tensor K) : (p.embed s).setVal (p.ref r) v = p.embed (s.setVal r v) := by
  cases r with
  | user n =>
    show ({ p.embed s with user := (p.user ++ s.user).modify (n + p.user.length) _ } : Sess K) = _
    rw [modify_append_right]
    rfl
  | own n =>
    show ({ p.embed s with own := (p.own ++ s.own).modify (n + p.own.length) _ } : Sess K) = _
    rw [modify_append_right]
    rfl

theorem logUpdate_comm [Semiring K] (name ty : PyStr) (r : TRef) : Comm p (logUpdate name ty r) (logUpdate name ty (p.ref r)) := by
  intro s
  have h1 : (Dict.get? (p.embed s).log name).getD [] = p.types ((Dict.get? s.log name).getD []) := by
    show (Dict.get? (p.log s.log) name).getD [] = _
    unfold Past.log
    rw [Dict.get?_map']
    cases Dict.get? s.log name <;> rfl
  have h2 : Dict.get? (p.types ((Dict.get? s.log name).getD [])) ty = (Dict.get? ((Dict.get? s.log name).getD []) ty).map p.ref :=
    Dict.get?_map' _ _ _
  unfold logUpdate
  dsimp only
  rw [h1, h2]
  cases Dict.get? ((Dict.get? s.log name).getD []) ty with
  | none =>
    dsimp only [Option.map_none]
    refine Prod.ext ?_ rfl
    show ({ p.embed s with log := Dict.set (p.log s.log) name (Dict.set (p.types ((Dict.get? s.log name).getD [])) ty (p.ref r)) } : Sess K) =
      p.embed { s with log := Dict.set s.log name (Dict.set ((Dict.get? s.log name).getD []) ty r) }
    have e1 := Dict.map_set ((Dict.get? s.log name).getD []) ty r p.ref
    have e2 := Dict.map_set s.log name (Dict.set ((Dict.get? s.log name).getD []) ty r) p.types
    unfold Past.embed
    dsimp only
    unfold Past.log
    rw [e2]
    unfold Past.types
    rw [e1]
  | some r₀ =>
    dsimp only [Option.map_some]
    rw [embed_obj, embed_obj]
    cases s.obj r₀ with
    | none => rfl
    | some a =>
      cases s.obj r with
      | none => rfl
      | some b =>
        dsimp only
        cases a.val.add_ b.val with
        | error e => rfl
        | ok v =>
          dsimp only
          rw [embed_setVal]

theorem plugin_comm [Semiring K] (E : SEnv K) (mod : Option ModKind) (name : PyStr) (ty : LogType) (r : TRef) (q : Plugin) :
    Comm p (plugin E mod name ty r q) (plugin E mod name ty (p.ref r) q) := by
  intro s
  cases q with
  | log => exact logUpdate_comm p name ty.name r s
  | mean | variance | covariance | correctedEigval =>
    unfold plugin
    dsimp only
    rw [embed_obj]
    cases s.obj r with
    | none => rfl
    | some o =>
      dsimp only
      rw [show (p.embed s).st = s.st from rfl, show (p.embed s).mask = s.mask from rfl]
      cases pluginUpdate E.lib _ s.st ⟨mod, name, ty, o.val, s.mask, E.cpuOffload⟩ <;> rfl

theorem convert_comm (E : SEnv K) (s : Sess K) (r : TRef) : (p.embed s).convert E (p.ref r) = (p.embed (s.convert E r).1, p.ref (s.convert E r).2) := by
  unfold convert
  rw [embed_obj]
  cases E.dtype with
  | none => rfl
  | some d =>
    cases s.obj r with
    | none => rfl
    | some o =>
      dsimp only
      split
      · rfl
      · exact embed_alloc p s _

theorem masked_comm [Semiring K] (s : Sess K) (r : TRef) : (p.embed s).masked (p.ref r) = (p.embed (s.masked r).1, (s.masked r).2.map p.ref) := by
  unfold masked
  rw [embed_obj]
  cases s.obj r with
  | none => rfl
  | some o =>
    dsimp only
    rw [show (p.embed s).mask = s.mask from rfl]
    cases maskActivations s.mask o.val with
    | error e => rfl
    | ok v =>
      dsimp only
      split
      · rw [embed_alloc]
        rfl
      · rfl

theorem forwardHook_comm [Semiring K] (E : SEnv K) (mod x : Nat) (name : PyStr) :
    Comm p (forwardHook E mod x name) (forwardHook E mod (x + p.user.length) name) := by
  intro s
  unfold forwardHook
  rw [show TRef.user (x + p.user.length) = p.ref (.user x) from rfl, masked_comm]
  cases s.masked (.user x) with
  | mk s' r =>
    cases r with
    | error e => rfl
    | ok r =>
      dsimp only [Except.map]
      rw [convert_comm]
      exact Comm.each_same (fun q _ => plugin_comm p E _ _ _ _ q) _

theorem backwardHook_comm [Semiring K] (E : SEnv K) (mod g : Nat) (name : PyStr) :
    Comm p (backwardHook E mod g name) (backwardHook E mod (g + p.user.length) name) := by
  intro s
  unfold backwardHook
  rw [show TRef.user (g + p.user.length) = p.ref (.user g) from rfl, convert_comm]
  exact Comm.each_same (fun q _ => plugin_comm p E _ _ _ _ q) _

theorem gradBackwardHook_comm [Semiring K] (E : SEnv K) (mod x g : Nat) (name : PyStr) :
    Comm p (gradBackwardHook E mod x g name) (gradBackwardHook E mod (x + p.user.length) (g + p.user.length) name) := by
  intro s
  unfold gradBackwardHook
  rw [show (p.embed s).opt = s.opt from rfl]
  cases gradHookCheck s.opt with
  | error e => rfl
  | ok b =>
    cases b with
    | false => rfl
    | true =>
      dsimp only
      rw [embed_obj_user, embed_obj_user]
      cases s.obj (.user x) with
      | none => rfl
      | some a =>
        cases s.obj (.user g) with
        | none => rfl
        | some b =>
          dsimp only
          cases computePerSampleGradient a.val b.val (E.kind mod) with
          | error e => rfl
          | ok v =>
            dsimp only
            rw [embed_alloc, convert_comm]
            exact Comm.each_same (fun q _ => plugin_comm p E _ _ _ _ q) _

theorem tensorBackwardHook_comm [Semiring K] (E : SEnv K) (g : Nat) (name : PyStr) :
    Comm p (tensorBackwardHook E g name) (tensorBackwardHook E (g + p.user.length) name) := by
  intro s
  unfold tensorBackwardHook
  rw [show TRef.user (g + p.user.length) = p.ref (.user g) from rfl, convert_comm]
  exact Comm.each_same (fun q _ => plugin_comm p E _ _ _ _ q) _

theorem registerTensorHook_comm (y : Nat) (fn : HookFn) :
    Comm p (registerTensorHook (K := K) y fn) (registerTensorHook (y + p.user.length) (fn.shift p.user.length)) := by
  intro s
  unfold registerTensorHook
  rw [embed_obj_user]
  cases s.obj (.user y) with
  | none => rfl
  | some o =>
    dsimp only
    split
    · refine Prod.ext ?_ rfl
      simp only [Past.embed, List.map_append, List.map_cons, List.map_nil, Past.tensorHook, Sess.mk.injEq, true_and, and_true]
      omega
    · rfl

theorem registerModule_comm (mod : Nat) : Comm p (registerModule (K := K) mod) (registerModule mod) := by
  intro s
  unfold registerModule
  rw [show (p.embed s).names = s.names from rfl]
  cases Dict.get? s.names mod with
  | none => rfl
  | some name =>
    refine Prod.ext ?_ rfl
    have e : ∀ i, s.nextId + p.ids + i = s.nextId + i + p.ids := fun i => by omega
    simp only [Past.embed, List.map_append, List.map_cons, List.map_nil, Past.modHook, e]

theorem filter_modHook (l : List ModHook) (mod : Nat) :
    (l.map p.modHook).filter (fun h => h.mod = mod) = (l.filter fun h => h.mod = mod).map p.modHook := by
  rw [List.filter_map]
  rfl

theorem forward_comm [Semiring K] (E : SEnv K) (mod x y : Nat) :
    Comm p (forward E mod x y) (forward E mod (x + p.user.length) (y + p.user.length)) := by
  intro s
  unfold forward
  have hl : ∀ n, ((p.embed s).user.length ≤ n + p.user.length) ↔ s.user.length ≤ n := by
    intro n
    show (p.user ++ s.user).length ≤ _ ↔ _
    rw [List.length_append]
    omega
  simp only [hl]
  split
  · rfl
  · rw [show (p.embed s).bwd = s.bwd.map p.modHook from rfl, show (p.embed s).pre = s.pre.map p.modHook from rfl, filter_modHook, filter_modHook,
      List.map_map, show ModHook.name ∘ p.modHook = ModHook.name from rfl]
    refine Comm.seq (Comm.each fun h _ => forwardHook_comm p E mod x h.name) (Comm.seq ?_ ?_) s
    · intro s
      refine Prod.ext ?_ rfl
      simp only [Past.embed, List.map_append, List.map_cons, List.map_nil, Past.call, List.append_assoc]
    · intro s
      dsimp only
      rw [show (p.embed s).fwd = s.fwd.map p.modHook from rfl, filter_modHook]
      refine Comm.each (fun h _ => ?_) s
      exact registerTensorHook_comm p y (.grad mod x h.name)

theorem gradAt_comm [Semiring K] (E : SEnv K) (y g : Nat) : Comm p (gradAt E y g) (gradAt E (y + p.user.length) (g + p.user.length)) := by
  intro s
  unfold gradAt
  have : (p.embed s).tens.filter (fun h => h.out = y + p.user.length) = (s.tens.filter fun h => h.out = y).map p.tensorHook := by
    show (s.tens.map p.tensorHook).filter _ = _
    rw [List.filter_map]
    congr 1
    apply List.filter_congr
    intro h _
    simp [Past.tensorHook]
  rw [this]
  refine Comm.each (fun h _ => ?_) s
  obtain ⟨i, o, fn⟩ := h
  cases fn with
  | grad m x n => exact gradBackwardHook_comm p E m x g n
  | activation n => exact tensorBackwardHook_comm p E g n

theorem backward_comm [Semiring K] (E : SEnv K) (y g : Nat) : Comm p (backward E y g) (backward E (y + p.user.length) (g + p.user.length)) := by
  intro s
  unfold backward
  have : (p.embed s).calls.filter (fun h => h.out = y + p.user.length) = (s.calls.filter fun h => h.out = y).map p.call := by
    show (p.calls ++ s.calls.map p.call).filter _ = _
    rw [List.filter_append, List.filter_map, List.filter_eq_nil_iff.2, List.nil_append]
    · congr 1
      apply List.filter_congr
      intro h _
      simp [Past.call]
    · intro c hc
      have := p.old c hc
      simp only [decide_eq_true_eq]
      omega
  rw [this]
  refine Comm.each (fun h _ => ?_) s
  exact Comm.each_same fun n _ => backwardHook_comm p E _ g n

theorem watchActivation_comm [Semiring K] (E : SEnv K) (d : List (PyStr × Nat)) :
    Comm p (watchActivation E d) (watchActivation E (d.map fun e => (e.1, e.2 + p.user.length))) := by
  unfold watchActivation
  refine Comm.each fun e _ => Comm.seq ?_ (registerTensorHook_comm p e.2 (.activation e.1))
  intro s
  dsimp only
  rw [show TRef.user (e.2 + p.user.length) = p.ref (.user e.2) from rfl, convert_comm]
  exact Comm.each_same (fun q _ => plugin_comm p E _ _ _ _ q) _

end Sess

open Sess

theorem run_comm [Field K] (E : SEnv K) (p : Past K) {o : SOp K} (ho : IsRun o) : Comm p (o.run E) ((shift p.user.length o).run E) := by
  cases ho with
  | alloc o =>
    intro s
    refine Prod.ext ?_ rfl
    simp only [SOp.run, shift, Past.embed, List.append_assoc]
  | forward m x y => exact forward_comm p E m x y
  | gradAt y g => exact gradAt_comm p E y g
  | backward y g => exact backward_comm p E y g
  | watchActivation d => exact watchActivation_comm p E d

theorem runs_comm [Field K] (E : SEnv K) (p : Past K) {ops : List (SOp K)} (ho : ∀ o ∈ ops, IsRun o) :
    Comm p (SAct.each (SOp.run E) ops) (SAct.each (SOp.run E) (ops.map (shift p.user.length))) :=
  Comm.each fun o h => run_comm E p (ho o h)

/-- The log one sees is the same with and without the past. -/
theorem seen_embed (p : Past K) (s : Sess K) : seen (p.embed s) = seen s := by
  unfold seen view
  refine Prod.ext rfl ?_
  show (p.log s.log).map _ = _
  unfold Past.log Past.types
  rw [List.map_map]
  apply List.map_congr_left
  intro m _
  simp only [Function.comp, List.map_map]
  refine Prod.ext rfl ?_
  apply List.map_congr_left
  intro t _
  exact Prod.ext rfl (embed_obj p s t.2)

end Logix
