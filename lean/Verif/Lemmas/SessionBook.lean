/-
A logging session, operation by operation: what the hooks of a watched module do is what the specification notes.
-/
import Verif.Lemmas.SessionStats

set_option linter.unusedSectionVars false

namespace Logix
open Spec Sess
variable {K : Type}

/-- The module has one hook, with its name, and no other module has a hook with that name. -/
def OwnHook (m : Nat) (nm : PyStr) (l : List ModHook) : Prop :=
  (l.filter fun h => h.mod = m).map ModHook.name = [nm] ∧ ∀ h ∈ l, h.mod ≠ m → h.name ≠ nm

/-- The calls after the first `k` tensors that have a backward hook for the name `nm`: module and output. -/
def callsFor (k : Nat) (nm : PyStr) (l : List PastCall) : List (Nat × Nat) :=
  l.flatMap fun c => if k ≤ c.out then (c.names.filter (· = nm)).map fun _ => (c.mod, c.out) else []

/-- A use of the module and the per-sample gradients from it. -/
def PerSample [Semiring K] (E : SEnv K) (U : List (TObj K)) (m k : Nat) (u : Nat × Nat) (v : Tensor K) : Prop :=
  ∃ a b, U[u.1 + k]? = some a ∧ U[u.2 + k]? = some b ∧ computePerSampleGradient a.val b.val (E.kind m) = .ok v

/-- What is known about a session besides the hooks. `U` are all tensors the user makes in the end, of which the program numbers those from `k` on. -/
structure Base [Semiring K] (E : SEnv K) (opt : LogOption) (U : List (TObj K)) (m k : Nat) (nm : PyStr) (bk : Book K) (s : Sess K) : Prop where
  user : s.user <+: U
  wf : LogWF s
  nodup : (Dict.keys s.log).Nodup
  hopt : s.opt = opt
  handles : Handles s
  count : s.modules.count m = 1
  name : Dict.get? s.names m = some nm
  unique : ∀ m' ∈ s.modules, Dict.get? s.names m' = some nm → m' = m
  mask : s.mask = bk.mask
  calls : callsFor k nm s.calls = bk.uses.map fun c => (m, c.2 + k)
  grads : opt.grad.head? = some .log → ∃ vs, List.Forall₂ (PerSample E U m k) bk.arrived vs ∧
    vs.foldlM accum none = .ok (logged s nm (LogType.name .grad))

/-- What is known about a session in which hooks are registered. -/
structure Ins [Semiring K] (E : SEnv K) (opt : LogOption) (U : List (TObj K)) (m k : Nat) (nm : PyStr) (bk : Book K) (s : Sess K) : Prop
    extends Base E opt U m k nm bk s where
  pre : OwnHook m nm s.pre
  bwd : OwnHook m nm s.bwd
  fwd : OwnHook m nm s.fwd
  tens : hooksFor nm s.tens = bk.fresh.map fun c => (m, c.1 + k, c.2 + k)
  act : ∀ h ∈ s.tens, h.fn ≠ .activation nm

/-- The fields that `Base` and `Ins` are about. -/
def bookPart (s : Sess K) := (s.hookPart, s.opt, s.mask, s.calls)

theorem bookPart_quiet {s t : Sess K} (h : Quiet s t) : bookPart t = bookPart s := by
  have h' := congrArg bookPart (show ({ t with user := s.user, own := s.own, log := s.log, st := s.st } : Sess K) = s from h)
  exact h'

theorem bookPart_saveOnly {s t : Sess K} (h : SaveOnly s t) : bookPart t = bookPart s := by
  have h' := congrArg bookPart (show ({ t with saver := s.saver, buffer := s.buffer, bufferSize := s.bufferSize, fs := s.fs } : Sess K) = s from h)
  exact h'

section
variable [Field K] {E : SEnv K} {opt : LogOption} {U : List (TObj K)} {m k : Nat} {nm : PyStr} {bk : Book K} {s t : Sess K}
  {Q : Option (Tensor K) → Prop}

theorem Base.congr (h : Base E opt U m k nm bk s) (e : bookPart t = bookPart s) (hu : t.user <+: U) (hw : LogWF t)
    (hn : (Dict.keys t.log).Nodup) (hl : logged t nm (LogType.name .grad) = logged s nm (LogType.name .grad)) :
    Base E opt U m k nm bk t := by
  have e' := e
  simp only [bookPart, hookPart, Prod.mk.injEq] at e
  obtain ⟨⟨-, -, -, -, -, -, -, -, e1, e2⟩, e3, e4, e5⟩ := e
  constructor
  · exact hu
  · exact hw
  · exact hn
  · rw [e3]; exact h.hopt
  · exact h.handles.congr (congrArg Prod.fst e')
  · rw [e1]; exact h.count
  · rw [e2]; exact h.name
  · rw [e1, e2]; exact h.unique
  · rw [e4]; exact h.mask
  · rw [e5]; exact h.calls
  · rw [hl]; exact h.grads

theorem Ins.congr (h : Ins E opt U m k nm bk s) (e : bookPart t = bookPart s) (hu : t.user <+: U) (hw : LogWF t)
    (hn : (Dict.keys t.log).Nodup) (hl : logged t nm (LogType.name .grad) = logged s nm (LogType.name .grad)) :
    Ins E opt U m k nm bk t := by
  refine { h.toBase.congr e hu hw hn hl with pre := ?_, bwd := ?_, fwd := ?_, tens := ?_, act := ?_ }
  all_goals
    simp only [bookPart, hookPart, Prod.mk.injEq] at e
    obtain ⟨⟨-, e2, -, e4, -, e6, -, e8, -, -⟩, -, -, -⟩ := e
  · rw [e2]; exact h.pre
  · rw [e4]; exact h.bwd
  · rw [e6]; exact h.fwd
  · rw [e8]; exact h.tens
  · rw [e8]; exact h.act

theorem Ins.still (h : Ins E opt U m k nm bk s) (st : Still s t) : Ins E opt U m k nm bk t :=
  h.congr (bookPart_quiet st.1) (by rw [st.2.1]; exact h.user) (st.wf h.wf) (by rw [st.2.2.1]; exact h.nodup) (st.logged h.wf _ _)

/-! ### Calls of modules -/

theorem forwardHooks_fold (hf : .log ∉ opt.forward) (mod x : Nat) (l : List ModHook) : ∀ s t : Sess K, s.opt = opt →
    SAct.each (fun h : ModHook => Sess.forwardHook E mod x h.name) l s = (t, none) → Still s t ∧
      (((∀ h ∈ l, h.name ≠ nm) → Traced Q E opt nm s t [] [] []) ∧
        (∀ h, l = [h] → h.name = nm → ∃ a v, s.user[x]? = some a ∧ maskActivations s.mask a.val = .ok v ∧
          Traced Q E opt nm s t [⟨some (E.kind mod), nm, .forward, v, s.mask, E.cpuOffload⟩] [] [])) := by
  induction l with
  | nil =>
    intro s t _ h
    cases h
    exact ⟨Still.refl s, fun _ => Traced.of_eq rfl fun hq => hq, fun _ hh => nomatch hh⟩
  | cons a l ih =>
    intro s t ho h
    obtain ⟨u, h1, h2⟩ := SAct.seq_none h
    dsimp only at h1
    have st := forwardHook_still E mod x a.name s (by rw [ho]; exact hf)
    rw [h1] at st
    obtain ⟨x1, v, e1, e2, tr⟩ := forwardHook_traced (Q := Q) E nm mod x a.name s u (by rw [ho]; exact hf) h1
    obtain ⟨st2, tr2, -⟩ := ih u t ((opt_of_quiet st.1).trans ho) h2
    rw [ho] at tr
    refine ⟨st.trans st2, fun hall => ?_, fun h hl hn => ?_⟩
    · rw [if_neg (hall a (List.mem_cons_self ..))] at tr
      exact tr.trans (tr2 fun h hh => hall h (List.mem_cons_of_mem _ hh))
    · obtain ⟨rfl, rfl⟩ := List.cons.inj hl
      rw [if_pos hn] at tr
      have := tr.trans (tr2 fun h hh => nomatch hh)
      exact ⟨x1, v, e1, e2, this⟩

theorem register_fields (mod x y : Nat) (l : List ModHook) : ∀ (s t : Sess K), SAct.each (fun h => gradHook mod x y h.name) l s = (t, none) →
    t.st = s.st ∧ t.mask = s.mask ∧ t.calls = s.calls ∧ t.pre = s.pre ∧ t.bwd = s.bwd ∧ t.modules = s.modules ∧ t.names = s.names ∧
      ((∀ h ∈ s.tens, h.fn ≠ .activation nm) → ∀ h ∈ t.tens, h.fn ≠ .activation nm) := by
  induction l with
  | nil =>
    intro s t h
    cases h
    exact ⟨rfl, rfl, rfl, rfl, rfl, rfl, rfl, fun h => h⟩
  | cons a l ih =>
    intro s t h
    obtain ⟨u, h1, h2⟩ := SAct.seq_none h
    obtain ⟨e1, e2, e3, e4, e5, e6, e7, e8⟩ := ih u t h2
    unfold gradHook registerTensorHook at h1
    dsimp only at h1
    split at h1
    · split at h1
      · simp only [Prod.mk.injEq, and_true] at h1
        rw [← h1] at e1 e2 e3 e4 e5 e6 e7 e8
        refine ⟨e1, e2, e3, e4, e5, e6, e7, fun hs => e8 fun h hh => ?_⟩
        rcases List.mem_append.1 hh with hh | hh
        · exact hs h hh
        · rw [List.mem_singleton.1 hh]
          nofun
      · simp at h1
    · simp at h1

theorem callsFor_snoc (l : List PastCall) (c : PastCall) (hc : k ≤ c.out) :
    callsFor k nm (l ++ [c]) = callsFor k nm l ++ (c.names.filter (· = nm)).map fun _ => (c.mod, c.out) := by
  unfold callsFor
  rw [List.flatMap_append, List.flatMap_cons, if_pos hc]
  simp

theorem OwnHook.other {l : List ModHook} (h : OwnHook m nm l) {m' : Nat} (hm : m' ≠ m) :
    ((l.filter fun h => h.mod = m').map ModHook.name).filter (· = nm) = [] := by
  rw [List.filter_eq_nil_iff]
  intro n hn
  obtain ⟨a, ha, rfl⟩ := List.mem_map.1 hn
  obtain ⟨h1, h2⟩ := List.mem_filter.1 ha
  simp only [decide_eq_true_eq] at h2 ⊢
  exact h.2 a h1 (by rw [h2]; exact hm)

/-- The data of a call of the module. -/
def RF (E : SEnv K) (U : List (TObj K)) (m k : Nat) (nm : PyStr) (u : Nat × Option (Tensor K)) (c : StatCall K) : Prop :=
  ∃ a v, U[u.1 + k]? = some a ∧ maskActivations u.2 a.val = .ok v ∧ c = ⟨some (E.kind m), nm, .forward, v, u.2, E.cpuOffload⟩

/-- The data of a backward pass through the module. -/
def RB (E : SEnv K) (U : List (TObj K)) (m k : Nat) (nm : PyStr) (u : Nat × Option (Tensor K)) (c : StatCall K) : Prop :=
  ∃ a, U[u.1 + k]? = some a ∧ c = ⟨some (E.kind m), nm, .backward, a.val, u.2, E.cpuOffload⟩

/-- The data of a batch. -/
def RG (E : SEnv K) (U : List (TObj K)) (m k : Nat) (nm : PyStr) (u : List (Nat × Nat) × Option (Tensor K)) (c : StatCall K) : Prop :=
  ∃ T vs, List.Forall₂ (PerSample E U m k) u.1 vs ∧ IsSum vs T ∧ c = ⟨none, nm, .grad, T, u.2, E.cpuOffload⟩

/-- What is to be shown of each operation. -/
def Steps (Q : Option (Tensor K) → Prop) (E : SEnv K) (opt : LogOption) (U : List (TObj K)) (m k : Nat) (nm : PyStr) (bk : Book K) (o : SOp K) (s u : Sess K) : Prop :=
  Ins E opt U m k nm (bk.step m o) u ∧ u.user = s.user ++ allocs [o] ∧ ∃ f b g, Traced Q E opt nm s u f b g ∧
    List.Forall₂ (RF E U m k nm) (input m bk o) f ∧ (opt.backward ≠ [] → List.Forall₂ (RB E U m k nm) (outGrad bk o) b) ∧
    (opt.grad.head? = some .log → List.Forall₂ (RG E U m k nm) (batchGrads bk o) g)

theorem prefix_get {n : Nat} {a : TObj K} {l : List (TObj K)} (h : l <+: U) (hn : l[n]? = some a) : U[n]? = some a := by
  obtain ⟨r, rfl⟩ := h
  rw [List.getElem?_append_left (List.getElem?_eq_some_iff.1 hn).1]
  exact hn

theorem forward_step (hf : .log ∉ opt.forward) (m' x y : Nat) (hi : Ins E opt U m k nm bk s)
    (h : Sess.forward E m' (x + k) (y + k) s = (t, none)) : Steps Q E opt U m k nm bk (.forward m' x y) s t := by
  have hh : Handles t := by
    have := forward_handles E m' (x + k) (y + k) s hi.handles
    rw [h] at this
    exact this
  unfold Sess.forward at h
  split at h
  · simp at h
  · obtain ⟨s1, a1, a2⟩ := SAct.seq_none h
    obtain ⟨s2, a3, a4⟩ := SAct.seq_none a2
    obtain ⟨st, tr1, tr2⟩ := forwardHooks_fold (Q := Q) (nm := nm) hf m' (x + k) _ s s1 hi.hopt a1
    have hi1 := hi.still st
    have e2 : ({ s1 with calls := _ } : Sess K) = s2 := congrArg Prod.fst a3
    obtain ⟨c1, c2, c3, c4, c5, c6⟩ := register_spec m' (x + k) (y + k) nm _ s2 t a4
    obtain ⟨d1, d2, d3, d4, d5, d6, d7, d8⟩ := register_fields (nm := nm) m' (x + k) (y + k) _ s2 t a4
    rw [← e2] at c1 c2 c3 c4 c5 c6 d1 d2 d3 d4 d5 d6 d7 d8
    dsimp only at c1 c2 c3 c4 c5 c6 d1 d2 d3 d4 d5 d6 d7 d8
    have hw := still_of_fields c2 c3 hi1.wf
    have hbook : Ins E opt U m k nm (bk.step m (.forward m' x y)) t := by
      have hmask : (bk.step m (.forward m' x y)).mask = bk.mask := by
        unfold Book.step; dsimp only; split <;> rfl
      have harr : (bk.step m (.forward m' x y)).arrived = bk.arrived := by
        unfold Book.step; dsimp only; split <;> rfl
      have huses : (bk.step m (.forward m' x y)).uses = if m' = m then bk.uses ++ [(x, y)] else bk.uses := by
        unfold Book.step; dsimp only; split <;> rfl
      have hfresh : (bk.step m (.forward m' x y)).fresh = if m' = m then bk.fresh ++ [(x, y)] else bk.fresh := by
        unfold Book.step; dsimp only; split <;> rfl
      constructor
      · constructor
        · rw [c1]; exact hi1.user
        · exact hw.1
        · rw [c3]; exact hi1.nodup
        · rw [c4]; exact hi1.hopt
        · exact hh
        · rw [d6]; exact hi1.count
        · rw [d7]; exact hi1.name
        · rw [d6, d7]; exact hi1.unique
        · rw [d2, hmask]; exact hi1.mask
        · rw [d3, huses, callsFor_snoc _ _ (Nat.le_add_left k y), hi1.calls]
          by_cases hm : m' = m
          · subst hm
            rw [if_pos rfl, hi.bwd.1]
            simp
          · rw [if_neg hm, hi.bwd.other hm]
            simp
        · rw [harr, hw.2]; exact hi1.grads
      · rw [d4]; exact hi1.pre
      · rw [d5]; exact hi1.bwd
      · rw [c5]; exact hi1.fwd
      · rw [c6, hi1.tens, hfresh]
        by_cases hm : m' = m
        · subst hm
          rw [if_pos rfl, hi1.fwd.1]
          simp
        · rw [if_neg hm, hi1.fwd.other hm]
          simp
      · exact d8 hi1.act
    refine ⟨hbook, ?_, ?_⟩
    · rw [c1, st.2.1]
      simp [allocs]
    · by_cases hm : m' = m
      · subst hm
        obtain ⟨hk, e, hn⟩ : ∃ h, (s.pre.filter fun h => h.mod = m') = [h] ∧ h.name = nm := by
          have := hi.pre.1
          match hl : s.pre.filter fun h => h.mod = m' with
          | [] => rw [hl] at this; cases this
          | [a] => rw [hl] at this; exact ⟨a, hl, by simpa using this⟩
          | a :: b :: l => rw [hl] at this; simp at this
        obtain ⟨a, v, f1, f2, tr⟩ := tr2 hk e hn
        refine ⟨_, [], [], tr.right d1 (fun hq => by rw [d2]; exact hq), ?_, fun _ => .nil, fun _ => .nil⟩
        show List.Forall₂ _ (if m' = m' then [(x, bk.mask)] else []) _
        rw [if_pos rfl, hi.mask]
        rw [hi.mask] at f2
        exact .cons ⟨a, v, prefix_get hi.user f1, f2, rfl⟩ .nil
      · refine ⟨[], [], [], (tr1 ?_).right d1 (fun hq => by rw [d2]; exact hq), ?_, fun _ => .nil, fun _ => .nil⟩
        · intro h hh
          obtain ⟨h1, h2⟩ := List.mem_filter.1 hh
          simp only [decide_eq_true_eq] at h2
          exact hi.pre.2 h h1 (by rw [h2]; exact hm)
        · show List.Forall₂ _ (if m' = m then [(x, bk.mask)] else []) _
          rw [if_neg hm]
          exact .nil

/-! ### Gradients arriving -/

theorem hooksFor_filter (nm : PyStr) (y : Nat) (l : List TensorHook) :
    hooksFor nm (l.filter fun h => h.out = y) = (hooksFor nm l).filter fun c => c.2.2 = y := by
  induction l with
  | nil => rfl
  | cons a l ihl =>
    obtain ⟨i, out, fn⟩ := a
    by_cases ho : out = y
    · rw [List.filter_cons_of_pos (by simpa using ho)]
      cases fn with
      | grad mod x name =>
        by_cases hn : name = nm
        · simp only [hooksFor, List.filterMap_cons, hn, if_true] at ihl ⊢
          rw [List.filter_cons_of_pos (by simpa using ho), ihl]
        · simpa only [hooksFor, List.filterMap_cons, if_neg hn] using ihl
      | activation name => simpa only [hooksFor, List.filterMap_cons] using ihl
    · rw [List.filter_cons_of_neg (by simpa using ho)]
      cases fn with
      | grad mod x name =>
        by_cases hn : name = nm
        · simp only [hooksFor, List.filterMap_cons, hn, if_true] at ihl ⊢
          rw [List.filter_cons_of_neg (by simpa using ho), ihl]
        · simpa only [hooksFor, List.filterMap_cons, if_neg hn] using ihl
      | activation name => simpa only [hooksFor, List.filterMap_cons] using ihl

theorem gradAt_step (hb : .log ∉ opt.backward) (y g : Nat) (hi : Ins E opt U m k nm bk s)
    (h : Sess.gradAt E (y + k) (g + k) s = (t, none)) : Steps Q E opt U m k nm bk (.gradAt y g) s t := by
  unfold Sess.gradAt at h
  obtain ⟨q, hu, w, n, tr⟩ := gradHooks_traced (Q := Q) E (g + k) nm _ s t hi.wf hi.nodup (by rw [hi.hopt]; exact hb)
    (fun h hh => hi.act h (List.mem_filter.1 hh).1) h
  rw [hi.hopt] at tr
  refine ⟨?_, by rw [hu]; simp [allocs], [], [], [], tr, .nil, fun _ => .nil, fun _ => .nil⟩
  have hp := bookPart_quiet q
  have e' := hp
  simp only [bookPart, hookPart, Prod.mk.injEq] at hp
  obtain ⟨⟨-, f2, -, f4, -, f6, -, f8, e1, e2⟩, e3, e4, e5⟩ := hp
  constructor
  · constructor
    · rw [hu]; exact hi.user
    · exact w
    · exact n
    · rw [e3]; exact hi.hopt
    · exact hi.handles.congr (congrArg Prod.fst e')
    · rw [e1]; exact hi.count
    · rw [e2]; exact hi.name
    · rw [e1, e2]; exact hi.unique
    · rw [e4]; exact hi.mask
    · rw [e5]; exact hi.calls
    · intro hg
      obtain ⟨_, _, _, vs, hf, hfold⟩ := gradHooks_fold E (g + k) nm _ s t hi.wf (by rw [hi.hopt]; exact hg) (by rw [hi.hopt]; exact hb) h
      obtain ⟨ws, hws, hacc⟩ := hi.grads hg
      rw [hooksFor_filter, hi.tens, List.filter_map, List.forall₂_map_left_iff] at hf
      refine ⟨ws ++ vs, List.rel_append hws ?_, ?_⟩
      · rw [List.forall₂_map_left_iff]
        have e : (bk.fresh.filter ((fun c : Nat × Nat × Nat => decide (c.2.2 = y + k)) ∘ fun c => (m, c.1 + k, c.2 + k))) =
            bk.fresh.filter fun c => c.2 = y := by
          apply List.filter_congr
          intro c _
          simp
        rw [e] at hf
        refine hf.imp ?_
        rintro c v ⟨a, b, h1, h2, h3⟩
        exact ⟨a, b, prefix_get hi.user h1, prefix_get hi.user h2, h3⟩
      · rw [List.foldlM_append, hacc]
        exact hfold
  · rw [f2]; exact hi.pre
  · rw [f4]; exact hi.bwd
  · rw [f6]; exact hi.fwd
  · rw [f8]; exact hi.tens
  · rw [f8]; exact hi.act

/-! ### Backward passes -/

theorem backwardNames_fold (hb : .log ∉ opt.backward) (mod g : Nat) (l : List PyStr) : ∀ s t : Sess K, s.opt = opt →
    SAct.each (fun name => backwardHook E mod g name) l s = (t, none) → Still s t ∧ (opt.backward ≠ [] → l ≠ [] → s.user[g]?.isSome) ∧
      Traced Q E opt nm s t [] ((l.filter (· = nm)).map fun _ => ⟨some (E.kind mod), nm, .backward, valueAt s.user g, s.mask, E.cpuOffload⟩) [] := by
  induction l with
  | nil =>
    intro s t _ h
    cases h
    exact ⟨Still.refl s, fun _ h => absurd rfl h, Traced.of_eq rfl fun hq => hq⟩
  | cons a l ih =>
    intro s t ho h
    obtain ⟨u, h1, h2⟩ := SAct.seq_none h
    dsimp only at h1
    have st := backwardHook_still E mod g a s (by rw [ho]; exact hb)
    rw [h1] at st
    obtain ⟨hs, tr⟩ := gradPlugins_traced (Q := Q) E nm (some (E.kind mod)) g a s u (by rw [ho]; exact hb) h1
    obtain ⟨st2, -, tr2⟩ := ih u t ((opt_of_quiet st.1).trans ho) h2
    rw [ho] at tr hs
    refine ⟨st.trans st2, fun hne _ => hs hne, ?_⟩
    rw [st.2.1, mask_of_quiet st.1] at tr2
    have := tr.trans tr2
    by_cases hn : a = nm
    · rw [if_pos hn] at this
      rw [List.filter_cons_of_pos (by simpa using hn)]
      exact this
    · rw [if_neg hn] at this
      rw [List.filter_cons_of_neg (by simpa using hn)]
      exact this

theorem backwardCalls_fold (hb : .log ∉ opt.backward) (g : Nat) (l : List PastCall) : ∀ s t : Sess K, s.opt = opt →
    SAct.each (fun c : PastCall => SAct.each (fun name => backwardHook E c.mod g name) c.names) l s = (t, none) →
    Still s t ∧ (opt.backward ≠ [] → (∃ c ∈ l, c.names ≠ []) → s.user[g]?.isSome) ∧
      Traced Q E opt nm s t [] (l.flatMap fun c => (c.names.filter (· = nm)).map fun _ =>
        ⟨some (E.kind c.mod), nm, .backward, valueAt s.user g, s.mask, E.cpuOffload⟩) [] := by
  induction l with
  | nil =>
    intro s t _ h
    cases h
    exact ⟨Still.refl s, (fun _ ⟨_, h, _⟩ => nomatch h), Traced.of_eq rfl fun hq => hq⟩
  | cons a l ih =>
    intro s t ho h
    obtain ⟨u, h1, h2⟩ := SAct.seq_none h
    obtain ⟨st, hs, tr⟩ := backwardNames_fold (Q := Q) (nm := nm) hb a.mod g a.names s u ho h1
    obtain ⟨st2, hs2, tr2⟩ := ih u t ((opt_of_quiet st.1).trans ho) h2
    refine ⟨st.trans st2, ?_, ?_⟩
    · rintro hne ⟨c, hc, hn⟩
      rcases List.mem_cons.1 hc with rfl | hc
      · exact hs hne hn
      · rw [st.2.1] at hs2
        exact hs2 hne ⟨c, hc, hn⟩
    · rw [st.2.1, mask_of_quiet st.1] at tr2
      rw [List.flatMap_cons]
      exact tr.trans tr2

theorem callsFor_filter (l : List PastCall) (y : Nat) :
    ((l.filter fun c => c.out = y + k).flatMap fun c => (c.names.filter (· = nm)).map fun _ => (c.mod, c.out)) =
      (callsFor k nm l).filter fun c => c.2 = y + k := by
  unfold callsFor
  induction l with
  | nil => rfl
  | cons c l ih =>
    rw [List.flatMap_cons, List.filter_append, ← ih]
    by_cases hc : c.out = y + k
    · rw [List.filter_cons_of_pos (by simpa using hc), List.flatMap_cons, if_pos (by omega)]
      congr 1
      symm
      rw [List.filter_eq_self]
      intro a ha
      obtain ⟨_, _, rfl⟩ := List.mem_map.1 ha
      simpa using hc
    · rw [List.filter_cons_of_neg (by simpa using hc)]
      have : (if k ≤ c.out then (c.names.filter (· = nm)).map fun _ => (c.mod, c.out) else []).filter (fun c => decide (c.2 = y + k)) = [] := by
        rw [List.filter_eq_nil_iff]
        intro a ha
        split at ha
        · obtain ⟨_, _, rfl⟩ := List.mem_map.1 ha
          simpa using hc
        · cases ha
      rw [this]
      rfl

theorem backward_step (hb : .log ∉ opt.backward) (y g : Nat) (hi : Ins E opt U m k nm bk s)
    (h : Sess.backward E (y + k) (g + k) s = (t, none)) : Steps Q E opt U m k nm bk (.backward y g) s t := by
  unfold Sess.backward at h
  obtain ⟨st, hs, tr⟩ := backwardCalls_fold (Q := Q) (nm := nm) hb (g + k) _ s t hi.hopt h
  refine ⟨hi.still st, by rw [st.2.1]; simp [allocs], [], _, [], tr, .nil, fun hne => ?_, fun _ => .nil⟩
  have e1 := callsFor_filter (k := k) (nm := nm) s.calls y
  rw [hi.calls, List.filter_map] at e1
  have e2 : (bk.uses.filter ((fun c : Nat × Nat => decide (c.2 = y + k)) ∘ fun c => (m, c.2 + k))) = bk.uses.filter fun c => c.2 = y := by
    apply List.filter_congr
    intro c _
    simp
  rw [e2] at e1
  have e3 : ((s.calls.filter fun c => c.out = y + k).flatMap fun c => (c.names.filter (· = nm)).map fun _ =>
      (⟨some (E.kind c.mod), nm, .backward, valueAt s.user (g + k), s.mask, E.cpuOffload⟩ : StatCall K)) =
      ((bk.uses.filter fun c => c.2 = y).map fun _ => ⟨some (E.kind m), nm, .backward, valueAt s.user (g + k), s.mask, E.cpuOffload⟩) := by
    have := congrArg (List.map fun c : Nat × Nat =>
      (⟨some (E.kind c.1), nm, .backward, valueAt s.user (g + k), s.mask, E.cpuOffload⟩ : StatCall K)) e1
    rw [List.map_flatMap, List.map_map] at this
    simpa only [List.map_map, Function.comp_def] using this
  rw [e3]
  show List.Forall₂ _ ((bk.uses.filter fun c => c.2 = y).map fun _ => (g, bk.mask)) _
  rw [List.forall₂_map_left_iff, List.forall₂_map_right_iff, List.forall₂_same]
  intro c hc
  have hsome : s.user[g + k]?.isSome := by
    apply hs hne
    have hmem : (m, c.2 + k) ∈ (bk.uses.filter fun c => c.2 = y).map fun c => (m, c.2 + k) := List.mem_map.2 ⟨c, hc, rfl⟩
    rw [← e1] at hmem
    obtain ⟨pc, hp, hq⟩ := List.mem_flatMap.1 hmem
    refine ⟨pc, hp, fun e => ?_⟩
    rw [e] at hq
    cases hq
  obtain ⟨a, ha⟩ := Option.isSome_iff_exists.1 hsome
  refine ⟨a, prefix_get hi.user ha, ?_⟩
  unfold valueAt
  rw [ha, hi.mask]

/-! ### Custom activations -/

theorem watchActivation_fold (hf : .log ∉ opt.forward) (l : List (PyStr × Nat)) : ∀ s t : Sess K, (∀ e ∈ l, e.1 ≠ nm) → Ins E opt U m k nm bk s →
    Sess.watchActivation E l s = (t, none) → Ins E opt U m k nm bk t ∧ t.user = s.user ∧ Traced Q E opt nm s t [] [] [] := by
  induction l with
  | nil =>
    intro s t _ hi h
    cases h
    exact ⟨hi, rfl, Traced.of_eq rfl fun hq => hq⟩
  | cons a l ihl =>
    intro s t hn hi h
    obtain ⟨s1, b1, b2⟩ := SAct.seq_none h
    obtain ⟨s2, b3, b4⟩ := SAct.seq_none b1
    dsimp only at b3
    have st2 := convert_still E s (.user a.2)
    have tr := activation_traced (Q := Q) E nm a.2 a.1 s s2 (by rw [hi.hopt]; exact hf) (hn a (List.mem_cons_self ..)) b3
    rw [hi.hopt] at tr
    have st : Still s s2 := by
      have := st2.trans (plugins_still E none a.1 .forward (s.convert E (.user a.2)).2 (s.convert E (.user a.2)).1.opt.forward (by
        rw [opt_of_quiet st2.1, hi.hopt]
        exact hf) _)
      rw [b3] at this
      exact this
    have hi2 := hi.still st
    have hh := registerTensorHook_handles a.2 (.activation a.1) s2 hi2.handles
    rw [b4] at hh
    unfold registerTensorHook at b4
    split at b4
    · split at b4
      · simp only [Prod.mk.injEq, and_true] at b4
        subst b4
        have hw := still_of_fields (s := s2) (t := { s2 with nextId := s2.nextId + 1, tens := s2.tens ++ [⟨s2.nextId, a.2, .activation a.1⟩], hTens := s2.hTens ++ [s2.nextId] }) rfl rfl hi2.wf
        have hi3 : Ins E opt U m k nm bk { s2 with nextId := s2.nextId + 1, tens := s2.tens ++ [⟨s2.nextId, a.2, .activation a.1⟩], hTens := s2.hTens ++ [s2.nextId] } := by
          refine ⟨⟨hi2.user, hw.1, hi2.nodup, hi2.hopt, hh, hi2.count, hi2.name, hi2.unique, hi2.mask, hi2.calls, ?_⟩, hi2.pre, hi2.bwd, hi2.fwd, ?_, ?_⟩
          · rw [hw.2]; exact hi2.grads
          · rw [← hi2.tens]
            simp [hooksFor]
          · intro h hh
            rcases List.mem_append.1 hh with hh | hh
            · exact hi2.act h hh
            · rw [List.mem_singleton.1 hh]
              intro e
              exact hn a (List.mem_cons_self ..) (HookFn.activation.inj e)
        obtain ⟨c1, c2, c3⟩ := ihl _ t (fun e he => hn e (List.mem_cons_of_mem _ he)) hi3 b2
        exact ⟨c1, c2.trans st.2.1, (tr.right rfl fun hq => hq).trans c3⟩
      · simp at b4
    · simp at b4

/-! ### Ends of batches -/

theorem accum_shape (vs : List (Tensor K)) : ∀ (a c : Tensor K), vs.foldlM accum (some a) = .ok (some c) → c.shape = a.shape ∧ ∀ v ∈ vs, v.shape = a.shape := by
  induction vs with
  | nil =>
    intro a c h
    cases Option.some.inj (Except.ok.inj h)
    exact ⟨rfl, fun _ h => nomatch h⟩
  | cons v vs ih =>
    intro a c h
    rw [List.foldlM_cons] at h
    cases hv : a.add_ v with
    | error e =>
      rw [show accum (some a) v = .error e by show (a.add_ v).map some = _; rw [hv]; rfl] at h
      cases h
    | ok w =>
      rw [show accum (some a) v = .ok (some w) by show (a.add_ v).map some = _; rw [hv]; rfl] at h
      obtain ⟨h1, h2⟩ := ih w c h
      unfold Tensor.add_ at hv
      split at hv
      · next hd =>
        have hw : w.shape = a.shape := by
          rw [← Except.ok.inj hv]
          rfl
        refine ⟨h1.trans hw, fun x hx => ?_⟩
        rcases List.mem_cons.1 hx with rfl | hx
        · exact hd.2.symm
        · exact (h2 x hx).trans hw
      · cases hv

/-- What is logged in the end is a sum. -/
theorem accum_none (vs : List (Tensor K)) (r : Option (Tensor K)) (h : vs.foldlM accum none = .ok r) :
    (vs = [] ∧ r = none) ∨ ∃ T, r = some T ∧ IsSum vs T := by
  cases vs with
  | nil => exact Or.inl ⟨rfl, (Except.ok.inj h).symm⟩
  | cons v vs =>
    right
    rw [List.foldlM_cons] at h
    have h' : vs.foldlM accum (some v) = .ok r := h
    obtain ⟨T, hT⟩ := Option.isSome_iff_exists.1 (accum_some vs v _ h')
    subst hT
    obtain ⟨h1, h2⟩ := accum_shape vs v T h'
    refine ⟨T, rfl, nofun, ?_, fun idx => ?_⟩
    · intro x hx
      rcases List.mem_cons.1 hx with rfl | hx
      · exact h1.symm
      · exact (h2 x hx).trans h1.symm
    · rw [accum_el vs v T h' idx, List.map_cons, List.sum_cons]

theorem update_step (ht : .log ∉ opt.grad.tail) (save : Bool) (hi : Ins E opt U m k nm bk s) (h : Sess.update E save s = (t, none)) :
    Ins E opt U m k nm bk t ∧ t.user = s.user ∧ ∃ g, Traced Q E opt nm s t [] [] g ∧
      (opt.grad.head? = some .log → List.Forall₂ (RG E U m k nm) (if bk.arrived = [] then [] else [(bk.arrived, bk.mask)]) g) := by
  rw [update_eq] at h
  obtain ⟨u, h1, h2⟩ := SAct.seq_none h
  obtain ⟨st, cs, em, c1, c2, c3, c4⟩ := gradStats_traced E nm _ s u hi.wf hi.nodup (by rw [hi.hopt]; exact ht) h1
  have hiu := hi.still st
  have htu : Ins E opt U m k nm bk t ∧ t.user = u.user ∧ t.st = u.st := by
    cases save with
    | false =>
      cases h2
      exact ⟨hiu, rfl, rfl⟩
    | true =>
      have hs := saveLog_saveOnly E u
      rw [show saveLog E u = (t, none) from h2] at hs
      have hs' : ({ t with saver := u.saver, buffer := u.buffer, bufferSize := u.bufferSize, fs := u.fs } : Sess K) = u := hs
      have f : t.user = u.user ∧ t.own = u.own ∧ t.log = u.log ∧ t.st = u.st := by
        have f1 := congrArg Sess.user hs'
        have f2 := congrArg Sess.own hs'
        have f3 := congrArg Sess.log hs'
        have f4 := congrArg Sess.st hs'
        exact ⟨f1, f2, f3, f4⟩
      have hw := still_of_fields f.2.1 f.2.2.1 hiu.wf
      exact ⟨hiu.congr (bookPart_saveOnly hs) (by rw [f.1]; exact hiu.user) hw.1 (by rw [f.2.2.1]; exact hiu.nodup) (hw.2 _ _), f.1, f.2.2.2⟩
  refine ⟨htu.1, htu.2.1.trans st.2.1, ((logged s nm (LogType.name .grad)).toList.map fun T => ⟨none, nm, .grad, T, s.mask, E.cpuOffload⟩),
    Traced.right (t' := u) ⟨cs, em, fun p => c1 p, fun p => c2 p, fun p => ?_, fun pc hpc => ?_, fun hq => ⟨?_, fun pc hpc => ?_⟩⟩ htu.2.2
      (fun hq => by rw [htu.1.mask, ← hiu.mask]; exact hq), fun hg => ?_⟩
  · rw [c3 p, hi.hopt]
  · obtain ⟨e1, e2, e3⟩ := c4 pc hpc
    rw [e2]
    rw [hi.hopt] at e1
    exact e1
  · rw [mask_of_quiet st.1]; exact hq
  · rw [(c4 pc hpc).2.2]; exact hq
  · obtain ⟨vs, hvs, hacc⟩ := hi.grads hg
    rcases accum_none vs _ hacc with ⟨h1, h2⟩ | ⟨T, h1, h2⟩
    · subst h1
      rw [List.forall₂_nil_right_iff.1 hvs, if_pos rfl, h2]
      exact .nil
    · have hne : bk.arrived ≠ [] := by
        intro e
        rw [e] at hvs
        exact h2.1 (List.forall₂_nil_left_iff.1 hvs)
      rw [if_neg hne, h1]
      exact .cons ⟨T, vs, hvs, h2, by rw [hi.mask]⟩ .nil

/-! ### Beginnings of batches -/

theorem Base.setBatch (h : Base E opt U m k nm bk s) (ids : List PyStr) (mask : Option (Tensor K)) :
    Base E opt U m k nm { bk with mask := mask, arrived := [] } (s.setBatch ids mask) := by
  have hlog : ∀ name ty, logRef (s.setBatch ids mask) name ty = none := fun _ _ => rfl
  refine ⟨h.user, ⟨?_, ?_⟩, List.nodup_nil, h.hopt, h.handles.congr rfl, h.count, h.name, h.unique, rfl, h.calls, ?_⟩
  · intro name ty r hr
    rw [hlog] at hr
    cases hr
  · intro n1 t1 n2 t2 r hr _
    rw [hlog] at hr
    cases hr
  · intro _
    refine ⟨[], .nil, ?_⟩
    rw [logged_eq, hlog]
    rfl

theorem Ins.setBatch (h : Ins E opt U m k nm bk s) (ids : List PyStr) (mask : Option (Tensor K)) :
    Ins E opt U m k nm { bk with mask := mask, arrived := [] } (s.setBatch ids mask) :=
  ⟨h.toBase.setBatch ids mask, h.pre, h.bwd, h.fwd, h.tens, h.act⟩

theorem registerAll_fields (ms : List Nat) : ∀ (s t : Sess K), SAct.each registerModule ms s = (t, none) →
    (t.user = s.user ∧ t.own = s.own ∧ t.log = s.log ∧ t.opt = s.opt ∧ t.tens = s.tens ∧ t.st = s.st ∧ t.mask = s.mask ∧ t.calls = s.calls ∧
      t.modules = s.modules ∧ t.names = s.names) ∧
      t.pre.map (fun h => (h.mod, some h.name)) = s.pre.map (fun h => (h.mod, some h.name)) ++ ms.map (fun m => (m, Dict.get? s.names m)) ∧
      t.bwd.map (fun h => (h.mod, some h.name)) = s.bwd.map (fun h => (h.mod, some h.name)) ++ ms.map (fun m => (m, Dict.get? s.names m)) ∧
      t.fwd.map (fun h => (h.mod, some h.name)) = s.fwd.map (fun h => (h.mod, some h.name)) ++ ms.map fun m => (m, Dict.get? s.names m) := by
  induction ms with
  | nil =>
    intro s t h
    cases h
    simp
  | cons m ms ih =>
    intro s t h
    obtain ⟨u, h1, h2⟩ := SAct.seq_none h
    unfold registerModule at h1
    split at h1
    · simp at h1
    · next name hn =>
      simp only [Prod.mk.injEq, and_true] at h1
      obtain ⟨e, e1, e2, e3⟩ := ih u t h2
      rw [← h1] at e e1 e2 e3
      refine ⟨e, ?_, ?_, ?_⟩
      · rw [e1]; simp [hn]
      · rw [e2]; simp [hn]
      · rw [e3]; simp [hn]

theorem ownHook_of_map {ms : List Nat} {names : Dict Nat PyStr} {l : List ModHook}
    (e : l.map (fun h => (h.mod, some h.name)) = ms.map fun m => (m, Dict.get? names m)) (hcount : ms.count m = 1)
    (hname : Dict.get? names m = some nm) (hunique : ∀ m' ∈ ms, Dict.get? names m' = some nm → m' = m) : OwnHook m nm l := by
  have hfst : l.map ModHook.mod = ms := by
    have := congrArg (List.map Prod.fst) e
    simpa [List.map_map, Function.comp_def] using this
  have hmem : ∀ h ∈ l, h.mod ∈ ms ∧ Dict.get? names h.mod = some h.name := by
    intro h hh
    have : (h.mod, some h.name) ∈ ms.map fun m => (m, Dict.get? names m) := by
      rw [← e]
      exact List.mem_map.2 ⟨h, hh, rfl⟩
    obtain ⟨m', hm', e⟩ := List.mem_map.1 this
    simp only [Prod.mk.injEq] at e
    obtain ⟨rfl, e⟩ := e
    exact ⟨hm', e⟩
  constructor
  · have hlen : ((l.filter fun h => h.mod = m).map ModHook.name).length = 1 := by
      rw [List.length_map, ← List.countP_eq_length_filter, ← hcount, ← hfst, List.count, List.countP_map]
      apply List.countP_congr
      intro a _
      simp
    have : ∀ n ∈ (l.filter fun h => h.mod = m).map ModHook.name, n = nm := by
      intro n hn
      obtain ⟨a, ha, rfl⟩ := List.mem_map.1 hn
      obtain ⟨ha1, ha2⟩ := List.mem_filter.1 ha
      simp only [decide_eq_true_eq] at ha2
      have := (hmem a ha1).2
      rw [ha2, hname] at this
      exact (Option.some.inj this).symm
    have h2 := List.eq_replicate_of_mem this
    rw [hlen] at h2
    exact h2
  · intro a ha hne e
    obtain ⟨a1, a2⟩ := hmem a ha
    exact hne (hunique a.mod a1 (by rw [a2, e]))

/-- Hooks are registered. -/
theorem open_step (h : Base E opt U m k nm bk s) (ht : registerAllModuleHooks s.clearHooks = (t, none)) :
    Ins E opt U m k nm { bk with fresh := [] } t ∧ t.user = s.user ∧ t.st = s.st := by
  obtain ⟨h1, hp, hb, hf, htn⟩ := clearHooks_handles h.handles
  have hh := registerAll_handles s.clearHooks h1
  rw [ht] at hh
  obtain ⟨⟨e1, e2, e3, e4, e5, e6, e7, e8, e9, e10⟩, f1, f2, f3⟩ := registerAll_fields s.clearHooks.modules s.clearHooks t ht
  rw [hp, List.map_nil, List.nil_append] at f1
  rw [hb, List.map_nil, List.nil_append] at f2
  rw [hf, List.map_nil, List.nil_append] at f3
  have hw := still_of_fields (s := s) (t := t) e2 e3 h.wf
  refine ⟨⟨⟨?_, hw.1, ?_, e4.trans h.hopt, hh, ?_, ?_, ?_, e7.trans h.mask, ?_, ?_⟩, ownHook_of_map f1 h.count h.name h.unique,
    ownHook_of_map f2 h.count h.name h.unique, ownHook_of_map f3 h.count h.name h.unique, ?_, ?_⟩, e1, e6⟩
  · rw [e1]; exact h.user
  · rw [e3]; exact h.nodup
  · rw [e9]; exact h.count
  · rw [e10]; exact h.name
  · rw [e9, e10]; exact h.unique
  · rw [e8]; exact h.calls
  · rw [hw.2]; exact h.grads
  · rw [e5, htn]; rfl
  · rw [e5, htn]; exact fun _ hh => nomatch hh

/-! ### Copies of the log -/

/-- Only new tensors of LogIX are made. -/
def Makes (s t : Sess K) : Prop := ∃ l, t = { s with own := s.own ++ l }

theorem Makes.refl (s : Sess K) : Makes s s := ⟨[], by rw [List.append_nil]⟩
theorem Makes.trans {a b c : Sess K} (h : Makes a b) (h' : Makes b c) : Makes a c := by
  obtain ⟨l, rfl⟩ := h
  obtain ⟨l', rfl⟩ := h'
  exact ⟨l ++ l', by simp [List.append_assoc]⟩

theorem getLogCopy_makes (s : Sess K) : Makes s s.getLogCopy.1 := by
  have hc : ∀ (s₀ s : Sess K) r, Makes s (copyTensor s₀ s r).1 := by
    intro s₀ s r
    unfold copyTensor
    split
    · split
      · exact ⟨_, rfl⟩
      · exact .refl s
    · exact .refl s
  have ht : ∀ (s₀ : Sess K) (l : List (PyStr × TRef)) (s : Sess K), Makes s (copyTypes s₀ l s).1 := by
    intro s₀ l
    induction l with
    | nil => exact fun s => .refl s
    | cons a l ih =>
      obtain ⟨k, r⟩ := a
      intro s
      have h1 := hc s₀ s r
      unfold copyTypes
      split
      · next h => rw [h] at h1; exact h1
      · next s1 r' h =>
        rw [h] at h1
        have h2 := ih s1
        split
        · next h' => rw [h'] at h2; exact h1.trans h2
        · next h' => rw [h'] at h2; exact h1.trans h2
  have hl : ∀ (s₀ : Sess K) (l : List (PyStr × Dict PyStr TRef)) (s : Sess K), Makes s (copyLog s₀ l s).1 := by
    intro s₀ l
    induction l with
    | nil => exact fun s => .refl s
    | cons a l ih =>
      obtain ⟨k, r⟩ := a
      intro s
      have h1 := ht s₀ r s
      unfold copyLog
      split
      · next h => rw [h] at h1; exact h1
      · next s1 r' h =>
        rw [h] at h1
        have h2 := ih s1
        split
        · next h' => rw [h'] at h2; exact h1.trans h2
        · next h' => rw [h'] at h2; exact h1.trans h2
  have h := hl s s.log s
  unfold getLogCopy
  split
  · next h' => rw [h'] at h; exact h
  · next h' => rw [h'] at h; exact h

/-! ### All operations -/

theorem Steps.quiet {o : SOp K} (hi : Ins E opt U m k nm (bk.step m o) t) (hu : t.user = s.user) (hs : t.st = s.st) (ha : allocs [o] = [])
    (hm : Q s.mask → Q t.mask) (h1 : input m bk o = []) (h2 : outGrad bk o = []) (h3 : batchGrads bk o = []) : Steps Q E opt U m k nm bk o s t := by
  refine ⟨hi, by rw [hu, ha, List.append_nil], [], [], [], Traced.of_eq hs hm, ?_, fun _ => ?_, fun _ => ?_⟩
  · rw [h1]; exact .nil
  · rw [h2]; exact .nil
  · rw [h3]; exact .nil

theorem run_step (hf : .log ∉ opt.forward) (hb : .log ∉ opt.backward) (ht : .log ∉ opt.grad.tail) (o : SOp K) (ho : Logs nm o) (hQ : Masks Q o)
    (hi : Ins E opt U m k nm bk s) (hU : s.user ++ allocs [o] <+: U) (h : (shift k o).run E s = (t, none)) : Steps Q E opt U m k nm bk o s t := by
  cases o with
  | alloc a =>
    have hu : ({ s with user := s.user ++ [a] } : Sess K) = t := congrArg Prod.fst h
    subst hu
    have hw := still_of_fields (s := s) (t := { s with user := s.user ++ [a] }) rfl rfl hi.wf
    exact ⟨hi.congr rfl hU hw.1 hi.nodup (hw.2 _ _), rfl, [], [], [], Traced.of_eq rfl fun hq => hq, .nil, fun _ => .nil, fun _ => .nil⟩
  | forward m' x y => exact forward_step hf m' x y hi h
  | gradAt y g => exact gradAt_step hb y g hi h
  | backward y g => exact backward_step hb y g hi h
  | watchActivation d =>
    obtain ⟨h1, h2, h3⟩ := watchActivation_fold hf _ s t (by
      intro e he
      obtain ⟨e', he', rfl⟩ := List.mem_map.1 he
      exact ho e' he') hi h
    exact ⟨h1, by rw [h2]; simp [allocs], [], [], [], h3, .nil, fun _ => .nil, fun _ => .nil⟩
  | call ids mask sv =>
    have hu : ({ s.setBatch ids mask with saveBatch := sv } : Sess K) = t := congrArg Prod.fst h
    subst hu
    have h1 := hi.setBatch ids mask
    have hw := still_of_fields (s := s.setBatch ids mask) (t := { s.setBatch ids mask with saveBatch := sv }) rfl rfl h1.wf
    exact Steps.quiet (h1.congr rfl h1.user hw.1 h1.nodup (hw.2 _ _)) rfl rfl rfl (fun _ => hQ) rfl rfl rfl
  | enter =>
    obtain ⟨h1, h2, h3⟩ := open_step hi.toBase h
    exact Steps.quiet h1 h2 h3 rfl (fun hq => by rw [h1.mask]; rw [hi.mask] at hq; exact hq) rfl rfl rfl
  | exit =>
    obtain ⟨h1, h2, g, h3, h4⟩ := update_step ht _ hi h
    exact ⟨h1, by rw [h2]; simp [allocs], [], [], g, h3, .nil, fun _ => .nil, h4⟩
  | start ids mask =>
    obtain ⟨h1, h2, h3⟩ := open_step (hi.toBase.setBatch ids mask) h
    exact Steps.quiet h1 h2 h3 rfl (fun _ => by rw [h1.mask]; exact hQ) rfl rfl rfl
  | «end» sv =>
    obtain ⟨h1, h2, g, h3, h4⟩ := update_step ht _ hi h
    exact ⟨h1, by rw [h2]; simp [allocs], [], [], g, h3, .nil, fun _ => .nil, h4⟩
  | log ids mask =>
    obtain ⟨h1, h2, g, h3, h4⟩ := update_step ht _ (hi.setBatch ids mask) h
    exact ⟨h1, by rw [h2]; simp [allocs, Sess.setBatch], [], [], g, h3.left rfl (fun _ => hQ), .nil, fun _ => .nil, h4⟩
  | save b =>
    have hu : ({ s with save := b } : Sess K) = t := congrArg Prod.fst h
    subst hu
    have hw := still_of_fields (s := s) (t := { s with save := b }) rfl rfl hi.wf
    exact Steps.quiet (hi.congr rfl hi.user hw.1 hi.nodup (hw.2 _ _)) rfl rfl rfl (fun hq => hq) rfl rfl rfl
  | eval =>
    have hu : ({ s with save := false } : Sess K) = t := congrArg Prod.fst h
    subst hu
    have hw := still_of_fields (s := s) (t := { s with save := false }) rfl rfl hi.wf
    exact Steps.quiet (hi.congr rfl hi.user hw.1 hi.nodup (hw.2 _ _)) rfl rfl rfl (fun hq => hq) rfl rfl rfl
  | setup kw => exact ho.elim
  | watch sel => exact ho.elim
  | analysis o => exact ho.elim
  | getLogCopy =>
    have hu : s.getLogCopy.1 = t := congrArg Prod.fst h
    obtain ⟨l, hl⟩ := getLogCopy_makes s
    rw [hu] at hl
    subst hl
    exact Steps.quiet (hi.still ⟨rfl, rfl, rfl, l, rfl⟩) rfl rfl rfl (fun hq => hq) rfl rfl rfl
  | finalize dir => exact ho.elim
  | clear => exact ho.elim

theorem body_traced (hf : .log ∉ opt.forward) (hb : .log ∉ opt.backward) (ht : .log ∉ opt.grad.tail) (body : List (SOp K)) :
    ∀ (bk : Book K) (s t : Sess K), (∀ o ∈ body, Logs nm o) → (∀ o ∈ body, Masks Q o) → Ins E opt U m k nm bk s → s.user ++ allocs body = U →
      SAct.each (SOp.run E) (body.map (shift k)) s = (t, none) → ∃ f b g, Traced Q E opt nm s t f b g ∧
        List.Forall₂ (RF E U m k nm) (notes (input m) m bk body) f ∧
        (opt.backward ≠ [] → List.Forall₂ (RB E U m k nm) (notes outGrad m bk body) b) ∧
        (opt.grad.head? = some .log → List.Forall₂ (RG E U m k nm) (notes batchGrads m bk body) g) := by
  induction body with
  | nil =>
    intro bk s t _ _ _ _ h
    cases h
    exact ⟨[], [], [], Traced.of_eq rfl fun hq => hq, .nil, fun _ => .nil, fun _ => .nil⟩
  | cons o body ih =>
    intro bk s t hl hQ hi hU h
    obtain ⟨u, h1, h2⟩ := SAct.seq_none h
    have ha : allocs (o :: body) = allocs [o] ++ allocs body := by simp [allocs]
    rw [ha, ← List.append_assoc] at hU
    obtain ⟨h3, h4, f, b, g, tr, r1, r2, r3⟩ := run_step hf hb ht o (hl o (List.mem_cons_self ..)) (hQ o (List.mem_cons_self ..)) hi ⟨_, hU⟩ h1
    obtain ⟨f', b', g', tr', r1', r2', r3'⟩ := ih _ u t (fun o ho => hl o (List.mem_cons_of_mem _ ho)) (fun o ho => hQ o (List.mem_cons_of_mem _ ho)) h3 (by rw [h4]; exact hU) h2
    exact ⟨_, _, _, tr.trans tr', List.rel_append r1 r1', fun hne => List.rel_append (r2 hne) (r2' hne), fun hg => List.rel_append (r3 hg) (r3' hg)⟩

end

end Logix
