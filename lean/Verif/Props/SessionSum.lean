/-
C18: the gradients of a module used several times are summed.
-/
import Verif.Props.SessionIso
import Verif.Props.SessionHooks
import Verif.Props.SessionHeap
import Verif.Lemmas.Tensor

namespace Logix
open Spec Sess
variable {K : Type}

/-- The reference logged for a module and log type. -/
def logRef (s : Sess K) (name ty : PyStr) : Option TRef := (Dict.get? s.log name).bind fun d => Dict.get? d ty

theorem logged_eq (s : Sess K) (name ty : PyStr) : logged s name ty = (logRef s name ty).bind fun r => (s.obj r).map TObj.val := rfl

/-- The log consists of different tensors of LogIX. -/
structure LogWF (s : Sess K) : Prop where
  own : ∀ name ty r, logRef s name ty = some r → ∃ n, r = .own n ∧ n < s.own.length
  inj : ∀ name ty name' ty' r, logRef s name ty = some r → logRef s name' ty' = some r → name = name' ∧ ty = ty'

/-- Nothing happened but to new tensors of LogIX and the statistics. -/
def Still (s t : Sess K) : Prop := Quiet s t ∧ t.user = s.user ∧ t.log = s.log ∧ ∃ l, t.own = s.own ++ l

theorem Still.refl (s : Sess K) : Still s s := ⟨Quiet.refl s, rfl, rfl, [], (List.append_nil _).symm⟩

theorem Still.trans {a b c : Sess K} (h : Still a b) (h' : Still b c) : Still a c := by
  obtain ⟨q, u, l, x, hx⟩ := h
  obtain ⟨q', u', l', x', hx'⟩ := h'
  exact ⟨q.trans q', u'.trans u, l'.trans l, x ++ x', by rw [hx', hx, List.append_assoc]⟩

theorem Still.wf {s t : Sess K} (h : Still s t) (hw : LogWF s) : LogWF t := by
  obtain ⟨_, _, l, x, hx⟩ := h
  constructor
  · intro name ty r hr
    unfold logRef at hr
    rw [l] at hr
    obtain ⟨n, h1, h2⟩ := hw.own name ty r hr
    exact ⟨n, h1, by rw [hx, List.length_append]; omega⟩
  · intro name ty name' ty' r hr hr'
    unfold logRef at hr hr'
    rw [l] at hr hr'
    exact hw.inj name ty name' ty' r hr hr'

theorem Still.logged {s t : Sess K} (h : Still s t) (hw : LogWF s) (name ty : PyStr) : logged t name ty = logged s name ty := by
  obtain ⟨_, _, l, x, hx⟩ := h
  rw [logged_eq, logged_eq]
  have : logRef t name ty = logRef s name ty := by unfold logRef; rw [l]
  rw [this]
  cases hr : logRef s name ty with
  | none => rfl
  | some r =>
    obtain ⟨n, rfl, hn⟩ := hw.own name ty r hr
    show (t.own[n]?).map _ = (s.own[n]?).map _
    rw [hx, List.getElem?_append_left hn]

/-- The step is still, whether or not it raises. -/
theorem each_still {α : Type} {f : α → SAct K} {l : List α} (h : ∀ a ∈ l, ∀ s, Still s (f a s).1) : ∀ s, Still s (SAct.each f l s).1 := by
  induction l with
  | nil => exact fun s => Still.refl s
  | cons a l ih =>
    intro s
    have h1 := h a (List.mem_cons_self ..) s
    show Still s (SAct.seq _ _ s).1
    unfold SAct.seq
    split
    · next s' e h' => rw [h'] at h1; exact h1
    · next s' h' => rw [h'] at h1; exact h1.trans (ih (fun b hb => h b (List.mem_cons_of_mem _ hb)) s')

theorem plugins_still [Semiring K] (E : SEnv K) (mod : Option ModKind) (name : PyStr) (ty : LogType) (r : TRef) (ps : List Plugin)
    (hp : .log ∉ ps) (s : Sess K) : Still s (SAct.each (plugin E mod name ty r) ps s).1 := by
  refine each_still (fun p hm s => ?_) s
  have hq := plugin_quiet E mod name ty r p s
  have hne : p ≠ .log := fun e => hp (e ▸ hm)
  unfold plugin at hq ⊢
  split
  · exact absurd rfl hne
  · split
    · exact Still.refl s
    · dsimp only
      split <;> exact ⟨rfl, rfl, rfl, [], (List.append_nil _).symm⟩

theorem alloc_still (s : Sess K) (o : TObj K) : Still s (s.alloc o).1 := ⟨rfl, rfl, rfl, [o], rfl⟩

theorem convert_still (E : SEnv K) (s : Sess K) (r : TRef) : Still s (s.convert E r).1 := by
  unfold convert
  split
  · split
    · exact Still.refl s
    · exact alloc_still s _
  · exact Still.refl s

theorem masked_still [Semiring K] (s : Sess K) (r : TRef) : Still s (s.masked r).1 := by
  unfold masked
  split
  · exact Still.refl s
  · split
    · exact Still.refl s
    · dsimp only
      split
      · exact alloc_still s _
      · exact Still.refl s

theorem forwardHook_still [Semiring K] (E : SEnv K) (mod x : Nat) (name : PyStr) (s : Sess K) (h : .log ∉ s.opt.forward) :
    Still s (Sess.forwardHook E mod x name s).1 := by
  have h1 := masked_still s (.user x)
  unfold Sess.forwardHook
  split
  · next s' e he => rw [he] at h1; exact h1
  · next s' r he =>
    rw [he] at h1
    dsimp only
    have h2 := h1.trans (convert_still E s' r)
    refine h2.trans (plugins_still E _ _ _ _ _ ?_ _)
    rw [opt_of_quiet h2.1]
    exact h

theorem backwardHook_still [Semiring K] (E : SEnv K) (mod g : Nat) (name : PyStr) (s : Sess K) (h : .log ∉ s.opt.backward) :
    Still s (backwardHook E mod g name s).1 := by
  have h2 := convert_still E s (.user g)
  refine h2.trans (plugins_still E _ _ _ _ _ ?_ _)
  show .log ∉ (s.convert E (.user g)).1.opt.backward
  rw [opt_of_quiet h2.1]
  exact h

theorem tensorBackwardHook_still [Semiring K] (E : SEnv K) (g : Nat) (name : PyStr) (s : Sess K) (h : .log ∉ s.opt.backward) :
    Still s (tensorBackwardHook E g name s).1 := by
  have h2 := convert_still E s (.user g)
  refine h2.trans (plugins_still E _ _ _ _ _ ?_ _)
  show .log ∉ (s.convert E (.user g)).1.opt.backward
  rw [opt_of_quiet h2.1]
  exact h

/-- Adding to what is logged. -/
def accum [Semiring K] : Option (Tensor K) → Tensor K → Py (Option (Tensor K))
  | none, v => .ok (some v)
  | some a, v => (a.add_ v).map some

theorem logRef_set (l : Dict PyStr (Dict PyStr TRef)) (name ty name' ty' : PyStr) (r : TRef) :
    ((Dict.get? (Dict.set l name (Dict.set ((Dict.get? l name).getD []) ty r)) name').bind fun d => Dict.get? d ty') =
      if name' = name ∧ ty' = ty then some r else (Dict.get? l name').bind fun d => Dict.get? d ty' := by
  rw [Dict.get?_set]
  by_cases hn : name = name'
  · subst hn
    rw [if_pos rfl]
    show Dict.get? (Dict.set _ ty r) ty' = _
    rw [Dict.get?_set]
    by_cases ht : ty = ty'
    · subst ht
      simp
    · rw [if_neg ht, if_neg (fun h => ht h.2.symm)]
      cases Dict.get? l name <;> rfl
  · rw [if_neg hn, if_neg (fun h => hn h.1.symm)]

theorem logRef_getD (s : Sess K) (name ty : PyStr) : Dict.get? ((Dict.get? s.log name).getD []) ty = logRef s name ty := by
  unfold logRef
  cases Dict.get? s.log name <;> rfl

/-- Logging a new tensor `n` of LogIX. -/
theorem logUpdate_spec [Semiring K] (name ty : PyStr) (n : Nat) (o : TObj K) (s t : Sess K) (hw : LogWF s) (hn : s.own[n]? = some o)
    (hnew : ∀ name' ty', logRef s name' ty' ≠ some (.own n)) (h : logUpdate name ty (.own n) s = (t, none)) :
    Quiet s t ∧ t.user = s.user ∧ LogWF t ∧ (∀ name' ty', ¬ (name' = name ∧ ty' = ty) → logged t name' ty' = logged s name' ty') ∧
      accum (logged s name ty) o.val = .ok (logged t name ty) := by
  have hq : Quiet s t := by
    have := logUpdate_quiet name ty (.own n) s
    rw [h] at this
    exact this
  have hlt := (List.getElem?_eq_some_iff.1 hn).1
  unfold logUpdate at h
  dsimp only at h
  rw [logRef_getD] at h
  cases hr : logRef s name ty with
  | none =>
    rw [hr] at h
    simp only [Prod.mk.injEq, and_true] at h
    have hlr : ∀ name' ty', logRef t name' ty' = if name' = name ∧ ty' = ty then some (.own n) else logRef s name' ty' := by
      intro name' ty'
      rw [← h]
      exact logRef_set s.log name ty name' ty' (.own n)
    have hown : t.own = s.own := by rw [← h]
    have hobj : ∀ r, t.obj r = s.obj r := by
      intro r
      rw [← h]
      cases r <;> rfl
    refine ⟨hq, by rw [← h], ⟨?_, ?_⟩, ?_, ?_⟩
    · intro name' ty' r hr'
      rw [hlr] at hr'
      split at hr'
      · cases hr'
        exact ⟨n, rfl, by rw [hown]; exact hlt⟩
      · rw [hown]
        exact hw.own name' ty' r hr'
    · intro n1 t1 n2 t2 r h1 h2
      rw [hlr] at h1 h2
      split at h1
      · next c1 =>
        split at h2
        · next c2 => exact ⟨c1.1.trans c2.1.symm, c1.2.trans c2.2.symm⟩
        · cases h1
          exact absurd h2 (hnew _ _)
      · split at h2
        · cases h2
          exact absurd h1 (hnew _ _)
        · exact hw.inj n1 t1 n2 t2 r h1 h2
    · intro name' ty' hne
      rw [logged_eq, logged_eq, hlr, if_neg hne]
      cases logRef s name' ty' with
      | none => rfl
      | some r => show (t.obj r).map _ = (s.obj r).map _; rw [hobj]
    · rw [logged_eq, logged_eq, hr, hlr, if_pos ⟨rfl, rfl⟩]
      show accum none o.val = .ok ((t.obj (.own n)).map TObj.val)
      rw [hobj, show s.obj (.own n) = some o from hn]
      rfl
  | some r₀ =>
    rw [hr] at h
    obtain ⟨k, rfl, hk⟩ := hw.own name ty r₀ hr
    dsimp only at h
    obtain ⟨a, ha⟩ : ∃ a, s.own[k]? = some a := ⟨_, List.getElem?_eq_getElem hk⟩
    rw [show s.obj (.own k) = some a from ha, show s.obj (.own n) = some o from hn] at h
    dsimp only at h
    cases hv : a.val.add_ o.val with
    | error e =>
      rw [hv] at h
      simp at h
    | ok v =>
      rw [hv] at h
      simp only [Prod.mk.injEq, and_true] at h
      have hlr : ∀ name' ty', logRef t name' ty' = logRef s name' ty' := by
        intro name' ty'
        rw [← h]
        rfl
      have hown : t.own = s.own.modify k fun o => { o with val := v } := by rw [← h]; rfl
      refine ⟨hq, by rw [← h]; rfl, ⟨?_, ?_⟩, ?_, ?_⟩
      · intro name' ty' r hr'
        rw [hlr] at hr'
        rw [hown, List.length_modify]
        exact hw.own name' ty' r hr'
      · intro n1 t1 n2 t2 r h1 h2
        rw [hlr] at h1 h2
        exact hw.inj n1 t1 n2 t2 r h1 h2
      · intro name' ty' hne
        rw [logged_eq, logged_eq, hlr]
        cases hr' : logRef s name' ty' with
        | none => rfl
        | some r =>
          obtain ⟨j, rfl, hj⟩ := hw.own name' ty' r hr'
          have hjk : k ≠ j := by
            intro e
            subst e
            exact hne (hw.inj name' ty' name ty _ hr' hr)
          show (t.own[j]?).map _ = (s.own[j]?).map _
          rw [hown, List.getElem?_modify]
          simp [hjk]
      · rw [logged_eq, logged_eq, hlr, hr]
        show accum ((s.own[k]?).map TObj.val) o.val = .ok ((t.own[k]?).map TObj.val)
        rw [hown, List.getElem?_modify, ha]
        show (a.val.add_ o.val).map some = _
        rw [hv]
        simp
        rfl

theorem gradBackwardHook_spec [Semiring K] (E : SEnv K) (mod x g : Nat) (name : PyStr) (s t : Sess K) (hw : LogWF s)
    (ho : s.opt.grad.head? = some .log) (h : gradBackwardHook E mod x g name s = (t, none)) :
    ∃ a b v, s.user[x]? = some a ∧ s.user[g]? = some b ∧ computePerSampleGradient a.val b.val (E.kind mod) = .ok v ∧
      Quiet s t ∧ t.user = s.user ∧ LogWF t ∧
      (∀ name' ty', ¬ (name' = name ∧ ty' = LogType.name .grad) → logged t name' ty' = logged s name' ty') ∧
      accum (logged s name (LogType.name .grad)) v = .ok (logged t name (LogType.name .grad)) := by
  unfold gradBackwardHook at h
  obtain ⟨ps, hps⟩ : ∃ ps, s.opt.grad = .log :: ps := by
    cases hg : s.opt.grad with
    | nil => rw [hg] at ho; cases ho
    | cons p ps => rw [hg] at ho; cases ho; exact ⟨ps, rfl⟩
  have hc : gradHookCheck s.opt = .ok true := by
    unfold gradHookCheck
    rw [hps]
    rfl
  rw [hc] at h
  dsimp only at h
  cases ha : s.obj (.user x) with
  | none => rw [ha] at h; cases h
  | some a =>
    cases hb : s.obj (.user g) with
    | none => rw [ha, hb] at h; cases h
    | some b =>
      rw [ha, hb] at h
      dsimp only at h
      cases hv : computePerSampleGradient a.val b.val (E.kind mod) with
      | error e => rw [hv] at h; cases h
      | ok v =>
        rw [hv] at h
        dsimp only at h
        refine ⟨a, b, v, ha, hb, hv, ?_⟩
        have st1 := alloc_still s ⟨v, b.dtype, false, true⟩
        have st2 := convert_still E (s.alloc ⟨v, b.dtype, false, true⟩).1 (s.alloc ⟨v, b.dtype, false, true⟩).2
        have st := st1.trans st2
        have hr : ∃ n o, ((s.alloc ⟨v, b.dtype, false, true⟩).1.convert E (s.alloc ⟨v, b.dtype, false, true⟩).2).2 = .own n ∧ s.own.length ≤ n ∧
            ((s.alloc ⟨v, b.dtype, false, true⟩).1.convert E (s.alloc ⟨v, b.dtype, false, true⟩).2).1.own[n]? = some o ∧ o.val = v := by
          unfold convert
          have e0 : (s.alloc ⟨v, b.dtype, false, true⟩).1.obj (s.alloc ⟨v, b.dtype, false, true⟩).2 = some ⟨v, b.dtype, false, true⟩ := by
            show (s.own ++ [_])[s.own.length]? = _
            simp
          rw [e0]
          cases E.dtype with
          | none => exact ⟨s.own.length, _, rfl, Nat.le_refl _, e0, rfl⟩
          | some d =>
            dsimp only
            split
            · exact ⟨s.own.length, _, rfl, Nat.le_refl _, e0, rfl⟩
            · refine ⟨(s.own ++ [_]).length, ⟨v, d, false, true⟩, rfl, ?_, ?_, rfl⟩
              · simp
              · show ((s.own ++ [_]) ++ [_])[(s.own ++ [_]).length]? = _
                simp
        obtain ⟨n, o, hn, hle, ho', hval⟩ := hr
        have hopt := opt_of_quiet st.1
        rw [hopt, hps, hn] at h
        obtain ⟨u, h1, h2⟩ := SAct.seq_none h
        cases h2
        have hspec := logUpdate_spec name (LogType.name .grad) n o _ _ (st.wf hw) ho' (by
          intro name' ty' e
          have : logRef s name' ty' = some (.own n) := by
            unfold logRef at e ⊢
            rw [st.2.2.1] at e
            exact e
          obtain ⟨k, e1, e2⟩ := hw.own _ _ _ this
          have := TRef.own.inj e1
          omega) h1
        obtain ⟨q, hu, w, hother, hacc⟩ := hspec
        refine ⟨st.1.trans q, hu.trans st.2.1, w, ?_, ?_⟩
        · intro name' ty' hne
          rw [hother name' ty' hne, st.logged hw]
        · rw [st.logged hw, hval] at hacc
          exact hacc

/-- The gradient hooks for the name `nm`: module and input. -/
def hooksFor (nm : PyStr) (l : List TensorHook) : List (Nat × Nat × Nat) :=
  l.filterMap fun h => match h.fn with
    | .grad mod x name => if name = nm then some (mod, x, h.out) else none
    | .activation _ => none

theorem gradHooks_fold [Semiring K] (E : SEnv K) (g : Nat) (nm : PyStr) (l : List TensorHook) : ∀ (s t : Sess K), LogWF s →
    s.opt.grad.head? = some .log → .log ∉ s.opt.backward →
    SAct.each (fun h : TensorHook => match h.fn with
      | .grad mod x name => gradBackwardHook E mod x g name
      | .activation name => tensorBackwardHook E g name) l s = (t, none) →
    Quiet s t ∧ t.user = s.user ∧ LogWF t ∧ ∃ vs, List.Forall₂ (fun h v => ∃ a b, s.user[h.2.1]? = some a ∧ s.user[g]? = some b ∧
      computePerSampleGradient a.val b.val (E.kind h.1) = .ok v) (hooksFor nm l) vs ∧
      vs.foldlM accum (logged s nm (LogType.name .grad)) = .ok (logged t nm (LogType.name .grad)) := by
  induction l with
  | nil =>
    intro s t hw _ _ h
    cases h
    exact ⟨Quiet.refl s, rfl, hw, [], .nil, rfl⟩
  | cons a l ih =>
    intro s t hw ho hb h
    obtain ⟨u, h1, h2⟩ := SAct.seq_none h
    obtain ⟨i, out, fn⟩ := a
    cases fn with
    | grad mod x name =>
      obtain ⟨a, b, v, ha, hb', hv, q, hu, w, hother, hacc⟩ := gradBackwardHook_spec E mod x g name s u hw ho h1
      have hopt := opt_of_quiet q
      obtain ⟨q2, hu2, w2, vs, hf, hfold⟩ := ih u t w (by rw [hopt]; exact ho) (by rw [hopt]; exact hb) h2
      refine ⟨q.trans q2, hu2.trans hu, w2, ?_⟩
      rw [hu] at hf
      by_cases hn : name = nm
      · subst hn
        refine ⟨v :: vs, ?_, ?_⟩
        · have : hooksFor name (⟨i, out, .grad mod x name⟩ :: l) = (mod, x, out) :: hooksFor name l := by
            simp [hooksFor]
          rw [this]
          exact .cons ⟨a, b, ha, hb', hv⟩ hf
        · rw [List.foldlM_cons, hacc]
          exact hfold
      · refine ⟨vs, ?_, ?_⟩
        · have : hooksFor nm (⟨i, out, .grad mod x name⟩ :: l) = hooksFor nm l := by
            simp [hooksFor, hn]
          rw [this]
          exact hf
        · rw [hother nm _ (fun h => hn h.1.symm)] at hfold
          exact hfold
    | activation name =>
      have st := tensorBackwardHook_still E g name s hb
      rw [show tensorBackwardHook E g name s = (u, none) from h1] at st
      have hopt := opt_of_quiet st.1
      obtain ⟨q2, hu2, w2, vs, hf, hfold⟩ := ih u t (st.wf hw) (by rw [hopt]; exact ho) (by rw [hopt]; exact hb) h2
      refine ⟨st.1.trans q2, hu2.trans st.2.1, w2, vs, ?_, ?_⟩
      · rw [st.2.1] at hf
        exact hf
      · rw [st.logged hw] at hfold
        exact hfold

/-- Inside a context: what is known about the hooks and the log when the uses of the module `m`, which has `r` hooks, so far are `calls`. -/
structure Inside (r m k : Nat) (nm : PyStr) (calls : List (Nat × Nat)) (s : Sess K) : Prop where
  wf : LogWF s
  forward : .log ∉ s.opt.forward
  backward : .log ∉ s.opt.backward
  grad : s.opt.grad.head? = some .log
  own : (s.fwd.filter fun h => h.mod = m).map ModHook.name = List.replicate r nm
  others : ∀ h ∈ s.fwd, h.mod ≠ m → h.name ≠ nm
  tens : hooksFor nm s.tens = calls.flatMap fun c => List.replicate r (m, c.1 + k, c.2 + k)

theorem fwd_tens_of_quiet {s t : Sess K} (h : Quiet s t) : t.fwd = s.fwd ∧ t.tens = s.tens := by
  have h' := congrArg (fun s : Sess K => (s.fwd, s.tens)) (show ({ t with user := s.user, own := s.own, log := s.log, st := s.st } : Sess K) = s from h)
  exact Prod.mk.inj h'

theorem Inside.still {r m k : Nat} {nm : PyStr} {calls : List (Nat × Nat)} {s t : Sess K} (hi : Inside r m k nm calls s) (h : Quiet s t) (hw : LogWF t) :
    Inside r m k nm calls t := by
  have hopt := opt_of_quiet h
  obtain ⟨hf, ht⟩ := fwd_tens_of_quiet h
  constructor
  · exact hw
  · rw [hopt]; exact hi.forward
  · rw [hopt]; exact hi.backward
  · rw [hopt]; exact hi.grad
  · rw [hf]; exact hi.own
  · rw [hf]; exact hi.others
  · rw [ht]; exact hi.tens

/-- Registering hooks on an output. -/
theorem register_spec (mod x y : Nat) (nm : PyStr) (l : List ModHook) : ∀ (s t : Sess K),
    SAct.each (fun h => gradHook mod x y h.name) l s = (t, none) →
    t.user = s.user ∧ t.own = s.own ∧ t.log = s.log ∧ t.opt = s.opt ∧ t.fwd = s.fwd ∧
      hooksFor nm t.tens = hooksFor nm s.tens ++ ((l.map ModHook.name).filter (· = nm)).map fun _ => (mod, x, y) := by
  induction l with
  | nil =>
    intro s t h
    cases h
    simp
  | cons a l ih =>
    intro s t h
    obtain ⟨u, h1, h2⟩ := SAct.seq_none h
    obtain ⟨e1, e2, e3, e4, e5, e6⟩ := ih u t h2
    unfold gradHook registerTensorHook at h1
    dsimp only at h1
    split at h1
    · split at h1
      · simp only [Prod.mk.injEq, and_true] at h1
        rw [← h1] at e1 e2 e3 e4 e5 e6
        refine ⟨e1, e2, e3, e4, e5, ?_⟩
        rw [e6]
        by_cases hn : a.name = nm
        · simp [hooksFor, hn]
        · simp [hooksFor, hn]
      · simp at h1
    · simp at h1

theorem still_of_fields {s t : Sess K} (e2 : t.own = s.own) (e3 : t.log = s.log) (hw : LogWF s) :
    LogWF t ∧ ∀ name ty, logged t name ty = logged s name ty := by
  have hr : ∀ name ty, logRef t name ty = logRef s name ty := by
    intro name ty
    unfold logRef
    rw [e3]
  refine ⟨⟨?_, ?_⟩, ?_⟩
  · intro name ty r h
    rw [hr] at h
    rw [e2]
    exact hw.own name ty r h
  · intro n1 t1 n2 t2 r h1 h2
    rw [hr] at h1 h2
    exact hw.inj n1 t1 n2 t2 r h1 h2
  · intro name ty
    rw [logged_eq, logged_eq, hr]
    cases h : logRef s name ty with
    | none => rfl
    | some r =>
      obtain ⟨n, rfl, _⟩ := hw.own name ty r h
      show (t.own[n]?).map _ = (s.own[n]?).map _
      rw [e2]

theorem body_fold [Field K] (E : SEnv K) (r m k : Nat) (nm : PyStr) (body : List (SOp K)) : ∀ (calls : List (Nat × Nat)) (s t : Sess K),
    (∀ o ∈ body, IsRun o) → Inside r m k nm calls s → SAct.each (SOp.run E) (body.map (shift k)) s = (t, none) →
    t.user = s.user ++ allocs body ∧ ∃ vs, List.Forall₂ (fun u v => ∃ a b, t.user[u.1 + k]? = some a ∧ t.user[u.2 + k]? = some b ∧
      computePerSampleGradient a.val b.val (E.kind m) = .ok v) ((uses m body calls).flatMap (List.replicate r)) vs ∧
      vs.foldlM accum (logged s nm (LogType.name .grad)) = .ok (logged t nm (LogType.name .grad)) := by
  induction body with
  | nil =>
    intro calls s t _ _ h
    cases h
    exact ⟨(List.append_nil _).symm, [], .nil, rfl⟩
  | cons o body ih =>
    intro calls s t hr hi h
    obtain ⟨u, h1, h2⟩ := SAct.seq_none h
    have ih' := fun calls hu => ih calls u t (fun o ho => hr o (List.mem_cons_of_mem _ ho)) hu h2
    have hallocs : allocs (o :: body) = allocs [o] ++ allocs body := by simp [allocs]
    cases hr o (List.mem_cons_self ..) with
    | alloc a =>
      have hu : ({ s with user := s.user ++ [a] } : Sess K) = u := congrArg Prod.fst h1
      subst hu
      have hf := still_of_fields (s := s) (t := { s with user := s.user ++ [a] }) rfl rfl hi.wf
      obtain ⟨e, vs, f, g⟩ := ih' calls ⟨hf.1, hi.forward, hi.backward, hi.grad, hi.own, hi.others, hi.tens⟩
      refine ⟨?_, vs, f, ?_⟩
      · rw [e, hallocs, ← List.append_assoc]
        rfl
      · rw [hf.2] at g
        exact g
    | forward m' x y =>
      have h1' : forward E m' (x + k) (y + k) s = (u, none) := h1
      unfold forward at h1'
      split at h1'
      · simp at h1'
      · obtain ⟨s1, a1, a2⟩ := SAct.seq_none h1'
        obtain ⟨s2, a3, a4⟩ := SAct.seq_none a2
        have st : ∀ (l : List ModHook) (s s1 : Sess K), .log ∉ s.opt.forward →
            SAct.each (fun h : ModHook => Sess.forwardHook E m' (x + k) h.name) l s = (s1, none) → Still s s1 := by
          intro l
          induction l with
          | nil =>
            intro s s1 _ h
            cases h
            exact Still.refl s
          | cons a l ihl =>
            intro s s1 hl h
            obtain ⟨s', b1, b2⟩ := SAct.seq_none h
            dsimp only at b1
            have := forwardHook_still E m' (x + k) a.name s hl
            rw [b1] at this
            refine this.trans (ihl s' s1 ?_ b2)
            rw [opt_of_quiet this.1]
            exact hl
        have st := st _ s s1 hi.forward a1
        have hi1 := hi.still st.1 (st.wf hi.wf)
        have e2 : ({ s1 with calls := _ } : Sess K) = s2 := congrArg Prod.fst a3
        have f2 : s2.user = s1.user ∧ s2.own = s1.own ∧ s2.log = s1.log ∧ s2.opt = s1.opt ∧ s2.fwd = s1.fwd ∧ s2.tens = s1.tens := by
          rw [← e2]
          exact ⟨rfl, rfl, rfl, rfl, rfl, rfl⟩
        obtain ⟨c1, c2, c3, c4, c5, c6⟩ := register_spec m' (x + k) (y + k) nm _ s2 u a4
        have hw := still_of_fields (c2.trans f2.2.1) (c3.trans f2.2.2.1) hi1.wf
        have hlog : logged u nm (LogType.name .grad) = logged s nm (LogType.name .grad) := by
          rw [hw.2, st.logged hi.wf]
        have huser : u.user = s.user := c1.trans (f2.1.trans st.2.1)
        have hu : Inside r m k nm (if m' = m then calls ++ [(x, y)] else calls) u := by
          constructor
          · exact hw.1
          · rw [c4, f2.2.2.2.1]; exact hi1.forward
          · rw [c4, f2.2.2.2.1]; exact hi1.backward
          · rw [c4, f2.2.2.2.1]; exact hi1.grad
          · rw [c5, f2.2.2.2.2.1]; exact hi1.own
          · rw [c5, f2.2.2.2.2.1]; exact hi1.others
          · rw [c6, f2.2.2.2.2.2, hi1.tens, f2.2.2.2.2.1]
            by_cases hm : m' = m
            · subst hm
              rw [if_pos rfl, hi1.own, List.flatMap_append]
              simp
            · rw [if_neg hm]
              have : (((s1.fwd.filter fun h => h.mod = m').map ModHook.name).filter (· = nm)) = [] := by
                rw [List.filter_eq_nil_iff]
                intro n hn
                obtain ⟨h, hh, rfl⟩ := List.mem_map.1 hn
                obtain ⟨hh1, hh2⟩ := List.mem_filter.1 hh
                simp only [decide_eq_true_eq] at hh2 ⊢
                exact hi1.others h hh1 (by rw [hh2]; exact hm)
              rw [this]
              simp
        obtain ⟨e, vs, f, g⟩ := ih' _ hu
        refine ⟨by rw [e, huser, hallocs]; rfl, vs, f, ?_⟩
        rw [hlog] at g
        exact g
    | gradAt y g =>
      have h1' : gradAt E (y + k) (g + k) s = (u, none) := h1
      unfold gradAt at h1'
      obtain ⟨q, hu, w, vs, hf, hfold⟩ := gradHooks_fold E (g + k) nm _ s u hi.wf hi.grad hi.backward h1'
      obtain ⟨e, vs', f', g'⟩ := ih' calls (hi.still q w)
      have hpre : ∀ (n : Nat) (a : TObj K), s.user[n]? = some a → t.user[n]? = some a := by
        intro n a hn
        rw [e, hu, List.getElem?_append_left (List.getElem?_eq_some_iff.1 hn).1]
        exact hn
      refine ⟨by rw [e, hu, hallocs]; rfl, vs ++ vs', ?_, ?_⟩
      · show List.Forall₂ _ (((calls.filter fun c => c.2 = y).map (fun c => (c.1, g)) ++ uses m body calls).flatMap (List.replicate r)) _
        rw [List.flatMap_append]
        refine List.rel_append ?_ f'
        have hk : hooksFor nm (s.tens.filter fun h => h.out = y + k) =
            ((calls.filter fun c => c.2 = y).flatMap (List.replicate r)).map fun c => (m, c.1 + k, c.2 + k) := by
          have e1 : hooksFor nm (s.tens.filter fun h => h.out = y + k) = (hooksFor nm s.tens).filter fun c => c.2.2 = y + k := by
            generalize s.tens = l
            induction l with
            | nil => rfl
            | cons a l ihl =>
              obtain ⟨i, out, fn⟩ := a
              by_cases ho : out = y + k
              · rw [List.filter_cons_of_pos (by simpa using ho)]
                cases fn with
                | grad mod x name =>
                  by_cases hn : name = nm
                  · simp only [hooksFor, List.filterMap_cons, hn, if_true] at ihl ⊢
                    rw [List.filter_cons_of_pos (by simpa using ho), ihl]
                  · simpa only [hooksFor, List.filterMap_cons, if_neg hn] using ihl
                | activation name => simpa only [hooksFor, List.filterMap_cons] using ihl
              · rw [List.filter_cons_of_neg (by simpa using ho)]
                cases fn with
                | grad mod x name =>
                  by_cases hn : name = nm
                  · simp only [hooksFor, List.filterMap_cons, hn, if_true] at ihl ⊢
                    rw [List.filter_cons_of_neg (by simpa using ho), ihl]
                  · simpa only [hooksFor, List.filterMap_cons, if_neg hn] using ihl
                | activation name => simpa only [hooksFor, List.filterMap_cons] using ihl
          rw [e1, hi.tens]
          generalize calls = l
          induction l with
          | nil => rfl
          | cons c l ihl =>
            rw [List.flatMap_cons, List.filter_append, ihl]
            by_cases hc : c.2 = y
            · rw [List.filter_cons_of_pos (by simpa using hc), List.flatMap_cons, List.map_append, List.map_replicate,
                List.filter_replicate_of_pos (by simpa using hc)]
            · rw [List.filter_cons_of_neg (by simpa using hc), List.filter_replicate_of_neg (by simpa using hc), List.nil_append]
        have hg : ((calls.filter fun c => c.2 = y).map fun c => (c.1, g)).flatMap (List.replicate r) =
            ((calls.filter fun c => c.2 = y).flatMap (List.replicate r)).map fun c => (c.1, g) := by
          rw [List.flatMap_map, List.map_flatMap]
          simp only [List.map_replicate]
        rw [hk, List.forall₂_map_left_iff] at hf
        rw [hg, List.forall₂_map_left_iff]
        refine hf.imp ?_
        rintro c v ⟨a, b, h1, h2, h3⟩
        exact ⟨a, b, hpre _ _ h1, hpre _ _ h2, h3⟩
      · rw [List.foldlM_append, hfold]
        exact g'
    | backward y g =>
      have h1' : backward E (y + k) (g + k) s = (u, none) := h1
      unfold backward at h1'
      have st2 : ∀ (c : Nat) (l : List PyStr) (s s1 : Sess K), .log ∉ s.opt.backward →
          SAct.each (fun name => backwardHook E c (g + k) name) l s = (s1, none) → Still s s1 := by
        intro c l
        induction l with
        | nil =>
          intro s s1 _ h
          cases h
          exact Still.refl s
        | cons a l ihl =>
          intro s s1 hl h
          obtain ⟨s', b1, b2⟩ := SAct.seq_none h
          dsimp only at b1
          have := backwardHook_still E c (g + k) a s hl
          rw [b1] at this
          refine this.trans (ihl s' s1 ?_ b2)
          rw [opt_of_quiet this.1]
          exact hl
      have st : ∀ (l : List PastCall) (s s1 : Sess K), .log ∉ s.opt.backward →
          SAct.each (fun c : PastCall => SAct.each (fun name => backwardHook E c.mod (g + k) name) c.names) l s = (s1, none) → Still s s1 := by
        intro l
        induction l with
        | nil =>
          intro s s1 _ h
          cases h
          exact Still.refl s
        | cons a l ihl =>
          intro s s1 hl h
          obtain ⟨s', b1, b2⟩ := SAct.seq_none h
          have := st2 a.mod a.names s s' hl b1
          refine this.trans (ihl s' s1 ?_ b2)
          rw [opt_of_quiet this.1]
          exact hl
      have st := st _ s u hi.backward h1'
      obtain ⟨e, vs, f, g⟩ := ih' calls (hi.still st.1 (st.wf hi.wf))
      refine ⟨by rw [e, st.2.1, hallocs]; rfl, vs, f, ?_⟩
      rw [st.logged hi.wf] at g
      exact g
    | watchActivation d =>
      have h1' : watchActivation E (d.map fun e => (e.1, e.2 + k)) s = (u, none) := h1
      have main : ∀ (l : List (PyStr × Nat)) (s u : Sess K), Inside r m k nm calls s → watchActivation E l s = (u, none) →
          Inside r m k nm calls u ∧ u.user = s.user ∧ logged u nm (LogType.name .grad) = logged s nm (LogType.name .grad) := by
        intro l
        induction l with
        | nil =>
          intro s u hi h
          cases h
          exact ⟨hi, rfl, rfl⟩
        | cons a l ihl =>
          intro s u hi h
          obtain ⟨s1, b1, b2⟩ := SAct.seq_none h
          obtain ⟨s2, b3, b4⟩ := SAct.seq_none b1
          have st2 := convert_still E s (.user a.2)
          have st : Still s s2 := by
            have := st2.trans (plugins_still E none a.1 .forward (s.convert E (.user a.2)).2 (s.convert E (.user a.2)).1.opt.forward (by
              rw [opt_of_quiet st2.1]
              exact hi.forward) _)
            dsimp only at b3
            rw [b3] at this
            exact this
          have hi2 := hi.still st.1 (st.wf hi.wf)
          unfold registerTensorHook at b4
          split at b4
          · split at b4
            · simp only [Prod.mk.injEq, and_true] at b4
              subst b4
              have hw := still_of_fields (s := s2) (t := { s2 with nextId := s2.nextId + 1, tens := s2.tens ++ [⟨s2.nextId, a.2, .activation a.1⟩], hTens := s2.hTens ++ [s2.nextId] }) rfl rfl hi2.wf
              obtain ⟨c1, c2, c3⟩ := ihl _ u ⟨hw.1, hi2.forward, hi2.backward, hi2.grad, hi2.own, hi2.others, by
                rw [← hi2.tens]
                simp [hooksFor]⟩ b2
              refine ⟨c1, c2.trans st.2.1, ?_⟩
              rw [c3, hw.2, st.logged hi.wf]
            · simp at b4
          · simp at b4
      obtain ⟨c1, c2, c3⟩ := main _ s u hi h1'
      obtain ⟨e, vs, f, g⟩ := ih' calls c1
      refine ⟨by rw [e, c2, hallocs]; rfl, vs, f, ?_⟩
      rw [c3] at g
      exact g

/-- The hooks on outputs that opening a context makes. -/
theorem registerAll_fwd (ms : List Nat) : ∀ (s t : Sess K), SAct.each registerModule ms s = (t, none) →
    t.user = s.user ∧ t.log = s.log ∧ t.opt = s.opt ∧ t.tens = s.tens ∧
      t.fwd.map (fun h => (h.mod, some h.name)) = s.fwd.map (fun h => (h.mod, some h.name)) ++ ms.map fun m => (m, Dict.get? s.names m) := by
  induction ms with
  | nil =>
    intro s t h
    cases h
    simp
  | cons m ms ih =>
    intro s t h
    obtain ⟨u, h1, h2⟩ := SAct.seq_none h
    unfold registerModule at h1
    split at h1
    · simp at h1
    · next name hn =>
      simp only [Prod.mk.injEq, and_true] at h1
      obtain ⟨e1, e2, e3, e4, e5⟩ := ih u t h2
      rw [← h1] at e1 e2 e3 e4 e5
      refine ⟨e1, e2, e3, e4, ?_⟩
      rw [e5]
      simp [hn]

theorem context_inside [Field K] (E : SEnv K) (s : Sess K) (h : Handles s) (r m k : Nat) (nm : PyStr)
    (hcount : s.modules.count m = r) (hname : Dict.get? s.names m = some nm)
    (hunique : ∀ m' ∈ s.modules, Dict.get? s.names m' = some nm → m' = m)
    (hg : s.opt.grad.head? = some .log) (hf : .log ∉ s.opt.forward) (hb : .log ∉ s.opt.backward)
    {ctx : List (SOp K)} {ids : List PyStr} {mask : Option (Tensor K)} (hx : Context ctx ids mask) (t : Sess K)
    (ht : SAct.each (SOp.run E) ctx s = (t, none)) :
    t.user = s.user ∧ Inside r m k nm [] t ∧ logged t nm (LogType.name .grad) = none := by
  have main : ∀ s' t : Sess K, Handles s' → s'.log = [] → s'.modules = s.modules → s'.names = s.names → s'.opt = s.opt → s'.user = s.user →
      registerAllModuleHooks s'.clearHooks = (t, none) → t.user = s.user ∧ Inside r m k nm [] t ∧ logged t nm (LogType.name .grad) = none := by
    intro s' t h hl hm hn ho hu ht
    obtain ⟨h1, hp, hb', hf', ht'⟩ := clearHooks_handles h
    obtain ⟨e1, e2, e3, e4, e5⟩ := registerAll_fwd s'.clearHooks.modules s'.clearHooks t ht
    rw [hf', show s'.clearHooks.modules = s.modules from hm, show s'.clearHooks.names = s.names from hn, List.map_nil, List.nil_append] at e5
    have hlog : ∀ name ty, logRef t name ty = none := by
      intro name ty
      unfold logRef
      rw [e2, show s'.clearHooks.log = [] from hl]
      rfl
    have ho' : t.opt = s.opt := e3.trans ho
    have hfst : t.fwd.map ModHook.mod = s.modules := by
      have := congrArg (List.map Prod.fst) e5
      simpa [List.map_map, Function.comp_def] using this
    have hmem : ∀ h ∈ t.fwd, h.mod ∈ s.modules ∧ Dict.get? s.names h.mod = some h.name := by
      intro h hh
      have : (h.mod, some h.name) ∈ s.modules.map fun m => (m, Dict.get? s.names m) := by
        rw [← e5]
        exact List.mem_map.2 ⟨h, hh, rfl⟩
      obtain ⟨m', hm', e⟩ := List.mem_map.1 this
      simp only [Prod.mk.injEq] at e
      obtain ⟨rfl, e⟩ := e
      exact ⟨hm', e⟩
    refine ⟨e1.trans hu, ⟨⟨?_, ?_⟩, ?_, ?_, ?_, ?_, ?_, ?_⟩, ?_⟩
    · intro name ty r hr
      rw [hlog] at hr
      cases hr
    · intro n1 t1 n2 t2 r hr _
      rw [hlog] at hr
      cases hr
    · rw [ho']; exact hf
    · rw [ho']; exact hb
    · rw [ho']; exact hg
    · have hlen : ((t.fwd.filter fun h => h.mod = m).map ModHook.name).length = r := by
        rw [List.length_map, ← List.countP_eq_length_filter, ← hcount, ← hfst, List.count, List.countP_map]
        apply List.countP_congr
        intro a _
        simp
      rw [← hlen]
      refine List.eq_replicate_of_mem ?_
      intro n hn
      obtain ⟨a, ha, rfl⟩ := List.mem_map.1 hn
      obtain ⟨ha1, ha2⟩ := List.mem_filter.1 ha
      simp only [decide_eq_true_eq] at ha2
      have := (hmem a ha1).2
      rw [ha2, hname] at this
      exact (Option.some.inj this).symm
    · intro a ha hne e
      obtain ⟨a1, a2⟩ := hmem a ha
      exact hne (hunique a.mod a1 (by rw [a2, e]))
    · rw [e4, ht']
      rfl
    · rw [logged_eq, hlog]
      rfl
  cases hx with
  | «with» _ _ sv =>
    obtain ⟨u, h1, h2⟩ := SAct.seq_none ht
    obtain ⟨v, h3, h4⟩ := SAct.seq_none h2
    cases h4
    have hu : ({ s.setBatch ids mask with saveBatch := sv } : Sess K) = u := congrArg Prod.fst h1
    subst hu
    exact main { s.setBatch ids mask with saveBatch := sv } _ (h.congr rfl) rfl rfl rfl rfl rfl h3
  | start _ _ =>
    obtain ⟨v, h3, h4⟩ := SAct.seq_none ht
    cases h4
    exact main (s.setBatch ids mask) _ (h.congr rfl) rfl rfl rfl rfl rfl h3

/-- Elements of a sum in place. -/
theorem add__el [Semiring K] {a b c : Tensor K} (h : a.add_ b = .ok c) (idx : List Nat) : c.el idx = a.el idx + b.el idx := by
  unfold Tensor.add_ at h
  split at h
  · next hs =>
    cases h
    rw [Tensor.el_ofFn]
    by_cases hr : inRange a.shape idx = true
    · rw [if_pos hr]
    · rw [if_neg hr]
      unfold Tensor.el
      rw [if_neg hr, if_neg (hs.2 ▸ hr), add_zero]
  · cases h

theorem accum_el [Semiring K] (vs : List (Tensor K)) : ∀ (a c : Tensor K), vs.foldlM accum (some a) = .ok (some c) →
    ∀ idx, c.el idx = a.el idx + (vs.map fun v => v.el idx).sum := by
  induction vs with
  | nil =>
    intro a c h idx
    cases h
    simp
  | cons v vs ih =>
    intro a c h idx
    rw [List.foldlM_cons] at h
    cases hv : a.add_ v with
    | error e =>
      rw [show accum (some a) v = .error e from by show (a.add_ v).map some = _; rw [hv]; rfl] at h
      cases h
    | ok w =>
      rw [show accum (some a) v = .ok (some w) from by show (a.add_ v).map some = _; rw [hv]; rfl] at h
      rw [ih w c h idx, add__el hv, List.map_cons, List.sum_cons, add_assoc]

theorem accum_some (vs : List (Tensor K)) [Semiring K] : ∀ (a : Tensor K) (c : Option (Tensor K)), vs.foldlM accum (some a) = .ok c → c.isSome := by
  induction vs with
  | nil =>
    intro a c h
    cases h
    rfl
  | cons v vs ih =>
    intro a c h
    rw [List.foldlM_cons] at h
    cases hv : a.add_ v with
    | error e =>
      rw [show accum (some a) v = .error e from by show (a.add_ v).map some = _; rw [hv]; rfl] at h
      cases h
    | ok w =>
      rw [show accum (some a) v = .ok (some w) from by show (a.add_ v).map some = _; rw [hv]; rfl] at h
      exact ih w c h

theorem forall₂_replicate {α β : Type} {R : α → β → Prop} (hR : ∀ a b b', R a b → R a b' → b = b') (r : Nat) : ∀ (us : List α) (vs : List β),
    List.Forall₂ R (us.flatMap (List.replicate (r + 1))) vs → ∃ ws, List.Forall₂ R us ws ∧ vs = ws.flatMap (List.replicate (r + 1)) := by
  intro us
  induction us with
  | nil =>
    intro vs h
    cases h
    exact ⟨[], .nil, rfl⟩
  | cons u us ih =>
    intro vs h
    rw [List.flatMap_cons] at h
    have same : ∀ (n : Nat) (l : List α) (vs : List β) (w : β), R u w → List.Forall₂ R (List.replicate n u ++ l) vs →
        ∃ vs', vs = List.replicate n w ++ vs' ∧ List.Forall₂ R l vs' := by
      intro n
      induction n with
      | zero => exact fun l vs w _ h => ⟨vs, rfl, h⟩
      | succ n ihn =>
        intro l vs w hw h
        cases h with
        | cons h1 h2 =>
          obtain ⟨vs', e, f⟩ := ihn l _ w hw h2
          refine ⟨vs', ?_, f⟩
          rw [e, hR u _ _ h1 hw]
          rfl
    obtain ⟨w, hw⟩ : ∃ w, R u w := by
      cases h with
      | cons h1 _ => exact ⟨_, h1⟩
    obtain ⟨vs', e, f⟩ := same _ _ _ w hw h
    obtain ⟨ws, f', e'⟩ := ih vs' f
    exact ⟨w :: ws, .cons hw f', by rw [e, e', List.flatMap_cons]⟩

theorem sum_flatMap_replicate {β : Type} [Semiring K] (r : Nat) (f : β → K) (ws : List β) :
    ((ws.flatMap (List.replicate r)).map f).sum = r * (ws.map f).sum := by
  induction ws with
  | nil => simp
  | cons w ws ih => rw [List.flatMap_cons, List.map_append, List.sum_append, ih, List.map_replicate, List.sum_replicate, List.map_cons, List.sum_cons,
      mul_add, nsmul_eq_mul]

/-- **C102, what happens.** After any history, let a module be watched `r` times, under a name of its own, and gradients be logged. If a batch
context is opened, in either interface, and a model run takes place in it without exception, in which the module is used any number of times and
the gradients arrive at the outputs of its uses in any order, then the logged gradient of the module is `r` times the sum of the per-sample
gradients of those uses, element by element. Nothing is logged if no gradient arrived. -/
theorem C102_times_partial [Field K] (E : SEnv K) (ops : List (SOp K)) (n : Nat) (th : Int) (fs : FS) (r m : Nat) (nm : PyStr)
    (ctx : List (SOp K)) (ids : List PyStr) (mask : Option (Tensor K)) (hx : Context ctx ids mask)
    (body : List (SOp K)) (hbody : ∀ o ∈ body, IsRun o) :
    let s := runHistory E ops (Sess.init n th fs)
    (watched (outcomes E ops (Sess.init n th fs))).count m = r + 1 → Dict.get? s.names m = some nm →
    (∀ m' ∈ s.modules, Dict.get? s.names m' = some nm → m' = m) →
    s.opt.grad.head? = some .log → .log ∉ s.opt.forward → .log ∉ s.opt.backward →
    ∀ t, SAct.each (SOp.run E) (ctx ++ body.map (shift s.user.length)) s = (t, none) →
    ∃ vs, List.Forall₂ (fun u v => ∃ x g, (allocs body)[u.1]? = some x ∧ (allocs body)[u.2]? = some g ∧
        computePerSampleGradient x.val g.val (E.kind m) = .ok v) (uses m body []) vs ∧
      (uses m body [] = [] → logged t nm (LogType.name .grad) = none) ∧
      (uses m body [] ≠ [] → ∃ T, logged t nm (LogType.name .grad) = some T ∧ ∀ idx, T.el idx = ((r + 1 : Nat) : K) * (vs.map fun v => v.el idx).sum) := by
  intro s hcount hname hunique hg hf hb t ht
  have hmods : s.modules = watched (outcomes E ops (Sess.init n th fs)) := modules_eq_watched E ops (Sess.init n th fs) [] (init_handles n th fs) rfl
  rw [← hmods] at hcount
  rw [SAct.each_append] at ht
  obtain ⟨u, h1, h2⟩ := SAct.seq_none ht
  obtain ⟨hu, hi, hn⟩ := context_inside E s (history_handles E ops n th fs) (r + 1) m s.user.length nm hcount hname hunique hg hf hb hx u h1
  obtain ⟨e, vs, hf2, hfold⟩ := body_fold E (r + 1) m s.user.length nm body [] u t hbody hi h2
  rw [hn] at hfold
  rw [e, hu] at hf2
  have hf3 : List.Forall₂ (fun u v => ∃ x g, (allocs body)[u.1]? = some x ∧ (allocs body)[u.2]? = some g ∧
      computePerSampleGradient x.val g.val (E.kind m) = .ok v) ((uses m body []).flatMap (List.replicate (r + 1))) vs := by
    refine hf2.imp ?_
    rintro c v ⟨a, b, h1, h2, h3⟩
    refine ⟨a, b, ?_, ?_, h3⟩
    · rw [List.getElem?_append_right (Nat.le_add_left ..), Nat.add_sub_cancel] at h1
      exact h1
    · rw [List.getElem?_append_right (Nat.le_add_left ..), Nat.add_sub_cancel] at h2
      exact h2
  obtain ⟨ws, hf4, hvs⟩ := forall₂_replicate (by
    rintro c v v' ⟨x, g, h1, h2, h3⟩ ⟨x', g', h1', h2', h3'⟩
    cases h1.symm.trans h1'
    cases h2.symm.trans h2'
    exact Except.ok.inj (h3.symm.trans h3')) r _ _ hf3
  refine ⟨ws, hf4, ?_, ?_⟩
  · intro hnil
    rw [hnil] at hf4
    cases hf4
    subst hvs
    exact (Except.ok.inj hfold).symm
  · intro hne
    have hvne : vs ≠ [] := by
      rintro rfl
      cases ws with
      | nil => exact hne (List.forall₂_nil_right_iff.1 hf4)
      | cons _ _ => simp [List.replicate_succ] at hvs
    obtain ⟨T, hT, hsum⟩ : ∃ T, logged t nm (LogType.name .grad) = some T ∧ ∀ idx, T.el idx = (vs.map fun v => v.el idx).sum := by
      cases vs with
      | nil => exact absurd rfl hvne
      | cons v vs =>
        rw [List.foldlM_cons] at hfold
        have hfold' : vs.foldlM accum (some v) = .ok (logged t nm (LogType.name .grad)) := hfold
        obtain ⟨T, hT⟩ := Option.isSome_iff_exists.1 (accum_some vs v _ hfold')
        rw [hT] at hfold'
        refine ⟨T, hT, fun idx => ?_⟩
        rw [accum_el vs v T hfold' idx, List.map_cons, List.sum_cons]
    exact ⟨T, hT, fun idx => by rw [hsum, hvs, sum_flatMap_replicate]⟩

/-- **C18, when forward and backward logging are off.** After any history, let a module be watched (once, under a name of its own) and
gradients be logged. If a batch context is opened, in either interface, and a model run takes place in it without exception, in which the
module is used any number of times and the gradients arrive at the outputs of its uses in any order, then the logged gradient of the module is
the sum of the per-sample gradients of those uses, each computed from the input of the use and the gradient that arrived, element by element.
Nothing is logged if no gradient arrived. -/
theorem C18_partial [Field K] (E : SEnv K) (ops : List (SOp K)) (n : Nat) (th : Int) (fs : FS) (m : Nat) (nm : PyStr)
    (ctx : List (SOp K)) (ids : List PyStr) (mask : Option (Tensor K)) (hx : Context ctx ids mask)
    (body : List (SOp K)) (hbody : ∀ o ∈ body, IsRun o) :
    let s := runHistory E ops (Sess.init n th fs)
    s.modules.count m = 1 → Dict.get? s.names m = some nm → (∀ m' ∈ s.modules, Dict.get? s.names m' = some nm → m' = m) →
    s.opt.grad.head? = some .log → .log ∉ s.opt.forward → .log ∉ s.opt.backward →
    ∀ t, SAct.each (SOp.run E) (ctx ++ body.map (shift s.user.length)) s = (t, none) →
    ∃ vs, List.Forall₂ (fun u v => ∃ x g, (allocs body)[u.1]? = some x ∧ (allocs body)[u.2]? = some g ∧
        computePerSampleGradient x.val g.val (E.kind m) = .ok v) (uses m body []) vs ∧
      (uses m body [] = [] → logged t nm (LogType.name .grad) = none) ∧
      (uses m body [] ≠ [] → ∃ T, logged t nm (LogType.name .grad) = some T ∧ ∀ idx, T.el idx = (vs.map fun v => v.el idx).sum) := by
  intro s hcount hname hunique hg hf hb t ht
  have hmods : s.modules = watched (outcomes E ops (Sess.init n th fs)) := modules_eq_watched E ops (Sess.init n th fs) [] (init_handles n th fs) rfl
  rw [hmods] at hcount
  obtain ⟨vs, h1, h2, h3⟩ := C102_times_partial E ops n th fs 0 m nm ctx ids mask hx body hbody hcount hname hunique hg hf hb t ht
  refine ⟨vs, h1, h2, fun hne => ?_⟩
  obtain ⟨T, hT, hsum⟩ := h3 hne
  exact ⟨T, hT, fun idx => by rw [hsum, Nat.zero_add, Nat.cast_one, one_mul]⟩

/-- The order of the uses and of the gradients does not matter: two runs with the same tensors and the same uses, in any order, after any
histories and in contexts of either interface, log the same numbers. -/
theorem C18_order_partial [Field K] (E : SEnv K) (ops₁ ops₂ : List (SOp K)) (n₁ n₂ : Nat) (th₁ th₂ : Int) (fs₁ fs₂ : FS) (m : Nat)
    (nm₁ nm₂ : PyStr) (ctx₁ ctx₂ : List (SOp K)) (ids₁ ids₂ : List PyStr) (mask₁ mask₂ : Option (Tensor K))
    (hx₁ : Context ctx₁ ids₁ mask₁) (hx₂ : Context ctx₂ ids₂ mask₂)
    (body₁ body₂ : List (SOp K)) (hbody₁ : ∀ o ∈ body₁, IsRun o) (hbody₂ : ∀ o ∈ body₂, IsRun o)
    (hallocs : allocs body₁ = allocs body₂) (huses : (uses m body₁ []).Perm (uses m body₂ [])) :
    let s₁ := runHistory E ops₁ (Sess.init n₁ th₁ fs₁)
    let s₂ := runHistory E ops₂ (Sess.init n₂ th₂ fs₂)
    s₁.modules.count m = 1 → Dict.get? s₁.names m = some nm₁ → (∀ m' ∈ s₁.modules, Dict.get? s₁.names m' = some nm₁ → m' = m) →
    s₁.opt.grad.head? = some .log → .log ∉ s₁.opt.forward → .log ∉ s₁.opt.backward →
    s₂.modules.count m = 1 → Dict.get? s₂.names m = some nm₂ → (∀ m' ∈ s₂.modules, Dict.get? s₂.names m' = some nm₂ → m' = m) →
    s₂.opt.grad.head? = some .log → .log ∉ s₂.opt.forward → .log ∉ s₂.opt.backward →
    ∀ t₁ t₂, SAct.each (SOp.run E) (ctx₁ ++ body₁.map (shift s₁.user.length)) s₁ = (t₁, none) →
      SAct.each (SOp.run E) (ctx₂ ++ body₂.map (shift s₂.user.length)) s₂ = (t₂, none) →
      (logged t₁ nm₁ (LogType.name .grad)).map (fun T idx => T.el idx) = (logged t₂ nm₂ (LogType.name .grad)).map fun T idx => T.el idx := by
  intro s₁ s₂ a1 a2 a3 a4 a5 a6 b1 b2 b3 b4 b5 b6 t₁ t₂ h₁ h₂
  obtain ⟨vs₁, f₁, z₁, p₁⟩ := C18_partial E ops₁ n₁ th₁ fs₁ m nm₁ ctx₁ ids₁ mask₁ hx₁ body₁ hbody₁ a1 a2 a3 a4 a5 a6 t₁ h₁
  obtain ⟨vs₂, f₂, z₂, p₂⟩ := C18_partial E ops₂ n₂ th₂ fs₂ m nm₂ ctx₂ ids₂ mask₂ hx₂ body₂ hbody₂ b1 b2 b3 b4 b5 b6 t₂ h₂
  by_cases hnil : uses m body₁ [] = []
  · have hnil₂ : uses m body₂ [] = [] := (hnil ▸ huses).nil_eq.symm
    rw [z₁ hnil, z₂ hnil₂]
  · have hnil₂ : uses m body₂ [] ≠ [] := fun e => hnil (e ▸ huses).eq_nil
    obtain ⟨T₁, e₁, q₁⟩ := p₁ hnil
    obtain ⟨T₂, e₂, q₂⟩ := p₂ hnil₂
    have key : ∀ us vs, List.Forall₂ (fun (u : Nat × Nat) v => ∃ x g, (allocs body₂)[u.1]? = some x ∧ (allocs body₂)[u.2]? = some g ∧
        computePerSampleGradient x.val g.val (E.kind m) = .ok v) us vs →
        vs.map some = us.map fun u => ((allocs body₂)[u.1]?).bind fun x => ((allocs body₂)[u.2]?).bind fun g =>
          (computePerSampleGradient x.val g.val (E.kind m)).toOption := by
      intro us vs h
      induction h with
      | nil => rfl
      | cons h _ ih =>
        obtain ⟨x, g, hx, hg, hv⟩ := h
        rw [List.map_cons, List.map_cons, ih, hx, hg]
        show _ = (computePerSampleGradient x.val g.val (E.kind m)).toOption :: _
        rw [hv]
        rfl
    rw [hallocs] at f₁
    have hp : vs₁.Perm vs₂ := by
      have : (vs₁.map some).Perm (vs₂.map some) := by
        rw [key _ _ f₁, key _ _ f₂]
        exact huses.map _
      exact (List.map_perm_map_iff (Option.some_injective _)).1 this
    rw [e₁, e₂, Option.map_some, Option.map_some]
    congr 1
    funext idx
    rw [q₁, q₂]
    exact (hp.map _).sum_eq

end Logix
