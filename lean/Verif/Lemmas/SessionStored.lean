/-
Lemmas about sessions: what the save buffer refers to, and how long these tensors stay as they are.
-/
import Verif.Props.SessionHeap
import Verif.Props.SessionSave
import Verif.Lemmas.SessionSave
import Verif.Spec.SessionStored

set_option linter.unusedSectionVars false

namespace Logix
open Spec Sess
variable {K : Type}

namespace Sess

/-! ### Steps that only make new tensors -/

/-- Everything that a step outside a batch leaves alone, apart from LogIX's own tensors, which may become more. -/
def keepPart (s : Sess K) := (s.user, s.log, s.opt, s.paths, s.saver, s.buffer, s.bufferSize, s.fs)
def Grown (s s' : Sess K) : Prop := s'.keepPart = s.keepPart ∧ ∃ l, s'.own = s.own ++ l

theorem Grown.refl (s : Sess K) : Grown s s := ⟨rfl, [], (List.append_nil _).symm⟩
theorem Grown.trans {a b c : Sess K} (h : Grown a b) (h' : Grown b c) : Grown a c := by
  obtain ⟨h1, l, h2⟩ := h
  obtain ⟨h3, l', h4⟩ := h'
  exact ⟨h3.trans h1, l ++ l', by rw [h4, h2, List.append_assoc]⟩
theorem Grown.congr {s s' s'' : Sess K} (h : Grown s s') (e : s''.keepPart = s'.keepPart) (e' : s''.own = s'.own) : Grown s s'' :=
  h.trans ⟨e, [], by rw [e', List.append_nil]⟩
theorem Grown.opt {s s' : Sess K} (h : Grown s s') : s'.opt = s.opt := by
  have := h.1
  simp only [keepPart, Prod.mk.injEq] at this
  exact this.2.2.1
theorem Grown.stOnly {s s' s'' : Sess K} (h : Grown s s') (e : StOnly s' s'') : Grown s s'' := by
  have e' : ({ s'' with st := s'.st } : Sess K) = s' := e
  have h1 := congrArg keepPart e'
  have h2 := congrArg Sess.own e'
  exact h.congr h1 h2
theorem Grown.fwd {s s' : Sess K} (h : Grown s s') (hf : .log ∉ s.opt.forward) : .log ∉ s'.opt.forward := by rw [h.opt]; exact hf
theorem Grown.bwd {s s' : Sess K} (h : Grown s s') (hb : .log ∉ s.opt.backward) : .log ∉ s'.opt.backward := by rw [h.opt]; exact hb

theorem alloc_grown (s : Sess K) (o : TObj K) : Grown s (s.alloc o).1 := ⟨rfl, [o], rfl⟩

theorem convert_grown (E : SEnv K) (s : Sess K) (r : TRef) : Grown s (s.convert E r).1 := by
  unfold convert
  split
  · split
    · exact .refl s
    · exact alloc_grown s _
  · exact .refl s

theorem masked_grown [Semiring K] (s : Sess K) (r : TRef) : Grown s (s.masked r).1 := by
  unfold masked
  split
  · exact .refl s
  · split
    · exact .refl s
    · dsimp only
      split
      · exact alloc_grown s _
      · exact .refl s

theorem plugins_grown [Semiring K] (E : SEnv K) (mod : Option ModKind) (name : PyStr) (ty : LogType) (r : TRef) (ps : List Plugin)
    (h : .log ∉ ps) (s : Sess K) : Grown s (SAct.each (plugin E mod name ty r) ps s).1 :=
  (Grown.refl s).stOnly (each_stOnly (fun p hp s => plugin_stOnly E mod name ty r p (fun e => h (e ▸ hp)) s) s)

variable [Semiring K] {s₀ : Sess K} (hf : .log ∉ s₀.opt.forward) (hb : .log ∉ s₀.opt.backward) (E : SEnv K)
include hf hb

theorem forwardHook_grown (mod x : Nat) (name : PyStr) : (forwardHook E mod x name).Keeps (Grown s₀) := by
  intro s h
  have h1 := masked_grown s (.user x)
  unfold forwardHook
  split
  · next s' e he => rw [he] at h1; exact h.trans h1
  · next s' r he =>
    rw [he] at h1
    have h2 := (h.trans h1).trans (convert_grown E s' r)
    exact h2.trans (plugins_grown E _ _ _ _ _ (h2.fwd hf) _)

theorem backwardHook_grown (mod g : Nat) (name : PyStr) : (backwardHook E mod g name).Keeps (Grown s₀) := by
  intro s h
  have h2 := h.trans (convert_grown E s (.user g))
  exact h2.trans (plugins_grown E _ _ _ _ _ (h2.bwd hb) _)

theorem tensorBackwardHook_grown (g : Nat) (name : PyStr) : (tensorBackwardHook E g name).Keeps (Grown s₀) := by
  intro s h
  have h2 := h.trans (convert_grown E s (.user g))
  exact h2.trans (plugins_grown E _ _ _ _ _ (h2.bwd hb) _)

theorem registerTensorHook_grown (y : Nat) (fn : HookFn) : (registerTensorHook (K := K) y fn).Keeps (Grown s₀) := by
  intro s h
  unfold registerTensorHook
  split
  · split
    · exact h.congr rfl rfl
    · exact h
  · exact h

theorem forward_grown (mod x y : Nat) : (forward E mod x y).Keeps (Grown s₀) := by
  intro s h
  unfold forward
  split
  · exact h
  · dsimp only
    refine SAct.Keeps.seq (P := Grown s₀) (SAct.Keeps.each fun a _ => forwardHook_grown hf hb E _ _ _) ?_ s h
    refine SAct.Keeps.seq (P := Grown s₀) (fun s h => h.congr rfl rfl) ?_
    exact fun s h => SAct.Keeps.each (P := Grown s₀) (fun a _ => registerTensorHook_grown hf hb _ _) s h

theorem backward_grown (y g : Nat) : (backward E y g).Keeps (Grown s₀) := by
  intro s h
  exact SAct.Keeps.each (fun c _ => SAct.Keeps.each fun n _ => backwardHook_grown hf hb E _ _ _) s h

theorem watchActivation_grown (d : List (PyStr × Nat)) : (watchActivation E d).Keeps (Grown s₀) := by
  refine SAct.Keeps.each fun a _ => SAct.Keeps.seq ?_ (registerTensorHook_grown hf hb _ _)
  intro s h
  have h2 := h.trans (convert_grown E s (.user a.2))
  exact h2.trans (plugins_grown E _ _ _ _ _ (h2.fwd hf) _)

omit hf hb in
theorem registerModule_grown (mod : Nat) : (registerModule (K := K) mod).Keeps (Grown s₀) := by
  intro s h
  unfold registerModule
  split
  · exact h
  · exact h.congr rfl rfl

omit hf hb in
theorem registerAll_grown : (registerAllModuleHooks (K := K)).Keeps (Grown s₀) :=
  fun s h => SAct.Keeps.each (fun m _ => registerModule_grown m) s h

omit hf hb [Semiring K] in
theorem getLogCopy_grown (s : Sess K) : Grown s s.getLogCopy.1 := by
  have hc : ∀ (s₀ s : Sess K) r, Grown s (copyTensor s₀ s r).1 := by
    intro s₀ s r
    unfold copyTensor
    split
    · split
      · exact alloc_grown s _
      · exact .refl s
    · exact .refl s
  have ht : ∀ (s₀ : Sess K) (l : List (PyStr × TRef)) (s : Sess K), Grown s (copyTypes s₀ l s).1 := by
    intro s₀ l
    induction l with
    | nil => exact fun s => .refl s
    | cons a l ih =>
      obtain ⟨k, r⟩ := a
      intro s
      have h1 := hc s₀ s r
      unfold copyTypes
      split
      · next h => rw [h] at h1; exact h1
      · next s1 r' h =>
        rw [h] at h1
        have h2 := ih s1
        split
        · next h' => rw [h'] at h2; exact h1.trans h2
        · next h' => rw [h'] at h2; exact h1.trans h2
  have hl : ∀ (s₀ : Sess K) (l : List (PyStr × Dict PyStr TRef)) (s : Sess K), Grown s (copyLog s₀ l s).1 := by
    intro s₀ l
    induction l with
    | nil => exact fun s => .refl s
    | cons a l ih =>
      obtain ⟨k, r⟩ := a
      intro s
      have h1 := ht s₀ r s
      unfold copyLog
      split
      · next h => rw [h] at h1; exact h1
      · next s1 r' h =>
        rw [h] at h1
        have h2 := ih s1
        split
        · next h' => rw [h'] at h2; exact h1.trans h2
        · next h' => rw [h'] at h2; exact h1.trans h2
  have h1 := hl s s.log s
  unfold getLogCopy
  split
  · next h => rw [h] at h1; exact h1
  · next h => rw [h] at h1; exact h1

end Sess

/-! ### The tensors that the log and the buffer refer to -/

namespace Sess

/-- A tensor of LogIX of element type `d`. -/
def OwnOf (d : DType) (s : Sess K) (r : TRef) : Prop := ∃ n o, r = .own n ∧ s.own[n]? = some o ∧ o.dtype = d
def LogOk (d : DType) (s : Sess K) : Prop := ∀ r, s.InLog r → OwnOf d s r

theorem OwnOf.mono {d : DType} {s s' : Sess K} {r : TRef} (h : OwnOf d s r) (hl : ∃ l, s'.own = s.own ++ l) : OwnOf d s' r := by
  obtain ⟨n, o, e, ho, hd⟩ := h
  obtain ⟨l, hl⟩ := hl
  refine ⟨n, o, e, ?_, hd⟩
  rw [hl, List.getElem?_append_left (List.getElem?_eq_some_iff.1 ho).1]
  exact ho

theorem LogOk.mono {d : DType} {s s' : Sess K} (h : LogOk d s) (e : s'.log = s.log) (hl : ∃ l, s'.own = s.own ++ l) : LogOk d s' := by
  intro r hr
  unfold InLog at hr
  rw [e] at hr
  exact (h r hr).mono hl

theorem OwnOf.setVal {d : DType} {s : Sess K} {r : TRef} (h : OwnOf d s r) (r' : TRef) (v : Tensor K) : OwnOf d (s.setVal r' v) r := by
  obtain ⟨n, o, e, ho, hd⟩ := h
  cases r' with
  | user k => exact ⟨n, o, e, ho, hd⟩
  | own k =>
    by_cases hk : k = n
    · refine ⟨n, { o with val := v }, e, ?_, hd⟩
      show (s.own.modify k _)[n]? = _
      rw [List.getElem?_modify, ho]
      simp [hk]
    · refine ⟨n, o, e, ?_, hd⟩
      show (s.own.modify k _)[n]? = _
      rw [List.getElem?_modify, ho]
      simp [hk]

theorem logUpdate_ok [Semiring K] {d : DType} (u : List (TObj K)) (opt : LogOption) (name ty : PyStr) (r : TRef) :
    (logUpdate (K := K) name ty r).Keeps fun s => (s.user = u ∧ s.opt = opt ∧ LogOk d s) ∧ OwnOf d s r := by
  rintro s ⟨⟨h1, h2, h3⟩, h4⟩
  unfold logUpdate
  dsimp only
  split
  · refine ⟨⟨h1, h2, fun r' hr' => ?_⟩, h4⟩
    rcases inLog_set hr' with h | h
    · exact h3 r' h
    · rw [h]; exact h4
  · next r₀ hr₀ =>
    obtain ⟨n, o, rfl, -, -⟩ := h3 _ (inLog_of_get hr₀)
    split
    · split
      · exact ⟨⟨h1, h2, fun r' hr' => (h3 r' hr').setVal _ _⟩, h4.setVal _ _⟩
      · exact ⟨⟨h1, h2, h3⟩, h4⟩
    · exact ⟨⟨h1, h2, h3⟩, h4⟩

theorem plugin_ok [Semiring K] {d : DType} (u : List (TObj K)) (opt : LogOption) (E : SEnv K) (mod : Option ModKind) (name : PyStr) (ty : LogType)
    (r : TRef) (p : Plugin) :
    (plugin E mod name ty r p).Keeps fun s => (s.user = u ∧ s.opt = opt ∧ LogOk d s) ∧ OwnOf d s r := by
  intro s h
  unfold plugin
  split
  · exact logUpdate_ok u opt name _ r s h
  · split
    · exact h
    · dsimp only
      split <;> exact h

/-- The gradients that are logged get the element type `d`: it is configured, or none is and the user's tensors have it. -/
def Typed (E : SEnv K) (d : DType) (u : List (TObj K)) : Prop := E.dtype = some d ∨ (E.dtype = none ∧ ∀ o ∈ u, o.dtype = d)

theorem convert_own {d : DType} (E : SEnv K) (s : Sess K) (o : TObj K) (ht : E.dtype = some d ∨ (E.dtype = none ∧ o.dtype = d)) :
    OwnOf d ((s.alloc o).1.convert E (s.alloc o).2).1 ((s.alloc o).1.convert E (s.alloc o).2).2 := by
  have ho : (s.alloc o).1.obj (s.alloc o).2 = some o := by
    show (s.own ++ [o])[s.own.length]? = some o
    simp
  unfold convert
  rcases ht with ht | ⟨ht, hd⟩
  · rw [ht, ho]
    dsimp only
    split
    · next hd => exact ⟨_, o, rfl, ho, hd⟩
    · refine ⟨_, { o with dtype := d, leaf := !o.reqGrad }, rfl, ?_, rfl⟩
      show ((s.own ++ [o]) ++ [_])[(s.own ++ [o]).length]? = some _
      simp
  · rw [ht]
    exact ⟨_, o, rfl, ho, hd⟩

theorem gradBackwardHook_ok [Semiring K] {d : DType} {u : List (TObj K)} (opt : LogOption) (E : SEnv K) (ht : Typed E d u) (mod x g : Nat) (name : PyStr) :
    (gradBackwardHook E mod x g name).Keeps fun s => s.user = u ∧ s.opt = opt ∧ LogOk d s := by
  rintro s ⟨h1, h2, h3⟩
  unfold gradBackwardHook
  split
  · exact ⟨h1, h2, h3⟩
  · exact ⟨h1, h2, h3⟩
  · split
    · next a b _ hb =>
      split
      · exact ⟨h1, h2, h3⟩
      · next v _ =>
        have hg := (alloc_grown s ⟨v, b.dtype, false, true⟩).trans (convert_grown E _ (s.alloc ⟨v, b.dtype, false, true⟩).2)
        have ho := convert_own (d := d) E s ⟨v, b.dtype, false, true⟩ (by
          rcases ht with ht | ⟨ht, hd⟩
          · exact Or.inl ht
          · refine Or.inr ⟨ht, hd b ?_⟩
            rw [← h1]
            exact List.mem_of_getElem? (show s.user[g]? = some b from hb))
        have hk := hg.1
        simp only [keepPart, Prod.mk.injEq] at hk
        exact (SAct.Keeps.each (fun p _ => plugin_ok u opt E _ _ _ _ p) _ ⟨⟨hk.1.trans h1, hk.2.2.1.trans h2, h3.mono hk.2.1 hg.2⟩, ho⟩).1
    · exact ⟨h1, h2, h3⟩

theorem gradAt_ok [Semiring K] {d : DType} {u : List (TObj K)} {opt : LogOption} (hb : .log ∉ opt.backward) (hf : .log ∉ opt.forward) (E : SEnv K)
    (ht : Typed E d u) (y g : Nat) : (gradAt E y g).Keeps fun s => s.user = u ∧ s.opt = opt ∧ LogOk d s := by
  intro s h
  refine SAct.Keeps.each (P := fun s => s.user = u ∧ s.opt = opt ∧ LogOk d s) (fun a _ => ?_) s h
  split
  · exact gradBackwardHook_ok opt E ht _ _ _ _
  · rintro s ⟨h1, h2, h3⟩
    have hg := tensorBackwardHook_grown (s₀ := s) (by rw [h2]; exact hf) (by rw [h2]; exact hb) E g (by assumption) s (.refl s)
    have hk := hg.1
    simp only [keepPart, Prod.mk.injEq] at hk
    exact ⟨hk.1.trans h1, hk.2.2.1.trans h2, h3.mono hk.2.1 hg.2⟩

/-- The save buffer has a view of this tensor. -/
def TypesView (r : TRef) (b : Dict PyStr (BVal K)) : Prop := ∃ t ∈ b, ∃ idx, t.2 = .view r idx
def ModsView (r : TRef) (b : Dict PyStr (Dict PyStr (BVal K))) : Prop := ∃ m ∈ b, TypesView r m.2
def Views (s : Sess K) (r : TRef) : Prop := ∃ e ∈ s.buffer, ModsView r e.2

theorem addTypes_views [Zero K] (s : Sess K) (idx : Nat) (r : TRef) (l : List (PyStr × TRef)) : ∀ (st : Dict PyStr (BVal K) × Nat),
    TypesView r (addTypes s idx l st).1.1 → TypesView r st.1 ∨ ∃ t ∈ l, t.2 = r := by
  induction l with
  | nil => exact fun st h => Or.inl h
  | cons a l ih =>
    obtain ⟨k, r'⟩ := a
    rintro ⟨buf, n⟩ h
    unfold addTypes at h
    split at h
    · exact Or.inl h
    · next v m hv =>
      rcases ih _ h with h | ⟨t, ht, e⟩
      · obtain ⟨t, ht, i, e⟩ := h
        rcases Dict.mem_set ht with h | h
        · right
          rw [h] at e
          dsimp only at e
          refine ⟨_, List.mem_cons_self .., ?_⟩
          unfold bufferVal at hv
          split at hv
          · cases hv
          · split at hv
            · cases hv
            · have := congrArg Prod.fst (Except.ok.inj hv)
              dsimp only at this
              rw [e] at this
              split at this
              · exact (BVal.view.inj this).1
              · cases this
        · exact Or.inl ⟨t, h, i, e⟩
      · exact Or.inr ⟨t, List.mem_cons_of_mem _ ht, e⟩

theorem addModules_views [Zero K] (s : Sess K) (idx : Nat) (r : TRef) (l : List (PyStr × Dict PyStr TRef)) :
    ∀ (st : Dict PyStr (Dict PyStr (BVal K)) × Nat), ModsView r (addModules s idx l st).1.1 →
      ModsView r st.1 ∨ ∃ m ∈ l, ∃ t ∈ m.2, t.2 = r := by
  induction l with
  | nil => exact fun st h => Or.inl h
  | cons a l ih =>
    obtain ⟨k, m⟩ := a
    rintro ⟨buf, n⟩ h
    have key : ModsView r (Dict.set buf k (addTypes s idx m ((Dict.get? buf k).getD [], n)).1.1) →
        ModsView r buf ∨ ∃ x ∈ (k, m) :: l, ∃ t ∈ x.2, t.2 = r := by
      rintro ⟨x, hx, hv⟩
      rcases Dict.mem_set hx with e | hx
      · rw [e] at hv
        rcases addTypes_views s idx r m _ hv with h | h
        · cases hg : Dict.get? buf k with
          | none =>
            rw [hg] at h
            obtain ⟨t, ht, -⟩ := h
            cases ht
          | some sub =>
            rw [hg] at h
            exact Or.inl ⟨_, Dict.mem_of_get? _ hg, h⟩
        · exact Or.inr ⟨_, List.mem_cons_self .., h⟩
      · exact Or.inl ⟨x, hx, hv⟩
    unfold addModules at h
    dsimp only at h
    split at h
    · exact key h
    · rcases ih _ h with h | ⟨x, hx, ht⟩
      · exact key h
      · exact Or.inr ⟨x, List.mem_cons_of_mem _ hx, ht⟩

theorem bufferWriteFrom_views [Zero K] (r : TRef) (ids : List PyStr) : ∀ (i : Nat) (s : Sess K),
    (bufferWriteFrom i ids s).1.Views r → s.Views r ∨ s.InLog r := by
  induction ids with
  | nil => exact fun _ s h => Or.inl h
  | cons d ids ih =>
    intro i s h
    have key : ({ s with
        buffer := Dict.set s.buffer d (addModules s i s.log ((Dict.get? s.buffer d).getD [], s.bufferSize)).1.1
        bufferSize := (addModules s i s.log ((Dict.get? s.buffer d).getD [], s.bufferSize)).1.2 } : Sess K).Views r → s.Views r ∨ s.InLog r := by
      rintro ⟨x, hx, hv⟩
      rcases Dict.mem_set hx with e | hx
      · rw [e] at hv
        rcases addModules_views s i r s.log _ hv with h | h
        · cases hg : Dict.get? s.buffer d with
          | none =>
            rw [hg] at h
            obtain ⟨t, ht, -⟩ := h
            cases ht
          | some sub =>
            rw [hg] at h
            exact Or.inl ⟨_, Dict.mem_of_get? _ hg, h⟩
        · exact Or.inr h
      · exact Or.inl ⟨x, hx, hv⟩
    unfold bufferWriteFrom at h
    dsimp only at h
    split at h
    · exact key h
    · rcases ih _ _ h with h | h
      · exact key h
      · exact Or.inr h

theorem withSaver_views [Zero K] (E : SEnv K) (f : List Path → FS → Saver → FS × Saver × Py Unit) (s : Sess K) (r : TRef)
    (h : (withSaver E f s).1.Views r) : s.Views r := by
  obtain ⟨x, hx, hv⟩ := h
  unfold withSaver at hx
  dsimp only at hx
  split at hx
  · cases hx
  · exact ⟨x, hx, hv⟩

theorem saveLog_views [Zero K] (E : SEnv K) (s : Sess K) (r : TRef) (h : (saveLog E s).1.Views r) : s.Views r ∨ s.InLog r := by
  have hb : (bufferWrite s).1.Views r → s.Views r ∨ s.InLog r := by
    intro h
    unfold bufferWrite at h
    split at h
    · exact Or.inl h
    · exact bufferWriteFrom_views r _ _ _ h
  unfold saveLog SAct.seq at h
  split at h
  · next h' => exact hb (by rw [h']; exact h)
  · next h' => exact hb (by rw [h']; exact withSaver_views E _ _ _ h)

/-- The buffer means the same as long as the tensors behind its views are the same. -/
theorem value_congr [Zero K] (E : SEnv K) {s s' : Sess K} (h1 : s'.saver = s.saver) (h2 : s'.buffer = s.buffer) (h3 : s'.bufferSize = s.bufferSize)
    (h4 : ∀ r, s.Views r → s'.obj r = s.obj r) : s'.valueSaver E = s.valueSaver E := by
  have : s'.readBuffer E = s.readBuffer E := by
    unfold readBuffer
    rw [h2]
    apply List.map_congr_left
    intro e he
    refine Prod.ext rfl ?_
    apply List.map_congr_left
    intro m hm
    refine Prod.ext rfl (congrArg Nested.node ?_)
    apply List.map_congr_left
    intro t ht
    refine Prod.ext rfl (congrArg Nested.leaf ?_)
    cases hb : t.2 with
    | copy d x => rfl
    | view r idx =>
      unfold readVal
      dsimp only
      rw [h4 r ⟨e, he, m, hm, t, ht, idx, hb⟩]
  unfold valueSaver
  rw [h1, h3, this]

end Sess
end Logix
