/-
The element type of the logged tensors in any history.
-/
import Verif.Lemmas.SessionStored
import Verif.Spec.LogDtype

namespace Logix
variable {K : Type}
namespace Sess

/-- A tensor of element type `d`. -/
def Typ (d : DType) (s : Sess K) (r : TRef) : Prop := ∃ o, s.obj r = some o ∧ o.dtype = d

def BufOk (d : DType) (s : Sess K) : BVal K → Prop
  | .view r _ => Typ d s r
  | .copy d' _ => d' = d

structure DInv (d : DType) (n : Nat) (s : Sess K) : Prop where
  len : s.user.length = n
  log : ∀ r, s.InLog r → Typ d s r
  buf : ∀ e ∈ s.buffer, ∀ m ∈ e.2, ∀ t ∈ m.2, BufOk d s t.2

/-- No tensor vanishes or changes its element type. -/
def Holds (d : DType) (s s' : Sess K) : Prop := s'.user.length = s.user.length ∧ ∀ r, Typ d s r → Typ d s' r

theorem Holds.refl (d : DType) (s : Sess K) : Holds d s s := ⟨rfl, fun _ h => h⟩
theorem Holds.trans {d : DType} {s s' s'' : Sess K} (h : Holds d s s') (h' : Holds d s' s'') : Holds d s s'' :=
  ⟨h'.1.trans h.1, fun r hr => h'.2 r (h.2 r hr)⟩

theorem BufOk.mono {d : DType} {s s' : Sess K} (h : ∀ r, Typ d s r → Typ d s' r) {v : BVal K} (hv : BufOk d s v) : BufOk d s' v := by
  cases v with
  | view r i => exact h r hv
  | copy d' t => exact hv

theorem DInv.mono {d : DType} {n : Nat} {s s' : Sess K} (h : DInv d n s) (hh : Holds d s s') (hl : s'.log = s.log) (hb : s'.buffer = s.buffer) : DInv d n s' where
  len := hh.1.trans h.len
  log r hr := hh.2 r (h.log r (by unfold InLog at *; rw [← hl]; exact hr))
  buf e he m hm t ht := (h.buf e (by rw [← hb]; exact he) m hm t ht).mono hh.2

/-- The same tensors. -/
theorem holds_of_eq {d : DType} {s s' : Sess K} (hu : s'.user = s.user) (ho : s'.own = s.own) : Holds d s s' := by
  refine ⟨by rw [hu], fun r hr => ?_⟩
  obtain ⟨o, h1, h2⟩ := hr
  refine ⟨o, ?_, h2⟩
  cases r with
  | user n => show s'.user[n]? = _; rw [hu]; exact h1
  | own n => show s'.own[n]? = _; rw [ho]; exact h1

theorem DInv.same {d : DType} {n : Nat} {s s' : Sess K} (h : DInv d n s) (hu : s'.user = s.user) (ho : s'.own = s.own) (hl : s'.log = s.log)
    (hb : s'.buffer = s.buffer) : DInv d n s' := h.mono (holds_of_eq hu ho) hl hb

theorem alloc_holds (d : DType) (s : Sess K) (o : TObj K) : Holds d s (s.alloc o).1 := by
  refine ⟨rfl, fun r hr => ?_⟩
  obtain ⟨o', h1, h2⟩ := hr
  refine ⟨o', ?_, h2⟩
  cases r with
  | user n => exact h1
  | own n =>
    have h1' : s.own[n]? = some o' := h1
    show (s.own ++ [o])[n]? = _
    rw [List.getElem?_append_left (List.getElem?_eq_some_iff.1 h1').1]
    exact h1'

theorem alloc_typ (s : Sess K) (o : TObj K) : (s.alloc o).1.obj (s.alloc o).2 = some o := by
  show (s.own ++ [o])[s.own.length]? = some o
  simp

theorem alloc_DInv {d : DType} {n : Nat} {s : Sess K} (h : DInv d n s) (o : TObj K) : DInv d n (s.alloc o).1 := h.mono (alloc_holds d s o) rfl rfl

theorem setVal_holds (d : DType) (s : Sess K) (r : TRef) (v : Tensor K) : Holds d s (s.setVal r v) := by
  cases r with
  | user k =>
    refine ⟨by show (s.user.modify k _).length = _; simp, fun r hr => ?_⟩
    obtain ⟨o, h1, h2⟩ := hr
    cases r with
    | own n => exact ⟨o, h1, h2⟩
    | user n =>
      have h1' : s.user[n]? = some o := h1
      by_cases hk : k = n
      · refine ⟨{ o with val := v }, ?_, h2⟩
        show (s.user.modify k _)[n]? = _
        rw [List.getElem?_modify, h1']; simp [hk]
      · refine ⟨o, ?_, h2⟩
        show (s.user.modify k _)[n]? = _
        rw [List.getElem?_modify, h1']; simp [hk]
  | own k =>
    refine ⟨rfl, fun r hr => ?_⟩
    obtain ⟨o, h1, h2⟩ := hr
    cases r with
    | user n => exact ⟨o, h1, h2⟩
    | own n =>
      have h1' : s.own[n]? = some o := h1
      by_cases hk : k = n
      · refine ⟨{ o with val := v }, ?_, h2⟩
        show (s.own.modify k _)[n]? = _
        rw [List.getElem?_modify, h1']; simp [hk]
      · refine ⟨o, ?_, h2⟩
        show (s.own.modify k _)[n]? = _
        rw [List.getElem?_modify, h1']; simp [hk]

theorem setVal_DInv {d : DType} {n : Nat} {s : Sess K} (h : DInv d n s) (r : TRef) (v : Tensor K) : DInv d n (s.setVal r v) :=
  h.mono (setVal_holds d s r v) (by cases r <;> rfl) (by cases r <;> rfl)

theorem logUpdate_DInv [Semiring K] {d : DType} {n : Nat} (name ty : PyStr) (r : TRef) :
    (logUpdate (K := K) name ty r).Keeps fun s => DInv d n s ∧ Typ d s r := by
  rintro s ⟨h, h4⟩
  unfold logUpdate
  dsimp only
  split
  · refine ⟨⟨h.len, fun r' hr' => ?_, h.buf⟩, h4⟩
    rcases inLog_set hr' with h' | h'
    · exact h.log r' h'
    · rw [h']; exact h4
  · split
    · split
      · exact ⟨setVal_DInv h _ _, (setVal_holds d s _ _).2 _ h4⟩
      · exact ⟨h, h4⟩
    · exact ⟨h, h4⟩

theorem plugin_DInv [Semiring K] {d : DType} {n : Nat} (E : SEnv K) (mod : Option ModKind) (name : PyStr) (ty : LogType) (r : TRef) (p : Plugin) :
    (plugin E mod name ty r p).Keeps fun s => DInv d n s ∧ Typ d s r := by
  intro s h
  unfold plugin
  split
  · exact logUpdate_DInv name _ r s h
  · split
    · exact h
    · dsimp only
      split <;> exact ⟨h.1.same rfl rfl rfl rfl, h.2⟩

theorem plugins_DInv [Semiring K] {d : DType} {n : Nat} (E : SEnv K) (mod : Option ModKind) (name : PyStr) (ty : LogType) (r : TRef) (ps : List Plugin)
    {s : Sess K} (h : DInv d n s) (hr : Typ d s r) : DInv d n (SAct.each (plugin E mod name ty r) ps s).1 :=
  (SAct.Keeps.each (fun p _ => plugin_DInv E mod name ty r p) s ⟨h, hr⟩).1

theorem convert_DInv {d : DType} {n : Nat} {E : SEnv K} (hE : E.dtype = some d) {s : Sess K} (h : DInv d n s) {r : TRef} (hr : ∃ o, s.obj r = some o) :
    DInv d n (s.convert E r).1 ∧ Typ d (s.convert E r).1 (s.convert E r).2 := by
  obtain ⟨o, ho⟩ := hr
  unfold convert
  rw [hE, ho]
  dsimp only
  split
  · next hd => exact ⟨h, o, ho, hd⟩
  · exact ⟨alloc_DInv h _, _, alloc_typ s _, rfl⟩

theorem masked_DInv [Semiring K] {d : DType} {n : Nat} {s s' : Sess K} {r : TRef} {x : Py TRef} (h : DInv d n s) (he : s.masked r = (s', x)) :
    DInv d n s' ∧ ∀ r', x = .ok r' → ∃ o, s'.obj r' = some o := by
  unfold masked at he
  split at he
  · obtain ⟨rfl, rfl⟩ := Prod.mk.inj he; exact ⟨h, nofun⟩
  · next o ho =>
    split at he
    · obtain ⟨rfl, rfl⟩ := Prod.mk.inj he; exact ⟨h, nofun⟩
    · dsimp only at he
      split at he
      · obtain ⟨rfl, rfl⟩ := Prod.mk.inj he
        refine ⟨alloc_DInv h _, fun r' e => ?_⟩
        obtain rfl := Except.ok.inj e
        exact ⟨_, alloc_typ s _⟩
      · obtain ⟨rfl, rfl⟩ := Prod.mk.inj he
        exact ⟨h, fun r' e => ⟨o, by rw [← Except.ok.inj e]; exact ho⟩⟩

theorem user_obj {n : Nat} {s : Sess K} (h : s.user.length = n) {g : Nat} (hg : g < n) : ∃ o, s.obj (.user g) = some o :=
  ⟨_, List.getElem?_eq_getElem (by rw [h]; exact hg)⟩

variable {d : DType} {n : Nat} {E : SEnv K} (hE : E.dtype = some d)
include hE

theorem forwardHook_DInv [Semiring K] (mod x : Nat) (name : PyStr) : (forwardHook E mod x name).Keeps (DInv d n) := by
  intro s h
  unfold forwardHook
  split
  · next s' e he => exact (masked_DInv h he).1
  · next s' r he =>
    obtain ⟨h1, h2⟩ := masked_DInv h he
    obtain ⟨h3, h4⟩ := convert_DInv hE h1 (h2 r rfl)
    exact plugins_DInv E _ _ _ _ _ h3 h4

theorem backwardHook_DInv [Semiring K] (mod : Nat) {g : Nat} (hg : g < n) (name : PyStr) : (backwardHook E mod g name).Keeps (DInv d n) := by
  intro s h
  obtain ⟨h3, h4⟩ := convert_DInv hE h (user_obj h.len hg)
  exact plugins_DInv E _ _ _ _ _ h3 h4

theorem tensorBackwardHook_DInv [Semiring K] {g : Nat} (hg : g < n) (name : PyStr) : (tensorBackwardHook E g name).Keeps (DInv d n) := by
  intro s h
  obtain ⟨h3, h4⟩ := convert_DInv hE h (user_obj h.len hg)
  exact plugins_DInv E _ _ _ _ _ h3 h4

theorem gradBackwardHook_DInv [Semiring K] (mod x g : Nat) (name : PyStr) : (gradBackwardHook E mod x g name).Keeps (DInv d n) := by
  intro s h
  unfold gradBackwardHook
  split
  · exact h
  · exact h
  · split
    · split
      · exact h
      · next a b _ _ _ v _ =>
        obtain ⟨h3, h4⟩ := convert_DInv hE (alloc_DInv h ⟨v, b.dtype, false, true⟩) ⟨_, alloc_typ s ⟨v, b.dtype, false, true⟩⟩
        exact plugins_DInv E _ _ _ _ _ h3 h4
    · exact h

theorem gradAt_DInv [Semiring K] (y : Nat) {g : Nat} (hg : g < n) : (gradAt E y g).Keeps (DInv d n) := by
  intro s h
  refine SAct.Keeps.each (fun a _ => ?_) s h
  split
  · exact gradBackwardHook_DInv hE _ _ _ _
  · exact tensorBackwardHook_DInv hE hg _

theorem backward_DInv [Semiring K] (y : Nat) {g : Nat} (hg : g < n) : (backward E y g).Keeps (DInv d n) := by
  intro s h
  exact SAct.Keeps.each (fun c _ => SAct.Keeps.each fun n _ => backwardHook_DInv hE _ hg _) s h

omit hE in
theorem registerTensorHook_DInv (y : Nat) (fn : HookFn) : (registerTensorHook (K := K) y fn).Keeps (DInv d n) := by
  intro s h
  unfold registerTensorHook
  split
  · split
    · exact h.same rfl rfl rfl rfl
    · exact h
  · exact h

theorem watchActivation_DInv [Semiring K] {l : List (PyStr × Nat)} (hl : ∀ e ∈ l, e.2 < n) : (watchActivation E l).Keeps (DInv d n) := by
  refine SAct.Keeps.each fun a ha => SAct.Keeps.seq ?_ (registerTensorHook_DInv _ _)
  intro s h
  obtain ⟨h3, h4⟩ := convert_DInv hE h (user_obj h.len (hl a ha))
  exact plugins_DInv E _ _ _ _ _ h3 h4

theorem forward_DInv [Semiring K] (mod x y : Nat) : (forward E mod x y).Keeps (DInv d n) := by
  intro s h
  unfold forward
  split
  · exact h
  · refine SAct.Keeps.seq (SAct.Keeps.each fun a _ => forwardHook_DInv hE _ _ _) (SAct.Keeps.seq ?_ ?_) s h
    · exact fun s h => h.same rfl rfl rfl rfl
    · exact fun s h => SAct.Keeps.each (fun a _ => registerTensorHook_DInv _ _) s h

omit hE in
theorem registerAll_DInv : (registerAllModuleHooks (K := K)).Keeps (DInv d n) := by
  intro s h
  refine SAct.Keeps.each (fun m _ s h => ?_) s h
  unfold registerModule
  split
  · exact h
  · exact h.same rfl rfl rfl rfl

omit hE in
theorem gradStat_DInv [Semiring K] (p : Plugin) (name : PyStr) : (gradStat E p name).Keeps (DInv d n) := by
  intro s h
  unfold gradStat
  split
  · exact h
  · next r hr =>
    rw [Option.bind_eq_some_iff] at hr
    obtain ⟨tys, h1, h2⟩ := hr
    exact (plugin_DInv E _ _ _ _ _ s ⟨h, h.log r ⟨_, Dict.mem_of_get? _ h1, _, Dict.mem_of_get? _ h2, rfl⟩⟩).1

omit hE in
theorem addTypes_DInv [Zero K] {s : Sess K} (idx : Nat) (l : List (PyStr × TRef)) (hl : ∀ t ∈ l, Typ d s t.2) : ∀ st : Dict PyStr (BVal K) × Nat,
    (∀ t ∈ st.1, BufOk d s t.2) → ∀ t ∈ (addTypes s idx l st).1.1, BufOk d s t.2 := by
  induction l with
  | nil => exact fun st h => h
  | cons a l ih =>
    obtain ⟨k, r⟩ := a
    rintro ⟨buf, m⟩ h
    unfold addTypes
    split
    · exact h
    · next v m' hv =>
      refine ih (fun t ht => hl t (List.mem_cons_of_mem _ ht)) _ fun t ht => ?_
      rcases Dict.mem_set ht with e | ht
      · rw [e]
        obtain ⟨o, ho, hd⟩ := hl (k, r) (List.mem_cons_self ..)
        unfold bufferVal at hv
        rw [show s.obj r = some o from ho] at hv
        dsimp only at hv
        split at hv
        · cases hv
        · have := congrArg Prod.fst (Except.ok.inj hv)
          dsimp only at this
          rw [← this]
          show BufOk d s (if _ then _ else _)
          split
          · exact ⟨o, ho, hd⟩
          · exact hd
      · exact h t ht

omit hE in
theorem addModules_DInv [Zero K] {s : Sess K} (idx : Nat) (l : List (PyStr × Dict PyStr TRef)) (hl : ∀ m ∈ l, ∀ t ∈ m.2, Typ d s t.2) :
    ∀ st : Dict PyStr (Dict PyStr (BVal K)) × Nat, (∀ m ∈ st.1, ∀ t ∈ m.2, BufOk d s t.2) →
      ∀ m ∈ (addModules s idx l st).1.1, ∀ t ∈ m.2, BufOk d s t.2 := by
  induction l with
  | nil => exact fun st h => h
  | cons a l ih =>
    obtain ⟨k, mm⟩ := a
    rintro ⟨buf, c⟩ h
    have key : ∀ m ∈ Dict.set buf k (addTypes s idx mm ((Dict.get? buf k).getD [], c)).1.1, ∀ t ∈ m.2, BufOk d s t.2 := by
      intro m hm
      rcases Dict.mem_set hm with e | hm
      · rw [e]
        refine addTypes_DInv idx mm (hl _ (List.mem_cons_self ..)) _ fun t ht => ?_
        cases hg : Dict.get? buf k with
        | none => rw [hg] at ht; cases ht
        | some sub => rw [hg] at ht; exact h _ (Dict.mem_of_get? _ hg) t ht
      · exact h m hm
    unfold addModules
    dsimp only
    split
    · exact key
    · exact ih (fun m hm => hl m (List.mem_cons_of_mem _ hm)) _ key

omit hE in
theorem bufferWriteFrom_DInv [Zero K] (ids : List PyStr) : ∀ i, (bufferWriteFrom (K := K) i ids).Keeps (DInv d n) := by
  induction ids with
  | nil => exact fun _ s h => h
  | cons a ids ih =>
    intro i s h
    have key : DInv d n { s with
        buffer := Dict.set s.buffer a (addModules s i s.log ((Dict.get? s.buffer a).getD [], s.bufferSize)).1.1
        bufferSize := (addModules s i s.log ((Dict.get? s.buffer a).getD [], s.bufferSize)).1.2 } := by
      refine ⟨h.len, h.log, fun e he => ?_⟩
      rcases Dict.mem_set he with e' | he
      · rw [e']
        have := addModules_DInv (d := d) (s := s) i s.log (fun m hm t ht => h.log t.2 ⟨m, hm, t, ht, rfl⟩) ((Dict.get? s.buffer a).getD [], s.bufferSize) (by
          intro m hm
          cases hg : Dict.get? s.buffer a with
          | none => rw [hg] at hm; cases hm
          | some sub => rw [hg] at hm; exact h.buf _ (Dict.mem_of_get? _ hg) m hm)
        exact this
      · exact h.buf e he
    unfold bufferWriteFrom
    dsimp only
    split
    · exact key
    · exact ih _ _ key

omit hE in
theorem withSaver_DInv [Zero K] (f : List Path → FS → Saver → FS × Saver × Py Unit) : (withSaver E f).Keeps (DInv d n) := by
  intro s h
  refine ⟨h.len, h.log, ?_⟩
  unfold withSaver
  dsimp only
  split
  · exact fun e he => by cases he
  · exact h.buf

omit hE in
theorem update_DInv [Semiring K] (save : Bool) : (update E save).Keeps (DInv d n) := by
  intro s h
  unfold update
  refine SAct.Keeps.seq ?_ ?_ s h
  · exact SAct.Keeps.each fun p _ s h => SAct.Keeps.each (fun n _ => gradStat_DInv p n) s h
  · cases save
    · exact fun s h => h
    · refine SAct.Keeps.seq ?_ (withSaver_DInv _)
      intro s h
      unfold bufferWrite
      split
      · exact h
      · exact bufferWriteFrom_DInv _ _ s h

omit hE in
theorem copyTypes_DInv {s₀ : Sess K} (l : List (PyStr × TRef)) (hl : ∀ t ∈ l, Typ d s₀ t.2) : ∀ s s' x, copyTypes s₀ l s = (s', x) →
    (Holds d s s' ∧ s'.log = s.log ∧ s'.buffer = s.buffer) ∧ ∀ c, x = .ok c → ∀ t ∈ c, Typ d s' t.2 := by
  induction l with
  | nil =>
    intro s s' x h
    unfold copyTypes at h
    obtain ⟨rfl, rfl⟩ := Prod.mk.inj h
    exact ⟨⟨.refl d s, rfl, rfl⟩, fun c hc t ht => by rw [← Except.ok.inj hc] at ht; cases ht⟩
  | cons a l ih =>
    obtain ⟨k, r⟩ := a
    intro s s' x h
    obtain ⟨o, ho, hd⟩ := hl (k, r) (List.mem_cons_self ..)
    unfold copyTypes copyTensor at h
    rw [show s₀.obj r = some o from ho] at h
    dsimp only at h
    cases hlf : o.leaf with
    | false =>
      rw [hlf] at h
      obtain ⟨rfl, rfl⟩ := Prod.mk.inj h
      exact ⟨⟨.refl d s, rfl, rfl⟩, nofun⟩
    | true =>
      rw [hlf] at h
      simp only [if_true] at h
      rcases hc : copyTypes s₀ l (s.alloc o).1 with ⟨s2, y⟩
      obtain ⟨⟨g1, g2, g3⟩, g4⟩ := ih (fun t ht => hl t (List.mem_cons_of_mem _ ht)) _ _ _ hc
      have g : Holds d s s2 ∧ s2.log = s.log ∧ s2.buffer = s.buffer := ⟨(alloc_holds d s o).trans g1, g2, g3⟩
      rw [hc] at h
      cases y with
      | error e =>
        obtain ⟨rfl, rfl⟩ := Prod.mk.inj h
        exact ⟨g, nofun⟩
      | ok c =>
        obtain ⟨rfl, rfl⟩ := Prod.mk.inj h
        refine ⟨g, fun c' hc' t ht => ?_⟩
        rw [← Except.ok.inj hc'] at ht
        rcases List.mem_cons.1 ht with e | ht
        · rw [e]
          exact g1.2 _ ⟨o, alloc_typ s o, hd⟩
        · exact g4 c rfl t ht

omit hE in
theorem copyLog_DInv {s₀ : Sess K} (l : List (PyStr × Dict PyStr TRef)) (hl : ∀ m ∈ l, ∀ t ∈ m.2, Typ d s₀ t.2) : ∀ s s' x, copyLog s₀ l s = (s', x) →
    (Holds d s s' ∧ s'.log = s.log ∧ s'.buffer = s.buffer) ∧ ∀ c, x = .ok c → ∀ m ∈ c, ∀ t ∈ m.2, Typ d s' t.2 := by
  induction l with
  | nil =>
    intro s s' x h
    unfold copyLog at h
    obtain ⟨rfl, rfl⟩ := Prod.mk.inj h
    exact ⟨⟨.refl d s, rfl, rfl⟩, fun c hc t ht => by rw [← Except.ok.inj hc] at ht; cases ht⟩
  | cons a l ih =>
    obtain ⟨k, m⟩ := a
    intro s s' x h
    unfold copyLog at h
    rcases h1 : copyTypes s₀ m s with ⟨s1, y⟩
    obtain ⟨⟨f1, f2, f3⟩, f4⟩ := copyTypes_DInv m (hl (k, m) (List.mem_cons_self ..)) _ _ _ h1
    rw [h1] at h
    cases y with
    | error e =>
      obtain ⟨rfl, rfl⟩ := Prod.mk.inj h
      exact ⟨⟨f1, f2, f3⟩, nofun⟩
    | ok m' =>
      dsimp only at h
      rcases hc : copyLog s₀ l s1 with ⟨s2, y⟩
      obtain ⟨⟨g1, g2, g3⟩, g4⟩ := ih (fun t ht => hl t (List.mem_cons_of_mem _ ht)) _ _ _ hc
      have g : Holds d s s2 ∧ s2.log = s.log ∧ s2.buffer = s.buffer := ⟨f1.trans g1, g2.trans f2, g3.trans f3⟩
      rw [hc] at h
      cases y with
      | error e =>
        obtain ⟨rfl, rfl⟩ := Prod.mk.inj h
        exact ⟨g, nofun⟩
      | ok c =>
        obtain ⟨rfl, rfl⟩ := Prod.mk.inj h
        refine ⟨g, fun c' hc' x hx t ht => ?_⟩
        rw [← Except.ok.inj hc'] at hx
        rcases List.mem_cons.1 hx with e | hx
        · rw [e] at ht
          exact g1.2 _ (f4 m' rfl t ht)
        · exact g4 c rfl x hx t ht

omit hE in
theorem getLogCopy_DInv {s : Sess K} (h : DInv d n s) : DInv d n s.getLogCopy.1 ∧
    ∀ ids log, s.getLogCopy.2 = .ok (ids, log) → ∀ m ∈ log, ∀ t ∈ m.2, Typ d s.getLogCopy.1 t.2 := by
  rcases hc : copyLog s s.log s with ⟨s', x⟩
  obtain ⟨⟨g1, g2, g3⟩, g4⟩ := copyLog_DInv s.log (fun m hm t ht => h.log t.2 ⟨m, hm, t, ht, rfl⟩) _ _ _ hc
  unfold getLogCopy
  rw [hc]
  cases x with
  | error e => exact ⟨h.mono g1 g2 g3, nofun⟩
  | ok c =>
    refine ⟨h.mono g1 g2 g3, fun ids log e => ?_⟩
    have := congrArg Prod.snd (Except.ok.inj e)
    dsimp only at this
    rw [← this]
    exact g4 c rfl

end Sess

open Sess Spec

theorem run_DInv [Field K] {d : DType} {n : Nat} {E : SEnv K} (hE : E.dtype = some d) (o : SOp K) (ho : ∀ i ∈ tensorsOf o, i < n) (ha : ∀ t, o ≠ .alloc t) :
    (o.run E).Keeps (DInv d n) := by
  have hst : ∀ o, (stateOp E o).Keeps (DInv d n) := by
    intro o s h
    unfold stateOp
    split <;> exact h.same rfl rfl rfl rfl
  have hset : ∀ ids mask (s : Sess K), DInv d n s → DInv d n (s.setBatch ids mask) := fun ids mask s h =>
    ⟨h.len, fun r hr => (by obtain ⟨m, hm, -⟩ := hr; cases hm), h.buf⟩
  cases o with
  | alloc o => exact absurd rfl (ha o)
  | forward mod x y => exact forward_DInv hE mod x y
  | gradAt y g => exact gradAt_DInv hE y (ho g (by simp [tensorsOf]))
  | backward y g => exact backward_DInv hE y (ho g (by simp [tensorsOf]))
  | watchActivation l => exact watchActivation_DInv hE fun e he => ho e.2 (List.mem_map_of_mem he)
  | call ids mask sv => exact fun s h => (hset ids mask s h).same rfl rfl rfl rfl
  | enter => exact fun s h => registerAll_DInv _ (h.same rfl rfl rfl rfl)
  | exit => exact fun s h => update_DInv _ s h
  | start ids mask => exact fun s h => registerAll_DInv _ ((hset ids mask s h).same rfl rfl rfl rfl)
  | «end» sv => exact fun s h => update_DInv _ s h
  | log ids mask => exact fun s h => update_DInv _ _ (hset ids mask s h)
  | save b => exact fun s h => h.same rfl rfl rfl rfl
  | eval => exact fun s h => h.same rfl rfl rfl rfl
  | setup kw => exact fun s h => h.same rfl rfl rfl rfl
  | watch sel =>
    intro s h
    show DInv d n (Sess.watch sel s).1
    unfold Sess.watch
    dsimp only
    split <;> exact h.same rfl rfl rfl rfl
  | analysis o => exact hst o
  | getLogCopy => exact fun s h => (getLogCopy_DInv h).1
  | finalize dir => exact SAct.Keeps.seq (hst _) (withSaver_DInv _)
  | clear => exact SAct.Keeps.seq (hst _) fun s h => ⟨h.len, h.log, fun e he => by cases he⟩

theorem history_DInv [Field K] {d : DType} {E : SEnv K} (hE : E.dtype = some d) (ops : List (SOp K)) : ∀ (n : Nat) (s : Sess K), OnlyExisting n ops → DInv d n s →
    ∃ m, DInv d m (runHistory E ops s) := by
  induction ops with
  | nil => exact fun n s _ h => ⟨n, h⟩
  | cons o ops ih =>
    intro n s ho h
    by_cases ha : ∃ t, o = .alloc t
    · obtain ⟨t, rfl⟩ := ha
      refine ih (n + 1) _ ho ?_
      have hh : ∀ r, Typ d s r → Typ d { s with user := s.user ++ [t] } r := by
        rintro r ⟨x, h1, h2⟩
        refine ⟨x, ?_, h2⟩
        cases r with
        | own k => exact h1
        | user k =>
          have h1' : s.user[k]? = some x := h1
          show (s.user ++ [t])[k]? = _
          rw [List.getElem?_append_left (List.getElem?_eq_some_iff.1 h1').1]
          exact h1'
      exact ⟨by show (s.user ++ [t]).length = _; simp [h.len], fun r hr => hh r (h.log r hr), fun e he m hm x hx => (h.buf e he m hm x hx).mono hh⟩
    · have ha' : ∀ t, o ≠ .alloc t := fun t e => ha ⟨t, e⟩
      have : (∀ i ∈ tensorsOf o, i < n) ∧ OnlyExisting n ops := by
        cases o <;> first | exact absurd rfl (ha' _) | exact ho
      exact ih n _ this.2 (run_DInv hE o this.1 ha' s h)

end Logix
