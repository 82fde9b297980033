/-
C24, C25: copies of the log are snapshots; logging gradients does not change the user's tensors.
-/
import Verif.Lemmas.SessionInv
import Verif.Spec.Session
import Verif.Lemmas.Saver

namespace Logix
open Spec Sess
variable {K : Type}

/-! ### C24 -/

theorem inLog_set {l : Dict PyStr (Dict PyStr TRef)} {name ty : PyStr} {r r' : TRef}
    (h : ∃ m ∈ Dict.set l name (Dict.set ((Dict.get? l name).getD []) ty r), ∃ t ∈ m.2, t.2 = r') :
    (∃ m ∈ l, ∃ t ∈ m.2, t.2 = r') ∨ r' = r := by
  obtain ⟨m, hm, t, ht, e⟩ := h
  rcases Dict.mem_set hm with h | h
  swap
  · exact Or.inl ⟨m, h, t, ht, e⟩
  · rw [h] at ht
    rcases Dict.mem_set ht with h' | h'
    swap
    · cases hg : Dict.get? l name with
      | none =>
        rw [hg] at h'
        cases h'
      | some tys =>
        rw [hg] at h'
        exact Or.inl ⟨_, Dict.mem_of_get? _ hg, t, h', e⟩
    · right
      rw [h'] at e
      exact e.symm

theorem inLog_of_get {s : Sess K} {name ty : PyStr} {r : TRef} (h : Dict.get? ((Dict.get? s.log name).getD []) ty = some r) : s.InLog r := by
  cases hg : Dict.get? s.log name with
  | none =>
    rw [hg] at h
    cases h
  | some tys =>
    rw [hg] at h
    exact ⟨_, Dict.mem_of_get? _ hg, _, Dict.mem_of_get? _ h, rfl⟩

/-- A tensor of LogIX that is not in the log stays as it is and out of the log. -/
theorem kept_histInv [Semiring K] (n : Nat) (o : TObj K) :
    HistInv (K := K) (fun s => s.own[n]? = some o ∧ ¬ s.InLog (.own n)) fun r => r ≠ .own n where
  congr h e := by
    simp only [heapPart, Prod.mk.injEq] at e
    unfold InLog at *
    rw [e.2.1, e.2.2.1]
    exact h
  alloc {s o'} h := by
    have hn := List.getElem?_eq_some_iff.1 h.1
    refine ⟨⟨?_, h.2⟩, ?_⟩
    · show (s.own ++ [o'])[n]? = some o
      rw [List.getElem?_append_left hn.1]
      exact h.1
    · intro e
      have : s.own.length = n := TRef.own.inj e
      have := hn.1
      omega
  user _ _ := nofun
  logged h hl e := h.2 (e ▸ hl)
  logUpdate {r} name ty hr s h := by
    unfold Sess.logUpdate
    dsimp only
    split
    · refine ⟨h.1, fun hi => ?_⟩
      rcases inLog_set hi with h' | h'
      · exact h.2 h'
      · exact hr h'.symm
    · next r₀ hr₀ =>
      have hi := inLog_of_get hr₀
      split
      · split
        · next v _ =>
          cases r₀ with
          | user k => exact h
          | own k =>
            refine ⟨?_, h.2⟩
            have hk : k ≠ n := fun e => h.2 (e ▸ hi)
            show (s.own.modify k _)[n]? = some o
            rw [List.getElem?_modify]
            simpa [hk] using h.1
        · exact h
      · exact h
  calls h _ := h
  empty h := ⟨h.1, by rintro ⟨m, hm, _⟩; cases hm⟩

theorem run_kept [Field K] (E : SEnv K) (n : Nat) (o : TObj K) (op : SOp K) :
    (op.run E).Keeps fun s => s.own[n]? = some o ∧ ¬ s.InLog (.own n) := by
  refine HistInv.run_keeps (kept_histInv n o) E op ?_ ?_
  · intro kw e s h
    subst e
    exact h
  · intro t e s h
    subst e
    exact h

/-- Later copies leave earlier ones alone. -/
def Grows (s s' : Sess K) : Prop := ∃ l, s'.own = s.own ++ l ∧ s'.user = s.user ∧ s'.log = s.log

theorem Grows.refl (s : Sess K) : Grows s s := ⟨[], (List.append_nil _).symm, rfl, rfl⟩
theorem Grows.trans {a b c : Sess K} (h : Grows a b) (h' : Grows b c) : Grows a c := by
  obtain ⟨l, h1, h2, h3⟩ := h
  obtain ⟨l', h4, h5, h6⟩ := h'
  exact ⟨l ++ l', by rw [h4, h1, List.append_assoc], h5.trans h2, h6.trans h3⟩

theorem Grows.obj {s s' : Sess K} (h : Grows s s') {r : TRef} {o : TObj K} (hr : s.obj r = some o) : s'.obj r = some o := by
  obtain ⟨l, h1, h2, _⟩ := h
  cases r with
  | user n =>
    show s'.user[n]? = some o
    rw [h2]
    exact hr
  | own n =>
    show s'.own[n]? = some o
    have hn := (List.getElem?_eq_some_iff.1 (show s.own[n]? = some o from hr)).1
    rw [h1, List.getElem?_append_left hn]
    exact hr

/-- The tensor is one of LogIX made after the first `k`. -/
def Fresh (s : Sess K) (k : Nat) (r : TRef) : Prop := ∃ n, r = .own n ∧ k ≤ n ∧ n < s.own.length

theorem Fresh.mono {s s' : Sess K} {k k' : Nat} {r : TRef} (h : Fresh s k r) (hg : Grows s s') (hk : k' ≤ k) : Fresh s' k' r := by
  obtain ⟨n, h1, h2, h3⟩ := h
  obtain ⟨l, h4, _, _⟩ := hg
  refine ⟨n, h1, by omega, ?_⟩
  rw [h4, List.length_append]
  omega

theorem copyTensor_spec {s₀ s s' : Sess K} {r r' : TRef} (h : copyTensor s₀ s r = (s', .ok r')) :
    Grows s s' ∧ Fresh s' s.own.length r' ∧ ∃ o, s₀.obj r = some o ∧ s'.obj r' = some o := by
  unfold copyTensor at h
  split at h
  · next o ho =>
    split at h
    · simp only [Prod.mk.injEq, Except.ok.injEq] at h
      obtain ⟨rfl, rfl⟩ := h
      refine ⟨⟨[o], rfl, rfl, rfl⟩, ⟨s.own.length, rfl, Nat.le_refl _, ?_⟩, o, ho, ?_⟩
      · show s.own.length < (s.own ++ [o]).length
        simp
      · show (s.own ++ [o])[s.own.length]? = some o
        simp
    · simp at h
  · simp at h

theorem Grows.length {s s' : Sess K} (h : Grows s s') : s.own.length ≤ s'.own.length := by
  obtain ⟨x, hx, _⟩ := h
  rw [hx, List.length_append]
  omega

theorem copyTypes_spec (s₀ : Sess K) (l : List (PyStr × TRef)) : ∀ {s s' : Sess K} {d : Dict PyStr TRef}, copyTypes s₀ l s = (s', .ok d) →
    Grows s s' ∧ (∀ t ∈ d, Fresh s' s.own.length t.2) ∧ (∀ t ∈ l, ∃ o, s₀.obj t.2 = some o) ∧
      ∀ s'', Grows s' s'' → d.map (fun t => (t.1, s''.obj t.2)) = l.map fun t => (t.1, s₀.obj t.2) := by
  induction l with
  | nil =>
    intro s s' d h
    simp only [copyTypes, Prod.mk.injEq, Except.ok.injEq] at h
    obtain ⟨rfl, rfl⟩ := h
    exact ⟨Grows.refl _, by simp, by simp, fun _ _ => rfl⟩
  | cons a l ih =>
    obtain ⟨k, r⟩ := a
    intro s s' d h
    unfold copyTypes at h
    split at h
    · simp at h
    · next s1 r' h1 =>
      obtain ⟨g1, f1, o, ho, ho'⟩ := copyTensor_spec h1
      split at h
      · simp at h
      · next s2 d' h2 =>
        obtain ⟨g2, f2, e2, v2⟩ := ih h2
        simp only [Prod.mk.injEq, Except.ok.injEq] at h
        obtain ⟨rfl, rfl⟩ := h
        refine ⟨g1.trans g2, ?_, ?_, ?_⟩
        · intro t ht
          rcases List.mem_cons.1 ht with rfl | ht
          · exact f1.mono g2 (Nat.le_refl _)
          · exact (f2 t ht).mono (Grows.refl _) g1.length
        · intro t ht
          rcases List.mem_cons.1 ht with rfl | ht
          · exact ⟨o, ho⟩
          · exact e2 t ht
        · intro s'' hg
          rw [List.map_cons, List.map_cons, v2 s'' hg, (g2.trans hg).obj ho', ho]

theorem copyLog_spec (s₀ : Sess K) (l : List (PyStr × Dict PyStr TRef)) : ∀ {s s' : Sess K} {d : Dict PyStr (Dict PyStr TRef)},
    copyLog s₀ l s = (s', .ok d) →
    Grows s s' ∧ (∀ m ∈ d, ∀ t ∈ m.2, Fresh s' s.own.length t.2) ∧ (∀ m ∈ l, ∀ t ∈ m.2, ∃ o, s₀.obj t.2 = some o) ∧
      ∀ s'', Grows s' s'' → view s'' d = view s₀ l := by
  induction l with
  | nil =>
    intro s s' d h
    simp only [copyLog, Prod.mk.injEq, Except.ok.injEq] at h
    obtain ⟨rfl, rfl⟩ := h
    exact ⟨Grows.refl _, by simp, by simp, fun _ _ => rfl⟩
  | cons a l ih =>
    obtain ⟨k, m⟩ := a
    intro s s' d h
    unfold copyLog at h
    split at h
    · simp at h
    · next s1 m' h1 =>
      obtain ⟨g1, f1, e1, v1⟩ := copyTypes_spec s₀ m h1
      split at h
      · simp at h
      · next s2 d' h2 =>
        obtain ⟨g2, f2, e2, v2⟩ := ih h2
        simp only [Prod.mk.injEq, Except.ok.injEq] at h
        obtain ⟨rfl, rfl⟩ := h
        refine ⟨g1.trans g2, ?_, ?_, ?_⟩
        · intro t ht
          rcases List.mem_cons.1 ht with rfl | ht
          · exact fun x hx => (f1 x hx).mono g2 (Nat.le_refl _)
          · exact fun x hx => (f2 t ht x hx).mono (Grows.refl _) g1.length
        · intro t ht
          rcases List.mem_cons.1 ht with rfl | ht
          · exact e1
          · exact e2 t ht
        · intro s'' hg
          have := v2 s'' hg
          unfold view at this ⊢
          rw [List.map_cons, List.map_cons, this, v1 s'' (g2.trans hg)]

/-- **C24, copy.** In any state, if `get_log(copy=True)` returns a log, then after any later operations (including further copies, saves and
model runs, with or without exceptions) this log still shows what the log showed when it was taken. -/
theorem C24_copy [Field K] (E : SEnv K) (s s' : Sess K) (ids : Option (List PyStr)) (d : Dict PyStr (Dict PyStr TRef))
    (h : s.getLogCopy = (s', .ok (ids, d))) (later : List (SOp K)) : (ids, view (runHistory E later s') d) = seen s := by
  unfold getLogCopy at h
  split at h
  · simp at h
  · next s1 d' h1 =>
    simp only [Prod.mk.injEq, Except.ok.injEq] at h
    obtain ⟨rfl, rfl, rfl⟩ := h
    obtain ⟨g, f, e, v⟩ := copyLog_spec s s.log h1
    have hd : s1.dataId = s.dataId := by
      have hq := copyLog_quiet s s.log s
      rw [h1] at hq
      have h' := congrArg Sess.dataId (show ({ s1 with user := s.user, own := s.own, log := s.log, st := s.st } : Sess K) = s from hq)
      exact h'
    refine Prod.ext hd ?_
    show view _ d' = view s s.log
    rw [← v s1 (Grows.refl _)]
    unfold view
    apply List.map_congr_left
    intro m hm
    refine Prod.ext rfl ?_
    apply List.map_congr_left
    intro t ht
    refine Prod.ext rfl ?_
    obtain ⟨n, hn, hk, hl⟩ := f m hm t ht
    dsimp only
    rw [hn]
    obtain ⟨o, ho⟩ : ∃ o, s1.own[n]? = some o := ⟨_, List.getElem?_eq_getElem hl⟩
    have := history_keeps E (run_kept E n o) later s1 ⟨ho, ?_⟩
    · show _ = s1.own[n]?
      rw [ho]
      exact this.1
    · rintro ⟨m', hm', t', ht', et⟩
      obtain ⟨_, hu, hlg⟩ := g.choose_spec
      rw [hlg] at hm'
      obtain ⟨o', ho'⟩ := e m' hm' t' ht'
      rw [et] at ho'
      have := (List.getElem?_eq_some_iff.1 (show s.own[n]? = some o' from ho')).1
      omega

/-- **C24, no copy.** `get_log(copy=False)` gives the live log (the dictionary `binfo.log`, one object during the whole session). It is empty
after the next `run(...)` or `start(...)`, in any state. -/
theorem C24_live [Field K] (E : SEnv K) (s : Sess K) (ids : List PyStr) (mask : Option (Tensor K)) :
    (∀ sv, ((SOp.call ids mask sv).run E s).1.log = []) ∧ ((SOp.start ids mask).run E s).1.log = [] := by
  refine ⟨fun _ => rfl, ?_⟩
  have key : ∀ (ms : List Nat) (s : Sess K), (SAct.each registerModule ms s).1.log = s.log := by
    intro ms
    induction ms with
    | nil => exact fun s => rfl
    | cons m ms ih =>
      intro s
      show (SAct.seq _ _ s).1.log = _
      have e : (registerModule m s).1.log = s.log := by
        unfold registerModule
        split <;> rfl
      unfold SAct.seq
      split
      · next s' _ h => rw [h] at e; exact e
      · next s' h => rw [h] at e; exact (ih s').trans e
  exact key _ _

/-! ### C25 -/

/-- The user's tensors are `u`, and the log consists of tensors of LogIX. -/
theorem intact_histInv [Semiring K] (u : List (TObj K)) : HistInv (K := K)
    (fun s => s.user = u ∧ (∀ r, s.InLog r → ∃ n, r = .own n) ∧ .log ∉ s.opt.forward ∧ .log ∉ s.opt.backward) fun r => ∃ n, r = .own n where
  congr h e := by
    simp only [heapPart, Prod.mk.injEq] at e
    unfold InLog at *
    rw [e.1, e.2.2.1, e.2.2.2.2]
    exact h
  alloc {s o'} h := ⟨h, _, rfl⟩
  user h hl := by
    rcases hl with hl | hl
    · exact absurd hl h.2.2.1
    · exact absurd hl h.2.2.2
  logged h hl := h.2.1 _ hl
  logUpdate {r} name ty hr s h := by
    unfold Sess.logUpdate
    dsimp only
    split
    · refine ⟨h.1, fun r' hi => ?_, h.2.2⟩
      rcases inLog_set hi with h' | h'
      · exact h.2.1 _ h'
      · rw [h']; exact hr
    · next r₀ hr₀ =>
      obtain ⟨n, rfl⟩ := h.2.1 _ (inLog_of_get hr₀)
      split
      · split <;> exact h
      · exact h
  calls h _ := h
  empty h := ⟨h.1, (by rintro r ⟨m, hm, _⟩; cases hm), h.2.2⟩

theorem intact_history [Field K] (E : SEnv K) (ops : List (SOp K)) : ∀ (s : Sess K), (∀ r, s.InLog r → ∃ n, r = .own n) →
    (∀ pre, pre <+: ops → .log ∉ (runHistory E pre s).opt.forward ∧ .log ∉ (runHistory E pre s).opt.backward) →
    (runHistory E ops s).user = s.user ++ allocs ops := by
  induction ops with
  | nil => exact fun s _ _ => (List.append_nil _).symm
  | cons o ops ih =>
    intro s hl ho
    have h0 := ho [] (List.nil_prefix)
    have h1 := ho [o] (by simp)
    have hrest : ∀ pre, pre <+: ops → .log ∉ (runHistory E pre (o.run E s).1).opt.forward ∧ .log ∉ (runHistory E pre (o.run E s).1).opt.backward :=
      fun pre hp => ho (o :: pre) (by simpa using hp)
    have hstep : (o.run E s).1.user = s.user ++ allocs [o] ∧ ∀ r, (o.run E s).1.InLog r → ∃ n, r = .own n := by
      by_cases ha : ∃ t, o = .alloc t
      · obtain ⟨t, rfl⟩ := ha
        exact ⟨rfl, hl⟩
      · by_cases hk : ∃ kw, o = .setup kw
        · obtain ⟨kw, rfl⟩ := hk
          exact ⟨(List.append_nil _).symm, hl⟩
        · have := HistInv.run_keeps (intact_histInv s.user) E o (fun kw e => absurd ⟨kw, e⟩ hk) (fun t e => absurd ⟨t, e⟩ ha) s ⟨rfl, hl, h0⟩
          refine ⟨?_, this.2.1⟩
          rw [this.1]
          cases o <;> first | exact (List.append_nil _).symm | exact absurd ⟨_, rfl⟩ ha
    show (runHistory E ops (o.run E s).1).user = _
    rw [ih _ hstep.2 hrest, hstep.1, List.append_assoc]
    simp [allocs]

/-- **C25, partial.** In every history in which the plugin `log` is never configured for forward or backward, every tensor of the user's program
stays as it was made. (With `log` for forward or backward and a module used twice it is false.) -/
theorem C25_partial [Field K] (E : SEnv K) (ops : List (SOp K)) (n : Nat) (t : Int) (fs : FS)
    (ho : ∀ pre, pre <+: ops → .log ∉ (runHistory E pre (Sess.init n t fs)).opt.forward ∧
      .log ∉ (runHistory E pre (Sess.init n t fs)).opt.backward) :
    (runHistory E ops (Sess.init n t fs)).user = allocs ops := by
  rw [intact_history E ops _ (by rintro r ⟨m, hm, _⟩; cases hm) ho]
  rfl

end Logix
