/-
C17: a batch's log contains nothing from earlier batches.
-/
import Verif.Lemmas.SessionEmbed
import Verif.Lemmas.SessionStrip
import Verif.Lemmas.SessionInv

namespace Logix
open Spec Sess
variable {K : Type}

/-- A session that has done nothing yet but to be told the modules, the options and the batch. -/
def blank (modules : List Nat) (names : Dict Nat PyStr) (opt : LogOption) (st : LState K) (ids : List PyStr) (mask : Option (Tensor K)) :
    Sess K :=
  { Sess.init 0 0 [] with modules := modules, names := names, opt := opt, st := st, dataId := some ids, mask := mask }

/-- Opening a context does the same as in a blank session, apart from the past. -/
theorem context_embed [Field K] (E : SEnv K) (s : Sess K) (h : Handles s) (hc : ∀ c ∈ s.calls, c.out < s.user.length)
    {ctx : List (SOp K)} {ids : List PyStr} {mask : Option (Tensor K)} (hx : Context ctx ids mask) :
    ∃ p : Past K, p.user = s.user ∧ SAct.each (SOp.run E) ctx s =
      (p.embed (registerAllModuleHooks (blank s.modules s.names s.opt s.st ids mask)).1,
        (registerAllModuleHooks (blank s.modules s.names s.opt s.st ids mask)).2) := by
  have main : ∀ s' : Sess K, Handles s' → (∀ c ∈ s'.calls, c.out < s'.user.length) → s'.log = [] → s'.dataId = some ids → s'.mask = mask →
      ∃ p : Past K, p.user = s'.user ∧ registerAllModuleHooks s'.clearHooks =
      (p.embed (registerAllModuleHooks (blank s'.modules s'.names s'.opt s'.st ids mask)).1,
        (registerAllModuleHooks (blank s'.modules s'.names s'.opt s'.st ids mask)).2) := by
    intro s' h hc hl hd hm
    refine ⟨⟨s'.user, s'.own, s'.calls, s'.nextId, s', hc⟩, rfl, ?_⟩
    have e : s'.clearHooks = (⟨s'.user, s'.own, s'.calls, s'.nextId, s', hc⟩ : Past K).embed (blank s'.modules s'.names s'.opt s'.st ids mask) := by
      have hk := clearHooks_handles h
      have e1 : s'.clearHooks = { s' with pre := [], bwd := [], fwd := [], tens := [], hPre := [], hBwd := [], hFwd := [], hTens := [] } := by
        have := hk.2
        show ({ s' with pre := s'.clearHooks.pre, bwd := s'.clearHooks.bwd, fwd := s'.clearHooks.fwd, tens := s'.clearHooks.tens, hPre := [], hBwd := [], hFwd := [], hTens := [] } : Sess K) = _
        rw [this.1, this.2.1, this.2.2.1, this.2.2.2]
      rw [e1]
      simp only [Past.embed, blank, Sess.init, List.append_nil, List.map_nil, Nat.zero_add, Past.log, hl, hd, hm]
    rw [e]
    exact Comm.each_same (fun m _ => registerModule_comm _ m) _
  cases hx with
  | «with» _ _ sv =>
    obtain ⟨p, hp, e⟩ := main { s.setBatch ids mask with saveBatch := sv } (h.congr rfl) hc rfl rfl rfl
    refine ⟨p, hp, ?_⟩
    have h1 : ∀ s : Sess K, SAct.each (SOp.run E) [.call ids mask sv, .enter] s =
        (registerAllModuleHooks ({ s.setBatch ids mask with saveBatch := sv } : Sess K).clearHooks) := by
      intro s
      show SAct.seq (Sess.call ids mask sv) (SAct.seq Sess.enter fun s => (s, none)) s = _
      rw [SAct.seq_eq (u := { s.setBatch ids mask with saveBatch := sv }) rfl]
      unfold SAct.seq Sess.enter
      split
      · next s' e h => exact h.symm
      · next s' h => exact h.symm
    rw [h1]
    exact e
  | start _ _ =>
    obtain ⟨p, hp, e⟩ := main (s.setBatch ids mask) (h.congr rfl) hc rfl rfl rfl
    refine ⟨p, hp, ?_⟩
    have h1 : SAct.each (SOp.run E) [.start ids mask] s = registerAllModuleHooks (s.setBatch ids mask).clearHooks := by
      show SAct.seq (Sess.start ids mask) (fun s => (s, none)) s = _
      unfold SAct.seq Sess.start
      split
      · next s' e h => exact h.symm
      · next s' h => exact h.symm
    rw [h1]
    exact e

theorem SAct.each_append {α : Type} (f : α → SAct K) (a b : List α) (s : Sess K) :
    SAct.each f (a ++ b) s = SAct.seq (SAct.each f a) (SAct.each f b) s := by
  induction a generalizing s with
  | nil => rfl
  | cons x a ih =>
    show SAct.seq (f x) (SAct.each f (a ++ b)) s = SAct.seq (SAct.seq (f x) (SAct.each f a)) (SAct.each f b) s
    unfold SAct.seq
    cases f x s with
    | mk s' e =>
      cases e with
      | some e => rfl
      | none => exact ih s'

theorem registerAll_st (ms : List Nat) : ∀ (s : Sess K),
    (SAct.each registerModule ms s).1.strip = (SAct.each registerModule ms s.strip).1 ∧
      (SAct.each registerModule ms s).2 = (SAct.each registerModule ms s.strip).2 := by
  induction ms with
  | nil => exact fun s => ⟨rfl, rfl⟩
  | cons m ms ih =>
    intro s
    show (SAct.seq _ _ s).1.strip = (SAct.seq _ _ s.strip).1 ∧ (SAct.seq _ _ s).2 = (SAct.seq _ _ s.strip).2
    unfold SAct.seq
    have e : registerModule m s.strip = ((registerModule m s).1.strip, (registerModule m s).2) := by
      unfold registerModule
      rw [show s.strip.names = s.names from rfl]
      cases Dict.get? s.names m <;> rfl
    rw [e]
    cases registerModule m s with
    | mk s' e =>
      cases e with
      | some e => exact ⟨rfl, rfl⟩
      | none => exact ih s'

theorem readLog_seen (E : SEnv K) (s : Sess K) :
    s.readLog E = (seen s).2.map fun m => (m.1, .node (m.2.map fun t => (t.1, .leaf (match t.2 with
      | some o => toArr E o.dtype o.val
      | none => ⟨.uint8, [], [0], rfl⟩)))) := by
  simp only [readLog, seen, view, List.map_map]
  apply List.map_congr_left
  intro m _
  simp only [Function.comp, List.map_map]
  rfl

/-- **C17.** Take any two histories (of contexts, model runs, saves, finalizes, setups, exceptions, ...) that end with the same modules watched
and the same options. If then a batch context is opened for the same batch, in either interface, and the same model run takes place inside
it (with its own tensors), without exception, then the log that `get_log` shows and the arrays that are saved are the same. -/
theorem C17 [Field K] (E : SEnv K) (ops₁ ops₂ : List (SOp K)) (n₁ n₂ : Nat) (th₁ th₂ : Int) (fs₁ fs₂ : FS)
    (ctx₁ ctx₂ : List (SOp K)) (ids : List PyStr) (mask : Option (Tensor K)) (hx₁ : Context ctx₁ ids mask) (hx₂ : Context ctx₂ ids mask)
    (body : List (SOp K)) (hbody : ∀ o ∈ body, IsRun o) :
    let s₁ := runHistory E ops₁ (Sess.init n₁ th₁ fs₁)
    let s₂ := runHistory E ops₂ (Sess.init n₂ th₂ fs₂)
    s₁.modules = s₂.modules → s₁.names = s₂.names → s₁.opt = s₂.opt →
    ∀ t₁ t₂, SAct.each (SOp.run E) (ctx₁ ++ body.map (shift s₁.user.length)) s₁ = (t₁, none) →
      SAct.each (SOp.run E) (ctx₂ ++ body.map (shift s₂.user.length)) s₂ = (t₂, none) →
      seen t₁ = seen t₂ ∧ t₁.readLog E = t₂.readLog E := by
  intro s₁ s₂ hm hn ho t₁ t₂ h₁ h₂
  have key : ∀ (s : Sess K) (ctx : List (SOp K)) (t : Sess K), Handles s → (∀ c ∈ s.calls, c.out < s.user.length) → Context ctx ids mask →
      SAct.each (SOp.run E) (ctx ++ body.map (shift s.user.length)) s = (t, none) →
      ∃ v, seen v = seen t ∧ SAct.seq registerAllModuleHooks (SAct.each (SOp.run E) body)
        (blank s.modules s.names s.opt.logOnly LState.init ids mask) = (v, none) := by
    intro s ctx t h hc hx e
    obtain ⟨p, hp, he⟩ := context_embed E s h hc hx
    rw [SAct.each_append] at e
    obtain ⟨u, e1, e2⟩ := SAct.seq_none e
    rw [he] at e1
    cases hr : registerAllModuleHooks (blank s.modules s.names s.opt s.st ids mask) with
    | mk c err =>
      rw [hr] at e1
      simp only [Prod.mk.injEq] at e1
      obtain ⟨rfl, rfl⟩ := e1
      rw [← hp, runs_comm E p hbody c] at e2
      cases hv : SAct.each (SOp.run E) body c with
      | mk v err =>
        rw [hv] at e2
        simp only [Prod.mk.injEq] at e2
        obtain ⟨rfl, rfl⟩ := e2
        refine ⟨v.strip, (seen_strip v).trans (seen_embed p v).symm, ?_⟩
        have h3 := runs_strip E hbody c v hv
        have h4 := registerAll_st s.modules (blank s.modules s.names s.opt s.st ids mask)
        have h5 : SAct.each registerModule s.modules (blank s.modules s.names s.opt s.st ids mask) = (c, none) := hr
        rw [h5] at h4
        have h6 : registerAllModuleHooks (blank s.modules s.names s.opt.logOnly LState.init ids mask) = (c.strip, none) :=
          Prod.ext h4.1.symm h4.2.symm
        rw [SAct.seq_eq h6]
        exact h3
  obtain ⟨v₁, a₁, b₁⟩ := key s₁ ctx₁ t₁ (history_handles E ops₁ n₁ th₁ fs₁) (history_calls E ops₁ n₁ th₁ fs₁) hx₁ h₁
  obtain ⟨v₂, a₂, b₂⟩ := key s₂ ctx₂ t₂ (history_handles E ops₂ n₂ th₂ fs₂) (history_calls E ops₂ n₂ th₂ fs₂) hx₂ h₂
  rw [hm, hn, ho, b₂] at b₁
  have hv : v₂ = v₁ := congrArg Prod.fst b₁
  have hs : seen t₁ = seen t₂ := by rw [← a₁, ← a₂, hv]
  exact ⟨hs, by rw [readLog_seen, readLog_seen, hs]⟩

end Logix
