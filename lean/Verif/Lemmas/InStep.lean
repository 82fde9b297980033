/-
Two sessions that run the same program on different data stay in the same shape.
-/
import Verif.Lemmas.DistSession

set_option linter.unusedSectionVars false

namespace Logix
open Spec Sess
variable {K : Type}

/-- The keys of the batch log. -/
def logOutline (log : Dict PyStr (Dict PyStr TRef)) : Dict PyStr (Dict PyStr Unit) := log.map fun e => (e.1, e.2.map fun t => (t.1, ()))

/-- The part of a session that does not depend on the data. -/
structure Shell where
  users : Nat
  nextId : Nat
  pre : List ModHook
  bwd : List ModHook
  fwd : List ModHook
  tens : List TensorHook
  calls : List PastCall
  opt : LogOption
  modules : List Nat
  names : Dict Nat PyStr
  hPre : List Nat
  hBwd : List Nat
  hFwd : List Nat
  hTens : List Nat
  log : Dict PyStr (Dict PyStr Unit)

def shellOf (s : Sess K) : Shell :=
  ⟨s.user.length, s.nextId, s.pre, s.bwd, s.fwd, s.tens, s.calls, s.opt, s.modules, s.names, s.hPre, s.hBwd, s.hFwd, s.hTens, logOutline s.log⟩

/-- A statistic of two states has the same layout. -/
def SameLayout (st cn : PyStr) (s s' : LState K) : Prop :=
  ∃ d e d' e', s.getAttr st = .ok d ∧ s.getAttr cn = .ok e ∧ s'.getAttr st = .ok d' ∧ s'.getAttr cn = .ok e' ∧ skelD d = skelD d'

/-- Two sessions of the same shape. -/
structure SameShell (s s' : Sess K) : Prop where
  shell : shellOf s = shellOf s'
  mean : SameLayout nMean nMeanCounter s.st s'.st
  cov : SameLayout nCov nCovCounter s.st s'.st

theorem SameLayout.refl {st cn : PyStr} {s : LState K} {d e : StateDict K} (hd : s.getAttr st = .ok d) (he : s.getAttr cn = .ok e) : SameLayout st cn s s :=
  ⟨d, e, d, e, hd, he, hd, he, rfl⟩

theorem SameLayout.step [Semiring K] (L : Lib K) {q : Plugin} {st cn : PyStr} {z : Nat → List Nat} {term : (Nat → K) → List Nat → K} (S : StatOf q st cn z term)
    {s s' u u' : LState K} (h : SameLayout st cn s s') {p : Plugin} {c c' : StatCall K} (hn : c.name = c'.name) (ht : c.logType = c'.logType)
    (hu : pluginUpdate L p s c = .ok u) (hu' : pluginUpdate L p s' c' = .ok u') : SameLayout st cn u u' := by
  obtain ⟨d, e, d', e', h1, h2, h3, h4, h5⟩ := h
  have one : ∀ (s u : LState K) (c : StatCall K), pluginUpdate L p s c = .ok u → updates L s [(p, c)] = .ok u := by
    intro s u c h
    unfold updates
    rw [h]
    rfl
  obtain ⟨d1, e1, k1, k2, k3, -⟩ := updates_skel L S (one _ _ _ hu) h1 h2
  obtain ⟨d2, e2, k1', k2', k3', -⟩ := updates_skel L S (one _ _ _ hu') h3 h4
  refine ⟨d1, e1, d2, e2, k1, k2, k1', k2', ?_⟩
  rw [k3, k3', h5]
  by_cases hp : p = q <;> simp [hp, hn, ht]

/-- The two steps lead from sessions of the same shape to sessions of the same shape. -/
def InSync (f f' : SAct K) : Prop := ∀ s s' u u', SameShell s s' → f s = (u, none) → f' s' = (u', none) → SameShell u u'

theorem InSync.seq {f f' g g' : SAct K} (hf : InSync f f') (hg : InSync g g') : InSync (f.seq g) (f'.seq g') := by
  intro s s' u u' h h1 h2
  obtain ⟨v, a1, a2⟩ := SAct.seq_none h1
  obtain ⟨v', b1, b2⟩ := SAct.seq_none h2
  exact hg _ _ _ _ (hf _ _ _ _ h a1 b1) a2 b2

theorem InSync.each {α β : Type} {f : α → SAct K} {f' : β → SAct K} {l : List α} {l' : List β} (h : List.Forall₂ (fun a b => InSync (f a) (f' b)) l l') :
    InSync (SAct.each f l) (SAct.each f' l') := by
  induction h with
  | nil =>
    intro s s' u u' h h1 h2
    cases h1
    cases h2
    exact h
  | cons ha _ ih => exact InSync.seq ha ih

theorem InSync.eachSame {α : Type} {f f' : α → SAct K} (h : ∀ a, InSync (f a) (f' a)) (l : List α) : InSync (SAct.each f l) (SAct.each f' l) := by
  refine InSync.each ?_
  induction l with
  | nil => exact .nil
  | cons a l ih => exact .cons (h a) ih

/-- A loop over a list that depends on the shape only. -/
theorem InSync.over {α : Type} {f f' : α → SAct K} (h : ∀ a, InSync (f a) (f' a)) (g : Shell → List α) :
    InSync (fun s => SAct.each f (g (shellOf s)) s) (fun s => SAct.each f' (g (shellOf s)) s) := by
  intro s s' u u' ha h1 h2
  dsimp only at h1 h2
  rw [← ha.shell] at h2
  exact InSync.eachSame h _ s s' u u' ha h1 h2

theorem SameShell.congr {s s' u u' : Sess K} (h : SameShell s s') (h1 : shellOf u = shellOf s) (h2 : u.st = s.st) (h3 : shellOf u' = shellOf s') (h4 : u'.st = s'.st) : SameShell u u' :=
  ⟨h1.trans (h.shell.trans h3.symm), by rw [h2, h4]; exact h.mean, by rw [h2, h4]; exact h.cov⟩

/-- Steps that change neither shape nor statistics can be put in front of either. -/
theorem InSync.after {f f' : SAct K} (hf : InSync f f') {g g' : Sess K → Sess K} (hg : ∀ s, shellOf (g s) = shellOf s ∧ (g s).st = s.st)
    (hg' : ∀ s, shellOf (g' s) = shellOf s ∧ (g' s).st = s.st) : InSync (fun s => f (g s)) (fun s => f' (g' s)) :=
  fun s s' _ _ ha h1 h2 => hf _ _ _ _ (ha.congr (hg s).1 (hg s).2 (hg' s').1 (hg' s').2) h1 h2

theorem shell_setVal (s : Sess K) (r : TRef) (v : Tensor K) : shellOf (s.setVal r v) = shellOf s ∧ (s.setVal r v).st = s.st := by
  cases r with
  | user n => exact ⟨by unfold shellOf setVal; simp, rfl⟩
  | own n => exact ⟨rfl, rfl⟩

theorem shell_convert (E : SEnv K) (s : Sess K) (r : TRef) : shellOf (s.convert E r).1 = shellOf s ∧ (s.convert E r).1.st = s.st := by
  unfold convert
  split
  · split <;> exact ⟨rfl, rfl⟩
  · exact ⟨rfl, rfl⟩

section
variable [Semiring K]

theorem shell_masked (s : Sess K) (r : TRef) : shellOf (s.masked r).1 = shellOf s ∧ (s.masked r).1.st = s.st := by
  unfold masked
  split
  · exact ⟨rfl, rfl⟩
  · split
    · exact ⟨rfl, rfl⟩
    · split <;> exact ⟨rfl, rfl⟩

theorem logOutline_get (log : Dict PyStr (Dict PyStr TRef)) (name : PyStr) :
    Dict.get? (logOutline log) name = (Dict.get? log name).map fun tys => tys.map fun t => (t.1, ()) :=
  Dict.get?_map' log (fun tys : Dict PyStr TRef => tys.map fun (t : PyStr × TRef) => (t.1, ())) name

theorem logUpdate_shell {s u : Sess K} {name ty : PyStr} {r : TRef} (h : logUpdate name ty r s = (u, none)) :
    shellOf u = (let o := logOutline s.log
      { shellOf s with log := match Dict.get? ((Dict.get? o name).getD []) ty with
        | none => Dict.set o name (Dict.set ((Dict.get? o name).getD []) ty ())
        | some _ => o }) ∧ u.st = s.st := by
  have hg : (Dict.get? (logOutline s.log) name).getD [] = ((Dict.get? s.log name).getD []).map fun t => (t.1, ()) := by
    rw [logOutline_get]
    cases Dict.get? s.log name <;> rfl
  have hg2 : Dict.get? ((Dict.get? (logOutline s.log) name).getD []) ty = (Dict.get? ((Dict.get? s.log name).getD []) ty).map fun _ => () := by
    rw [hg]
    exact Dict.get?_map' _ (fun _ => ()) ty
  unfold logUpdate at h
  dsimp only at h
  dsimp only
  rw [hg2, hg]
  split at h
  · next hn =>
    rw [hn]
    obtain rfl := (congrArg Prod.fst h).symm
    refine ⟨?_, rfl⟩
    dsimp only [shellOf, Option.map_none]
    congr 1
    unfold logOutline
    rw [Dict.map_set s.log name _ (fun tys => tys.map fun t => (t.1, ())), Dict.map_set _ ty r fun _ => ()]
  · next r0 hr =>
    rw [hr]
    dsimp only [Option.map_some]
    split at h
    · split at h
      · obtain rfl := (congrArg Prod.fst h).symm
        exact shell_setVal s r0 _
      · exact nomatch congrArg Prod.snd h
    · exact nomatch congrArg Prod.snd h

theorem InSync.logUpdate (name ty : PyStr) (r r' : TRef) : InSync (K := K) (logUpdate name ty r) (logUpdate name ty r') := by
  intro s s' u u' ha h1 h2
  obtain ⟨a1, a2⟩ := logUpdate_shell h1
  obtain ⟨b1, b2⟩ := logUpdate_shell h2
  have hl : logOutline s.log = logOutline s'.log := congrArg Shell.log ha.shell
  refine ⟨?_, by rw [a2, b2]; exact ha.mean, by rw [a2, b2]; exact ha.cov⟩
  rw [a1, b1, hl, ha.shell]

theorem InSync.plugin (E : SEnv K) (mod mod' : Option ModKind) (name : PyStr) (ty : LogType) (r r' : TRef) (p : Plugin) :
    InSync (plugin E mod name ty r p) (plugin E mod' name ty r' p) := by
  by_cases hp : p = .log
  · subst hp
    exact InSync.logUpdate name ty.name r r'
  have inv : ∀ (mod : Option ModKind) (r : TRef) (s u : Sess K), Sess.plugin E mod name ty r p s = (u, none) →
      shellOf u = shellOf s ∧ ∃ c : StatCall K, c.name = name ∧ c.logType = ty ∧ pluginUpdate E.lib p s.st c = .ok u.st := by
    intro mod r s u h
    unfold Sess.plugin at h
    split at h
    · exact absurd rfl hp
    · split at h
      · exact nomatch congrArg Prod.snd h
      · next o _ =>
        dsimp only at h
        split at h
        · next st hst =>
          obtain rfl := (congrArg Prod.fst h).symm
          exact ⟨rfl, _, rfl, rfl, hst⟩
        · exact nomatch congrArg Prod.snd h
  intro s s' u u' ha h1 h2
  obtain ⟨a1, c, a2, a3, a4⟩ := inv mod r s u h1
  obtain ⟨b1, c', b2, b3, b4⟩ := inv mod' r' s' u' h2
  exact ⟨a1.trans (ha.shell.trans b1.symm), ha.mean.step E.lib statOf_mean (a2.trans b2.symm) (a3.trans b3.symm) a4 b4,
    ha.cov.step E.lib statOf_cov (a2.trans b2.symm) (a3.trans b3.symm) a4 b4⟩

/-- Running the plugins of a hook on a tensor that depends on the state. -/
theorem sim_plugins (E : SEnv K) (mod mod' : Option ModKind) (name : PyStr) (ty : LogType) (r r' : TRef) (g : LogOption → List Plugin) :
    InSync (fun s => SAct.each (Sess.plugin E mod name ty r) (g s.opt) s) (fun s => SAct.each (Sess.plugin E mod' name ty r') (g s.opt) s) :=
  InSync.over (fun p => InSync.plugin E mod mod' name ty r r' p) fun sh => g sh.opt

theorem sim_converted (E : SEnv K) (mod mod' : Option ModKind) (name : PyStr) (ty : LogType) (r r' : TRef) (g : LogOption → List Plugin) :
    InSync (fun s => SAct.each (Sess.plugin E mod name ty (s.convert E r).2) (g (s.convert E r).1.opt) (s.convert E r).1)
      (fun s => SAct.each (Sess.plugin E mod' name ty (s.convert E r').2) (g (s.convert E r').1.opt) (s.convert E r').1) := by
  intro s s' u u' ha h1 h2
  exact sim_plugins E mod mod' name ty _ _ g _ _ u u'
    (ha.congr (shell_convert E s r).1 (shell_convert E s r).2 (shell_convert E s' r').1 (shell_convert E s' r').2) h1 h2

theorem InSync.forwardHook (E : SEnv K) (mod x : Nat) (name : PyStr) : InSync (Sess.forwardHook E mod x name) (Sess.forwardHook E mod x name) := by
  have inv : ∀ s u : Sess K, Sess.forwardHook E mod x name s = (u, none) → ∃ (v : Sess K) (r : TRef), shellOf v = shellOf s ∧ v.st = s.st ∧
      SAct.each (Sess.plugin E (some (E.kind mod)) name .forward (v.convert E r).2) (v.convert E r).1.opt.forward (v.convert E r).1 = (u, none) := by
    intro s u h
    have hm := shell_masked s (.user x)
    unfold Sess.forwardHook at h
    split at h
    · exact nomatch congrArg Prod.snd h
    · next v r hv =>
      rw [hv] at hm
      exact ⟨v, r, hm.1, hm.2, h⟩
  intro s s' u u' ha h1 h2
  obtain ⟨v, r, a1, a2, a3⟩ := inv s u h1
  obtain ⟨v', r', b1, b2, b3⟩ := inv s' u' h2
  exact sim_converted E _ _ name .forward r r' LogOption.forward v v' u u' (ha.congr a1 a2 b1 b2) a3 b3

theorem InSync.backwardHook (E : SEnv K) (mod g : Nat) (name : PyStr) : InSync (Sess.backwardHook E mod g name) (Sess.backwardHook E mod g name) :=
  sim_converted E _ _ name .backward (.user g) (.user g) LogOption.backward

theorem InSync.tensorBackwardHook (E : SEnv K) (g : Nat) (name : PyStr) : InSync (Sess.tensorBackwardHook E g name) (Sess.tensorBackwardHook E g name) :=
  sim_converted E _ _ name .backward (.user g) (.user g) LogOption.backward

theorem InSync.gradBackwardHook (E : SEnv K) (mod x g : Nat) (name : PyStr) : InSync (Sess.gradBackwardHook E mod x g name) (Sess.gradBackwardHook E mod x g name) := by
  have inv : ∀ s u : Sess K, Sess.gradBackwardHook E mod x g name s = (u, none) →
      (gradHookCheck s.opt = .ok false ∧ u = s) ∨ (gradHookCheck s.opt = .ok true ∧ ∃ (v : Sess K) (r : TRef), shellOf v = shellOf s ∧ v.st = s.st ∧
        SAct.each (Sess.plugin E (some (E.kind mod)) name .grad (v.convert E r).2) ((v.convert E r).1.opt.grad.take 1) (v.convert E r).1 = (u, none)) := by
    intro s u h
    unfold Sess.gradBackwardHook at h
    split at h
    · exact nomatch congrArg Prod.snd h
    · next hc => exact .inl ⟨hc, (congrArg Prod.fst h).symm⟩
    · next hc =>
      refine .inr ⟨hc, ?_⟩
      split at h
      · next a b _ _ =>
        split at h
        · exact nomatch congrArg Prod.snd h
        · next v _ => exact ⟨(s.alloc ⟨v, b.dtype, false, true⟩).1, (s.alloc ⟨v, b.dtype, false, true⟩).2, rfl, rfl, h⟩
      · exact nomatch congrArg Prod.snd h
  intro s s' u u' ha h1 h2
  have ho : s.opt = s'.opt := congrArg Shell.opt ha.shell
  rcases inv s u h1 with ⟨c1, rfl⟩ | ⟨c1, v, r, a1, a2, a3⟩
  · rcases inv s' u' h2 with ⟨_, rfl⟩ | ⟨c2, _⟩
    · exact ha
    · rw [ho, c2] at c1
      cases c1
  · rcases inv s' u' h2 with ⟨c2, _⟩ | ⟨_, v', r', b1, b2, b3⟩
    · rw [ho, c2] at c1
      cases c1
    · exact sim_converted E _ _ name .grad r r' (fun o => o.grad.take 1) v v' u u' (ha.congr a1 a2 b1 b2) a3 b3

theorem InSync.registerTensorHook (y : Nat) (fn : HookFn) : InSync (K := K) (Sess.registerTensorHook y fn) (Sess.registerTensorHook y fn) := by
  have inv : ∀ s u : Sess K, Sess.registerTensorHook y fn s = (u, none) →
      shellOf u = { shellOf s with nextId := s.nextId + 1, tens := s.tens ++ [⟨s.nextId, y, fn⟩], hTens := s.hTens ++ [s.nextId] } ∧ u.st = s.st := by
    intro s u h
    unfold Sess.registerTensorHook at h
    split at h
    · split at h
      · obtain rfl := (congrArg Prod.fst h).symm
        exact ⟨rfl, rfl⟩
      · exact nomatch congrArg Prod.snd h
    · exact nomatch congrArg Prod.snd h
  intro s s' u u' ha h1 h2
  obtain ⟨a1, a2⟩ := inv s u h1
  obtain ⟨b1, b2⟩ := inv s' u' h2
  refine ⟨?_, by rw [a2, b2]; exact ha.mean, by rw [a2, b2]; exact ha.cov⟩
  have e1 : s.nextId = s'.nextId := congrArg Shell.nextId ha.shell
  have e2 : s.tens = s'.tens := congrArg Shell.tens ha.shell
  have e3 : s.hTens = s'.hTens := congrArg Shell.hTens ha.shell
  rw [a1, b1, ha.shell, e1, e2, e3]

/-- Setting fields of the shape. -/
theorem InSync.set {f f' : Sess K → Sess K} (φ : Shell → Shell) (h : ∀ s, shellOf (f s) = φ (shellOf s) ∧ (f s).st = s.st)
    (h' : ∀ s, shellOf (f' s) = φ (shellOf s) ∧ (f' s).st = s.st) {s s' : Sess K} (ha : SameShell s s') : SameShell (f s) (f' s') :=
  ⟨by rw [(h s).1, (h' s').1, ha.shell], by rw [(h s).2, (h' s').2]; exact ha.mean, by rw [(h s).2, (h' s').2]; exact ha.cov⟩

theorem InSync.forward (E : SEnv K) (mod x y : Nat) : InSync (Sess.forward E mod x y) (Sess.forward E mod x y) := by
  intro s s' u u' ha h1 h2
  have e : s.bwd = s'.bwd := congrArg Shell.bwd ha.shell
  have ep : s.pre = s'.pre := congrArg Shell.pre ha.shell
  unfold Sess.forward at h1 h2
  split at h1
  · exact nomatch congrArg Prod.snd h1
  split at h2
  · exact nomatch congrArg Prod.snd h2
  dsimp only at h1 h2
  rw [← e, ← ep] at h2
  refine InSync.seq (InSync.eachSame (fun h : ModHook => InSync.forwardHook E mod x h.name) _) (InSync.seq ?_ ?_) s s' u u' ha h1 h2
  · intro v v' w w' hv g1 g2
    obtain rfl := (congrArg Prod.fst g1).symm
    obtain rfl := (congrArg Prod.fst g2).symm
    exact InSync.set (f := fun v => { v with calls := v.calls ++ [⟨y, mod, (s.bwd.filter fun h => h.mod = mod).map ModHook.name⟩] })
      (f' := fun v => { v with calls := v.calls ++ [⟨y, mod, (s.bwd.filter fun h => h.mod = mod).map ModHook.name⟩] })
      (fun sh => { sh with calls := sh.calls ++ [⟨y, mod, (s.bwd.filter fun h => h.mod = mod).map ModHook.name⟩] }) (fun _ => ⟨rfl, rfl⟩) (fun _ => ⟨rfl, rfl⟩) hv
  · exact InSync.over (fun h : ModHook => InSync.registerTensorHook y (.grad mod x h.name)) fun sh => sh.fwd.filter fun h => h.mod = mod

theorem InSync.gradAt (E : SEnv K) (y g : Nat) : InSync (Sess.gradAt E y g) (Sess.gradAt E y g) := by
  refine InSync.over (fun h => ?_) fun sh => sh.tens.filter fun h => h.out = y
  cases h.fn with
  | grad mod x name => exact InSync.gradBackwardHook E mod x g name
  | activation name => exact InSync.tensorBackwardHook E g name

theorem InSync.backward (E : SEnv K) (y g : Nat) : InSync (Sess.backward E y g) (Sess.backward E y g) :=
  InSync.over (fun c : PastCall => InSync.eachSame (fun name => InSync.backwardHook E c.mod g name) c.names) fun sh => sh.calls.filter fun (c : PastCall) => c.out = y

theorem InSync.watchActivation (E : SEnv K) (d : List (PyStr × Nat)) : InSync (Sess.watchActivation E d) (Sess.watchActivation E d) := by
  refine InSync.eachSame (fun (e : PyStr × Nat) => InSync.seq ?_ (InSync.registerTensorHook e.2 (.activation e.1))) d
  exact sim_converted E none none e.1 .forward (.user e.2) (.user e.2) LogOption.forward

theorem SameShell.clearHooks {s s' : Sess K} (ha : SameShell s s') : SameShell s.clearHooks s'.clearHooks :=
  InSync.set (f := Sess.clearHooks) (f' := Sess.clearHooks) (fun sh => { sh with
    pre := sh.pre.filter fun h => h.id ∉ sh.hPre
    bwd := sh.bwd.filter fun h => h.id ∉ sh.hBwd
    fwd := sh.fwd.filter fun h => h.id ∉ sh.hFwd
    tens := sh.tens.filter fun h => h.id ∉ sh.hTens
    hPre := [], hBwd := [], hFwd := [], hTens := [] }) (fun _ => ⟨rfl, rfl⟩) (fun _ => ⟨rfl, rfl⟩) ha

theorem InSync.registerAll : InSync (K := K) registerAllModuleHooks registerAllModuleHooks := by
  refine InSync.over (f := registerModule) (f' := registerModule) (fun mod => ?_) Shell.modules
  have inv : ∀ s u : Sess K, registerModule mod s = (u, none) → ∃ name, Dict.get? s.names mod = some name ∧ u = { s with
      nextId := s.nextId + 3
      pre := s.pre ++ [⟨s.nextId, mod, name⟩]
      bwd := s.bwd ++ [⟨s.nextId + 1, mod, name⟩]
      fwd := s.fwd ++ [⟨s.nextId + 2, mod, name⟩]
      hPre := s.hPre ++ [s.nextId]
      hBwd := s.hBwd ++ [s.nextId + 1]
      hFwd := s.hFwd ++ [s.nextId + 2] } := by
    intro s u h
    unfold registerModule at h
    split at h
    · exact nomatch congrArg Prod.snd h
    · next name hn => exact ⟨name, hn, (congrArg Prod.fst h).symm⟩
  intro s s' u u' ha h1 h2
  obtain ⟨name, n1, rfl⟩ := inv s u h1
  obtain ⟨name', n2, rfl⟩ := inv s' u' h2
  rw [← show s.names = s'.names from congrArg Shell.names ha.shell] at n2
  obtain rfl := Option.some.inj (n1.symm.trans n2)
  exact InSync.set (f := fun s => { s with
      nextId := s.nextId + 3
      pre := s.pre ++ [⟨s.nextId, mod, name⟩]
      bwd := s.bwd ++ [⟨s.nextId + 1, mod, name⟩]
      fwd := s.fwd ++ [⟨s.nextId + 2, mod, name⟩]
      hPre := s.hPre ++ [s.nextId]
      hBwd := s.hBwd ++ [s.nextId + 1]
      hFwd := s.hFwd ++ [s.nextId + 2] }) (f' := fun s => { s with
      nextId := s.nextId + 3
      pre := s.pre ++ [⟨s.nextId, mod, name⟩]
      bwd := s.bwd ++ [⟨s.nextId + 1, mod, name⟩]
      fwd := s.fwd ++ [⟨s.nextId + 2, mod, name⟩]
      hPre := s.hPre ++ [s.nextId]
      hBwd := s.hBwd ++ [s.nextId + 1]
      hFwd := s.hFwd ++ [s.nextId + 2] }) (fun s => { s with
      nextId := s.nextId + 3
      pre := s.pre ++ [⟨s.nextId, mod, name⟩]
      bwd := s.bwd ++ [⟨s.nextId + 1, mod, name⟩]
      fwd := s.fwd ++ [⟨s.nextId + 2, mod, name⟩]
      hPre := s.hPre ++ [s.nextId]
      hBwd := s.hBwd ++ [s.nextId + 1]
      hFwd := s.hFwd ++ [s.nextId + 2] }) (fun _ => ⟨rfl, rfl⟩) (fun _ => ⟨rfl, rfl⟩) ha

theorem SameShell.setBatch {s s' : Sess K} (ha : SameShell s s') (ids ids' : List PyStr) (mask mask' : Option (Tensor K)) :
    SameShell (s.setBatch ids mask) (s'.setBatch ids' mask') :=
  InSync.set (f := Sess.setBatch ids mask) (f' := Sess.setBatch ids' mask') (fun sh => { sh with log := [] }) (fun _ => ⟨rfl, rfl⟩) (fun _ => ⟨rfl, rfl⟩) ha

theorem shell_saveOnly {s u : Sess K} (h : SaveOnly s u) : shellOf u = shellOf s ∧ u.st = s.st := by
  rw [← show ({ u with saver := s.saver, buffer := s.buffer, bufferSize := s.bufferSize, fs := s.fs } : Sess K) = s from h]
  exact ⟨rfl, rfl⟩

theorem InSync.update (E : SEnv K) (save save' : Bool) : InSync (Sess.update E save) (Sess.update E save') := by
  intro s s' u u' ha h1 h2
  have ho : s.opt = s'.opt := congrArg Shell.opt ha.shell
  unfold Sess.update at h1 h2
  rw [← ho] at h2
  refine InSync.seq (InSync.eachSame (fun p => ?_) _) ?_ s s' u u' ha h1 h2
  · have hk : ∀ s : Sess K, Dict.keys s.log = Dict.keys (shellOf s).log := by
      intro s
      show List.map Prod.fst s.log = List.map Prod.fst (logOutline s.log)
      unfold logOutline
      rw [List.map_map]
      rfl
    have := InSync.over (K := K) (f := gradStat E p) (f' := gradStat E p) (fun name => ?_) fun sh => Dict.keys sh.log
    · intro v v' w w' hv g1 g2
      dsimp only at g1 g2
      rw [hk] at g1 g2
      exact this v v' w w' hv g1 g2
    · have inv : ∀ s u : Sess K, gradStat E p name s = (u, none) → ∃ r, Sess.plugin E none name .grad r p s = (u, none) := by
        intro s u h
        unfold gradStat at h
        split at h
        · exact nomatch congrArg Prod.snd h
        · next r _ => exact ⟨r, h⟩
      intro v v' w w' hv g1 g2
      obtain ⟨r, g1⟩ := inv v w g1
      obtain ⟨r', g2⟩ := inv v' w' g2
      exact InSync.plugin E none none name .grad r r' p v v' w w' hv g1 g2
  · have fr : ∀ (save : Bool) (s u : Sess K), (if save then saveLog E else fun s => (s, none)) s = (u, none) → shellOf u = shellOf s ∧ u.st = s.st := by
      intro save s u h
      cases save with
      | false => obtain rfl := (congrArg Prod.fst h).symm; exact ⟨rfl, rfl⟩
      | true =>
        have := saveLog_saveOnly E s
        rw [show saveLog E s = (u, none) from h] at this
        exact shell_saveOnly this
    intro v v' w w' hv g1 g2
    exact hv.congr (fr _ _ _ g1).1 (fr _ _ _ g1).2 (fr _ _ _ g2).1 (fr _ _ _ g2).2

end

section
variable [Field K]

theorem shell_getLogCopy (s : Sess K) : shellOf s.getLogCopy.1 = shellOf s ∧ s.getLogCopy.1.st = s.st := by
  have tensor : ∀ (s₀ s : Sess K) (r : TRef), shellOf (copyTensor s₀ s r).1 = shellOf s ∧ (copyTensor s₀ s r).1.st = s.st := by
    intro s₀ s r
    unfold copyTensor
    split
    · split <;> exact ⟨rfl, rfl⟩
    · exact ⟨rfl, rfl⟩
  have types : ∀ (s₀ : Sess K) (l : List (PyStr × TRef)) (s : Sess K), shellOf (copyTypes s₀ l s).1 = shellOf s ∧ (copyTypes s₀ l s).1.st = s.st := by
    intro s₀ l
    induction l with
    | nil => exact fun s => ⟨rfl, rfl⟩
    | cons a l ih =>
      intro s
      obtain ⟨k, r⟩ := a
      have h := tensor s₀ s r
      unfold copyTypes
      split
      · next s' e h' => rw [h'] at h; exact h
      · next s' r' h' =>
        rw [h'] at h
        have h2 := ih s'
        split
        · next s2 e h3 => rw [h3] at h2; exact ⟨h2.1.trans h.1, h2.2.trans h.2⟩
        · next s2 d h3 => rw [h3] at h2; exact ⟨h2.1.trans h.1, h2.2.trans h.2⟩
  have logs : ∀ (s₀ : Sess K) (l : List (PyStr × Dict PyStr TRef)) (s : Sess K), shellOf (copyLog s₀ l s).1 = shellOf s ∧ (copyLog s₀ l s).1.st = s.st := by
    intro s₀ l
    induction l with
    | nil => exact fun s => ⟨rfl, rfl⟩
    | cons a l ih =>
      intro s
      obtain ⟨k, r⟩ := a
      have h := types s₀ r s
      unfold copyLog
      split
      · next s' e h' => rw [h'] at h; exact h
      · next s' r' h' =>
        rw [h'] at h
        have h2 := ih s'
        split
        · next s2 e h3 => rw [h3] at h2; exact ⟨h2.1.trans h.1, h2.2.trans h.2⟩
        · next s2 d h3 => rw [h3] at h2; exact ⟨h2.1.trans h.1, h2.2.trans h.2⟩
  have h := logs s s.log s
  unfold getLogCopy
  split
  · next s' e h' => rw [h'] at h; exact h
  · next s' d h' => rw [h'] at h; exact h

theorem sim_user {s s' : Sess K} (ha : SameShell s s') (o o' : TObj K) : SameShell { s with user := s.user ++ [o] } { s' with user := s'.user ++ [o'] } :=
  InSync.set (f := fun s : Sess K => { s with user := s.user ++ [o] }) (f' := fun s : Sess K => { s with user := s.user ++ [o'] })
    (fun sh => { sh with users := sh.users + 1 }) (fun s => ⟨by unfold shellOf; simp, rfl⟩) (fun s => ⟨by unfold shellOf; simp, rfl⟩) ha

theorem shell_setup {s s' : Sess K} (ha : SameShell s s') (kw : OptionKwargs) : SameShell (Sess.setup kw s).1 (Sess.setup kw s').1 :=
  InSync.set (f := fun s : Sess K => (Sess.setup kw s).1) (f' := fun s : Sess K => (Sess.setup kw s).1) (fun sh => { sh with opt := (sh.opt.setup kw).1 })
    (fun _ => ⟨rfl, rfl⟩) (fun _ => ⟨rfl, rfl⟩) ha

theorem shell_watch {s s' : Sess K} (ha : SameShell s s') (sel : List (PyStr × Nat)) : SameShell (Sess.watch sel s).1 (Sess.watch sel s').1 := by
  refine InSync.set (f := fun s : Sess K => (Sess.watch sel s).1) (f' := fun s : Sess K => (Sess.watch sel s).1)
    (fun sh => { sh with modules := sh.modules ++ sel.map Prod.snd, names := sel.foldl (fun d (e : PyStr × Nat) => Dict.set d e.2 e.1) sh.names })
    (fun s => ?_) (fun s => ?_) ha <;>
  · unfold Sess.watch
    dsimp only
    split <;> exact ⟨rfl, rfl⟩

theorem sim_op (E : SEnv K) {o o' : SOp K} (h : SameOp o o') : InSync (o.run E) (o'.run E) := by
  cases o <;> cases o' <;> try exact h.elim
  case alloc.alloc t t' =>
    intro s s' u u' ha h1 h2
    cases h1
    cases h2
    exact sim_user ha t t'
  case forward.forward => obtain ⟨rfl, rfl, rfl⟩ := h; exact InSync.forward E _ _ _
  case gradAt.gradAt => obtain ⟨rfl, rfl⟩ := h; exact InSync.gradAt E _ _
  case backward.backward => obtain ⟨rfl, rfl⟩ := h; exact InSync.backward E _ _
  case watchActivation.watchActivation => obtain rfl : _ = _ := h; exact InSync.watchActivation E _
  case call.call ids mask sv ids' mask' sv' =>
    intro s s' u u' ha h1 h2
    cases h1
    cases h2
    exact (ha.setBatch ids ids' mask mask').congr rfl rfl rfl rfl
  case enter.enter =>
    intro s s' u u' ha h1 h2
    exact InSync.registerAll _ _ u u' ha.clearHooks h1 h2
  case exit.exit =>
    intro s s' u u' ha h1 h2
    exact InSync.update E _ _ s s' u u' ha h1 h2
  case start.start ids mask ids' mask' =>
    intro s s' u u' ha h1 h2
    exact InSync.registerAll _ _ u u' (ha.setBatch ids ids' mask mask').clearHooks h1 h2
  case end.end =>
    intro s s' u u' ha h1 h2
    exact InSync.update E _ _ s s' u u' ha h1 h2
  case log.log ids mask ids' mask' =>
    intro s s' u u' ha h1 h2
    exact InSync.update E _ _ _ _ u u' (ha.setBatch ids ids' mask mask') h1 h2
  case save.save =>
    intro s s' u u' ha h1 h2
    cases h1
    cases h2
    exact ha.congr rfl rfl rfl rfl
  case eval.eval =>
    intro s s' u u' ha h1 h2
    cases h1
    cases h2
    exact ha.congr rfl rfl rfl rfl
  case setup.setup kw kw' =>
    obtain rfl : kw = kw' := h
    intro s s' u u' ha h1 h2
    have := shell_setup ha kw
    rw [show Sess.setup kw s = (u, none) from h1, show Sess.setup kw s' = (u', none) from h2] at this
    exact this
  case watch.watch sel sel' =>
    obtain rfl : sel = sel' := h
    intro s s' u u' ha h1 h2
    have := shell_watch ha sel
    rw [show Sess.watch sel s = (u, none) from h1, show Sess.watch sel s' = (u', none) from h2] at this
    exact this
  case getLogCopy.getLogCopy =>
    intro s s' u u' ha h1 h2
    have e1 : s.getLogCopy.1 = u := congrArg Prod.fst h1
    have e2 : s'.getLogCopy.1 = u' := congrArg Prod.fst h2
    have k1 := shell_getLogCopy s
    have k2 := shell_getLogCopy s'
    rw [e1] at k1
    rw [e2] at k2
    exact ha.congr k1.1 k1.2 k2.1 k2.2

theorem configures_shell (E : SEnv K) {ops ops' : List (SOp K)} (h : List.Forall₂ SameOp ops ops') : (∀ o ∈ ops, Configures o) → ∀ s s' : Sess K, SameShell s s' →
    SameShell (runHistory E ops s) (runHistory E ops' s') := by
  induction h with
  | nil => exact fun _ s s' ha => ha
  | @cons o o' ops ops' ho _ ih =>
    intro hc s s' ha
    refine ih (fun o h => hc o (List.mem_cons_of_mem _ h)) _ _ ?_
    have hco := hc o List.mem_cons_self
    cases o <;> try exact hco.elim
    all_goals cases o' <;> try exact ho.elim
    · exact sim_user ha _ _
    · exact ha.congr rfl rfl rfl rfl
    · exact ha.congr rfl rfl rfl rfl
    · obtain rfl : _ = _ := ho; exact shell_setup ha _
    · obtain rfl : _ = _ := ho; exact shell_watch ha _

theorem sameOp_shift {o o' : SOp K} (h : SameOp o o') (k : Nat) : SameOp (shift k o) (shift k o') := by
  cases o <;> cases o' <;> try exact h.elim
  all_goals first
    | exact h
    | (obtain ⟨rfl, rfl, rfl⟩ := h; exact ⟨rfl, rfl, rfl⟩)
    | (obtain ⟨rfl, rfl⟩ := h; exact ⟨rfl, rfl⟩)
    | (obtain rfl : _ = _ := h; exact rfl)

theorem shell_init (n n' : Nat) (th th' : Int) (fs fs' : FS) : SameShell (Sess.init n th fs : Sess K) (Sess.init n' th' fs') :=
  ⟨rfl, ⟨[], [], [], [], rfl, rfl, rfl, rfl, rfl⟩, ⟨[], [], [], [], rfl, rfl, rfl, rfl, rfl⟩⟩

theorem outline_skel (d d' : StateDict K) (h : skelD d = skelD d') : outline d = outline d' := by
  have : ∀ d : StateDict K, outline d = (skelD d).map fun e => (e.1, match e.2 with | .node sub => Dict.keys sub | .leaf _ => []) := by
    intro d
    induction d with
    | nil => rfl
    | cons e d ih =>
      obtain ⟨k, v⟩ := e
      rw [skelD, List.map_cons, ← ih]
      unfold outline
      rw [List.map_cons]
      congr 2
      cases v with
      | leaf _ => rfl
      | node sub => simp only [skelN, skelD_keys]
  rw [this, this, h]

theorem SameLayout.outline {st cn : PyStr} {s s' : LState K} (h : SameLayout st cn s s') : (Dict.get? s.attrs st).map outline = (Dict.get? s'.attrs st).map outline := by
  obtain ⟨d, e, d', e', h1, -, h3, -, h5⟩ := h
  have inv : ∀ (s : LState K) (d : StateDict K), s.getAttr st = .ok d → Dict.get? s.attrs st = some d := by
    intro s d h
    unfold LState.getAttr at h
    split at h
    · cases h
    · next hd => rw [hd]; exact congrArg some (Except.ok.inj h)
  rw [inv _ _ h1, inv _ _ h3, Option.map_some, Option.map_some, outline_skel d d' h5]

end
end Logix
