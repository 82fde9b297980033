/-
The updates of the statistics that the hooks of a session make.
-/
import Verif.Props.SessionSum
import Verif.Lemmas.State
import Verif.Spec.SessionStats

set_option linter.unusedSectionVars false

namespace Logix
open Spec Sess
variable {K : Type}

/-- The statistics go from one state to the other by these updates. -/
def Emits [Semiring K] (E : SEnv K) (s t : Sess K) (cs : List (Plugin × StatCall K)) : Prop := updates E.lib s.st cs = .ok t.st

theorem updates_append_ok [Semiring K] (L : Lib K) (a b : List (Plugin × StatCall K)) : ∀ (s u : LState K), updates L s a = .ok u →
    updates L s (a ++ b) = updates L u b := by
  induction a with
  | nil => intro s u h; cases h; rfl
  | cons c a ih =>
    intro s u h
    obtain ⟨p, c⟩ := c
    change (match pluginUpdate L p s c with | .error e => (.error e : Py (LState K)) | .ok s => updates L s (a ++ b)) = _
    change (match pluginUpdate L p s c with | .error e => (.error e : Py (LState K)) | .ok s => updates L s a) = _ at h
    cases h1 : pluginUpdate L p s c with
    | error e => rw [h1] at h; cases h
    | ok s1 =>
      rw [h1] at h
      exact ih s1 u h

theorem Emits.trans [Semiring K] {E : SEnv K} {a b c : Sess K} {cs ds : List (Plugin × StatCall K)} (h : Emits E a b cs) (h' : Emits E b c ds) :
    Emits E a c (cs ++ ds) := by
  unfold Emits at *
  rw [updates_append_ok E.lib cs ds _ _ h]
  exact h'

theorem Emits.of_eq [Semiring K] {E : SEnv K} {a b : Sess K} (h : b.st = a.st) : Emits E a b [] := by
  unfold Emits
  rw [h]
  rfl

theorem convert_obj (E : SEnv K) (s : Sess K) (r : TRef) (o : TObj K) (h : s.obj r = some o) :
    ∃ o', (s.convert E r).1.obj (s.convert E r).2 = some o' ∧ o'.val = o.val := by
  unfold convert
  rw [h]
  cases E.dtype with
  | none => exact ⟨o, h, rfl⟩
  | some d =>
    dsimp only
    split
    · exact ⟨o, h, rfl⟩
    · refine ⟨_, List.getElem?_concat_length .., rfl⟩

theorem convert_none (E : SEnv K) (s : Sess K) (r : TRef) (h : s.obj r = none) : s.convert E r = (s, r) := by
  unfold convert
  rw [h]
  cases E.dtype <;> rfl

theorem convert_st (E : SEnv K) (s : Sess K) (r : TRef) : (s.convert E r).1.st = s.st ∧ (s.convert E r).1.mask = s.mask := by
  unfold convert
  split
  · split <;> exact ⟨rfl, rfl⟩
  · exact ⟨rfl, rfl⟩

/-- A list of plugins other than `Log` on a tensor. -/
theorem plugins_emit [Semiring K] (E : SEnv K) (mod : Option ModKind) (name : PyStr) (ty : LogType) (r : TRef) (o : TObj K) (ps : List Plugin) :
    ∀ s t : Sess K, .log ∉ ps → s.obj r = some o → SAct.each (plugin E mod name ty r) ps s = (t, none) →
      Emits E s t (ps.map fun p => (p, ⟨mod, name, ty, o.val, s.mask, E.cpuOffload⟩)) := by
  induction ps with
  | nil =>
    intro s t _ _ h
    cases h
    exact Emits.of_eq rfl
  | cons p ps ih =>
    intro s t hp ho h
    obtain ⟨u, h1, h2⟩ := SAct.seq_none h
    have hne : p ≠ .log := fun e => hp (e ▸ List.mem_cons_self ..)
    obtain ⟨st, hst, hu⟩ : ∃ st, pluginUpdate E.lib p s.st ⟨mod, name, ty, o.val, s.mask, E.cpuOffload⟩ = .ok st ∧ ({ s with st := st } : Sess K) = u := by
      unfold plugin at h1
      split at h1
      · exact absurd rfl hne
      · rw [ho] at h1
        dsimp only at h1
        split at h1
        · next st hst => exact ⟨st, hst, congrArg Prod.fst h1⟩
        · exact absurd (congrArg Prod.snd h1) (by simp)
    subst hu
    have := ih _ t (fun hh => hp (List.mem_cons_of_mem _ hh)) (by cases r <;> exact ho) h2
    unfold Emits at *
    rw [List.map_cons]
    unfold updates
    rw [hst]
    exact this

theorem plugins_none [Semiring K] (E : SEnv K) (mod : Option ModKind) (name : PyStr) (ty : LogType) (r : TRef) (ps : List Plugin) (s t : Sess K)
    (hp : .log ∉ ps) (ho : s.obj r = none) (h : SAct.each (plugin E mod name ty r) ps s = (t, none)) : ps = [] ∧ t = s := by
  cases ps with
  | nil => cases h; exact ⟨rfl, rfl⟩
  | cons p ps =>
    obtain ⟨u, h1, h2⟩ := SAct.seq_none h
    have hne : p ≠ .log := fun e => hp (e ▸ List.mem_cons_self ..)
    unfold plugin at h1
    split at h1
    · exact absurd rfl hne
    · rw [ho] at h1
      exact absurd (congrArg Prod.snd h1) (by simp)

theorem mask_of_quiet {s t : Sess K} (h : Quiet s t) : t.mask = s.mask := by
  have h' := congrArg Sess.mask (show ({ t with user := s.user, own := s.own, log := s.log, st := s.st } : Sess K) = s from h)
  exact h'

theorem masked_obj [Semiring K] (s s' : Sess K) (r r' : TRef) (h : s.masked r = (s', .ok r')) :
    ∃ o o', s.obj r = some o ∧ s'.obj r' = some o' ∧ maskActivations s.mask o.val = .ok o'.val ∧ s'.st = s.st := by
  unfold masked at h
  split at h
  · cases h
  · next o ho =>
    split at h
    · cases h
    · next v hv =>
      dsimp only at h
      split at h
      · cases h
        exact ⟨o, _, ho, List.getElem?_concat_length .., hv, rfl⟩
      · next hm =>
        cases h
        refine ⟨o, o, ho, ho, ?_, rfl⟩
        rw [hv]
        congr 1
        unfold maskActivations at hv
        unfold maskApplies at hm
        cases hmask : s.mask with
        | none => rw [hmask] at hv; exact (Except.ok.inj hv).symm
        | some mk =>
          rw [hmask] at hv hm
          dsimp only at hv hm
          split at hv
          · next h1 =>
            rw [if_pos h1] at hm
            split at hv
            · split at hv
              · next h3 => exact absurd (by simpa using h3) hm
              · exact (Except.ok.inj hv).symm
            · cases hv
          · next h1 =>
            rw [if_neg h1] at hm
            split at hv
            · next h3 => exact absurd (by simpa using h3) hm
            · exact (Except.ok.inj hv).symm

/-! ### The calls for one name -/

theorem callsOf_map [Semiring K] (p : Plugin) (nm : PyStr) (lt : LogType) (c : StatCall K) (ps : List Plugin) :
    callsOf p nm lt (ps.map fun q => (q, c)) = if c.name = nm ∧ c.logType = lt then List.replicate (ps.count p) c else [] := by
  induction ps with
  | nil => simp [callsOf]
  | cons q ps ih =>
    rw [List.map_cons, show ((q, c) :: ps.map fun q => (q, c)) = [(q, c)] ++ ps.map fun q => (q, c) from rfl, callsOf_append, ih, callsOf_single]
    by_cases h : c.name = nm ∧ c.logType = lt
    · by_cases hq : q = p
      · subst hq
        rw [if_pos ⟨rfl, h⟩, if_pos h, if_pos h, List.count_cons_self, List.replicate_succ]
        rfl
      · rw [if_neg (fun hh => hq hh.1), if_pos h, if_pos h, List.count_cons_of_ne hq]
        rfl
    · rw [if_neg (fun hh => h hh.2), if_neg h, if_neg h]
      rfl

/-- The plugins that the statistics of a log type are computed by. -/
def plugs (opt : LogOption) : LogType → List Plugin
  | .forward => opt.forward
  | .backward => opt.backward
  | .grad => opt.grad.tail

variable {Q : Option (Tensor K) → Prop}

/-- The updates between two states, as far as the name `nm` is concerned: `f`, `b` and `g` are the data of the three log types, each of which
goes to every plugin of the log type. Other updates are by plugins of their log type as well, and a property `Q` of the masks is kept. -/
def Traced [Semiring K] (Q : Option (Tensor K) → Prop) (E : SEnv K) (opt : LogOption) (nm : PyStr) (s t : Sess K) (f b g : List (StatCall K)) : Prop :=
  ∃ cs, Emits E s t cs ∧ (∀ p, callsOf p nm .forward cs = f.flatMap (List.replicate (opt.forward.count p))) ∧
    (∀ p, callsOf p nm .backward cs = b.flatMap (List.replicate (opt.backward.count p))) ∧
    (∀ p, callsOf p nm .grad cs = g.flatMap (List.replicate (opt.grad.tail.count p))) ∧
    (∀ pc ∈ cs, pc.1 ∈ plugs opt pc.2.logType) ∧ (Q s.mask → Q t.mask ∧ ∀ pc ∈ cs, Q pc.2.mask)

theorem Traced.trans [Semiring K] {E : SEnv K} {opt : LogOption} {nm : PyStr} {s t u : Sess K} {f b g f' b' g' : List (StatCall K)}
    (h : Traced Q E opt nm s t f b g) (h' : Traced Q E opt nm t u f' b' g') : Traced Q E opt nm s u (f ++ f') (b ++ b') (g ++ g') := by
  obtain ⟨cs, e, h1, h2, h3, h4, h5⟩ := h
  obtain ⟨cs', e', h1', h2', h3', h4', h5'⟩ := h'
  refine ⟨cs ++ cs', e.trans e', fun p => ?_, fun p => ?_, fun p => ?_, fun pc hpc => ?_, fun hq => ?_⟩
  · rw [callsOf_append, h1, h1', List.flatMap_append]
  · rw [callsOf_append, h2, h2', List.flatMap_append]
  · rw [callsOf_append, h3, h3', List.flatMap_append]
  · exact (List.mem_append.1 hpc).elim (h4 pc) (h4' pc)
  · obtain ⟨q1, q2⟩ := h5 hq
    obtain ⟨q3, q4⟩ := h5' q1
    exact ⟨q3, fun pc hpc => (List.mem_append.1 hpc).elim (q2 pc) (q4 pc)⟩

theorem Traced.of_eq [Semiring K] {E : SEnv K} {opt : LogOption} {nm : PyStr} {s t : Sess K} (h : t.st = s.st) (hm : Q s.mask → Q t.mask) :
    Traced Q E opt nm s t [] [] [] :=
  ⟨[], Emits.of_eq h, fun _ => rfl, fun _ => rfl, fun _ => rfl, fun _ h => (nomatch h), fun hq => ⟨hm hq, fun _ h => nomatch h⟩⟩

theorem Traced.left [Semiring K] {E : SEnv K} {opt : LogOption} {nm : PyStr} {s s' t : Sess K} {f b g : List (StatCall K)}
    (h : Traced Q E opt nm s' t f b g) (e : s'.st = s.st) (hm : Q s.mask → Q s'.mask) : Traced Q E opt nm s t f b g := by
  obtain ⟨cs, h0, h1, h2, h3, h4, h5⟩ := h
  refine ⟨cs, ?_, h1, h2, h3, h4, fun hq => h5 (hm hq)⟩
  unfold Emits at *
  rw [← e]
  exact h0

theorem Traced.right [Semiring K] {E : SEnv K} {opt : LogOption} {nm : PyStr} {s t' t : Sess K} {f b g : List (StatCall K)}
    (h : Traced Q E opt nm s t' f b g) (e : t.st = t'.st) (hm : Q t'.mask → Q t.mask) : Traced Q E opt nm s t f b g := by
  obtain ⟨cs, h0, h1, h2, h3, h4, h5⟩ := h
  refine ⟨cs, ?_, h1, h2, h3, h4, fun hq => ⟨hm (h5 hq).1, (h5 hq).2⟩⟩
  unfold Emits at *
  rw [e]
  exact h0

/-- Plugins applied to one tensor. -/
theorem map_good [Semiring K] {ps : List Plugin} {opt : LogOption} {c : StatCall K} {s t : Sess K} (hp : ∀ p ∈ ps, p ∈ plugs opt c.logType) (hm : t.mask = s.mask)
    (hc : c.mask = s.mask) : (∀ pc ∈ ps.map fun p => (p, c), pc.1 ∈ plugs opt pc.2.logType) ∧
      (Q s.mask → Q t.mask ∧ ∀ pc ∈ ps.map fun p => (p, c), Q pc.2.mask) := by
  refine ⟨fun pc h => ?_, fun hq => ⟨by rw [hm]; exact hq, fun pc h => ?_⟩⟩
  · obtain ⟨p, h1, rfl⟩ := List.mem_map.1 h
    exact hp p h1
  · obtain ⟨p, h1, rfl⟩ := List.mem_map.1 h
    rw [hc]
    exact hq

theorem plugins_mask [Semiring K] (E : SEnv K) (mod : Option ModKind) (name : PyStr) (ty : LogType) (r : TRef) (ps : List Plugin)
    (hp : .log ∉ ps) (s : Sess K) : (SAct.each (plugin E mod name ty r) ps s).1.mask = s.mask :=
  mask_of_quiet (plugins_still E mod name ty r ps hp s).1

theorem forwardHook_traced [Semiring K] (E : SEnv K) (nm : PyStr) (mod x : Nat) (name : PyStr) (s t : Sess K) (hf : .log ∉ s.opt.forward)
    (h : Sess.forwardHook E mod x name s = (t, none)) : ∃ a v, s.user[x]? = some a ∧ maskActivations s.mask a.val = .ok v ∧
      Traced Q E s.opt nm s t (if name = nm then [⟨some (E.kind mod), nm, .forward, v, s.mask, E.cpuOffload⟩] else []) [] [] := by
  have hq := masked_quiet s (.user x)
  unfold Sess.forwardHook at h
  split at h
  · exact absurd (congrArg Prod.snd h) (by simp)
  · next s1 r hm =>
    rw [hm] at hq
    obtain ⟨o, o', h1, h2, h3, h4⟩ := masked_obj s s1 (.user x) r hm
    dsimp only at h
    obtain ⟨o2, h5, h6⟩ := convert_obj E s1 r o' h2
    have hq2 := hq.trans (convert_quiet E s1 r)
    have hopt := opt_of_quiet hq2
    have hemit := plugins_emit E _ _ _ _ o2 _ _ _ (by rw [hopt]; exact hf) h5 h
    have hmask := plugins_mask E (some (E.kind mod)) name .forward (s1.convert E r).2 (s1.convert E r).1.opt.forward (by rw [hopt]; exact hf)
      (s1.convert E r).1
    rw [h] at hmask
    obtain ⟨g1, g2⟩ := map_good (Q := Q) (opt := s.opt) (s := (s1.convert E r).1) (t := t)
      (c := ⟨some (E.kind mod), name, .forward, o2.val, (s1.convert E r).1.mask, E.cpuOffload⟩) (ps := (s1.convert E r).1.opt.forward)
      (by rw [hopt]; exact fun p hp => hp) hmask rfl
    refine ⟨o, o'.val, h1, h3, Traced.left (s' := (s1.convert E r).1) ⟨_, hemit, ?_, ?_, ?_, g1, g2⟩ ((convert_st E s1 r).1.trans h4)
      (fun hq => by rw [mask_of_quiet hq2]; exact hq)⟩
    · intro p
      rw [callsOf_map, hopt, h6, mask_of_quiet hq2]
      by_cases hn : name = nm
      · subst hn
        simp
      · simp [hn]
    · intro p
      rw [callsOf_map, if_neg (by simp)]
      rfl
    · intro p
      rw [callsOf_map, if_neg (by simp)]
      rfl

/-- The value of a tensor of the user. -/
def valueAt [Semiring K] (user : List (TObj K)) (g : Nat) : Tensor K :=
  match user[g]? with
  | some a => a.val
  | none => Tensor.ofFn .cpu [] fun _ => 0

/-- The gradient hooks of modules and of custom tensors, on the gradient `g`. -/
theorem gradPlugins_traced [Semiring K] (E : SEnv K) (nm : PyStr) (mod : Option ModKind) (g : Nat) (name : PyStr) (s t : Sess K)
    (hb : .log ∉ s.opt.backward)
    (h : SAct.each (plugin E mod name .backward (s.convert E (.user g)).2) (s.convert E (.user g)).1.opt.backward (s.convert E (.user g)).1 =
      (t, none)) :
    (s.opt.backward ≠ [] → s.user[g]?.isSome) ∧
      Traced Q E s.opt nm s t [] (if name = nm then [⟨mod, nm, .backward, valueAt s.user g, s.mask, E.cpuOffload⟩] else []) [] := by
  have hq := convert_quiet E s (.user g)
  have hopt := opt_of_quiet hq
  cases ha : s.obj (.user g) with
  | none =>
    rw [convert_none E s (.user g) ha] at h
    obtain ⟨h1, h2⟩ := plugins_none E _ _ _ _ _ _ _ hb ha h
    subst h2
    refine ⟨fun hne => absurd h1 hne, [], Emits.of_eq rfl, fun _ => rfl, fun p => ?_, fun _ => rfl, fun _ h => (nomatch h),
      fun hq => ⟨hq, fun _ h => nomatch h⟩⟩
    rw [h1]
    split <;> simp [callsOf]
  | some a =>
    have ha' : s.user[g]? = some a := ha
    obtain ⟨o2, h5, h6⟩ := convert_obj E s (.user g) a ha
    have hemit := plugins_emit E _ _ _ _ o2 _ _ _ (by rw [hopt]; exact hb) h5 h
    have hmask := plugins_mask E mod name .backward (s.convert E (.user g)).2 (s.convert E (.user g)).1.opt.backward (by rw [hopt]; exact hb)
      (s.convert E (.user g)).1
    rw [h] at hmask
    obtain ⟨g1, g2⟩ := map_good (Q := Q) (opt := s.opt) (s := (s.convert E (.user g)).1) (t := t)
      (c := ⟨mod, name, .backward, o2.val, (s.convert E (.user g)).1.mask, E.cpuOffload⟩) (ps := (s.convert E (.user g)).1.opt.backward)
      (by rw [hopt]; exact fun p hp => hp) hmask rfl
    refine ⟨fun _ => by rw [ha']; rfl, Traced.left (s' := (s.convert E (.user g)).1) ⟨_, hemit, ?_, ?_, ?_, g1, g2⟩ (convert_st E s _).1
      (fun hq' => by rw [mask_of_quiet hq]; exact hq')⟩
    · intro p
      rw [callsOf_map, if_neg (by simp)]
      rfl
    · intro p
      rw [callsOf_map, hopt, h6, mask_of_quiet hq]
      unfold valueAt
      rw [ha']
      by_cases hn : name = nm
      · subst hn
        simp
      · simp [hn]
    · intro p
      rw [callsOf_map, if_neg (by simp)]
      rfl

/-- Custom activations under other names. -/
theorem activation_traced [Semiring K] (E : SEnv K) (nm : PyStr) (x : Nat) (name : PyStr) (s t : Sess K)
    (hf : .log ∉ s.opt.forward) (hne : name ≠ nm)
    (h : SAct.each (plugin E none name .forward (s.convert E (.user x)).2) (s.convert E (.user x)).1.opt.forward (s.convert E (.user x)).1 =
      (t, none)) : Traced Q E s.opt nm s t [] [] [] := by
  have hq := convert_quiet E s (.user x)
  have hopt := opt_of_quiet hq
  cases ha : s.obj (.user x) with
  | none =>
    rw [convert_none E s (.user x) ha] at h
    obtain ⟨h1, h2⟩ := plugins_none E _ _ _ _ _ _ _ hf ha h
    subst h2
    exact Traced.of_eq rfl fun hq => hq
  | some a =>
    obtain ⟨o2, h5, h6⟩ := convert_obj E s (.user x) a ha
    have hemit := plugins_emit E _ _ _ _ o2 _ _ _ (by rw [hopt]; exact hf) h5 h
    have hmask := plugins_mask E none name .forward (s.convert E (.user x)).2 (s.convert E (.user x)).1.opt.forward (by rw [hopt]; exact hf)
      (s.convert E (.user x)).1
    rw [h] at hmask
    obtain ⟨g1, g2⟩ := map_good (Q := Q) (opt := s.opt) (s := (s.convert E (.user x)).1) (t := t)
      (c := ⟨none, name, .forward, o2.val, (s.convert E (.user x)).1.mask, E.cpuOffload⟩) (ps := (s.convert E (.user x)).1.opt.forward)
      (by rw [hopt]; exact fun p hp => hp) hmask rfl
    refine Traced.left (s' := (s.convert E (.user x)).1) ⟨_, hemit, ?_, ?_, ?_, g1, g2⟩ (convert_st E s _).1
      (fun hq' => by rw [mask_of_quiet hq]; exact hq')
    · intro p
      rw [callsOf_map, if_neg (by simp [hne])]
      rfl
    · intro p
      rw [callsOf_map, if_neg (by simp)]
      rfl
    · intro p
      rw [callsOf_map, if_neg (by simp)]
      rfl

/-! ### Gradients -/

theorem logUpdate_st [Semiring K] (name ty : PyStr) (r : TRef) (s : Sess K) : (logUpdate name ty r s).1.st = s.st ∧
    ((Dict.keys s.log).Nodup → (Dict.keys (logUpdate name ty r s).1.log).Nodup) := by
  unfold logUpdate
  dsimp only
  split
  · exact ⟨rfl, fun h => Dict.nodup_keys_set _ _ _ h⟩
  · next r₀ _ =>
    split
    · split
      · cases r₀ <;> exact ⟨rfl, fun h => h⟩
      · exact ⟨rfl, fun h => h⟩
    · exact ⟨rfl, fun h => h⟩

theorem convert_log (E : SEnv K) (s : Sess K) (r : TRef) : (s.convert E r).1.log = s.log := (convert_still E s r).2.2.1

theorem gradBackwardHook_st [Semiring K] (E : SEnv K) (mod x g : Nat) (name : PyStr) (s t : Sess K)
    (h : gradBackwardHook E mod x g name s = (t, none)) :
    t.st = s.st ∧ ((Dict.keys s.log).Nodup → (Dict.keys t.log).Nodup) ∧ (s.opt.grad.head? = some .log ∨ t = s) := by
  unfold gradBackwardHook at h
  cases hg : s.opt.grad with
  | nil =>
    rw [show gradHookCheck s.opt = .ok false by unfold gradHookCheck; rw [hg]] at h
    cases h
    exact ⟨rfl, fun h => h, Or.inr rfl⟩
  | cons p ps =>
    by_cases hp : p = .log
    swap
    · rw [show gradHookCheck s.opt = .error .assertionError by unfold gradHookCheck; rw [hg]; exact if_neg hp] at h
      cases h
    subst hp
    rw [show gradHookCheck s.opt = .ok true by unfold gradHookCheck; rw [hg]; rfl] at h
    dsimp only at h
    split at h
    · next a b ha hb =>
      split at h
      · cases h
      · next v hv =>
        have hq : Quiet s ((s.alloc ⟨v, b.dtype, false, true⟩).1.convert E (s.alloc ⟨v, b.dtype, false, true⟩).2).1 :=
          (alloc_quiet s _).trans (convert_quiet E _ _)
        rw [opt_of_quiet hq, hg] at h
        obtain ⟨u, h1, h2⟩ := SAct.seq_none h
        cases h2
        have h3 := logUpdate_st name (LogType.name .grad) ((s.alloc ⟨v, b.dtype, false, true⟩).1.convert E (s.alloc ⟨v, b.dtype, false, true⟩).2).2
          ((s.alloc ⟨v, b.dtype, false, true⟩).1.convert E (s.alloc ⟨v, b.dtype, false, true⟩).2).1
        rw [show logUpdate _ _ _ _ = (t, none) from h1] at h3
        refine ⟨h3.1.trans (convert_st E _ _).1, fun hn => h3.2 ?_, Or.inl rfl⟩
        rw [convert_log]
        exact hn
    · cases h

/-- The hooks that run when a gradient arrives, custom tensors having other names. -/
theorem gradHooks_traced [Semiring K] (E : SEnv K) (g : Nat) (nm : PyStr) (l : List TensorHook) : ∀ (s t : Sess K), LogWF s →
    (Dict.keys s.log).Nodup → .log ∉ s.opt.backward → (∀ h ∈ l, h.fn ≠ .activation nm) →
    SAct.each (fun h : TensorHook => match h.fn with
      | .grad mod x name => gradBackwardHook E mod x g name
      | .activation name => tensorBackwardHook E g name) l s = (t, none) →
    Quiet s t ∧ t.user = s.user ∧ LogWF t ∧ (Dict.keys t.log).Nodup ∧ Traced Q E s.opt nm s t [] [] [] := by
  induction l with
  | nil =>
    intro s t hw hn _ _ h
    cases h
    exact ⟨Quiet.refl s, rfl, hw, hn, Traced.of_eq rfl fun hq => hq⟩
  | cons a l ih =>
    intro s t hw hn hb hact h
    obtain ⟨u, h1, h2⟩ := SAct.seq_none h
    have step : Quiet s u ∧ u.user = s.user ∧ LogWF u ∧ (Dict.keys u.log).Nodup ∧ Traced Q E s.opt nm s u [] [] [] := by
      have hact' := hact a (List.mem_cons_self ..)
      obtain ⟨i, out, fn⟩ := a
      cases fn with
      | grad mod x name =>
        obtain ⟨e1, e2, e3⟩ := gradBackwardHook_st E mod x g name s u h1
        rcases e3 with e3 | e3
        · obtain ⟨_, _, _, _, _, _, q, hu, w, _⟩ := gradBackwardHook_spec E mod x g name s u hw e3 h1
          exact ⟨q, hu, w, e2 hn, Traced.of_eq e1 fun hq => by rw [mask_of_quiet q]; exact hq⟩
        · subst e3
          exact ⟨Quiet.refl _, rfl, hw, hn, Traced.of_eq rfl fun hq => hq⟩
      | activation name =>
        have st := tensorBackwardHook_still E g name s hb
        rw [show tensorBackwardHook E g name s = (u, none) from h1] at st
        obtain ⟨_, tr⟩ := gradPlugins_traced E nm none g name s u hb h1
        rw [if_neg (fun e => hact' (by rw [e]))] at tr
        exact ⟨st.1, st.2.1, st.wf hw, by rw [st.2.2.1]; exact hn, tr⟩
    obtain ⟨q, hu, w, n, tr⟩ := step
    have hopt := opt_of_quiet q
    obtain ⟨q2, hu2, w2, n2, tr2⟩ := ih u t w n (by rw [hopt]; exact hb) (fun h hh => hact h (List.mem_cons_of_mem _ hh)) h2
    rw [hopt] at tr2
    exact ⟨q.trans q2, hu2.trans hu, w2, n2, tr.trans tr2⟩

/-! ### Gradient statistics -/

theorem gradStat_traced [Semiring K] (E : SEnv K) (p : Plugin) (name : PyStr) (s t : Sess K) (hw : LogWF s) (hp : p ≠ .log)
    (h : gradStat E p name s = (t, none)) : Still s t ∧ ∃ T, logged s name (LogType.name .grad) = some T ∧
      Emits E s t [(p, ⟨none, name, .grad, T, s.mask, E.cpuOffload⟩)] := by
  unfold gradStat at h
  split at h
  · cases h
  · next r hr =>
    have hr' : logRef s name (LogType.name .grad) = some r := hr
    obtain ⟨n, rfl, hn⟩ := hw.own _ _ _ hr'
    have hs := plugins_still E none name .grad (.own n) [p] (by simpa using fun e => hp e.symm) s
    have h' : SAct.each (plugin E none name .grad (.own n)) [p] s = (t, none) := by
      show SAct.seq _ _ s = _
      rw [SAct.seq_eq h]
      rfl
    rw [h'] at hs
    refine ⟨hs, s.own[n].val, ?_, ?_⟩
    · rw [logged_eq, hr']
      show (s.own[n]?).map _ = _
      rw [List.getElem?_eq_getElem hn]
      rfl
    · exact plugins_emit E none name .grad (.own n) s.own[n] [p] s t (by simpa using fun e => hp e.symm) (List.getElem?_eq_getElem hn) h'

theorem gradStat_keys [Semiring K] (E : SEnv K) (q : Plugin) (nm : PyStr) (hq : q ≠ .log) (ks : List PyStr) : ∀ (s t : Sess K), LogWF s → ks.Nodup →
    SAct.each (gradStat E q) ks s = (t, none) → Still s t ∧ ∃ cs, Emits E s t cs ∧ (∀ p, callsOf p nm .forward cs = []) ∧
      (∀ p, callsOf p nm .backward cs = []) ∧ (∀ p, callsOf p nm .grad cs = if q = p ∧ nm ∈ ks then
        ((logged s nm (LogType.name .grad)).toList.map fun T => ⟨none, nm, .grad, T, s.mask, E.cpuOffload⟩) else []) ∧
      ∀ pc ∈ cs, pc.1 = q ∧ pc.2.logType = .grad ∧ pc.2.mask = s.mask := by
  induction ks with
  | nil =>
    intro s t _ _ h
    cases h
    exact ⟨Still.refl s, [], Emits.of_eq rfl, fun _ => rfl, fun _ => rfl, fun p => by simp [callsOf], fun _ h => nomatch h⟩
  | cons k ks ih =>
    intro s t hw hn h
    obtain ⟨u, h1, h2⟩ := SAct.seq_none h
    obtain ⟨st, T, hT, em⟩ := gradStat_traced E q k s u hw hq h1
    obtain ⟨st2, cs, em2, c1, c2, c3, c4⟩ := ih u t (st.wf hw) (List.nodup_cons.1 hn).2 h2
    refine ⟨st.trans st2, _, em.trans em2, fun p => ?_, fun p => ?_, fun p => ?_, fun pc hpc => ?_⟩
    · rw [callsOf_append, c1, callsOf_single, if_neg (by simp)]
      rfl
    · rw [callsOf_append, c2, callsOf_single, if_neg (by simp)]
      rfl
    · rw [callsOf_append, c3, callsOf_single, st.logged hw, mask_of_quiet st.1]
      have hk := (List.nodup_cons.1 hn).1
      by_cases hp : q = p
      · by_cases hkn : k = nm
        · subst hkn
          rw [if_pos ⟨hp, rfl, rfl⟩, if_neg (fun hh => hk hh.2), if_pos ⟨hp, List.mem_cons_self ..⟩, hT]
          rfl
        · rw [if_neg (fun hh => hkn hh.2.1)]
          have : (q = p ∧ nm ∈ ks) ↔ (q = p ∧ nm ∈ k :: ks) := by
            simp [Ne.symm hkn]
          simp only [this]
          rfl
      · rw [if_neg (fun hh => hp hh.1), if_neg (fun hh => hp hh.1), if_neg (fun hh => hp hh.1)]
        rfl
    · rcases List.mem_cons.1 hpc with rfl | hpc
      · exact ⟨rfl, rfl, rfl⟩
      · rw [← mask_of_quiet st.1]
        exact c4 pc hpc

theorem gradStats_traced [Semiring K] (E : SEnv K) (nm : PyStr) (ps : List Plugin) : ∀ (s t : Sess K), LogWF s → (Dict.keys s.log).Nodup →
    .log ∉ ps → gradStats E ps s = (t, none) → Still s t ∧ ∃ cs, Emits E s t cs ∧ (∀ p, callsOf p nm .forward cs = []) ∧
      (∀ p, callsOf p nm .backward cs = []) ∧ (∀ p, callsOf p nm .grad cs =
        ((logged s nm (LogType.name .grad)).toList.map fun T => (⟨none, nm, .grad, T, s.mask, E.cpuOffload⟩ : StatCall K)).flatMap
          (List.replicate (ps.count p))) ∧ ∀ pc ∈ cs, pc.1 ∈ ps ∧ pc.2.logType = .grad ∧ pc.2.mask = s.mask := by
  induction ps with
  | nil =>
    intro s t _ _ _ h
    cases h
    refine ⟨Still.refl s, [], Emits.of_eq rfl, fun _ => rfl, fun _ => rfl, fun p => ?_, fun _ h => nomatch h⟩
    simp [callsOf]
  | cons q ps ih =>
    intro s t hw hn hp h
    obtain ⟨u, h1, h2⟩ := SAct.seq_none h
    obtain ⟨st, cs, em, c1, c2, c3, c4⟩ := gradStat_keys E q nm (fun e => hp (e ▸ List.mem_cons_self ..)) _ s u hw hn h1
    obtain ⟨st2, cs2, em2, d1, d2, d3, d4⟩ := ih u t (st.wf hw) (by rw [st.2.2.1]; exact hn) (fun hh => hp (List.mem_cons_of_mem _ hh)) h2
    refine ⟨st.trans st2, _, em.trans em2, fun p => ?_, fun p => ?_, fun p => ?_, fun pc hpc => ?_⟩
    · rw [callsOf_append, c1, d1]; rfl
    · rw [callsOf_append, c2, d2]; rfl
    · rw [callsOf_append, c3, d3, st.logged hw, mask_of_quiet st.1]
      have hmem : nm ∉ Dict.keys s.log → logged s nm (LogType.name .grad) = none := by
        intro hh
        rw [logged_eq]
        unfold logRef
        rw [(Dict.get?_eq_none_iff _ _).2 hh]
        rfl
      by_cases hpq : q = p
      · subst hpq
        rw [List.count_cons_self]
        by_cases hk : nm ∈ Dict.keys s.log
        · rw [if_pos ⟨rfl, hk⟩]
          cases logged s nm (LogType.name .grad) with
          | none => rfl
          | some T => simp [List.replicate_succ]
        · rw [if_neg (fun hh => hk hh.2), hmem hk]
          rfl
      · rw [if_neg (fun hh => hpq hh.1), List.count_cons_of_ne hpq]
        rfl
    · rcases List.mem_append.1 hpc with h | h
      · obtain ⟨e1, e2⟩ := c4 pc h
        exact ⟨e1 ▸ List.mem_cons_self .., e2⟩
      · obtain ⟨e1, e2⟩ := d4 pc h
        rw [mask_of_quiet st.1] at e2
        exact ⟨List.mem_cons_of_mem _ e1, e2⟩

end Logix
