/-
C21, C22: plugin requests.
-/
import Verif.Spec.Option
import Mathlib.Data.List.Forall2

namespace Logix
open Spec

theorem convertPlugin_ok_iff (r : PluginReq) (p : Plugin) : convertPlugin r = .ok p ↔ Asks r p := by
  cases r with
  | name s =>
    simp only [convertPlugin, Asks, reduceCtorEq, or_false, PluginReq.name.injEq]
    constructor
    · intro h
      split at h
      · cases h
      · next q hq =>
        simp only [Except.ok.injEq] at h
        subst h
        have := Dict.mem_of_get? _ hq
        simp only [pluginMapping, List.mem_cons, Prod.mk.injEq, List.not_mem_nil, or_false] at this
        rcases this with ⟨rfl, rfl⟩ | ⟨rfl, rfl⟩ | ⟨rfl, rfl⟩ | ⟨rfl, rfl⟩ | ⟨rfl, rfl⟩ <;> rfl
    · rintro rfl
      cases p <;> decide
  | cls q => cases q <;> cases p <;> simp [convertPlugin, Asks, pluginOrder]
  | other => simp [convertPlugin, Asks]

theorem convertPlugin_error (r : PluginReq) (h : ¬ ∃ p, Asks r p) : convertPlugin r = .error .assertionError := by
  cases r with
  | name s =>
    simp only [convertPlugin]
    split
    · rfl
    · next q hq =>
      exact absurd ⟨q, (convertPlugin_ok_iff (.name s) q).1 (by simp [convertPlugin, hq])⟩ h
  | cls q => exact absurd ⟨q, Or.inr rfl⟩ h
  | other => rfl

theorem convertPlugins_ok (req : List PluginReq) (h : Known req) :
    ∃ ps, convertPlugins req = (ps.map .cls, .ok ps) ∧ ∀ p, p ∈ ps ↔ ∃ r ∈ req, Asks r p := by
  induction req with
  | nil => exact ⟨[], rfl, by simp⟩
  | cons r rs ih =>
    obtain ⟨p, hp⟩ := h r (by simp)
    obtain ⟨ps, h1, h2⟩ := ih (fun x hx => h x (by simp [hx]))
    have hc := (convertPlugin_ok_iff r p).2 hp
    refine ⟨p :: ps, by simp only [convertPlugins, hc, h1, List.map_cons], ?_⟩
    intro q
    rw [List.mem_cons, h2]
    constructor
    · rintro (rfl | ⟨r', hr', hq⟩)
      · exact ⟨r, by simp, hp⟩
      · exact ⟨r', by simp [hr'], hq⟩
    · rintro ⟨r', hr', hq⟩
      rcases List.mem_cons.1 hr' with rfl | hr'
      · left
        have := (convertPlugin_ok_iff r' q).2 hq
        rw [hc] at this
        exact (Except.ok.inj this).symm
      · exact Or.inr ⟨r', hr', hq⟩

theorem convertPlugins_error (req : List PluginReq) (h : ¬ Known req) :
    (convertPlugins req).2 = .error .assertionError := by
  induction req with
  | nil => exact absurd (fun r hr => absurd hr (by simp)) h
  | cons r rs ih =>
    simp only [convertPlugins]
    by_cases hr : ∃ p, Asks r p
    · obtain ⟨p, hp⟩ := hr
      have hc := (convertPlugin_ok_iff r p).2 hp
      rw [hc]
      have : ¬ Known rs := by
        intro hk
        apply h
        intro x hx
        rcases List.mem_cons.1 hx with rfl | hx
        · exact ⟨p, hp⟩
        · exact hk x hx
      have := ih this
      rcases hcr : convertPlugins rs with ⟨m, e | u⟩
      · rw [hcr] at this; simpa using this
      · rw [hcr] at this; cases this
    · rw [convertPlugin_error r hr]

theorem reorder_normal {req : List PluginReq} {ps : List Plugin} (h : ∀ p, p ∈ ps ↔ ∃ r ∈ req, Asks r p) :
    Normal req (reorderPlugins ps) := by
  constructor
  · intro p
    rw [reorderPlugins, List.mem_filter, decide_eq_true_iff, h]
    constructor
    · exact fun x => x.2
    · exact fun x => ⟨by cases p <;> simp [pluginOrder], x⟩
  · apply List.Pairwise.filter
    simp [pluginOrder, rank]

/-- What `toPlugins` returns on a request of known plugins. -/
theorem toPlugins_ok {req : List PluginReq} (h : Known req) :
    ∃ ps, (toPlugins req false).2 = .ok ps ∧ Normal req ps := by
  obtain ⟨ps, h1, h2⟩ := convertPlugins_ok req h
  refine ⟨reorderPlugins ps, by simp [toPlugins, h1], reorder_normal h2⟩

theorem toPlugins_error {req : List PluginReq} (h : ¬ Known req) (g : Bool) : (toPlugins req g).2 = .error .assertionError := by
  have := convertPlugins_error req h
  simp only [toPlugins]
  rcases hc : convertPlugins req with ⟨m, e | u⟩
  · rw [hc] at this; simpa using this
  · rw [hc] at this; cases this

/-- The normal form of a request is unique. -/
theorem Spec.Normal.unique {req : List PluginReq} {a b : List Plugin} (ha : Normal req a) (hb : Normal req b) : a = b := by
  have hperm : a.Perm b := by
    apply (List.perm_ext_iff_of_nodup ?_ ?_).2
    · intro p; rw [ha.mem, hb.mem]
    · exact ha.sorted.imp (fun h e => by subst e; omega)
    · exact hb.sorted.imp (fun h e => by subst e; omega)
  exact hperm.eq_of_pairwise (fun p q _ _ h1 h2 => by omega) ha.sorted hb.sorted

/-- **C21.** For every earlier configuration and every request: if every requested element names a plugin, `setup` succeeds and the
forward, backward and grad plugins are the normal forms of the three requested lists (a missing key is an empty request). -/
theorem C21_setup_normalises (o : LogOption) (kw : OptionKwargs) (hf : Known (kw.forward.getD []))
    (hb : Known (kw.backward.getD [])) (hg : Known (kw.grad.getD [])) :
    ∃ o', o.setup kw = (o', .ok ()) ∧ Normal (kw.forward.getD []) o'.forward ∧ Normal (kw.backward.getD []) o'.backward ∧
      Normal (kw.grad.getD []) o'.grad := by
  obtain ⟨f, f1, f2⟩ := toPlugins_ok hf
  obtain ⟨b, b1, b2⟩ := toPlugins_ok hb
  obtain ⟨g, g1, g2⟩ := toPlugins_ok hg
  exact ⟨⟨f, b, g⟩, by simp only [LogOption.setup, f1, b1, g1], f2, b2, g2⟩

/-- **C21, rejection.** If any requested element names no plugin, `setup` raises AssertionError. -/
theorem C21_setup_rejects (o : LogOption) (kw : OptionKwargs)
    (h : ¬ (Known (kw.forward.getD []) ∧ Known (kw.backward.getD []) ∧ Known (kw.grad.getD []))) :
    (o.setup kw).2 = .error .assertionError := by
  simp only [LogOption.setup]
  by_cases hf : Known (kw.forward.getD [])
  · obtain ⟨f, f1, _⟩ := toPlugins_ok hf
    rw [f1]
    by_cases hb : Known (kw.backward.getD [])
    · obtain ⟨b, b1, _⟩ := toPlugins_ok hb
      rw [b1]
      have hg : ¬ Known (kw.grad.getD []) := fun hg => h ⟨hf, hb, hg⟩
      simp only [toPlugins_error hg]
    · simp only [toPlugins_error hb]
  · simp only [toPlugins_error hf]

/-- **C21, no residue.** The outcome and the options left behind, also after a rejection, do not depend on what was configured before. -/
theorem C21_setup_forgets (o o' : LogOption) (kw : OptionKwargs) : o.setup kw = o'.setup kw := rfl

/-- **C21, the caller's list.** `setup` rewrites the list object it is given (names become classes), but a list so rewritten is the same
request: it asks for the same plugins, so setting up with it again gives the same result. -/
theorem C21_request_reusable (req : List PluginReq) (h : Known req) (p : Plugin) :
    (∃ r ∈ (toPlugins req false).1, Asks r p) ↔ ∃ r ∈ req, Asks r p := by
  obtain ⟨ps, h1, h2⟩ := convertPlugins_ok req h
  have : (toPlugins req false).1 = ps.map .cls := by simp [toPlugins, h1]
  rw [this, ← h2]
  constructor
  · rintro ⟨r, hr, ha⟩
    obtain ⟨q, hq, rfl⟩ := List.mem_map.1 hr
    rcases ha with ha | ha
    · cases ha
    · cases ha; exact hq
  · exact fun hp => ⟨.cls p, List.mem_map_of_mem hp, Or.inr rfl⟩

/-- **C21, the caller's list, exactly.** In the list object that the caller gave, the elements up to the first one that names no plugin are replaced by the classes
they ask for; that element, if there is one, and everything after it stay as they were. -/
theorem C21_request_rewritten (pre rest : List PluginReq) (ps : List Plugin) (hp : List.Forall₂ Asks pre ps) (hr : ∀ r ∈ rest.head?, ¬ ∃ p, Asks r p) (isGrad : Bool) :
    (toPlugins (pre ++ rest) isGrad).1 = ps.map .cls ++ rest := by
  have key : (convertPlugins (pre ++ rest)).1 = ps.map .cls ++ rest := by
    induction hp with
    | nil =>
      cases rest with
      | nil => rfl
      | cons r rest => simp only [List.nil_append, List.map_nil, convertPlugins, convertPlugin_error r (hr r rfl)]
    | @cons r p pre ps h _ ih =>
      simp only [List.cons_append, convertPlugins, (convertPlugin_ok_iff r p).2 h, List.map_cons]
      rcases hc : convertPlugins (pre ++ rest) with ⟨m, e | u⟩ <;> rw [hc] at ih <;> simp only <;> rw [← ih]
  rw [← key]
  unfold toPlugins
  rcases convertPlugins (pre ++ rest) with ⟨m, e | u⟩
  · rfl
  · dsimp only
    split
    · split <;> rfl
    · rfl

/-- **C22 is false.** For every non-empty request of known grad plugins that does not name `log`, `setup` accepts the request but does
not insert `log`, and the gradient hook raises AssertionError. -/
theorem C22_no_log_refuted (o : LogOption) (kw : OptionKwargs) (hf : Known (kw.forward.getD []))
    (hb : Known (kw.backward.getD [])) (hg : Known (kw.grad.getD [])) (hne : kw.grad.getD [] ≠ [])
    (hlog : ¬ ∃ r ∈ kw.grad.getD [], Asks r .log) :
    ∃ o', o.setup kw = (o', .ok ()) ∧ .log ∉ o'.grad ∧ gradHookCheck o' = .error .assertionError := by
  obtain ⟨o', h1, _, _, h4⟩ := C21_setup_normalises o kw hf hb hg
  have hn : .log ∉ o'.grad := fun hm => hlog ((h4.mem _).1 hm)
  refine ⟨o', h1, hn, ?_⟩
  obtain ⟨r, rs, hr⟩ := List.exists_cons_of_ne_nil hne
  obtain ⟨p, hp⟩ := hg r (by rw [hr]; simp)
  have hpm : p ∈ o'.grad := (h4.mem p).2 ⟨r, by rw [hr]; simp, hp⟩
  unfold gradHookCheck
  split
  · next he => rw [he] at hpm; simp at hpm
  · next q qs he =>
    have : q ≠ .log := by rintro rfl; rw [he] at hn; simp at hn
    rw [if_neg this]

/-- **C22, what holds.** If the grad request names `log`, it is first and the gradient hook logs the gradient; with an empty grad request
the hook does nothing. -/
theorem C22_with_log_partial (o : LogOption) (kw : OptionKwargs) (hf : Known (kw.forward.getD []))
    (hb : Known (kw.backward.getD [])) (hg : Known (kw.grad.getD [])) :
    ∃ o', o.setup kw = (o', .ok ()) ∧
      ((∃ r ∈ kw.grad.getD [], Asks r .log) → o'.grad.head? = some .log ∧ gradHookCheck o' = .ok true) ∧
      (kw.grad.getD [] = [] → gradHookCheck o' = .ok false) := by
  obtain ⟨o', h1, _, _, h4⟩ := C21_setup_normalises o kw hf hb hg
  refine ⟨o', h1, ?_, ?_⟩
  · intro hl
    have hm := (h4.mem _).2 hl
    have hs := h4.sorted
    unfold gradHookCheck
    cases hgr : o'.grad with
    | nil => rw [hgr] at hm; simp at hm
    | cons q qs =>
      rw [hgr] at hm hs
      have : q = .log := by
        rcases List.mem_cons.1 hm with e | hq
        · exact e.symm
        · have := (List.pairwise_cons.1 hs).1 _ hq
          simp [rank] at this
      subst this
      simp
  · intro he
    have : o'.grad = [] := by
      apply List.eq_nil_iff_forall_not_mem.2
      intro p hp
      obtain ⟨r, hr, _⟩ := (h4.mem p).1 hp
      rw [he] at hr; simp at hr
    simp [gradHookCheck, this]

/-- `_to_plugins` itself does insert `log` when told that the list is a gradient list; `setup` never tells it. -/
theorem toPlugins_isGrad {req : List PluginReq} (h : Known req) (hne : req ≠ []) :
    ∃ ps, (toPlugins req true).2 = .ok ps ∧ ps.head? = some .log := by
  obtain ⟨ps, h1, h2⟩ := convertPlugins_ok req h
  have hn := reorder_normal h2
  obtain ⟨r, rs, hr⟩ := List.exists_cons_of_ne_nil hne
  obtain ⟨p, hp⟩ := h r (by rw [hr]; simp)
  have hpm : p ∈ reorderPlugins ps := (hn.mem p).2 ⟨r, by rw [hr]; simp, hp⟩
  simp only [toPlugins, h1, if_true]
  split
  · exact ⟨_, rfl, rfl⟩
  · next hc =>
    have hlen : 0 < (reorderPlugins ps).length := List.length_pos_of_mem hpm
    have hm : Plugin.log ∈ reorderPlugins ps := by
      exact Classical.byContradiction fun hm => hc ⟨hlen, hm⟩
    refine ⟨_, rfl, ?_⟩
    have hs := hn.sorted
    cases hgr : reorderPlugins ps with
    | nil => rw [hgr] at hm; simp at hm
    | cons q qs =>
      rw [hgr] at hm hs
      rcases List.mem_cons.1 hm with e | hq
      · rw [e]; rfl
      · have := (List.pairwise_cons.1 hs).1 _ hq
        simp [rank] at this

namespace Example

/-- A request out of order, with a repetition and a mix of names and classes. -/
def kw : OptionKwargs :=
  { forward := some [.name "covariance".toList, .cls .log, .name "log".toList], grad := some [.cls .covariance, .name "mean".toList] }

theorem known_kw : Known (kw.forward.getD []) ∧ Known (kw.backward.getD []) ∧ Known (kw.grad.getD []) := by
  refine ⟨?_, ?_, ?_⟩ <;> intro r hr <;>
    simp only [kw, Option.getD_some, Option.getD_none, List.mem_cons, List.not_mem_nil, or_false] at hr
  · rcases hr with rfl | rfl | rfl
    · exact ⟨.covariance, Or.inl rfl⟩
    · exact ⟨.log, Or.inr rfl⟩
    · exact ⟨.log, Or.inl rfl⟩
  · rcases hr with rfl | rfl
    · exact ⟨.covariance, Or.inr rfl⟩
    · exact ⟨.mean, Or.inl rfl⟩

example : LogOption.init.setup kw = (⟨[.log, .covariance], [], [.mean, .covariance]⟩, .ok ()) := by decide +kernel

/-- The hypotheses of `C21_request_rewritten` are met: the second of three names is misspelled. -/
example : (toPlugins [.name "mean".toList, .name "logs".toList, .name "log".toList] false).1 = [.cls .mean, .name "logs".toList, .name "log".toList] :=
  C21_request_rewritten [.name "mean".toList] [.name "logs".toList, .name "log".toList] [.mean] (.cons (.inl rfl) .nil) (by
    rintro r hr ⟨p, hp⟩
    obtain rfl := Option.some.inj hr
    rcases hp with hp | hp
    · cases p <;> exact absurd hp (by decide)
    · cases hp) false

/-- The hypotheses of C21 and C22 hold for this request. -/
example : ∃ o', LogOption.init.setup kw = (o', .ok ()) ∧ .log ∉ o'.grad ∧ gradHookCheck o' = .error .assertionError :=
  C22_no_log_refuted _ kw known_kw.1 known_kw.2.1 known_kw.2.2 (by simp [kw]) (by
    rintro ⟨r, hr, ha⟩
    simp only [kw, Option.getD_some, List.mem_cons, List.not_mem_nil, or_false] at hr
    rcases hr with rfl | rfl <;> rcases ha with ha | ha <;> revert ha <;> decide)

/-- A request that is rejected. -/
example : ¬ Known [.name "hessian".toList] := by
  intro h
  obtain ⟨p, hp⟩ := h _ (List.mem_cons_self ..)
  rcases hp with hp | hp
  · cases p <;> revert hp <;> decide
  · cases hp

end Example

end Logix
