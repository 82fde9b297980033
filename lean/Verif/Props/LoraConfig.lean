/-
C101: the configuration that `add_lora` goes by.
-/
import Verif.Props.LoraIO
import Verif.Props.Lora

set_option linter.unusedSectionVars false

namespace Logix
variable {K : Type} [Zero K]
open LRun

variable {L : LoraLib K} {s s' s₁ s₂ : LRun K} {a : LRun.Args} {root : Nat} {r : Bool}

theorem LinAt.weight {P : Nat} {dev : Dev} {h h' : MHeap K} {i inF outF : Nat} (hl : LinAt P dev h i inF outF) (hs : SameModel h h') : WeightShape h' i [outF, inF] := by
  obtain ⟨p, q, _, h1, h2, _, h4⟩ := hl
  obtain ⟨q', h5, h6⟩ := hs.get h2
  refine ⟨q'.val, ?_, h6.trans h4⟩
  unfold MHeap.paramVal MHeap.paramId
  rw [← hs.1, h1]
  show ((Dict.get? [(nWeight, p)] nWeight).bind fun i => h'.params[i]?).map Param.val = _
  rw [show Dict.get? [(nWeight, p)] nWeight = some p from by simp [Dict.get?], Option.bind_some, h5, Option.map_some]

theorem ConvAt.weight {P : Nat} {dev : Dev} {h h' : MHeap K} {i inC outC : Nat} {k st pd : Nat × Nat} (hl : ConvAt P dev h i inC outC k st pd)
    (hs : SameModel h h') : WeightShape h' i [outC, inC, k.1, k.2] := by
  obtain ⟨p, q, _, h1, h2, _, h4⟩ := hl
  obtain ⟨q', h5, h6⟩ := hs.get h2
  refine ⟨q'.val, ?_, h6.trans h4⟩
  unfold MHeap.paramVal MHeap.paramId
  rw [← hs.1, h1]
  show ((Dict.get? [(nWeight, p)] nWeight).bind fun i => h'.params[i]?).map Param.val = _
  rw [show Dict.get? [(nWeight, p)] nWeight = some p from by simp [Dict.get?], Option.bind_some, h5, Option.map_some]

theorem WrapAt.hasRank {P : Nat} {dev : Dev} {R : Nat} {h h' : MHeap K} {w orig b : Nat} {l : Layer} (hw : WrapAt P dev R h w orig b l) (hs : SameModel h h') :
    HasRank h' w R l := by
  cases l with
  | linear i o =>
    obtain ⟨x, y, h1, h2, h3, _⟩ := hw
    rw [hs.1] at h1
    exact ⟨⟨x, ⟨_, h1, by simp⟩, h2.weight hs⟩, ⟨y, ⟨_, h1, by simp⟩, h3.weight hs⟩⟩
  | conv2d i o g gr =>
    obtain ⟨x, y, h1, h2, h3, _⟩ := hw
    rw [hs.1] at h1
    exact ⟨⟨x, ⟨_, h1, by simp⟩, h2.weight hs⟩, ⟨y, ⟨_, h1, by simp⟩, h3.weight hs⟩⟩
  | _ => exact absurd hw id

/-- The layers that `add_lora` makes are those of the configuration in use. -/
theorem addLora_follows (hm : s.model = some root) (hg : GoodModel s.heap root) (h : s.addLora L r a = .ok s') :
    FollowsConfig s s' a root (ConfigUsed s a) := by
  obtain ⟨h1, h2, x, _⟩ := addLora_layers hm h
  obtain ⟨E, e1, e2, e3, e4⟩ := x.made
  have hs : SameModel h1 s'.heap := x.loaded.trans x.final.model
  have hb : ∀ {n : PyStr} {id w : Nat}, Becomes s.heap s'.heap root n id w → Becomes s.heap h1 root n id w := by
    rintro n id w ⟨ks, p, k, b1, b2, b3, b4⟩
    exact ⟨ks, p, k, b1, b2, b3, hs.entry.2 b4⟩
  constructor
  · rintro n id w ⟨p1, p2, p3⟩
    obtain ⟨dev, st, _, rfl, hI⟩ := addLora_inv hg.model hg.container hg.inside e4
    obtain ⟨b, m, psg, _, z2, z3, _⟩ := becomes_wrapped hg.model hI p1 p2 (hb p3)
    rw [e1] at z3
    exact ⟨m, z2, z3.hasRank hs⟩
  · rintro hsh n id w b n' id' w' b' ⟨p1, p2, p3⟩ ⟨q1, q2, q3⟩ hB hB'
    rw [← e3]
    exact C66 hg.model hg.container hg.inside e4 (by rw [e2, hsh]) p1 p2 (hb p3) (hs.entry.2 hB) q1 q2 (hb q3) (hs.entry.2 hB')
  · rintro hsh n id w b n' id' w' b' ⟨p1, p2, p3⟩ ⟨q1, q2, q3⟩ hB hB' hne
    exact C66_unshared hg.model hg.container hg.inside e4 (by rw [e2, hsh]) p1 p2 (hb p3) (hs.entry.2 hB) q1 q2 (hb q3) (hs.entry.2 hB') hne

/-- **C101, for the first `add_lora` of a run.** The layers have the rank, sharing and groups of the configuration given, or of the configuration file if none
is given. -/
theorem C101_first_partial (hm : s.model = some root) (hg : GoodModel s.heap root) (hfirst : s.handler = none) (h : s.addLora L r a = .ok s') :
    FollowsConfig s s' a root (a.loraConfig.getD s.cfg) := by
  have := addLora_follows hm hg h
  unfold ConfigUsed at this
  rw [hfirst] at this
  revert this
  cases a.loraConfig <;> exact id

theorem saveLora_handler (s : LRun K) (root : Nat) : (s.saveLora root).handler = s.handler := by
  unfold LRun.saveLora
  dsimp only
  split <;> rfl

theorem loadPath_handler {p : Option PyStr} (h : s.loadPath root p = .ok s') : s'.handler = s.handler := by
  cases p with
  | none => cases h; rfl
  | some d =>
    unfold LRun.loadPath at h
    dsimp only at h
    split at h
    · cases h
    · split at h
      · cases h
      · cases h; rfl

theorem clear_handler (h : s.clear = .ok s') : s'.handler = s.handler := by
  unfold LRun.clear at h
  split at h
  · cases h
  · cases h; rfl

theorem watch_handler {tf nf : Option (List PyStr)} (h : s.watch root tf nf = .ok s') : s'.handler = s.handler := by
  unfold LRun.watch at h
  split at h
  · cases h
  · split at h
    · cases h
    · split at h
      · cases h
      · cases h; rfl

/-- What `add_lora` keeps for later calls: the configuration in use. -/
theorem addLora_handler (hm : s.model = some root) (h : s.addLora L r a = .ok s') :
    ∃ c, s'.handler = some c ∧ c.rank = (ConfigUsed s a).rank ∧ c.sharing = (ConfigUsed s a).sharing ∧ c.groups = (ConfigUsed s a).groups := by
  unfold LRun.addLora at h
  rw [hm] at h
  dsimp only at h
  split at h
  · cases h
  · next s1 h1 =>
    have hh : ∃ c, s1.handler = some c ∧ c.rank = (ConfigUsed s a).rank ∧ c.sharing = (ConfigUsed s a).sharing ∧ c.groups = (ConfigUsed s a).groups := by
      unfold LRun.addLayers at h1
      dsimp only at h1
      have hc : s.handler.getD (a.loraConfig.getD s.cfg) = ConfigUsed s a := by
        unfold ConfigUsed
        cases s.handler <;> cases a.loraConfig <;> rfl
      rw [hc] at h1
      split at h1
      · cases h1
      · split at h1
        · cases h1
        · split at h1
          · cases h1
          · cases h1
            refine ⟨_, rfl, ?_⟩
            unfold handlerInit
            split <;> exact ⟨rfl, rfl, rfl⟩
    split at h
    · cases h
    · next s2 h2 =>
      rw [← loadPath_handler h2] at hh
      have hh' : ∃ c, (if r = true then s2.saveLora root else s2).handler = some c ∧ c.rank = (ConfigUsed s a).rank ∧
          c.sharing = (ConfigUsed s a).sharing ∧ c.groups = (ConfigUsed s a).groups := by
        cases r
        · exact hh
        · rw [if_pos rfl, saveLora_handler]; exact hh
      revert h hh'
      generalize (if r = true then s2.saveLora root else s2) = s3
      intro h hh'
      split at h
      · cases h
      · next s4 h4 =>
        have h34 : s4.handler = s3.handler := by
          split at h4
          · exact clear_handler h4
          · cases h4; rfl
        rw [← h34] at hh'
        split at h
        · rw [watch_handler h]; exact hh'
        · cases h; exact hh'

/-- **C101, every later call.** Whatever configuration a later `add_lora` is given, the layers it makes have the rank, sharing and groups that the
first call went by. In between there may be calls of `watch`, `clear`, `finalize` and `initialize_from_log` without LoRA weights, and other models
(all that matters is that the handler made by the first call is still there). -/
theorem C101_later {s₁' : LRun K} {a₁ : LRun.Args} {root₁ : Nat} {L₁ : LoraLib K} {r₁ : Bool} (hm₁ : s₁.model = some root₁) (h₁ : s₁.addLora L₁ r₁ a₁ = .ok s₁')
    (hfirst : s₁.handler = none) (hkeep : s.handler = s₁'.handler) (hm : s.model = some root) (hg : GoodModel s.heap root) (h : s.addLora L r a = .ok s') :
    FollowsConfig s s' a root (a₁.loraConfig.getD s₁.cfg) := by
  obtain ⟨c, hc, c1, c2, c3⟩ := addLora_handler hm₁ h₁
  have hu : ConfigUsed s₁ a₁ = a₁.loraConfig.getD s₁.cfg := by
    unfold ConfigUsed
    rw [hfirst]
    cases a₁.loraConfig <;> rfl
  rw [hu] at c1 c2 c3
  have hf := addLora_follows hm hg h
  have : ConfigUsed s a = c := by
    unfold ConfigUsed
    rw [hkeep, hc]
  rw [this] at hf
  exact ⟨by rw [← c1]; exact hf.rank, by rw [← c2, ← c3]; exact hf.share, by rw [← c2]; exact hf.own⟩

/-- The run with another configuration for LoRA. -/
def LRun.setCfg (c : LoraCfg) (s : LRun K) : LRun K := { s with cfg := c }

theorem addLayers_setCfg {c₀ : LoraCfg} (hh : s.handler = some c₀) (c : LoraCfg) :
    s.addLayers L root { a with loraConfig := some c } = (s.addLayers L root { a with loraConfig := none }).map (LRun.setCfg c) := by
  unfold LRun.addLayers
  dsimp only
  rw [hh]
  dsimp only [Option.getD]
  cases s.st.getAttr nCov with
  | error e => rfl
  | ok cov =>
    dsimp only
    cases LoraEnv.ofState c₀.rank c₀.sharing c₀.groups L.rand c₀.init L.svd s.st with
    | error e => rfl
    | ok E =>
      dsimp only
      cases Logix.addLora E s.heap root (orFilter a.typeFilter s.watched.typeFilter) (orFilter a.nameFilter s.watched.nameFilter) with
      | error e => rfl
      | ok h => rfl

theorem loadPath_setCfg (c : LoraCfg) (p : Option PyStr) : (s.setCfg c).loadPath root p = (s.loadPath root p).map (LRun.setCfg c) := by
  cases p with
  | none => rfl
  | some p =>
    unfold LRun.loadPath
    dsimp only
    show (match (s.dirs p).lora with
      | none => .error .fileNotFoundError
      | some sd => match s.heap.loadLora root sd with
        | .error e => .error e
        | .ok h => .ok { s.setCfg c with heap := h } : Py (LRun K)) = _
    cases (s.dirs p).lora with
    | none => rfl
    | some sd =>
      dsimp only
      cases s.heap.loadLora root sd with
      | error e => rfl
      | ok h => rfl

theorem saveLora_setCfg (c : LoraCfg) : (s.setCfg c).saveLora root = (s.saveLora root).setCfg c := by
  unfold LRun.saveLora
  show (if (s.heap.loraDict root).isEmpty then s.setCfg c else _) = _
  dsimp only
  split <;> rfl

theorem clear_setCfg (c : LoraCfg) : (s.setCfg c).clear = s.clear.map (LRun.setCfg c) := by
  unfold LRun.clear
  show (match s.st.clear with
    | .error e => .error e
    | .ok st => .ok { s.setCfg c with st := st, watched := s.watched.clear } : Py (LRun K)) = _
  cases s.st.clear with
  | error e => rfl
  | ok st => rfl

theorem watch_setCfg (c : LoraCfg) (tf nf : Option (List PyStr)) : (s.setCfg c).watch root tf nf = (s.watch root tf nf).map (LRun.setCfg c) := by
  unfold LRun.watch
  show (match Logix.watch s.heap root tf nf s.watched with
    | (_, some e) => .error e
    | ((h, w), none) =>
      match s.st.setState nModelModule nPath (.paths (w.path.map fun n => (n, LogType.name .grad))) with
      | .error e => .error e
      | .ok st =>
        match st.setState nModelModule nPathDim (.dims w.dims) with
        | .error e => .error e
        | .ok st => .ok { s.setCfg c with heap := h, watched := w, st := st, model := some root } : Py (LRun K)) = _
  rcases Logix.watch s.heap root tf nf s.watched with ⟨⟨h, w⟩, _ | e⟩
  · dsimp only
    cases s.st.setState nModelModule nPath (.paths (w.path.map fun n => (n, LogType.name .grad))) with
    | error e => rfl
    | ok st =>
      dsimp only
      cases st.setState nModelModule nPathDim (.dims w.dims) with
      | error e => rfl
      | ok st => rfl
  · rfl

/-- The end of `add_lora`: clearing and watching. -/
def LRun.rest2 (a : LRun.Args) (root : Nat) (s : LRun K) : Py (LRun K) :=
  match (if a.clear || a.watch then s.clear else .ok s) with
  | .error e => .error e
  | .ok s => if a.watch then s.watch root none none else .ok s

/-- What `add_lora` does after adding the layers. -/
def LRun.rest (r : Bool) (a : LRun.Args) (root : Nat) (s : LRun K) : Py (LRun K) :=
  match s.loadPath root a.loraPath with
  | .error e => .error e
  | .ok s => LRun.rest2 a root (if r then s.saveLora root else s)

/-- **C101, what happens to the argument.** From the second call on, `lora_config` has no effect on the model, the handler, the state, what is watched, and
what is on disk, nor on whether the call succeeds; it only becomes the configuration that `finalize` will write. -/
theorem C101_ignored (c₀ : LoraCfg) (hh : s.handler = some c₀) (c : LoraCfg) :
    s.addLora L r { a with loraConfig := some c } = (s.addLora L r { a with loraConfig := none }).map fun t => { t with cfg := c } := by
  unfold LRun.addLora
  cases s.model with
  | none => rfl
  | some root =>
    dsimp only
    rw [addLayers_setCfg hh]
    cases s.addLayers L root { a with loraConfig := none } with
    | error e => rfl
    | ok s1 =>
      change LRun.rest r a root (s1.setCfg c) = (LRun.rest r a root s1).map (LRun.setCfg c)
      unfold LRun.rest
      rw [loadPath_setCfg]
      cases s1.loadPath root a.loraPath with
      | error e => rfl
      | ok s2 =>
        have h3 : (if r then (s2.setCfg c).saveLora root else s2.setCfg c) = (if r then s2.saveLora root else s2).setCfg c := by
          cases r
          · rfl
          · exact saveLora_setCfg c
        change LRun.rest2 a root (if r then (s2.setCfg c).saveLora root else s2.setCfg c) =
          (LRun.rest2 a root (if r then s2.saveLora root else s2)).map (LRun.setCfg c)
        rw [h3]
        generalize (if r then s2.saveLora root else s2) = s3
        unfold LRun.rest2
        have h4 : (if a.clear || a.watch then (s3.setCfg c).clear else .ok (s3.setCfg c)) =
            (if a.clear || a.watch then s3.clear else .ok s3).map (LRun.setCfg c) := by
          cases a.clear || a.watch
          · rfl
          · exact clear_setCfg c
        rw [h4]
        cases (if a.clear || a.watch then s3.clear else .ok s3) with
        | error e => rfl
        | ok s4 =>
          change (if a.watch then (s4.setCfg c).watch root none none else .ok (s4.setCfg c)) =
            (if a.watch then s4.watch root none none else .ok s4).map (LRun.setCfg c)
          cases a.watch
          · rfl
          · exact watch_setCfg c none none

end Logix
