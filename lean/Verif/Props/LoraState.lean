/-
C139: `initialize_from_log` restores the statistics of `state_path`.
-/
import Verif.Spec.LoraState
import Verif.Props.ModelModule
import Verif.Props.Restore

set_option linter.unusedSectionVars false

namespace Logix
open Spec
variable {K : Type}

theorem readFrom_orDir {s : LRun K} {p : Option PyStr} {d : PyStr} (h : ReadFrom s p d) : s.orDir p = d := by
  unfold LRun.orDir
  rcases h with ⟨rfl, h⟩ | ⟨rfl | rfl, rfl⟩
  · cases d with
    | nil => exact absurd rfl h
    | cons a l => rfl
  · rfl
  · rfl

/-- The names of the states and of the saved ones are the same. -/
def SameNames (s t : LState K) : Prop := t.states = s.states ∧ t.toSave = s.toSave

theorem SameNames.trans {s t u : LState K} (h : SameNames s t) (h' : SameNames t u) : SameNames s u := ⟨h'.1.trans h.1, h'.2.trans h.2⟩

theorem setState_names {s s' : LState K} {n k : PyStr} {v : SVal K} (h : s.setState n k v = .ok s') : SameNames s s' := by
  unfold LState.setState at h
  split at h
  · split at h
    · cases h
    · obtain rfl := Except.ok.inj h
      exact ⟨rfl, rfl⟩
  · cases h

theorem watch_names {s t : LRun K} {root : Nat} {tf nf : Option (List PyStr)} (h : s.watch root tf nf = .ok t) : SameNames s.st t.st := by
  unfold LRun.watch at h
  split at h
  · cases h
  split at h
  · cases h
  next st1 h1 =>
  split at h
  · cases h
  next st2 h2 =>
  obtain rfl := Except.ok.inj h
  exact (setState_names h1).trans (setState_names h2)

variable [Field K]

theorem clear_names {s t : LRun K} (h : s.clear = .ok t) : SameNames s.st t.st := by
  unfold LRun.clear at h
  split at h
  · cases h
  next st h1 =>
    obtain rfl := Except.ok.inj h
    have h1 : clearNames s.st s.st.states = .ok st := h1
    have := clearNames_reg h1
    exact ⟨by tauto, by tauto⟩

theorem addLora_names {R : LoraLib K} {s t : LRun K} {r : Bool} {a : LRun.Args} (h : LRun.addLora R r s a = .ok t) : SameNames s.st t.st := by
  unfold LRun.addLora at h
  split at h
  · cases h
  next root _ =>
  split at h
  · cases h
  next s1 h1 =>
  split at h
  · cases h
  next s2 h2 =>
  dsimp only at h
  have e : (if r = true then s2.saveLora root else s2).st = s.st := by
    rw [← addLayers_st h1, ← loadPath_st h2]
    split
    · exact saveLora_st _ _
    · rfl
  generalize (if r = true then s2.saveLora root else s2) = s3 at *
  rw [← e]
  split at h
  · cases h
  next s4 h4 =>
  have key : SameNames s3.st s4.st := by
    split at h4
    · exact clear_names h4
    · obtain rfl := Except.ok.inj h4
      exact ⟨rfl, rfl⟩
  split at h
  · exact key.trans (watch_names h)
  · obtain rfl := Except.ok.inj h
    exact key

theorem running_caches {L : Lib K} {R : LoraLib K} {s : LRun K} (h : Running L R s) : CacheReg s.st := by
  obtain ⟨r, h0, hr⟩ := h
  have named : ∀ {a b : LState K}, CacheReg a → SameNames a b → CacheReg b := fun h h' => h.of_eq h'.1 h'.2
  induction hr with
  | refl => rw [h0]; exact cacheReg_init
  | tail _ h ih =>
    cases h
    · next h =>
      cases h
      · next h => exact ih.step h
      · next h => exact named ih (clear_names h)
      · next h => exact named ih (addLora_names h)
      · next h =>
        unfold LRun.finalize at h
        split at h
        · cases h
        next h1 =>
          obtain rfl := Except.ok.inj h
          exact ih.finalize h1
    · next h => exact named ih (watch_names h)
    · next h => exact named ih (addLora_names h)

/-- What the LoRA part of `initialize_from_log` does to the state and to the directories of statistics. -/
theorem restoreLora_st (L : Lib K) {R : LoraLib K} {r : Bool} {s t : LRun K} {lp : Option PyStr} (hs : Steady s.st) (h : s.restoreLora R r lp = .ok t) :
    Steady t.st ∧ SameNames s.st t.st ∧ (∀ d, (t.dirs d).state = (s.dirs d).state) ∧ t.logDir = s.logDir := by
  unfold LRun.restoreLora at h
  split at h
  · next root sd hm hsd =>
    split at h
    · cases h
    next u hu =>
    obtain ⟨f1, f2, -⟩ := LRun.loadPath_spec h
    rw [loadPath_st h, f1, f2]
    split at hu
    · obtain rfl := Except.ok.inj hu
      exact ⟨hs, ⟨rfl, rfl⟩, fun _ => rfl, rfl⟩
    · refine ⟨(hs.addLora L hu).1, addLora_names hu, ?_, ?_⟩
      · obtain ⟨s1, s2, h1, h2, -, h4, -⟩ := LRun.addLora_steps hm hu
        obtain ⟨E, -, -, -, -, e5, -⟩ := LRun.addLayers_spec h1
        obtain ⟨g1, -⟩ := LRun.loadPath_spec h2
        intro d
        rw [h4]
        split
        · unfold LRun.saveLora
          dsimp only
          split
          · rw [g1, e5]
          · unfold LRun.writeDir
            dsimp only
            split
            · show (s2.dirs d).state = _
              rw [g1, e5]
            · rw [g1, e5]
        · rw [g1, e5]
      · obtain ⟨s1, s2, -, -, -, -, h5, -⟩ := LRun.addLora_steps hm hu
        exact h5
  · obtain rfl := Except.ok.inj h
    exact ⟨hs, ⟨rfl, rfl⟩, fun _ => rfl, rfl⟩

/-- **C139.** A run finalizes. Another run, which has not used its covariances, calls `initialize_from_log`, and the directory for `state_path` has the
statistics that the first run saved. Then, whatever `lora_path` is, and whether LoRA layers are added, loaded, or not, every saved state is the one of
the first run, and all influence computations give the answers (or errors) of the first run. -/
theorem C139_statistics (L : Lib K) (R₁ R₂ R : LoraLib K) (sqrt : K → K) {s₁ s₁' s₂ s₂' : LRun K} (h₁ : Running L R₁ s₁) (hf : s₁.finalize = .ok s₁')
    (h₂ : Running L R₂ s₂) (hnone : ∀ n ∈ [nEkfac, nEigval, nEigvec, nInverse], s₂.st.hasAttr n = false) {r : Bool} {sp lp : Option PyStr} {d : PyStr}
    (hd : ReadFrom s₂ sp d) (hdir : (s₂.dirs d).state = (s₁'.dirs s₁'.logDir).state) (h : s₂.initializeFromLog R r sp lp = .ok s₂') :
    (∀ n ∈ s₁'.st.toSave, Dict.get? s₂'.st.attrs n = Dict.get? s₁'.st.attrs n) ∧ nMean ∈ s₁'.st.toSave ∧ nCov ∈ s₁'.st.toSave ∧
      ∀ calls, Spec.answers L sqrt s₂'.st calls = Spec.answers L sqrt s₁'.st calls := by
  have hst := (running_steady h₁).finalizeRun L hf
  have hc := running_caches h₁
  unfold LRun.finalize at hf
  split at hf
  · cases hf
  next st dir hfin =>
  obtain rfl := Except.ok.inj hf
  have hsave := (finalize_ok hfin).2
  have hdir' : (s₂.dirs d).state = dir := by
    rw [hdir]
    simp only [LRun.writeDir, if_true]
  change Steady st ∧ _ at hst
  show (∀ n ∈ st.toSave, Dict.get? s₂'.st.attrs n = Dict.get? st.attrs n) ∧ nMean ∈ st.toSave ∧ nCov ∈ st.toSave ∧
      ∀ calls, Spec.answers L sqrt s₂'.st calls = Spec.answers L sqrt st calls
  unfold LRun.initializeFromLog at h
  split at h
  · cases h
  next c _ =>
  split at h
  · cases h
  next u hu =>
  have hs₂ := running_steady h₂
  obtain ⟨k1, k2, k3, k4⟩ := restoreLora_st L (s := { s₂ with cfg := c }) hs₂ hu
  have hor : u.orDir sp = d := by
    rw [← readFrom_orDir hd]
    unfold LRun.orDir
    rw [k4]
  rw [hor, k3 d, show ({ s₂ with cfg := c } : LRun K).dirs d = s₂.dirs d from rfl, hdir'] at h
  split at h
  · cases h
  next st' hl =>
  obtain rfl := Except.ok.inj h
  have hn : ∀ n ∈ [nEkfac, nEigval, nEigvec, nInverse], u.st.hasAttr n = false := by
    intro n hn
    have h0 := hnone n hn
    have hsn : n ∉ s₂.st.states := by
      rw [hs₂.1.attrs n]
      unfold LState.hasAttr at h0
      rw [h0]
      decide
    cases hb : u.st.hasAttr n with
    | false => rfl
    | true => exact absurd (show n ∈ s₂.st.states by
        rw [show s₂.st.states = u.st.states from k2.1.symm, k1.1.attrs n]; exact hb) hsn
  obtain ⟨u', e1, e2, -⟩ := C40_restored hfin u.st
  rw [hl] at e1
  obtain rfl := Except.ok.inj e1
  exact ⟨e2, hst.1.1.saved.1, hst.1.1.saved.2.1, fun calls => answers_sim (.load hst.1.1 (hc.finalize hfin) hsave k1.1 hn hl)⟩

end Logix
