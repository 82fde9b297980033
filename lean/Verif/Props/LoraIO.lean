/-
C100: restoring LoRA weights.
-/
import Verif.Lemmas.LoraIO

set_option linter.unusedSectionVars false

namespace Logix
variable {K : Type} [Zero K]

/-- Modules and values stay; `requires_grad` may change. -/
def SameValues (h h' : MHeap K) : Prop := h.mods = h'.mods ∧ ∀ i : Nat, (h.params[i]?).map Param.val = (h'.params[i]?).map Param.val

theorem SameValues.refl (h : MHeap K) : SameValues h h := ⟨rfl, fun _ => rfl⟩

theorem SameValues.symm {h h' : MHeap K} (a : SameValues h h') : SameValues h' h := ⟨a.1.symm, fun i => (a.2 i).symm⟩

theorem SameValues.trans {h h' h'' : MHeap K} (a : SameValues h h') (b : SameValues h' h'') : SameValues h h'' :=
  ⟨a.1.trans b.1, fun i => (a.2 i).trans (b.2 i)⟩

theorem SameValues.model {h h' : MHeap K} (a : SameValues h h') : SameModel h h' := by
  refine ⟨a.1, ?_⟩
  unfold MHeap.shapes
  apply List.ext_getElem?
  intro i
  rw [List.getElem?_map, List.getElem?_map]
  have := congrArg (Option.map Tensor.shape) (a.2 i)
  simpa only [Option.map_map, Function.comp_def] using this

theorem SameValues.mp {h h' : MHeap K} (a : SameValues h h') {root : Nat} {name : PyStr} {shape : List Nat} {data : List K} (hp : ParamIs h root name shape data) :
    ParamIs h' root name shape data := by
  obtain ⟨ks, id, m, b, i, p, h1, h2, h3, h4, h5, h6, h7⟩ := hp
  have := a.2 i
  rw [h5] at this
  cases h8 : h'.params[i]? with
  | none => rw [h8] at this; cases this
  | some q =>
    rw [h8] at this
    have := Option.some.inj this
    exact ⟨ks, id, m, b, i, q, a.model.reach h1, by rw [← a.1]; exact h2, h3, h4, h8, by rw [← this]; exact h6, by rw [← this]; exact h7⟩

theorem SameValues.sameLora {h h' : MHeap K} (a : SameValues h h') (root : Nat) : SameLora h h' root := fun _ _ _ _ => ⟨a.mp, a.symm.mp⟩

theorem SameLora.trans {h h' h'' : MHeap K} {root : Nat} (a : SameLora h h' root) (b : SameLora h' h'' root) : SameLora h h'' root :=
  fun n hn s d => (a n hn s d).trans (b n hn s d)

theorem SameLora.symm {h h' : MHeap K} {root : Nat} (a : SameLora h h' root) : SameLora h' h root := fun n hn s d => (a n hn s d).symm

theorem watchStep_values (tf nf : Option (List PyStr)) (lora : Bool) (s : MHeap K × WatchSt) (e : PyStr × Nat) : SameValues s.1 (watchStep tf nf lora s e).1 := by
  unfold watchStep
  split
  · exact .refl _
  · next m _ =>
    split
    · exact .refl _
    · split
      · refine ⟨(freeze_mods _ _).symm, fun i => ?_⟩
        rw [freeze_params]
        cases s.1.params[i]? with
        | none => rfl
        | some p =>
          simp only [Option.map_some]
          split <;> rfl
      · exact .refl _

theorem watch_values (h : MHeap K) (root : Nat) (tf nf : Option (List PyStr)) (w : WatchSt) : SameValues h (Logix.watch h root tf nf w).1.1 := by
  have key : ∀ (tf nf : Option (List PyStr)) (lora : Bool) (l : List (PyStr × Nat)) (s : MHeap K × WatchSt), SameValues s.1 (l.foldl (watchStep tf nf lora) s).1 := by
    intro tf nf lora l
    induction l with
    | nil => intro s; exact .refl _
    | cons e l ih => intro s; rw [List.foldl_cons]; exact (watchStep_values tf nf lora s e).trans (ih _)
  have h2 : SameValues h ((h.namedModules root).foldl (watchStep (orFilter tf w.typeFilter) (orFilter nf w.nameFilter) (h.isLora root))
      (h, { w with typeFilter := orFilter tf w.typeFilter, nameFilter := orFilter nf w.nameFilter })).1 := key _ _ _ _ (h, _)
  unfold Logix.watch
  dsimp only
  split
  · exact h2
  · split
    · exact h2
    · exact h2

namespace LRun

theorem watch_spec {s s' : LRun K} {root : Nat} {tf nf : Option (List PyStr)} (h : s.watch root tf nf = .ok s') :
    SameValues s.heap s'.heap ∧ s'.dirs = s.dirs ∧ s'.logDir = s.logDir ∧ s'.model = some root ∧ s'.cfg = s.cfg := by
  unfold LRun.watch at h
  have hv := watch_values s.heap root tf nf s.watched
  revert h hv
  generalize Logix.watch s.heap root tf nf s.watched = r
  obtain ⟨⟨h', w⟩, e⟩ := r
  intro h hv
  cases e with
  | some e => cases h
  | none =>
    dsimp only at h hv
    split at h
    · cases h
    · split at h
      · cases h
      · cases h
        exact ⟨hv, rfl, rfl, rfl, rfl⟩

theorem clear_spec {s s' : LRun K} (h : s.clear = .ok s') : s'.heap = s.heap ∧ s'.dirs = s.dirs ∧ s'.logDir = s.logDir ∧ s'.model = s.model ∧ s'.cfg = s.cfg := by
  unfold LRun.clear at h
  split at h
  · cases h
  · cases h
    exact ⟨rfl, rfl, rfl, rfl, rfl⟩

theorem loadPath_spec {s s' : LRun K} {root : Nat} {p : Option PyStr} (h : s.loadPath root p = .ok s') :
    s'.dirs = s.dirs ∧ s'.logDir = s.logDir ∧ s'.model = s.model ∧ s'.cfg = s.cfg ∧ (p = none → s' = s) ∧
    ∀ d, p = some d → ∃ sd, (s.dirs d).lora = some sd ∧ s.heap.loadLora root sd = .ok s'.heap := by
  unfold LRun.loadPath at h
  cases p with
  | none =>
    cases h
    exact ⟨rfl, rfl, rfl, rfl, fun _ => rfl, fun d hd => by cases hd⟩
  | some d =>
    dsimp only at h
    split at h
    · cases h
    · next sd hsd =>
      split at h
      · cases h
      · next hl =>
        cases h
        refine ⟨rfl, rfl, rfl, rfl, (by intro h; cases h), ?_⟩
        intro d' hd'
        cases hd'
        exact ⟨sd, hsd, hl⟩

theorem addLayers_spec {L : LoraLib K} {s s' : LRun K} {root : Nat} {a : Args} (h : s.addLayers L root a = .ok s') :
    ∃ E : LoraEnv K, E.rank = (ConfigUsed s a).rank ∧ E.sharing = (ConfigUsed s a).sharing ∧ E.groups = (ConfigUsed s a).groups ∧
      Logix.addLora E s.heap root (InEffect a.typeFilter s.watched.typeFilter) (InEffect a.nameFilter s.watched.nameFilter) = .ok s'.heap ∧
      s'.dirs = s.dirs ∧ s'.logDir = s.logDir ∧ s'.model = s.model := by
  unfold LRun.addLayers at h
  dsimp only at h
  have hc : s.handler.getD (a.loraConfig.getD s.cfg) = ConfigUsed s a := by
    unfold ConfigUsed
    cases s.handler <;> cases a.loraConfig <;> rfl
  rw [hc] at h
  split at h
  · cases h
  · split at h
    · cases h
    · next E hE =>
      split at h
      · cases h
      · next h' hl =>
        cases h
        unfold LoraEnv.ofState at hE
        split at hE
        · cases hE
        · cases hE
          rw [orFilter_eq, orFilter_eq] at hl
          exact ⟨_, rfl, rfl, rfl, hl, rfl, rfl, rfl⟩

/-- The steps of `add_lora`. -/
theorem addLora_steps {L : LoraLib K} {r : Bool} {s s' : LRun K} {a : Args} {root : Nat} (hm : s.model = some root) (h : s.addLora L r a = .ok s') :
    ∃ s1 s2, s.addLayers L root a = .ok s1 ∧ s1.loadPath root a.loraPath = .ok s2 ∧ SameValues s2.heap s'.heap ∧
      s'.dirs = (if r then s2.saveLora root else s2).dirs ∧ s'.logDir = s.logDir ∧ s'.model = some root := by
  unfold LRun.addLora at h
  rw [hm] at h
  dsimp only at h
  split at h
  · cases h
  · next s1 h1 =>
    split at h
    · cases h
    · next s2 h2 =>
      refine ⟨s1, s2, h1, h2, ?_⟩
      obtain ⟨E, _, _, _, _, e5, e6, e7⟩ := addLayers_spec h1
      obtain ⟨f1, f2, f3, f4, _⟩ := loadPath_spec h2
      have hsave : ∀ b : Bool, (if b then s2.saveLora root else s2).heap = s2.heap ∧ (if b then s2.saveLora root else s2).logDir = s.logDir ∧
          (if b then s2.saveLora root else s2).model = some root := by
        intro b
        cases b
        · exact ⟨rfl, by rw [if_neg (by simp), f2, e6], by rw [if_neg (by simp), f3, e7, hm]⟩
        · rw [if_pos rfl]
          unfold LRun.saveLora
          dsimp only
          split
          · exact ⟨rfl, by rw [f2, e6], by rw [f3, e7, hm]⟩
          · exact ⟨rfl, by show s2.logDir = _; rw [f2, e6], by show s2.model = _; rw [f3, e7, hm]⟩
      obtain ⟨k1, k2, k3⟩ := hsave r
      revert h
      generalize (if r = true then s2.saveLora root else s2) = s3 at k1 k2 k3 ⊢
      intro h
      have hclear : ∀ s4, (if (a.clear || a.watch) = true then s3.clear else .ok s3) = .ok s4 →
          s4.heap = s2.heap ∧ s4.dirs = s3.dirs ∧ s4.logDir = s.logDir ∧ s4.model = some root := by
        intro s4 h4
        split at h4
        · obtain ⟨c1, c2, c3, c4, _⟩ := clear_spec h4
          exact ⟨by rw [c1, k1], c2, by rw [c3, k2], by rw [c4, k3]⟩
        · cases h4
          exact ⟨k1, rfl, k2, k3⟩
      split at h
      · cases h
      · next s4 h4 =>
        obtain ⟨c1, c2, c3, c4⟩ := hclear s4 h4
        split at h
        · obtain ⟨w1, w2, w3, w4, _⟩ := watch_spec h
          exact ⟨by rw [← c1]; exact w1, by rw [w2, c2], by rw [w3, c3], w4⟩
        · cases h
          exact ⟨by rw [c1]; exact .refl _, c2, c3, c4⟩

end LRun

open LRun

variable {L₁ L₂ : LoraLib K} {s₁ s₁' s₂ s₂' : LRun K} {a₁ a₂ : LRun.Args} {root : Nat} {r : Bool}

theorem loadItems_same {sd : Dict PyStr (Tensor K)} : ∀ (l : List (PyStr × Nat)) (h h' : MHeap K), MHeap.loadItems sd l h = .ok h' → SameModel h h'
  | [], h, h', e => by cases e; exact ⟨rfl, rfl⟩
  | (k, i) :: l, h, h', e => by
    unfold MHeap.loadItems at e
    split at e
    · next t p _ hp =>
      split at e
      · next ht => exact (copyTo_same h i t hp ht).trans (loadItems_same l _ _ e)
      · cases e
    · exact loadItems_same l _ _ e

theorem loadLora_same {h h' : MHeap K} {sd : Dict PyStr (Tensor K)} (e : h.loadLora root sd = .ok h') : SameModel h h' := by
  unfold MHeap.loadLora at e
  split at e
  · exact loadItems_same _ _ _ e
  · cases e

theorem loadPath_same {s s' : LRun K} {p : Option PyStr} (h : s.loadPath root p = .ok s') : SameModel s.heap s'.heap := by
  obtain ⟨_, _, _, _, h5, h6⟩ := loadPath_spec h
  cases p with
  | none => rw [h5 rfl]; exact ⟨rfl, rfl⟩
  | some d =>
    obtain ⟨sd, _, hl⟩ := h6 d rfl
    exact loadLora_same hl

theorem saveLora_file (s : LRun K) (root : Nat) :
    (s.heap.loraDict root).isEmpty = true ∨ ((s.saveLora root).dirs s.logDir).lora = some (s.heap.loraDict root) := by
  unfold LRun.saveLora
  dsimp only
  split
  · next h => exact .inl h
  · refine .inr ?_
    simp only [LRun.writeDir, if_true]

/-- The layers that the two sessions make. -/
structure Layers (s : LRun K) (a : LRun.Args) (root : Nat) (s' : LRun K) (h1 h2 : MHeap K) : Prop where
  made : ∃ E : LoraEnv K, E.rank = (ConfigUsed s a).rank ∧ E.sharing = (ConfigUsed s a).sharing ∧ E.groups = (ConfigUsed s a).groups ∧
      Logix.addLora E s.heap root (InEffect a.typeFilter s.watched.typeFilter) (InEffect a.nameFilter s.watched.nameFilter) = .ok h1
  loaded : SameModel h1 h2
  final : SameValues h2 s'.heap

theorem Layers.same {h1 h2 k1 k2 : MHeap K} (x : Layers s₁ a₁ root s₁' h1 h2) (y : Layers s₂ a₂ root s₂' k1 k2) (hS : SameSetup s₁ s₂ a₁ a₂) (hh : SameModel s₁.heap s₂.heap) :
    SameModel h1 k1 := by
  obtain ⟨E, e1, e2, e3, e4⟩ := x.made
  obtain ⟨F, f1, f2, f3, f4⟩ := y.made
  rw [← hS.types, ← hS.names] at f4
  exact addLora_same (by rw [e1, f1, hS.rank]) (by rw [e2, f2, hS.sharing]) (by rw [e3, f3, hS.groups]) hh e4 f4

/-- What `add_lora` makes, loads, and writes on rank 0. -/
theorem addLora_layers (hm : s₁.model = some root) (h : s₁.addLora L₁ r a₁ = .ok s₁') : ∃ h1 h2, Layers s₁ a₁ root s₁' h1 h2 ∧
      (r = true → (h2.loraDict root).isEmpty = true ∨ (s₁'.dirs s₁'.logDir).lora = some (h2.loraDict root)) ∧
      (∀ d, a₁.loraPath = some d → ∃ sd, (s₁.dirs d).lora = some sd ∧ h1.loadLora root sd = .ok h2) ∧ (∀ d, d ≠ s₁.logDir → s₁'.dirs d = s₁.dirs d) ∧
      s₁'.logDir = s₁.logDir ∧ s₁'.model = some root := by
  obtain ⟨t1, t2, b1, b2, b3, b4, b5, b6⟩ := addLora_steps hm h
  obtain ⟨E, e1, e2, e3, e4, e5, e6, e7⟩ := addLayers_spec b1
  obtain ⟨f1, f2, _, _, _, f6⟩ := loadPath_spec b2
  refine ⟨t1.heap, t2.heap, ⟨⟨E, e1, e2, e3, e4⟩, loadPath_same b2, b3⟩, ?_, ?_, ?_, b5, b6⟩
  · rintro rfl
    rw [if_pos rfl] at b4
    rw [b4, b5, ← e6, ← f2]
    exact saveLora_file t2 root
  · intro d hd
    obtain ⟨sd, g1, g2⟩ := f6 d hd
    exact ⟨sd, by rw [← e5]; exact g1, g2⟩
  · intro d hd
    rw [b4]
    have hd2 : d ≠ t2.logDir := by rw [f2, e6]; exact hd
    split
    · unfold LRun.saveLora
      dsimp only
      split
      · rw [f1, e5]
      · simp only [LRun.writeDir, if_neg hd2]
        rw [f1, e5]
    · rw [f1, e5]

/-- The file that was written is loaded into the same layers. -/
theorem load_back {h1 k1 k2 : MHeap K} (hw : WFModel h1) (hp : WFParams h1) (hs : SameModel k1 h1) {sd : Dict PyStr (Tensor K)}
    (hl : k1.loadLora root sd = .ok k2) (hf : (h1.loraDict root).isEmpty = true ∨ some sd = some (h1.loraDict root)) : SameLora h1 k2 root := by
  rcases hf with hf | hf
  · have hk : SameModel h1 k2 := hs.symm.trans (loadLora_same hl)
    intro name hn shape data
    rw [paramIs_iff hw, paramIs_iff (hk.wf hw), ← hk.stateItems]
    constructor
    · rintro ⟨i, p, hi, _⟩; exact absurd hi (loraDict_nil hw hp hf hn)
    · rintro ⟨i, p, hi, _⟩; exact absurd hi (loraDict_nil hw hp hf hn)
  · cases Option.some.inj hf
    exact (loadLora_sameLora hw hp hs hl).2

theorem Layers.wf {h1 h2 : MHeap K} (x : Layers s₁ a₁ root s₁' h1 h2) (hg : GoodModel s₁.heap root) : WFModel h2 ∧ WFParams h2 := by
  obtain ⟨E, _, _, _, e4⟩ := x.made
  obtain ⟨w1, w2, _⟩ := addLora_wf hg.model hg.params hg.container hg.inside e4
  exact ⟨x.loaded.wf w1, x.loaded.wfParams w2⟩

/-- **C100, with `add_lora(lora_path=…)`.** A first session adds LoRA layers to a model; they are written to its log directory. A second session, in which
the model has the same structure, adds them with the same rank, sharing, groups and selection, and gives a directory with that file as
`lora_path`. Then every LoRA parameter has the value of the first session, whatever the initialisations are. The directory may be the log
directory itself. -/
theorem C100_add_partial (hm₁ : s₁.model = some root) (hm₂ : s₂.model = some root) (hg : GoodModel s₁.heap root) (h₁ : s₁.addLora L₁ true a₁ = .ok s₁')
    (hh : SameModel s₁.heap s₂.heap) (hS : SameSetup s₁ s₂ a₁ a₂) (d : PyStr) (hd : a₂.loraPath = some d)
    (hfile : (s₂.dirs d).lora = (s₁'.dirs s₁'.logDir).lora) (h₂ : s₂.addLora L₂ r a₂ = .ok s₂') : SameLora s₁'.heap s₂'.heap root := by
  obtain ⟨h1, h2, x, x2, _⟩ := addLora_layers hm₁ h₁
  obtain ⟨k1, k2, y, _, y3, _⟩ := addLora_layers hm₂ h₂
  obtain ⟨w1, w2⟩ := x.wf hg
  obtain ⟨sd, hsd, hl⟩ := y3 d hd
  have hs : SameModel k1 h2 := (x.same y hS hh).symm.trans x.loaded
  have : SameLora h2 k2 root := by
    refine load_back w1 w2 hs hl ?_
    rw [← hsd, hfile]
    exact x2 rfl
  exact (x.final.symm.sameLora root).trans (this.trans (y.final.sameLora root))

theorem restoreLora_eq {s : LRun K} {lp : Option PyStr} {sd : Dict PyStr (Tensor K)} (hm : s.model = some root) (hsd : (s.dirs (s.orDir lp)).lora = some sd) :
    s.restoreLora L₂ r lp = match (if s.heap.isLora root then .ok s else s.addLora L₂ r {}) with
      | .error e => .error e
      | .ok s => s.loadPath root (some (s.orDir lp)) := by
  unfold LRun.restoreLora
  split
  · next root' sd' e1 e2 =>
    rw [hm] at e1
    cases Option.some.inj e1
    rfl
  · next hno => exact (hno _ _ hm hsd).elim

/-- What `initialize_from_log` does for a model without LoRA layers, after a successful call. -/
theorem initializeFromLog_steps {sp lp : Option PyStr} (hm : s₂.model = some root) (hn : s₂.heap.isLora root = false)
    (hex : (s₂.dirs (s₂.orDir lp)).lora ≠ none) (h : s₂.initializeFromLog L₂ r sp lp = .ok s₂') :
    ∃ c t t', (s₂.dirs s₂.logDir).config = some c ∧ { s₂ with cfg := c }.addLora L₂ r {} = .ok t ∧ t.loadPath root (some (s₂.orDir lp)) = .ok t' ∧ s₂'.heap = t'.heap := by
  unfold LRun.initializeFromLog at h
  split at h
  · cases h
  · next c hc =>
    split at h
    · cases h
    · next t' ht =>
      split at h
      · cases h
      · cases h
        obtain ⟨sd, hsd⟩ := Option.ne_none_iff_exists'.1 hex
        have e1 : ({ s₂ with cfg := c } : LRun K).model = some root := hm
        have e2 : (({ s₂ with cfg := c } : LRun K).dirs (({ s₂ with cfg := c } : LRun K).orDir lp)).lora = some sd := hsd
        rw [restoreLora_eq e1 e2] at ht
        dsimp only at ht
        simp only [hn, Bool.false_eq_true, if_false] at ht
        split at ht
        · cases ht
        · next t hadd =>
          refine ⟨c, t, t', hc, hadd, ?_, rfl⟩
          obtain ⟨_, _, _, _, _, _, hlog, _⟩ := addLora_layers e1 hadd
          have : t.orDir lp = s₂.orDir lp := by
            unfold LRun.orDir
            rw [hlog]
          rw [this] at ht
          exact ht

/-- **C100, with `initialize_from_log(lora_path=…)`** and a directory that is not the log directory of the second session. -/
theorem C100_other_partial {sp lp : Option PyStr} (hm₁ : s₁.model = some root) (hm₂ : s₂.model = some root) (hg : GoodModel s₁.heap root) (h₁ : s₁.addLora L₁ true a₁ = .ok s₁')
    (hh : SameModel s₁.heap s₂.heap) (hn : s₂.heap.isLora root = false) (c : LoraCfg) (hc : (s₂.dirs s₂.logDir).config = some c)
    (hS : SameSetup s₁ { s₂ with cfg := c } a₁ {}) (hlp : s₂.orDir lp ≠ s₂.logDir)
    (hex : (s₂.dirs (s₂.orDir lp)).lora ≠ none) (hfile : (s₂.dirs (s₂.orDir lp)).lora = (s₁'.dirs s₁'.logDir).lora)
    (h₂ : s₂.initializeFromLog L₂ r sp lp = .ok s₂') : SameLora s₁'.heap s₂'.heap root := by
  obtain ⟨c', t, t', e1, e2, e3, e4⟩ := initializeFromLog_steps hm₂ hn hex h₂
  rw [hc] at e1
  cases Option.some.inj e1
  obtain ⟨h1, h2, x, x2, _⟩ := addLora_layers hm₁ h₁
  obtain ⟨k1, k2, y, _, _, y4, _⟩ := addLora_layers (show ({ s₂ with cfg := c } : LRun K).model = some root from hm₂) e2
  obtain ⟨w1, w2⟩ := x.wf hg
  obtain ⟨_, _, _, _, _, l6⟩ := loadPath_spec e3
  obtain ⟨sd, hsd, hl⟩ := l6 _ rfl
  rw [y4 _ hlp] at hsd
  have hs : SameModel t.heap h2 := y.final.symm.model.trans (y.loaded.symm.trans ((x.same y hS hh).symm.trans x.loaded))
  have : SameLora h2 t'.heap root := by
    refine load_back w1 w2 hs hl ?_
    rw [← hsd]
    show _ ∨ (s₂.dirs (s₂.orDir lp)).lora = _
    rw [hfile]
    exact x2 rfl
  rw [e4]
  exact (x.final.symm.sameLora root).trans this

/-- **C100, for a model that has its LoRA layers.** If the model was given the layers of the first session's model before (say with `add_lora(watch=False)`
in a process that is not rank 0, or because it was saved with them), `initialize_from_log` restores the LoRA parameters. -/
theorem C100_wrapped_partial {sp lp : Option PyStr} (hm₁ : s₁.model = some root) (hm₂ : s₂.model = some root) (hg : GoodModel s₁.heap root) (h₁ : s₁.addLora L₁ true a₁ = .ok s₁')
    (hh : SameModel s₁'.heap s₂.heap) (hn : s₂.heap.isLora root = true)
    (hex : (s₂.dirs (s₂.orDir lp)).lora ≠ none) (hfile : (s₂.dirs (s₂.orDir lp)).lora = (s₁'.dirs s₁'.logDir).lora)
    (h₂ : s₂.initializeFromLog L₂ r sp lp = .ok s₂') : SameLora s₁'.heap s₂'.heap root := by
  obtain ⟨h1, h2, x, x2, _⟩ := addLora_layers hm₁ h₁
  obtain ⟨w1, w2⟩ := x.wf hg
  unfold LRun.initializeFromLog at h₂
  split at h₂
  · cases h₂
  · next c hc =>
    split at h₂
    · cases h₂
    · next t' ht =>
      split at h₂
      · cases h₂
      · cases h₂
        obtain ⟨sd, hsd⟩ := Option.ne_none_iff_exists'.1 hex
        have e1 : ({ s₂ with cfg := c } : LRun K).model = some root := hm₂
        have e2 : (({ s₂ with cfg := c } : LRun K).dirs (({ s₂ with cfg := c } : LRun K).orDir lp)).lora = some sd := hsd
        rw [restoreLora_eq e1 e2] at ht
        simp only [hn, if_true] at ht
        obtain ⟨_, _, _, _, _, l6⟩ := loadPath_spec ht
        obtain ⟨sd', hsd', hl⟩ := l6 _ rfl
        have hs : SameModel s₂.heap h2 := hh.symm.trans x.final.symm.model
        have : SameLora h2 t'.heap root := by
          refine load_back w1 w2 hs hl ?_
          rw [← hsd']
          show _ ∨ (s₂.dirs (s₂.orDir lp)).lora = _
          rw [hfile]
          exact x2 rfl
        exact (x.final.symm.sameLora root).trans this

namespace LRun

theorem withFile_withFile (s : LRun K) (a b : Dict PyStr (Tensor K)) : (s.withFile a).withFile b = s.withFile b := by
  unfold withFile
  dsimp only
  congr 1
  funext d
  split
  · rfl
  · rfl

theorem addLayers_withFile (L : LoraLib K) (s : LRun K) (root : Nat) (a : Args) (sd : Dict PyStr (Tensor K)) :
    (s.withFile sd).addLayers L root a = (s.addLayers L root a).map fun s' => s'.withFile sd := by
  unfold addLayers
  dsimp only [withFile, writeDir]
  cases s.st.getAttr nCov with
  | error e => rfl
  | ok cov =>
    dsimp only
    split
    · rfl
    · split
      · rfl
      · rfl

theorem saveLora_withFile (s : LRun K) (root : Nat) (sd : Dict PyStr (Tensor K)) (hn : (s.heap.loraDict root).isEmpty = false) :
    (s.withFile sd).saveLora root = s.saveLora root := by
  have e : (s.withFile sd).heap = s.heap := rfl
  unfold saveLora
  simp only [e, hn, Bool.false_eq_true, if_false]
  exact withFile_withFile s sd _

end LRun

theorem SameValues.loraDict {h h' : MHeap K} (a : SameValues h h') (root : Nat) : h.loraDict root = h'.loraDict root := by
  unfold MHeap.loraDict MHeap.stateDict
  rw [a.model.stateItems]
  congr 1
  unfold MHeap.stateDictOf
  congr 1
  funext d e
  have := a.2 e.2
  revert this
  cases h.params[e.2]? <;> cases h'.params[e.2]? <;> intro this <;> simp_all

/-- `add_lora` on rank 0 without `lora_path` leaves nothing of the file that was there, if there are LoRA parameters afterwards. -/
theorem addLora_withFile (hm : s₂.model = some root) (ha : a₂.loraPath = none) (h : s₂.addLora L₂ true a₂ = .ok s₂') (sd : Dict PyStr (Tensor K))
    (hn : (s₂'.heap.loraDict root).isEmpty = false) : (s₂.withFile sd).addLora L₂ true a₂ = .ok s₂' := by
  obtain ⟨t1, t2, b1, b2, b3, _⟩ := addLora_steps hm h
  rw [ha] at b2
  cases b2
  rw [← b3.loraDict] at hn
  unfold LRun.addLora at h ⊢
  have hm' : (s₂.withFile sd).model = some root := hm
  rw [hm] at h
  rw [hm']
  dsimp only at h ⊢
  rw [addLayers_withFile, b1]
  rw [b1] at h
  simp only [Except.map, ha, LRun.loadPath, if_true] at h ⊢
  rw [saveLora_withFile _ _ _ hn]
  exact h

/-- **C100, why it fails.** A model without LoRA layers is watched, and there is a file with LoRA weights in the log directory. If `initialize_from_log` succeeds
on rank 0 without another `lora_path`, it would have had exactly the same outcome for any other contents of that file: `add_lora` has replaced it by
freshly initialised weights before it is read. -/
theorem C100_overwrites {sp lp : Option PyStr} (hm : s₂.model = some root) (hn : s₂.heap.isLora root = false) (hlp : s₂.orDir lp = s₂.logDir)
    (sd sd' : Dict PyStr (Tensor K)) (hsd : (s₂.dirs s₂.logDir).lora = some sd) (hne : sd ≠ []) (hname : ∀ e ∈ sd, nLora <:+: e.1)
    (h : s₂.initializeFromLog L₂ true sp lp = .ok s₂') : (s₂.withFile sd').initializeFromLog L₂ true sp lp = .ok s₂' := by
  obtain ⟨c, t, t', e1, e2, e3, e4⟩ := initializeFromLog_steps hm hn (by rw [hlp, hsd]; simp) h
  have hmc : ({ s₂ with cfg := c } : LRun K).model = some root := hm
  -- there are LoRA parameters after add_lora
  have hlora : (t.heap.loraDict root).isEmpty = false := by
    rw [Bool.eq_false_iff]
    intro hempty
    obtain ⟨t1, t2, b1, b2, b3, b4, _⟩ := addLora_steps hmc e2
    cases b2
    obtain ⟨_, _, _, _, _, f5, f6, _⟩ := addLayers_spec b1
    have hdirs : t.dirs = s₂.dirs := by
      rw [b4, if_pos rfl]
      unfold LRun.saveLora
      simp only [b3.loraDict root, hempty, if_true]
      exact f5
    obtain ⟨_, _, _, _, _, l6⟩ := loadPath_spec e3
    obtain ⟨sd2, g1, g2⟩ := l6 _ rfl
    rw [hdirs, hlp, hsd] at g1
    cases Option.some.inj g1
    unfold MHeap.loadLora at g2
    split at g2
    · next hall =>
      obtain ⟨e, rest, rfl⟩ := List.exists_cons_of_ne_nil hne
      have := List.all_eq_true.1 hall e List.mem_cons_self
      have hk := (isSub_iff _ _).2 (hname e List.mem_cons_self)
      have hf := get?_filter_key (fun k => isSub nLora k) (t.heap.stateDict root) e.1
      rw [if_pos hk] at hf
      rw [← hf] at this
      have hnil : (t.heap.stateDict root).filter (fun e => isSub nLora e.1) = [] := List.isEmpty_iff.1 hempty
      rw [hnil] at this
      cases this
    · cases g2
  have hadd := addLora_withFile hmc rfl e2 sd' hlora
  unfold LRun.initializeFromLog at h ⊢
  have ec : ((s₂.withFile sd').dirs (s₂.withFile sd').logDir).config = some c := by
    unfold LRun.withFile
    simpa using e1
  rw [e1] at h
  rw [ec]
  dsimp only at h ⊢
  have r1 : ({ s₂ with cfg := c } : LRun K).restoreLora L₂ true lp = t.loadPath root (some (t.orDir lp)) := by
    rw [restoreLora_eq (sd := sd) hmc (by show (s₂.dirs (s₂.orDir lp)).lora = _; rw [hlp]; exact hsd)]
    simp only [hn, Bool.false_eq_true, if_false, e2]
  have r2 : ({ s₂.withFile sd' with cfg := c } : LRun K).restoreLora L₂ true lp = t.loadPath root (some (t.orDir lp)) := by
    have hmc' : ({ s₂.withFile sd' with cfg := c } : LRun K).model = some root := hm
    have hn' : ({ s₂.withFile sd' with cfg := c } : LRun K).heap.isLora root = false := hn
    have hadd' : ({ s₂.withFile sd' with cfg := c } : LRun K).addLora L₂ true {} = .ok t := hadd
    rw [restoreLora_eq (sd := sd') hmc' ?_]
    · simp only [hn', Bool.false_eq_true, if_false, hadd']
    · show ((s₂.withFile sd').dirs (s₂.orDir lp)).lora = _
      rw [hlp]
      simp [LRun.withFile]
  rw [r1] at h
  rw [r2]
  exact h

end Logix
