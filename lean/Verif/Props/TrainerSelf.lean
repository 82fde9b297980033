/-
C114: self-influence with the trainers.
-/
import Verif.Model.SelfInfluence
import Verif.Props.HuggingFace
import Verif.Props.LightningInfluence
import Verif.Props.SelfBatches

set_option linter.unusedSectionVars false

namespace Logix
open Spec
variable {K : Type} [Field K] {L : Lib K}

/-- Nothing that can be asked for scores has changed. -/
def SelfIF.Same (o o' : SelfIF K) : Prop := o'.selfScores = o.selfScores ∧ o'.infl.saved = o.infl.saved ∧ o'.infl.heap = o.infl.heap

theorem SelfIF.Same.trans {o o' o'' : SelfIF K} (h : o.Same o') (h' : o'.Same o'') : o.Same o'' := ⟨h'.1.trans h.1, h'.2.1.trans h.2.1, h'.2.2.trans h.2.2⟩

theorem selfIF_compute {o o' : SelfIF K} {ids : List PyStr} {log : GLog K} {groups : Option (List PyStr)} {damping : Option K} {r : SelfResult K}
    (h : o.compute L ids log groups damping = .ok (o', r)) : o.Same o' ∧ computeSelf L o.infl.st ids (.dict log) true .auto groups damping = .ok (o'.infl.st, r) := by
  unfold SelfIF.compute at h
  split at h
  · cases h
  · next s r' hc =>
    cases h
    exact ⟨⟨rfl, rfl, rfl⟩, hc⟩

theorem hfSelf_hook {a : HFArgs K} {c c' : HFSelf K} {b : Micro K} (h : c.hook L a b = .ok c') :
    (b.step = false ∧ c' = { c with acc := c.acc ++ [microLog b] }) ∨
    (b.step = true ∧ c'.acc = [] ∧ c.obj.Same c'.obj ∧ ∃ m r, mergeBatches (c.acc ++ [microLog b]) = .ok m ∧
      computeSelf L c.obj.infl.st m.1 (.dict m.2) true .auto a.groups a.damping = .ok (c'.obj.infl.st, r) ∧ c'.computed = c.computed ++ [r]) := by
  unfold HFSelf.hook at h
  cases hb : b.step with
  | false =>
    simp only [hb, Bool.false_eq_true, if_false] at h
    cases h
    exact .inl ⟨rfl, rfl⟩
  | true =>
    simp only [hb, if_true] at h
    split at h
    · cases h
    · next ids log hm =>
      split at h
      · cases h
      · next o r hc =>
        cases h
        obtain ⟨h1, h2⟩ := selfIF_compute hc
        exact .inr ⟨rfl, rfl, h1, (ids, log), r, hm, h2, rfl⟩

theorem hfSelf_windows {a : HFArgs K} : ∀ {data : List (Micro K)} {c c' : HFSelf K}, c.batches L a data = .ok c' →
    c.obj.Same c'.obj ∧ ∃ ws srcs rs, c.acc ++ data.map microLog = ws.flatten ++ c'.acc ∧ List.Forall₂ (fun w b => mergeBatches w = .ok b ∧ w ≠ []) ws srcs ∧
      c'.computed = c.computed ++ rs ∧ SelfRun L true .auto a.groups a.damping c.obj.infl.st srcs rs
  | [], c, c', h => by
    cases h
    exact ⟨⟨rfl, rfl, rfl⟩, [], [], [], by simp, .nil, by simp, .nil _⟩
  | b :: data, c, c', h => by
    rw [HFSelf.batches] at h
    split at h
    · cases h
    · next c₁ h1 =>
      obtain ⟨hsame, ws, srcs, rs, g1, g2, g3, g4⟩ := hfSelf_windows h
      rcases hfSelf_hook h1 with ⟨-, rfl⟩ | ⟨-, e1, e2, m, r, e3, e4, e5⟩
      · exact ⟨hsame, ws, srcs, rs, by simpa using g1, g2, g3, g4⟩
      · rw [e1, List.nil_append] at g1
        refine ⟨e2.trans hsame, (c.acc ++ [microLog b]) :: ws, m :: srcs, r :: rs, ?_, .cons ⟨e3, by simp⟩ g2, by rw [g3, e5]; simp, .cons e4 g4⟩
        rw [List.flatten_cons, List.append_assoc (c.acc ++ [microLog b]), ← g1]
        simp

theorem hfSelf_append {a : HFArgs K} : ∀ {x y : List (Micro K)} {c c' : HFSelf K}, c.batches L a (x ++ y) = .ok c' →
    ∃ c₁, c.batches L a x = .ok c₁ ∧ c₁.batches L a y = .ok c'
  | [], y, c, c', h => ⟨c, rfl, h⟩
  | b :: x, y, c, c', h => by
    rw [List.cons_append, HFSelf.batches] at h
    rw [HFSelf.batches]
    split at h
    · cases h
    · exact hfSelf_append h

theorem hfSelf_step {a : HFArgs K} {b : Micro K} {c c' : HFSelf K} (hb : b.step = true) (h : c.batches L a [b] = .ok c') : c'.acc = [] := by
  rw [HFSelf.batches] at h
  split at h
  · cases h
  · next c₁ h1 =>
    cases h
    rcases hfSelf_hook h1 with ⟨e, -⟩ | ⟨-, e, -⟩
    · rw [hb] at e; cases e
    · exact e

theorem hfSelf_events_same {a : HFArgs K} {data : List (Micro K)} : ∀ {es : List HEvent} {c c' : HFSelf K}, c.events L a data es = .ok c' → c.obj.Same c'.obj
  | [], c, c', h => by cases h; exact ⟨rfl, rfl, rfl⟩
  | .batches n :: es, c, c', h => by
    rw [HFSelf.events] at h
    split at h
    · cases h
    · next c₁ h1 => exact (hfSelf_windows h1).1.trans (hfSelf_events_same h)
  | .call _ :: es, c, c', h => hfSelf_events_same (es := es) h
  | .initializeFromLog :: es, c, c', h => hfSelf_events_same (es := es) h
  | .finalize :: es, c, c', h => hfSelf_events_same (es := es) h

/-- **C114 never holds**, Hugging Face: whatever the data, `self_influence` returns nothing, and `get_self_influence_scores()` and `get_influence_scores()` return after
it what they returned before. -/
theorem C114_hf_never {a : HFArgs K} {initFromLog : Bool} {s : Scheduler} {c c' : HFSelf K} {data : List (Micro K)} {r : Option (SelfResult K)}
    (h : c.selfInfluence L a initFromLog s data = .ok (c', r)) :
    r = none ∧ c'.obj.selfScores = c.obj.selfScores ∧ c'.obj.infl.saved.map c'.obj.infl.heap.deref = c.obj.infl.saved.map c.obj.infl.heap.deref := by
  unfold HFSelf.selfInfluence at h
  split at h
  · cases h
  · next c₁ h1 =>
    cases h
    obtain ⟨e1, e2, e3⟩ := hfSelf_events_same h1
    exact ⟨rfl, e1, by rw [e2, e3]⟩

theorem lSelf_epoch {a : LArgs K} : ∀ {data : List (List PyStr × GLog K)} {t t' : LSelf K}, t.epoch L a data = .ok t' →
    t.obj.Same t'.obj ∧ ∃ rs, t'.computed = t.computed ++ rs ∧ SelfRun L true .auto none a.damping t.obj.infl.st data rs
  | [], t, t', h => by cases h; exact ⟨⟨rfl, rfl, rfl⟩, [], by simp, .nil _⟩
  | b :: data, t, t', h => by
    rw [LSelf.epoch] at h
    split at h
    · cases h
    · next t₁ h1 =>
      obtain ⟨g1, rs, g2, g3⟩ := lSelf_epoch h
      unfold LSelf.batchEnd at h1
      split at h1
      · cases h1
      · next o r hc =>
        cases h1
        obtain ⟨e1, e2⟩ := selfIF_compute hc
        exact ⟨e1.trans g1, r :: rs, by rw [g2]; simp, .cons e2 g3⟩

theorem lSelf_events_same {a : LArgs K} {data : List (List PyStr × GLog K)} : ∀ {es : List LEvent} {t t' : LSelf K}, t.events L a data es = .ok t' → t.obj.Same t'.obj
  | [], t, t', h => by cases h; exact ⟨rfl, rfl, rfl⟩
  | .batches n :: es, t, t', h => by
    rw [LSelf.events] at h
    split at h
    · cases h
    · next t₁ h1 => exact (lSelf_epoch h1).1.trans (lSelf_events_same (t := { t₁ with cur := t₁.cur + 1 }) h)
  | .call _ :: es, t, t', h => lSelf_events_same (es := es) h
  | .finalize :: es, t, t', h => lSelf_events_same (es := es) h

/-- **C114 never holds**, Lightning. -/
theorem C114_lightning_never {a : LArgs K} {lim : TrainerLimits} {fuel : Nat} {t t' : LSelf K} {data : List (List PyStr × GLog K)} {r : Option (SelfResult K)}
    (h : t.selfInfluence L a lim fuel data = .ok (t', r)) :
    r = none ∧ t'.obj.selfScores = t.obj.selfScores ∧ t'.obj.infl.saved.map t'.obj.infl.heap.deref = t.obj.infl.saved.map t.obj.infl.heap.deref := by
  unfold LSelf.selfInfluence at h
  split at h
  · cases h
  · next t₁ h1 =>
    cases h
    obtain ⟨e1, e2, e3⟩ := lSelf_events_same h1
    exact ⟨rfl, e1, by rw [e2, e3]⟩

/-- **C114**, what is computed, Hugging Face: without fitted eigenvalues, unless the Hessian is "ekfac", `self_influence` on data whose last micro-batch is followed by a
step computes the self-influences of the samples of the data, each once: the results, one after the other, are those of one call with all samples. -/
theorem C114_hf_partial {sqrt : K → K} {a : HFArgs K} {c c' : HFSelf K} {s₀ s' : LState K} {ids : List PyStr} {d : GLog K} {r : Option (SelfResult K)}
    {ops : List (StateOp K)} {calls : List (Call K)} {data : List (Micro K)} {last : Micro K} {w : SelfResult K}
    {hessian save : String} (hv : ValidSchedule "none" hessian save) (hne : hessian ≠ "ekfac") {s : Scheduler}
    (hsc : Scheduler.init "none".toList hessian.toList save.toList = .ok s) (initFromLog : Bool)
    (hacc : c.acc = []) (hrun : runOps L .init ops = .ok s₀) (hek : s₀.hasAttr nEkfac = false) (hc : ∀ x ∈ calls, x.damping = a.damping)
    (hcalls : serveAll L sqrt s₀ calls = .ok c.obj.infl.st) (h : c.selfInfluence L a initFromLog s (data ++ [last]) = .ok (c', r)) (hlast : last.step = true)
    (hw : computeSelf L s₀ ids (.dict d) true .auto a.groups a.damping = .ok (s', w)) (hS : Batches ((data ++ [last]).map microLog) ids d)
    (hd : Labelled ids d) (hs : ∀ b ∈ data ++ [last], Labelled b.ids b.log ∧ Dict.keys b.log = Dict.keys d ∧ DictTypes b.log) :
    ∃ rs, c'.computed = c.computed ++ rs ∧ SelfJoined rs a.groups w := by
  unfold HFSelf.selfInfluence at h
  split at h
  · cases h
  · next c₁ h1 =>
    cases h
    rw [C91_influence_partial hv hne hsc initFromLog (mode := .selfInfluence) (by simp)] at h1
    have h2 : c.batches L a (data ++ [last]) = .ok c' := by
      have : c.events L a (data ++ [last]) [.batches 0] = .ok c' := by cases initFromLog <;> exact h1
      rw [HFSelf.events] at this
      split at this
      · cases this
      · next h3 => rw [h3]; exact this
    obtain ⟨c₂, -, h4⟩ := hfSelf_append h2
    have hacc' := hfSelf_step hlast h4
    obtain ⟨-, ws, srcs, rs, g1, g2, g3, g4⟩ := hfSelf_windows h2
    rw [hacc, hacc', List.nil_append, List.append_nil] at g1
    refine ⟨rs, g3, ?_⟩
    have hs' : ∀ b ∈ ws.flatten, Labelled b.1 b.2 ∧ Dict.keys b.2 = Dict.keys d ∧ DictTypes b.2 := by
      rw [← g1]
      intro b hb
      obtain ⟨x, hx, rfl⟩ := List.mem_map.1 hb
      exact hs x hx
    have hwin : ∀ {ws : List (List (List PyStr × GLog K))} {srcs}, List.Forall₂ (fun w b => mergeBatches w = .ok b ∧ w ≠ []) ws srcs →
        (∀ b ∈ ws.flatten, Labelled b.1 b.2 ∧ Dict.keys b.2 = Dict.keys d ∧ DictTypes b.2) →
        List.Forall₂ (fun w b => (Batches w b.1 b.2 ∧ Dict.keys b.2 = Dict.keys d) ∧ Labelled b.1 b.2) ws srcs := by
      intro ws srcs h
      induction h with
      | nil => exact fun _ => .nil
      | cons h _ ih =>
        intro hs
        obtain ⟨m1, m2, m3⟩ := mergeBatches_ok (fun b hb => hs b (by rw [List.flatten_cons]; exact List.mem_append_left _ hb)) h.1 h.2
        exact .cons ⟨⟨m1, m3⟩, m2⟩ (ih fun b hb => hs b (by rw [List.flatten_cons]; exact List.mem_append_right _ hb))
    have hwin := hwin g2 hs'
    rw [g1] at hS
    have hS' := batches_merged (hwin.imp fun _ _ h => h.1) hS.1 hS.2
    refine C113_same_damping_partial hrun hek hc hcalls g4 hw hS' (fun b hb => ?_) hd
    obtain ⟨i, hi, rfl⟩ := List.mem_iff_getElem.1 hb
    have hlen := hwin.length_eq
    have := (List.forall₂_iff_get.1 hwin).2 i (by omega) hi
    exact ⟨this.2, this.1.2⟩

/-- **C114**, what is computed, Lightning: without fitted eigenvalues, when one epoch remains to be run, `self_influence` computes the self-influences of the samples of
the data, each once. -/
theorem C114_lightning_partial {sqrt : K → K} {a : LArgs K} {lim : TrainerLimits} {fuel : Nat} {t t' : LSelf K} {s₀ s' : LState K} {ids : List PyStr} {d : GLog K}
    {r : Option (SelfResult K)} {ops : List (StateOp K)} {calls : List (Call K)} {data : List (List PyStr × GLog K)} {w : SelfResult K}
    (hreach : lim.reached t.cur false = false) (hmin : lim.minEpochs ≤ t.cur + 1) (hf : 2 ≤ fuel)
    (hrun : runOps L .init ops = .ok s₀) (hek : s₀.hasAttr nEkfac = false) (hc : ∀ x ∈ calls, x.damping = a.damping)
    (hcalls : serveAll L sqrt s₀ calls = .ok t.obj.infl.st) (h : t.selfInfluence L a lim fuel data = .ok (t', r))
    (hw : computeSelf L s₀ ids (.dict d) true .auto none a.damping = .ok (s', w)) (hS : Batches data ids d)
    (hd : Labelled ids d) (hs : ∀ b ∈ data, Labelled b.1 b.2 ∧ Dict.keys b.2 = Dict.keys d) :
    ∃ rs, t'.computed = t.computed ++ rs ∧ SelfJoined rs none w := by
  unfold LSelf.selfInfluence at h
  split at h
  · cases h
  · next t₁ h1 =>
    cases h
    rw [influenceLoop_once hreach hmin hf] at h1
    have h2 : t.events L a data [.batches t.cur] = .ok t' := h1
    rw [LSelf.events] at h2
    split at h2
    · cases h2
    · next t₂ h3 =>
      cases h2
      obtain ⟨-, rs, g1, g2⟩ := lSelf_epoch h3
      exact ⟨rs, g1, C113_same_damping_partial hrun hek hc hcalls g2 hw hS hs hd⟩

end Logix
