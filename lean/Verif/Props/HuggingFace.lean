/-
C90 and C91: the Hugging Face integration.
-/
import Verif.Lemmas.HuggingFace
import Verif.Props.Lightning

set_option linter.unusedSectionVars false

namespace Logix
open Spec
variable {K : Type}

/-- **C90.** Micro-batches are processed in mode "influence", some of them followed by an optimizer step and the others not (gradient accumulation). `c.acc` are
micro-batches that an earlier call has left unscored. Up to the last step, everything is scored: the saved scores are those of one call with all these samples and
all targets of the loader. The micro-batches after the last step are not scored; they are kept. -/
theorem C90_accumulation [Field K] {L : Lib K} {sqrt : K → K} {a : HFArgs K} {c c' : HFCallback K} {s₀ s' : LState K} {srcIds tgtIds : List PyStr} {d e : GLog K}
    {ops : List (StateOp K)} {calls : List (Call K)} {batches : List (List PyStr × GLog K)} {data rest : List (Micro K)} {last : Micro K} {w : IFResult K}
    (hh : History L sqrt c.infl []) (hrun : runOps L .init ops = .ok s₀) (hek : s₀.hasAttr nEkfac = false) (hc : ∀ x ∈ calls, x.damping = a.damping)
    (hcalls : serveAll L sqrt s₀ calls = .ok c.infl.st)
    (h : c.influenceBatches L sqrt a (batches.map fun b => (b.1, .dict b.2)) (data ++ [last] ++ rest) = .ok c')
    (hlast : last.step = true) (hrest : ∀ b ∈ rest, b.step = false)
    (hw : computeInfluence L sqrt s₀ srcIds (.dict d) tgtIds (.dict e) a.mode true .auto a.groups a.damping = .ok (s', w))
    (hbne : batches ≠ []) (hS : Batches (c.acc ++ (data ++ [last]).map microLog) srcIds d) (hB : Batches batches tgtIds e)
    (hd : Labelled srcIds d) (he : Labelled tgtIds e) (hs : ∀ b ∈ c.acc ++ (data ++ [last]).map microLog, Labelled b.1 b.2 ∧ Dict.keys b.2 = Dict.keys d ∧ DictTypes b.2)
    (hb : ∀ b ∈ batches, Labelled b.1 b.2 ∧ Dict.keys b.2 = Dict.keys e) (hk : a.mode = .dot ∨ Dict.keys d = Dict.keys e) :
    SavedAre c'.infl a.groups w ∧ c'.acc = rest.map microLog := by
  obtain ⟨c₂, h2, h3⟩ := influenceBatches_append h
  rw [influenceBatches_substeps hrest] at h3
  cases h3
  obtain ⟨c₁, h4, h5⟩ := influenceBatches_append h2
  have hacc := influenceBatches_step hlast h5
  obtain ⟨ws, srcs, g1, g2, g3⟩ := influenceBatches_windows h2
  rw [hacc, List.append_nil] at g1
  refine ⟨?_, by simp [hacc]⟩
  rw [g1] at hS hs
  have hwin : List.Forall₂ (fun w b => (Batches w b.1 b.2 ∧ Dict.keys b.2 = Dict.keys d) ∧ Labelled b.1 b.2) ws srcs := by
    have : ∀ {ws : List (List (List PyStr × GLog K))} {srcs}, List.Forall₂ (fun w b => mergeBatches w = .ok b ∧ w ≠ []) ws srcs →
        (∀ b ∈ ws.flatten, Labelled b.1 b.2 ∧ Dict.keys b.2 = Dict.keys d ∧ DictTypes b.2) →
        List.Forall₂ (fun w b => (Batches w b.1 b.2 ∧ Dict.keys b.2 = Dict.keys d) ∧ Labelled b.1 b.2) ws srcs := by
      intro ws srcs h
      induction h with
      | nil => exact fun _ => .nil
      | cons h _ ih =>
        intro hs
        obtain ⟨m1, m2, m3⟩ := mergeBatches_ok (fun b hb => hs b (by rw [List.flatten_cons]; exact List.mem_append_left _ hb)) h.1 h.2
        exact .cons ⟨⟨m1, m3⟩, m2⟩ (ih fun b hb => hs b (by rw [List.flatten_cons]; exact List.mem_append_right _ hb))
    exact this g2 hs
  have hS' := batches_merged (hwin.imp fun _ _ h => h.1) hS.1 hS.2
  have hall : ∀ b ∈ srcs, Labelled b.1 b.2 ∧ Dict.keys b.2 = Dict.keys d := by
    intro b hb
    obtain ⟨i, hi, rfl⟩ := List.mem_iff_getElem.1 hb
    have hlen := hwin.length_eq
    have := (List.forall₂_iff_get.1 hwin).2 i (by omega) hi
    exact ⟨this.2, this.1.2⟩
  have hsne : srcs ≠ [] := by
    rintro rfl
    cases hwin
    simp at g1
  rcases hk with hk | hk
  · rw [hk] at g3 hw
    exact C89_dot hh hrun hek hc hcalls g3 hw hsne hbne hS' hB hd he (fun b h => (hall b h).1) (fun b h => (hb b h).1) (fun b h => (hall b h).2) fun b h => (hb b h).2
  · exact C89_modes hh hrun hek hc hcalls g3 hw hsne hbne hS' hB hd he (fun b h => (hall b h).1) (fun b h => (hb b h).1) hk (fun b h => (hall b h).2) fun b h => (hb b h).2

/-! ### C91 -/

theorem hfEpochs_log : ∀ (n e : Nat) (s : Scheduler), s.pos + n ≤ s.schedule.length → ∃ s', hfEpochs .log n e s =
    ((List.range n).flatMap fun k => (epochCalls s k).map .call ++ [.batches (e + k), .finalize], s', none) ∧ s'.schedule = s.schedule ∧ s'.pos = s.pos + n
  | 0, e, s, _ => ⟨s, rfl, rfl, rfl⟩
  | n + 1, e, s, h => by
    obtain ⟨kw, v, _, hv, hnext⟩ := next_ok (s := s) (by omega)
    obtain ⟨s', h1, h2, h3⟩ := hfEpochs_log n (e + 1) s.next.1 (by rw [hnext]; simp only; omega)
    refine ⟨s', ?_, by rw [h2, hnext], by rw [h3, hnext]; simp only; omega⟩
    have hstep : hfEpochs .log (n + 1) e s =
        (s.next.2.1.map .call ++ [.batches e, .finalize] ++ (hfEpochs .log n (e + 1) s.next.1).1, (hfEpochs .log n (e + 1) s.next.1).2) := by
      rw [hfEpochs, if_pos rfl]
      rcases hx : s.next with ⟨s', calls, e | u⟩
      · rw [hx] at hv; cases hv
      · simp
    rw [hstep, h1, List.range_succ_eq_map, List.flatMap_cons, List.flatMap_map]
    have h0 : epochCalls s 0 = s.next.2.1 := by simp [epochCalls, Scheduler.nexts]
    have hk : ∀ k, epochCalls s (k + 1) = epochCalls s.next.1 k := by
      intro k; simp [epochCalls, Scheduler.nexts]
    simp only [h0, hk, Nat.add_zero, Nat.succ_eq_add_one]
    congr 3
    funext k
    rw [Nat.add_assoc, Nat.add_comm 1 k]

theorem hfEpochs_other {mode : HFMode} (hm : mode ≠ .log) : ∀ (n e : Nat) (s : Scheduler), hfEpochs mode n e s = ((List.range n).map fun k => .batches (e + k), s, none)
  | 0, e, s => rfl
  | n + 1, e, s => by
    rw [hfEpochs, if_neg hm, hfEpochs_other hm n (e + 1) s, List.range_succ_eq_map, List.map_cons, List.map_map]
    simp only [List.singleton_append, Nat.add_zero]
    congr 2
    apply List.map_congr_left
    intro k _
    simp only [Function.comp_apply, Nat.succ_eq_add_one]
    rw [Nat.add_assoc, Nat.add_comm 1 k]

theorem passes_append (x y : List HEvent) : passes (x ++ y) = passes x ++ passes y := by
  induction x with
  | nil => rfl
  | cons e x ih => cases e <;> simp [passes, ih]

theorem passes_begin (i : Bool) (mode : HFMode) : passes (hfTrainBegin i mode) = [] := by
  cases i <;> cases mode <;> rfl

theorem passes_batches (l : List Nat) : passes (l.map fun k => HEvent.batches (0 + k)) = l := by
  induction l with
  | nil => rfl
  | cons x l ih => simpa [passes] using ih

/-- **C91**, first part: the first `extract_log` runs exactly the scheduled epochs. Each starts by one step of the scheduler and ends by `finalize`; nothing is raised. -/
theorem C91_extract_log_partial {hessian save : String} (hv : ValidSchedule "none" hessian save) {s : Scheduler}
    (hs : Scheduler.init "none".toList hessian.toList save.toList = .ok s) (initFromLog : Bool) :
    ∃ s', hfTrain initFromLog .log s = ((if initFromLog then [.initializeFromLog] else []) ++
      (List.range (numEpochs "none" hessian)).flatMap fun k => (epochCalls s k).map .call ++ [.batches k, .finalize], s', none) := by
  obtain ⟨sch, h1, h2⟩ := scheduler_init_ok hv
  rw [h1] at hs
  cases hs
  obtain ⟨s', h3, -⟩ := hfEpochs_log sch.length 0 ⟨"none".toList, hessian.toList, save.toList, -1, sch, 0⟩ (by simp)
  refine ⟨s', ?_⟩
  unfold hfTrain Scheduler.len
  rw [h3, h2]
  simp only [hfTrainBegin, if_true, List.append_nil, Nat.zero_add]

/-- A second `extract_log` processes no batch: the scheduler is exhausted and StopIteration is raised. -/
theorem C91_again {hessian save : String} (hv : ValidSchedule "none" hessian save) {s : Scheduler}
    (hs : Scheduler.init "none".toList hessian.toList save.toList = .ok s) (i j : Bool) :
    passes (hfTrain j .log (hfTrain i .log s).2.1).1 = [] ∧ (hfTrain j .log (hfTrain i .log s).2.1).2.2 = some .stopIteration := by
  obtain ⟨sch, h1, h2⟩ := scheduler_init_ok hv
  rw [h1] at hs
  cases hs
  obtain ⟨s', h3, h4, h5⟩ := hfEpochs_log sch.length 0 ⟨"none".toList, hessian.toList, save.toList, -1, sch, 0⟩ (by simp)
  have hpos : ∃ n, s'.schedule.length = n + 1 := by
    refine ⟨s'.schedule.length - 1, ?_⟩
    have : 0 < numEpochs "none" hessian := by unfold numEpochs; omega
    rw [h4]
    simp only
    omega
  obtain ⟨n, hn⟩ := hpos
  have hnone : s'.schedule[s'.pos]? = none := by
    rw [List.getElem?_eq_none_iff, h5, h4]
    simp
  have hnext : s'.next = (s', [], .error .stopIteration) := by simp [Scheduler.next, hnone]
  have e1 : (hfTrain i .log ⟨"none".toList, hessian.toList, save.toList, -1, sch, 0⟩).2.1 = s' := by
    unfold hfTrain Scheduler.len
    simp only [h3]
  rw [e1]
  unfold hfTrain Scheduler.len
  simp only [hn, hfEpochs, if_true, hnext]
  rw [passes_append, passes_begin]
  exact ⟨rfl, trivial⟩

/-- In the other modes every scheduled epoch is a pass over the data, whatever the scheduler has done before. -/
theorem C91_passes (i : Bool) {mode : HFMode} (hm : mode ≠ .log) (s : Scheduler) :
    passes (hfTrain i mode s).1 = List.range s.len ∧ (hfTrain i mode s).2 = (s, none) := by
  unfold hfTrain
  simp only [hfEpochs_other hm]
  rw [passes_append, passes_begin, passes_batches]
  exact ⟨rfl, trivial⟩

/-- **C91**, second part: `influence` and `self_influence` make one pass over the data, after setting up the logging of gradients and turning saving off, unless the
Hessian is "ekfac". -/
theorem C91_influence_partial {hessian save : String} (hv : ValidSchedule "none" hessian save) (hne : hessian ≠ "ekfac") {s : Scheduler}
    (hs : Scheduler.init "none".toList hessian.toList save.toList = .ok s) (initFromLog : Bool) {mode : HFMode} (hm : mode ≠ .log) :
    hfTrain initFromLog mode s = ((if initFromLog then [.initializeFromLog] else []) ++
      [.call (.setup { grad := some [.name "log".toList] }), .call (.save false), .batches 0], s, none) := by
  obtain ⟨sch, h1, h2⟩ := scheduler_init_ok hv
  rw [h1] at hs
  cases hs
  have h1 : sch.length = 1 := by rw [h2]; simp [numEpochs, hne]
  unfold hfTrain Scheduler.len
  simp only [hfEpochs_other hm, h1]
  unfold hfTrainBegin
  rw [if_neg hm]
  simp

/-- What `influence` does to the saved scores: it processes the data once for every pass. -/
theorem influenceEvents_passes [Field K] {L : Lib K} {sqrt : K → K} {a : HFArgs K} {loader : List (List PyStr × LogArg K)} {data : List (Micro K)} :
    ∀ {es : List HEvent} {c c' : HFCallback K}, c.influenceEvents L sqrt a loader data es = .ok c' →
      c.influenceBatches L sqrt a loader ((passes es).flatMap fun _ => data) = .ok c'
  | [], c, c', h => h
  | .batches n :: es, c, c', h => by
    rw [HFCallback.influenceEvents] at h
    split at h
    · cases h
    · next c₁ h1 =>
      have h2 := influenceEvents_passes h
      rw [passes, List.flatMap_cons]
      have key : ∀ (x y : List (Micro K)) (c c₁ c' : HFCallback K), c.influenceBatches L sqrt a loader x = .ok c₁ → c₁.influenceBatches L sqrt a loader y = .ok c' →
          c.influenceBatches L sqrt a loader (x ++ y) = .ok c' := by
        intro x
        induction x with
        | nil => intro y c c₁ c' h1 h2; cases h1; exact h2
        | cons b x ih =>
          intro y c c₁ c' h1 h2
          rw [HFCallback.influenceBatches] at h1
          rw [List.cons_append, HFCallback.influenceBatches]
          split at h1
          · cases h1
          · exact ih _ _ _ _ h1 h2
      exact key _ _ _ _ _ h1 h2
  | .call _ :: es, c, c', h => influenceEvents_passes (es := es) h
  | .initializeFromLog :: es, c, c', h => influenceEvents_passes (es := es) h
  | .finalize :: es, c, c', h => influenceEvents_passes (es := es) h

/-- **C91**, the scores of one pass: unless the Hessian is "ekfac", `influence` on data whose last micro-batch is followed by a step saves the scores of the samples of
the data, each of them once. -/
theorem C91_scores_partial [Field K] {L : Lib K} {sqrt : K → K} {a : HFArgs K} {c c' : HFCallback K} {s₀ s' : LState K} {srcIds tgtIds : List PyStr} {d e : GLog K}
    {ops : List (StateOp K)} {calls : List (Call K)} {batches : List (List PyStr × GLog K)} {data : List (Micro K)} {last : Micro K} {w : IFResult K}
    {hessian save : String} (hv : ValidSchedule "none" hessian save) (hne : hessian ≠ "ekfac") {s : Scheduler}
    (hsc : Scheduler.init "none".toList hessian.toList save.toList = .ok s) (initFromLog : Bool)
    (hh : History L sqrt c.infl []) (hacc : c.acc = []) (hrun : runOps L .init ops = .ok s₀) (hek : s₀.hasAttr nEkfac = false) (hc : ∀ x ∈ calls, x.damping = a.damping)
    (hcalls : serveAll L sqrt s₀ calls = .ok c.infl.st)
    (h : c.influenceEvents L sqrt a (batches.map fun b => (b.1, .dict b.2)) (data ++ [last]) (hfTrain initFromLog .influence s).1 = .ok c') (hlast : last.step = true)
    (hw : computeInfluence L sqrt s₀ srcIds (.dict d) tgtIds (.dict e) a.mode true .auto a.groups a.damping = .ok (s', w))
    (hbne : batches ≠ []) (hS : Batches ((data ++ [last]).map microLog) srcIds d) (hB : Batches batches tgtIds e)
    (hd : Labelled srcIds d) (he : Labelled tgtIds e) (hs : ∀ b ∈ data ++ [last], Labelled b.ids b.log ∧ Dict.keys b.log = Dict.keys d ∧ DictTypes b.log)
    (hb : ∀ b ∈ batches, Labelled b.1 b.2 ∧ Dict.keys b.2 = Dict.keys e) (hk : a.mode = .dot ∨ Dict.keys d = Dict.keys e) :
    SavedAre c'.infl a.groups w := by
  have hp := influenceEvents_passes h
  rw [C91_influence_partial hv hne hsc initFromLog (mode := .influence) (by simp)] at hp
  have : passes ((if initFromLog then [.initializeFromLog] else []) ++ [.call (.setup { grad := some [.name "log".toList] }), .call (.save false), .batches 0]) = [0] := by
    cases initFromLog <;> rfl
  simp only [this, List.flatMap_cons, List.flatMap_nil] at hp
  exact (C90_accumulation hh hrun hek hc hcalls hp hlast (by simp) hw hbne (by rw [hacc]; exact hS) hB hd he (by
    rw [hacc, List.nil_append]
    intro b hbm
    obtain ⟨x, hx, rfl⟩ := List.mem_map.1 hbm
    exact hs x hx) hb hk).1

/-! ### C92 -/

theorem lossPositions_length (ignore : Int) (row : List Int) : (lossPositions 0 ignore row).length = row.countP fun x => decide (x ≠ ignore) := by
  unfold lossPositions
  rw [← List.countP_eq_length_filter]
  have : row = (List.range row.length).map fun t => row.getD t ignore := by
    apply List.ext_getElem
    · simp
    · intro i h1 h2
      simp [List.getD_eq_getElem?_getD, List.getElem?_eq_getElem h1]
  conv_rhs => rw [this, List.countP_map]
  apply List.countP_congr
  intro t _
  simp

/-- **C92**, for models that take their loss at every labelled position, without gradient accumulation: the gradient that is logged for a sample is the sum of the
gradients of its token losses, whatever the batch. -/
theorem C92_sum_partial [Field K] [CharZero K] (ignore : Int) (labels : List (List Int)) (row : List Int) (g : Nat → K)
    (hpos : ∃ r ∈ labels, ∃ x ∈ r, x ≠ ignore) :
    stepGrad 0 1 ignore labels row g = (((List.range row.length).filter fun t => decide (row.getD t ignore ≠ ignore)).map g).sum := by
  unfold stepGrad
  have hc : (labels.map fun r => (lossPositions 0 ignore r).length).sum = getSumScale labels ignore := by
    unfold getSumScale
    congr 1
    exact List.map_congr_left fun r _ => lossPositions_length ignore r
  have hne : ((getSumScale labels ignore : Nat) : K) ≠ 0 := by
    rw [Nat.cast_ne_zero]
    obtain ⟨r, hr, x, hx, hxi⟩ := hpos
    have h1 : 0 < r.countP fun x => decide (x ≠ ignore) := List.countP_pos_iff.2 ⟨x, hx, by simpa using hxi⟩
    have h2 : r.countP (fun x => decide (x ≠ ignore)) ≤ getSumScale labels ignore := List.le_sum_of_mem (List.mem_map_of_mem hr)
    omega
  rw [hc, div_mul_cancel₀ _ hne, Nat.cast_one, div_one]
  unfold lossPositions
  simp

/-- In general the gradients of a batch are off by a factor that depends on the batch: the number of labels over the number of positions of the loss, and one over the
number of accumulation steps. -/
theorem C92_factor [Field K] (shift accumulation : Nat) (ignore : Int) (labels : List (List Int)) (row : List Int) (g : Nat → K) :
    stepGrad shift accumulation ignore labels row g =
      ((getSumScale labels ignore : Nat) : K) / ((labels.map fun r => (lossPositions shift ignore r).length).sum : Nat) / (accumulation : K) *
        ((lossPositions shift ignore row).map g).sum := by
  unfold stepGrad
  ring

/-- **C92 is false** for causal language models: a sample with two tokens is logged with twice its gradient when it is alone in its batch, and with 3/2 of it beside
a longer sample. And it is false with gradient accumulation for every model. -/
theorem C92_refuted : (∃ (labels labels' : List (List Int)) (row : List Int), row ∈ labels ∧ row ∈ labels' ∧
      stepGrad 1 1 (-100) labels row (fun _ => (1 : Rat)) = 2 ∧ stepGrad 1 1 (-100) labels' row (fun _ => (1 : Rat)) = 3 / 2 ∧
        ((lossPositions 1 (-100) row).map fun _ => (1 : Rat)).sum = 1) ∧
    ∀ shift, shift ≤ 1 → ∃ (labels : List (List Int)) (row : List Int), row ∈ labels ∧
      stepGrad shift 2 (-100) labels row (fun _ => (1 : Rat)) ≠ ((lossPositions shift (-100) row).map fun _ => (1 : Rat)).sum := by
  refine ⟨⟨[[7, 8]], [[7, 8], [7, 8, 9, 10]], [7, 8], by simp, by simp, by decide +kernel, by decide +kernel, by decide +kernel⟩, fun shift hs => ?_⟩
  have : shift = 0 ∨ shift = 1 := by omega
  rcases this with rfl | rfl
  · exact ⟨[[7, 8]], [7, 8], by simp, by decide +kernel⟩
  · exact ⟨[[7, 8, 9]], [7, 8, 9], by simp, by decide +kernel⟩

/-- C92's hypothesis holds for a batch with padding. -/
example : stepGrad 0 1 (-100) [[3, -100], [4, 5]] [3, -100] (fun t => (t : Rat) + 1) = 1 := by
  rw [C92_sum_partial _ _ _ _ ⟨[4, 5], by simp, 4, by simp, by decide⟩]
  decide +kernel

end Logix
