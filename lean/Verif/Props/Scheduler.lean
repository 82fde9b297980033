/-
C58-C61: the epoch scheduler.
-/
import Verif.Model.Scheduler
import Verif.Props.Option

namespace Logix
open Spec

namespace Spec

/-- The documented values of the scheduler's arguments. -/
def ValidSchedule (lora hessian save : String) : Prop :=
  lora ∈ ["none", "random", "pca"] ∧ hessian ∈ ["none", "raw", "kfac", "ekfac"] ∧ save ∈ ["none", "forward", "backward", "grad"]

/-- The documented number of epochs. -/
def numEpochs (lora hessian : String) : Nat :=
  1 + (if lora = "pca" then 1 else 0) + (if hessian = "ekfac" then 1 else 0)

/-- A call that adds LoRA. -/
def isAddLora : SCall → Bool
  | .addLora => true
  | _ => false

/-- A call that turns saving on or off. -/
def isSave : SCall → Bool
  | .save _ => true
  | _ => false

/-- The plugin options in force after making the calls, starting from any options. -/
def optionsAfter (o : LogOption) : List SCall → LogOption
  | [] => o
  | .setup kw :: cs => optionsAfter (o.setup kw).1 cs
  | _ :: cs => optionsAfter o cs

end Spec

theorem validSchedule_cases {lora hessian save : String} (h : ValidSchedule lora hessian save) :
    (lora = "none" ∨ lora = "random" ∨ lora = "pca") ∧ (hessian = "none" ∨ hessian = "raw" ∨ hessian = "kfac" ∨ hessian = "ekfac") ∧
    (save = "none" ∨ save = "forward" ∨ save = "backward" ∨ save = "grad") := by
  simpa [ValidSchedule] using h

/-- Every valid configuration is accepted; the schedule has the documented length. -/
theorem scheduler_init_ok {lora hessian save : String} (h : ValidSchedule lora hessian save) :
    ∃ sch, Scheduler.init lora.toList hessian.toList save.toList = .ok ⟨lora.toList, hessian.toList, save.toList, -1, sch, 0⟩ ∧
      sch.length = numEpochs lora hessian := by
  obtain ⟨h1, h2, h3⟩ := validSchedule_cases h
  rcases h1 with rfl | rfl | rfl <;> rcases h2 with rfl | rfl | rfl | rfl <;> rcases h3 with rfl | rfl | rfl | rfl <;>
    exact ⟨_, rfl, rfl⟩

theorem toList_eq_iff (s : String) (l : List Char) : s.toList = l ↔ s = String.ofList l := by
  constructor
  · rintro rfl; simp
  · rintro rfl; simp

/-- Nothing else is accepted. -/
theorem C58_rejects (lora hessian save : String) (h : ¬ ValidSchedule lora hessian save) :
    ∃ e, Scheduler.init lora.toList hessian.toList save.toList = .error e := by
  unfold Scheduler.init
  split
  · next hl =>
    split
    · next hh =>
      have hs : save ≠ "none" ∧ save ≠ "forward" ∧ save ≠ "backward" ∧ save ≠ "grad" := by
        have hl' : lora ∈ ["none", "random", "pca"] := by
          simp only [List.mem_cons, List.not_mem_nil, or_false] at hl ⊢
          rcases hl with hl | hl | hl <;> rw [toList_eq_iff] at hl <;> subst hl <;> decide
        have hh' : hessian ∈ ["none", "raw", "kfac", "ekfac"] := by
          simp only [List.mem_cons, List.not_mem_nil, or_false] at hh ⊢
          rcases hh with hh | hh | hh | hh <;> rw [toList_eq_iff] at hh <;> subst hh <;> decide
        have : save ∉ ["none", "forward", "backward", "grad"] := fun hs => h ⟨hl', hh', hs⟩
        simpa using this
      have hn : save.toList ≠ sNone := by rw [ne_eq, toList_eq_iff]; exact hs.1
      have hf : save.toList ≠ sForward := by rw [ne_eq, toList_eq_iff]; exact hs.2.1
      have hb : save.toList ≠ sBackward := by rw [ne_eq, toList_eq_iff]; exact hs.2.2.1
      have hg : save.toList ≠ sGrad := by rw [ne_eq, toList_eq_iff]; exact hs.2.2.2
      refine ⟨.keyError, ?_⟩
      simp [configureSchedule, lastStateSave, hn, hf, hb, hg]
    · exact ⟨_, rfl⟩
  · exact ⟨_, rfl⟩

/-- The `k`-th call of `next` on a scheduler that has made `s.pos` steps. -/
theorem nexts_get (n : Nat) : ∀ (s : Scheduler) (k : Nat), s.epoch = (s.pos : Int) - 1 → k < n →
    (s.nexts n)[k]? = some (
      match s.schedule[s.pos + k]? with
      | none => ([], .error .stopIteration)
      | some kw =>
        ((if ((s.pos + k : Nat) : Int) = s.loraEpoch then [.addLora] else []) ++
          (if ((s.pos + k : Nat) : Int) = s.saveEpoch then [.save true] else []) ++ [.setup kw],
          .ok ((s.pos + k : Nat) : Int))) := by
  induction n with
  | zero => intro s k _ hk; omega
  | succ n ih =>
    intro s k he hk
    cases k with
    | zero =>
      simp only [Scheduler.nexts, List.getElem?_cons_zero, Nat.add_zero, Scheduler.next]
      cases hs : s.schedule[s.pos]? with
      | none => rfl
      | some kw =>
        have : s.epoch + 1 = ((s.pos : Nat) : Int) := by omega
        simp only [this]
        rfl
    | succ k =>
      simp only [Scheduler.nexts, List.getElem?_cons_succ]
      cases hs : s.schedule[s.pos]? with
      | none =>
        have hnext : s.next.1 = s := by simp [Scheduler.next, hs]
        rw [hnext, ih s k he (by omega)]
        have h1 : s.schedule[s.pos + k]? = none := by
          rw [List.getElem?_eq_none_iff] at hs ⊢; omega
        have h2 : s.schedule[s.pos + (k + 1)]? = none := by
          rw [List.getElem?_eq_none_iff] at hs ⊢; omega
        rw [h1, h2]
      | some kw =>
        have hnext : s.next.1 = { s with pos := s.pos + 1, epoch := s.epoch + 1 } := by simp [Scheduler.next, hs]
        rw [hnext, ih _ k (by simp only; omega) (by omega)]
        have : s.pos + 1 + k = s.pos + (k + 1) := by omega
        simp only [this]
        rfl

/-- The `k`-th `next` of a fresh scheduler. -/
theorem nexts_init {lora hessian save : String} {s : Scheduler}
    (hs : Scheduler.init lora.toList hessian.toList save.toList = .ok s) (hv : ValidSchedule lora hessian save) (n k : Nat) (hk : k < n) :
    s.len = numEpochs lora hessian ∧ s.lora = lora.toList ∧ s.save = save.toList ∧
    (s.nexts n)[k]? = some (
      match s.schedule[k]? with
      | none => ([], .error .stopIteration)
      | some kw =>
        ((if (k : Int) = s.loraEpoch then [.addLora] else []) ++
          (if (k : Int) = s.saveEpoch then [.save true] else []) ++ [.setup kw], .ok (k : Int))) := by
  obtain ⟨sch, h1, h2⟩ := scheduler_init_ok hv
  rw [h1] at hs
  cases hs
  refine ⟨h2, rfl, rfl, ?_⟩
  have := nexts_get n ⟨lora.toList, hessian.toList, save.toList, -1, sch, 0⟩ k (by simp) hk
  simpa using this

/-- **C58.** Iterating a scheduler yields 0, 1, ..., len-1 and then raises StopIteration for ever, with the documented length; further
calls have no effect on the LogIX object. -/
theorem C58_epochs (lora hessian save : String) (hv : ValidSchedule lora hessian save) :
    ∃ s, Scheduler.init lora.toList hessian.toList save.toList = .ok s ∧ s.len = numEpochs lora hessian ∧
      ∀ n, (s.nexts n).length = n ∧ ∀ k, k < n → ∃ calls out, (s.nexts n)[k]? = some (calls, out) ∧
        (k < numEpochs lora hessian → out = .ok (k : Int)) ∧
        (numEpochs lora hessian ≤ k → out = .error .stopIteration ∧ calls = []) := by
  obtain ⟨sch, h1, h2⟩ := scheduler_init_ok hv
  refine ⟨_, h1, h2, ?_⟩
  intro n
  constructor
  · generalize (⟨lora.toList, hessian.toList, save.toList, -1, sch, 0⟩ : Scheduler) = s
    induction n generalizing s with
    | zero => rfl
    | succ n ih => simp [Scheduler.nexts, ih]
  · intro k hk
    obtain ⟨hl, _, _, hn⟩ := nexts_init h1 hv n k hk
    rw [hn]
    simp only [Scheduler.len] at hl
    split
    · next hs =>
      rw [List.getElem?_eq_none_iff] at hs
      exact ⟨_, _, rfl, fun h => by simp only at hs; omega, fun _ => ⟨rfl, rfl⟩⟩
    · next kw hs =>
      have := (List.getElem?_eq_some_iff.1 hs).1
      exact ⟨_, _, rfl, fun _ => rfl, fun h => by simp only at this; omega⟩

/-- **C59.** In the `k`-th call of `next`: LoRA is added exactly when lora is 'random' and k = 0, or lora is 'pca' and k = 1; when it is,
it is the first thing done, before the epoch's plugins are set up; and in the 'pca' case the epoch before it collected forward and
backward covariances and nothing else. -/
theorem C59_lora (lora hessian save : String) (hv : ValidSchedule lora hessian save) (s : Scheduler)
    (hs : Scheduler.init lora.toList hessian.toList save.toList = .ok s) (n k : Nat) (hk : k < n) :
    ∃ calls out, (s.nexts n)[k]? = some (calls, out) ∧
      (calls.countP isAddLora = if (lora = "random" ∧ k = 0) ∨ (lora = "pca" ∧ k = 1) then 1 else 0) ∧
      (0 < calls.countP isAddLora → calls.head?.map isAddLora = some true) ∧
      (lora = "pca" → k = 0 → ∀ o, optionsAfter o calls = ⟨[.covariance], [.covariance], []⟩) := by
  obtain ⟨hl, hlo, _, hn⟩ := nexts_init hs hv n k hk
  refine ⟨_, _, hn, ?_⟩
  have hcases := validSchedule_cases hv
  have hlen : 1 ≤ s.len ∧ (lora = "pca" → 2 ≤ s.len) := by
    rw [hl, numEpochs]; constructor
    · omega
    · intro h; rw [if_pos h]; omega
  have hep : s.loraEpoch = if lora = "random" then 0 else if lora = "pca" then 1 else -1 := by
    unfold Scheduler.loraEpoch
    rw [hlo]
    rcases hcases.1 with rfl | rfl | rfl <;> rfl
  have hcount : ∀ (p q : Bool) (kw : OptionKwargs),
      (((if p then [SCall.addLora] else []) ++ (if q then [SCall.save true] else []) ++ [SCall.setup kw]).countP isAddLora =
        if p then 1 else 0) ∧ (p = true → ((if p then [SCall.addLora] else []) ++ (if q then [SCall.save true] else []) ++
        [SCall.setup kw]).head?.map isAddLora = some true) := by
    intro p q kw; cases p <;> cases q <;> simp [isAddLora, List.countP_cons]
  simp only [Scheduler.len] at hlen
  cases hsch : s.schedule[k]? with
  | none =>
    rw [List.getElem?_eq_none_iff] at hsch
    simp only
    refine ⟨?_, by simp, fun h h0 => by subst h0; omega⟩
    rw [if_neg]
    · rfl
    · rintro (⟨_, rfl⟩ | ⟨hp, rfl⟩)
      · omega
      · have := hlen.2 hp; omega
  | some kw =>
    simp only
    have hc := hcount (decide ((k : Int) = s.loraEpoch)) (decide ((k : Int) = s.saveEpoch)) kw
    simp only [decide_eq_true_eq] at hc
    have hiff : ((k : Int) = s.loraEpoch) ↔ ((lora = "random" ∧ k = 0) ∨ (lora = "pca" ∧ k = 1)) := by
      rw [hep]
      rcases hcases.1 with rfl | rfl | rfl <;> simp <;> omega
    refine ⟨?_, ?_, ?_⟩
    · rw [hc.1]; simp only [hiff]
    · intro h
      rw [hc.1] at h
      apply hc.2
      refine Classical.byContradiction fun hne => ?_
      rw [if_neg hne] at h
      omega
    · rintro rfl rfl o
      obtain ⟨_, h2, h3⟩ := hcases
      have : kw = covState := by
        rcases h2 with rfl | rfl | rfl | rfl <;> rcases h3 with rfl | rfl | rfl | rfl <;>
          (injection hs with hs; subst hs; exact (Option.some.inj hsch).symm)
      subst this
      rw [if_neg (by rw [hep]; decide)]
      split <;> rfl

/-- **C60.** In the `k`-th call of `next` saving is switched (on) exactly when save is not 'none' and this is the last epoch. -/
theorem C60_save (lora hessian save : String) (hv : ValidSchedule lora hessian save) (s : Scheduler)
    (hs : Scheduler.init lora.toList hessian.toList save.toList = .ok s) (n k : Nat) (hk : k < n) :
    ∃ calls out, (s.nexts n)[k]? = some (calls, out) ∧
      calls.filter isSave = if save ≠ "none" ∧ k + 1 = numEpochs lora hessian then [.save true] else [] := by
  obtain ⟨hl, _, hsv, hn⟩ := nexts_init hs hv n k hk
  refine ⟨_, _, hn, ?_⟩
  have hep : s.saveEpoch = if save = "none" then -1 else (numEpochs lora hessian : Int) - 1 := by
    unfold Scheduler.saveEpoch
    rw [hsv, hl]
    rcases (validSchedule_cases hv).2.2 with rfl | rfl | rfl | rfl <;> rfl
  have hfilter : ∀ (p q : Bool) (kw : OptionKwargs),
      ((if p then [SCall.addLora] else []) ++ (if q then [SCall.save true] else []) ++ [SCall.setup kw]).filter isSave =
        if q then [.save true] else [] := by
    intro p q kw; cases p <;> cases q <;> rfl
  simp only [Scheduler.len] at hl
  cases hsch : s.schedule[k]? with
  | none =>
    rw [List.getElem?_eq_none_iff] at hsch
    simp only
    rw [if_neg]
    · rfl
    · rintro ⟨_, hk'⟩; omega
  | some kw =>
    simp only
    have hc := hfilter (decide ((k : Int) = s.loraEpoch)) (decide ((k : Int) = s.saveEpoch)) kw
    simp only [decide_eq_true_eq] at hc
    rw [hc]
    have hiff : ((k : Int) = s.saveEpoch) ↔ (save ≠ "none" ∧ k + 1 = numEpochs lora hessian) := by
      rw [hep]
      by_cases hne : save = "none"
      · simp [hne]
      · simp [hne]; omega
    simp only [hiff]

/-- **C60, what is collected in the last epoch.** Whatever was configured before, the last epoch logs the kind of data named by `save` (and gradients for
'raw' and 'ekfac', whose statistics need them), collects the statistics of `hessian`, and nothing else. -/
theorem C60_logged (lora hessian save : String) (hv : ValidSchedule lora hessian save) (s : Scheduler)
    (hs : Scheduler.init lora.toList hessian.toList save.toList = .ok s) (n k : Nat) (hk : k < n) (hkl : k + 1 = numEpochs lora hessian) (o : LogOption) :
    ∃ calls, (s.nexts n)[k]? = some (calls, .ok (k : Int)) ∧
      (∀ p, p ∈ (optionsAfter o calls).forward ↔ (p = .log ∧ save = "forward") ∨ (p = .covariance ∧ hessian = "kfac")) ∧
      (∀ p, p ∈ (optionsAfter o calls).backward ↔ (p = .log ∧ save = "backward") ∨ (p = .covariance ∧ hessian = "kfac")) ∧
      (∀ p, p ∈ (optionsAfter o calls).grad ↔ (p = .log ∧ (save = "grad" ∨ hessian = "raw" ∨ hessian = "ekfac")) ∨ (p = .covariance ∧ hessian = "raw") ∨
        (p = .correctedEigval ∧ hessian = "ekfac")) := by
  obtain ⟨hl, _, _, hn⟩ := nexts_init hs hv n k hk
  simp only [Scheduler.len] at hl
  have hcalls : ∀ (p q : Prop) [Decidable p] [Decidable q] (kw : OptionKwargs) (o : LogOption),
      optionsAfter o ((if p then [SCall.addLora] else []) ++ (if q then [SCall.save true] else []) ++ [SCall.setup kw]) = (o.setup kw).1 := by
    intro p q _ _ kw o; by_cases p <;> by_cases q <;> simp [optionsAfter, *]
  obtain ⟨kw, hkw⟩ : ∃ kw, s.schedule[k]? = some kw := ⟨_, List.getElem?_eq_getElem (by omega)⟩
  rw [hkw] at hn
  refine ⟨_, hn, ?_⟩
  simp only [hcalls]
  rw [C21_setup_forgets o LogOption.init]
  obtain ⟨h1, h2, h3⟩ := validSchedule_cases hv
  rcases h1 with rfl | rfl | rfl <;> rcases h2 with rfl | rfl | rfl | rfl <;> rcases h3 with rfl | rfl | rfl | rfl <;>
  · injection hs with hs
    have hk3 : k = 0 ∨ k = 1 ∨ k = 2 := by
      have : k + 1 ≤ 3 := by rw [hkl]; decide
      omega
    rcases hk3 with rfl | rfl | rfl <;> first
      | exact absurd hkl (by decide)
      | (subst hs
         have hkw2 := (Option.some.inj hkw).symm
         subst hkw2
         refine ⟨fun p => ?_, fun p => ?_, fun p => ?_⟩ <;> cases p <;> decide)

/-- **C61.** After the `k`-th call of `next`, whatever was configured before: if any gradient plugin is active then `log` is the first one,
so the gradient hook's check passes; and corrected eigenvalues are only collected if the previous epoch collected forward and backward
covariances. -/
theorem C61_valid_plugins (lora hessian save : String) (hv : ValidSchedule lora hessian save) (s : Scheduler)
    (hs : Scheduler.init lora.toList hessian.toList save.toList = .ok s) (n k : Nat) (hk : k < n) (hkl : k < numEpochs lora hessian)
    (o : LogOption) :
    ∃ calls, (s.nexts n)[k]? = some (calls, .ok (k : Int)) ∧
      ((optionsAfter o calls).grad ≠ [] → (optionsAfter o calls).grad.head? = some .log) ∧
      (∃ b, gradHookCheck (optionsAfter o calls) = .ok b) ∧
      (.correctedEigval ∈ (optionsAfter o calls).grad → ∃ j, k = j + 1 ∧ ∃ calls', (s.nexts n)[j]? = some (calls', .ok (j : Int)) ∧
        ∀ o', .covariance ∈ (optionsAfter o' calls').forward ∧ .covariance ∈ (optionsAfter o' calls').backward) ∧
      .correctedEigval ∉ (optionsAfter o calls).forward ∧ .correctedEigval ∉ (optionsAfter o calls).backward := by
  obtain ⟨hl, _, _, hn⟩ := nexts_init hs hv n k hk
  simp only [Scheduler.len] at hl
  have hcalls : ∀ (p q : Prop) [Decidable p] [Decidable q] (kw : OptionKwargs) (o : LogOption),
      optionsAfter o ((if p then [SCall.addLora] else []) ++ (if q then [SCall.save true] else []) ++ [SCall.setup kw]) = (o.setup kw).1 := by
    intro p q _ _ kw o; by_cases p <;> by_cases q <;> simp [optionsAfter, *]
  obtain ⟨kw, hkw⟩ : ∃ kw, s.schedule[k]? = some kw := ⟨_, List.getElem?_eq_getElem (by omega)⟩
  rw [hkw] at hn
  refine ⟨_, hn, ?_⟩
  simp only [hcalls]
  rw [C21_setup_forgets o LogOption.init]
  have hlast : ∀ j, k = j + 1 → ∃ kw', s.schedule[j]? = some kw' ∧ ∃ calls', (s.nexts n)[j]? = some (calls', .ok (j : Int)) ∧
      ∀ o', optionsAfter o' calls' = (o'.setup kw').1 := by
    intro j hj
    obtain ⟨_, _, _, hnj⟩ := nexts_init hs hv n j (by omega)
    obtain ⟨kw', hkw'⟩ : ∃ kw, s.schedule[j]? = some kw := ⟨_, List.getElem?_eq_getElem (by omega)⟩
    rw [hkw'] at hnj
    exact ⟨kw', hkw', _, hnj, fun o' => hcalls _ _ kw' o'⟩
  obtain ⟨h1, h2, h3⟩ := validSchedule_cases hv
  rcases h1 with rfl | rfl | rfl <;> rcases h2 with rfl | rfl | rfl | rfl <;> rcases h3 with rfl | rfl | rfl | rfl <;>
  · injection hs with hs
    have hk3 : k = 0 ∨ k = 1 ∨ k = 2 := by
      have : k < 3 := Nat.lt_of_lt_of_le hkl (by decide)
      omega
    rcases hk3 with rfl | rfl | rfl <;> first
      | exact absurd hkl (by decide)
      | (subst hs
         have hkw2 := (Option.some.inj hkw).symm
         subst hkw2
         refine ⟨by decide, ⟨_, rfl⟩, ?_, by decide, by decide⟩
         first
           | exact fun hm => absurd hm (by decide)
           | (intro _
              obtain ⟨kw', g1, calls', g2, g3⟩ := hlast _ rfl
              refine ⟨_, rfl, calls', g2, ?_⟩
              intro o'
              have := (Option.some.inj g1).symm
              subst this
              rw [g3, C21_setup_forgets o' LogOption.init]
              constructor <;> decide))

namespace Example

/-- The hypotheses of C58-C61 hold for PCA-initialised LoRA with EKFAC and saved gradients (three epochs). -/
example : ValidSchedule "pca" "ekfac" "grad" ∧ numEpochs "pca" "ekfac" = 3 := by
  constructor
  · simp [ValidSchedule]
  · rfl

example : ¬ ValidSchedule "none" "none" "gradient" := by simp [ValidSchedule]

end Example

end Logix
