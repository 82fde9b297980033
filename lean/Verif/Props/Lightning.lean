/-
C62: the Lightning integration.
-/
import Verif.Model.Lightning
import Verif.Props.Scheduler

namespace Logix
open Spec

namespace Spec

/-- What the `k`-th call of `next` on a scheduler does to the LogIX object. -/
def epochCalls (s : Scheduler) (k : Nat) : List SCall := ((s.nexts (k + 1))[k]?.map Prod.fst).getD []

/-- A run of `n` epochs: each starts with the scheduler's calls, processes its batches, and finalizes. -/
def epochsRun (s : Scheduler) (n : Nat) : List LEvent :=
  (List.range n).flatMap fun k => (epochCalls s k).map .call ++ [.batches k, .finalize]

/-- The number of epochs allowed by the trainer and the schedule together. -/
def allowed (t : TrainerLimits) (len : Nat) : Nat :=
  match t.maxEpochs with
  | none => len
  | some m => min m len

end Spec

theorem nexts_succ_get (s : Scheduler) (k n : Nat) (hk : k < n) : (s.nexts n)[k]? = (s.nexts (k + 1))[k]? := by
  induction n generalizing s k with
  | zero => omega
  | succ n ih =>
    cases k with
    | zero => simp [Scheduler.nexts]
    | succ k =>
      simp only [Scheduler.nexts, List.getElem?_cons_succ]
      rw [ih _ k (by omega)]
      rfl

theorem next_ok {s : Scheduler} (h : s.pos < s.schedule.length) :
    ∃ kw v, s.schedule[s.pos]? = some kw ∧ s.next.2.2 = .ok v ∧
      s.next.1 = { s with pos := s.pos + 1, epoch := s.epoch + 1 } := by
  have : s.schedule[s.pos]? = some (s.schedule[s.pos]) := List.getElem?_eq_getElem h
  exact ⟨_, s.epoch + 1, this, by simp [Scheduler.next, this], by simp [Scheduler.next, this]⟩

theorem extractLogLoop_run (t : TrainerLimits) (n : Nat) :
    ∀ (fuel : Nat) (s : Scheduler) (stop : Bool), s.schedule.length - s.pos = n → s.pos ≤ s.schedule.length →
      t.minEpochs ≤ s.schedule.length → (stop = true ↔ s.pos = s.schedule.length ∧ 0 < s.pos) → 0 < s.schedule.length →
      n < fuel →
      extractLogLoop t fuel s s.pos stop = ((List.range (allowed t s.schedule.length - s.pos)).flatMap fun k =>
        (epochCalls s k).map .call ++ [.batches (s.pos + k), .finalize], .stopped) := by
  induction n with
  | zero =>
    intro fuel s stop hn hp hm hstop hpos hf
    obtain ⟨fuel, rfl⟩ : ∃ f, fuel = f + 1 := ⟨fuel - 1, by omega⟩
    have hpe : s.pos = s.schedule.length := by omega
    have hs : stop = true := hstop.2 ⟨hpe, by omega⟩
    have hr : t.reached s.pos stop = true := by
      unfold TrainerLimits.reached
      rw [hs, hpe]
      simp [hm]
    have hz : allowed t s.schedule.length - s.pos = 0 := by
      unfold allowed
      split <;> omega
    rw [hz]
    simp [extractLogLoop, hr]
  | succ n ih =>
    intro fuel s stop hn hp hm hstop hpos hf
    obtain ⟨fuel, rfl⟩ : ∃ f, fuel = f + 1 := ⟨fuel - 1, by omega⟩
    have hlt : s.pos < s.schedule.length := by omega
    have hs : stop = false := by
      cases stop
      · rfl
      · have := hstop.1 rfl; omega
    by_cases hr : t.reached s.pos stop = true
    · -- the trainer's own limit
      have hz : allowed t s.schedule.length - s.pos = 0 := by
        unfold TrainerLimits.reached at hr
        rw [hs] at hr
        unfold allowed
        split at hr
        · simp at hr
        · next m hmx =>
          rw [hmx]
          simp at hr
          simp only
          omega
      rw [hz]
      simp [extractLogLoop, hr]
    · obtain ⟨kw, v, _, hv, hnext⟩ := next_ok hlt
      have hallow : allowed t s.schedule.length - s.pos = (allowed t s.schedule.length - (s.pos + 1)) + 1 := by
        have : s.pos < allowed t s.schedule.length := by
          unfold TrainerLimits.reached at hr
          rw [hs] at hr
          unfold allowed
          split
          · exact hlt
          · next m hmx =>
            rw [hmx] at hr
            simp at hr
            omega
        omega
      have hrec := ih fuel s.next.1 (decide ((s.pos : Int) ≥ (s.next.1.len : Int) - 1))
        (by rw [hnext]; simp only; omega) (by rw [hnext]; simp only; omega) (by rw [hnext]; exact hm)
        (by
          rw [hnext, decide_eq_true_iff]
          simp only [Scheduler.len]
          omega)
        (by rw [hnext]; exact hpos) (by omega)
      have hpos' : s.next.1.pos = s.pos + 1 := by rw [hnext]
      have hsch' : s.next.1.schedule = s.schedule := by rw [hnext]
      rw [hpos', hsch'] at hrec
      have hstep : extractLogLoop t (fuel + 1) s s.pos stop =
          (s.next.2.1.map .call ++ [.batches s.pos, .finalize] ++
            (extractLogLoop t fuel s.next.1 (s.pos + 1) (decide ((s.pos : Int) ≥ (s.next.1.len : Int) - 1))).1,
            (extractLogLoop t fuel s.next.1 (s.pos + 1) (decide ((s.pos : Int) ≥ (s.next.1.len : Int) - 1))).2) := by
        have hr' : t.reached s.pos stop = false := by simpa using hr
        rw [extractLogLoop, hr']
        rcases hx : s.next with ⟨s', calls, e | u⟩
        · rw [hx] at hv; cases hv
        · simp
      rw [hstep, hrec, hallow, List.range_succ_eq_map, List.flatMap_cons, List.flatMap_map]
      have h0 : epochCalls s 0 = s.next.2.1 := by simp [epochCalls, Scheduler.nexts]
      have hk : ∀ k, epochCalls s (k + 1) = epochCalls s.next.1 k := by
        intro k; simp [epochCalls, Scheduler.nexts]
      simp only [h0, hk, Nat.add_zero]
      congr 2
      congr 1
      funext k
      simp only [Nat.succ_eq_add_one]
      rw [Nat.add_assoc, Nat.add_comm 1 k]

/-- **C62.** For every scheduler configuration and every trainer limit (any `max_epochs`, and `min_epochs` not above the number of scheduled
epochs), `extract_log` on a fresh trainer runs exactly the epochs 0, 1, ..., n-1, where n is the number of scheduled epochs cut at
`max_epochs`; each starts by one step of the scheduler and ends by `finalize`; then the loop stops without exhausting the scheduler. -/
theorem C62_extract_log (lora hessian save : String) (hv : ValidSchedule lora hessian save) (s : Scheduler)
    (hs : Scheduler.init lora.toList hessian.toList save.toList = .ok s) (t : TrainerLimits)
    (hmin : t.minEpochs ≤ numEpochs lora hessian) (fuel : Nat) (hf : numEpochs lora hessian < fuel) :
    extractLogLoop t fuel s 0 false = (epochsRun s (allowed t (numEpochs lora hessian)), .stopped) := by
  obtain ⟨sch, h1, h2⟩ := scheduler_init_ok hv
  rw [h1] at hs
  cases hs
  have hpos : 0 < numEpochs lora hessian := by unfold numEpochs; omega
  have := extractLogLoop_run t sch.length fuel
    ⟨lora.toList, hessian.toList, save.toList, -1, sch, 0⟩ false (by simp) (by simp) (by simp only; omega) (by simp)
    (by simp only; omega) (by omega)
  simp only [Nat.sub_zero, Nat.zero_add] at this
  rw [this, h2]
  rfl

/-- **C62, influence.** In influence mode exactly one epoch is run, with gradient logging set up and saving turned off, for every trainer
that allows one epoch and does not insist on more. -/
theorem C62_influence (t : TrainerLimits) (hmax : t.maxEpochs ≠ some 0) (hmin : t.minEpochs ≤ 1) (fuel : Nat) (hf : 2 ≤ fuel) :
    influenceLoop t fuel 0 false =
      ([.call (.setup { grad := some [.name "log".toList] }), .call (.save false), .batches 0], .stopped) := by
  obtain ⟨fuel, rfl⟩ : ∃ f, fuel = f + 2 := ⟨fuel - 2, by omega⟩
  have h0 : t.reached 0 false = false := by
    unfold TrainerLimits.reached
    cases hm : t.maxEpochs with
    | none => simp
    | some m =>
      have : m ≠ 0 := by rintro rfl; exact hmax hm
      simp; omega
  have h1 : t.reached 1 true = true := by
    unfold TrainerLimits.reached
    simp [hmin]
  simp only [influenceLoop, h0, Nat.zero_add]
  simp [h1]

/-- The boundary of C62: a trainer that insists on more epochs than scheduled runs all scheduled epochs and then the scheduler raises
StopIteration. (One epoch scheduled, two required.) -/
theorem C62_min_epochs_exhausts (fuel : Nat) (hf : 2 ≤ fuel) :
    ∃ s, Scheduler.init "none".toList "none".toList "none".toList = .ok s ∧
      (extractLogLoop ⟨none, 2⟩ fuel s 0 false).2 = .exhausted := by
  refine ⟨_, rfl, ?_⟩
  obtain ⟨fuel, rfl⟩ : ∃ f, fuel = f + 2 := ⟨fuel - 2, by omega⟩
  rfl

namespace Example

/-- C62's hypotheses hold for EKFAC with saved gradients on a trainer with `max_epochs=10, min_epochs=1`: two epochs are run. -/
example : ValidSchedule "none" "ekfac" "grad" ∧ (⟨some 10, 1⟩ : TrainerLimits).minEpochs ≤ numEpochs "none" "ekfac" ∧
    allowed ⟨some 10, 1⟩ (numEpochs "none" "ekfac") = 2 := by
  refine ⟨by simp [ValidSchedule], by decide, by decide⟩

end Example

end Logix
