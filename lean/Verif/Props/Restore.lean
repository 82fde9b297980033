/-
C95, C96: influence computed from statistics that were saved and loaded.
-/
import Verif.Lemmas.Restore
import Verif.Props.InflExample2

namespace Logix
variable {K : Type}

theorem answers_sim [Field K] {L : Lib K} {sqrt : K → K} : ∀ {calls : List (Spec.Call K)} {s u : LState K}, Sim s u →
    Spec.answers L sqrt u calls = Spec.answers L sqrt s calls
  | [], _, _, _ => rfl
  | c :: cs, s, u, h => by
    unfold Spec.answers
    rcases serve_sim (L := L) h sqrt c with ⟨e, e1, e2⟩ | ⟨s₁, u₁, o, e1, e2, e3⟩
    · rw [e1, e2]
    · rw [e1, e2]
      simp only
      rw [answers_sim e3]

/-- **C96**, the part that holds: the loading instance may have logged and finalized anything, if it has not yet used its covariances (no
eigendecompositions, no inverses, no fitted eigenvalues). -/
theorem C96_no_cache_partial [Field K] {L : Lib K} (sqrt : K → K) {ops ops' : List (StateOp K)} {s s' u : LState K} {dir dir' : StateDir K}
    (hrun : runOps L .init ops = .ok s) (hfin : s.finalize dir = .ok (s', dir')) (hu : runOps L .init ops' = .ok u)
    (hnone : ∀ n ∈ [nEkfac, nEigval, nEigvec, nInverse], u.hasAttr n = false) :
    ∃ u', u.loadState dir' = .ok u' ∧ ∀ calls, Spec.answers L sqrt u' calls = Spec.answers L sqrt s' calls := by
  obtain ⟨u', hu', -⟩ := saveState_load (finalize_ok hfin).2 u
  refine ⟨u', hu', fun calls => answers_sim ?_⟩
  exact .load ((reg_init.run hrun).finalize hfin) ((cacheReg_init.run hrun).finalize hfin) (finalize_ok hfin).2 (reg_init.run hu) hnone hu'

/-- **C95.** A new instance that loads what finalize has saved gives, for every sequence of influence computations, exactly the answers (or the
error) that the instance that finalized gives; fitted eigenvalues, and eigendecompositions and inverses that were computed before, included. -/
theorem C95_restored_scores [Field K] {L : Lib K} (sqrt : K → K) {ops : List (StateOp K)} {s s' : LState K} {dir dir' : StateDir K}
    (hrun : runOps L .init ops = .ok s) (hfin : s.finalize dir = .ok (s', dir')) :
    ∃ u, LState.init.loadState dir' = .ok u ∧ ∀ calls, Spec.answers L sqrt u calls = Spec.answers L sqrt s' calls :=
  C96_no_cache_partial sqrt (ops' := []) hrun hfin rfl (by
    intro n hn
    simp only [List.mem_cons, List.not_mem_nil, or_false] at hn
    rcases hn with rfl | rfl | rfl | rfl <;> rfl)

namespace ExInfl

/-- The values of the first answer. -/
def firstData (x : List (Py (IFResult Rat ⊕ SelfResult Rat))) (k : PyStr) : Option (List Rat) :=
  match x with
  | .ok (.inl r) :: _ => (r.influence.get? k).map fun t => t.data
  | _ => none

def callB : Spec.Call Rat := .influence ids1 (.dict (logB .cpu [5, 6])) [['u']] (.dict (logB .cpu [1])) .dot true .kfac none (some 1)

/-- Fitted eigenvalues are saved and loaded; the second of two identical calls returns other scores than the first (see C54), before and after. -/
example : ∃ s' dir', stEk.finalize ⟨[], none⟩ = .ok (s', dir') ∧ (∃ u, LState.init.loadState dir' = .ok u ∧
      Spec.answers lib Rat.sqrt u [callB, callB] = Spec.answers lib Rat.sqrt s' [callB, callB]) ∧
    firstData (Spec.answers lib Rat.sqrt s' [callB, callB]) kTotal ≠ none ∧
    firstData (Spec.answers lib Rat.sqrt s' [callB, callB]) kTotal ≠ firstData (Spec.answers lib Rat.sqrt s' [callB, callB]).tail kTotal := by
  obtain ⟨s', dir', h⟩ := isOk (x := stEk.finalize ⟨[], none⟩) (by decide +kernel)
  obtain ⟨u, h1, h2⟩ := C95_restored_scores Rat.sqrt stEk_run h
  refine ⟨s', dir', h, ⟨u, h1, h2 _⟩, ?_⟩
  have key : ((stEk.finalize ⟨[], none⟩).toOption.map fun x => decide (firstData (Spec.answers lib Rat.sqrt x.1 [callB, callB]) kTotal ≠ none ∧
      firstData (Spec.answers lib Rat.sqrt x.1 [callB, callB]) kTotal ≠ firstData (Spec.answers lib Rat.sqrt x.1 [callB, callB]).tail kTotal)) = some true := by
    decide +kernel
  rw [h] at key
  exact of_decide_eq_true (Option.some.inj key)

/-- Other statistics of the module `e.b`. -/
def otherOps : List (StateOp Rat) :=
  [.update .covariance ⟨some .linear, nmB, .forward, ⟨.cpu, [1, 1], [3], rfl⟩, none, false⟩,
   .update .covariance ⟨some .linear, nmB, .backward, ⟨.cpu, [1, 1], [1], rfl⟩, none, false⟩]

def cachedOps : List (StateOp Rat) := covOps ++ [.svd]

/-- **C96 fails**: an instance that has used its own statistics before it loads others goes on with the eigendecompositions of its own. -/
theorem C96_refuted : ¬ ∀ (L : Lib Rat) (ops ops' : List (StateOp Rat)) (s s' u u' : LState Rat) (dir dir' : StateDir Rat) (calls : List (Spec.Call Rat)),
    Spec.EighOk L → Spec.InverseOk L → runOps L .init ops = .ok s → s.finalize dir = .ok (s', dir') → runOps L .init ops' = .ok u →
    u.loadState dir' = .ok u' → Spec.answers L Rat.sqrt u' calls = Spec.answers L Rat.sqrt s' calls := by
  intro hall
  have key : (match runOps lib .init otherOps, runOps lib .init cachedOps with
      | .ok s, .ok u => match s.finalize ⟨[], none⟩ with
        | .ok (s', d) => match u.loadState d with
          | .ok u' => decide (firstData (Spec.answers lib Rat.sqrt u' [callB]) kTotal ≠ firstData (Spec.answers lib Rat.sqrt s' [callB]) kTotal)
          | .error _ => false
        | .error _ => false
      | _, _ => false) = true := by decide +kernel
  split at key
  · next s u hs hu =>
    split at key
    · next s' d hf =>
      split at key
      · next u' hl =>
        rw [decide_eq_true_eq] at key
        exact key (by rw [hall lib _ _ _ _ _ _ _ _ [callB] eighOk inverseOk hs hf hu hl])
      · cases key
    · cases key
  · cases key

/-- With the same statistics loaded before they are used, as `C96_no_cache_partial` has it. -/
example : ∃ s s' dir', runOps lib .init otherOps = .ok s ∧ s.finalize ⟨[], none⟩ = .ok (s', dir') ∧
    ∃ u', st.loadState dir' = .ok u' ∧ Spec.answers lib Rat.sqrt u' [callB, callB] = Spec.answers lib Rat.sqrt s' [callB, callB] := by
  have key : (match runOps lib .init otherOps with
      | .ok s => (s.finalize ⟨[], none⟩).toOption.isSome
      | .error _ => false) = true := by decide +kernel
  split at key
  · next s hs =>
    obtain ⟨s', dir', h⟩ := isOk key
    obtain ⟨u', h1, h2⟩ := C96_no_cache_partial Rat.sqrt hs h st_run (by decide +kernel)
    exact ⟨s, s', dir', hs, h, u', h1, h2 _⟩
  · cases key

end ExInfl
end Logix
