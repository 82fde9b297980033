/-
C86: a case that meets the hypotheses, and a counterexample without the condition on gradients between batches.
-/
import Verif.Props.SessionStored
import Verif.Props.SessionExample

namespace Logix.ExSess
open Spec Sess

def dec : DType → List UInt8 → Rat := fun _ b => ((b.headD 0).toNat : Rat)

/-- The configuration of the run. -/
def prep : List (SOp Rat) := [gradLog, .watch [(na, 0)]]
def dir₀ : StateDir Rat := ⟨[], none⟩

/-- Two batches that are saved; between them the model is called without a batch, a batch is logged but not saved, a copy of the log is taken. -/
def loop : List (SOp Rat) :=
  [.call [i1] none true, .enter] ++ run 2 6 5 ++ [.exit, .alloc (inp 1), .alloc (out 1), .forward 0 3 4, .getLogCopy, .call [nb] none false, .enter] ++
  (run 7 1 3).map (shift 5) ++ [.exit, .start [i2] none] ++ (run 3 7 4).map (shift 8) ++ [.end true]

def p₀ : Sess Rat := runHistory E prep (Sess.init 1 1000 [])

theorem prep_prepares : ∀ o ∈ prep, Prepares o := by
  simp only [prep, gradLog, List.mem_cons, List.not_mem_nil, or_false, forall_eq_or_imp, forall_eq]
  exact ⟨.setup _, .watch _⟩

theorem loop_tidy : Tidy false loop := by
  simp only [loop, run, List.map_cons, List.map_nil, shift, List.cons_append, List.nil_append, Tidy]
  trivial

theorem loop_ends : ∀ x ∈ outcomes E (loop ++ [.finalize dir₀]) p₀, x.2 = none := by
  have : (outcomes E (loop ++ [.finalize dir₀]) p₀).all (fun x => x.2.isNone) = true := by decide +kernel
  intro x hx
  simpa using List.all_eq_true.1 this x hx

def shape₁ : PyStr → PyStr → List Nat := fun _ _ => [1, 1]

theorem loop_handed : saves (handed E loop p₀) = [([i1], [(na, [(LogType.name .grad, (grd 10).val)])]), ([i2], [(na, [(LogType.name .grad, (grd 12).val)])])] := by
  decide +kernel

theorem p₀_paths : p₀.paths = [[na, LogType.name .grad]] := by decide +kernel

theorem planBatch₁ (i : PyStr) (v : Rat) (hv : dec .float32 (E.encode .float32 v).1 = v) :
    PlanBatch ⟨E.encode, dec⟩ .float32 p₀.paths shape₁ [i] [(na, [(LogType.name .grad, (grd v).val)])] := by
  have hi : ∀ m t x, item [(na, [(LogType.name .grad, (grd v).val)])] m t = some x → x = (grd v).val := by
    intro m t x h
    unfold item at h
    by_cases hm : na = m
    · rw [Dict.get?_cons, if_pos hm, Option.bind_some] at h
      by_cases ht : LogType.name .grad = t
      · rw [Dict.get?_cons, if_pos ht] at h
        exact (Option.some.inj h).symm
      · rw [Dict.get?_cons, if_neg ht] at h; cases h
    · rw [Dict.get?_cons, if_neg hm] at h; cases h
  refine ⟨by simp [Dict.keys], by simp [Dict.keys], ?_, ?_, ?_⟩
  · intro m t x h
    rw [hi m t x h]
    exact ⟨[1, 1], rfl⟩
  · intro m t h
    rw [p₀_paths, List.mem_singleton] at h
    obtain ⟨rfl, h'⟩ := List.cons.inj h
    obtain ⟨rfl, -⟩ := List.cons.inj h'
    exact ⟨_, rfl, rfl⟩
  · intro m t x _ h c hc
    rw [hi m t x h] at hc
    rw [List.mem_singleton.1 (show c ∈ [v] from hc)]
    exact hv

theorem loop_run : LogRun ⟨E.encode, dec⟩ .float32 p₀.paths shape₁ [] 1 (handed E loop p₀) where
  plan := by
    rw [p₀_paths]
    refine ⟨by simp, ?_, ?_, ?_, ⟨na, LogType.name .grad, by simp, by decide⟩⟩
    · intro p hp
      exact ⟨na, _, List.mem_singleton.1 hp⟩
    · intro m t h
      obtain ⟨rfl, h⟩ := List.cons.inj (List.mem_singleton.1 h)
      simp
    · intro m t _ h
      cases h
  files := by simp [Dict.keys]
  clean := by intro f hf; cases hf
  workers := Nat.le_refl _
  batches := by
    rw [loop_handed]
    intro b hb
    simp only [List.mem_cons, List.not_mem_nil, or_false] at hb
    rcases hb with rfl | rfl
    · exact planBatch₁ i1 10 (by decide +kernel)
    · exact planBatch₁ i2 12 (by decide +kernel)
  ids := by rw [loop_handed]; decide

/-- The two theorems apply: the second sample of the dataset is the second saved batch, with the gradient 12. -/
example : ∃ ds v a, openDataset (runHistory E (loop ++ [.finalize dir₀]) p₀).fs (Dict.keys (runHistory E (loop ++ [.finalize dir₀]) p₀).fs) = .ok ds ∧ ds.len = 2 ∧
    ds.getItem 1 = .ok (i2, v) ∧ v.lookup [na, LogType.name .grad] = some a ∧ (Codec.tensor ⟨E.encode, dec⟩ a).el [0, 0] = 12 := by
  obtain ⟨ds, h1, h2, h3⟩ := C86_samples_partial E dec .float32 prep loop dir₀ 1 1000 [] prep_prepares (Or.inr ⟨rfl, by decide +kernel⟩) shape₁ (by decide +kernel)
    (by decide +kernel) loop_tidy (fun x hx _ => loop_ends x hx) loop_run _ (List.Perm.refl _)
  have h2' : ds.len = ((saves (handed E loop p₀)).flatMap (·.1)).length := h2
  rw [loop_handed] at h2'
  obtain ⟨v, h4, h5⟩ := h3 [([i1], [(na, [(LogType.name .grad, (grd 10).val)])])] ([i2], [(na, [(LogType.name .grad, (grd 12).val)])]) [] loop_handed 0 (by decide)
  obtain ⟨x, a, h6, h7, -, -, h8⟩ := h5 na (LogType.name .grad) (by rw [show (runHistory E prep (Sess.init 1 1000 [])).paths = _ from p₀_paths]; simp)
  refine ⟨ds, v, a, h1, h2', h4, h7, ?_⟩
  rw [h8 [0, 0] (by decide)]
  have : x = (grd 12).val := (Option.some.inj h6).symm
  rw [this]
  decide +kernel

/-- The batch is saved, then the model is run once more, outside any batch. -/
def untidy : List (SOp Rat) := [.call [i1] none true, .enter] ++ run 2 6 5 ++ [.exit] ++ (run 3 7 4).map (shift 3)

/-- **C86 is false.** After a batch was saved, a run of the model outside any batch changes what will be stored for it: the hooks are still there, they add
to the logged gradient in place, and the save buffer has a view of it. -/
theorem C86_refuted : ¬ ∀ (E : SEnv Rat) (dec : DType → List UInt8 → Rat) (d : DType) (pre ops : List (SOp Rat)) (dir : StateDir Rat) (workers : Nat) (threshold : Int) (fs : FS),
    (∀ o ∈ pre, Prepares o) → (∀ o ∈ ops, IsRun o ∨ Ends o ∨ Opens o ∨ ∃ ids mask sv, o = .call ids mask sv) → (E.dtype = some d ∨ (E.dtype = none ∧ ∀ o ∈ allocs (pre ++ ops), o.dtype = d)) →
    let s₀ := runHistory E pre (Sess.init workers threshold fs)
    .log ∉ s₀.opt.forward → .log ∉ s₀.opt.backward →
    (∀ x ∈ outcomes E (ops ++ [.finalize dir]) s₀, x.2 = none) →
    (runHistory E (ops ++ [.finalize dir]) s₀).fs = (storedRun ⟨E.encode, dec⟩ d s₀.paths fs workers threshold (handed E ops s₀)).fs := by
  intro h
  have h1 := h E dec .float32 prep untidy dir₀ 1 1000 [] prep_prepares (by
      simp only [untidy, run, List.map_cons, List.map_nil, shift, List.cons_append, List.nil_append, List.mem_cons, List.not_mem_nil, or_false, forall_eq_or_imp, forall_eq]
      exact ⟨Or.inr (Or.inr (Or.inr ⟨_, _, _, rfl⟩)), Or.inr (Or.inr (Or.inl .enter)), Or.inl (.alloc _), Or.inl (.alloc _), Or.inl (.alloc _), Or.inl (.forward ..), Or.inl (.gradAt ..),
        Or.inl (.backward ..), Or.inr (Or.inl .exit), Or.inl (.alloc _), Or.inl (.alloc _), Or.inl (.alloc _), Or.inl (.forward ..), Or.inl (.gradAt ..), Or.inl (.backward ..)⟩)
    (Or.inr ⟨rfl, by decide +kernel⟩) (by decide +kernel) (by decide +kernel) (by
      have : (outcomes E (untidy ++ [.finalize dir₀]) p₀).all (fun x => x.2.isNone) = true := by decide +kernel
      intro x hx
      simpa using List.all_eq_true.1 this x hx)
  revert h1
  decide +kernel

end Logix.ExSess
