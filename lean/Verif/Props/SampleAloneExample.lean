/-
C131: a sample that is alone in its batch in one run, and the second of two in another run.
-/
import Verif.Props.SampleAlone
import Verif.Props.SessionSamplesExample

namespace Logix.ExSess
open Spec Sess

/-- Batches of two samples. -/
def pair (a b : Rat) : Tensor Rat := ⟨.cpu, [2, 1], [a, b], rfl⟩
def inp₂ (a b : Rat) : TObj Rat := ⟨pair a b, .float32, false, true⟩
def out₂ (a b : Rat) : TObj Rat := ⟨pair a b, .float32, true, false⟩
def grd₂ (a b : Rat) : Tensor Rat := ⟨.cpu, [2, 1, 1], [a, b], rfl⟩

/-- The sample `1` is now the second of a batch of two. -/
def pairCtx : List (SOp Rat) := [.call [i2, i1] none true, .enter]
def pairBody : List (SOp Rat) := [.alloc (inp₂ 9 2), .alloc (out₂ 0 6), .alloc (inp₂ 1 5), .alloc (inp₂ 4 3), .alloc (out₂ 8 9), .alloc (inp₂ 2 7),
  .forward 0 0 1, .forward 1 3 4, .forward 0 3 4, .gradAt 4 5, .gradAt 1 2, .exit]
def tPair : Sess Rat × Option PyErr := SAct.each (SOp.run E) (pairCtx ++ pairBody.map (shift 1) ++ [.finalize dir₀]) sSave

/-- The two runs. -/
def aloneRun : LoggingRun Rat := ⟨E, dec, .float32, saveConf, 1, 1000, [], saveCtx, [i1], none, saveBody, saveMods, dir₀, tSave.1, Dict.keys tSave.1.fs⟩
def pairRun : LoggingRun Rat := ⟨E, dec, .float32, saveConf, 1, 1000, [], pairCtx, [i2, i1], none, pairBody, saveMods, dir₀, tPair.1, Dict.keys tPair.1.fs⟩

theorem alone_ids : (aloneRun.saved.flatMap (·.1)).Nodup := by
  obtain ⟨u, w, hs, hu1, -, hw1, -⟩ := saved_split
  have : aloneRun.saved = [u, w] := hs
  rw [this]
  simp only [List.flatMap_cons, hu1, hw1]
  decide

theorem pairBody_ok : ∀ o ∈ pairBody, ∀ nm ∈ [na, nb], Logs nm o := by
  intro o ho nm _
  simp only [pairBody, List.mem_cons, List.not_mem_nil, or_false] at ho
  rcases ho with rfl | rfl | rfl | rfl | rfl | rfl | rfl | rfl | rfl | rfl | rfl | rfl <;> trivial

theorem tPair_ok : tPair.2 = none := by decide +kernel

theorem tPair_run : SAct.each (SOp.run E) (pairCtx ++ pairBody.map (shift (runHistory E saveConf (Sess.init 1 1000 [])).user.length) ++ [.finalize dir₀])
    (runHistory E saveConf (Sess.init 1 1000 [])) = (tPair.1, none) := by
  rw [show (runHistory E saveConf (Sess.init 1 1000 [])).user.length = 1 from sSave_ok.2.2.2.2]
  show tPair = _
  rw [← tPair_ok]

theorem pairTidy : Tidy false (pairCtx ++ pairBody) := by
  simp only [pairCtx, pairBody, List.cons_append, List.nil_append, Tidy]
  trivial

seal tSave tPair

theorem alone_ok : aloneRun.Completes [na, nb] (fun _ => [1, 1]) where
  configures := saveConf_ok
  context := .with ..
  logs := saveBody_ok
  dtype := Or.inr ⟨rfl, by show ∀ o ∈ allocs (saveConf ++ saveBody), o.dtype = .float32; decide +kernel⟩
  stats := sSave_ok.1
  grad := sSave_ok.2.1
  watches := sSave_ok.2.2.1
  nodup := by decide
  paths := sSave_ok.2.2.2.1
  dims := by intro _ _; simp
  some := ⟨na, by simp, by decide⟩
  tidy := saveTidy
  storable := save_storable
  ids := alone_ids
  files := by show ([] : List PyStr).Nodup; exact List.nodup_nil
  clean := by intro f hf; cases hf
  workers := Nat.le_refl 1
  runs := by dsimp only [aloneRun, LoggingRun.before]; exact tSave_run
  listing := by dsimp only [aloneRun]; exact List.Perm.refl _

theorem pair_saved : ∃ u : List PyStr × (Nat → List (Nat × Nat)), pairRun.saved = [u] ∧ u.1 = [i2, i1] ∧ u.2 0 = [(3, 5), (0, 2)] ∧ u.2 1 = [(3, 5)] :=
  ⟨_, rfl, by decide +kernel, by decide +kernel, by decide +kernel⟩

theorem pair_grads : BatchGrad (allocs pairBody) .linear [(3, 5), (0, 2)] (grd₂ 17 31) := by
  refine ⟨[grd₂ 8 21, grd₂ 9 10], .cons ⟨inp₂ 4 3, inp₂ 2 7, by decide +kernel, by decide +kernel, by decide +kernel⟩
    (.cons ⟨inp₂ 9 2, inp₂ 1 5, by decide +kernel, by decide +kernel, by decide +kernel⟩ .nil), ?_⟩
  rcases accum_none [grd₂ 8 21, grd₂ 9 10] (some (grd₂ 17 31)) (by decide +kernel) with ⟨h, -⟩ | ⟨T, h, h'⟩
  · cases h
  · rw [Option.some.inj h]; exact h'

theorem pair_grad : BatchGrad (allocs pairBody) .linear [(3, 5)] (grd₂ 8 21) := by
  refine ⟨[grd₂ 8 21], .cons ⟨inp₂ 4 3, inp₂ 2 7, by decide +kernel, by decide +kernel, by decide +kernel⟩ .nil, ?_⟩
  refine ⟨by simp, by simp, fun idx => by simp⟩

theorem pair_storable : ∀ u ∈ pairRun.saved, ∀ nm ∈ [na, nb],
    Storable ⟨E.encode, dec⟩ .float32 (allocs pairBody) .linear (u.2 (saveMods nm)) u.1.length [1, 1] := by
  obtain ⟨u, hs, hu1, hu2, hu3⟩ := pair_saved
  intro v hv nm hm
  rw [hs, List.mem_singleton] at hv
  subst hv
  simp only [List.mem_cons, List.not_mem_nil, or_false] at hm
  rcases hm with rfl | rfl
  · rw [show saveMods na = 0 from rfl, hu1, hu2]; exact storable_of pair_grads rfl (by decide +kernel)
  · rw [show saveMods nb = 1 from rfl, hu1, hu3]; exact storable_of pair_grad rfl (by decide +kernel)

theorem pair_ids : (pairRun.saved.flatMap (·.1)).Nodup := by
  obtain ⟨u, hs, hu1, -⟩ := pair_saved
  rw [hs]
  simp only [List.flatMap_cons, hu1]
  decide

theorem pair_ok : pairRun.Completes [na, nb] (fun _ => [1, 1]) where
  configures := saveConf_ok
  context := .with ..
  logs := pairBody_ok
  dtype := Or.inr ⟨rfl, by show ∀ o ∈ allocs (saveConf ++ pairBody), o.dtype = .float32; decide +kernel⟩
  stats := sSave_ok.1
  grad := sSave_ok.2.1
  watches := sSave_ok.2.2.1
  nodup := by decide
  paths := sSave_ok.2.2.2.1
  dims := by intro _ _; simp
  some := ⟨na, by simp, by decide⟩
  tidy := pairTidy
  storable := pair_storable
  ids := pair_ids
  files := by show ([] : List PyStr).Nodup; exact List.nodup_nil
  clean := by intro f hf; cases hf
  workers := Nat.le_refl 1
  runs := by dsimp only [pairRun, LoggingRun.before]; exact tPair_run
  listing := by dsimp only [pairRun]; exact List.Perm.refl _

/-- A use of a layer on one number, alone and as the second of two. -/
theorem same_use {u : Nat × Nat} {x y g k : Rat} (h1 : (allocs saveBody)[u.1]? = some (inp x)) (h2 : (allocs saveBody)[u.2]? = some (inp g))
    (h3 : (allocs pairBody)[u.1]? = some (inp₂ y x)) (h4 : (allocs pairBody)[u.2]? = some (inp₂ k g)) :
    SameSampleUse .linear (allocs saveBody) 0 (allocs pairBody) 1 u u :=
  ⟨_, _, _, _, h1, h2, h3, h4, ⟨1, [], 1, 1, rfl, rfl, rfl⟩, ⟨2, [], 1, 1, rfl, rfl, rfl⟩, by show 0 < 1; decide, by show 1 < 2; decide, rfl, rfl⟩

/-- The theorem applies: sample 0 of the first log is sample 1 of the second, and they have the same gradients. -/
example : ∃ ds ds' v v', openDataset tSave.1.fs (Dict.keys tSave.1.fs) = .ok ds ∧ openDataset tPair.1.fs (Dict.keys tPair.1.fs) = .ok ds' ∧
    ds.getItem 0 = .ok (i1, v) ∧ ds'.getItem 1 = .ok (i1, v') ∧
    ∀ nm ∈ [na, nb], ∃ a a', v.lookup [nm, LogType.name .grad] = some a ∧ v'.lookup [nm, LogType.name .grad] = some a' ∧
      (Codec.tensor ⟨E.encode, dec⟩ a).el [0, 0] = (Codec.tensor ⟨E.encode, dec⟩ a').el [0, 0] := by
  obtain ⟨ds, ds', d1, d2, d3⟩ := C131_stored aloneRun pairRun [na, nb] _ _ alone_ok pair_ok (fun _ _ => rfl)
  obtain ⟨u, w, hs, hu1, hu2, -, -⟩ := saved_split
  obtain ⟨u', hs', hu1', hu2', hu3'⟩ := pair_saved
  have hu3 : u.2 1 = [(3, 5)] := by
    have := saved_eq
    rw [hs] at this
    simp only [List.map_cons, List.cons.injEq, Prod.mk.injEq] at this
    exact this.1.2.2
  obtain ⟨v, v', k1, k2, k3⟩ := d3 [] u [w] hs [] u' [] hs' 0 1 (by rw [hu1]; decide) (by rw [hu1']; decide) (by
    intro nm hm
    simp only [List.mem_cons, List.not_mem_nil, or_false] at hm
    have e35 : SameSampleUse .linear (allocs saveBody) 0 (allocs pairBody) 1 (3, 5) (3, 5) :=
      same_use (x := 3) (y := 4) (g := 7) (k := 2) (by decide +kernel) (by decide +kernel) (by decide +kernel) (by decide +kernel)
    have e02 : SameSampleUse .linear (allocs saveBody) 0 (allocs pairBody) 1 (0, 2) (0, 2) :=
      same_use (x := 2) (y := 9) (g := 5) (k := 1) (by decide +kernel) (by decide +kernel) (by decide +kernel) (by decide +kernel)
    rcases hm with rfl | rfl
    · rw [show aloneRun.mods na = 0 from rfl, show pairRun.mods na = 0 from rfl, hu2, hu2']
      exact .cons e35 (.cons e02 .nil)
    · rw [show aloneRun.mods nb = 1 from rfl, show pairRun.mods nb = 1 from rfl, hu3, hu3']
      exact .cons e35 .nil)
  simp only [hu1] at k1
  simp only [hu1'] at k2
  refine ⟨ds, ds', v, v', d1, d2, k1, k2, fun nm hm => ?_⟩
  obtain ⟨a, a', m1, m2, m3, -, m5⟩ := k3 nm hm
  exact ⟨a, a', m1, m2, m5 [0, 0] (by rw [m3]; decide)⟩

end Logix.ExSess
