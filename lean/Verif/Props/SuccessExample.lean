/-
C115 on concrete data over the real numbers, with library functions that keep all promises.
-/
import Verif.Props.SuccessLogged
import Verif.Lemmas.RealLib

namespace Logix.ExSuccess
open Logix Spec

def nmA : PyStr := ['e', '.', 'a']
def wid (_ : PyStr) : LogType → Nat
  | .forward => 2
  | .backward => 1
  | .grad => 2

noncomputable section

def calls : List (Plugin × StatCall ℝ) :=
  [(.covariance, ⟨some .linear, nmA, .forward, ⟨.cuda 0, [2, 2], [3, 4, -8, 6], rfl⟩, none, true⟩),
   (.mean, ⟨some .linear, nmA, .forward, ⟨.cuda 0, [2, 2], [3, 4, -8, 6], rfl⟩, none, true⟩),
   (.covariance, ⟨some .linear, nmA, .backward, ⟨.cuda 0, [2, 1], [1, 2], rfl⟩, none, true⟩)]

def rawCalls : List (Plugin × StatCall ℝ) := [(.covariance, ⟨none, nmA, .grad, ⟨.cpu, [2, 1, 2], [3, 4, -8, 6], rfl⟩, none, false⟩)]

def src : GLog ℝ := [(nmA, [(LogType.name .grad, ⟨.cpu, [2, 1, 2], [1, 2, 3, 4], rfl⟩)])]
def tgt : GLog ℝ := [(nmA, [(LogType.name .grad, ⟨.cuda 0, [3, 1, 2], [0, 1, 1, 0, 2, -1], rfl⟩)])]
def srcIds : List PyStr := [['x'], ['y']]
def tgtIds : List PyStr := [['u'], ['v'], ['w']]

theorem keys_src : Dict.keys src = [nmA] := rfl
theorem keys_tgt : Dict.keys tgt = [nmA] := rfl

theorem regular : Regular wid (fun _ _ => .cuda 0) true calls := by
  constructor <;> intro pc h <;> simp only [calls, List.mem_cons, List.not_mem_nil, or_false] at h <;> rcases h with rfl | rfl | rfl
  all_goals first
    | rfl
    | exact .inr (.inr rfl)
    | exact .inr (.inl rfl)
    | exact ⟨by simp, by simp⟩

theorem rawRegular : Regular wid (fun _ _ => .cpu) false rawCalls := by
  constructor <;> intro pc h <;> simp only [rawCalls, List.mem_cons, List.not_mem_nil, or_false] at h <;> subst h
  · exact .inr (.inr rfl)
  · exact ⟨by simp [Tensor.size], by simp⟩
  all_goals rfl

theorem logged : LoggedAll calls (Dict.keys src) .auto := by
  refine .inl ⟨.inr ⟨rfl, fun m hm => ?_⟩, fun m hm => ?_⟩ <;> rw [keys_src, List.mem_singleton] at hm <;> subst hm
  · simp [callsOf, calls]
  · refine ⟨⟨?_, fun c hc => .inl ?_⟩, ?_, fun c hc => .inl ?_⟩ <;> simp [callsOf, calls] at *
    · rw [hc]
    · rw [hc]

theorem rawLogged : LoggedAll rawCalls (Dict.keys src) .raw := by
  refine .inr ⟨.inl rfl, fun m hm => ?_⟩
  rw [keys_src, List.mem_singleton] at hm
  subst hm
  exact ⟨by simp [callsOf, rawCalls], fun c hc => .inr rfl⟩

theorem fits : ∀ m ∈ Dict.keys src, wid m .backward = 1 ∧ wid m .forward = 2 ∧ wid m .grad = 1 * 2 := fun _ _ => ⟨rfl, rfl, rfl⟩

theorem srcLog : GradLog srcIds src .cpu (fun _ => 1) fun _ => 2 := by
  refine ⟨by simp [keys_src], fun m hm => ?_, fun p hp q hq => ?_, by simp [srcIds], by simp [keys_src]⟩
  · rw [keys_src, List.mem_singleton] at hm
    subst hm
    exact ⟨⟨.cpu, [2, 1, 2], [1, 2, 3, 4], rfl⟩, rfl, rfl, rfl⟩
  · rw [src, List.mem_singleton] at hp
    subst hp
    rw [List.mem_singleton] at hq
    rw [hq]

theorem tgtLog : GradLog tgtIds tgt (.cuda 0) (fun _ => 1) fun _ => 2 := by
  refine ⟨by simp [keys_tgt], fun m hm => ?_, fun p hp q hq => ?_, by simp [tgtIds], by simp [keys_tgt]⟩
  · rw [keys_tgt, List.mem_singleton] at hm
    subst hm
    exact ⟨⟨.cuda 0, [3, 1, 2], [0, 1, 1, 0, 2, -1], rfl⟩, rfl, rfl, rfl⟩
  · rw [tgt, List.mem_singleton] at hp
    subst hp
    rw [List.mem_singleton] at hq
    rw [hq]

theorem noMask : ∀ pc ∈ calls, ∀ m, pc.2.mask = some m → ∀ x ∈ m.data, 0 ≤ x := by
  intro pc h m hm
  simp only [calls, List.mem_cons, List.not_mem_nil, or_false] at h
  rcases h with rfl | rfl | rfl <;> cases hm

theorem noMaskRaw : ∀ pc ∈ rawCalls, ∀ m, pc.2.mask = some m → ∀ x ∈ m.data, 0 ≤ x := by
  intro pc h m hm
  simp only [rawCalls, List.mem_cons, List.not_mem_nil, or_false] at h
  subst h
  cases hm

/-- The hypotheses of `C115_returns` are met, here with cosine similarity and a group; of `C115_scores` too. -/
example : ∃ L : Lib ℝ, ∃ s u r, Finalized L calls s ∧
    computeInfluence L Real.sqrt s srcIds (.dict src) tgtIds (.dict tgt) .cosine true .auto (some [['e']]) (some 1) = .ok (u, r) := by
  obtain ⟨L, hE, hI, hL⟩ := exists_lib
  obtain ⟨s₀, s, dir', u, r, h1, h2, h3, -⟩ := C115_returns hE hI hL (sqrt := Real.sqrt) (dev := fun _ => .cuda 0) regular noMask logged one_pos fits srcLog tgtLog
    (fun m => by rw [keys_src, keys_tgt]) true (groups := some [['e']])
    (fun g hg => ⟨nmA, by simp [keys_src], by rw [Option.getD_some, List.mem_singleton] at hg; rw [hg]; exact ⟨[], ['.', 'a'], rfl⟩⟩) (.inr ⟨.inr rfl, rfl⟩) ⟨[], none⟩
  exact ⟨L, s, u, r, ⟨regular.plugin, noMask, s₀, _, dir', h1, h2⟩, h3⟩

example : ∃ L : Lib ℝ, ∃ s u r t, Finalized L rawCalls s ∧
    computeInfluence L Real.sqrt s srcIds (.dict src) tgtIds (.dict tgt) .dot true .raw none (some 2) = .ok (u, r) ∧ r.influence = .one t ∧ t.shape = [2, 3] := by
  obtain ⟨L, hE, hI, hL⟩ := exists_lib
  obtain ⟨s₀, s, dir', u, r, t, h1, h2, h3, h4, -, -, h5, -⟩ := C115_scores hE hI hL (sqrt := Real.sqrt) (dev := fun _ => .cpu) rawRegular noMaskRaw rawLogged two_pos fits
    srcLog tgtLog (fun m => by rw [keys_src, keys_tgt]) ⟨[], none⟩
  exact ⟨L, s, u, r, t, ⟨rawRegular.plugin, noMaskRaw, s₀, _, dir', h1, h2⟩, h3, h4, h5⟩

/-- Self-influence. -/
example : ∃ L : Lib ℝ, ∃ s u r, Finalized L calls s ∧ computeSelf L s srcIds (.dict src) true .auto none (some 1) = .ok (u, r) := by
  obtain ⟨L, hE, hI, hL⟩ := exists_lib
  obtain ⟨s₀, s, dir', u, r, t, h1, h2, h3, -⟩ := C115_self hE hI hL (dev := fun _ => .cuda 0) regular noMask logged one_pos fits srcLog ⟨[], none⟩
  exact ⟨L, s, u, r, ⟨regular.plugin, noMask, s₀, _, dir', h1, h2⟩, h3⟩

/-- All batches of a loader with two batches. -/
example : ∃ L : Lib ℝ, ∃ s o r, Finalized L calls s ∧
    computeInfluenceAll L Real.sqrt (IFObj.new s) srcIds (.dict src) [(tgtIds, .dict tgt), (srcIds, .dict src)] .dot true true .auto none (some 1) = .ok (o, r) := by
  obtain ⟨L, hE, hI, hL⟩ := exists_lib
  obtain ⟨s₀, s, dir', h1, h2⟩ := C37_plugins_run_partial L regular ⟨[], none⟩
  have hf : Finalized L calls s := ⟨regular.plugin, noMask, s₀, _, dir', h1, h2⟩
  obtain ⟨o, r, h3⟩ := C115_all_returns (sqrt := Real.sqrt) (o := (IFObj.new s))
    (ready_of_logged hE hI hL hf (dev := fun _ => .cuda 0) regular logged one_pos (rows := fun _ => 1) (cols := fun _ => 2) fits) srcLog
    (loader := [(tgtIds, .dict tgt), (srcIds, .dict src)]) (fun b hb => by
      simp only [List.mem_cons, List.not_mem_nil, or_false] at hb
      rcases hb with rfl | rfl
      · exact ⟨tgt, _, rfl, tgtLog, fun m => by rw [keys_src, keys_tgt]⟩
      · exact ⟨src, _, rfl, srcLog, fun m => Iff.rfl⟩) true true (.inr rfl) (groups := none) (fun g hg => by cases hg) (mode := .dot) (.inl rfl)
  exact ⟨L, s, o, r, hf, h3⟩

end
end Logix.ExSuccess
