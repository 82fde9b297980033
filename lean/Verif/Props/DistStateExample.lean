/-
C98 on concrete runs: two processes on two devices, and a single process with all their data.
-/
import Verif.Props.DistState
import Verif.Props.DeterminedExample

namespace Logix.ExInfl
open Logix

def call (m : PyStr) (lt : LogType) (dev : Dev) (n w : Nat) (xs : List Rat) (h : xs.length = numel [n, w]) : Plugin × StatCall Rat :=
  (.covariance, ⟨some .linear, m, lt, ⟨dev, [n, w], xs, h⟩, none, true⟩)

/-- One process logs one sample, another one the other, each on its own GPU. -/
def twoProcs : List (List (Plugin × StatCall Rat)) :=
  [[call nmA .forward (.cuda 0) 1 2 [-8, 6] rfl, call nmA .backward (.cuda 0) 1 1 [2] rfl, call nmB .forward (.cuda 0) 1 1 [1] rfl, call nmB .backward (.cuda 0) 1 1 [3] rfl],
   [call nmA .forward (.cuda 1) 1 2 [3, 4] rfl, call nmA .backward (.cuda 1) 1 1 [1] rfl, call nmB .forward (.cuda 1) 1 1 [1] rfl, call nmB .backward (.cuda 1) 1 1 [1] rfl]]

/-- A single process logs both samples. -/
def oneProc : List (List (Plugin × StatCall Rat)) :=
  [[call nmA .forward (.cuda 0) 2 2 [3, 4, -8, 6] rfl, call nmA .backward (.cuda 0) 2 1 [1, 2] rfl, call nmB .forward (.cuda 0) 2 1 [1, 1] rfl,
    call nmB .backward (.cuda 0) 2 1 [1, 3] rfl]]

def wid (m : PyStr) : LogType → Nat
  | .forward => if m = nmA then 2 else 1
  | _ => 1

theorem cluster_of {css : List (List (Plugin × StatCall Rat))} {dev : Nat → PyStr → LogType → Dev}
    (h : ∀ i < css.length, ∀ cs, css[i]? = some cs → Spec.Regular wid (dev i) true cs)
    (ho : ∀ cs ∈ css, ∀ cs' ∈ css, ∀ q ∈ [Plugin.mean, Plugin.covariance], Spec.order q cs = Spec.order q cs') : Spec.Cluster wid dev true css :=
  ⟨fun i cs hi => h i (List.getElem?_eq_some_iff.1 hi).1 cs hi, ho⟩

theorem reg4 {dev : PyStr → LogType → Dev} {c₁ c₂ c₃ c₄ : Plugin × StatCall Rat}
    (h : ∀ c ∈ [c₁, c₂, c₃, c₄], (c.1 = .covariance ∧ c.2.module = some .linear ∧ c.2.logType ≠ .grad ∧ 0 < c.2.data.shape.getLastD 0 ∧
      Spec.callWidth c.2 = wid c.2.name c.2.logType ∧ c.2.data.dev = dev c.2.name c.2.logType ∧ c.2.offload = true)) :
    Spec.Regular wid dev true [c₁, c₂, c₃, c₄] := by
  refine ⟨fun c hc => .inr (.inr (h c hc).1), fun c hc => ?_, fun c hc => (h c hc).2.2.2.2.1, fun c hc => (h c hc).2.2.2.2.2.1, fun c hc => (h c hc).2.2.2.2.2.2⟩
  obtain ⟨-, h1, h2, h3, -⟩ := h c hc
  rw [h1]
  exact ⟨h2, h3⟩

theorem clusterTwo : Spec.Cluster wid (fun i _ _ => .cuda i) true twoProcs := by
  refine cluster_of (fun i hi cs hcs => ?_) (by decide +kernel)
  match i, hi with
  | 0, _ => cases hcs; exact reg4 (by decide +kernel)
  | 1, _ => cases hcs; exact reg4 (by decide +kernel)

theorem clusterOne : Spec.Cluster wid (fun i _ _ => .cuda i) true oneProc := by
  refine cluster_of (fun i hi cs hcs => ?_) (by decide +kernel)
  match i, hi with
  | 0, _ => cases hcs; exact reg4 (by decide +kernel)

/-- The states after all processes have logged and finalized. -/
def statesOf (L : Lib Rat) (css : List (List (Plugin × StatCall Rat))) : List (LState Rat) :=
  match css.mapM fun cs => updates L .init cs with
  | .ok ss => match finalizeDist ss ⟨[], none⟩ with
    | .ok (ss', _) => ss'
    | .error _ => []
  | .error _ => []

theorem finalizedAll_of {L : Lib Rat} {css : List (List (Plugin × StatCall Rat))} (hC : Spec.Cluster wid (fun i _ _ => .cuda i) true css)
    (hm : ∀ cs ∈ css, ∀ pc ∈ cs, pc.2.mask = none) : Spec.FinalizedAll L css (statesOf L css) := by
  obtain ⟨ss, ss', dir', h1, h2, -⟩ := C98_same_state L hC ⟨[], none⟩
  refine ⟨fun cs hcs pc hpc m hm' => absurd ((hm cs hcs pc hpc).symm.trans hm') (by simp), ss, ⟨[], none⟩, dir', h1, ?_⟩
  have : css.mapM (fun cs => updates L .init cs) = .ok ss := by
    clear h2 hC hm
    induction h1 with
    | nil => rfl
    | cons a _ ih => rw [List.mapM_cons, a, ih]; rfl
  unfold statesOf
  simp only [this, h2]

theorem finTwo : Spec.FinalizedAll lib twoProcs (statesOf lib twoProcs) := finalizedAll_of clusterTwo (by
  intro cs hcs pc hpc
  simp only [twoProcs, List.mem_cons, List.not_mem_nil, or_false] at hcs
  rcases hcs with rfl | rfl <;> simp only [List.mem_cons, List.not_mem_nil, or_false] at hpc <;> rcases hpc with rfl | rfl | rfl | rfl <;> rfl)

theorem finOne : Spec.FinalizedAll libAlt oneProc (statesOf libAlt oneProc) := finalizedAll_of clusterOne (by
  intro cs hcs pc hpc
  simp only [oneProc, List.mem_cons, List.not_mem_nil, or_false] at hcs
  subst hcs
  simp only [List.mem_cons, List.not_mem_nil, or_false] at hpc
  rcases hpc with rfl | rfl | rfl | rfl <;> rfl)

/-- What a process holds: the covariance of the activations over both samples. -/
example : ((statesOf lib twoProcs).map fun s => Spec.tensorAt s.attrs nCov [nmA, LogType.name .forward]) =
    [some ⟨.cpu, [2, 2], [73 / 2, -18, -18, 26], rfl⟩, some ⟨.cpu, [2, 2], [73 / 2, -18, -18, 26], rfl⟩] := by decide +kernel

/-- Both halves of a batch of two samples are the two batches of one. -/
theorem rows_split {m : PyStr} {lt : LogType} {d d₀ d₁ : Dev} {w : Nat} {xs ys : List Rat} {h : (xs ++ ys).length = numel [2, w]} {hx : xs.length = numel [1, w]}
    {hy : ys.length = numel [1, w]}
    (e : ∀ j < w, (call m lt d 2 w (xs ++ ys) h).2.data.el [0, j] = (call m lt d₁ 1 w xs hx).2.data.el [0, j] ∧
      (call m lt d 2 w (xs ++ ys) h).2.data.el [1, j] = (call m lt d₀ 1 w ys hy).2.data.el [0, j])
    (hr : Spec.allRows [(call m lt d₀ 1 w ys hy).2, (call m lt d₁ 1 w xs hx).2] =
      [fun j => (call m lt d₀ 1 w ys hy).2.data.el [0, j], fun j => (call m lt d₁ 1 w xs hx).2.data.el [0, j]])
    (hr' : Spec.allRows [(call m lt d 2 w (xs ++ ys) h).2] =
      [fun j => (call m lt d 2 w (xs ++ ys) h).2.data.el [0, j], fun j => (call m lt d 2 w (xs ++ ys) h).2.data.el [1, j]]) :
    (Spec.allRows [(call m lt d₀ 1 w ys hy).2, (call m lt d₁ 1 w xs hx).2]).Perm (Spec.allRows [(call m lt d 2 w (xs ++ ys) h).2]) := by
  rw [hr, hr']
  have e1 : (fun j => (call m lt d₀ 1 w ys hy).2.data.el [0, j]) = fun j => (call m lt d 2 w (xs ++ ys) h).2.data.el [1, j] := by
    funext j
    rcases Nat.lt_or_ge j w with hj | hj
    · exact (e j hj).2.symm
    · exact (el_ge hj).trans (el_ge hj).symm
  have e2 : (fun j => (call m lt d₁ 1 w xs hx).2.data.el [0, j]) = fun j => (call m lt d 2 w (xs ++ ys) h).2.data.el [0, j] := by
    funext j
    rcases Nat.lt_or_ge j w with hj | hj
    · exact (e j hj).1.symm
    · exact (el_ge hj).trans (el_ge hj).symm
  rw [e1, e2]
  exact .swap _ _ _

theorem sameLogged_split {calls calls' : List (Plugin × StatCall Rat)} {m : PyStr} {lt : LogType} {a b c : StatCall Rat}
    (h : Spec.callsOf .covariance m lt calls = [a, b]) (h' : Spec.callsOf .covariance m lt calls' = [c])
    (hm : a.mask = none ∧ b.mask = none ∧ c.mask = none) (hrows : (Spec.allRows [a, b]).Perm (Spec.allRows [c]))
    (hw : Spec.callWidth a = Spec.callWidth c ∧ Spec.callWidth b = Spec.callWidth c) (hs : Spec.samples [a, b] = Spec.samples [c]) :
    Spec.SameLogged calls calls' m lt := by
  refine ⟨by rw [h, h']; exact ⟨List.cons_ne_nil _ _, List.cons_ne_nil _ _⟩, ?_, by rw [h, h']; exact hrows, ?_, by rw [h, h']; exact hs⟩
  · rw [h, h']
    intro x hx
    simp only [List.cons_append, List.nil_append, List.mem_cons, List.not_mem_nil, or_false] at hx
    rcases hx with rfl | rfl | rfl
    · exact .inl hm.1
    · exact .inl hm.2.1
    · exact .inl hm.2.2
  · rw [h, h']
    intro x hx y hy
    simp only [List.mem_cons, List.not_mem_nil, or_false] at hx hy
    subst hy
    rcases hx with rfl | rfl
    · exact hw.1
    · exact hw.2

theorem sameTwoOne : Spec.SameStatData twoProcs.flatten oneProc.flatten (Dict.keys log1) .auto := by
  refine .inl ⟨.inr ⟨rfl, fun m hm => ?_⟩, fun m hm => ?_⟩
  · rcases keys1 m hm with rfl | rfl <;> exact ⟨rfl, rfl⟩
  · rcases keys1 m hm with rfl | rfl
    · exact ⟨sameLogged_split rfl rfl ⟨rfl, rfl, rfl⟩ (rows_split (xs := [3, 4]) (ys := [-8, 6]) (by decide +kernel) rfl rfl) ⟨rfl, rfl⟩ rfl,
        sameLogged_split rfl rfl ⟨rfl, rfl, rfl⟩ (rows_split (xs := [1]) (ys := [2]) (by decide +kernel) rfl rfl) ⟨rfl, rfl⟩ rfl⟩
    · exact ⟨sameLogged_split rfl rfl ⟨rfl, rfl, rfl⟩ (rows_split (xs := [1]) (ys := [1]) (by decide +kernel) rfl rfl) ⟨rfl, rfl⟩ rfl,
        sameLogged_split rfl rfl ⟨rfl, rfl, rfl⟩ (rows_split (xs := [1]) (ys := [3]) (by decide +kernel) rfl rfl) ⟨rfl, rfl⟩ rfl⟩

def stateOf (L : Lib Rat) (css : List (List (Plugin × StatCall Rat))) (i : Nat) : LState Rat := (statesOf L css)[i]?.getD .init

/-- The hypotheses of C98 for scores are met by the second of two processes and a single one with another library. -/
example : ∃ u r u' r',
    computeInfluence lib Rat.sqrt (stateOf lib twoProcs 1) ids1 (.dict log1) ids1 (.dict log1) .l2 true .auto (some [['b']]) (some 1) = .ok (u, r) ∧
    computeInfluence libAlt Rat.sqrt (stateOf libAlt oneProc 0) ids1 (.dict log1) ids1 (.dict log1) .l2 true .auto (some [['b']]) (some 1) = .ok (u', r') ∧
    ∃ t, r.influence.get? kTotal = some t ∧ r'.influence.get? kTotal = some t := by
  obtain ⟨u, r, h⟩ := isOk (x := computeInfluence lib Rat.sqrt (stateOf lib twoProcs 1) ids1 (.dict log1) ids1 (.dict log1) .l2 true .auto (some [['b']]) (some 1))
    (by decide +kernel)
  obtain ⟨u', r', h'⟩ := isOk (x := computeInfluence libAlt Rat.sqrt (stateOf libAlt oneProc 0) ids1 (.dict log1) ids1 (.dict log1) .l2 true .auto (some [['b']]) (some 1))
    (by decide +kernel)
  have len : 1 < (statesOf lib twoProcs).length ∧ 0 < (statesOf libAlt oneProc).length := by decide +kernel
  have get : ∀ {ss : List (LState Rat)} {i : Nat}, i < ss.length → ss[i]? = some (ss[i]?.getD .init) := fun hi => by
    rw [List.getElem?_eq_getElem hi]; rfl
  obtain ⟨t, h1, h2⟩ := (C98_scores eighOk eighOkAlt inverseOk inverseOk clusterTwo clusterOne finTwo finOne (get len.1) (get len.2) sameTwoOne (by decide +kernel)
    lab1 lab1 (.inr rfl) h h').2.2 kTotal (.inl rfl)
  exact ⟨u, r, u', r', h, h', t, h1, h2⟩

/-- The scores are not trivial. -/
example : infData (computeInfluence lib Rat.sqrt (stateOf lib twoProcs 1) ids1 (.dict log1) ids1 (.dict log1) .dot true .auto none (some 1)) kTotal =
    infData (computeInfluence libAlt Rat.sqrt (stateOf libAlt oneProc 0) ids1 (.dict log1) ids1 (.dict log1) .dot true .auto none (some 1)) kTotal ∧
    infData (computeInfluence lib Rat.sqrt (stateOf lib twoProcs 1) ids1 (.dict log1) ids1 (.dict log1) .dot true .auto none (some 1)) kTotal ≠
    infData (computeInfluence lib Rat.sqrt (stateOf lib twoProcs 1) ids1 (.dict log1) ids1 (.dict log1) .dot false .auto none (some 1)) kTotal := by
  decide +kernel

end Logix.ExInfl
