/-
C75 on a concrete run: two modules, three samples, saved in two batches; and the counterexample for flat loading.
-/
import Verif.Props.EndToEnd
import Verif.Props.InflAllExample

namespace Logix.ExInfl
open Logix

/-- Whole numbers below 256 in the first byte. -/
def codec : Codec Rat where
  enc d x := ⟨UInt8.ofNat x.num.toNat :: List.replicate (d.itemsize - 1) 0, by
    have := d.itemsize_pos
    simp; omega⟩
  dec _ bs := ((bs.headD 0).toNat : Rat)

/-- A log of both layers, one triple per sample. -/
def logAB (dev : Dev) (xs : List (Rat × Rat × Rat)) : GLog Rat :=
  [(nmA, [(LogType.name .grad, ⟨dev, [xs.length, 1, 2], xs.flatMap fun x => [x.1, x.2.1], by simp [numel]⟩)]),
   (nmB, [(LogType.name .grad, ⟨dev, [xs.length, 1, 1], xs.map fun x => x.2.2, by simp [numel]⟩)])]

theorem labAB {ids : List PyStr} {dev : Dev} {xs : List (Rat × Rat × Rat)} (h : xs.length = ids.length) : Spec.Labelled ids (logAB dev xs) := by
  refine ⟨by simp [logAB, Dict.keys, nmA, nmB], fun m hm => ?_⟩
  simp only [logAB, Dict.keys, List.map_cons, List.map_nil, List.mem_cons, List.not_mem_nil, or_false] at hm
  rcases hm with rfl | rfl <;> exact ⟨_, rfl, h⟩

def modsAB : List PyStr := [nmA, nmB]

def shapeAB (m _t : PyStr) : List Nat := if m = nmA then [1, 2] else [1, 1]

/-- Two batches are saved, and the saver is finalized in between. -/
def opsAB : List (LogOp Rat) := [.save [['u'], ['v']] (logAB (.cuda 0) [(1, 2, 3), (0, 5, 1)]), .finalize, .save [['w']] (logAB (.cuda 0) [(4, 0, 2)])]

/-- The same gradients in memory. -/
def memAB : GLog Rat := logAB .cpu [(1, 2, 3), (0, 5, 1), (4, 0, 2)]

theorem planAB : Spec.LogPlan (Spec.gradOrder modsAB) shapeAB where
  nodup := by decide
  pairs := by
    intro p hp
    obtain ⟨m, -, rfl⟩ := List.mem_map.1 hp
    exact ⟨m, _, rfl⟩
  grads := by
    intro m t h
    obtain ⟨m', hm, e⟩ := List.mem_map.1 h
    cases e
    exact h
  dims := by
    intro m t _
    unfold shapeAB
    split <;> simp
  some := ⟨nmA, LogType.name .grad, by decide, by decide⟩

theorem itemAB {dev : Dev} {xs : List (Rat × Rat × Rat)} {m t : PyStr} {x : Tensor Rat} (h : Spec.item (logAB dev xs) m t = some x) :
    t = LogType.name .grad ∧
      ((m = nmA ∧ x.shape = [xs.length, 1, 2] ∧ x.data = xs.flatMap fun x => [x.1, x.2.1]) ∨ (m = nmB ∧ x.shape = [xs.length, 1, 1] ∧ x.data = xs.map fun x => x.2.2)) := by
  unfold Spec.item logAB at h
  rw [Dict.get?_cons] at h
  split at h
  · next hm =>
    rw [Option.bind_some, Dict.get?_cons] at h
    split at h
    · next ht => cases h; exact ⟨ht.symm, .inl ⟨hm.symm, rfl, rfl⟩⟩
    · cases h
  · rw [Dict.get?_cons] at h
    split at h
    · next hm =>
      rw [Option.bind_some, Dict.get?_cons] at h
      split at h
      · next ht => cases h; exact ⟨ht.symm, .inr ⟨hm.symm, rfl, rfl⟩⟩
      · cases h
    · cases h

theorem batchAB {ids : List PyStr} {dev : Dev} {xs : List (Rat × Rat × Rat)} (h : xs.length = ids.length)
    (he : ∀ x ∈ xs, ∀ c ∈ [x.1, x.2.1, x.2.2], codec.dec .float32 (codec.enc .float32 c).1 = c) :
    Spec.PlanBatch codec .float32 (Spec.gradOrder modsAB) shapeAB ids (logAB dev xs) where
  modules := by simp [logAB, Dict.keys, nmA, nmB]
  types := by
    intro m hm
    simp only [logAB, List.mem_cons, List.not_mem_nil, or_false] at hm
    rcases hm with rfl | rfl <;> simp [Dict.keys]
  rows := by
    intro m t x hx
    obtain ⟨-, ⟨-, hs, -⟩ | ⟨-, hs, -⟩⟩ := itemAB hx <;> exact ⟨_, by rw [hs, h]⟩
  watched := by
    intro m t hm
    obtain ⟨m', hm', e⟩ := List.mem_map.1 hm
    cases e
    simp only [modsAB, List.mem_cons, List.not_mem_nil, or_false] at hm'
    rcases hm' with rfl | rfl
    · exact ⟨_, rfl, by rw [← h]; rfl⟩
    · exact ⟨_, rfl, by rw [← h]; rfl⟩
  exact := by
    intro m t x hm hx c hc
    obtain ⟨-, ⟨-, -, hd⟩ | ⟨-, -, hd⟩⟩ := itemAB hx
    · rw [hd, List.mem_flatMap] at hc
      obtain ⟨y, hy, hc⟩ := hc
      refine he y hy c ?_
      simp only [List.mem_cons, List.not_mem_nil, or_false] at hc ⊢
      tauto
    · rw [hd, List.mem_map] at hc
      obtain ⟨y, hy, rfl⟩ := hc
      exact he y hy _ (by simp)

theorem runAB : Spec.LogRun codec .float32 (Spec.gradOrder modsAB) shapeAB [] 1 opsAB where
  plan := planAB
  files := by simp [Dict.keys]
  clean := by intro f hf; cases hf
  workers := Nat.le_refl 1
  batches := by
    intro b hb
    simp only [opsAB, Spec.saves, List.mem_cons, List.not_mem_nil, or_false] at hb
    rcases hb with rfl | rfl
    · exact batchAB rfl (by decide +kernel)
    · exact batchAB rfl (by decide +kernel)
  ids := by decide

theorem sameAB {dx dy : Dev} {xs ys : List (Rat × Rat × Rat)} {i j : Nat}
    (h : ∀ m ∈ [nmA, nmB], ∀ idx ∈ indices (shapeAB m []), ((Spec.grad (logAB dy ys) m).map fun t => Spec.row t j idx) = ((Spec.grad (logAB dx xs) m).map fun t => Spec.row t i idx)) :
    Spec.SameRows (logAB dx xs) i (logAB dy ys) j := by
  intro m hm
  have hm : m ∈ [nmA, nmB] := hm
  have h := h m hm
  simp only [List.mem_cons, List.not_mem_nil, or_false] at hm
  rcases hm with rfl | rfl
  · exact ⟨_, _, rfl, rfl, rfl, fun idx hidx => Option.some.inj (h idx hidx)⟩
  · exact ⟨_, _, rfl, rfl, rfl, fun idx hidx => Option.some.inj (h idx hidx)⟩

theorem inMemoryAB : Spec.InMemory (Spec.gradOrder modsAB) opsAB idsUVW memAB where
  labelled := labAB rfl
  modules := by decide +kernel
  rows := by
    refine ⟨rfl, fun l b r h j hj => ?_⟩
    rcases l with _ | ⟨a, _ | ⟨a', l⟩⟩
    · cases h
      have : j = 0 ∨ j = 1 := by simp only [List.length_cons, List.length_nil] at hj; omega
      rcases this with rfl | rfl <;> exact sameAB (by decide +kernel)
    · cases h
      obtain rfl : j = 0 := by simp only [List.length_cons, List.length_nil] at hj; omega
      exact sameAB (by decide +kernel)
    · simp [opsAB, Spec.saves] at h

def listAB (thr : Int) : List PyStr := Dict.keys (Spec.storedRun codec .float32 (Spec.gradOrder modsAB) [] 1 thr opsAB).fs

/-- The source of the following calls. -/
def srcAB : GLog Rat := logAB .cpu [(1, -1, 2), (3, 0, 1)]

/-- Nested loading in batches of two, every flush threshold, with a group: the call returns the scores that it has in memory. -/
example (thr : Int) : ∃ l bs o' x s' w t, ((Spec.storedRun codec .float32 (Spec.gradOrder modsAB) [] 1 thr opsAB).buildLoader (listAB thr) 2 false).2 = .ok l ∧
    l.batches = .ok bs ∧ computeInfluenceAll lib Rat.sqrt (.new st) idsXY (.dict srcAB) (bs.map (LogBatch.arg codec)) .dot true true .kfac (some [gB]) (some 1) = .ok (o', some x) ∧
    computeInfluence lib Rat.sqrt st idsXY (.dict srcAB) idsUVW (.dict memAB) .dot true .kfac (some [gB]) (some 1) = .ok (s', w) ∧
    (o'.heap.deref x).influence.get? gB = some t ∧ w.influence.get? gB = some t := by
  obtain ⟨s', w, hw⟩ := isOk (x := computeInfluence lib Rat.sqrt st idsXY (.dict srcAB) idsUVW (.dict memAB) .dot true .kfac (some [gB]) (some 1)) (by decide +kernel)
  obtain ⟨l, bs, h1, h2, h3⟩ := C75_nested_partial (L := lib) (sqrt := Rat.sqrt) runAB thr (List.Perm.refl (listAB thr)) (b := 2) (by decide)
  obtain ⟨h4, h5⟩ := h3 (save := true) (.new st) (labAB rfl) inMemoryAB (by decide) hw
  obtain ⟨o', r, h6⟩ := h5 (by
    intro m t h
    obtain ⟨m', hm, e⟩ := List.mem_map.1 h
    cases e
    exact ⟨hm, rfl⟩) (.inr rfl)
  obtain ⟨x, rfl, -, -, h7⟩ := h4 o' r h6
  obtain ⟨t, h8, h9⟩ := h7 gB (.inr (by decide))
  exact ⟨l, bs, o', x, s', w, t, h1, h2, h6, hw, h8, h9⟩

/-- The loader as it is, for one threshold. -/
def loaderAB (flat : Bool) : List (List PyStr × LogArg Rat) :=
  match ((Spec.storedRun codec .float32 (Spec.gradOrder modsAB) [] 1 1 opsAB).buildLoader (listAB 1) 2 flat).2 with
  | .ok l => match l.batches with | .ok bs => bs.map (LogBatch.arg codec) | .error _ => []
  | .error _ => []

/-- Mode l2, from the loader. -/
example : ∃ o' x s' w t, computeInfluenceAll lib Rat.sqrt (.new st) idsXY (.dict srcAB) (loaderAB false) .l2 true true .kfac (some [gB]) (some 1) = .ok (o', some x) ∧
    computeInfluence lib Rat.sqrt st idsXY (.dict srcAB) idsUVW (.dict memAB) .l2 true .kfac (some [gB]) (some 1) = .ok (s', w) ∧
    (o'.heap.deref x).influence.get? gB = some t ∧ w.influence.get? gB = some t := by
  obtain ⟨s', w, hw⟩ := isOk (x := computeInfluence lib Rat.sqrt st idsXY (.dict srcAB) idsUVW (.dict memAB) .l2 true .kfac (some [gB]) (some 1)) (by decide +kernel)
  obtain ⟨o', r, h⟩ := isOk (x := computeInfluenceAll lib Rat.sqrt (.new st) idsXY (.dict srcAB) (loaderAB false) .l2 true true .kfac (some [gB]) (some 1)) (by decide +kernel)
  obtain ⟨l, bs, h1, h2, h3⟩ := C75_modes_partial (L := lib) (sqrt := Rat.sqrt) runAB 1 (List.Perm.refl (listAB 1)) (b := 2) (by decide)
  have hb : loaderAB false = bs.map (LogBatch.arg codec) := by unfold loaderAB; rw [h1]; dsimp only; rw [h2]
  rw [hb] at h
  obtain ⟨x, rfl, -, -, h7⟩ := h3 (.new st) (labAB rfl) inMemoryAB (by decide) (by decide) (by decide) st_run st_noEk (calls := []) (fun c hc => by cases hc) rfl hw h
  obtain ⟨t, h8, h9⟩ := h7 gB (.inr (by decide))
  exact ⟨o', x, s', w, t, by rw [hb]; exact h, hw, h8, h9⟩

/-- The state after the setup, which lists the paths. -/
def stAB : LState Rat := st.setAttr nModelModule [(['p', 'a', 't', 'h'], .leaf (.paths (modsAB.map fun m => (m, LogType.name .grad))))]

theorem pathAB : Spec.PathIs stAB modsAB := by
  refine ⟨[(['p', 'a', 't', 'h'], .leaf (.paths (modsAB.map fun m => (m, LogType.name .grad))))], ?_, rfl⟩
  unfold LState.getAttr stAB LState.setAttr
  dsimp only
  rw [Dict.get?_set, if_pos rfl]

/-- Flat loading, every flush threshold. -/
example (thr : Int) : ∃ l bs o' x s' w t, ((Spec.storedRun codec .float32 (Spec.gradOrder modsAB) [] 1 thr opsAB).buildLoader (listAB thr) 2 true).2 = .ok l ∧
    l.batches = .ok bs ∧ computeInfluenceAll lib Rat.sqrt (.new stAB) idsXY (.dict srcAB) (bs.map (LogBatch.arg codec)) .dot true true .kfac none (some 1) = .ok (o', some x) ∧
    computeInfluence lib Rat.sqrt stAB idsXY (.dict srcAB) idsUVW (.dict memAB) .dot true .kfac none (some 1) = .ok (s', w) ∧
    (o'.heap.deref x).influence.get? kTotal = some t ∧ w.influence.get? kTotal = some t := by
  obtain ⟨s', w, hw⟩ := isOk (x := computeInfluence lib Rat.sqrt stAB idsXY (.dict srcAB) idsUVW (.dict memAB) .dot true .kfac none (some 1)) (by decide +kernel)
  obtain ⟨l, bs, h1, h2, h3⟩ := C75_flat_partial (L := lib) (sqrt := Rat.sqrt) runAB thr (List.Perm.refl (listAB thr)) (b := 2) (by decide)
  obtain ⟨h4, h5⟩ := h3 (save := true) (.new stAB) pathAB rfl (labAB rfl) inMemoryAB (by decide) hw
  obtain ⟨o', r, h6⟩ := h5 (by
    intro m hm
    exact hm) (by decide) (.inr rfl)
  obtain ⟨x, rfl, -, -, h7⟩ := h4 o' r h6
  obtain ⟨t, h8, h9⟩ := h7 kTotal (.inl rfl)
  exact ⟨l, bs, o', x, s', w, t, h1, h2, h6, hw, h8, h9⟩

/-- What the model computes, from the files. -/
example : allData (computeInfluenceAll lib Rat.sqrt (.new stAB) idsXY (.dict srcAB) (loaderAB true) .dot false true .kfac none none) kTotal = some [5, -3, 8, 6, 1, 14] := by
  decide +kernel

example : allData (computeInfluenceAll lib Rat.sqrt (.new stAB) idsXY (.dict srcAB) (loaderAB false) .dot false true .kfac none none) kTotal = some [5, -3, 8, 6, 1, 14] := by
  decide +kernel

/-- **C75 fails** for flattened loading: there are a run, a state and a call that returns against the gradients in memory, but not against the flat
loader, neither in mode dot with a group nor in mode l2 or cosine. -/
theorem C75_refuted : ∃ (order : List Path) (shape : PyStr → PyStr → List Nat) (ops : List (LogOp Rat)) (allIds ids : List PyStr) (src e : GLog Rat) (o : IFObj Rat),
    Spec.LogRun codec .float32 order shape [] 1 ops ∧ Spec.InMemory order ops allIds e ∧ Spec.Labelled ids src ∧ Spec.History lib Rat.sqrt o [] ∧ Spec.PathIs o.st modsAB ∧
    ∀ (mode : Mode) (groups : Option (List PyStr)), (mode, groups) ∈ [(.dot, some [gB]), (.l2, none), (.cosine, none)] →
      (∃ s' w, computeInfluence lib Rat.sqrt o.st ids (.dict src) allIds (.dict e) mode true .kfac groups (some 1) = .ok (s', w)) ∧
      ∀ (thr : Int) (b : Nat), 0 < b → ∃ l bs,
        ((Spec.storedRun codec .float32 order [] 1 thr ops).buildLoader (Dict.keys (Spec.storedRun codec .float32 order [] 1 thr ops).fs) b true).2 = .ok l ∧
        l.batches = .ok bs ∧ ∀ o' r, computeInfluenceAll lib Rat.sqrt o ids (.dict src) (bs.map (LogBatch.arg codec)) mode true true .kfac groups (some 1) ≠ .ok (o', r) := by
  refine ⟨Spec.gradOrder modsAB, shapeAB, opsAB, idsUVW, idsXY, srcAB, memAB, .new stAB, runAB, inMemoryAB, labAB rfl, .new stAB, pathAB, ?_⟩
  intro mode groups hm
  constructor
  · simp only [List.mem_cons, List.not_mem_nil, or_false, Prod.mk.injEq] at hm
    rcases hm with ⟨rfl, rfl⟩ | ⟨rfl, rfl⟩ | ⟨rfl, rfl⟩ <;> exact isOk (by decide +kernel)
  · intro thr b hb
    obtain ⟨l, bs, h1, h2, h3⟩ := C75_flat_raises (L := lib) (sqrt := Rat.sqrt) runAB (by decide) thr (List.Perm.refl _) hb
    refine ⟨l, bs, h1, h2, fun o' r => h3 (.new stAB) ?_⟩
    simp only [List.mem_cons, List.not_mem_nil, or_false, Prod.mk.injEq] at hm
    rcases hm with ⟨rfl, rfl⟩ | ⟨rfl, rfl⟩ | ⟨rfl, rfl⟩
    · exact .inr ⟨gB, by decide, by decide⟩
    · exact .inl (by decide)
    · exact .inl (by decide)

end Logix.ExInfl
