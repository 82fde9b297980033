/-
C104 on a concrete run: two processes on two devices fit the eigenvalues.
-/
import Verif.Props.EkfacDist
import Verif.Props.DistStateExample
import Verif.Props.EkfacScoresExample

namespace Logix.ExInfl
open Logix

/-- The library ignores the device. -/
theorem eigCheck_same {x y v v' : Tensor Rat} {n : Nat} (hxy : ∀ i j, i < n → j < n → x.el [i, j] = y.el [i, j]) (hv : v.dev = x.dev) (hv' : v'.dev = y.dev)
    (hs : v.shape = v'.shape) (he : v.el = v'.el) : eigCheck x (ritz x v n) v n = eigCheck y (ritz y v' n) v' n := by
  have hr : ∀ a, a < n → (ritz x v n).el [a] = (ritz y v' n).el [a] := by
    intro a ha
    unfold ritz
    rw [Tensor.el_ofFn1 (hi := ha), Tensor.el_ofFn1 (hi := ha)]
    refine Finset.sum_congr rfl fun i hi => Finset.sum_congr rfl fun j hj => ?_
    rw [he, hxy i j (Finset.mem_range.1 hi) (Finset.mem_range.1 hj)]
  unfold eigCheck
  refine decide_eq_decide.2 ?_
  have e1 : (ritz x v n).shape = (ritz y v' n).shape := rfl
  have e2 : (ritz x v n).dev = x.dev := rfl
  have e3 : (ritz y v' n).dev = y.dev := rfl
  rw [e1, e2, e3, hv, hv', hs, he]
  refine and_congr_right fun _ => and_congr_right fun _ => ?_
  simp only [true_and]
  refine and_congr_left fun _ => ?_
  refine forall_congr' fun i => forall_congr' fun hi => forall_congr' fun a => forall_congr' fun ha => ?_
  rw [hr a ha]
  have : ∑ j ∈ Finset.range n, x.el [i, j] * v'.el [j, a] = ∑ j ∈ Finset.range n, y.el [i, j] * v'.el [j, a] :=
    Finset.sum_congr rfl fun j hj => by rw [hxy i j hi (Finset.mem_range.1 hj)]
  rw [this]

theorem eighSame : Spec.EighSame lib := by
  intro x y n hx hy hxy w v w' v' h h'
  have hn : x.size 0 = n := by simp [Tensor.size, hx]
  have hn' : y.size 0 = n := by simp [Tensor.size, hy]
  have h : eigh x = .ok (w, v) := h
  have h' : eigh y = .ok (w', v') := h'
  unfold eigh bases at h h'
  rw [hn] at h
  rw [hn'] at h'
  simp only [List.find?_cons, List.find?_nil] at h h'
  have c1 := eigCheck_same hxy (v := Tensor.ofFn2 x.dev n n fun i j => if i = j then 1 else 0) (v' := Tensor.ofFn2 y.dev n n fun i j => if i = j then 1 else 0)
    rfl rfl rfl rfl
  have c2 := eigCheck_same hxy (v := ⟨x.dev, [2, 2], [3 / 5, -4 / 5, 4 / 5, 3 / 5], rfl⟩) (v' := ⟨y.dev, [2, 2], [3 / 5, -4 / 5, 4 / 5, 3 / 5], rfl⟩)
    rfl rfl rfl rfl
  rw [c1, c2] at h
  have key : v.el = v'.el := by
    cases k1 : eigCheck y (ritz y (Tensor.ofFn2 y.dev n n fun i j => if i = j then 1 else 0) n) (Tensor.ofFn2 y.dev n n fun i j => if i = j then 1 else 0) n with
    | true => rw [k1] at h h'; cases h; cases h'; rfl
    | false =>
      rw [k1] at h h'
      cases k2 : eigCheck y (ritz y ⟨y.dev, [2, 2], [3 / 5, -4 / 5, 4 / 5, 3 / 5], rfl⟩ n) ⟨y.dev, [2, 2], [3 / 5, -4 / 5, 4 / 5, 3 / 5], rfl⟩ n with
      | true => rw [k2] at h h'; cases h; cases h'; rfl
      | false => rw [k2] at h; cases h
  intro i j _ _
  rw [key]

def ekCall (m : PyStr) (dev : Dev) (w : Nat) (xs : List Rat) (h : xs.length = numel [1, 1, w]) : Plugin × StatCall Rat :=
  (.correctedEigval, ⟨none, m, .grad, ⟨dev, [1, 1, w], xs, h⟩, none, true⟩)

/-- Each process logs the gradients of one sample. -/
def ekTwo : List (List (Plugin × StatCall Rat)) :=
  [[ekCall nmA (.cuda 0) 2 [3, 4] rfl, ekCall nmB (.cuda 0) 1 [1] rfl], [ekCall nmA (.cuda 1) 2 [-16, 12] rfl, ekCall nmB (.cuda 1) 1 [3] rfl]]

/-- The states after the eigenvalues were fitted. -/
def ekStates : List (LState Rat) :=
  match ((statesOf lib twoProcs).zip ekTwo).mapM fun p => updates lib p.1 p.2 with
  | .ok ss => match finalizeDist ss ⟨[], none⟩ with
    | .ok (ss', _) => ss'
    | .error _ => []
  | .error _ => []

theorem mapM_forall₂ {α β : Type} {f : α → Py β} : ∀ {l : List α} {l' : List β}, l.mapM f = .ok l' → List.Forall₂ (fun a b => f a = .ok b) l l'
  | [], l', h => by cases h; exact .nil
  | a :: l, l', h => by
    rw [List.mapM_cons] at h
    cases h1 : f a with
    | error e => rw [h1] at h; cases h
    | ok b =>
      rw [h1] at h
      cases h2 : l.mapM f with
      | error e => rw [h2] at h; cases h
      | ok bs => rw [h2] at h; cases h; exact .cons h1 (mapM_forall₂ h2)

theorem ekFinTwo : Spec.EkFinalizedAll lib twoProcs ekTwo ekStates := by
  refine ⟨by decide +kernel, by decide +kernel, rfl, ?_⟩
  have h : ((((statesOf lib twoProcs).zip ekTwo).mapM fun p => updates lib p.1 p.2).toOption.bind fun ss => (finalizeDist ss ⟨[], none⟩).toOption).isSome = true := by
    decide +kernel
  unfold ekStates
  cases hu : ((statesOf lib twoProcs).zip ekTwo).mapM fun p => updates lib p.1 p.2 with
  | error e => rw [hu] at h; cases h
  | ok ss₂ =>
    rw [hu] at h
    simp only [Except.toOption, Option.bind] at h
    cases hf : finalizeDist ss₂ ⟨[], none⟩ with
    | error e => rw [hf] at h; cases h
    | ok x => exact ⟨statesOf lib twoProcs, ss₂, ⟨[], none⟩, x.2, finTwo, mapM_forall₂ hu, by simp only [hf]⟩

theorem logged_of {calls : List (Plugin × StatCall Rat)} {m : PyStr} {lt : LogType} {a b : StatCall Rat} (h : Spec.callsOf .covariance m lt calls = [a, b])
    (ha : a.mask = none) (hb : b.mask = none) : Spec.Logged calls m lt := by
  refine ⟨by rw [h]; exact List.cons_ne_nil _ _, fun c hc => .inl ?_⟩
  rw [h] at hc
  simp only [List.mem_cons, List.not_mem_nil, or_false] at hc
  rcases hc with rfl | rfl
  exacts [ha, hb]

theorem ekLoggedTwo : Spec.EkLogged twoProcs.flatten ekTwo.flatten (Dict.keys log1) .auto := by
  refine ⟨.inr ⟨rfl, fun m hm => ?_⟩, fun m hm => ?_⟩
  · rcases keys1 m hm with rfl | rfl <;> rfl
  · rcases keys1 m hm with rfl | rfl <;> exact ⟨logged_of rfl rfl rfl, logged_of rfl rfl rfl, List.cons_ne_nil _ _⟩

theorem bases_congr {calls calls' : List (Plugin × StatCall Rat)} {d : GLog Rat} {h w : PyStr → Nat} {vb vf : PyStr → Nat → Nat → Rat}
    (hB : Spec.Bases calls d h w vb vf)
    (hb : ∀ m ∈ Dict.keys d, ∀ i < h m, ∀ j < h m, Spec.secondMoment calls m .backward i j = Spec.secondMoment calls' m .backward i j)
    (hf : ∀ m ∈ Dict.keys d, ∀ i < w m, ∀ j < w m, Spec.secondMoment calls m .forward i j = Spec.secondMoment calls' m .forward i j) :
    Spec.Bases calls' d h w vb vf := by
  refine ⟨fun m hm => ⟨fun a ha => ?_, (hB.backward m hm).orthonormal⟩, fun m hm => ⟨fun a ha => ?_, (hB.forward m hm).orthonormal⟩, hB.sizes⟩
  · obtain ⟨c, hc⟩ := (hB.backward m hm).eig a ha
    exact ⟨c, fun i hi => by rw [← hc i hi]; exact Finset.sum_congr rfl fun j hj => by rw [hb m hm i hi j (Finset.mem_range.1 hj)]⟩
  · obtain ⟨c, hc⟩ := (hB.forward m hm).eig a ha
    exact ⟨c, fun i hi => by rw [← hc i hi]; exact Finset.sum_congr rfl fun j hj => by rw [hf m hm i hi j (Finset.mem_range.1 hj)]⟩

theorem simple_congr {calls calls' : List (Plugin × StatCall Rat)} {m : PyStr} {lt : LogType} {n : Nat} {v : Nat → Nat → Rat} (h : Spec.Simple calls m lt n v)
    (he : ∀ i < n, ∀ j < n, Spec.secondMoment calls m lt i j = Spec.secondMoment calls' m lt i j) : Spec.Simple calls' m lt n v := by
  have key : ∀ a i, i < n → ∑ j ∈ Finset.range n, Spec.secondMoment calls m lt i j * v j a = ∑ j ∈ Finset.range n, Spec.secondMoment calls' m lt i j * v j a :=
    fun a i hi => Finset.sum_congr rfl fun j hj => by rw [he i hi j (Finset.mem_range.1 hj)]
  exact fun a b c ha hb h1 h2 => h a b c ha hb (fun i hi => by rw [key a i hi]; exact h1 i hi) fun i hi => by rw [key b i hi]; exact h2 i hi

theorem momentB : ∀ m ∈ Dict.keys log1, ∀ i < 1, ∀ j < 1, Spec.secondMoment wholeBatch m .backward i j = Spec.secondMoment twoProcs.flatten m .backward i j := by
  intro m hm
  rcases keys1 m hm with rfl | rfl <;> decide +kernel

theorem momentF : ∀ m ∈ Dict.keys log1, ∀ i < handW m, ∀ j < handW m,
    Spec.secondMoment wholeBatch m .forward i j = Spec.secondMoment twoProcs.flatten m .forward i j := by
  intro m hm
  rcases keys1 m hm with rfl | rfl <;> decide +kernel

def ekState (i : Nat) : LState Rat := ekStates[i]?.getD .init

theorem ekGet : ekStates[1]? = some (ekState 1) := by
  have : 1 < ekStates.length := by decide +kernel
  unfold ekState
  rw [List.getElem?_eq_getElem this]; rfl

/-- The hypotheses of C104 are met, and it gives the score of the first sample on the second process, which is the one of a single process. -/
example : ∃ u r t, computeInfluence lib Rat.sqrt (ekState 1) ids1 (.dict log1) ids1 (.dict log1) .dot true .auto none (some 1) = .ok (u, r) ∧
    r.influence = .one t ∧ t.el [0, 0] = (2 / 5) ^ 2 / (200 + 1) + (11 / 5) ^ 2 / (25 / 2 + 1) + 5 ^ 2 / (5 + 1) := by
  obtain ⟨u, r, h⟩ := isOk (x := computeInfluence lib Rat.sqrt (ekState 1) ids1 (.dict log1) ids1 (.dict log1) .dot true .auto none (some 1))
    (by decide +kernel)
  obtain ⟨t, h1, -, h2⟩ := C104_simple eighOk eighSame clusterTwo ekFinTwo (by decide) ekLoggedTwo ekGet (by decide +kernel) lab1 lab1 h
    (bases_congr handBases momentB momentF) fun m hm => ⟨simple_congr (handSimple m hm).1 (momentB m hm), simple_congr (handSimple m hm).2 (momentF m hm)⟩
  refine ⟨u, r, t, h, h1, ?_⟩
  rw [h2 0 0 (by decide) (by decide)]; decide +kernel

example : ∃ u r t, computeSelf lib (ekState 1) ids1 (.dict log1) true .auto none (some 1) = .ok (u, r) ∧
    r.influence.get? kTotal = some t ∧ t.el [0] = (2 / 5) ^ 2 / (200 + 1) + (11 / 5) ^ 2 / (25 / 2 + 1) + 5 ^ 2 / (5 + 1) := by
  obtain ⟨u, r, h⟩ := isOk (x := computeSelf lib (ekState 1) ids1 (.dict log1) true .auto none (some 1)) (by decide +kernel)
  obtain ⟨t, h1, -, h2⟩ := C104_simple_self eighOk eighSame clusterTwo ekFinTwo (by decide) ekLoggedTwo ekGet (by decide +kernel) lab1 h
    (bases_congr handBases momentB momentF) fun m hm => ⟨simple_congr (handSimple m hm).1 (momentB m hm), simple_congr (handSimple m hm).2 (momentF m hm)⟩
  refine ⟨u, r, t, h, h1, ?_⟩
  rw [h2 0 (by decide)]; decide +kernel

end Logix.ExInfl
