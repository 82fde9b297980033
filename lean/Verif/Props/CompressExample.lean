/-
C88: an example.
-/
import Verif.Props.Compress
import Verif.Props.PcaExample
import Verif.Props.InflExample2

namespace Logix
namespace ExCompress
open Spec

def nm : PyStr := ['f', 'c']

/-- A model with one linear layer `fc` with two inputs and two outputs. -/
def model : MHeap ℚ := ⟨[⟨[nModule], .user, [(nm, 1)], []⟩, ⟨[nLinear, nModule], .linear 2 2, [], [(nWeight, 0)]⟩], [⟨⟨.cpu, [2, 2], [1, 1, 1, 1], rfl⟩, true⟩]⟩

/-- Two samples, whose inputs are multiples of `(3, 4)` and whose output gradients are multiples of `(4, 3)`. -/
def x : Tensor ℚ := ⟨.cpu, [2, 2], [3, 4, 6, 8], rfl⟩
def g : Tensor ℚ := ⟨.cpu, [2, 2], [4, 3, 8, 6], rfl⟩
def fwd : StatCall ℚ := ⟨some .linear, nm, .forward, x, none, true⟩
def bwd : StatCall ℚ := ⟨some .linear, nm, .backward, g, none, true⟩
def calls : List (Plugin × StatCall ℚ) := [(.covariance, fwd), (.covariance, bwd)]

/-- `svd` for the covariances of the example; it fails for others. -/
def svd (x : Tensor ℚ) : Py (Tensor ℚ × Tensor ℚ × Tensor ℚ) :=
  if x.dev = .cpu ∧ x.shape = [2, 2] ∧ x.data = [45 / 2, 30, 30, 40] then
    .ok (⟨.cpu, [2, 2], [3 / 5, -4 / 5, 4 / 5, 3 / 5], rfl⟩, ⟨.cpu, [2], [125 / 2, 0], rfl⟩, ⟨.cpu, [2, 2], [3 / 5, 4 / 5, -4 / 5, 3 / 5], rfl⟩)
  else if x.dev = .cpu ∧ x.shape = [2, 2] ∧ x.data = [40, 30, 30, 45 / 2] then
    .ok (⟨.cpu, [2, 2], [4 / 5, -3 / 5, 3 / 5, 4 / 5], rfl⟩, ⟨.cpu, [2], [125 / 2, 0], rfl⟩, ⟨.cpu, [2, 2], [4 / 5, 3 / 5, -3 / 5, 4 / 5], rfl⟩)
  else .error .runtimeError

theorem svd_ok : SvdOk svd := by
  rintro ⟨dev, sh, da, wf⟩ n hn u s v h
  unfold svd at h
  dsimp only at h hn
  split at h
  · next hc =>
    obtain ⟨rfl, rfl, rfl⟩ := hc
    cases hn
    cases h
    refine ⟨rfl, rfl, rfl, ?_, ?_, ?_, ?_, ?_, ?_, ?_⟩
    · intro i j hi hj
      interval_cases i <;> interval_cases j <;> decide +kernel +revert
    · intro i j hi hj
      interval_cases i <;> interval_cases j <;> decide +kernel +revert
    · intro i j hi hj
      interval_cases i <;> interval_cases j <;> decide +kernel +revert
    · intro i j hi hj
      interval_cases i <;> interval_cases j <;> decide +kernel +revert
    · intro i j hi hj
      interval_cases i <;> interval_cases j <;> decide +kernel +revert
    · intro a ha
      interval_cases a <;> decide +kernel +revert
    · intro a b hab hb
      interval_cases b <;> interval_cases a <;> decide +kernel +revert
  · split at h
    · next hc =>
      obtain ⟨rfl, rfl, rfl⟩ := hc
      cases hn
      cases h
      refine ⟨rfl, rfl, rfl, ?_, ?_, ?_, ?_, ?_, ?_, ?_⟩
      · intro i j hi hj
        interval_cases i <;> interval_cases j <;> decide +kernel +revert
      · intro i j hi hj
        interval_cases i <;> interval_cases j <;> decide +kernel +revert
      · intro i j hi hj
        interval_cases i <;> interval_cases j <;> decide +kernel +revert
      · intro i j hi hj
        interval_cases i <;> interval_cases j <;> decide +kernel +revert
      · intro i j hi hj
        interval_cases i <;> interval_cases j <;> decide +kernel +revert
      · intro a ha
        interval_cases a <;> decide +kernel +revert
      · intro a b hab hb
        interval_cases b <;> interval_cases a <;> decide +kernel +revert
    · cases h

def lib : Lib ℚ := ExEkfac.lib

def state₀ : LState ℚ := match updates lib .init calls with
  | .ok s => s
  | .error _ => .init

theorem run : updates lib .init calls = .ok state₀ := by
  unfold state₀
  split
  · assumption
  · next e h =>
    exfalso
    have : (match updates lib .init calls with | .ok _ => true | .error _ => false) = true := by decide +kernel
    rw [h] at this
    cases this

def state : LState ℚ := match state₀.finalize ⟨[], none⟩ with
  | .ok s => s.1
  | .error _ => .init

theorem fin : ∃ dir', state₀.finalize ⟨[], none⟩ = .ok (state, dir') := by
  unfold state
  split
  · next r h => exact ⟨r.2, h⟩
  · next e h =>
    exfalso
    have : (match state₀.finalize ⟨[], none⟩ with | .ok _ => true | .error _ => false) = true := by decide +kernel
    rw [h] at this
    cases this

def env : LoraEnv ℚ := ⟨1, true, none, fun _ _ => 7, match state.getAttr nCov with
  | .ok cov => some ⟨svd, cov⟩
  | .error _ => none⟩

theorem env_eq : LoraEnv.ofState 1 true none (fun _ _ => 7) nPca svd state = .ok env := by
  unfold LoraEnv.ofState env
  cases hc : state.getAttr nCov with
  | error e =>
    exfalso
    have : (match state.getAttr nCov with | .ok _ => true | .error _ => false) = true := by decide +kernel
    rw [hc] at this
    cases this
  | ok cov =>
    have hne : cov.isEmpty = false := by
      have : (match state.getAttr nCov with | .ok c => c.isEmpty | .error _ => true) = false := by decide +kernel
      rw [hc] at this
      exact this
    dsimp only
    rw [if_pos ⟨rfl, by simp [hne]⟩]

theorem wf : WFModel model := by
  have he : ∀ p k c, Entry model p k c → p = 0 ∧ k = nm ∧ c = 1 := by
    rintro p k c ⟨m, hm, hk⟩
    match p, hm with
    | 0, hm => cases hm; simp at hk; exact ⟨rfl, hk.1, hk.2⟩
    | 1, hm => cases hm; simp at hk
    | n + 2, hm => simp [model] at hm
  refine ⟨?_, ?_, ?_, ⟨fun i => 2 - i, ?_⟩, ?_⟩
  · intro p m hm
    match p, hm with
    | 0, hm => cases hm; decide
    | 1, hm => cases hm; decide
    | n + 2, hm => simp [model] at hm
  · intro p k c h
    obtain ⟨rfl, rfl, rfl⟩ := he p k c h
    decide
  · intro p k c h
    obtain ⟨rfl, rfl, rfl⟩ := he p k c h
    decide
  · intro p k c h
    obtain ⟨rfl, rfl, rfl⟩ := he p k c h
    decide
  · intro p m k i hm hk
    match p, hm with
    | 0, hm => cases hm; simp at hk
    | 1, hm => cases hm; simp at hk; simp [model, hk.2]
    | n + 2, hm => simp [model] at hm

theorem not_leaf : ¬ IsLeaf model 0 := by
  rintro ⟨m, hm, hc⟩
  cases hm
  simp at hc

theorem selected : Selected model none none nm 1 := ⟨_, rfl, rfl, Or.inl (by decide), (by intro l h; cases h), (by intro l h; cases h)⟩

def wrapped : MHeap ℚ := match addLora env model 0 none none with
  | .ok h => h
  | .error _ => model

theorem added : addLora env model 0 none none = .ok wrapped := by
  unfold wrapped
  split
  · assumption
  · next e h =>
    exfalso
    have : (match addLora env model 0 none none with | .ok _ => true | .error _ => false) = true := by decide +kernel
    rw [h] at this
    cases this

def wrapperId : Nat := (Dict.get? (wrapped.kids 0) nm).getD 0

theorem becomes : Becomes model wrapped 0 nm 1 wrapperId :=
  ⟨[], 0, nm, .nil, ⟨_, rfl, by simp⟩, rfl, by
    rw [← mem_kids]
    exact Dict.mem_of_get? _ (by decide +kernel)⟩

theorem callsF : callsOf .covariance nm .forward calls = [fwd] := by rfl
theorem callsB : callsOf .covariance nm .backward calls = [bwd] := by rfl

theorem pcaRun : PcaRun calls 1 model wrapped nm (.linear 2 2) wrapperId where
  ex := by
    obtain ⟨dir', hfin⟩ := fin
    exact ⟨lib, state₀, state, ⟨[], none⟩, dir', true, none, fun _ _ => 7, svd, env, 0, none, none, 1, ⟨[nLinear, nModule], .linear 2 2, [], [(nWeight, 0)]⟩, run, hfin,
      svd_ok, env_eq, wf, not_leaf, by decide, added, by decide +kernel, selected, becomes, rfl, rfl⟩
  kernel := by intro i o g gr h; cases h
  fpos := by decide +kernel
  bpos := by decide +kernel
  fwd := by intro x hx; rw [callsF] at hx; simp at hx; subst hx; exact ⟨by decide +kernel, rfl⟩
  bwd := by intro x hx; rw [callsB] at hx; simp at hx; subst hx; exact ⟨by decide +kernel, rfl⟩

/-- The data has one dimension, which is the rank of the wrapper. -/
theorem lowRank : LowRank calls 1 nm (.linear 2 2) := by
  refine ⟨⟨fun _ k => if k = 0 then 3 / 5 else 4 / 5, ?_, ?_⟩, ⟨fun _ k => if k = 0 then 4 / 5 else 3 / 5, ?_, ?_⟩⟩
  · intro i j hi hj
    have hi : i < 1 := hi
    have hj : j < 1 := hj
    interval_cases i; interval_cases j; decide +kernel +revert
  · intro y hy
    rw [callsF] at hy
    have hy : y ∈ [(fun j => x.el [0, j]), fun j => x.el [1, j]] := hy
    simp only [List.mem_cons, List.not_mem_nil, or_false] at hy
    rcases hy with rfl | rfl
    · refine ⟨fun _ => 5, fun k hk => ?_⟩
      have hk : k < 2 := hk
      interval_cases k <;> decide +kernel
    · refine ⟨fun _ => 10, fun k hk => ?_⟩
      have hk : k < 2 := hk
      interval_cases k <;> decide +kernel
  · intro i j hi hj
    have hi : i < 1 := hi
    have hj : j < 1 := hj
    interval_cases i; interval_cases j; decide +kernel +revert
  · intro y hy
    rw [callsB] at hy
    have hy : y ∈ [(fun j => g.el [0, j]), fun j => g.el [1, j]] := hy
    simp only [List.mem_cons, List.not_mem_nil, or_false] at hy
    rcases hy with rfl | rfl
    · refine ⟨fun _ => 5, fun k hk => ?_⟩
      have hk : k < 2 := hk
      interval_cases k <;> decide +kernel
    · refine ⟨fun _ => 10, fun k hk => ?_⟩
      have hk : k < 2 := hk
      interval_cases k <;> decide +kernel

def A : Tensor ℚ := ⟨.cpu, [1, 2], [3 / 5, 4 / 5], rfl⟩
def D : Tensor ℚ := ⟨.cpu, [2, 1], [4 / 5, 3 / 5], rfl⟩

theorem weights : Weights wrapped wrapperId A D := by
  refine ⟨(Dict.get? (wrapped.kids wrapperId) nA).getD 0, (Dict.get? (wrapped.kids wrapperId) nC).getD 0, ?_, ?_, by decide +kernel, by decide +kernel⟩
  · rw [← mem_kids]
    exact Dict.mem_of_get? _ (by decide +kernel)
  · rw [← mem_kids]
    exact Dict.mem_of_get? _ (by decide +kernel)

/-- Another sample, which was not logged. -/
def x' : Tensor ℚ := ⟨.cpu, [1, 2], [1, 0], rfl⟩
def g' : Tensor ℚ := ⟨.cpu, [1, 2], [1, 1], rfl⟩

theorem linear_back {N : Nat} {g gB : Tensor ℚ} (hg : g.shape = [N, 2]) (hs : gB.shape = [N, 1]) (hd : gB.dev = .cpu)
    (h : ∀ n, n < N → gB.el [n, 0] = g.el [n, 0] * (4 / 5) + g.el [n, 1] * (3 / 5)) : IsBackward (linearForward D none) [N, 1] .cpu g gB := by
  obtain ⟨gin, hb⟩ := linear_backward_exists (c := D) (g := g) (R := 1) (O := 2) (pre := [N]) rfl hg
  have hb : IsBackward (linearForward D none) ([N] ++ [1]) .cpu g gin := hb
  have : gin = gB := by
    refine Tensor.ext_el (hb.2.1.trans hd.symm) (hb.1.trans hs.symm) fun idx hidx => ?_
    rw [hb.1] at hidx
    match idx, hidx with
    | [n, m], hidx =>
      simp [inRange] at hidx
      obtain ⟨hn, rfl⟩ := hidx
      have := linear_backward (c := D) rfl rfl hb (p := [n]) (s := 0) (by simp [inRange, hn]) (by decide)
      refine this.trans ?_
      rw [h n hn, Finset.sum_range_succ, Finset.sum_range_one]
      rfl
    | [], hidx => simp [inRange] at hidx
    | [_], hidx => simp [inRange] at hidx
    | _ :: _ :: _ :: _, hidx => simp [inRange] at hidx
  rw [← this]
  exact hb

def G : Tensor ℚ := ⟨.cpu, [2, 2, 2], [12, 16, 9, 12, 48, 64, 36, 48], rfl⟩
def GB : Tensor ℚ := ⟨.cpu, [2, 1, 1], [25, 100], rfl⟩
def G' : Tensor ℚ := ⟨.cpu, [1, 2, 2], [1, 0, 1, 0], rfl⟩
def GB' : Tensor ℚ := ⟨.cpu, [1, 1, 1], [21 / 25], rfl⟩

theorem grads : LayerGrads 1 (.linear 2 2) A D x g G GB 2 := by
  refine ⟨⟨[], rfl, rfl⟩, rfl, rfl, rfl, by decide +kernel, ⟨.cpu, [2, 1], [5, 10], rfl⟩, ⟨.cpu, [2, 1], [5, 10], rfl⟩, by decide +kernel, ?_, by decide +kernel⟩
  refine linear_back rfl rfl rfl fun n hn => ?_
  interval_cases n <;> decide +kernel

theorem grads' : LayerGrads 1 (.linear 2 2) A D x' g' G' GB' 1 := by
  refine ⟨⟨[], rfl, rfl⟩, rfl, rfl, rfl, by decide +kernel, ⟨.cpu, [1, 1], [3 / 5], rfl⟩, ⟨.cpu, [1, 1], [7 / 5], rfl⟩, by decide +kernel, ?_, by decide +kernel⟩
  refine linear_back rfl rfl rfl fun n hn => ?_
  interval_cases n
  decide +kernel

theorem logged : LoggedPair calls nm .linear x g := by
  refine ⟨⟨fwd, ?_, rfl, rfl⟩, ⟨bwd, ?_, rfl, rfl⟩⟩
  · rw [callsF]; simp
  · rw [callsB]; simp

/-- The hypotheses of C88 are met, and the inner products are `84`, of numbers and of matrices. -/
example : sampleDot 1 1 GB 1 GB' 0 = sampleDot 2 2 G 1 G' 0 ∧ sampleDot 1 1 GB 1 GB' 0 = 84 :=
  ⟨(C88_inner_product pcaRun lowRank).2 A D weights logged grads grads' (by decide) (by decide), by decide +kernel⟩

/-- The gradient of the sample that was not logged gets smaller. -/
example : sampleDot 1 1 GB' 0 GB' 0 ≤ sampleDot 2 2 G' 0 G' 0 ∧ sampleDot 1 1 GB' 0 GB' 0 ≠ sampleDot 2 2 G' 0 G' 0 :=
  ⟨C88_contracts pcaRun weights grads' (by decide), by decide +kernel⟩

def nmB : PyStr := ['f', 'c', '.', 'B']
def idQ : List PyStr := [['q']]
def idsAB : List PyStr := [['a'], ['b']]

def logOf (m : PyStr) (t : Tensor ℚ) : GLog ℚ := [(m, [(LogType.name .grad, t)])]

theorem labelled {ids : List PyStr} {m : PyStr} {t : Tensor ℚ} (h : t.size 0 = ids.length) : Labelled ids (logOf m t) := by
  refine ⟨by simp [logOf, Dict.keys], fun k hk => ?_⟩
  have : k = m := by simpa [logOf, Dict.keys] using hk
  subst this
  exact ⟨t, by simp [logOf, grad, Dict.get?], h⟩

/-- The hypotheses of the statement on scores are met: `q` is the sample that was not logged, `a` and `b` were. -/
example : ∃ s s' r rB t tB, computeInfluence lib id .init idQ (.dict (logOf nm G')) idsAB (.dict (logOf nm G)) .dot false .kfac none none = .ok (s, r) ∧
    computeInfluence lib id .init idQ (.dict (logOf nmB GB')) idsAB (.dict (logOf nmB GB)) .dot false .kfac none none = .ok (s', rB) ∧
    r.influence = .one t ∧ rB.influence = .one tB ∧ ∀ i j, i < 1 → j < 2 → tB.el [i, j] = t.el [i, j] := by
  obtain ⟨s, r, h1⟩ := ExInfl.isOk (x := computeInfluence lib id .init idQ (.dict (logOf nm G')) idsAB (.dict (logOf nm G)) .dot false .kfac none none) (by decide +kernel)
  obtain ⟨s', rB, h2⟩ := ExInfl.isOk (x := computeInfluence lib id .init idQ (.dict (logOf nmB GB')) idsAB (.dict (logOf nmB GB)) .dot false .kfac none none)
    (by decide +kernel)
  have := C88_scores (calls := calls) (rank := 1) (h := model) (h' := wrapped) (fun _ => nmB) (labelled rfl) (labelled rfl) (labelled rfl) (labelled rfl) rfl (by
    intro m hm
    have : m = nm := by simpa [logOf, Dict.keys] using hm
    subst this
    refine ⟨.linear 2 2, wrapperId, A, D, pcaRun, lowRank, weights, ?_, ?_⟩
    · intro i hi
      have hi : i < 1 := hi
      interval_cases i
      exact ⟨G', GB', x', g', G', GB', 1, 0, rfl, rfl, rfl, rfl, trivial, grads', by decide, fun _ _ => rfl, fun _ _ => rfl⟩
    · intro j hj
      have hj : j < 2 := hj
      exact ⟨G, GB, x, g, G, GB, 2, j, rfl, rfl, rfl, rfl, logged, grads, hj, fun _ _ => rfl, fun _ _ => rfl⟩) h1 h2
  obtain ⟨t, tB, e1, e2, -, -, e3⟩ := this
  exact ⟨s, s', r, rB, t, tB, h1, h2, e1, e2, e3⟩

end ExCompress
end Logix
