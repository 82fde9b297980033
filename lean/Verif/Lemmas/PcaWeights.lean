/-
The weights that PCA initialisation gives to encoders and decoders.
-/
import Verif.Lemmas.LoraVals
import Verif.Lemmas.State
import Verif.Lemmas.Tensor
import Verif.Spec.Pca

set_option linter.unusedSectionVars false

namespace Logix
open Spec
variable {K : Type} [Zero K]

theorem item2_of_covOf {d : StateDict K} {m : PyStr} {lt : LogType} {t : Tensor K} (h : covOf d m lt = some t) : item2 d m lt.name = .ok (some (.tensor t)) := by
  unfold covOf at h
  unfold item2
  simp only [Nested.lookup] at h
  cases hm : Dict.get? d m with
  | none => rw [hm] at h; simp at h
  | some w =>
    rw [hm] at h
    cases w with
    | leaf _ => simp [Nested.lookup] at h
    | node sub =>
      simp only [Nested.lookup] at h ⊢
      cases ht : Dict.get? sub lt.name with
      | none => rw [ht] at h; simp at h
      | some x =>
        rw [ht] at h
        cases x with
        | node _ => simp [Nested.lookup] at h
        | leaf v =>
          simp only [Nested.lookup] at h ⊢
          cases v with
          | tensor t' => simp only [Option.some.injEq] at h; rw [h]
          | _ => simp at h

theorem topVectors_of {P : Pca K} {x u s v : Tensor K} {n r : Nat} (hs : P.svd x = .ok (u, s, v)) (hu : u.shape = [n, n]) (hr : r ≤ n) :
    P.topVectors x r = .ok (Tensor.ofFn2 u.dev n r fun i j => u.el [i, j]) := by
  unfold Pca.topVectors
  rw [hs]
  dsimp only
  rw [hu]
  dsimp only
  rw [min_eq_left hr]

theorem getD_matrix {m n i k : Nat} (f : List Nat → K) (hi : i < m) (hk : k < n) : ((indices [m, n]).map f).getD (i * n + k) 0 = f [i, k] := by
  have h := Tensor.el_ofFn .cpu [m, n] f [i, k]
  have hr : inRange [m, n] [i, k] = true := by simp [inRange, hi, hk]
  rw [if_pos hr] at h
  unfold Tensor.el at h
  have h' : (if inRange [m, n] [i, k] = true then ((indices [m, n]).map f).getD (ravel [m, n] [i, k]) 0 else 0) = f [i, k] := h
  rw [if_pos hr] at h'
  rw [← h']
  simp [ravel, numel]

theorem asMatrix_eq {t : Tensor K} {m n i k : Nat} (ht : t.shape = [m, n]) (hi : i < m) (hk : k < n) : asMatrix t n i k = t.el [i, k] := by
  unfold asMatrix Tensor.el
  rw [ht, if_pos (by simp [inRange, hi, hk])]
  simp [ravel, numel]

theorem copyMatrix_eq (dev : Dev) {t : Tensor K} {a b : Nat} (ht : t.shape = [a, b]) :
    ∃ t', copyMatrix dev a b t = .ok t' ∧ t'.shape = [a, b] ∧ ∀ i k, i < a → k < b → asMatrix t' b i k = t.el [i, k] := by
  refine ⟨Tensor.ofFn2 dev a b fun i j => t.el [if a = 1 then 0 else i, if b = 1 then 0 else j], ?_, rfl, fun i k hi hk => ?_⟩
  · unfold copyMatrix
    rw [ht]
    dsimp only
    rw [if_pos ⟨Or.inl rfl, Or.inl rfl⟩]
  · rw [asMatrix_eq rfl hi hk, Tensor.el_ofFn2 _ _ _ _ hi hk]
    congr 1
    by_cases h1 : a = 1 <;> by_cases h2 : b = 1 <;> simp [h1, h2] <;> omega

theorem reshape_eq {t : Tensor K} {a b : Nat} {s : List Nat} (ht : t.shape = [a, b]) (hs : numel s = a * b) (dev : Dev) :
    ∃ t', t.reshape s = .ok t' ∧ (t'.onDev dev).shape = s ∧ ∀ i k, i < a → k < b → asMatrix (t'.onDev dev) b i k = t.el [i, k] := by
  have hn : numel t.shape = numel s := by rw [ht, hs]; simp [numel]
  refine ⟨⟨t.dev, s, t.data, t.wf.trans hn⟩, ?_, rfl, fun i k hi hk => ?_⟩
  · unfold Tensor.reshape
    rw [dif_pos hn]
  · rw [← asMatrix_eq ht hi hk]
    rfl

theorem loraRank_le {R : Nat} {l : Layer} (hk : HasKernel l) : loraRank R l ≤ fanIn l ∧ loraRank R l ≤ fanOut l := by
  cases l with
  | linear i o =>
    show min R (min i o) ≤ i ∧ min R (min i o) ≤ o
    omega
  | conv2d i o g gr =>
    show min R (min i o) ≤ i * (g.kernel.1 * g.kernel.2) ∧ min R (min i o) ≤ o
    obtain ⟨h1, h2⟩ := hk i o g gr rfl
    have : i * 1 ≤ i * (g.kernel.1 * g.kernel.2) := Nat.mul_le_mul_left _ (Nat.mul_pos h1 h2)
    omega
  | _ => exact ⟨Nat.le_refl 0, Nat.le_refl 0⟩

/-- The layers that have wrappers. -/
def Wrappable (l : Layer) : Prop := (∃ i o, l = .linear i o) ∨ ∃ i o g gr, l = .conv2d i o g gr

/-- The weights are the top singular vectors: the encoder's rows those of the forward covariance, the decoder's columns those of the backward covariance. -/
theorem pcaOf_eq {E : LoraEnv K} {P : Pca K} (hP : E.pca = some P) (dev : Dev) {name : PyStr} {l : Layer} (hl : Wrappable l)
    {f b uf ub : Tensor K} (hf : covOf P.cov name .forward = some f) (hb : covOf P.cov name .backward = some b)
    (huf : P.topVectors f (loraRank E.rank l) = .ok uf) (hub : P.topVectors b (loraRank E.rank l) = .ok ub)
    (suf : uf.shape = [fanIn l, loraRank E.rank l]) (sub : ub.shape = [fanOut l, loraRank E.rank l]) :
    ∃ a c, E.pcaOf dev name l = .ok (some (a, c)) ∧ a.shape = encShape E.rank l ∧ c.shape = decShape E.rank l ∧
      (∀ i k, i < loraRank E.rank l → k < fanIn l → asMatrix a (fanIn l) i k = uf.el [k, i]) ∧
      ∀ o i, o < fanOut l → i < loraRank E.rank l → asMatrix c (loraRank E.rank l) o i = ub.el [o, i] := by
  have hv : P.vectors name (loraRank E.rank l) = .ok (uf, ub) := by
    unfold Pca.vectors
    rw [item2_of_covOf hf]
    dsimp only
    rw [huf]
    dsimp only
    rw [item2_of_covOf hb]
    dsimp only
    rw [hub]
  have hT : uf.transpose2.shape = [loraRank E.rank l, fanIn l] := by
    show [uf.size 1, uf.size 0] = _
    simp [Tensor.size, suf]
  have hTe : ∀ i k, i < loraRank E.rank l → k < fanIn l → uf.transpose2.el [i, k] = uf.el [k, i] := by
    intro i k hi hk
    unfold Tensor.transpose2
    rw [Tensor.el_ofFn2]
    · simpa [Tensor.size, suf] using hi
    · simpa [Tensor.size, suf] using hk
  rcases hl with ⟨i, o, rfl⟩ | ⟨i, o, g, gr, rfl⟩
  · obtain ⟨a, a1, a2, a3⟩ := copyMatrix_eq dev hT
    obtain ⟨c, c1, c2, c3⟩ := copyMatrix_eq dev sub
    refine ⟨a, c, ?_, a2, c2, fun i k hi hk => (a3 i k hi hk).trans (hTe i k hi hk), c3⟩
    show E.pcaLinear dev name (loraRank E.rank (.linear i o)) (fanIn (.linear i o)) (fanOut (.linear i o)) = _
    unfold LoraEnv.pcaLinear
    rw [hP]
    dsimp only
    rw [hv]
    dsimp only
    rw [a1]
    dsimp only
    rw [c1]
  · obtain ⟨a, a1, a2, a3⟩ := reshape_eq (s := [loraRank E.rank (.conv2d i o g gr), i, g.kernel.1, g.kernel.2]) hT
      (by simp [numel, fanIn, Nat.mul_assoc]) dev
    obtain ⟨c, c1, c2, c3⟩ := reshape_eq (s := [o, loraRank E.rank (.conv2d i o g gr), 1, 1]) sub (by simp [numel, fanOut]) dev
    refine ⟨a.onDev dev, c.onDev dev, ?_, a2, c2, fun i k hi hk => (a3 i k hi hk).trans (hTe i k hi hk), c3⟩
    show E.pcaConv2d dev name (loraRank E.rank (.conv2d i o g gr)) i o g.kernel = _
    unfold LoraEnv.pcaConv2d
    rw [hP]
    dsimp only
    rw [hv]
    dsimp only
    rw [a1]
    dsimp only
    rw [c1]

theorem pcaOf_ready {E : LoraEnv K} (dev : Dev) {name : PyStr} {l : Layer} (hl : Wrappable l)
    (h : ∀ P, E.pca = some P → PcaReady P name l ∧ HasKernel l) : ∃ u, E.pcaOf dev name l = .ok u := by
  cases hP : E.pca with
  | none =>
    refine ⟨none, ?_⟩
    rcases hl with ⟨i, o, rfl⟩ | ⟨i, o, g, gr, rfl⟩
    · show E.pcaLinear _ _ _ _ _ = _
      unfold LoraEnv.pcaLinear
      rw [hP]
    · show E.pcaConv2d _ _ _ _ _ _ = _
      unfold LoraEnv.pcaConv2d
      rw [hP]
  | some P =>
    obtain ⟨⟨f, b, uf, sf, vf, ub, sb, vb, h1, h2, h3, h4, h5, h6⟩, hk⟩ := h P hP
    obtain ⟨r1, r2⟩ := loraRank_le (R := E.rank) hk
    obtain ⟨a, c, h7, _⟩ := pcaOf_eq hP dev hl h1 h2 (topVectors_of h3 h5 r1) (topVectors_of h4 h6 r2) rfl rfl
    exact ⟨_, h7⟩

end Logix
