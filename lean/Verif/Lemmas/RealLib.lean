/-
Over the real numbers there are library functions that keep the promises of `torch.linalg.eigh` and `torch.inverse` and always return.
-/
import Verif.Spec.Success
import Verif.Lemmas.Tensor
import Mathlib.Analysis.Matrix.Spectrum

namespace Logix
open Spec

/-- The spectral theorem, for tensors. -/
theorem exists_eigenDec (x : Tensor ℝ) (n : Nat) (hx : Symm x n) : ∃ w v : Tensor ℝ, EigenDec x w v n ∧ w.dev = x.dev ∧ v.dev = x.dev := by
  let A : Matrix (Fin n) (Fin n) ℝ := fun i j => x.el [i, j]
  have hA : A.IsHermitian := by
    ext i j
    simp only [Matrix.conjTranspose_apply, star_trivial]
    exact hx.2 j i j.2 i.2
  let U : Matrix (Fin n) (Fin n) ℝ := hA.eigenvectorUnitary
  have hU1 : U * star U = 1 := Unitary.coe_mul_star_self hA.eigenvectorUnitary
  have hU2 : star U * U = 1 := Unitary.coe_star_mul_self hA.eigenvectorUnitary
  let w : Tensor ℝ := Tensor.ofFn1 x.dev n fun a => if h : a < n then hA.eigenvalues ⟨a, h⟩ else 0
  let v : Tensor ℝ := Tensor.ofFn2 x.dev n n fun i a => if h : i < n ∧ a < n then U ⟨i, h.1⟩ ⟨a, h.2⟩ else 0
  have hv : ∀ i a (hi : i < n) (ha : a < n), v.el [i, a] = U ⟨i, hi⟩ ⟨a, ha⟩ := fun i a hi ha => by
    rw [Tensor.el_ofFn2 _ _ _ _ hi ha, dif_pos ⟨hi, ha⟩]
  have hw : ∀ a (ha : a < n), w.el [a] = hA.eigenvalues ⟨a, ha⟩ := fun a ha => by
    rw [Tensor.el_ofFn1 _ _ _ ha, dif_pos ha]
  refine ⟨w, v, ⟨rfl, rfl, fun i a hi ha => ?_, fun i j hi hj => ?_, fun a b ha hb => ?_⟩, rfl, rfl⟩
  · have := congrFun (hA.mulVec_eigenvectorBasis ⟨a, ha⟩) ⟨i, hi⟩
    rw [Finset.sum_range, hw a ha, hv i a hi ha]
    simp only [Matrix.mulVec, dotProduct, Pi.smul_apply, smul_eq_mul] at this
    refine Eq.trans (Finset.sum_congr rfl fun j _ => ?_) this
    rw [hv j a j.2 ha]
    rfl
  · have := congrFun (congrFun hU1 ⟨i, hi⟩) ⟨j, hj⟩
    rw [Finset.sum_range]
    simp only [Matrix.mul_apply, Matrix.one_apply, Matrix.star_apply, star_trivial, Fin.mk.injEq] at this
    exact Eq.trans (Finset.sum_congr rfl fun a _ => by rw [hv i a hi a.2, hv j a hj a.2]) this
  · have := congrFun (congrFun hU2 ⟨a, ha⟩) ⟨b, hb⟩
    rw [Finset.sum_range]
    simp only [Matrix.mul_apply, Matrix.one_apply, Matrix.star_apply, star_trivial, Fin.mk.injEq] at this
    exact Eq.trans (Finset.sum_congr rfl fun i _ => by rw [hv i a i.2 ha, hv i b i.2 hb]) this

/-- A right inverse is an inverse. -/
theorem exists_inverse (x y : Tensor ℝ) (n : Nat) (hxy : ∀ i j, i < n → j < n → ∑ k ∈ Finset.range n, x.el [i, k] * y.el [k, j] = if i = j then 1 else 0) :
    ∃ z : Tensor ℝ, z.shape = [n, n] ∧ (∀ i j, i < n → j < n → ∑ k ∈ Finset.range n, x.el [i, k] * z.el [k, j] = if i = j then 1 else 0) ∧
      ∀ i j, i < n → j < n → ∑ k ∈ Finset.range n, z.el [i, k] * x.el [k, j] = if i = j then 1 else 0 := by
  let A : Matrix (Fin n) (Fin n) ℝ := fun i j => x.el [i, j]
  let B : Matrix (Fin n) (Fin n) ℝ := fun i j => y.el [i, j]
  have hAB : A * B = 1 := by
    ext i j
    have := hxy i j i.2 j.2
    rw [Finset.sum_range] at this
    simp only [Matrix.mul_apply, Matrix.one_apply, Fin.ext_iff]
    exact this
  have hBA : B * A = 1 := mul_eq_one_comm.1 hAB
  refine ⟨Tensor.ofFn2 x.dev n n fun i j => y.el [i, j], rfl, fun i j hi hj => ?_, fun i j hi hj => ?_⟩
  · rw [← hxy i j hi hj]
    exact Finset.sum_congr rfl fun k hk => by rw [Tensor.el_ofFn2 _ _ _ _ (Finset.mem_range.1 hk) hj]
  · have := congrFun (congrFun hBA ⟨i, hi⟩) ⟨j, hj⟩
    simp only [Matrix.mul_apply, Matrix.one_apply, Fin.mk.injEq] at this
    rw [Finset.sum_range]
    exact Eq.trans (Finset.sum_congr rfl fun k _ => by rw [Tensor.el_ofFn2 _ _ _ _ hi k.2]) this

/-- There are library functions over the real numbers that keep all promises. -/
theorem exists_lib : ∃ L : Lib ℝ, EighOk L ∧ InverseOk L ∧ LibTotal L := by
  classical
  let E (x : Tensor ℝ) : Prop := ∃ r : Tensor ℝ × Tensor ℝ, ∀ n, Symm x n → EigenDec x r.1 r.2 n ∧ r.1.dev = x.dev ∧ r.2.dev = x.dev
  have hE : ∀ x, E x := fun x => by
    by_cases h : ∃ n, Symm x n
    · obtain ⟨n, hn⟩ := h
      obtain ⟨w, v, h1⟩ := exists_eigenDec x n hn
      refine ⟨(w, v), fun n' hn' => ?_⟩
      have := hn.1.symm.trans hn'.1
      obtain rfl := (List.cons.inj this).1
      exact h1
    · exact ⟨(x, x), fun n hn => absurd ⟨n, hn⟩ h⟩
  let P (x z : Tensor ℝ) : Prop := ∀ n, x.shape = [n, n] → z.shape = [n, n] ∧
    (∀ i j, i < n → j < n → ∑ k ∈ Finset.range n, x.el [i, k] * z.el [k, j] = if i = j then 1 else 0) ∧
    ∀ i j, i < n → j < n → ∑ k ∈ Finset.range n, z.el [i, k] * x.el [k, j] = if i = j then 1 else 0
  refine ⟨⟨fun x => .ok (hE x).choose, fun x => if h : ∃ z, P x z then .ok h.choose else .error .runtimeError⟩, ?_, ?_, ?_, ?_⟩
  · intro x n hx w v h
    have h := Except.ok.inj h
    have := (hE x).choose_spec n hx
    rw [h] at this
    exact this
  · intro x n hx y h
    simp only at h
    split at h
    · next hz =>
      have h := Except.ok.inj h
      subst h
      exact hz.choose_spec n hx
    · cases h
  · exact fun x n _ => ⟨_, rfl⟩
  · intro x y n hx hxy
    obtain ⟨z, hz⟩ := exists_inverse x y n hxy
    have : ∃ z, P x z := ⟨z, fun n' hn' => by
      have := hx.symm.trans hn'
      obtain rfl := (List.cons.inj this).1
      exact hz⟩
    exact ⟨this.choose, by simp only [dif_pos this]⟩

end Logix
