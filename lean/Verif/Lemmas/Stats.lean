/-
Lemmas about the statistics.
-/
import Verif.Spec.Stats
import Verif.Lemmas.Tensor
import Verif.Props.Grad

namespace Logix
variable {K : Type}

/-! ### Rows -/

theorem sum_rows [AddCommMonoid K] {α : Type} (l : List α) (f : Nat → K) (g : α → K) (h : ∀ i (hi : i < l.length), f i = g l[i]) :
    ∑ i ∈ Finset.range l.length, f i = (l.map g).sum := by
  rw [← list_sum_range]
  apply congrArg
  apply List.ext_getElem
  · simp
  · intro i h1 h2
    simp only [List.getElem_map, List.getElem_range]
    exact h i (by simpa using h2)

theorem reshapeInfer_ok {t u : Tensor K} {pre post : List Nat} (h : t.reshapeInfer pre post = .ok u) :
    ∃ m, numel pre * numel post ≠ 0 ∧ t.reshape (pre ++ m :: post) = .ok u ∧ numel t.shape = numel pre * numel post * m := by
  unfold Tensor.reshapeInfer at h
  split at h
  · cases h
  · next h0 =>
    obtain ⟨_, _, _, h4⟩ := Tensor.reshape_ok h
    refine ⟨_, h0, h, ?_⟩
    refine h4.trans ?_
    rw [numel_append, numel_cons]; ring

theorem getElem_flatMap_const {α β : Type} (l : List α) (f : α → List β) (c : Nat) (h : ∀ a ∈ l, (f a).length = c) :
    (l.flatMap f).length = l.length * c := by
  induction l with
  | nil => simp
  | cons a l ih =>
    rw [List.flatMap_cons, List.length_append, ih (fun b hb => h b (List.mem_cons_of_mem _ hb)), h a (by simp), List.length_cons, Nat.add_mul]
    omega

theorem getElem_of_getElem? {α : Type} {l : List α} {i : Nat} {a : α} (hi : i < l.length) (h : l[i]? = some a) : l[i] = a := by
  rw [List.getElem?_eq_getElem hi] at h
  exact Option.some.inj h

/-- A list with one entry per triple `(n, y, z)`. -/
theorem triple_length {β : Type} (N H W : Nat) (f : Nat → Nat → Nat → β) :
    ((List.range N).flatMap fun n => (List.range H).flatMap fun y => (List.range W).map fun z => f n y z).length = N * (H * W) := by
  rw [getElem_flatMap_const _ _ (H * W)]
  · simp
  · intro n _
    rw [getElem_flatMap_const _ _ W]
    · simp
    · simp

theorem triple_getElem? {β : Type} (N H W : Nat) (f : Nat → Nat → Nat → β) {n y z : Nat} (hn : n < N) (hy : y < H) (hz : z < W) :
    ((List.range N).flatMap fun n => (List.range H).flatMap fun y => (List.range W).map fun z => f n y z)[n * (H * W) + (y * W + z)]?
      = some (f n y z) := by
  have hin : ∀ n, ((List.range H).flatMap fun y => (List.range W).map fun z => f n y z).length = H * W := by
    intro n
    rw [getElem_flatMap_const _ _ W] <;> simp
  rw [getElem?_flatMap_const _ _ (H * W) (fun a _ => hin a) _ _ (flat2_lt hy hz)]
  simp only [List.getElem?_range hn, Option.bind_some]
  rw [getElem?_flatMap_const _ _ W (by simp) _ _ hz]
  simp only [List.getElem?_range hy, Option.bind_some, List.getElem?_map, List.getElem?_range hz, Option.map_some]

theorem exists_flat2 {a b r : Nat} (h : r < a * b) : ∃ i j, i < a ∧ j < b ∧ r = i * b + j := by
  have hb : 0 < b := by
    rcases Nat.eq_zero_or_pos b with h0 | h0
    · subst h0; simp at h
    · exact h0
  exact ⟨r / b, r % b, (Nat.div_lt_iff_lt_mul hb).2 h, Nat.mod_lt _ hb, (Nat.div_add_mod' r b).symm⟩

/-- The rows of `reshape(-1, last)`. -/
theorem linear_rows [Semiring K] {data x : Tensor K} {d : Nat} (hd : data.shape.getLast? = some d) (h : data.reshapeInfer [] [d] = .ok x) :
    x.dev = data.dev ∧ x.shape = [((indices data.shape.dropLast).map fun p j => data.el (p ++ [j])).length, data.shape.getLastD 0] ∧
      ∀ i j, (hi : i < ((indices data.shape.dropLast).map fun p j => data.el (p ++ [j])).length) → j < data.shape.getLastD 0 →
        x.el [i, j] = (((indices data.shape.dropLast).map fun p j => data.el (p ++ [j])) : List (Nat → K))[i] j := by
  obtain ⟨M, h0, h1, h2⟩ := reshapeInfer_ok h
  obtain ⟨hdev, hsh, _, _⟩ := Tensor.reshape_ok h1
  have hlast : data.shape.getLastD 0 = d := by rw [List.getLastD_eq_getLast?, hd]; rfl
  have happ : data.shape = data.shape.dropLast ++ [d] := by
    have hne : data.shape ≠ [] := by intro e; rw [e] at hd; simp at hd
    have := List.dropLast_append_getLast hne
    rw [List.getLast?_eq_some_getLast hne] at hd
    rw [Option.some.inj hd] at this
    exact this.symm
  generalize data.shape.dropLast = p at happ
  simp only [numel_nil, numel_singleton, Nat.one_mul] at h0 h2
  have hM : M = numel p := by
    rw [happ, numel_append, numel_singleton] at h2
    have h3 : d * M = d * numel p := by rw [← h2]; ring
    exact Nat.eq_of_mul_eq_mul_left (Nat.pos_of_ne_zero h0) h3
  refine ⟨hdev, ?_, ?_⟩
  · rw [hsh, hlast, List.length_map, indices_length, ← hM]; rfl
  · intro i j hi hj
    rw [hlast] at hj
    simp only [List.length_map] at hi
    simp only [List.getElem_map]
    have hr : inRange p (indices p)[i] = true := (mem_indices _ _).1 (List.getElem_mem hi)
    have hrav : ravel p (indices p)[i] = i := by
      have h4 := congrArg (fun l => l[i]?) (map_ravel_indices p)
      simp only [List.getElem?_map, List.getElem?_eq_getElem hi, Option.map_some] at h4
      rw [List.getElem?_range (by rw [indices_length] at hi; exact hi)] at h4
      exact Option.some.inj h4
    have hi' : i < M := by rw [hM]; rw [indices_length] at hi; exact hi
    apply el_reshape h1
    · rw [happ]; exact inRange_append _ _ _ _ hr (by simp [inRange, hj])
    · simp [inRange, hi', hj]
    · rw [happ, ravel_append _ _ _ _ hr, hrav]
      simp [ravel, numel]

/-- A successful `extract_patches`. -/
theorem extractPatches_ok [Zero K] {data p : Tensor K} {g : ConvGeom} (h : extractPatches data g = .ok p) :
    ∃ n c hh ww, data.shape = [n, c, hh, ww] ∧ g.kernel.1 ≤ hh + 2 * g.padding.1 ∧ g.kernel.2 ≤ ww + 2 * g.padding.2 ∧ 0 < g.stride.1 ∧
      0 < g.stride.2 ∧ p.size 3 = c * g.kernel.1 * g.kernel.2 ∧ p.dev = data.dev := by
  unfold extractPatches at h
  split at h
  · next n c hh ww hsh =>
    have hd : (if g.padding.1 + g.padding.2 > 0 then data.pad2d g.padding else data).dev = data.dev := by
      by_cases hp : g.padding.1 + g.padding.2 > 0
      · rw [if_pos hp]; rfl
      · rw [if_neg hp]
    have e2 : (if g.padding.1 + g.padding.2 > 0 then data.pad2d g.padding else data).size 2 = hh + 2 * g.padding.1 := by
      by_cases hp : g.padding.1 + g.padding.2 > 0
      · rw [if_pos hp]; simp [Tensor.size, Tensor.pad2d, hsh]
      · rw [if_neg hp]; simp [Tensor.size, hsh]; omega
    have e3 : (if g.padding.1 + g.padding.2 > 0 then data.pad2d g.padding else data).size 3 = ww + 2 * g.padding.2 := by
      by_cases hp : g.padding.1 + g.padding.2 > 0
      · rw [if_pos hp]; simp [Tensor.size, Tensor.pad2d, hsh]
      · rw [if_neg hp]; simp [Tensor.size, hsh]; omega
    generalize (if g.padding.1 + g.padding.2 > 0 then data.pad2d g.padding else data) = t at h hd e2 e3
    simp only at h
    by_cases hfit : g.kernel.1 ≤ t.size 2 ∧ g.kernel.2 ≤ t.size 3 ∧ 0 < g.stride.1 ∧ 0 < g.stride.2
    · rw [if_pos hfit] at h
      obtain ⟨hf1, hf2, hst1, hst2⟩ := hfit
      obtain ⟨hdev, hps, _, _⟩ := Tensor.reshape_ok h
      exact ⟨n, c, hh, ww, hsh, e2 ▸ hf1, e3 ▸ hf2, hst1, hst2, by simp [Tensor.size, hps], by rw [hdev, Tensor.ofFn6_dev, hd]⟩
    · rw [if_neg hfit] at h; cases h
  · cases h

/-- `make_2d` produces the rows of the specification. -/
theorem make2d_rows [Semiring K] {data x : Tensor K} {m : Option ModKind} {lt : LogType} (h : make2d data m lt = .ok x) :
    x.dev = data.dev ∧ x.shape = [(Spec.rows data m lt).length, Spec.width data m lt] ∧
      ∀ i j r, (Spec.rows data m lt)[i]? = some r → j < Spec.width data m lt → x.el [i, j] = r j := by
  unfold make2d at h
  have linearCase : ∀ {d}, data.shape.getLast? = some d → data.reshapeInfer [] [d] = .ok x →
      x.dev = data.dev ∧ x.shape = [((indices data.shape.dropLast).map fun p j => data.el (p ++ [j])).length, data.shape.getLastD 0] ∧
        ∀ i j r, ((indices data.shape.dropLast).map fun p j => data.el (p ++ [j]))[i]? = some r → j < data.shape.getLastD 0 →
          x.el [i, j] = r j := by
    intro d hd h
    obtain ⟨h1, h2, h3⟩ := linear_rows hd h
    refine ⟨h1, h2, fun i j r hr hj => ?_⟩
    obtain ⟨hi, hr⟩ := List.getElem?_eq_some_iff.1 hr
    rw [h3 i j hi hj, hr]
  cases m with
  | none =>
    simp only at h
    split at h
    · cases h
    · next n s hs =>
      obtain ⟨M, h0, h1, h2⟩ := reshapeInfer_ok h
      obtain ⟨hdev, hsh, _, _⟩ := Tensor.reshape_ok h1
      simp only [numel_nil, numel_singleton, Nat.mul_one] at h0 h2
      have hM : M = numel s := by
        rw [hs, numel_cons] at h2
        exact (Nat.eq_of_mul_eq_mul_left (Nat.pos_of_ne_zero h0) h2).symm
      have hs0 : data.size 0 = n := by simp [Tensor.size, hs]
      refine ⟨hdev, ?_, ?_⟩
      · rw [hsh]; simp [Spec.rows, Spec.width, hs, hs0, hM]
      · intro i j r hri hj
        have hrow : Spec.rows data none lt = (List.range n).map fun k j => data.el (k :: (indices s).getD j []) := by
          rw [Spec.rows, hs0, hs]; rfl
        rw [hrow] at hri
        rw [Spec.width, hs, List.tail_cons] at hj
        have hi := (List.getElem?_eq_some_iff.1 hri).1
        simp only [List.length_map, List.length_range] at hi
        rw [List.getElem?_map, List.getElem?_range hi] at hri
        have hgoal : r j = data.el (i :: (indices s).getD j []) := congrFun (Option.some.inj hri).symm j
        rw [hgoal]
        have hjl : j < (indices s).length := by rw [indices_length]; exact hj
        have hg : (indices s).getD j [] = (indices s)[j] := by simp [List.getD_eq_getElem?_getD, List.getElem?_eq_getElem hjl]
        have hr : inRange s (indices s)[j] = true := (mem_indices _ _).1 (List.getElem_mem hjl)
        have hrav : ravel s (indices s)[j] = j := by
          have h4 := congrArg (fun l => l[j]?) (map_ravel_indices s)
          simp only [List.getElem?_map, List.getElem?_eq_getElem hjl, Option.map_some] at h4
          rw [List.getElem?_range hj] at h4
          exact Option.some.inj h4
        rw [hg]
        apply el_reshape h1
        · rw [hs]; simp only [inRange, hr, Bool.and_true, decide_eq_true_eq]; exact hi
        · simp [inRange, hi, hM, hj]
        · rw [hs]; simp only [List.cons_append, List.nil_append, ravel, hrav, numel_cons, numel_nil, hM]; ring
  | some k =>
    cases lt with
    | grad => cases h
    | forward =>
      simp only at h
      cases k with
      | linear =>
        unfold makeForward2d at h
        simp only at h
        split at h
        · cases h
        · next d hd => exact linearCase hd h
      | conv2d g O =>
        have h' := h
        unfold makeForward2d at h'
        simp only at h'
        split at h'
        · cases h'
        · next p hp =>
          obtain ⟨n, c, hh, ww, hsh, hf1, hf2, hst1, hst2, hsz, hpd⟩ := extractPatches_ok hp
          obtain ⟨_, h0, hm, _⟩ := reshapeInfer_ok h'
          rw [hsz] at h0
          simp only [numel_nil, numel_singleton, Nat.one_mul] at h0
          have hc : 0 < c := by
            rcases Nat.eq_zero_or_pos c with h0' | h0'
            · subst h0'; simp at h0
            · exact h0'
          have hk1 : 0 < g.kernel.1 := by
            rcases Nat.eq_zero_or_pos g.kernel.1 with h0' | h0'
            · rw [h0'] at h0; simp at h0
            · exact h0'
          have hk2 : 0 < g.kernel.2 := by
            rcases Nat.eq_zero_or_pos g.kernel.2 with h0' | h0'
            · rw [h0'] at h0; simp at h0
            · exact h0'
          obtain ⟨P, hP1, hP2, hP3⟩ := makeForward2d_conv data n c hh ww O hsh g hk1 hk2 hst1 hst2 hf1 hf2 hc
          have hPx : P = x := by
            have : makeForward2d data (.conv2d g O) = .ok x := h
            exact Except.ok.inj (hP1.symm.trans this)
          subst hPx
          have s0 : data.size 0 = n := by simp [Tensor.size, hsh]
          have s1 : data.size 1 = c := by simp [Tensor.size, hsh]
          have s2 : data.size 2 = hh := by simp [Tensor.size, hsh]
          have s3 : data.size 3 = ww := by simp [Tensor.size, hsh]
          refine ⟨?_, ?_, ?_⟩
          · rw [(Tensor.reshape_ok hm).1, hpd]
          · rw [hP2, Spec.rows, triple_length, Spec.width, s0, s1, s2, s3]
          · intro i j r hri hj
            rw [Spec.rows, s0, s2, s3] at hri
            rw [Spec.width, s1] at hj
            have hi := (List.getElem?_eq_some_iff.1 hri).1
            rw [triple_length] at hi
            obtain ⟨a, l, ha, hl, rfl⟩ := exists_flat2 hi
            obtain ⟨y, z, hy, hz, rfl⟩ := exists_flat2 hl
            obtain ⟨cc, ii, jj, hcc, hii, hjj, rfl⟩ := exists_flat3 hj
            rw [triple_getElem? _ _ _ _ ha hy hz] at hri
            rw [← Option.some.inj hri, hP3 a cc ii jj y z ha hcc hii hjj hy hz]
            have e1 : ((cc * g.kernel.1 + ii) * g.kernel.2 + jj) / (g.kernel.1 * g.kernel.2) = cc := by
              rw [Nat.mul_comm g.kernel.1, ← Nat.div_div_eq_div_mul, flat_div hjj, flat_div hii]
            have e2 : ((cc * g.kernel.1 + ii) * g.kernel.2 + jj) / g.kernel.2 % g.kernel.1 = ii := by rw [flat_div hjj, flat_mod hii]
            have e3 : ((cc * g.kernel.1 + ii) * g.kernel.2 + jj) % g.kernel.2 = jj := flat_mod hjj
            beta_reduce
            rw [e1, e2, e3]
      | conv1d => cases h
      | other => cases h
    | backward =>
      simp only at h
      cases k with
      | linear =>
        unfold makeBackward2d at h
        simp only at h
        split at h
        · cases h
        · next d hd => exact linearCase hd h
      | conv2d g O =>
        have h' := h
        unfold makeBackward2d at h'
        simp only at h'
        split at h'
        · next n c hh ww hsh =>
          obtain ⟨M, h0, hm, _⟩ := reshapeInfer_ok h'
          simp only [numel_nil, numel_singleton, Nat.one_mul] at h0
          obtain ⟨B, hB1, hB2, hB3⟩ := makeBackward2d_conv data n c hh ww g O hsh (Nat.pos_of_ne_zero h0)
          have hBx : B = x := Except.ok.inj (hB1.symm.trans h)
          subst hBx
          have s0 : data.size 0 = n := by simp [Tensor.size, hsh]
          have s1 : data.size 1 = c := by simp [Tensor.size, hsh]
          have s2 : data.size 2 = hh := by simp [Tensor.size, hsh]
          have s3 : data.size 3 = ww := by simp [Tensor.size, hsh]
          refine ⟨?_, ?_, ?_⟩
          · rw [(Tensor.reshape_ok hm).1]; rfl
          · rw [hB2, Spec.rows, triple_length, Spec.width, s0, s1, s2, s3]
            · simp
            · simp
          · intro i j r hri hj
            have hrow : Spec.rows data (some (.conv2d g O)) .backward = (List.range n).flatMap fun n => (List.range hh).flatMap fun y =>
                (List.range ww).map fun z o => data.el [n, o, y, z] := by
              rw [Spec.rows, s0, s2, s3]; simp
            have hwid : Spec.width data (some (.conv2d g O)) .backward = c := by rw [Spec.width, s1]; simp
            rw [hwid] at hj
            rw [hrow] at hri
            have hi := (List.getElem?_eq_some_iff.1 hri).1
            rw [triple_length] at hi
            obtain ⟨a, l, ha, hl, rfl⟩ := exists_flat2 hi
            obtain ⟨y, z, hy, hz, rfl⟩ := exists_flat2 hl
            rw [triple_getElem? _ _ _ _ ha hy hz] at hri
            rw [← Option.some.inj hri, hB3 a j y z ha hj hy hz]
        · cases h'
      | conv1d => cases h
      | other => cases h

end Logix
