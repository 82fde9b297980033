/-
Lemmas about preconditioning and influence scores.
-/
import Verif.Spec.Influence
import Verif.Props.Runs
import Mathlib.Algebra.BigOperators.Ring.Finset
import Mathlib.Tactic.Ring

namespace Logix
variable {K : Type}

/-! ### Sums over index tuples -/

theorem indices1_sum [Semiring K] (n : Nat) (f : List Nat → K) : ((indices [n]).map f).sum = ∑ i ∈ Finset.range n, f [i] := by
  simp only [indices, List.map_cons, List.map_nil]
  rw [← list_sum_range]
  induction List.range n with
  | nil => rfl
  | cons a rest ih => rw [List.flatMap_cons, List.map_append, List.sum_append, ih]; simp

theorem indices_cons_sum [Semiring K] (n : Nat) (s : List Nat) (f : List Nat → K) :
    ((indices (n :: s)).map f).sum = ∑ i ∈ Finset.range n, ((indices s).map fun idx => f (i :: idx)).sum := by
  simp only [indices]
  rw [← list_sum_range]
  induction List.range n with
  | nil => rfl
  | cons a rest ih => rw [List.flatMap_cons, List.map_append, List.sum_append, ih]; simp [List.map_map, Function.comp_def]

theorem indices2_sum [Semiring K] (n m : Nat) (f : List Nat → K) :
    ((indices [n, m]).map f).sum = ∑ i ∈ Finset.range n, ∑ j ∈ Finset.range m, f [i, j] := by
  rw [indices_cons_sum]
  exact Finset.sum_congr rfl fun i _ => indices1_sum m _

/-! ### KFAC -/

/-- Entry `(a, b)` of a gradient in the eigenbasis. -/
def rotF [Semiring K] (ef eb : Tensor K) (g : List Nat → K) (a b : Nat) : K :=
  ∑ p ∈ Finset.range (eb.size 0), ∑ q ∈ Finset.range (ef.size 0), eb.el [p, a] * g [p, q] * ef.el [q, b]

theorem kfacSolve_ok [Field K] {g ef eb full p : Tensor K} (h : kfacSolve g ef eb full = .ok p) :
    ∃ n o i, g.shape = [n, o, i] ∧ ef.shape = [i, full.size 1] ∧ eb.shape = [o, full.size 0] ∧ full.shape = [full.size 0, full.size 1] ∧
      p.shape = g.shape ∧ p.dev = g.dev ∧ ∀ k x y, k < n → x < o → y < i →
        p.el [k, x, y] = ∑ a ∈ Finset.range (full.size 0), ∑ b ∈ Finset.range (full.size 1),
          eb.el [x, a] * (rotF ef eb (Spec.row g k) a b / full.el [a, b]) * ef.el [y, b] := by
  unfold kfacSolve at h
  split at h
  · next n o i hs =>
    split at h
    · next hc =>
      cases h
      obtain ⟨h1, h2, h3⟩ := hc
      have e0 : eb.size 0 = o := by simp [Tensor.size, h2]
      have f0 : ef.size 0 = i := by simp [Tensor.size, h1]
      refine ⟨n, o, i, hs, h1, h2, ?_, ?_, rfl, fun k x y hk hx hy => ?_⟩
      · match hf : full.shape, h3 with
        | [u, v], _ => simp [Tensor.size, hf]
      · rw [Tensor.ofFn3_shape, hs]
      · rw [Tensor.el_ofFn3 _ _ _ _ _ hk hx hy]
        simp only [rotF, e0, f0, Spec.row]
    · cases h
  · cases h

theorem kfac_dot [Field K] {g ef eb full p : Tensor K} (h : kfacSolve g ef eb full = .ok p) {i : Nat} (hi : i < g.size 0) (f : List Nat → K) :
    Spec.dot g.shape.tail (Spec.row p i) f =
      ∑ a ∈ Finset.range (full.size 0), ∑ b ∈ Finset.range (full.size 1),
        rotF ef eb (Spec.row g i) a b * rotF ef eb f a b / full.el [a, b] := by
  obtain ⟨n, o, w, hs, h1, h2, h3, h4, h5, h6⟩ := kfacSolve_ok h
  have e0 : eb.size 0 = o := by simp [Tensor.size, h2]
  have f0 : ef.size 0 = w := by simp [Tensor.size, h1]
  have hn : i < n := by simpa [Tensor.size, hs] using hi
  unfold Spec.dot
  rw [hs, List.tail_cons, indices2_sum]
  calc _ = ∑ x ∈ Finset.range o, ∑ y ∈ Finset.range w, ∑ a ∈ Finset.range (full.size 0), ∑ b ∈ Finset.range (full.size 1),
        (rotF ef eb (Spec.row g i) a b / full.el [a, b]) * (eb.el [x, a] * f [x, y] * ef.el [y, b]) := by
        refine Finset.sum_congr rfl fun x hx => Finset.sum_congr rfl fun y hy => ?_
        rw [Finset.mem_range] at hx hy
        show p.el [i, x, y] * f [x, y] = _
        rw [h6 i x y hn hx hy, Finset.sum_mul]
        refine Finset.sum_congr rfl fun a _ => ?_
        rw [Finset.sum_mul]
        exact Finset.sum_congr rfl fun b _ => by ring
    _ = ∑ a ∈ Finset.range (full.size 0), ∑ b ∈ Finset.range (full.size 1), ∑ x ∈ Finset.range o, ∑ y ∈ Finset.range w,
        (rotF ef eb (Spec.row g i) a b / full.el [a, b]) * (eb.el [x, a] * f [x, y] * ef.el [y, b]) := by
        rw [show (∑ x ∈ Finset.range o, ∑ y ∈ Finset.range w, ∑ a ∈ Finset.range (full.size 0), ∑ b ∈ Finset.range (full.size 1),
            (rotF ef eb (Spec.row g i) a b / full.el [a, b]) * (eb.el [x, a] * f [x, y] * ef.el [y, b])) =
          ∑ x ∈ Finset.range o, ∑ a ∈ Finset.range (full.size 0), ∑ y ∈ Finset.range w, ∑ b ∈ Finset.range (full.size 1),
            (rotF ef eb (Spec.row g i) a b / full.el [a, b]) * (eb.el [x, a] * f [x, y] * ef.el [y, b]) from
          Finset.sum_congr rfl fun x _ => Finset.sum_comm]
        rw [Finset.sum_comm]
        refine Finset.sum_congr rfl fun a _ => ?_
        rw [show (∑ x ∈ Finset.range o, ∑ y ∈ Finset.range w, ∑ b ∈ Finset.range (full.size 1),
            (rotF ef eb (Spec.row g i) a b / full.el [a, b]) * (eb.el [x, a] * f [x, y] * ef.el [y, b])) =
          ∑ x ∈ Finset.range o, ∑ b ∈ Finset.range (full.size 1), ∑ y ∈ Finset.range w,
            (rotF ef eb (Spec.row g i) a b / full.el [a, b]) * (eb.el [x, a] * f [x, y] * ef.el [y, b]) from
          Finset.sum_congr rfl fun x _ => Finset.sum_comm]
        rw [Finset.sum_comm]
    _ = _ := by
        refine Finset.sum_congr rfl fun a _ => Finset.sum_congr rfl fun b _ => ?_
        rw [show rotF ef eb f a b = ∑ x ∈ Finset.range o, ∑ y ∈ Finset.range w, eb.el [x, a] * f [x, y] * ef.el [y, b] by
          rw [rotF, e0, f0]]
        rw [mul_comm (rotF ef eb (Spec.row g i) a b) (∑ x ∈ Finset.range o, _), mul_div_assoc, mul_comm, Finset.mul_sum]
        exact Finset.sum_congr rfl fun x _ => by rw [Finset.mul_sum]

theorem fullEigval_dev [Semiring K] {vals : StateDict K} {m : PyStr} {dev : Dev} {full : Tensor K} {sh : Bool}
    (h : fullEigval vals m dev = .ok (full, sh)) (dev' : Dev) : full.dev = dev ∧ ∃ sh', fullEigval vals m dev' = .ok (full.onDev dev', sh') := by
  unfold fullEigval at h ⊢
  split at h
  · cases h
  · next t ht => cases h; exact ⟨rfl, _, rfl⟩
  · cases h
  · next sub ht =>
    split at h
    · next wf wb h1 h2 =>
      split at h
      · next hc => cases h; exact ⟨rfl, false, if_pos hc⟩
      · cases h
    · cases h
    · cases h

theorem fullEigval_congr [Semiring K] {vals vals' : StateDict K} {m : PyStr} (h : Dict.get? vals m = Dict.get? vals' m) (dev : Dev) :
    fullEigval vals m dev = fullEigval vals' m dev := by
  unfold fullEigval; rw [h]

/-- The damping used for a list of modules. -/
def effDamping [Field K] (vals : StateDict K) (keys : List PyStr) (damping : Option K) : K :=
  damping.getD (match keys with
    | [] => 0
    | m :: _ => match fullEigval vals m .cpu with
      | .ok (full, _) => 1 / 10 * full.mean
      | .error _ => 0)

theorem grad_cons_self (m : PyStr) (sub : Dict PyStr (Tensor K)) (rest : GLog K) :
    Spec.grad ((m, sub) :: rest) m = Dict.get? sub (LogType.name .grad) := by
  simp [Spec.grad]

theorem grad_cons_ne {m m' : PyStr} (h : m ≠ m') (sub : Dict PyStr (Tensor K)) (rest : GLog K) :
    Spec.grad ((m, sub) :: rest) m' = Spec.grad rest m' := by
  simp [Spec.grad, Dict.get?_cons, h]

theorem kfacLoop_ok [Field K] {vecs : StateDict K} : ∀ {src : GLog K} {damping : Option K} {vals vals' : StateDict K} {out out' : GLog K},
    kfacLoop vecs damping vals out src = .ok (vals', out') → (Dict.keys src).Nodup → (∀ m ∈ Dict.keys src, m ∉ Dict.keys out) →
    Dict.keys out' = Dict.keys out ++ Dict.keys src ∧
    (∀ m, m ∉ Dict.keys src → Dict.get? out' m = Dict.get? out m ∧ Dict.get? vals' m = Dict.get? vals m) ∧
    ∀ m ∈ Dict.keys src, ∃ g ef eb full sh p, Spec.grad src m = some g ∧
      item2 vecs m (LogType.name .forward) = .ok (some (.tensor ef)) ∧ item2 vecs m (LogType.name .backward) = .ok (some (.tensor eb)) ∧
      fullEigval vals m g.dev = .ok (full, sh) ∧
      kfacSolve g ef eb (Tensor.ofFn full.dev full.shape fun idx => full.el idx + effDamping vals (Dict.keys src) damping) = .ok p ∧
      Spec.grad out' m = some p ∧
      Dict.get? vals' m = if sh then
        some (.leaf (.tensor (Tensor.ofFn full.dev full.shape fun idx => full.el idx + effDamping vals (Dict.keys src) damping)))
        else Dict.get? vals m := by
  intro src
  induction src with
  | nil =>
    intro damping vals vals' out out' h _ _
    simp only [kfacLoop, Except.ok.injEq, Prod.mk.injEq] at h
    obtain ⟨rfl, rfl⟩ := h
    exact ⟨by simp [Dict.keys], fun _ _ => ⟨rfl, rfl⟩, fun m hm => by simp [Dict.keys] at hm⟩
  | cons a rest ih =>
    obtain ⟨m, sub⟩ := a
    intro damping vals vals' out out' h hn hd
    simp only [Dict.keys, List.map_cons, List.nodup_cons] at hn
    rw [kfacLoop] at h
    split at h
    · cases h
    · next g hg =>
      split at h
      · next ef eb hef heb =>
        split at h
        · cases h
        · next full sh hfull =>
          dsimp only at h
          split at h
          · cases h
          · next p hp =>
            have hdm : damping.getD (1 / 10 * full.mean) = effDamping vals (Dict.keys ((m, sub) :: rest)) damping := by
              unfold effDamping
              simp only [Dict.keys, List.map_cons]
              obtain ⟨_, sh', h'⟩ := fullEigval_dev hfull .cpu
              rw [h']
              rfl
            rw [hdm] at h hp
            generalize hD : effDamping vals (Dict.keys ((m, sub) :: rest)) damping = D at h hp ⊢
            have hm_out : m ∉ Dict.keys out := hd m (by simp [Dict.keys])
            have hkeys : Dict.keys (Dict.set out m [(LogType.name .grad, p)]) = Dict.keys out ++ [m] := by
              rw [Dict.set_of_not_mem _ _ _ hm_out]; simp [Dict.keys]
            obtain ⟨i1, i2, i3⟩ := ih h hn.2 (by
              intro m' hm'
              rw [hkeys, List.mem_append, List.mem_singleton]
              rintro (hc | rfl)
              · exact hd m' (by simp only [Dict.keys, List.map_cons, List.mem_cons]; exact .inr hm') hc
              · exact hn.1 hm')
            have hD' : ∀ v : StateDict K, effDamping v (Dict.keys rest) (some D) = D := fun v => rfl
            have hvne : ∀ m', m' ≠ m → Dict.get? (if sh = true then Dict.set vals m
                (.leaf (.tensor (Tensor.ofFn full.dev full.shape fun idx => full.el idx + D))) else vals) m' = Dict.get? vals m' := by
              intro m' hm'
              split
              · rw [Dict.get?_set_ne _ _ (Ne.symm hm')]
              · rfl
            refine ⟨?_, fun m' hm' => ?_, fun m' hm' => ?_⟩
            · rw [i1, hkeys]; simp [Dict.keys]
            · simp only [Dict.keys, List.map_cons, List.mem_cons, not_or] at hm'
              obtain ⟨j1, j2⟩ := i2 m' hm'.2
              exact ⟨by rw [j1, Dict.get?_set_ne _ _ (Ne.symm hm'.1)], by rw [j2, hvne m' hm'.1]⟩
            · simp only [Dict.keys, List.map_cons, List.mem_cons] at hm'
              by_cases hmm : m' = m
              · subst hmm
                obtain ⟨j1, j2⟩ := i2 m' hn.1
                refine ⟨g, ef, eb, full, sh, p, by rw [grad_cons_self]; exact hg, hef, heb, hfull, hp, ?_, ?_⟩
                · rw [Spec.grad, j1, Dict.get?_set_self]; simp [Dict.get?]
                · rw [j2]
                  split
                  · rw [Dict.get?_set_self]
                  · rfl
              · obtain ⟨g', ef', eb', full', sh', p', k1, k2, k3, k4, k5, k6, k7⟩ := i3 m' (hm'.resolve_left hmm)
                rw [hD'] at k5 k7
                refine ⟨g', ef', eb', full', sh', p', by rw [grad_cons_ne (Ne.symm hmm)]; exact k1, k2, k3, ?_, k5, k6, ?_⟩
                · rw [← k4]; exact fullEigval_congr (hvne m' hmm).symm _
                · rw [k7]
                  split
                  · rfl
                  · rw [hvne m' hmm]
      · cases h

/-! ### Raw -/

theorem make2d_none_ok [Zero K] {g x : Tensor K} (h : make2d g none .grad = .ok x) :
    ∃ n r, g.shape = n :: r ∧ n ≠ 0 ∧ x.shape = [n, numel r] ∧ x.dev = g.dev ∧
      ∀ i idx, i < n → inRange r idx = true → x.el [i, ravel r idx] = g.el (i :: idx) := by
  unfold make2d at h
  simp only at h
  split at h
  · cases h
  · next n r hs =>
    obtain ⟨m, h0, h1, h2⟩ := reshapeInfer_ok h
    obtain ⟨k1, k2, k3, k4⟩ := Tensor.reshape_ok h1
    simp only [numel_singleton, numel_nil, Nat.mul_one] at h0 h2
    have hm : m = numel r := by
      rw [hs, numel_cons] at h2
      exact (Nat.eq_of_mul_eq_mul_left (Nat.pos_of_ne_zero h0) h2).symm
    subst hm
    refine ⟨n, r, hs, h0, k2, k1, fun i idx hi hidx => ?_⟩
    have hr := ravel_lt r idx hidx
    refine el_reshape h1 (i :: idx) [i, ravel r idx] ?_ ?_ ?_
    · rw [hs]; simp [inRange, hi, hidx]
    · simp [inRange, hi, hr]
    · rw [hs]; simp [ravel, numel]

theorem rawSolve_ok [Semiring K] {g inv p : Tensor K} (h : rawSolve g inv = .ok p) :
    ∃ n r, g.shape = n :: r ∧ inv.shape = [numel r, numel r] ∧ p.shape = g.shape ∧ p.dev = g.dev ∧
      ∀ i idx, i < n → inRange r idx = true →
        p.el (i :: idx) = ((indices r).map fun idx' => g.el (i :: idx') * inv.el [ravel r idx', ravel r idx]).sum := by
  unfold rawSolve at h
  split at h
  · cases h
  · next x hx =>
    obtain ⟨n, r, hs, h0, h1, h2, h3⟩ := make2d_none_ok hx
    split at h
    · cases h
    · next y hy =>
      unfold Tensor.matmul at hy
      split at hy
      · next hc =>
        cases hy
        obtain ⟨c1, c2, c3, c4⟩ := hc
        have x0 : x.size 0 = n := by simp [Tensor.size, h1]
        have x1 : x.size 1 = numel r := by simp [Tensor.size, h1]
        rw [Tensor.onDev_shape] at c2
        simp only [Tensor.onDev_size] at c3 h
        obtain ⟨k1, k2, k3, k4⟩ := Tensor.reshape_ok h
        rw [Tensor.ofFn2_shape, hs, numel_cons, numel_singleton, numel_cons, x0] at k4
        have i1 : inv.size 1 = numel r := Nat.eq_of_mul_eq_mul_left (Nat.pos_of_ne_zero h0) k4
        have hinv : inv.shape = [numel r, numel r] := by
          match hi : inv.shape, c2 with
          | [u, v], _ =>
            rw [x1] at c3
            simp [Tensor.size, hi] at i1 c3
            rw [i1, c3]
        refine ⟨n, r, hs, hinv, k2, ?_, fun i idx hi hidx => ?_⟩
        · rw [k1]; exact h2
        · have hr := ravel_lt r idx hidx
          rw [el_reshape h [i, ravel r idx] (i :: idx) ?_ ?_ ?_]
          · rw [Tensor.el_ofFn2 _ _ _ _ (by rw [x0]; exact hi) (by rw [i1]; exact hr), x1, sum_range_numel]
            congr 1
            refine List.map_congr_left fun idx' hidx' => ?_
            rw [h3 i idx' hi ((mem_indices _ _).1 hidx')]
            rfl
          · rw [Tensor.ofFn2_shape, x0, i1]; simp [inRange, hi, hr]
          · rw [hs]; simp [inRange, hi, hidx]
          · rw [Tensor.ofFn2_shape, hs, x0, i1]; simp [ravel, numel]
      · cases hy

theorem rawLoop_ok [Semiring K] {inv : StateDict K} : ∀ {src out out' : GLog K}, rawLoop inv out src = .ok out' → (Dict.keys src).Nodup →
    (∀ m ∈ Dict.keys src, m ∉ Dict.keys out) →
    Dict.keys out' = Dict.keys out ++ Dict.keys src ∧ (∀ m, m ∉ Dict.keys src → Dict.get? out' m = Dict.get? out m) ∧
    ∀ m ∈ Dict.keys src, ∃ g i p, Spec.grad src m = some g ∧ item2 inv m (LogType.name .grad) = .ok (some (.tensor i)) ∧
      rawSolve g i = .ok p ∧ Spec.grad out' m = some p := by
  intro src
  induction src with
  | nil =>
    intro out out' h _ _
    simp only [rawLoop, Except.ok.injEq] at h
    subst h
    exact ⟨by simp [Dict.keys], fun _ _ => rfl, fun m hm => by simp [Dict.keys] at hm⟩
  | cons a rest ih =>
    obtain ⟨m, sub⟩ := a
    intro out out' h hn hd
    simp only [Dict.keys, List.map_cons, List.nodup_cons] at hn
    rw [rawLoop] at h
    split at h
    · cases h
    · next g hg =>
      split at h
      · next i hi =>
        split at h
        · cases h
        · next p hp =>
          have hm_out : m ∉ Dict.keys out := hd m (by simp [Dict.keys])
          have hkeys : Dict.keys (Dict.set out m [(LogType.name .grad, p)]) = Dict.keys out ++ [m] := by
            rw [Dict.set_of_not_mem _ _ _ hm_out]; simp [Dict.keys]
          obtain ⟨i1, i2, i3⟩ := ih h hn.2 (by
            intro m' hm'
            rw [hkeys, List.mem_append, List.mem_singleton]
            rintro (hc | rfl)
            · exact hd m' (by simp only [Dict.keys, List.map_cons, List.mem_cons]; exact .inr hm') hc
            · exact hn.1 hm')
          refine ⟨?_, fun m' hm' => ?_, fun m' hm' => ?_⟩
          · rw [i1, hkeys]; simp [Dict.keys]
          · simp only [Dict.keys, List.map_cons, List.mem_cons, not_or] at hm'
            rw [i2 m' hm'.2, Dict.get?_set_ne _ _ (Ne.symm hm'.1)]
          · simp only [Dict.keys, List.map_cons, List.mem_cons] at hm'
            by_cases hmm : m' = m
            · subst hmm
              refine ⟨g, i, p, by rw [grad_cons_self]; exact hg, hi, hp, ?_⟩
              rw [Spec.grad, i2 m' hn.1, Dict.get?_set_self]; simp [Dict.get?]
            · obtain ⟨g', i', p', k1, k2, k3, k4⟩ := i3 m' (hm'.resolve_left hmm)
              exact ⟨g', i', p', by rw [grad_cons_ne (Ne.symm hmm)]; exact k1, k2, k3, k4⟩
      · cases h

/-! ### The Hessian used by a call -/

/-- What the gradients are preconditioned with. -/
inductive HessKind (K : Type) where
  | none
  | kfac (vals vecs : StateDict K) (d : K)
  | raw (inv : StateDict K)

/-- An array of shape `r`, made zero outside of `r`. -/
def cut [Zero K] (r : List Nat) (g : List Nat → K) : List Nat → K := fun idx => if inRange r idx then g idx else 0

/-- The bilinear form of the inverse Hessian, for arrays of shape `r`. -/
def HessKind.form [Field K] : HessKind K → PyStr → List Nat → (List Nat → K) → (List Nat → K) → K
  | .none, _, r, g, h => Spec.dot r g h
  | .kfac vals vecs d, m, r, g, h =>
    match item2 vecs m (LogType.name .forward), item2 vecs m (LogType.name .backward), fullEigval vals m .cpu with
    | .ok (some (.tensor ef)), .ok (some (.tensor eb)), .ok (full, _) =>
      ∑ a ∈ Finset.range (full.size 0), ∑ b ∈ Finset.range (full.size 1), rotF ef eb (cut r g) a b * rotF ef eb (cut r h) a b / (full.el [a, b] + d)
    | _, _, _ => 0
  | .raw inv, m, r, g, h =>
    match item2 inv m (LogType.name .grad) with
    | .ok (some (.tensor i)) =>
      if i.shape = [numel r, numel r] then
        ((indices r).map fun idx => ((indices r).map fun idx' => g idx' * i.el [ravel r idx', ravel r idx]).sum * h idx).sum
      else 0
    | _ => 0

/-- No tensor of the state is changed in place: the eigenvalues of a module are given by those of its two covariances. -/
def HessKind.NoShared : HessKind K → Prop
  | .kfac vals _ _ => ∀ m t, Dict.get? vals m ≠ some (.leaf (.tensor t))
  | _ => True

/-- The Hessian that `precondition` uses for a log with the given modules, and the state after it was made. -/
def hessOf [Field K] (L : Lib K) (s : LState K) (keys : List PyStr) (hessian : Hess) (damping : Option K) : Py (LState K × HessKind K) :=
  match s.getAttr nCov with
  | .error e => .error e
  | .ok cov =>
    if keys.any fun k => !Dict.contains cov k then .ok (s, .none)
    else
      match usesRaw cov (keys.map fun k => (k, ([] : Dict PyStr (Tensor K)))) hessian with
      | .error e => .error e
      | .ok true =>
        match s.getCovarianceInverse L damping with
        | .error e => .error e
        | .ok (s, inv) => .ok (s, .raw inv)
      | .ok false =>
        match s.getCovarianceSvd L with
        | .error e => .error e
        | .ok (s, n) =>
          match s.getAttr n, s.getAttr nEigvec with
          | .ok vals, .ok vecs => .ok (s, .kfac vals vecs (effDamping vals keys damping))
          | _, _ => .error .attributeError

/-- The log `out` is the log `d` with every gradient preconditioned by `H`. -/
def Acts [Field K] (H : HessKind K) (d out : GLog K) : Prop :=
  Dict.keys out = Dict.keys d ∧ ∀ m g, Spec.grad d m = some g → ∃ p, Spec.grad out m = some p ∧ p.shape = g.shape ∧ p.dev = g.dev ∧
    ∀ i, i < g.size 0 → ∀ f, Spec.dot g.shape.tail (Spec.row p i) f = H.form m g.shape.tail (Spec.row g i) f

theorem Dict.set_self {κ α : Type} [DecidableEq κ] {d : Dict κ α} {k : κ} {v : α} (h : Dict.get? d k = some v) : Dict.set d k v = d := by
  induction d with
  | nil => cases h
  | cons p rest ih =>
    obtain ⟨a, b⟩ := p
    rw [Dict.get?_cons] at h
    rw [Dict.set]
    split at h
    · next hk => cases h; rw [if_pos hk]
    · next hk => rw [if_neg hk, ih h]

theorem setAttr_self {s : LState K} {n : PyStr} {d : StateDict K} (h : s.getAttr n = .ok d) : s.setAttr n d = s := by
  unfold LState.setAttr
  rw [Dict.set_self (getAttr_eq.1 h)]

theorem kfacLoop_vals [Field K] {vecs : StateDict K} {vals : StateDict K} (hv : ∀ m t, Dict.get? vals m ≠ some (.leaf (.tensor t))) :
    ∀ {src : GLog K} {damping : Option K} {vals' : StateDict K} {out out' : GLog K},
    kfacLoop vecs damping vals out src = .ok (vals', out') → vals' = vals := by
  intro src
  induction src with
  | nil =>
    intro damping vals' out out' h
    simp only [kfacLoop, Except.ok.injEq, Prod.mk.injEq] at h
    exact h.1.symm
  | cons a rest ih =>
    intro damping vals' out out' h
    rw [kfacLoop] at h
    split at h
    · cases h
    · next g hg =>
      split at h
      · split at h
        · cases h
        · next full sh hfull =>
          dsimp only at h
          split at h
          · cases h
          · have : sh = false := by
              unfold fullEigval at hfull
              split at hfull
              · cases hfull
              · next t ht => exact absurd ht (hv _ _)
              · cases hfull
              · split at hfull
                · split at hfull
                  · cases hfull; rfl
                  · cases hfull
                · cases hfull
                · cases hfull
            subst this
            exact ih h
      · cases h

theorem usesRaw_keys (cov : StateDict K) (d : GLog K) (h : Hess) : usesRaw cov ((Dict.keys d).map fun k => (k, ([] : Dict PyStr (Tensor K)))) h = usesRaw cov d h := by
  cases h <;> cases d <;> rfl

theorem grad_mem {d : GLog K} {m : PyStr} {g : Tensor K} (h : Spec.grad d m = some g) : m ∈ Dict.keys d := by
  rw [← Dict.get?_isSome_iff]
  unfold Spec.grad at h
  cases hd : Dict.get? d m with
  | none => rw [hd] at h; cases h
  | some _ => rfl

theorem precondition_acts [Field K] {L : Lib K} {s s' : LState K} {d : GLog K} {o : LogArg K} {hessian : Hess} {damping : Option K}
    (hn : (Dict.keys d).Nodup) (h : precondition L s (.dict d) hessian damping = .ok (s', o)) :
    ∃ out s₁ H, o = .dict out ∧ hessian ≠ .other ∧ hessOf L s (Dict.keys d) hessian damping = .ok (s₁, H) ∧ Acts H d out ∧ (H.NoShared → s' = s₁) := by
  unfold precondition at h
  split at h
  · cases h
  · next hh =>
    simp only at h
    split at h
    · cases h
    · next cov hcov =>
      unfold hessOf
      simp only [hcov]
      have hany : (d.any fun p => !Dict.contains cov p.1) = (Dict.keys d).any fun k => !Dict.contains cov k := by
        rw [Dict.keys, List.any_map]; rfl
      rw [hany] at h
      split at h
      · next hc =>
        cases h
        rw [if_pos hc]
        exact ⟨d, s, .none, rfl, hh, rfl, ⟨rfl, fun m g hg => ⟨g, hg, rfl, rfl, fun _ _ _ => rfl⟩⟩, fun _ => rfl⟩
      · next hc =>
        rw [if_neg hc, usesRaw_keys]
        split at h
        · cases h
        · next raw hraw =>
          simp only [hraw]
          cases raw with
          | true =>
            simp only [if_true] at h
            unfold preconditionRaw at h
            cases hinv : s.getCovarianceInverse L damping with
            | error e => simp only [hinv] at h; cases h
            | ok r =>
              obtain ⟨s₁, inv⟩ := r
              simp only [hinv] at h ⊢
              cases hl : rawLoop inv [] d with
              | error e => simp only [hl] at h; cases h
              | ok out =>
                simp only [hl, Except.ok.injEq, Prod.mk.injEq] at h
                obtain ⟨rfl, rfl⟩ := h
                obtain ⟨k1, _, k3⟩ := rawLoop_ok hl hn (by simp [Dict.keys])
                refine ⟨out, s₁, .raw inv, rfl, hh, rfl, ⟨by rw [k1]; rfl, fun m g hg => ?_⟩, fun _ => rfl⟩
                obtain ⟨g', i, p, e1, e2, e3, e4⟩ := k3 m (grad_mem hg)
                obtain rfl := Option.some.inj (hg.symm.trans e1)
                obtain ⟨n, r, hs, q1, q2, q3, q4⟩ := rawSolve_ok e3
                refine ⟨p, e4, q2, q3, fun j hj f => ?_⟩
                have hj' : j < n := by simpa [Tensor.size, hs] using hj
                simp only [HessKind.form, e2, hs, List.tail_cons, q1, if_true]
                unfold Spec.dot
                congr 1
                refine List.map_congr_left fun idx hidx => ?_
                congr 1
                exact q4 j idx hj' ((mem_indices _ _).1 hidx)
          | false =>
            simp only [Bool.false_eq_true, if_false] at h
            unfold preconditionKfac at h
            cases hsvd : s.getCovarianceSvd L with
            | error e => simp only [hsvd] at h; cases h
            | ok r =>
              obtain ⟨s₁, n⟩ := r
              simp only [hsvd] at h ⊢
              cases hvals : s₁.getAttr n with
              | error e => simp only [hvals] at h; cases h
              | ok vals =>
                cases hvecs : s₁.getAttr nEigvec with
                | error e => simp only [hvals, hvecs] at h; cases h
                | ok vecs =>
                  simp only [hvals, hvecs] at h ⊢
                  cases hl : kfacLoop vecs damping vals [] d with
                  | error e => simp only [hl] at h; cases h
                  | ok r =>
                    obtain ⟨vals', out⟩ := r
                    simp only [hl, Except.ok.injEq, Prod.mk.injEq] at h
                    obtain ⟨rfl, rfl⟩ := h
                    obtain ⟨k1, _, k3⟩ := kfacLoop_ok hl hn (by simp [Dict.keys])
                    refine ⟨out, s₁, _, rfl, hh, rfl, ⟨by rw [k1]; rfl, fun m g hg => ?_⟩, fun hns => ?_⟩
                    · obtain ⟨g', ef, eb, full, sh, p, e1, e2, e3, e4, e5, e6, _⟩ := k3 m (grad_mem hg)
                      obtain rfl := Option.some.inj (hg.symm.trans e1)
                      obtain ⟨n', o, w, hs, q1, q2, q3, q4, q5, q6⟩ := kfacSolve_ok e5
                      refine ⟨p, e6, q4, q5, fun j hj f => ?_⟩
                      obtain ⟨-, sh', e7⟩ := fullEigval_dev e4 .cpu
                      rw [kfac_dot e5 hj]
                      simp only [HessKind.form, e2, e3, e7]
                      refine Finset.sum_congr rfl fun a ha => Finset.sum_congr rfl fun b hb => ?_
                      rw [Finset.mem_range] at ha hb
                      have hcut : ∀ u : List Nat → K, rotF ef eb (cut g.shape.tail u) a b = rotF ef eb u a b := by
                        intro u
                        refine Finset.sum_congr rfl fun x hx => Finset.sum_congr rfl fun y hy => ?_
                        rw [Finset.mem_range] at hx hy
                        have hx' : x < o := by simpa [Tensor.size, q2] using hx
                        have hy' : y < w := by simpa [Tensor.size, q1] using hy
                        rw [cut, if_pos (by simp [hs, inRange, hx', hy'])]
                      rw [hcut, hcut]
                      congr 1
                      rw [Tensor.el_ofFn, if_pos]
                      · rfl
                      · rw [Tensor.ofFn_shape] at q3
                        rw [q3]
                        simp only [inRange, Bool.and_eq_true, decide_eq_true_eq, and_true]
                        exact ⟨ha, hb⟩
                    · rw [kfacLoop_vals hns hl, setAttr_self hvals]

theorem covarianceSvd_both {L : Lib K} {s s' : LState K} (h : s.covarianceSvd L = .ok s') : s'.hasAttr nEigval = true ∧ s'.hasAttr nEigvec = true := by
  unfold LState.covarianceSvd at h
  simp only at h
  split at h
  · split at h
    · cases h
    · cases h
      refine ⟨?_, ?_⟩
      · unfold LState.hasAttr
        rw [get?_setAttr, if_neg (by decide), get?_setAttr, if_pos rfl]; rfl
      · unfold LState.hasAttr
        rw [get?_setAttr, if_pos rfl]; rfl
  · cases h

theorem hessOf_idem [Field K] {L : Lib K} {s s₁ : LState K} {keys : List PyStr} {hessian : Hess} {damping : Option K} {H : HessKind K}
    (h : hessOf L s keys hessian damping = .ok (s₁, H)) : hessOf L s₁ keys hessian damping = .ok (s₁, H) := by
  unfold hessOf at h
  split at h
  · cases h
  · next cov hcov =>
    split at h
    · next hc =>
      cases h
      unfold hessOf
      simp only [hcov, hc, if_true]
    · next hc =>
      split at h
      · cases h
      · next hr =>
        split at h
        · cases h
        · next s₂ inv hinv =>
          cases h
          have hc' : s₁.getAttr nCov = .ok cov := by
            rw [getAttr_congr ((getCovarianceInverse_frame L hinv).2 _ (by decide))]; exact hcov
          have hi : s₁.getAttr nInverse = .ok inv := by
            unfold LState.getCovarianceInverse at hinv
            split at hinv
            · cases hinv
            · split at hinv
              · cases hinv
              · next hh => cases hinv; exact hh
          have hh : s₁.hasAttr nInverse = true := by unfold LState.hasAttr; rw [getAttr_eq.1 hi]; rfl
          unfold hessOf
          simp only [hc']
          rw [if_neg hc, hr]
          simp only [LState.getCovarianceInverse, hh, if_true, hi]
      · next hr =>
        split at h
        · cases h
        · next s₂ n hsvd =>
          split at h
          · next vals vecs hvals hvecs =>
            cases h
            have hc' : s₁.getAttr nCov = .ok cov := by
              rw [getAttr_congr ((getCovarianceSvd_frame L hsvd).2 _ (by decide) (by decide))]; exact hcov
            have hhas : s₁.hasAttr nEigval = true ∧ s₁.hasAttr nEigvec = true := by
              unfold LState.getCovarianceSvd at hsvd
              split at hsvd
              · cases hsvd
              · next s₃ h3 =>
                cases hsvd
                split at h3
                · next hb => cases h3; simpa using hb
                · exact covarianceSvd_both h3
            have hn : s₁.getCovarianceSvd L = .ok (s₁, n) := by
              unfold LState.getCovarianceSvd at hsvd ⊢
              rw [hhas.1, hhas.2]
              simp only [Bool.and_self, if_true]
              split at hsvd
              · cases hsvd
              · cases hsvd; rfl
            unfold hessOf
            simp only [hc']
            rw [if_neg hc, hr]
            simp only [hn, hvals, hvecs]
          · cases h

end Logix
