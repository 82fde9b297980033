/-
C125 and C126 on a concrete pair of programs, with library functions that keep all promises.
-/
import Verif.Props.Padding
import Verif.Props.MaskedReturns
import Verif.Props.FullMask
import Verif.Props.SessionReturnsExample

namespace Logix.ExPadding
open Logix Spec Sess ExReturns

noncomputable section

/-- One linear layer with 2 inputs and 1 output; covariances for KFAC and for the empirical Fisher matrix. -/
def conf1 : List (SOp ℝ) := [.setup { forward := pCov, backward := pCov, grad := some [.name ['l', 'o', 'g'], .cls .covariance] }, .watch [(nmA, 0)]]
def s1 (L : Lib ℝ) : Sess ℝ := runHistory (E L) conf1 (Sess.init 1 1000 [])

/-- A sequence of two tokens; and the same with padding between them. -/
def mk : Tensor ℝ := ⟨.cuda 0, [1, 2], [1, 1], rfl⟩
def mk' : Tensor ℝ := ⟨.cuda 0, [1, 3], [1, 0, 1], rfl⟩
def x : TObj ℝ := ⟨⟨.cuda 0, [1, 2, 2], [1, 2, 3, 4], rfl⟩, .float32, false, true⟩
def x' : TObj ℝ := ⟨⟨.cuda 0, [1, 3, 2], [1, 2, 8, 9, 3, 4], rfl⟩, .float32, false, true⟩
def y : TObj ℝ := ⟨⟨.cuda 0, [1, 2, 1], [7, 7], rfl⟩, .float32, true, false⟩
def y' : TObj ℝ := ⟨⟨.cuda 0, [1, 3, 1], [7, 7, 7], rfl⟩, .float32, true, false⟩
def g : TObj ℝ := ⟨⟨.cuda 0, [1, 2, 1], [5, 6], rfl⟩, .float32, false, true⟩
def g' : TObj ℝ := ⟨⟨.cuda 0, [1, 3, 1], [5, 0, 6], rfl⟩, .float32, false, true⟩

def ctxOf (m : Tensor ℝ) : List (SOp ℝ) := [.call [['p']] (some m) false, .enter]
def bodyOf (a b c : TObj ℝ) : List (SOp ℝ) := [.alloc a, .alloc b, .alloc c, .forward 0 0 1, .gradAt 1 2, .backward 1 2, .exit]

theorem tokenMask_of {m a : Tensor ℝ} (h1 : 2 ≤ a.shape.length) (h2 : m.shape = a.shape.dropLast) (h3 : ∀ v ∈ m.data, v = 0 ∨ v = 1) : TokenMask m a := by
  refine ⟨h1, h2, fun p => ?_⟩
  rw [Tensor.el]
  split
  · next h =>
    rw [List.getD_eq_getElem?_getD, List.getElem?_eq_getElem (by rw [m.wf]; exact ravel_lt _ _ h)]
    exact h3 _ (List.getElem_mem _)
  · exact .inl rfl

theorem mask1 {a : Tensor ℝ} {w : Nat} (h : a.shape = [1, 2, w]) : TokenMask mk a :=
  tokenMask_of (by rw [h]; simp) (by rw [h]; rfl) (by simp [mk])
theorem mask2 {a : Tensor ℝ} {w : Nat} (h : a.shape = [1, 3, w]) : TokenMask mk' a :=
  tokenMask_of (by rw [h]; simp) (by rw [h]; rfl) (by simp [mk'])

theorem sample_zero (a : Tensor ℝ) : sampleTokens mk a 0 = [fun j => a.el [0, 0, j], fun j => a.el [0, 1, j]] := by
  simp [sampleTokens, mk, indices, List.range_succ, Tensor.el, inRange, ravel]

theorem sample_zero' (a : Tensor ℝ) : sampleTokens mk' a 0 = [fun j => a.el [0, 0, j], fun j => a.el [0, 2, j]] := by
  simp [sampleTokens, mk', indices, List.range_succ, Tensor.el, inRange, ravel]

theorem sample_succ (a : Tensor ℝ) (n : Nat) : sampleTokens mk a (n + 1) = [] ∧ sampleTokens mk' a (n + 1) = [] := by
  simp [sampleTokens, mk, mk', indices, List.range_succ, Tensor.el, inRange]

theorem same_of {a a' : Tensor ℝ} (h0 : a.size 0 = a'.size 0) (h1 : a.shape.getLastD 0 = a'.shape.getLastD 0)
    (h2 : ∀ j, a.el [0, 0, j] = a'.el [0, 0, j] ∧ a.el [0, 1, j] = a'.el [0, 2, j]) : SameTokens (mk, a) (mk', a') := by
  refine ⟨h0, h1, fun n => ?_⟩
  cases n with
  | zero => simp only [sample_zero, sample_zero', h2]
  | succ n => simp only [sample_succ]

theorem same_x : SameTokens (mk, x.val) (mk', x'.val) := same_of rfl rfl fun j => by
  match j with
  | 0 => exact ⟨rfl, rfl⟩
  | 1 => exact ⟨rfl, rfl⟩
  | j + 2 => simp [Tensor.el, inRange, x, x']

theorem same_g : SameTokens (mk, g.val) (mk', g'.val) := same_of rfl rfl fun j => by
  match j with
  | 0 => exact ⟨rfl, rfl⟩
  | j + 1 => simp [Tensor.el, inRange, g, g']

theorem zero_g : ZeroPadded mk g.val := by
  intro p i h
  by_cases hr : inRange g.val.shape (p ++ [i]) = true
  · have hp : inRange mk.shape p = true := by
      have := inRange_dropLast [1, 2] (w := 1) hr
      rwa [List.dropLast_concat] at this
    obtain ⟨a, b, rfl, ha, hb⟩ := inRange_two_lt hp
    obtain rfl : a = 0 := by omega
    have : b = 0 ∨ b = 1 := by omega
    rcases this with rfl | rfl
    · exact absurd h (show (1 : ℝ) ≠ 0 from one_ne_zero)
    · exact absurd h (show (1 : ℝ) ≠ 0 from one_ne_zero)
  · exact el_out hr

theorem zero_g' : ZeroPadded mk' g'.val := by
  intro p i h
  by_cases hr : inRange g'.val.shape (p ++ [i]) = true
  · have hp : inRange mk'.shape p = true := by
      have := inRange_dropLast [1, 3] (w := 1) hr
      rwa [List.dropLast_concat] at this
    obtain ⟨a, b, rfl, ha, hb⟩ := inRange_two_lt hp
    obtain rfl : a = 0 := by omega
    have hi : i = 0 := by
      obtain ⟨_, _, k, e, -, -, hk⟩ := inRange_three_lt (a := 1) (b := 3) (c := 1) hr
      simp only [List.cons_append, List.nil_append, List.cons.injEq, and_true] at e
      omega
    subst hi
    have : b = 0 ∨ b = 1 ∨ b = 2 := by omega
    rcases this with rfl | rfl | rfl
    · exact absurd h (show (1 : ℝ) ≠ 0 from one_ne_zero)
    · rfl
    · exact absurd h (show (1 : ℝ) ≠ 0 from one_ne_zero)
  · exact el_out hr

theorem conf1_ok : ∀ o ∈ conf1, Configures o := by
  simp only [conf1, List.mem_cons, List.not_mem_nil, or_false, forall_eq_or_imp, forall_eq]
  exact ⟨trivial, trivial⟩

theorem opt1_eq (L : Lib ℝ) : (s1 L).opt = { (s1 L).opt with forward := [.covariance], backward := [.covariance], grad := [.log, .covariance] } := rfl
theorem modules1_eq (L : Lib ℝ) : (s1 L).modules = [0] ∧ (s1 L).names = [(0, nmA)] ∧ (s1 L).paths = gradOrder [nmA] ∧ (s1 L).user = [] := ⟨rfl, rfl, rfl, rfl⟩

theorem configured1 (L : Lib ℝ) : Configured (s1 L) [nmA] mods lay := by
  obtain ⟨h1, h2, h3, h4⟩ := modules1_eq L
  refine ⟨?_, ?_, .inr rfl, by simp, by decide, ?_, ?_, h3, ?_⟩
  · rw [opt1_eq]; unfold OnlyStatistics; simp
  · rw [opt1_eq]; unfold PlainStats; simp
  · unfold Watches
    rw [h1, h2]
    simp only [List.mem_cons, List.not_mem_nil, or_false, forall_eq]
    decide
  · rw [h1]
    simp only [List.mem_cons, List.not_mem_nil, or_false, forall_eq]
    exact ⟨nmA, rfl, rfl⟩
  · simp only [List.mem_cons, List.not_mem_nil, or_false, forall_eq]
    decide

theorem one {P : PyStr → Prop} (h1 : P nmA) : ∀ nm ∈ [nmA], P nm := by
  intro nm hn
  rw [List.mem_singleton.1 hn]; exact h1

theorem fits1 (L : Lib ℝ) {opt : LogOption} {m : Tensor ℝ} {a b c : TObj ℝ} {k : Nat} (h1 : a.val.shape = [1, k, 2]) (h1' : a.val.dev = .cuda 0)
    (h2 : c.val.shape = [1, k, 1]) (h2' : c.val.dev = .cuda 0) (h3 : m.shape = [1, k]) (h3' : m.dev = .cuda 0) (h4 : b.reqGrad = true) (h0 : k ≠ 0) :
    ProgramFits (E L) opt [nmA] mods lay [] ⟨[['p']], false, false⟩ (fun _ => ⟨some m, [], [], []⟩) (bodyOf a b c) := by
  refine ⟨trivial, trivial, trivial, ⟨by simp [allocs], by simp [allocs], one (fun _ => ?_)⟩, one ?_, one ?_, nofun, trivial⟩
  · refine ⟨⟨1, a, rfl, one_pos, ⟨h1', [k], by simpa using h0.symm, h1⟩, fun mk hmk => ?_⟩, b, rfl, h4⟩
    obtain rfl := Option.some.inj hmk
    exact ⟨by rw [h1, h3]; rfl, by rw [h1', h3']⟩
  · exact List.forall_mem_cons.2 ⟨(fun _ => ⟨a, c, rfl, rfl, List.cons_ne_nil _ _, h2', [k], h1, h2⟩), nofun⟩
  · exact List.forall_mem_cons.2 ⟨(fun _ => ⟨1, a, c, rfl, rfl, one_pos, h2', [k], h1, h2⟩), nofun⟩

theorem run1 (L : Lib ℝ) : ∃ t, SAct.each (SOp.run (E L)) (ctxOf mk ++ (bodyOf x y g).map (shift 0) ++ [.finalize ⟨[], none⟩]) (s1 L) = (t, none) :=
  C122_returns (E L) conf1 conf1_ok 1 1000 [] (ctxOf mk) _ (some mk) (.with ..) _ mods lay _ ⟨[], none⟩ (configured1 L) (fits1 L (k := 2) rfl rfl rfl rfl rfl rfl rfl nofun)

theorem run2 (L : Lib ℝ) : ∃ t, SAct.each (SOp.run (E L)) (ctxOf mk' ++ (bodyOf x' y' g').map (shift 0) ++ [.finalize ⟨[], none⟩]) (s1 L) = (t, none) :=
  C122_returns (E L) conf1 conf1_ok 1 1000 [] (ctxOf mk') _ (some mk') (.with ..) _ mods lay _ ⟨[], none⟩ (configured1 L) (fits1 L (k := 3) rfl rfl rfl rfl rfl rfl rfl nofun)

theorem sameTokens (L : Lib ℝ) : SameKfacTokens (E L) (s1 L) mods [nmA] (some mk) (some mk') (bodyOf x y g) (bodyOf x' y' g') where
  watched := one ⟨(configured1 L).watches nmA (List.mem_singleton.2 rfl), rfl⟩
  used := one ⟨nofun, nofun⟩
  forward := one ⟨[(mk, x.val)], [(mk', x'.val)], .cons ⟨x, rfl, rfl, rfl, mask1 rfl⟩ .nil, .cons ⟨x', rfl, rfl, rfl, mask2 rfl⟩ .nil, .cons same_x .nil⟩
  backward := one ⟨[(mk, g.val)], [(mk', g'.val)], .cons ⟨g, rfl, rfl, rfl, mask1 rfl⟩ .nil, .cons ⟨g', rfl, rfl, rfl, mask2 rfl⟩ .nil, .cons same_g .nil, by
    simp only [List.cons_append, List.nil_append, List.mem_cons, List.not_mem_nil, or_false, forall_eq_or_imp, forall_eq]
    exact ⟨zero_g, zero_g'⟩⟩

theorem sameRaw (L : Lib ℝ) : SameRawTokens (E L) (s1 L) mods [nmA] (some mk) (some mk') (bodyOf x y g) (bodyOf x' y' g') where
  watched := one ⟨(configured1 L).watches nmA (List.mem_singleton.2 rfl), rfl⟩
  used := one nofun
  grads := one (.cons (.cons ⟨x, g, x', g', mk, mk', rfl, rfl, rfl, rfl, mask1 rfl, mask1 rfl, mask2 rfl, mask2 rfl, same_x, same_g, zero_g, zero_g'⟩ .nil) .nil)

theorem nonneg1 : NonnegMask (some mk) := by
  intro m hm
  obtain rfl := Option.some.inj hm
  exact ⟨by simp [mk], 1, by simp [mk], one_ne_zero⟩
theorem nonneg2 : NonnegMask (some mk') := by
  intro m hm
  obtain rfl := Option.some.inj hm
  exact ⟨by simp [mk'], 1, by simp [mk'], one_ne_zero⟩

theorem body1_ok (a b c : TObj ℝ) : ∀ o ∈ bodyOf a b c, Masks NonnegMask o ∧ ∀ nm ∈ [nmA], Logs nm o := by
  simp only [bodyOf, List.mem_cons, List.not_mem_nil, or_false, forall_eq_or_imp, forall_eq]
  simp [Masks, Logs]

/-- The hypotheses of `C125_forward` and `C125_backward` are met: two tokens in either batch. -/
example (L : Lib ℝ) : ∃ t A B, SAct.each (SOp.run (E L)) (ctxOf mk' ++ (bodyOf x' y' g').map (shift 0) ++ [.finalize ⟨[], none⟩]) (s1 L) = (t, none) ∧
    tensorAt t.st.attrs nCov [nmA, LogType.name .forward] = some A ∧ A.shape = [2, 2] ∧ A.el [0, 1] = (1 * 2 + 3 * 4) / 2 ∧
    tensorAt t.st.attrs nCov [nmA, LogType.name .backward] = some B ∧ B.shape = [1, 1] ∧ B.el [0, 0] = (5 * 5 + 6 * 6) / 2 := by
  obtain ⟨t, ht⟩ := run2 L
  have hb : ∀ o ∈ bodyOf x' y' g', Logs nmA o := fun o h => (body1_ok _ _ _ o h).2 nmA (List.mem_singleton.2 rfl)
  obtain ⟨A, a1, W, a2, a3, a4⟩ := (C125_forward (E L) conf1 conf1_ok 1 1000 [] 0 nmA rfl (ctxOf mk') _ (some mk') (.with ..) _ hb ⟨[], none⟩ [(mk', x'.val)]
    (.cons ⟨x', rfl, rfl, rfl, mask2 rfl⟩ .nil) nofun ((configured1 L).watches nmA (List.mem_singleton.2 rfl)) (configured1 L).stats t ht).2 rfl
  obtain ⟨B, b1, V, b2, b3, b4⟩ := (C125_backward (E L) conf1 conf1_ok 1 1000 [] 0 nmA rfl (ctxOf mk') _ (some mk') (.with ..) _ hb ⟨[], none⟩ [(mk', g'.val)]
    (.cons ⟨g', rfl, rfl, rfl, mask2 rfl⟩ .nil) (by simpa using zero_g') nofun ((configured1 L).watches nmA (List.mem_singleton.2 rfl)) (configured1 L).stats nofun t ht).2 rfl
  obtain rfl : 2 = W := a3 _ (List.mem_singleton.2 rfl)
  obtain rfl : 1 = V := b3 _ (List.mem_singleton.2 rfl)
  have tk : ∀ a : Tensor ℝ, a.size 0 = 1 → tokens mk' a = [fun j => a.el [0, 0, j], fun j => a.el [0, 2, j]] := by
    intro a ha
    unfold tokens
    rw [ha]
    simp [List.range_succ, sample_zero']
  refine ⟨t, A, B, ht, a1, a2, ?_, b1, b2, ?_⟩
  · rw [a4 0 1 (by decide) (by decide)]
    simp only [List.flatMap_cons, List.flatMap_nil, List.append_nil]
    rw [tk _ rfl]
    simp only [List.map_cons, List.map_nil, List.sum_cons, List.sum_nil, List.length_cons, List.length_nil]
    have e : x'.val.el [0, 0, 0] = 1 ∧ x'.val.el [0, 0, 1] = 2 ∧ x'.val.el [0, 2, 0] = 3 ∧ x'.val.el [0, 2, 1] = 4 := ⟨rfl, rfl, rfl, rfl⟩
    rw [e.1, e.2.1, e.2.2.1, e.2.2.2]
    norm_num
  · rw [b4 0 0 (by decide) (by decide)]
    simp only [List.flatMap_cons, List.flatMap_nil, List.append_nil]
    rw [tk _ rfl]
    simp only [List.map_cons, List.map_nil, List.sum_cons, List.sum_nil, List.length_cons, List.length_nil]
    have e : g'.val.el [0, 0, 0] = 5 ∧ g'.val.el [0, 2, 0] = 6 := ⟨rfl, rfl⟩
    rw [e.1, e.2]
    norm_num

def srcA : GLog ℝ := [(nmA, [(LogType.name .grad, ⟨.cpu, [2, 1, 2], [1, 2, 3, 4], rfl⟩)])]
theorem srcA_log : GradLog [['x'], ['y']] srcA .cpu lay.rows lay.cols := by
  refine ⟨by decide, one ⟨_, rfl, rfl, rfl⟩, ?_, nofun, nofun⟩
  simp [srcA]

/-- The scores of two sessions with the same tokens are computed and are the same, for KFAC and for the empirical Fisher matrix. -/
example (hessian : Hess) (hh : hessian = .kfac ∨ hessian = .raw) : ∃ (L : Lib ℝ) (t t' : Sess ℝ) (u u' : LState ℝ) (r r' : IFResult ℝ) (T : Tensor ℝ),
    SAct.each (SOp.run (E L)) (ctxOf mk ++ (bodyOf x y g).map (shift 0) ++ [.finalize ⟨[], none⟩]) (s1 L) = (t, none) ∧
    SAct.each (SOp.run (E L)) (ctxOf mk' ++ (bodyOf x' y' g').map (shift 0) ++ [.finalize ⟨[], none⟩]) (s1 L) = (t', none) ∧
    computeInfluence L Real.sqrt t.st [['x'], ['y']] (.dict srcA) [['x'], ['y']] (.dict srcA) .cosine true hessian none (some 1) = .ok (u, r) ∧
    computeInfluence L Real.sqrt t'.st [['x'], ['y']] (.dict srcA) [['x'], ['y']] (.dict srcA) .cosine true hessian none (some 1) = .ok (u', r') ∧
    r.influence.get? ['t', 'o', 't', 'a', 'l'] = some T ∧ r'.influence.get? ['t', 'o', 't', 'a', 'l'] = some T := by
  obtain ⟨L, hE, hI, hL⟩ := exists_lib
  have hor : ∀ {P Q : Prop}, P → Q → ((hessian = .kfac ∨ hessian = .auto ∧ .covariance ∉ (s1 L).opt.grad.tail) ∧ (s1 L).opt.forward.count .covariance = 1 ∧
      (s1 L).opt.backward.count .covariance = 1 ∧ P) ∨ ((hessian = .raw ∨ hessian = .auto) ∧ (s1 L).opt.grad.tail.count .covariance = 1 ∧ Q) :=
    fun p q => hh.elim (fun h => .inl ⟨.inl h, rfl, rfl, p⟩) (fun h => .inr ⟨.inl h, rfl, q⟩)
  obtain ⟨t, ht, h1⟩ := C122_masked (E L) hE hI hL conf1 conf1_ok 1 1000 [] (ctxOf mk) _ (some mk) (.with ..) nonneg1 [nmA] mods lay (bodyOf x y g)
    (fun o h => (body1_ok _ _ _ o h).1) ⟨[], none⟩ hessian (configured1 L) (hor (one ⟨nofun, nofun⟩) (one nofun)) (fits1 L (k := 2) rfl rfl rfl rfl rfl rfl rfl nofun)
  obtain ⟨t', ht', h1'⟩ := C122_masked (E L) hE hI hL conf1 conf1_ok 1 1000 [] (ctxOf mk') _ (some mk') (.with ..) nonneg2 [nmA] mods lay (bodyOf x' y' g')
    (fun o h => (body1_ok _ _ _ o h).1) ⟨[], none⟩ hessian (configured1 L) (hor (one ⟨nofun, nofun⟩) (one nofun)) (fits1 L (k := 3) rfl rfl rfl rfl rfl rfl rfl nofun)
  obtain ⟨u, r, h2⟩ := (h1 srcA _ _ srcA_log rfl 1 one_pos true none nofun).2 srcA _ _ srcA_log (fun _ => Iff.rfl) Real.sqrt .cosine (.inr ⟨.inr rfl, rfl⟩)
  obtain ⟨u', r', h2'⟩ := (h1' srcA _ _ srcA_log rfl 1 one_pos true none nofun).2 srcA _ _ srcA_log (fun _ => Iff.rfl) Real.sqrt .cosine (.inr ⟨.inr rfl, rfl⟩)
  obtain ⟨-, -, h3⟩ := C126_scores (E L) hE hI conf1 conf1_ok 1 1000 [] mods (ctxOf mk) (ctxOf mk') _ _ (some mk) (some mk') (.with ..) (.with ..) nonneg1 nonneg2
    (bodyOf x y g) (bodyOf x' y' g') srcA srcA (body1_ok _ _ _) (body1_ok _ _ _) ⟨[], none⟩ ⟨[], none⟩ hessian nofun (configured1 L).stats (configured1 L).plain
    (hh.elim (fun h => .inl ⟨.inl h, rfl, rfl, sameTokens L⟩) (fun h => .inr ⟨.inl h, rfl, rfl, sameRaw L⟩)) t t' ht ht' _ _ (GradLog.labelled srcA_log)
    (GradLog.labelled srcA_log) .cosine true none Real.sqrt 1 one_pos (.inr rfl) u u' r r' h2 h2'
  obtain ⟨T, h4, h5⟩ := h3 _ (.inl rfl)
  exact ⟨L, t, t', u, u', r, r', T, ht, ht', h2, h2', h4, h5⟩

/-- The hypotheses of `C125_scores` are met, and the scores are computed. -/
example : ∃ (L : Lib ℝ) (t : Sess ℝ) (A B : Tensor ℝ) (u : LState ℝ) (r : IFResult ℝ) (T : Tensor ℝ),
    SAct.each (SOp.run (E L)) (ctxOf mk' ++ (bodyOf x' y' g').map (shift 0) ++ [.finalize ⟨[], none⟩]) (s1 L) = (t, none) ∧
    IsTokenMoment [(mk', x'.val)] A ∧ IsTokenMoment [(mk', g'.val)] B ∧
    computeInfluence L Real.sqrt t.st [['x'], ['y']] (.dict srcA) [['x'], ['y']] (.dict srcA) .dot true .kfac none (some 1) = .ok (u, r) ∧
    r.influence = .one T ∧ T.shape = [2, 2] := by
  obtain ⟨L, hE, hI, hL⟩ := exists_lib
  obtain ⟨t, ht, h1⟩ := C122_masked (E L) hE hI hL conf1 conf1_ok 1 1000 [] (ctxOf mk') _ (some mk') (.with ..) nonneg2 [nmA] mods lay (bodyOf x' y' g')
    (fun o h => (body1_ok _ _ _ o h).1) ⟨[], none⟩ .kfac (configured1 L) (.inl ⟨.inl rfl, rfl, rfl, one ⟨nofun, nofun⟩⟩) (fits1 L (k := 3) rfl rfl rfl rfl rfl rfl rfl nofun)
  obtain ⟨A, B, hAB, h2⟩ := C125_scores (E L) hE hI conf1 conf1_ok 1 1000 [] (ctxOf mk') _ (some mk') (.with ..) nonneg2 (bodyOf x' y' g') ⟨[], none⟩ [nmA] mods
    (body1_ok _ _ _) .kfac (fun _ => [(mk', x'.val)]) (fun _ => [(mk', g'.val)]) (configured1 L).stats (configured1 L).plain rfl rfl (.inl rfl)
    (one ⟨(configured1 L).watches nmA (List.mem_singleton.2 rfl), rfl, nofun, nofun, .cons ⟨x', rfl, rfl, rfl, mask2 rfl⟩ .nil,
      .cons ⟨g', rfl, rfl, rfl, mask2 rfl⟩ .nil, by simpa using zero_g'⟩) t ht
  obtain ⟨u, r, h3⟩ := (h1 srcA _ _ srcA_log rfl 1 one_pos true none nofun).2 srcA _ _ srcA_log (fun _ => Iff.rfl) Real.sqrt .dot (.inl rfl)
  obtain ⟨T, h4, -, -, h5, -⟩ := h2 srcA srcA rfl _ _ (GradLog.labelled srcA_log) (GradLog.labelled srcA_log) 1 one_pos Real.sqrt u r h3
  obtain ⟨h6, h7⟩ := hAB nmA (List.mem_singleton.2 rfl)
  exact ⟨L, t, A nmA, B nmA, u, r, T, ht, h6, h7, h3, h4, h5⟩

end

end Logix.ExPadding
