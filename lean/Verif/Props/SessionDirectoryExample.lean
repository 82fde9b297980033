/-
C124 on a concrete program, with library functions that keep all promises.
-/
import Verif.Props.SessionDirectory
import Verif.Props.SessionReturnsExample
import Verif.Lemmas.Flat

namespace Logix.ExReturns
open Logix Spec Sess

noncomputable section

/-- The numbers that the bytes stand for. -/
def dec (_ : DType) : List UInt8 → ℝ
  | [] => 0
  | b :: _ => if b = 0 then 5 else if b = 1 then 10 else 15

theorem exact_of {c : ℝ} (L : Lib ℝ) (h : c = 5 ∨ c = 10 ∨ c = 15) : dec .float32 ((E L).encode .float32 c).1 = c := by
  show dec .float32 (List.replicate 4 (if c = 5 then 0 else if c = 10 then 1 else 2)) = c
  rcases h with rfl | rfl | rfl
  · rw [if_pos rfl]; rfl
  · rw [if_neg (by norm_num), if_pos rfl]; rfl
  · rw [if_neg (by norm_num), if_neg (by norm_num)]; rfl

/-- One batch is saved. -/
theorem saved : ∃ u : List PyStr × (Nat → List (Nat × Nat)), savedBatches ⟨[['p']], true, false⟩ (fun _ => ⟨none, [], [], []⟩) body = [u] ∧
    u.1 = [['p']] ∧ u.2 0 = [(0, 3)] ∧ u.2 1 = [(1, 3)] := ⟨_, rfl, rfl, rfl, rfl⟩

/-- The gradients of the saved batch can be stored. -/
theorem storable_at (L : Lib ℝ) {x g : TObj ℝ} {j J : Nat} (h : (allocs body)[j]? = some x) (h' : (allocs body)[3]? = some g) (hs : x.val.shape = [1, J])
    (hg : g.val.shape = [1, 1]) (hd : g.val.dev = x.val.dev) (hv : ∀ i < J, g.val.el [0, 0] * x.val.el [0, i] = 5 ∨ g.val.el [0, 0] * x.val.el [0, i] = 10 ∨
      g.val.el [0, 0] * x.val.el [0, i] = 15) {T : Tensor ℝ} (hT : BatchGrad (allocs body) .linear [(j, 3)] T) :
    ∀ c ∈ T.data, dec .float32 ((E L).encode .float32 c).1 = c := by
  obtain ⟨v, e1, e2, -, e3⟩ := outerSum_ok g.val x.val 1 1 J [] hg hs hd
  have hv' : BatchGrad (allocs body) .linear [(j, 3)] v :=
    ⟨[v], .cons ⟨x, g, h, h', e1⟩ .nil, by simp, by simp, fun idx => by simp⟩
  refine (storable_of (C := ⟨(E L).encode, dec⟩) (d := .float32) hv' e2 fun c hc => ?_).exact T hT
  rw [data_el] at hc
  obtain ⟨idx, hi, rfl⟩ := List.mem_map.1 hc
  rw [mem_indices, e2] at hi
  obtain ⟨a, b, i, rfl, ha, hb, hJ⟩ : ∃ a b i, idx = [a, b, i] ∧ a < 1 ∧ b < 1 ∧ i < J := by
    rcases idx with _ | ⟨a, _ | ⟨b, _ | ⟨i, _ | ⟨_, _⟩⟩⟩⟩
    all_goals simp only [inRange, Bool.and_eq_true, decide_eq_true_eq, Bool.false_eq_true, and_false, and_true] at hi
    exact ⟨a, b, i, rfl, hi⟩
  obtain rfl : a = 0 := by omega
  obtain rfl : b = 0 := by omega
  refine exact_of L ?_
  rw [e3 0 0 i ha hb hJ]
  simpa [indices] using hv i hJ

theorem savedProgram (L : Lib ℝ) {pre : List (SOp ℝ)} (hpre : ∀ o ∈ pre, Configures o) (ha : allocs pre = [])
    (hsv : Saving.after (pre ++ ctx) = ⟨[['p']], true, false⟩) : SavedProgram (E L) dec .float32 pre 1 [] ctx body [nmA, nmB] mods := by
  obtain ⟨u, h1, h2, h3, h4⟩ := saved
  have h1 : savedBy pre ctx none body = [u] := by unfold savedBy; rw [hsv]; exact h1
  refine ⟨hpre, .inr ⟨rfl, ?_⟩, ?_, ?_, ?_, ?_, List.nodup_nil, (fun f hf => nomatch hf), Nat.le_refl _⟩
  · rw [allocs_append', ha]
    show ∀ o ∈ [inpA 1 2, out 3, out 4, val 5, out 6, out 7], o.dtype = .float32
    simp [inpA, out, val]
  · simp only [ctx, body, List.cons_append, List.nil_append, Tidy]
    trivial
  · intro w hw
    rw [h1] at hw
    obtain rfl := List.mem_singleton.1 hw
    refine two (fun T hT => ?_) (fun T hT => ?_)
    · rw [show mods nmA = 0 from rfl, h3] at hT
      refine storable_at L (x := inpA 1 2) (g := val 5) rfl rfl rfl rfl rfl (fun i hi => ?_) hT
      obtain rfl | rfl : i = 0 ∨ i = 1 := by omega
      · left
        show (5 : ℝ) * 1 = 5
        norm_num
      · right; left
        show (5 : ℝ) * 2 = 10
        norm_num
    · rw [show mods nmB = 1 from rfl, h4] at hT
      refine storable_at L (x := out 3) (g := val 5) (J := 1) rfl rfl rfl rfl rfl (fun i hi => ?_) hT
      obtain rfl : i = 0 := by omega
      right; right
      show (5 : ℝ) * 3 = 15
      norm_num
  · rw [h1]; simp [h2]
  · rw [h1]; simp [h2]

/-- The hypotheses of `C124_kfac` are met: two sources against the saved sample. -/
example : ∃ (L : Lib ℝ) (t : Sess ℝ) (l : LogLoader) (bs : List LogBatch) (o : IFObj ℝ) (x : RRec ℝ) (T : Tensor ℝ),
    SAct.each (SOp.run (E L)) (ctx ++ body.map (shift 0) ++ [.finalize ⟨[], none⟩]) (s L) = (t, none) ∧
    ((Front.init t.fs 0 1 1000).buildLoader (Dict.keys t.fs) 4 false).2 = .ok l ∧ l.batches = .ok bs ∧
    computeInfluenceAll L Real.sqrt (.new t.st) [['x'], ['y']] (.dict src) (bs.map (LogBatch.arg ⟨(E L).encode, dec⟩)) .dot true true .auto none (some 1) =
      .ok (o, some x) ∧ (o.heap.deref x).tgtIds = [['p']] ∧ (o.heap.deref x).influence.get? ['t', 'o', 't', 'a', 'l'] = some T ∧ T.shape = [2, 1] := by
  obtain ⟨L, hE, hI, hL⟩ := exists_lib
  obtain ⟨t, A, B, h1, -, h2⟩ := C124_kfac (E L) hE hI hL dec .float32 conf 1 1000 [] ctx _ (.with ..) _ mods lay body body_ok (savedProgram L conf_ok rfl rfl) ⟨[], none⟩ .auto
    (configured L) rfl rfl rfl (.inr ⟨rfl, nofun⟩) (fits L nofun) (two ⟨nofun, nofun⟩ ⟨nofun, nofun⟩)
  obtain ⟨l, bs, h3, h4, h5⟩ := h2 _ (List.Perm.refl _) 4 (by decide) (Front.init t.fs 0 1 1000) rfl rfl rfl
  obtain ⟨o, x, T, h6, -, h7, h8, h9, -⟩ := h5 (.new t.st) [] _ src _ true 1 Real.sqrt rfl (.new _) (.inr rfl) srcLog rfl one_pos
  obtain ⟨u, g1, g2, -⟩ := saved
  rw [show savedBy conf ctx none body = [u] from g1] at h7 h9
  simp only [List.flatMap_cons, List.flatMap_nil, g2, List.append_nil] at h7 h9
  exact ⟨L, t, l, bs, o, x, T, h1, h3, h4, h6, h7, h8, h9⟩

/-- The hypotheses of `C124_raw` are met. -/
example : ∃ (L : Lib ℝ) (t : Sess ℝ) (l : LogLoader) (bs : List LogBatch) (o : IFObj ℝ) (x : RRec ℝ) (T : Tensor ℝ),
    SAct.each (SOp.run (E L)) (ctx ++ body.map (shift 0) ++ [.finalize ⟨[], none⟩]) (sRaw L) = (t, none) ∧
    ((Front.init t.fs 0 1 1000).buildLoader (Dict.keys t.fs) 4 false).2 = .ok l ∧ l.batches = .ok bs ∧
    computeInfluenceAll L Real.sqrt (.new t.st) [['x'], ['y']] (.dict src) (bs.map (LogBatch.arg ⟨(E L).encode, dec⟩)) .dot true true .auto none (some 1) =
      .ok (o, some x) ∧ (o.heap.deref x).tgtIds = [['p']] ∧ (o.heap.deref x).influence.get? ['t', 'o', 't', 'a', 'l'] = some T ∧ T.shape = [2, 1] := by
  obtain ⟨L, hE, hI, hL⟩ := exists_lib
  obtain ⟨t, C, h1, -, h2⟩ := C124_raw (E L) hE hI hL dec .float32 confRaw 1 1000 [] ctx _ (.with ..) _ mods lay body body_ok (savedProgram L confRaw_ok rfl rfl) ⟨[], none⟩ .auto
    (configuredRaw L) rfl (.inr rfl) (fits L nofun) (two nofun nofun)
  obtain ⟨l, bs, h3, h4, h5⟩ := h2 _ (List.Perm.refl _) 4 (by decide) (Front.init t.fs 0 1 1000) rfl rfl rfl
  obtain ⟨o, x, T, h6, -, h7, h8, h9, -⟩ := h5 (.new t.st) [] _ src _ true 1 Real.sqrt rfl (.new _) (.inr rfl) srcLog rfl one_pos
  obtain ⟨u, g1, g2, -⟩ := saved
  rw [show savedBy confRaw ctx none body = [u] from g1] at h7 h9
  simp only [List.flatMap_cons, List.flatMap_nil, g2, List.append_nil] at h7 h9
  exact ⟨L, t, l, bs, o, x, T, h1, h3, h4, h6, h7, h8, h9⟩

end
end Logix.ExReturns
