/-
C54, C55: does an influence computation depend on earlier ones, and a module on other modules?
-/
import Verif.Lemmas.View

namespace Logix
variable {K : Type}

/-! ### C54 -/

theorem SameOut.map [Field K] {α β : Type} {L : Lib K} {P : Option K → Prop} {x y : Py (LState K × α)} (h : SameOut L P x y) (f : α → β) :
    SameOut L P (x.map fun r => (r.1, f r.2)) (y.map fun r => (r.1, f r.2)) := by
  rcases h with ⟨e, rfl, rfl⟩ | ⟨s₁, s₂, a, rfl, rfl, h⟩
  · exact .inl ⟨e, rfl, rfl⟩
  · exact .inr ⟨s₁, s₂, f a, rfl, rfl, h⟩

theorem SameOut.snd [Field K] {α : Type} {L : Lib K} {P : Option K → Prop} {x y : Py (LState K × α)} (h : SameOut L P x y) : y.map Prod.snd = x.map Prod.snd := by
  rcases h with ⟨e, rfl, rfl⟩ | ⟨s₁, s₂, a, rfl, rfl, h⟩ <;> rfl

theorem serve_same [Field K] {L : Lib K} {P : Option K → Prop} {s s' : LState K} (hs : SameView L P s s') (sqrt : K → K) (c : Spec.Call K)
    (hP : c.hessian = .kfac ∨ P = fun x => x = c.damping) :
    SameOut L P (Spec.serve L sqrt s c) (Spec.serve L sqrt s' c) ∧ ∀ s₁ o, Spec.serve L sqrt s c = .ok (s₁, o) → SameView L P s s₁ := by
  cases c with
  | influence srcIds src tgtIds tgt mode pre hessian groups damping =>
    obtain ⟨h1, h2⟩ := computeInfluence_same hs sqrt srcIds tgtIds src tgt mode pre hessian groups damping hP
    refine ⟨h1.map Sum.inl, fun s₁ o h => ?_⟩
    unfold Spec.serve at h
    simp only at h
    cases hc : computeInfluence L sqrt s srcIds src tgtIds tgt mode pre hessian groups damping with
    | error e => rw [hc] at h; cases h
    | ok r =>
      obtain ⟨x, y⟩ := r
      rw [hc] at h
      cases h
      exact h2 _ _ hc
  | selfInfluence ids src pre hessian groups damping =>
    obtain ⟨h1, h2⟩ := computeSelf_same hs ids src pre hessian groups damping hP
    refine ⟨h1.map Sum.inr, fun s₁ o h => ?_⟩
    unfold Spec.serve at h
    simp only at h
    cases hc : computeSelf L s ids src pre hessian groups damping with
    | error e => rw [hc] at h; cases h
    | ok r =>
      obtain ⟨x, y⟩ := r
      rw [hc] at h
      cases h
      exact h2 _ _ hc

theorem serveAll_same [Field K] {L : Lib K} {P : Option K → Prop} {sqrt : K → K} : ∀ {calls : List (Spec.Call K)} {s s' : LState K}, SameView L P s s →
    (∀ c ∈ calls, c.hessian = .kfac ∨ P = fun x => x = c.damping) → Spec.serveAll L sqrt s calls = .ok s' → SameView L P s s'
  | [], s, s', hs, _, h => by cases h; exact hs
  | c :: cs, s, s', hs, hP, h => by
    rw [Spec.serveAll] at h
    split at h
    · cases h
    · next s₁ o hc =>
      have h1 := (serve_same hs sqrt c (hP c (by simp))).2 _ _ hc
      exact h1.trans (serveAll_same h1.symm.left (fun c hc => hP c (List.mem_cons_of_mem _ hc)) h)

/-- **C54.** Without fitted eigenvalues, after any sequence of influence computations with the same damping, a computation returns exactly what
it would have returned before them, or raises the same error. -/
theorem C54_same_damping_partial [Field K] {L : Lib K} {sqrt : K → K} {ops : List (StateOp K)} {s s' : LState K} {calls : List (Spec.Call K)} {damping : Option K}
    (hrun : runOps L .init ops = .ok s) (hek : s.hasAttr nEkfac = false) (hc : ∀ c ∈ calls, c.damping = damping)
    (h : Spec.serveAll L sqrt s calls = .ok s') (call : Spec.Call K) (hd : call.damping = damping) :
    (Spec.serve L sqrt s' call).map Prod.snd = (Spec.serve L sqrt s call).map Prod.snd :=
  (serve_same (serveAll_same (P := fun x => x = damping) (.run hrun hek) (fun c h => .inr (by rw [hc c h])) h) sqrt call (.inr (by rw [hd]))).1.snd

/-- **C54**, with `hessian="kfac"`: the earlier computations may have used any damping. -/
theorem C54_kfac_partial [Field K] {L : Lib K} {sqrt : K → K} {ops : List (StateOp K)} {s s' : LState K} {calls : List (Spec.Call K)}
    (hrun : runOps L .init ops = .ok s) (hek : s.hasAttr nEkfac = false) (hc : ∀ c ∈ calls, c.hessian = .kfac)
    (h : Spec.serveAll L sqrt s calls = .ok s') (call : Spec.Call K) (hd : call.hessian = .kfac) :
    (Spec.serve L sqrt s' call).map Prod.snd = (Spec.serve L sqrt s call).map Prod.snd :=
  (serve_same (serveAll_same (P := fun _ => False) (.run hrun hek) (fun c h => .inl (hc c h)) h) sqrt call (.inl hd)).1.snd

/-! ### C55 -/

theorem kfac_parts [Field K] {L : Lib K} {s s₁ : LState K} {d out : GLog K} {damping : Option K} {cov : StateDict K} (hcov : s.getAttr nCov = .ok cov)
    (hk : ∀ m ∈ Dict.keys d, m ∈ Dict.keys cov) (h : precondition L s (.dict d) .kfac damping = .ok (s₁, .dict out)) :
    ∃ s₂ n vals vecs vals', s.getCovarianceSvd L = .ok (s₂, n) ∧ s₂.getAttr n = .ok vals ∧ s₂.getAttr nEigvec = .ok vecs ∧
      kfacLoop vecs damping vals [] d = .ok (vals', out) := by
  unfold precondition at h
  simp only [reduceCtorEq, if_false, hcov, usesRaw] at h
  rw [if_neg] at h
  · split at h
    · cases h
    · next s₂ out' hp =>
      cases h
      unfold preconditionKfac at hp
      split at hp
      · cases hp
      · next s₃ n hs =>
        split at hp
        · next vals vecs h1 h2 =>
          split at hp
          · cases hp
          · next vals' out' hl => cases hp; exact ⟨s₃, n, vals, vecs, vals', hs, h1, h2, hl⟩
        · cases hp
  · intro hany
    rw [List.any_eq_true] at hany
    obtain ⟨p, hp, hc⟩ := hany
    have := hk p.1 (List.mem_map.2 ⟨p, hp, rfl⟩)
    rw [← Dict.get?_isSome_iff] at this
    simp [Dict.contains, this] at hc

/-- **C55.** With the damping given, the preconditioned gradients of a module depend only on its own gradients: not on the other modules of the
log and not on their order, as long as all modules have covariances. -/
theorem C55_given_partial [Field K] {L : Lib K} {s s₁ s₂ : LState K} {d d' out out' : GLog K} {c : K} {cov : StateDict K} (hcov : s.getAttr nCov = .ok cov)
    (hk : ∀ m ∈ Dict.keys d, m ∈ Dict.keys cov) (hk' : ∀ m ∈ Dict.keys d', m ∈ Dict.keys cov) (hn : (Dict.keys d).Nodup) (hn' : (Dict.keys d').Nodup)
    (h : precondition L s (.dict d) .kfac (some c) = .ok (s₁, .dict out)) (h' : precondition L s (.dict d') .kfac (some c) = .ok (s₂, .dict out'))
    {m : PyStr} (hm : m ∈ Dict.keys d) (hg : Spec.grad d m = Spec.grad d' m) : Spec.grad out m = Spec.grad out' m := by
  obtain ⟨s₃, n, vals, vecs, v1, a1, a2, a3, a4⟩ := kfac_parts hcov hk h
  obtain ⟨s₄, n', vals', vecs', v2, b1, b2, b3, b4⟩ := kfac_parts hcov hk' h'
  rw [a1] at b1; cases b1
  rw [a2] at b2; cases b2
  rw [a3] at b3; cases b3
  obtain ⟨-, -, c3⟩ := kfacLoop_ok a4 hn (fun _ _ => by simp [Dict.keys])
  obtain ⟨-, -, d3⟩ := kfacLoop_ok b4 hn' (fun _ _ => by simp [Dict.keys])
  obtain ⟨g, ef, eb, full, sh, p, e1, e2, e3, e4, e5, e6, -⟩ := c3 m hm
  have hm' : m ∈ Dict.keys d' := grad_mem (by rw [← hg]; exact e1)
  obtain ⟨g', ef', eb', full', sh', p', f1, f2, f3, f4, f5, f6, -⟩ := d3 m hm'
  rw [← hg, e1] at f1; cases f1
  rw [e2] at f2; cases f2
  rw [e3] at f3; cases f3
  rw [e4] at f4; cases f4
  have x1 : effDamping vals (Dict.keys d) (some c) = c := rfl
  have x2 : effDamping vals (Dict.keys d') (some c) = c := rfl
  rw [x1] at e5; rw [x2, e5] at f5
  cases f5
  rw [e6, f6]

/-- **C55.** Without damping given, a log that starts with module `m` is damped by a tenth of the mean of the products of the eigenvalues of
`m`; in particular a log with one module is damped by its own eigenvalues. -/
theorem C55_own_partial [Field K] {L : Lib K} {s : LState K} {m : PyStr} {sub : Dict PyStr (Tensor K)} {rest : GLog K} {wf wb : Tensor K} {vals vecs : StateDict K}
    (hek : s.hasAttr nEkfac = false) (hvals : s.getAttr nEigval = .ok vals) (hvecs : s.getAttr nEigvec = .ok vecs)
    (hwf : Spec.tensorAt s.attrs nEigval [m, LogType.name .forward] = some wf) (hwb : Spec.tensorAt s.attrs nEigval [m, LogType.name .backward] = some wb)
    {nf nb : Nat} (hf : wf.shape = [nf]) (hb : wb.shape = [nb]) (hdev : wf.dev = wb.dev) :
    precondition L s (.dict ((m, sub) :: rest)) .kfac none = precondition L s (.dict ((m, sub) :: rest)) .kfac
      (some (1 / 10 * ((∑ a ∈ Finset.range nb, ∑ b ∈ Finset.range nf, wb.el [a] * wf.el [b]) / ((nb * nf : Nat) : K)))) := by
  obtain ⟨-, sub1, p1, p2⟩ := tensorAt_node hvals hwf
  obtain ⟨-, sub2, q1, q2⟩ := tensorAt_node hvals hwb
  rw [p1] at q1; cases q1
  have hsvd : s.getCovarianceSvd L = .ok (s, nEigval) := by
    unfold LState.getCovarianceSvd
    have h1 : s.hasAttr nEigval = true := by simp [LState.hasAttr, getAttr_eq.1 hvals]
    have h2 : s.hasAttr nEigvec = true := by simp [LState.hasAttr, getAttr_eq.1 hvecs]
    simp [h1, h2, hek]
  have hloop : kfacLoop vecs none vals [] ((m, sub) :: rest) = kfacLoop vecs (some (1 / 10 *
      ((∑ a ∈ Finset.range nb, ∑ b ∈ Finset.range nf, wb.el [a] * wf.el [b]) / ((nb * nf : Nat) : K)))) vals [] ((m, sub) :: rest) := by
    rw [kfacLoop, kfacLoop]
    cases hgr : Dict.get? sub (LogType.name .grad) with
    | none => rfl
    | some g =>
      have hfull : fullEigval vals m g.dev = .ok (Tensor.ofFn2 g.dev nb nf fun a b => wb.el [a] * wf.el [b], false) := by
        unfold fullEigval
        rw [p1]
        simp [p2, q2, hf, hb, hdev, Tensor.size]
      have hmean : (Tensor.ofFn2 g.dev nb nf fun a b => wb.el [a] * wf.el [b]).mean =
          (∑ a ∈ Finset.range nb, ∑ b ∈ Finset.range nf, wb.el [a] * wf.el [b]) / ((nb * nf : Nat) : K) := by
        unfold Tensor.mean
        have hs : (Tensor.ofFn2 g.dev nb nf fun a b => wb.el [a] * wf.el [b]).shape = [nb, nf] := rfl
        rw [hs, indices2_sum]
        congr 1
        · refine Finset.sum_congr rfl fun a ha => Finset.sum_congr rfl fun b hb => ?_
          rw [Tensor.el_ofFn2 _ _ _ _ (Finset.mem_range.1 ha) (Finset.mem_range.1 hb)]
        · simp [numel]
      simp only [hfull, Option.getD_none, Option.getD_some, hmean]
  unfold precondition preconditionKfac
  simp only [hsvd, hvals, hvecs, hloop, usesRaw, Bool.false_eq_true, if_false]

end Logix
