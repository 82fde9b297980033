/-
C87: encoders and decoders initialised by PCA are the principal directions of the covariances.
-/
import Verif.Props.Lora
import Verif.Props.Psd
import Verif.Props.Stats
import Verif.Lemmas.Flat
import Verif.Lemmas.PcaVectors
import Mathlib.Algebra.BigOperators.Field

set_option linter.unusedSectionVars false

namespace Logix
open Spec
variable {K : Type}

section
variable [Zero K] {h h' : MHeap K} {root : Nat} {E : LoraEnv K} {tf nf : Option (List PyStr)}

/-- The weights of the wrapper of a selected module are the initial ones. -/
theorem becomes_fixed (hw : WFModel h) {dev : Dev} {s : LoraSt K} (hI : LInv E dev h root tf nf (h.namedModules root) s) {name : PyStr} {c w : Nat}
    (hn : (name, c) ∈ h.namedModules root) (hsel : Selected h tf nf name c) (hb : Becomes h s.heap root name c w) {m : MObj} (hm : h.mods[c]? = some m) :
    Wrappable m.layer ∧ ∃ pa pc, ValsAt E dev name m.layer s.heap w pa pc := by
  obtain ⟨ks, p, k, h1, h2, rfl, h4⟩ := hb
  rcases hI.kids p k c h2 with ⟨name, hit, w', b, m', psg, z1, z2, z3, z4, z5, z6, z7, z8, pa, pc, z9, _⟩ | ⟨hnot, _⟩
  · obtain ⟨ks', g1, g2, rfl, g3, g4⟩ := hit
    have e1 := List.inj_on_of_nodup_map (namedModules_nodup h root) hn g3 rfl
    rw [(hI.good.get_kids hw h2.lt).2 h4] at z1
    cases z1
    have e2 := congrArg Prod.fst e1
    dsimp only at e2
    rw [hm] at z3
    cases z3
    rw [e2]
    refine ⟨?_, pa, pc, z9⟩
    generalize m.layer = l at z5
    cases l with
    | linear i o => exact Or.inl ⟨i, o, rfl⟩
    | conv2d i o g gr => exact Or.inr ⟨i, o, g, gr, rfl⟩
    | _ => exact absurd z5 id
  · exact absurd ⟨_, ks, h1, h2, rfl, hn, hsel⟩ hnot

theorem covOf_of_item2 {d : StateDict K} {m : PyStr} {lt : LogType} {t t' : Tensor K} (h : item2 d m lt.name = .ok (some (.tensor t)))
    (h' : covOf d m lt = some t') : t = t' := by
  rw [item2_of_covOf h'] at h
  cases h
  rfl

theorem vectors_ok {P : Pca K} {name : PyStr} {r : Nat} {f b : Tensor K} {v : Tensor K × Tensor K} (hf : covOf P.cov name .forward = some f)
    (hb : covOf P.cov name .backward = some b) (h : P.vectors name r = .ok v) : P.topVectors f r = .ok v.1 ∧ P.topVectors b r = .ok v.2 := by
  unfold Pca.vectors at h
  rw [item2_of_covOf hf, item2_of_covOf hb] at h
  dsimp only at h
  cases h1 : P.topVectors f r with
  | error e => rw [h1] at h; cases h
  | ok uf =>
    rw [h1] at h
    dsimp only at h
    cases h2 : P.topVectors b r with
    | error e => rw [h2] at h; cases h
    | ok ub => rw [h2] at h; cases h; exact ⟨rfl, rfl⟩

theorem pcaOf_vectors {P : Pca K} (hP : E.pca = some P) {dev : Dev} {name : PyStr} {l : Layer} (hl : Wrappable l) {pca : Option (Tensor K × Tensor K)}
    (h : E.pcaOf dev name l = .ok pca) : ∃ v, P.vectors name (loraRank E.rank l) = .ok v := by
  rcases hl with ⟨i, o, rfl⟩ | ⟨i, o, g, gr, rfl⟩
  · have h : E.pcaLinear dev name (min E.rank (min i o)) i o = .ok pca := h
    unfold LoraEnv.pcaLinear at h
    rw [hP] at h
    dsimp only at h
    show ∃ v, P.vectors name (min E.rank (min i o)) = .ok v
    cases hv : P.vectors name (min E.rank (min i o)) with
    | error e => rw [hv] at h; cases h
    | ok v => exact ⟨v, rfl⟩
  · have h : E.pcaConv2d dev name (min E.rank (min i o)) i o g.kernel = .ok pca := h
    unfold LoraEnv.pcaConv2d at h
    rw [hP] at h
    dsimp only at h
    show ∃ v, P.vectors name (min E.rank (min i o)) = .ok v
    cases hv : P.vectors name (min E.rank (min i o)) with
    | error e => rw [hv] at h; cases h
    | ok v => exact ⟨v, rfl⟩

theorem asMatrix_congr {t t' : Tensor K} (h : t.data = t'.data) (n i k : Nat) : asMatrix t n i k = asMatrix t' n i k := by
  unfold asMatrix
  rw [h]

end

variable [Field K] [LinearOrder K] [IsStrictOrderedRing K] {h h' : MHeap K} {root : Nat} {E : LoraEnv K} {tf nf : Option (List PyStr)}

/-- **C87** for given covariances: when `add_lora` has returned, the rows of the encoder of every wrapped module, as a matrix, are principal directions of the
covariance of the module's inputs, and the columns of the decoder principal directions of the covariance of the gradients of its outputs. -/
theorem C87_directions (hw : WFModel h) (hroot : ¬ IsLeaf h root) (hr : root < h.mods.length) (hadd : addLora E h root tf nf = .ok h')
    {P : Pca K} (hP : E.pca = some P) (hsvd : SvdOk P.svd) {name : PyStr} {c w : Nat} (hn : (name, c) ∈ h.namedModules root) (hsel : Selected h tf nf name c)
    (hb : Becomes h h' root name c w) {m : MObj} (hm : h.mods[c]? = some m) (hk : HasKernel m.layer) {F B : Tensor K}
    (hF : covOf P.cov name .forward = some F) (hB : covOf P.cov name .backward = some B) (pF : PSD F) (pB : PSD B)
    (sF : F.shape = [fanIn m.layer, fanIn m.layer]) (sB : B.shape = [fanOut m.layer, fanOut m.layer]) :
    ∃ a d A D, Entry h' w nA a ∧ Entry h' w nC d ∧ h'.paramVal a nWeight = some A ∧ h'.paramVal d nWeight = some D ∧
      A.shape = encShape E.rank m.layer ∧ D.shape = decShape E.rank m.layer ∧
      Principal F (fanIn m.layer) (loraRank E.rank m.layer) (asMatrix A (fanIn m.layer)) ∧
      Principal B (fanOut m.layer) (loraRank E.rank m.layer) fun i o => asMatrix D (loraRank E.rank m.layer) o i := by
  obtain ⟨dev, s, _, rfl, hI⟩ := addLora_inv hw hroot hr hadd
  obtain ⟨hl, pa, pc, ⟨pca, mw, a, d, i, j, v1, v2, v3, v4, v5, v6, ⟨qa, a1, a2, a3⟩, qc, c1, c2, c3⟩⟩ := becomes_fixed hw hI hn hsel hb hm
  obtain ⟨r1, r2⟩ := loraRank_le (R := E.rank) hk
  obtain ⟨⟨uf, ub⟩, hv⟩ := pcaOf_vectors hP hl v1
  obtain ⟨t1, t2⟩ := vectors_ok hF hB hv
  obtain ⟨s1, p1⟩ := topVectors_principal hsvd pF sF r1 t1
  obtain ⟨s2, p2⟩ := topVectors_principal hsvd pB sB r2 t2
  obtain ⟨A, D, e1, e2, e3, e4, e5⟩ := pcaOf_eq hP dev hl hF hB t1 t2 s1 s2
  rw [v1] at e1
  cases e1
  have hA : qa.val.data = A.data := by
    rw [a3, data_el A, e2]
    rfl
  have hD : qc.val.data = D.data := by
    rw [c3, data_el D, e3]
    rfl
  refine ⟨a, d, qa.val, qc.val, ⟨mw, v2, Dict.mem_of_get? _ v3⟩, ⟨mw, v2, Dict.mem_of_get? _ v4⟩, by simp [MHeap.paramVal, v5, a1], by simp [MHeap.paramVal, v6, c1],
    a2, c2, principal_congr p1 fun i hi k hk => ?_, principal_congr p2 fun i hi k hk => ?_⟩
  · rw [asMatrix_congr hA, e4 i k hi hk]
  · rw [asMatrix_congr hD, e5 k i hk hi]

/-- The state's covariances are those of the handler, unless there are none. -/
theorem ofState_pca {rank : Nat} {sharing : Bool} {groups : Option (List PyStr)} {rand : Nat → List Nat → K} {svd : Tensor K → Py (Tensor K × Tensor K × Tensor K)}
    {s : LState K} (hE : LoraEnv.ofState rank sharing groups rand nPca svd s = .ok E) {name : PyStr} {lt : LogType} {F : Tensor K}
    (hF : tensorAt s.attrs nCov [name, lt.name] = some F) : E.rank = rank ∧ ∃ P, E.pca = some P ∧ P.svd = svd ∧
      ∀ name lt, covOf P.cov name lt = tensorAt s.attrs nCov [name, lt.name] := by
  unfold LoraEnv.ofState at hE
  cases hc : s.getAttr nCov with
  | error e => rw [hc] at hE; cases hE
  | ok cov =>
    rw [hc] at hE
    have hg := getAttr_eq.1 hc
    have hne : cov.isEmpty = false := by
      cases cov with
      | nil => unfold tensorAt at hF; rw [hg] at hF; simp [Nested.lookup, Dict.get?] at hF
      | cons _ _ => rfl
    dsimp only at hE
    rw [if_pos ⟨rfl, by simp [hne]⟩] at hE
    cases hE
    refine ⟨rfl, _, rfl, rfl, fun name lt => ?_⟩
    unfold covOf tensorAt
    rw [hg]
    rfl

/-- **C87.** After every sequence of updates, `finalize`, `clear` and influence computations, and then `add_lora` with PCA initialisation: the rows of the encoder
of every wrapped module are principal directions of the covariance of its inputs, and the columns of its decoder principal directions of the covariance of the gradients
of its outputs, if these covariances have the sizes of the layer. -/
theorem C87_pca (L : Lib K) {ops : List (StateOp K)} {s : LState K} (hrun : runOps L .init ops = .ok s) (hmask : ∀ o ∈ ops, MaskNonneg o)
    {rank : Nat} {sharing : Bool} {groups : Option (List PyStr)} {rand : Nat → List Nat → K} {svd : Tensor K → Py (Tensor K × Tensor K × Tensor K)} (hsvd : SvdOk svd)
    (hE : LoraEnv.ofState rank sharing groups rand nPca svd s = .ok E) (hw : WFModel h) (hroot : ¬ IsLeaf h root) (hr : root < h.mods.length)
    (hadd : addLora E h root tf nf = .ok h') {name : PyStr} {c w : Nat} (hn : (name, c) ∈ h.namedModules root) (hsel : Selected h tf nf name c)
    (hb : Becomes h h' root name c w) {m : MObj} (hm : h.mods[c]? = some m) (hk : HasKernel m.layer) {F B : Tensor K}
    (hF : tensorAt s.attrs nCov [name, LogType.name .forward] = some F) (hB : tensorAt s.attrs nCov [name, LogType.name .backward] = some B)
    (sF : F.shape = [fanIn m.layer, fanIn m.layer]) (sB : B.shape = [fanOut m.layer, fanOut m.layer]) :
    ∃ a d A D, Entry h' w nA a ∧ Entry h' w nC d ∧ h'.paramVal a nWeight = some A ∧ h'.paramVal d nWeight = some D ∧
      A.shape = encShape rank m.layer ∧ D.shape = decShape rank m.layer ∧
      Principal F (fanIn m.layer) (loraRank rank m.layer) (asMatrix A (fanIn m.layer)) ∧
      Principal B (fanOut m.layer) (loraRank rank m.layer) fun i o => asMatrix D (loraRank rank m.layer) o i := by
  obtain ⟨hrk, P, hP, rfl, hcov⟩ := ofState_pca hE hF
  subst hrk
  exact C87_directions hw hroot hr hadd hP hsvd hn hsel hb hm hk ((hcov _ _).trans hF) ((hcov _ _).trans hB) (C33_psd L hrun hmask _ _ hF)
    (C33_psd L hrun hmask _ _ hB) sF sB

/-- **C87**, the fallback: if no covariance was logged, the weights of encoder and decoder are random draws, as without PCA. -/
theorem C87_fallback {s : LState K} (hc : s.getAttr nCov = .ok []) {rank : Nat} {sharing : Bool} {groups : Option (List PyStr)} {rand : Nat → List Nat → K}
    {svd : Tensor K → Py (Tensor K × Tensor K × Tensor K)} (hE : LoraEnv.ofState rank sharing groups rand nPca svd s = .ok E) (hw : WFModel h) (hroot : ¬ IsLeaf h root)
    (hr : root < h.mods.length) (hadd : addLora E h root tf nf = .ok h') {name : PyStr} {c w : Nat} (hn : (name, c) ∈ h.namedModules root)
    (hsel : Selected h tf nf name c) (hb : Becomes h h' root name c w) :
    ∃ a d A D i j, Entry h' w nA a ∧ Entry h' w nC d ∧ h'.paramVal a nWeight = some A ∧ h'.paramVal d nWeight = some D ∧
      A.data = (indices A.shape).map (rand i) ∧ D.data = (indices D.shape).map (rand j) := by
  unfold LoraEnv.ofState at hE
  rw [hc] at hE
  dsimp only at hE
  rw [if_neg (by simp)] at hE
  cases hE
  obtain ⟨dev, s, _, rfl, hI⟩ := addLora_inv hw hroot hr hadd
  have hm := hsel
  obtain ⟨m, hm, -⟩ := hm
  obtain ⟨hl, pa, pc, ⟨pca, mw, a, d, i, j, v1, v2, v3, v4, v5, v6, ⟨qa, a1, a2, a3⟩, qc, c1, c2, c3⟩⟩ := becomes_fixed hw hI hn hsel hb hm
  have hp : pca = none := by
    rcases hl with ⟨i, o, e⟩ | ⟨i, o, g, gr, e⟩ <;> rw [e] at v1 <;> cases v1 <;> rfl
  subst hp
  exact ⟨a, d, qa.val, qc.val, i, j, ⟨mw, v2, Dict.mem_of_get? _ v3⟩, ⟨mw, v2, Dict.mem_of_get? _ v4⟩, by simp [MHeap.paramVal, v5, a1], by simp [MHeap.paramVal, v6, c1],
    by rw [a2]; exact a3, by rw [c2]; exact c3⟩

/-- The variance along vectors, from the rows that make up the covariance. -/
theorem variance_rows {F : Tensor K} {rows : List (Nat → K)} {c : K} {n : Nat}
    (hF : ∀ i j, i < n → j < n → F.el [i, j] = (rows.map fun r => r i * r j).sum / c) (r : Nat) (q : Nat → Nat → K) :
    variance F n r q = (rows.map fun row => ∑ i ∈ Finset.range r, (∑ k ∈ Finset.range n, q i k * row k) ^ 2).sum / c := by
  have h1 : variance F n r q = ∑ i ∈ Finset.range r, ∑ k ∈ Finset.range n, ∑ l ∈ Finset.range n, q i k * ((rows.map fun r => r k * r l).sum / c) * q i l := by
    unfold variance
    refine Finset.sum_congr rfl fun i _ => Finset.sum_congr rfl fun k hk => Finset.sum_congr rfl fun l hl => ?_
    rw [hF k l (Finset.mem_range.1 hk) (Finset.mem_range.1 hl)]
  rw [h1]
  clear h1 hF
  induction rows with
  | nil => simp
  | cons row rows ih =>
    simp only [List.map_cons, List.sum_cons, add_div, mul_add, add_mul, Finset.sum_add_distrib]
    rw [ih]
    congr 1
    rw [Finset.sum_div]
    refine Finset.sum_congr rfl fun i _ => ?_
    rw [pow_two, Finset.sum_mul_sum, Finset.sum_div]
    refine Finset.sum_congr rfl fun k _ => ?_
    rw [Finset.sum_div]
    refine Finset.sum_congr rfl fun l _ => ?_
    ring

theorem psd_rows {F : Tensor K} {rows : List (Nat → K)} {c : K} {n : Nat} (hs : F.shape = [n, n]) (hc : 0 ≤ c)
    (hF : ∀ i j, i < n → j < n → F.el [i, j] = (rows.map fun r => r i * r j).sum / c) : PSD F := by
  refine ⟨n, hs, fun i j hi hj => ?_, fun v => ?_⟩
  · rw [hF i j hi hj, hF j i hj hi]
    simp only [mul_comm]
  · have h1 := variance_rows hF 1 fun _ => v
    unfold variance at h1
    rw [Finset.sum_range_one] at h1
    rw [h1]
    refine div_nonneg (List.sum_nonneg fun x hx => ?_) hc
    obtain ⟨row, _, rfl⟩ := List.mem_map.1 hx
    exact Finset.sum_nonneg fun i _ => sq_nonneg _

/-- **C87** in terms of what was logged: among all `r` orthonormal directions the encoder's rows keep most of the logged inputs (the sum of the squared norms of what
they are compressed to is largest), and the decoder's columns most of the logged gradients of the outputs. -/
theorem C87_logged (L : Lib K) {calls : List (Plugin × StatCall K)} {s s' : LState K} {dir dir' : StateDir K} (hrun : updates L .init calls = .ok s)
    (hfin : s.finalize dir = .ok (s', dir')) {rank : Nat} {sharing : Bool} {groups : Option (List PyStr)} {rand : Nat → List Nat → K}
    {svd : Tensor K → Py (Tensor K × Tensor K × Tensor K)} (hsvd : SvdOk svd)
    (hE : LoraEnv.ofState rank sharing groups rand nPca svd s' = .ok E) (hw : WFModel h) (hroot : ¬ IsLeaf h root) (hr : root < h.mods.length)
    (hadd : addLora E h root tf nf = .ok h') {name : PyStr} {c w : Nat} (hn : (name, c) ∈ h.namedModules root) (hsel : Selected h tf nf name c)
    (hb : Becomes h h' root name c w) {m : MObj} (hm : h.mods[c]? = some m) (hk : HasKernel m.layer)
    (fpos : 0 < samples (callsOf .covariance name .forward calls)) (bpos : 0 < samples (callsOf .covariance name .backward calls))
    (fw : ∀ x ∈ callsOf .covariance name .forward calls, callWidth x = fanIn m.layer ∧ x.mask = none)
    (bw : ∀ x ∈ callsOf .covariance name .backward calls, callWidth x = fanOut m.layer ∧ x.mask = none) :
    ∃ a d A D, Entry h' w nA a ∧ Entry h' w nC d ∧ h'.paramVal a nWeight = some A ∧ h'.paramVal d nWeight = some D ∧
      A.shape = encShape rank m.layer ∧ D.shape = decShape rank m.layer ∧
      Orthonormal (fanIn m.layer) (loraRank rank m.layer) (asMatrix A (fanIn m.layer)) ∧
      (∀ p, Orthonormal (fanIn m.layer) (loraRank rank m.layer) p →
        ((allRows (callsOf .covariance name .forward calls)).map fun x => ∑ i ∈ Finset.range (loraRank rank m.layer), (∑ k ∈ Finset.range (fanIn m.layer), p i k * x k) ^ 2).sum ≤
        ((allRows (callsOf .covariance name .forward calls)).map fun x =>
          ∑ i ∈ Finset.range (loraRank rank m.layer), (∑ k ∈ Finset.range (fanIn m.layer), asMatrix A (fanIn m.layer) i k * x k) ^ 2).sum) ∧
      Orthonormal (fanOut m.layer) (loraRank rank m.layer) (fun i o => asMatrix D (loraRank rank m.layer) o i) ∧
      ∀ p, Orthonormal (fanOut m.layer) (loraRank rank m.layer) p →
        ((allRows (callsOf .covariance name .backward calls)).map fun g => ∑ i ∈ Finset.range (loraRank rank m.layer), (∑ o ∈ Finset.range (fanOut m.layer), p i o * g o) ^ 2).sum ≤
        ((allRows (callsOf .covariance name .backward calls)).map fun g =>
          ∑ i ∈ Finset.range (loraRank rank m.layer), (∑ o ∈ Finset.range (fanOut m.layer), asMatrix D (loraRank rank m.layer) o i * g o) ^ 2).sum := by
  have main : ∀ lt n, 0 < samples (callsOf .covariance name lt calls) → (∀ x ∈ callsOf .covariance name lt calls, callWidth x = n ∧ x.mask = none) →
      ∃ F, ∃ c : K, tensorAt s'.attrs nCov [name, lt.name] = some F ∧ F.shape = [n, n] ∧ 0 < c ∧
        ∀ i j, i < n → j < n → F.el [i, j] = ((allRows (callsOf .covariance name lt calls)).map fun r => r i * r j).sum / c := by
    intro lt n hpos hx
    have hne : callsOf .covariance name lt calls ≠ [] := by
      intro h
      rw [h] at hpos
      exact absurd hpos (by simp [samples])
    obtain ⟨t, W, h1, h2, h3, h4⟩ := C31_covariance L hrun hfin name lt hne fun c hc => Or.inl (hx c hc).2
    obtain ⟨x, hxm⟩ := List.exists_mem_of_ne_nil _ hne
    have hW : W = n := (h3 x hxm).symm.trans (hx x hxm).1
    subst hW
    exact ⟨t, _, h1, h2, Nat.cast_pos.2 hpos, h4⟩
  obtain ⟨F, f, f1, f2, f3, f4⟩ := main .forward _ fpos fw
  obtain ⟨B, b, b1, b2, b3, b4⟩ := main .backward _ bpos bw
  obtain ⟨hrk, P, hP, rfl, hcov⟩ := ofState_pca hE f1
  subst hrk
  obtain ⟨a, d, A, D, e1, e2, e3, e4, e7, e8, e5, e6⟩ := C87_directions hw hroot hr hadd hP hsvd hn hsel hb hm hk ((hcov _ _).trans f1) ((hcov _ _).trans b1)
    (psd_rows f2 f3.le f4) (psd_rows b2 b3.le b4) f2 b2
  refine ⟨a, d, A, D, e1, e2, e3, e4, e7, e8, e5.orth, fun p hp => ?_, e6.orth, fun p hp => ?_⟩
  · have := e5.best p hp
    rw [variance_rows f4, variance_rows f4] at this
    exact (div_le_div_iff_of_pos_right f3).1 this
  · have := e6.best p hp
    rw [variance_rows b4, variance_rows b4] at this
    exact (div_le_div_iff_of_pos_right b3).1 this

end Logix
