/-
C104: the scores with eigenvalues that several processes have fitted.
-/
import Verif.Lemmas.DistEkfac

set_option linter.unusedSectionVars false
namespace Logix
variable {K : Type}

section
variable [Field K] [LinearOrder K] [IsStrictOrderedRing K]

/-- The covariances of a regular history have the widths of the quantities. -/
theorem finalized_cov_width {L : Lib K} {width : PyStr → LogType → Nat} {dev : PyStr → LogType → Dev} {off : Bool} {calls : List (Plugin × StatCall K)}
    {s : LState K} (h : Spec.Finalized L calls s) (hr : Spec.Regular width dev off calls) {m : PyStr} {lt : LogType} (hl : Spec.Logged calls m lt) :
    ∃ t, Spec.tensorAt s.attrs nCov [m, lt.name] = some t ∧ t.shape = [width m lt, width m lt] ∧
      ∀ i j, i < width m lt → j < width m lt → t.el [i, j] = Spec.secondMoment calls m lt i j := by
  obtain ⟨-, -, s₀, dir, dir', h2, h3⟩ := h
  have mem : ∀ c ∈ Spec.callsOf .covariance m lt calls, ∃ pc ∈ calls, pc.2 = c ∧ c.name = m ∧ c.logType = lt := by
    intro c hc
    unfold Spec.callsOf at hc
    obtain ⟨pc, hpc, rfl⟩ := List.mem_map.1 hc
    obtain ⟨h4, h5⟩ := List.mem_filter.1 hpc
    simp only [decide_eq_true_eq] at h5
    exact ⟨pc, h4, rfl, h5.2⟩
  obtain ⟨t, W, a1, a2, a3, a4⟩ := C31_covariance L h2 h3 m lt hl.1 fun c hc => by
    obtain ⟨pc, -, -, -, h5⟩ := mem c hc
    exact (hl.2 c hc).imp id fun e => by rw [h5, e]
  obtain ⟨c, hc⟩ := List.exists_mem_of_ne_nil _ hl.1
  obtain rfl : W = width m lt := by
    obtain ⟨pc, h4, rfl, h5, h6⟩ := mem c hc
    rw [← a3 _ hc, hr.width pc h4, h5, h6]
  exact ⟨t, a1, a2, a4⟩

/-- Two finalized histories that meet the quantities in the same order leave the same layouts. -/
theorem finalized_skel {L : Lib K} {calls calls' : List (Plugin × StatCall K)} {s s' : LState K} (h : Spec.Finalized L calls s)
    (h' : Spec.Finalized L calls' s') (ho : ∀ q ∈ [Plugin.mean, Plugin.covariance], Spec.order q calls = Spec.order q calls') {n : PyStr}
    (hn : n ∈ baseSync) : (Dict.get? s.attrs n).map skelD = (Dict.get? s'.attrs n).map skelD := by
  obtain ⟨p1, -, u, dir, dir₁, h2, h3⟩ := h
  obtain ⟨p1', -, u', dir', dir₁', h2', h3'⟩ := h'
  rw [normalizePairs_skel (finalize_ok h3).1 n, normalizePairs_skel (finalize_ok h3').1 n]
  have hrun : List.Forall₂ (fun cs s => updates L .init cs = .ok s) [calls, calls'] [u, u'] := .cons h2 (.cons h2' .nil)
  obtain ⟨-, hsk⟩ := sync_layout L hrun
    (by intro cs hcs; simp only [List.mem_cons, List.not_mem_nil, or_false] at hcs; rcases hcs with rfl | rfl <;> assumption)
    (by
      intro cs hcs cs' hcs' q hq
      simp only [List.mem_cons, List.not_mem_nil, or_false] at hcs hcs'
      rcases hcs with rfl | rfl <;> rcases hcs' with rfl | rfl
      · rfl
      · exact ho q hq
      · exact (ho q hq).symm
      · rfl)
  have attr : ∀ {cs : List (Plugin × StatCall K)} {v : LState K}, updates L .init cs = .ok v → ∃ d, v.getAttr n = .ok d := by
    intro cs v hv
    have main : ∀ {q : Plugin} {a b : PyStr} {z : Nat → List Nat} {term : (Nat → K) → List Nat → K}, StatOf q a b z term → (a, b) ∈ basePairs →
        ∃ d e, v.getAttr a = .ok d ∧ v.getAttr b = .ok e := by
      intro q a b z term S hp
      obtain ⟨i1, i2⟩ := init_getAttr (K := K) hp
      obtain ⟨d1, e1, a1, a2, -⟩ := updates_skel L S hv i1 i2
      exact ⟨d1, e1, a1, a2⟩
    obtain ⟨d, e, m1, m2⟩ := main statOf_mean (by decide)
    obtain ⟨d', e', c1, c2⟩ := main statOf_cov (by decide)
    simp only [baseSync, List.mem_cons, List.not_mem_nil, or_false] at hn
    rcases hn with rfl | rfl | rfl | rfl
    exacts [⟨_, m1⟩, ⟨_, m2⟩, ⟨_, c1⟩, ⟨_, c2⟩]
  obtain ⟨d, hd⟩ := attr h2
  obtain ⟨e, he⟩ := attr h2'
  rw [getAttr_eq.1 hd, getAttr_eq.1 he]
  simp only [Option.map_some]
  rw [hsk u (by simp) u' (by simp) n hn d e hd he]

theorem mem_ekOrder {m : PyStr} {cs : List (Plugin × StatCall K)} : m ∈ Spec.ekOrder cs ↔ Spec.ekfacCalls m cs ≠ [] := by
  unfold Spec.ekOrder Spec.ekfacCalls
  rw [mem_firstSeen]
  simp only [List.mem_map, List.mem_filter, decide_eq_true_eq, ne_eq, List.map_eq_nil_iff, List.filter_eq_nil_iff, not_forall]
  constructor
  · rintro ⟨pc, ⟨h1, h2⟩, h3⟩; exact ⟨pc, h1, by simp [h2, h3]⟩
  · rintro ⟨pc, h1, h2⟩
    simp only [not_not] at h2
    exact ⟨pc, ⟨h1, h2.1⟩, h2.2⟩

theorem ekfacCalls_flatten (m : PyStr) (css : List (List (Plugin × StatCall K))) :
    Spec.ekfacCalls m css.flatten = css.flatMap (Spec.ekfacCalls m) := by
  induction css with
  | nil => rfl
  | cons a rest ih => rw [List.flatten_cons, ekfacCalls_append, ih]; simp

/-- What one process has for a module before the processes are finalized together. -/
structure EkProc (css : List (List (Plugin × StatCall K))) (L : Lib K) (cs : List (Plugin × StatCall K)) (p : LState K) (m : PyStr) (h w : Nat)
    (eb ef : Tensor K) : Prop where
  vf : Spec.tensorAt p.attrs nEigvec [m, LogType.name .forward] = some ef
  vb : Spec.tensorAt p.attrs nEigvec [m, LogType.name .backward] = some eb
  fshape : ef.shape = [w, w]
  bshape : eb.shape = [h, h]
  fbasis : Spec.Eigenbasis css.flatten m .forward w fun q b => ef.el [q, b]
  bbasis : Spec.Eigenbasis css.flatten m .backward h fun p a => eb.el [p, a]
  feig : ∃ x wv, L.eigh x = .ok (wv, ef) ∧ x.shape = [w, w] ∧ ∀ i j, i < w → j < w → x.el [i, j] = Spec.secondMoment css.flatten m .forward i j
  beig : ∃ x wv, L.eigh x = .ok (wv, eb) ∧ x.shape = [h, h] ∧ ∀ i j, i < h → j < h → x.el [i, j] = Spec.secondMoment css.flatten m .backward i j
  sums : ∃ ek cn t, p.getAttr nEkfac = .ok ek ∧ p.getAttr nEkfacCounter = .ok cn ∧ Dict.get? ek m = some (.leaf (.tensor t)) ∧
    Dict.get? cn m = some (.leaf (.num (Spec.samples (Spec.ekfacCalls m cs) : K))) ∧ t.shape = [h, w] ∧
    (∀ c ∈ Spec.ekfacCalls m cs, c.data.size 1 = h ∧ c.data.size 2 = w) ∧
    ∀ a b, a < h → b < w → t.el [a, b] = Spec.squares ef eb a b (Spec.ekfacCalls m cs)

theorem ek_proc {L : Lib K} {width : PyStr → LogType → Nat} {dev : Nat → PyStr → LogType → Dev} {off : Bool}
    {css : List (List (Plugin × StatCall K))} {ss₁ : List (LState K)} {i : Nat} {p₁ p₂ : LState K} {cs : List (Plugin × StatCall K)} (hE : Spec.EighOk L)
    (hC : Spec.Cluster width dev off css) (hf : Spec.FinalizedAll L css ss₁) (hi : ss₁[i]? = some p₁)
    (hplug : ∀ pc ∈ cs, pc.1 = .log ∨ pc.1 = .correctedEigval) (hupd : updates L p₁ cs = .ok p₂) {m : PyStr} (hlf : Spec.Logged css.flatten m .forward)
    (hlb : Spec.Logged css.flatten m .backward) (hne : Spec.ekfacCalls m cs ≠ []) :
    (∃ eb ef, EkProc css L cs p₂ m (width m .backward) (width m .forward) eb ef) ∧ p₂.hasAttr nEigval = true ∧ p₂.hasAttr nEigvec = true ∧
      p₂.toNormalize = basePairs ++ [(nEkfac, nEkfacCounter)] ∧ EkLay p₂ cs := by
  have hfin := C98_finalized hC hf hi
  have hreg := cluster_moved hC i
  have n1 : p₁.hasAttr nEigval = false := finalized_hasAttr hfin (by decide) rfl
  have n2 : p₁.hasAttr nEigvec = false := finalized_hasAttr hfin (by decide) rfl
  obtain ⟨ops, hrun, hmask⟩ := finalized_runs hfin
  have fr0 : Spec.SvdFresh p₁ := ⟨by rw [n1, n2], fun hv => absurd (n2.symm.trans hv) (by decide)⟩
  obtain ⟨fr, hcov12⟩ := svdFresh_updates hE hrun fr0 hplug hupd
  have hEig : EigOf L p₂ := eigOf_updates hE hrun fr0 (fun hv => absurd (n2.symm.trans hv) (by decide)) hplug hupd
  obtain ⟨r1, r2, r3, -⟩ := (ekReg_run L hrun ekReg_init).fresh n2
  have hs : EkState p₂ ([] ++ cs) := EkState.updates (.inl ⟨by simp, n2, r1, r2, r3⟩) hupd
  rw [List.nil_append] at hs
  have hlay : EkLay p₂ ([] ++ cs) := by
    refine EkLay.updates (.inl ⟨rfl, n2, r1, r2, ?_⟩) hplug hupd
    obtain ⟨g1, -, u, dir, dir', g2, g3⟩ := hfin
    rw [(normalizePairs_reg (finalize_ok g3).1).2.2.1, (updates_toSync L g1 g2).1]
    rfl
  rw [List.nil_append] at hlay
  rcases hs with ⟨g0, -⟩ | ⟨vecs, ek, cn, g1, g2, g3, g4, g5, g6⟩
  · exfalso
    apply hne
    unfold Spec.ekfacCalls
    rw [List.map_eq_nil_iff, List.filter_eq_nil_iff]
    intro pc hpc
    simp [g0 pc hpc]
  · refine ⟨?_, fr.both.trans g1, g1, g5, hlay⟩
    obtain ⟨ef, eb, t, e1, e2, e3, e4, e5, e6, e7⟩ := (g6 m).cons hne
    obtain ⟨A, hA, hAs, hAe⟩ := finalized_cov_width hfin hreg (logged_moved (dev i) hlf)
    obtain ⟨B, hB, hBs, hBe⟩ := finalized_cov_width hfin hreg (logged_moved (dev i) hlb)
    rw [secondMoment_moved] at hAe hBe
    have symm : ∀ {x : Tensor K} {path} {n}, Spec.tensorAt p₁.attrs nCov path = some x → x.shape = [n, n] → Spec.Symm x n := by
      intro x path n hx hs
      obtain ⟨n', a1, a2, -⟩ := C33_psd L hrun hmask path x hx
      rw [hs] at a1
      obtain rfl := (List.cons.inj a1).1
      exact ⟨hs, a2⟩
    have hA2 : Spec.tensorAt p₂.attrs nCov [m, LogType.name .forward] = some A := by rw [tensorAt_congr hcov12]; exact hA
    have hB2 : Spec.tensorAt p₂.attrs nCov [m, LogType.name .backward] = some B := by rw [tensorAt_congr hcov12]; exact hB
    obtain ⟨wf, ef', -, vf1, dA⟩ := fr.dec g1 _ _ A _ hA2 (symm hA hAs)
    obtain ⟨wb, eb', -, vb1, dB⟩ := fr.dec g1 _ _ B _ hB2 (symm hB hBs)
    obtain ⟨wf', ef'', q1, vf2⟩ := hEig g1 _ _ A hA2
    obtain ⟨wb', eb'', q2, vb2⟩ := hEig g1 _ _ B hB2
    obtain rfl := Option.some.inj (vf1.symm.trans vf2)
    obtain rfl := Option.some.inj (vb1.symm.trans vb2)
    obtain rfl : ef' = ef := Option.some.inj (vf1.symm.trans (tensorAt_item2 g2 e1))
    obtain rfl : eb' = eb := Option.some.inj (vb1.symm.trans (tensorAt_item2 g2 e2))
    have f0 : ef'.size 0 = width m .forward := by simp [Tensor.size, dA.vshape]
    have f1 : ef'.size 1 = width m .forward := by simp [Tensor.size, dA.vshape]
    have b0 : eb'.size 0 = width m .backward := by simp [Tensor.size, dB.vshape]
    have b1 : eb'.size 1 = width m .backward := by simp [Tensor.size, dB.vshape]
    rw [b1, f1] at e5
    rw [b0, f0] at e6
    rw [b1, f1] at e7
    refine ⟨eb', ef', vf1, vb1, dA.vshape, dB.vshape, ⟨fun a ha => ⟨wf.el [a], fun i hi => ?_⟩, dA.cols⟩, ⟨fun a ha => ⟨wb.el [a], fun i hi => ?_⟩, dB.cols⟩,
      ⟨A, wf', q1, hAs, hAe⟩, ⟨B, wb', q2, hBs, hBe⟩, ek, cn, t, g3, g4, e3, e4, e5, fun c hc => ⟨(e6 c hc).1.symm, (e6 c hc).2.symm⟩, e7⟩
    · rw [← dA.eig i a hi ha]
      exact Finset.sum_congr rfl fun j hj => by rw [hAe i j hi (Finset.mem_range.1 hj)]
    · rw [← dB.eig i a hi ha]
      exact Finset.sum_congr rfl fun j hj => by rw [hBe i j hi (Finset.mem_range.1 hj)]

/-- Sums of squares in bases that agree. -/
theorem squares_fitted {h w : Nat} {ef eb : Tensor K} {vb vf : Nat → Nat → K} (hb : ∀ p a, p < h → a < h → eb.el [p, a] = vb p a)
    (hf : ∀ q b, q < w → b < w → ef.el [q, b] = vf q b) {cs : List (StatCall K)} (hc : ∀ c ∈ cs, c.data.size 1 = h ∧ c.data.size 2 = w) {a b : Nat}
    (ha : a < h) (hb' : b < w) : Spec.squares ef eb a b cs =
      (cs.flatMap fun c => (List.range (c.data.size 0)).map fun k => Spec.inBases h w vb vf (Spec.row c.data k) a b ^ 2).sum := by
  unfold Spec.squares
  congr 1
  refine List.flatMap_congr fun cl hcl => List.map_congr_left fun k _ => ?_
  unfold Spec.rotated Spec.inBases
  rw [(hc cl hcl).1, (hc cl hcl).2]
  congr 1
  refine Finset.sum_congr rfl fun p hp => Finset.sum_congr rfl fun q hq => ?_
  rw [hb p a (Finset.mem_range.1 hp) ha, hf q b (Finset.mem_range.1 hq) hb']
  rfl

theorem inBases_congr {h w : Nat} {vb vb' vf vf' : Nat → Nat → K} (hb : ∀ p a, p < h → a < h → vb p a = vb' p a)
    (hf : ∀ q b, q < w → b < w → vf q b = vf' q b) (g : List Nat → K) {a b : Nat} (ha : a < h) (hb' : b < w) :
    Spec.inBases h w vb vf g a b = Spec.inBases h w vb' vf' g a b := by
  unfold Spec.inBases
  refine Finset.sum_congr rfl fun p hp => Finset.sum_congr rfl fun q hq => ?_
  rw [hb p a (Finset.mem_range.1 hp) ha, hf q b (Finset.mem_range.1 hq) hb']

theorem fitted_congr {h w : Nat} {vb vb' vf vf' : Nat → Nat → K} (hb : ∀ p a, p < h → a < h → vb p a = vb' p a)
    (hf : ∀ q b, q < w → b < w → vf q b = vf' q b) (cs : List (StatCall K)) {a b : Nat} (ha : a < h) (hb' : b < w) :
    Spec.fitted h w vb vf cs a b = Spec.fitted h w vb' vf' cs a b := by
  unfold Spec.fitted
  congr 2
  refine List.flatMap_congr fun cl _ => List.map_congr_left fun k _ => ?_
  rw [inBases_congr hb hf _ ha hb']

theorem ekForm_congr {h w : Nat} {vb vb' vf vf' : Nat → Nat → K} (hb : ∀ p a, p < h → a < h → vb p a = vb' p a)
    (hf : ∀ q b, q < w → b < w → vf q b = vf' q b) (cs : List (StatCall K)) (c : K) (g f : List Nat → K) :
    Spec.ekForm h w vb vf cs c g f = Spec.ekForm h w vb' vf' cs c g f := by
  unfold Spec.ekForm
  refine Finset.sum_congr rfl fun a ha => Finset.sum_congr rfl fun b hb' => ?_
  rw [Finset.mem_range] at ha hb'
  rw [inBases_congr hb hf g ha hb', inBases_congr hb hf f ha hb', fitted_congr hb hf cs ha hb']

theorem finalizedAll_length {L : Lib K} {width : PyStr → LogType → Nat} {dev : Nat → PyStr → LogType → Dev} {off : Bool}
    {css : List (List (Plugin × StatCall K))} {ss : List (LState K)} (hC : Spec.Cluster width dev off css) (hf : Spec.FinalizedAll L css ss) :
    ss.length = css.length := by
  obtain ⟨-, ss₀, dir, dir', hrun, hfin⟩ := hf
  obtain ⟨ss₁, ss', dir₁, h1, h2, h3, -⟩ := C98_same_state L hC dir
  obtain rfl := forall₂_updates_unique hrun h1
  have h2' := Except.ok.inj (hfin.symm.trans h2)
  rw [Prod.mk.injEq] at h2'
  rw [h2'.1, h3]

theorem map_some_inj {α : Type} {l l' : List α} (h : l.map some = l'.map some) : l = l' := List.map_injective_iff.2 (Option.some_injective _) h

theorem lookup_leaf {d : StateDict K} {m : PyStr} {v : SVal K} : (Nested.node d).lookup [m] = some v ↔ Dict.get? d m = some (.leaf v) := by
  rw [lookup_node_cons]
  cases hd : Dict.get? d m with
  | none => simp
  | some x => cases x <;> simp [Nested.lookup]

/-- What a process has for a module after a distributed run that fitted eigenvalues: the same bases on all of them, and the averages of the squares of
all gradients of all processes. -/
theorem ek_dist {L : Lib K} {width : PyStr → LogType → Nat} {dev : Nat → PyStr → LogType → Dev} {off : Bool}
    {css ekcss : List (List (Plugin × StatCall K))} {ss : List (LState K)} (hE : Spec.EighOk L) (hS : Spec.EighSame L)
    (hC : Spec.Cluster width dev off css) (hf : Spec.EkFinalizedAll L css ekcss ss) (hw : 1 < css.length) {m : PyStr}
    (hlf : Spec.Logged css.flatten m .forward) (hlb : Spec.Logged css.flatten m .backward) (hne : Spec.ekfacCalls m ekcss.flatten ≠ []) :
    ∃ vb vf, Spec.Eigenbasis css.flatten m .backward (width m .backward) vb ∧ Spec.Eigenbasis css.flatten m .forward (width m .forward) vf ∧
      ∀ (i : Nat) (s : LState K), ss[i]? = some s → ∃ eb ef t, EkParts css.flatten ekcss.flatten s m (width m .backward) (width m .forward) eb ef t ∧
        (∀ p a, p < width m .backward → a < width m .backward → eb.el [p, a] = vb p a) ∧
        (∀ q b, q < width m .forward → b < width m .forward → ef.el [q, b] = vf q b) ∧ s.getCovarianceSvd L = .ok (s, nEkfac) ∧
        (Spec.tensorAt s.attrs nCov [m, LogType.name .forward]).isSome = true ∧
        (Spec.callsOf .covariance m .grad css.flatten = [] → ∀ cov, s.getAttr nCov = .ok cov → ∀ sub, Dict.get? cov m = some (.node sub) →
          LogType.name .grad ∉ Dict.keys sub) := by
  obtain ⟨hplug, hord, hlen, ss₁, ss₂, dir, dir', hf1, hupd, hfin⟩ := hf
  have hl1 := finalizedAll_length hC hf1
  have hl2 : ss₂.length = css.length := by rw [← hupd.length_eq, List.length_zip]; omega
  generalize hh : width m .backward = h
  generalize hww : width m .forward = w
  -- the processes
  have hR : List.Forall₂ (fun cs p₂ => ∃ (i : Nat) (p₁ : LState K), ss₁[i]? = some p₁ ∧ updates L p₁ cs = .ok p₂) ekcss ss₂ := by
    refine List.forall₂_iff_get.2 ⟨by omega, fun i h1 h2 => ?_⟩
    have := (List.forall₂_iff_get.1 hupd).2 i (by rw [List.length_zip]; omega) h2
    simp only [List.get_eq_getElem, List.getElem_zip] at this
    exact ⟨i, ss₁[i]'(by omega), List.getElem?_eq_getElem _, by simpa using this⟩
  have hall : ∀ cs ∈ ekcss, Spec.ekfacCalls m cs ≠ [] := by
    rw [ekfacCalls_flatten] at hne
    obtain ⟨c, hc⟩ := List.exists_mem_of_ne_nil _ hne
    obtain ⟨cs₀, h1, h2⟩ := List.mem_flatMap.1 hc
    intro cs hcs
    rw [← mem_ekOrder, hord cs hcs cs₀ h1, mem_ekOrder]
    exact List.ne_nil_of_mem h2
  have proc : ∀ cs ∈ ekcss, ∀ p₂, (∃ (i : Nat) (p₁ : LState K), ss₁[i]? = some p₁ ∧ updates L p₁ cs = .ok p₂) → (∃ eb ef, EkProc css L cs p₂ m h w eb ef) ∧
      p₂.hasAttr nEigval = true ∧ p₂.hasAttr nEigvec = true ∧ p₂.toNormalize = basePairs ++ [(nEkfac, nEkfacCounter)] ∧ EkLay p₂ cs := by
    rintro cs hcs p₂ ⟨i, p₁, h1, h2⟩
    rw [← hh, ← hww]
    exact ek_proc hE hC hf1 h1 (hplug cs hcs) h2 hlf hlb (hall cs hcs)
  have pair : ∀ p₂ ∈ ss₂, ∃ cs ∈ ekcss, ∃ (i : Nat) (p₁ : LState K), ss₁[i]? = some p₁ ∧ updates L p₁ cs = .ok p₂ := by
    intro p₂ hp
    obtain ⟨j, hj⟩ := List.getElem?_of_mem hp
    obtain ⟨cs, h1, h2⟩ := cluster_pair hR hj
    exact ⟨cs, List.mem_of_getElem? h1, h2⟩
  have agree : ∀ {cs cs' : List (Plugin × StatCall K)} {p p' : LState K} {eb ef eb' ef' : Tensor K}, EkProc css L cs p m h w eb ef →
      EkProc css L cs' p' m h w eb' ef' → (∀ p a, p < h → a < h → eb.el [p, a] = eb'.el [p, a]) ∧ ∀ q b, q < w → b < w → ef.el [q, b] = ef'.el [q, b] := by
    intro cs cs' p p' eb ef eb' ef' P P'
    obtain ⟨x, wv, x1, x2, x3⟩ := P.feig
    obtain ⟨x', wv', x1', x2', x3'⟩ := P'.feig
    obtain ⟨y, yv, y1, y2, y3⟩ := P.beig
    obtain ⟨y', yv', y1', y2', y3'⟩ := P'.beig
    exact ⟨hS y y' h y2 y2' (fun i j hi hj => by rw [y3 i j hi hj, y3' i j hi hj]) _ _ _ _ y1 y1',
      hS x x' w x2 x2' (fun i j hi hj => by rw [x3 i j hi hj, x3' i j hi hj]) _ _ _ _ x1 x1'⟩
  have lay : ∀ p ∈ ss₂, ∀ cs, EkLay p cs → p.hasAttr nEigvec = true → p.toSync = baseSync ++ [nEkfac, nEkfacCounter] ∧ ∃ ek cn, p.getAttr nEkfac = .ok ek ∧
      p.getAttr nEkfacCounter = .ok cn ∧ skelD ek = (Spec.ekOrder cs).foldl sset1 [] ∧ skelD cn = (Spec.ekOrder cs).foldl sset1 [] := by
    rintro p - cs (⟨-, l1, -⟩ | ⟨ek, cn, -, l2, l3, l4, l5, l6⟩) hv
    · rw [hv] at l1; cases l1
    · rw [foldl_sset1_firstSeen] at l5 l6
      exact ⟨l4, ek, cn, l2, l3, l5, l6⟩
  have hsync : ∀ p ∈ ss₂, p.toSync = baseSync ++ [nEkfac, nEkfacCounter] := by
    intro p hp
    obtain ⟨cs, h1, h2⟩ := pair p hp
    obtain ⟨-, -, g1, -, g2⟩ := proc cs h1 p h2
    exact (lay p hp cs g2 g1).1
  have hskel : ∀ p ∈ ss₂, ∀ u ∈ ss₂, ∀ n ∈ baseSync ++ [nEkfac, nEkfacCounter], ∀ d e, p.getAttr n = .ok d → u.getAttr n = .ok e → skelD d = skelD e := by
    intro p hp u hu n hn d e hd he
    obtain ⟨cs, h1, h2⟩ := pair p hp
    obtain ⟨cs', h1', h2'⟩ := pair u hu
    rcases List.mem_append.1 hn with hn | hn
    · obtain ⟨i, p₁, i1, i2⟩ := h2
      obtain ⟨j, u₁, j1, j2⟩ := h2'
      have htouch : n ∉ touched .correctedEigval := by
        simp only [baseSync, List.mem_cons, List.not_mem_nil, or_false] at hn
        rcases hn with rfl | rfl | rfl | rfl <;> decide
      have := finalized_skel (C98_finalized hC hf1 i1) (C98_finalized hC hf1 j1) (fun q _ => by rw [order_moved, order_moved]) hn
      rw [← ek_updates_frame htouch (hplug cs h1) i2, ← ek_updates_frame htouch (hplug cs' h1') j2, getAttr_eq.1 hd, getAttr_eq.1 he] at this
      simpa using this
    · obtain ⟨-, -, g1, -, g2⟩ := proc cs h1 p h2
      obtain ⟨-, -, g1', -, g2'⟩ := proc cs' h1' u h2'
      obtain ⟨-, ek, cn, k1, k2, k3, k4⟩ := lay p hp cs g2 g1
      obtain ⟨-, ek', cn', k1', k2', k3', k4'⟩ := lay u hu cs' g2' g1'
      simp only [List.mem_cons, List.not_mem_nil, or_false] at hn
      rcases hn with rfl | rfl
      · obtain rfl := Except.ok.inj (hd.symm.trans k1)
        obtain rfl := Except.ok.inj (he.symm.trans k1')
        rw [k3, k3', hord cs h1 cs' h1']
      · obtain rfl := Except.ok.inj (hd.symm.trans k2)
        obtain rfl := Except.ok.inj (he.symm.trans k2')
        rw [k4, k4', hord cs h1 cs' h1']
  obtain ⟨ss₃, f1, f2, -⟩ := finalizeDist_ok hfin (by omega)
  obtain ⟨-, sync⟩ := synchronize_ok hsync (by decide) hskel f1
  obtain ⟨-, norm⟩ := normalizeAll_ok f2
  -- the bases of the first process
  obtain ⟨cs₀, hcs₀⟩ : ∃ cs, ekcss[0]? = some cs := ⟨ekcss[0]'(by omega), List.getElem?_eq_getElem _⟩
  obtain ⟨q₀, hq₀⟩ : ∃ q, ss₂[0]? = some q := ⟨ss₂[0]'(by omega), List.getElem?_eq_getElem _⟩
  have hR₀ : ∃ (i : Nat) (p₁ : LState K), ss₁[i]? = some p₁ ∧ updates L p₁ cs₀ = .ok q₀ := by
    obtain ⟨cs, h1, h2⟩ := cluster_pair hR hq₀
    obtain rfl := Option.some.inj (h1.symm.trans hcs₀)
    exact h2
  obtain ⟨⟨eb₀, ef₀, P₀⟩, -⟩ := proc cs₀ (List.mem_of_getElem? hcs₀) q₀ hR₀
  refine ⟨fun p a => eb₀.el [p, a], fun q b => ef₀.el [q, b], P₀.bbasis, P₀.fbasis, fun i s hs => ?_⟩
  obtain ⟨s₃, n1, n2⟩ := norm i s hs
  obtain ⟨p, k1, k2, -, -, -, -, -, k7, k8⟩ := sync i s₃ n1
  obtain ⟨cs, c1, c2⟩ := cluster_pair hR k1
  have hcs := List.mem_of_getElem? c1
  obtain ⟨⟨eb, ef, P⟩, a1, a2, a3, a4⟩ := proc cs hcs p c2
  obtain ⟨ag1, ag2⟩ := agree P P₀
  -- the sums of the squares and of the samples
  obtain ⟨ek, cn, t, s1, s2, s3, s4, s5, s6, s7⟩ := P.sums
  obtain ⟨d, d', p1, p2, -, p3⟩ := k8 nEkfac (by decide)
  obtain ⟨e, e', p1', p2', -, p3'⟩ := k8 nEkfacCounter (by decide)
  obtain rfl := Except.ok.inj (s1.symm.trans p1)
  obtain rfl := Except.ok.inj (s2.symm.trans p1')
  obtain ⟨y, ys, r, q1, q2, q3⟩ := p3 [m] _ (lookup_leaf.2 s3)
  obtain ⟨y', ys', r', q1', q2', q3'⟩ := p3' [m] _ (lookup_leaf.2 s4)
  obtain ⟨ts, t1, t2⟩ := gather (f := fun u : LState K => (Dict.get? u.attrs nEkfac).bind fun e => (Nested.node e).lookup [m])
    (P := fun cs v => ∃ t, v = SVal.tensor t ∧ t.shape = [h, w] ∧ (∀ c ∈ Spec.ekfacCalls m cs, c.data.size 1 = h ∧ c.data.size 2 = w) ∧
      ∀ a b, a < h → b < w → t.el [a, b] = Spec.squares ef₀ eb₀ a b (Spec.ekfacCalls m cs)) hR
    (fun cs hcs u hu => by
      obtain ⟨⟨eb', ef', P'⟩, -⟩ := proc cs hcs u hu
      obtain ⟨ag1', ag2'⟩ := agree P' P₀
      obtain ⟨ek', cn', t', z1, z2, z3, z4, z5, z6, z7⟩ := P'.sums
      refine ⟨.tensor t', by rw [getAttr_eq.1 z1]; exact lookup_leaf.2 z3, t', rfl, z5, z6, fun a b ha hb => ?_⟩
      rw [z7 a b ha hb, squares_fitted ag1' ag2' z6 ha hb, squares_fitted (fun _ _ _ _ => rfl) (fun _ _ _ _ => rfl) z6 ha hb])
  obtain ⟨cnts, w1, w2⟩ := gather (f := fun u : LState K => (Dict.get? u.attrs nEkfacCounter).bind fun e => (Nested.node e).lookup [m])
    (P := fun cs v => v = SVal.num (Spec.samples (Spec.ekfacCalls m cs) : K)) hR
    (fun cs hcs u hu => by
      obtain ⟨⟨eb', ef', P'⟩, -⟩ := proc cs hcs u hu
      obtain ⟨ek', cn', t', z1, z2, z3, z4, z5, z6, z7⟩ := P'.sums
      exact ⟨_, by rw [getAttr_eq.1 z2]; exact lookup_leaf.2 z4, rfl⟩)
  obtain rfl := map_some_inj (t1.symm.trans q1)
  obtain rfl := map_some_inj (w1.symm.trans q1')
  have hy : ∃ ty, y = .tensor ty ∧ ty.shape = [h, w] := by
    cases t2 with
    | cons h _ => obtain ⟨t, h, h', -⟩ := h; exact ⟨t, h, h'⟩
  obtain ⟨ty, rfl, hty⟩ := hy
  obtain ⟨us, u, v1, v2, v3, v4, v5⟩ := foldVal_tensor ys ty r q2
  have hy' : ∃ ny, y' = .num ny := by
    cases w2 with
    | cons h _ => exact ⟨_, h⟩
  obtain ⟨ny, rfl⟩ := hy'
  obtain ⟨ns, x1, x2⟩ := foldVal_num ys' ny r' q2'
  subst v1 v2 x1 x2
  have hcnt : ny + ns.sum = (Spec.samples (Spec.ekfacCalls m ekcss.flatten) : K) := by
    have := forall₂_sum (g := fun v : SVal K => match v with | .num x => x | _ => 0) (f := fun cs => (Spec.samples (Spec.ekfacCalls m cs) : K)) w2
      (fun cs _ v hv _ => by rw [hv])
    rw [List.map_cons, List.sum_cons, List.map_map] at this
    have h3 : (Spec.samples (Spec.ekfacCalls m ekcss.flatten) : K) = (ekcss.map fun cs => (Spec.samples (Spec.ekfacCalls m cs) : K)).sum := by
      rw [ekfacCalls_flatten]
      clear * -
      induction ekcss with
      | nil => simp [Spec.samples]
      | cons a rest ih => rw [List.map_cons, List.sum_cons, ← ih]; simp [Spec.samples]
    rw [h3, ← this]
    simp [Function.comp_def]
  have hsum : ∀ a b, a < h → b < w → u.el [a, b] = Spec.squares ef₀ eb₀ a b (Spec.ekfacCalls m ekcss.flatten) := by
    intro a b ha hb
    rw [v5 [a, b] (by rw [hty]; simp [inRange, ha, hb])]
    have := forall₂_sum (g := fun v : SVal K => match v with | .tensor x => x.el [a, b] | _ => 0)
      (f := fun cs => Spec.squares ef₀ eb₀ a b (Spec.ekfacCalls m cs)) t2
      (fun cs _ v hv _ => by obtain ⟨t', y1, -, -, y4⟩ := hv; subst y1; exact y4 a b ha hb)
    rw [List.map_cons, List.sum_cons, List.map_map] at this
    have h3 : Spec.squares ef₀ eb₀ a b (Spec.ekfacCalls m ekcss.flatten) = (ekcss.map fun cs => Spec.squares ef₀ eb₀ a b (Spec.ekfacCalls m cs)).sum := by
      rw [ekfacCalls_flatten]
      clear * -
      induction ekcss with
      | nil => simp [Spec.squares]
      | cons a rest ih => rw [List.map_cons, List.sum_cons, ← ih, List.flatMap_cons, squares_append]
    rw [h3, ← this]
    simp [Function.comp_def]
  have hsz : ∀ c ∈ Spec.ekfacCalls m ekcss.flatten, c.data.size 1 = h ∧ c.data.size 2 = w := by
    rw [ekfacCalls_flatten]
    intro c hc
    obtain ⟨cs', h1, h2⟩ := List.mem_flatMap.1 hc
    obtain ⟨j, hj⟩ := List.getElem?_of_mem h1
    have hj' := (List.getElem?_eq_some_iff.1 hj).1
    have := (List.forall₂_iff_get.1 t2).2 j hj' (by rw [← t2.length_eq]; omega)
    simp only [List.get_eq_getElem] at this
    rw [(List.getElem?_eq_some_iff.1 hj).2] at this
    obtain ⟨t, -, -, y3, -⟩ := this
    exact y3 c h2
  -- normalisation
  have hnorm : s₃.toNormalize = basePairs ++ [(nEkfac, nEkfacCounter)] := k2.trans a3
  have n2' := n2
  unfold LState.normalize at n2
  rw [hnorm] at n2
  obtain ⟨d2, e2, d3, b1, b2, b3, b4⟩ := normalizePairs_get (post := []) n2 (by decide) (by decide) (by decide)
  obtain rfl := Except.ok.inj (p2.symm.trans b1)
  obtain rfl := Except.ok.inj (p2'.symm.trans b2)
  obtain ⟨v', hv', hd'⟩ := (normalizeDict_get b3 m).2 _ (lookup_leaf.1 q3)
  rw [lookup_leaf.1 q3'] at hv'
  simp only [copyVal] at hv'
  unfold normalizeValue at hv'
  simp only [Except.ok.injEq] at hv'
  subst hv'
  have frame : ∀ n, n ∉ baseSync ++ [nEkfac, nEkfacCounter] → Dict.get? s.attrs n = Dict.get? p.attrs n := by
    intro n hn
    rw [← k7 n hn]
    refine normalizePairs_frame n2 n fun hh => hn ?_
    simp only [basePairs, List.map_append, List.map_cons, List.map_nil, List.mem_append, List.mem_cons, List.not_mem_nil, or_false] at hh
    simp only [baseSync, List.mem_append, List.mem_cons, List.not_mem_nil, or_false]
    rcases hh with (rfl | rfl) | rfl <;> simp
  refine ⟨eb, ef, (u.onDev t.dev).divNum (ny + ns.sum), ⟨?_, ?_, ?_, P.fshape, P.bshape, ?_, P.fbasis, P.bbasis, fun a b ha hb => ?_⟩, ag1, ag2, ?_, ?_, ?_⟩
  · rw [tensorAt_congr (frame nEigvec (by decide))]; exact P.vf
  · rw [tensorAt_congr (frame nEigvec (by decide))]; exact P.vb
  · unfold Spec.tensorAt
    rw [getAttr_eq.1 b4]
    simp only [lookup_leaf.2 hd']
  · show u.shape = _
    rw [v3, hty]
  · rw [divNum_el _ _ _ (by rw [Tensor.onDev_shape, v3, hty]; simp [inRange, ha, hb]), Tensor.onDev_el, hsum a b ha hb, hcnt,
      squares_fitted (fun _ _ _ _ => rfl) (fun _ _ _ _ => rfl) hsz ha hb]
    rw [fitted_congr ag1 ag2 _ ha hb]
    rfl
  · have e1 : s.hasAttr nEigval = true := by unfold LState.hasAttr at a1 ⊢; rw [frame _ (by decide)]; exact a1
    have e2 : s.hasAttr nEigvec = true := by unfold LState.hasAttr at a2 ⊢; rw [frame _ (by decide)]; exact a2
    have e3 : s.hasAttr nEkfac = true := by unfold LState.hasAttr; rw [getAttr_eq.1 b4]; rfl
    unfold LState.getCovarianceSvd
    rw [e1, e2]
    simp only [Bool.and_self, if_true, e3]
  · -- the covariance is still a tensor
    have cov : ∀ u ∈ ss₂, ∃ cv x, u.getAttr nCov = .ok cv ∧ (Nested.node cv).lookup [m, LogType.name .forward] = some (.tensor x) := by
      intro u hu
      obtain ⟨cs', h1, j, u₁, h2, h3⟩ := pair u hu
      obtain ⟨x, W, z1, -⟩ := finalized_cov (C98_finalized hC hf1 h2) (logged_moved (dev j) hlf)
      rw [← tensorAt_congr (ek_updates_frame (n := nCov) (by decide) (hplug cs' h1) h3)] at z1
      obtain ⟨cv, z2, z3⟩ := item2_of_tensorAt z1
      exact ⟨cv, x, getAttr_eq.2 z2, lookup_item2 z3⟩
    obtain ⟨cv, x, z1, z2⟩ := cov p (List.mem_of_getElem? k1)
    obtain ⟨cv', cv₃, z3, z4, -, z5⟩ := k8 nCov (by decide)
    obtain rfl := Except.ok.inj (z1.symm.trans z3)
    obtain ⟨y, ys, r, y1, y2, y3⟩ := z5 _ _ z2
    have : ∃ ty, y = .tensor ty := by
      have hm : some y ∈ ss₂.map fun u => (Dict.get? u.attrs nCov).bind fun e => (Nested.node e).lookup [m, LogType.name .forward] := by
        rw [y1]; simp
      obtain ⟨u, hu, hu'⟩ := List.mem_map.1 hm
      obtain ⟨cv'', x', g1, g2⟩ := cov u hu
      rw [getAttr_eq.1 g1] at hu'
      simp only [Option.bind_some, g2, Option.some.injEq] at hu'
      exact ⟨x', hu'.symm⟩
    obtain ⟨ty', rfl⟩ := this
    obtain ⟨us', u', -, rfl, -⟩ := foldVal_tensor ys ty' r y2
    obtain ⟨c3, e3, c4, o1, o2, o3, o4⟩ := normalize_get (.inr hnorm) n2' (st := nCov) (cn := nCovCounter) (by simp [basePairs])
    obtain rfl := Except.ok.inj (z4.symm.trans o1)
    obtain ⟨z, -, hz⟩ := (normalizeDict_item2 o3 m _).1 _ (item2_of_lookup y3)
    rw [tensorAt_item2 o4 hz]
    rfl
  · intro hg cov hcov sub hsub hmem
    obtain ⟨j, p₁, h2, h3⟩ := c2
    obtain ⟨cov₁, hcov₁, hi⟩ := finalized_item (C98_finalized hC hf1 h2)
    have hnone := (hi m .grad).1 ((callsOf_moved_nil _ _ _ _ _).2 hg)
    obtain ⟨cv, cv₃, z3, z4, z5, -⟩ := k8 nCov (by decide)
    have e1 : cv = cov₁ := by
      have := ek_updates_frame (n := nCov) (by decide) (hplug cs hcs) h3
      rw [getAttr_eq.1 z3, getAttr_eq.1 hcov₁] at this
      exact Option.some.inj this
    have e2 : skelD cov = skelD cov₁ := by
      have := normalizePairs_skel n2 nCov
      rw [getAttr_eq.1 hcov, getAttr_eq.1 z4] at this
      rw [← e1, ← z5]
      simpa using this
    have e3 := skelD_get cov m
    rw [hsub, e2, skelD_get] at e3
    unfold item2 at hnone
    cases hx : Dict.get? cov₁ m with
    | none => rw [hx] at e3; cases e3
    | some v =>
      rw [hx] at e3 hnone
      cases v with
      | leaf _ => cases e3
      | node sub₁ =>
        simp only [Option.map_some, skelN, Option.some.injEq, Nested.node.injEq] at e3
        have e4 := skelD_get sub₁ (LogType.name .grad)
        rw [e3, skelD_get] at e4
        rw [← Dict.get?_isSome_iff] at hmem
        obtain ⟨v, hv⟩ := Option.isSome_iff_exists.1 hmem
        simp only at hnone
        cases hy : Dict.get? sub₁ (LogType.name .grad) with
        | none => rw [hy, hv] at e4; cases e4
        | some v' => rw [hy] at hnone; cases v' <;> cases hnone

/-- The bases of all modules, the same on all processes. -/
theorem ek_dist_forms {L : Lib K} {width : PyStr → LogType → Nat} {dev : Nat → PyStr → LogType → Dev} {off : Bool}
    {css ekcss : List (List (Plugin × StatCall K))} {ss : List (LState K)} {hessian : Hess} {keys : List PyStr} (hE : Spec.EighOk L) (hS : Spec.EighSame L)
    (hC : Spec.Cluster width dev off css) (hf : Spec.EkFinalizedAll L css ekcss ss) (hw : 1 < css.length)
    (hl : Spec.EkLogged css.flatten ekcss.flatten keys hessian) :
    ∃ h w vb vf, (∀ m ∈ keys, Spec.Eigenbasis css.flatten m .backward (h m) (vb m) ∧ Spec.Eigenbasis css.flatten m .forward (w m) (vf m)) ∧
      ∀ (i : Nat) (s : LState K), ss[i]? = some s → ∀ (d : GLog K) (o : LogArg K) (c : K) (H : HessKind K) (s₁ s₂ : LState K), Dict.keys d = keys →
        (Dict.keys d).Nodup → precondition L s (.dict d) hessian (some c) = .ok (s₂, o) → hessOf L s (Dict.keys d) hessian (some c) = .ok (s₁, H) →
        Spec.Bases css.flatten d h w vb vf ∧ ∀ m ∈ Dict.keys d, ∀ g, Spec.grad d m = some g → ∀ i f,
          H.form m g.shape.tail i f = Spec.ekForm (h m) (w m) (vb m) (vf m) (Spec.ekfacCalls m ekcss.flatten) c i f := by
  obtain ⟨hh, hl⟩ := hl
  have : ∀ m, ∃ vb vf, m ∈ keys → Spec.Eigenbasis css.flatten m .backward (width m .backward) vb ∧
      Spec.Eigenbasis css.flatten m .forward (width m .forward) vf ∧
      ∀ (i : Nat) (s : LState K), ss[i]? = some s → ∃ eb ef t, EkParts css.flatten ekcss.flatten s m (width m .backward) (width m .forward) eb ef t ∧
        (∀ p a, p < width m .backward → a < width m .backward → eb.el [p, a] = vb p a) ∧
        (∀ q b, q < width m .forward → b < width m .forward → ef.el [q, b] = vf q b) ∧ s.getCovarianceSvd L = .ok (s, nEkfac) ∧
        (Spec.tensorAt s.attrs nCov [m, LogType.name .forward]).isSome = true ∧
        (Spec.callsOf .covariance m .grad css.flatten = [] → ∀ cov, s.getAttr nCov = .ok cov → ∀ sub, Dict.get? cov m = some (.node sub) →
          LogType.name .grad ∉ Dict.keys sub) := by
    intro m
    by_cases hm : m ∈ keys
    · obtain ⟨vb, vf, k⟩ := ek_dist hE hS hC hf hw (hl m hm).1 (hl m hm).2.1 (hl m hm).2.2
      exact ⟨vb, vf, fun _ => k⟩
    · exact ⟨fun _ _ => 0, fun _ _ => 0, fun h => absurd h hm⟩
  choose vb vf k using this
  refine ⟨fun m => width m .backward, fun m => width m .forward, vb, vf, fun m hm => ⟨(k m hm).1, (k m hm).2.1⟩, ?_⟩
  rintro i s hs d o c H s₁ s₂ rfl hn hpre hH
  have hu : Spec.UsesKfac s (Dict.keys d) hessian := by
    rcases hh with hh | ⟨hh, hc⟩
    · exact .inl hh
    · refine .inr ⟨hh, fun cov hcov m hm sub hsub => ?_⟩
      obtain ⟨eb, ef, t, -, -, -, -, -, h6⟩ := (k m hm).2.2 i s hs
      exact h6 (hc m hm) cov hcov sub hsub
  have hk' : ∀ m ∈ Dict.keys d, (Spec.tensorAt s.attrs nCov [m, LogType.name .forward]).isSome = true := fun m hm => by
    obtain ⟨eb, ef, t, -, -, -, -, h5, -⟩ := (k m hm).2.2 i s hs
    exact h5
  have each : ∀ m ∈ Dict.keys d, (∃ g n, Spec.grad d m = some g ∧ g.shape = [n, width m .backward, width m .forward]) ∧
      ∀ g f, H.form m [width m .backward, width m .forward] g f =
        Spec.ekForm (width m .backward) (width m .forward) (vb m) (vf m) (Spec.ekfacCalls m ekcss.flatten) c g f := by
    intro m hm
    obtain ⟨eb, ef, t, P, h2, h3, h4, -, -⟩ := (k m hm).2.2 i s hs
    obtain ⟨c1, c2⟩ := ekfac_core P h4 hu hk' hn hpre hH hm
    exact ⟨c1, fun g f => by rw [c2 g f, ekForm_congr h2 h3]⟩
  refine ⟨⟨fun m hm => (k m hm).1, fun m hm => (k m hm).2.1, fun m hm => (each m hm).1⟩, fun m hm g hg i f => ?_⟩
  obtain ⟨g', n, g1, g2⟩ := (each m hm).1
  obtain rfl := Option.some.inj (hg.symm.trans g1)
  rw [g2]
  exact (each m hm).2 i f

/-- **C104.** Several processes log activations and output gradients and are finalized, then log gradients to fit the eigenvalues, and are finalized. Then
there are orthonormal eigenvectors of the second moments of the activations and of the output gradients of all processes together, one choice for the whole
run, such that on every process the score of the first `compute_influence` for source `i` and target `j` is the sum, over the modules and the entries of a
gradient, of the products of the two gradients' entries in these bases, over the damped average of the squares of this entry in the gradients that all
processes logged for the eigenvalues. -/
theorem C104_ekfac {L : Lib K} {sqrt : K → K} {width : PyStr → LogType → Nat} {dev : Nat → PyStr → LogType → Dev} {off : Bool}
    {css ekcss : List (List (Plugin × StatCall K))} {ss : List (LState K)} {keys : List PyStr} {hessian : Hess} (hE : Spec.EighOk L) (hS : Spec.EighSame L)
    (hC : Spec.Cluster width dev off css) (hf : Spec.EkFinalizedAll L css ekcss ss) (hw : 1 < css.length)
    (hl : Spec.EkLogged css.flatten ekcss.flatten keys hessian) :
    ∃ hs ws vb vf, ∀ (k : Nat) (s : LState K), ss[k]? = some s → ∀ (u : LState K) (srcIds tgtIds : List PyStr) (d e : GLog K) (c : K) (r : IFResult K),
      Dict.keys d = keys → 0 < c → Spec.Labelled srcIds d → Spec.Labelled tgtIds e →
      computeInfluence L sqrt s srcIds (.dict d) tgtIds (.dict e) .dot true hessian none (some c) = .ok (u, r) →
      Spec.Bases css.flatten d hs ws vb vf ∧ (∀ m ∈ keys, ∀ a b, a < hs m → b < ws m →
          0 < Spec.fitted (hs m) (ws m) (vb m) (vf m) (Spec.ekfacCalls m ekcss.flatten) a b + c) ∧
        ∃ t, r.influence = .one t ∧ r.srcIds = srcIds ∧ r.tgtIds = tgtIds ∧ t.shape = [srcIds.length, tgtIds.length] ∧
          ∀ i j, i < srcIds.length → j < tgtIds.length → t.el [i, j] = Spec.ekInfluence ekcss.flatten hs ws vb vf c d e i j := by
  obtain ⟨hs, ws, vb, vf, -, k⟩ := ek_dist_forms hE hS hC hf hw hl
  refine ⟨hs, ws, vb, vf, ?_⟩
  intro i₀ s hs₀ u srcIds tgtIds d e c r hk hc hd he h
  obtain ⟨H', -, s₂, ⟨o, g0⟩, -⟩ := computeInfluence_ok' h hd he
  obtain ⟨H, t, g1, g2, g3, g4, g5, g6, g7⟩ := dot_scores h hd he
  simp only [if_true] at g0
  simp only [PreOf, if_true] at g1
  obtain ⟨v, hv, -⟩ := g1
  obtain ⟨k1, k3⟩ := k i₀ s hs₀ d o c H _ s₂ hk hd.nodup g0 hv
  refine ⟨k1, fun m hm a b ha hb => add_pos_of_nonneg_of_pos (fitted_nonneg _ a b) hc, t, g2, g3, g4, g5, fun i j hi hj => ?_⟩
  rw [g7 i j hi hj]
  unfold Spec.ekInfluence
  congr 1
  refine List.map_congr_left fun m hm => ?_
  obtain ⟨g, f, a1, a2, a3⟩ := g6 m hm
  unfold formAt
  simp only [a1, a2]
  exact k3 m hm g a1 _ _

/-- **C104**, self-influence. -/
theorem C104_ekfac_self {L : Lib K} {width : PyStr → LogType → Nat} {dev : Nat → PyStr → LogType → Dev} {off : Bool}
    {css ekcss : List (List (Plugin × StatCall K))} {ss : List (LState K)} {keys : List PyStr} {hessian : Hess} (hE : Spec.EighOk L) (hS : Spec.EighSame L)
    (hC : Spec.Cluster width dev off css) (hf : Spec.EkFinalizedAll L css ekcss ss) (hw : 1 < css.length)
    (hl : Spec.EkLogged css.flatten ekcss.flatten keys hessian) :
    ∃ hs ws vb vf, ∀ (k : Nat) (s : LState K), ss[k]? = some s → ∀ (u : LState K) (ids : List PyStr) (d : GLog K) (c : K) (r : SelfResult K),
      Dict.keys d = keys → 0 < c → Spec.Labelled ids d → computeSelf L s ids (.dict d) true hessian none (some c) = .ok (u, r) →
      Spec.Bases css.flatten d hs ws vb vf ∧ (∀ m ∈ keys, ∀ a b, a < hs m → b < ws m →
          0 < Spec.fitted (hs m) (ws m) (vb m) (vf m) (Spec.ekfacCalls m ekcss.flatten) a b + c) ∧
        ∃ t, r.influence.get? ['t', 'o', 't', 'a', 'l'] = some t ∧ r.srcIds = ids ∧ t.shape = [ids.length] ∧
          ∀ i, i < ids.length → t.el [i] = Spec.ekInfluence ekcss.flatten hs ws vb vf c d d i i := by
  obtain ⟨hs, ws, vb, vf, -, k⟩ := ek_dist_forms hE hS hC hf hw hl
  refine ⟨hs, ws, vb, vf, ?_⟩
  intro i₀ s hs₀ u ids d c r hk hc hd h
  obtain ⟨s₂, o, g0⟩ := computeSelf_pre h
  obtain ⟨H, g1, g3, -, g5⟩ := computeSelf_ok h hd
  obtain ⟨t, t1, -, t2, t3, -, t4⟩ := g5 nTotal (.inl rfl)
  simp only [PreOf, if_true] at g1
  obtain ⟨v, hv, -⟩ := g1
  obtain ⟨k1, k3⟩ := k i₀ s hs₀ d o c H _ s₂ hk hd.nodup g0 hv
  refine ⟨k1, fun m hm a b ha hb => add_pos_of_nonneg_of_pos (fitted_nonneg _ a b) hc, t, t1, g3, t3, fun i hi => ?_⟩
  rw [t4 i hi]
  unfold Spec.ekInfluence
  congr 1
  refine List.map_congr_left fun m hm => ?_
  obtain ⟨g, a1, -⟩ := hd.rows m hm
  rw [count_none, Nat.cast_one, one_mul]
  unfold formAt
  simp only [a1]
  exact k3 m hm g a1 _ _

/-- **C104**, simple eigenvalues: if no eigenvalue of the second moments occurs twice, the score on every process is given by every choice of the
eigenvectors, so that it does not depend on how the data is split among the processes. -/
theorem C104_simple {L : Lib K} {sqrt : K → K} {width : PyStr → LogType → Nat} {dev : Nat → PyStr → LogType → Dev} {off : Bool}
    {css ekcss : List (List (Plugin × StatCall K))} {ss : List (LState K)} {k : Nat} {s u : LState K} {srcIds tgtIds : List PyStr} {d e : GLog K} {c : K}
    {hessian : Hess} {r : IFResult K} (hE : Spec.EighOk L) (hS : Spec.EighSame L) (hC : Spec.Cluster width dev off css)
    (hf : Spec.EkFinalizedAll L css ekcss ss) (hw : 1 < css.length) (hl : Spec.EkLogged css.flatten ekcss.flatten (Dict.keys d) hessian) (hk : ss[k]? = some s)
    (hc : 0 < c) (hd : Spec.Labelled srcIds d) (he : Spec.Labelled tgtIds e)
    (h : computeInfluence L sqrt s srcIds (.dict d) tgtIds (.dict e) .dot true hessian none (some c) = .ok (u, r))
    {hs ws : PyStr → Nat} {vb vf : PyStr → Nat → Nat → K} (hB : Spec.Bases css.flatten d hs ws vb vf)
    (hSimple : ∀ m ∈ Dict.keys d, Spec.Simple css.flatten m .backward (hs m) (vb m) ∧ Spec.Simple css.flatten m .forward (ws m) (vf m)) :
    ∃ t, r.influence = .one t ∧ t.shape = [srcIds.length, tgtIds.length] ∧
      ∀ i j, i < srcIds.length → j < tgtIds.length → t.el [i, j] = Spec.ekInfluence ekcss.flatten hs ws vb vf c d e i j := by
  obtain ⟨hs', ws', vb', vf', k0⟩ := C104_ekfac (sqrt := sqrt) hE hS hC hf hw hl
  obtain ⟨k1, -, t, k2, -, -, k3, k4⟩ := k0 k s hk u srcIds tgtIds d e c r rfl hc hd he h
  exact ⟨t, k2, k3, fun i j hi hj => by rw [k4 i j hi hj, ekInfluence_bases hB k1 hSimple]⟩

/-- **C104**, self-influence with simple eigenvalues. -/
theorem C104_simple_self {L : Lib K} {width : PyStr → LogType → Nat} {dev : Nat → PyStr → LogType → Dev} {off : Bool}
    {css ekcss : List (List (Plugin × StatCall K))} {ss : List (LState K)} {k : Nat} {s u : LState K} {ids : List PyStr} {d : GLog K} {c : K}
    {hessian : Hess} {r : SelfResult K} (hE : Spec.EighOk L) (hS : Spec.EighSame L) (hC : Spec.Cluster width dev off css)
    (hf : Spec.EkFinalizedAll L css ekcss ss) (hw : 1 < css.length) (hl : Spec.EkLogged css.flatten ekcss.flatten (Dict.keys d) hessian) (hk : ss[k]? = some s)
    (hc : 0 < c) (hd : Spec.Labelled ids d) (h : computeSelf L s ids (.dict d) true hessian none (some c) = .ok (u, r))
    {hs ws : PyStr → Nat} {vb vf : PyStr → Nat → Nat → K} (hB : Spec.Bases css.flatten d hs ws vb vf)
    (hSimple : ∀ m ∈ Dict.keys d, Spec.Simple css.flatten m .backward (hs m) (vb m) ∧ Spec.Simple css.flatten m .forward (ws m) (vf m)) :
    ∃ t, r.influence.get? ['t', 'o', 't', 'a', 'l'] = some t ∧ t.shape = [ids.length] ∧
      ∀ i, i < ids.length → t.el [i] = Spec.ekInfluence ekcss.flatten hs ws vb vf c d d i i := by
  obtain ⟨hs', ws', vb', vf', k0⟩ := C104_ekfac_self hE hS hC hf hw hl
  obtain ⟨k1, -, t, k2, -, k3, k4⟩ := k0 k s hk u ids d c r rfl hc hd h
  exact ⟨t, k2, k3, fun i hi => by rw [k4 i hi, ekInfluence_bases hB k1 hSimple]⟩

end
end Logix
