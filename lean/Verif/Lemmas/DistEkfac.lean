/-
Lemmas on several processes that fit eigenvalues: layouts of the states, and the eigenvectors.
-/
import Verif.Props.DistState
import Verif.Props.EkfacScores

set_option linter.unusedSectionVars false
namespace Logix
variable {K : Type}

/-! ### Normalisation keeps layouts -/

mutual
theorem normalizeValue_skel [Field K] : ∀ {c : Option (Nested (SVal K))} {v v' : Nested (SVal K)}, normalizeValue c v = .ok v' → skelN v' = skelN v
  | c, .leaf (.tensor t), v', h => by
    unfold normalizeValue at h
    split at h
    · cases h; rfl
    · cases h
  | c, .leaf (.num _), v', h => by unfold normalizeValue at h; cases h
  | c, .leaf (.paths _), v', h => by unfold normalizeValue at h; cases h
  | c, .leaf (.dims _), v', h => by unfold normalizeValue at h; cases h
  | none, .node d, v', h => by
    unfold normalizeValue at h
    simp only at h
    split at h
    · cases h
    · next d' hd => cases h; simp only [skelN, normalizeDict_skel hd]
  | some (.node e), .node d, v', h => by
    unfold normalizeValue at h
    simp only at h
    split at h
    · cases h
    · next d' hd => cases h; simp only [skelN, normalizeDict_skel hd]
  | some (.leaf _), .node d, v', h => by
    unfold normalizeValue at h
    simp only at h
    split at h
    · cases h; rfl
    · cases h
theorem normalizeDict_skel [Field K] : ∀ {e : StateDict K} {d d' : List (PyStr × Nested (SVal K))}, normalizeDict e d = .ok d' → skelD d' = skelD d
  | e, [], d', h => by unfold normalizeDict at h; cases h; rfl
  | e, (k, v) :: rest, d', h => by
    unfold normalizeDict at h
    split at h
    · cases h
    · next v' hv =>
      split at h
      · cases h
      · next rest' hr =>
        cases h
        simp only [skelD, normalizeValue_skel hv, normalizeDict_skel hr]
end

theorem normalizePairs_skel [Field K] : ∀ {pairs : List (PyStr × PyStr)} {s s' : LState K}, normalizePairs s pairs = .ok s' → ∀ n,
    (Dict.get? s'.attrs n).map skelD = (Dict.get? s.attrs n).map skelD
  | [], s, s', h, n => by cases h; rfl
  | (st, cn) :: rest, s, s', h, n => by
    unfold normalizePairs at h
    split at h
    · next d e hd he =>
      split at h
      · cases h
      · next d' hd' =>
        rw [normalizePairs_skel h n, get?_setAttr]
        split
        · next hn =>
          subst hn
          rw [getAttr_eq.1 hd]
          simp only [Option.map_some, normalizeDict_skel hd']
        · rfl
    · cases h

/-! ### The layout of the fitted eigenvalues -/

/-- The layout after `d[m] = v`. -/
def sset1 (d : List (PyStr × Nested Unit)) (m : PyStr) : List (PyStr × Nested Unit) := Dict.set d m (.leaf ())

theorem sset1_idem (d : List (PyStr × Nested Unit)) (m : PyStr) (h : Dict.get? d m = some (.leaf ())) : sset1 d m = d :=
  Dict.set_get?_self d m _ h

theorem sset1_keep (d : List (PyStr × Nested Unit)) (a m : PyStr) (h : Dict.get? d m = some (.leaf ())) :
    Dict.get? (sset1 d a) m = some (.leaf ()) := by
  unfold sset1
  by_cases ha : a = m
  · subst ha; rw [Dict.get?_set_self]
  · rw [Dict.get?_set_ne _ _ ha]; exact h

theorem foldl_sset1_filter (a : PyStr) : ∀ (l : List PyStr) (d : List (PyStr × Nested Unit)), Dict.get? d a = some (.leaf ()) →
    l.foldl sset1 d = (l.filter (· ≠ a)).foldl sset1 d
  | [], d, _ => rfl
  | b :: rest, d, h => by
    by_cases hb : b = a
    · subst hb
      simp only [List.foldl_cons, ne_eq, not_true_eq_false, decide_false, Bool.false_eq_true, not_false_eq_true, List.filter_cons_of_neg]
      rw [sset1_idem d b h]
      exact foldl_sset1_filter b rest d h
    · simp only [List.foldl_cons, ne_eq, hb, not_false_eq_true, decide_true, List.filter_cons_of_pos]
      exact foldl_sset1_filter a rest _ (sset1_keep d b a h)

theorem foldl_sset1_firstSeen : ∀ (l : List PyStr) (d : List (PyStr × Nested Unit)), l.foldl sset1 d = (Spec.firstSeen l).foldl sset1 d
  | [], _ => rfl
  | b :: rest, d => by
    simp only [List.foldl_cons, Spec.firstSeen]
    rw [foldl_sset1_firstSeen rest, foldl_sset1_filter b _ _ (by unfold sset1; exact Dict.get?_set_self _ _ _)]

/-- The names of the modules of EKFAC calls, in their order. -/
def ekNames (calls : List (Plugin × StatCall K)) : List PyStr := (calls.filter fun pc => pc.1 = .correctedEigval).map fun pc => pc.2.name

theorem ekNames_append (a b : List (Plugin × StatCall K)) : ekNames (a ++ b) = ekNames a ++ ekNames b := by simp [ekNames]

/-- The synchronized states in the order of their registration. -/
def baseSync : List PyStr := [nMean, nMeanCounter, nCov, nCovCounter]

/-- The layout of a state during EKFAC logging. -/
def EkLay (s : LState K) (done : List (Plugin × StatCall K)) : Prop :=
  (ekNames done = [] ∧ s.hasAttr nEigvec = false ∧ nEkfac ∉ s.states ∧ nEkfacCounter ∉ s.states ∧ s.toSync = baseSync) ∨
  (∃ ek cn, s.hasAttr nEigvec = true ∧ s.getAttr nEkfac = .ok ek ∧ s.getAttr nEkfacCounter = .ok cn ∧ s.toSync = baseSync ++ [nEkfac, nEkfacCounter] ∧
    skelD ek = (ekNames done).foldl sset1 [] ∧ skelD cn = (ekNames done).foldl sset1 [])

theorem covarianceSvd_regs (L : Lib K) {s s' : LState K} (h : s.covarianceSvd L = .ok s') :
    s'.toSync = s.toSync ∧ ∀ n, n ≠ nEigval → n ≠ nEigvec → (n ∈ s'.states ↔ n ∈ s.states) := by
  unfold LState.covarianceSvd at h
  simp only at h
  split at h
  · split at h
    · cases h
    · simp only [Except.ok.injEq] at h
      subst h
      refine ⟨?_, fun n g1 g2 => ?_⟩
      · have : ∀ (u : LState K) n b c, (u.registerState n false b c).toSync = u.toSync := by
          intro u n b c; unfold LState.registerState; split <;> rfl
        show (LState.registerState _ _ _ _ _).toSync = _
        rw [this, this]
      · show n ∈ (LState.registerState _ _ _ _ _).states ↔ _
        rw [registerState_states _ _ _ _ _ _ g2, registerState_states _ _ _ _ _ _ g1]
  · cases h

theorem registerState_sync (s : LState K) (n : PyStr) (b c : Bool) (h : n ∉ s.states) : (s.registerState n true b c).toSync = s.toSync ++ [n] := by
  unfold LState.registerState
  rw [if_neg h]
  rfl

theorem ekfacPrepare_sync (L : Lib K) {s s1 : LState K} (h : ekfacPrepare L s = .ok s1) (h0 : s.hasAttr nEigvec = false)
    (h1 : nEkfac ∉ s.states) (h2 : nEkfacCounter ∉ s.states) : s1.toSync = s.toSync ++ [nEkfac, nEkfacCounter] ∧
      s1.getAttr nEkfac = .ok [] ∧ s1.getAttr nEkfacCounter = .ok [] := by
  unfold ekfacPrepare at h
  rw [h0] at h
  simp only [Bool.false_eq_true, if_false] at h
  split at h
  · cases h
  · next s2 hs2 =>
    obtain ⟨r1, r2⟩ := covarianceSvd_regs L hs2
    have e1 : nEkfac ∉ s2.states := by rw [r2 _ (by decide) (by decide)]; exact h1
    have e2 : nEkfacCounter ∉ (s2.registerState nEkfac true true false).states := by
      rw [registerState_states _ _ _ _ _ _ (by decide), r2 _ (by decide) (by decide)]; exact h2
    simp only [Except.ok.injEq] at h
    subst h
    refine ⟨?_, ?_, ?_⟩
    · have : ∀ (u : LState K) a b, (u.registerNormalizePair a b).toSync = u.toSync := by
        intro u a b; unfold LState.registerNormalizePair; split <;> rfl
      rw [this, registerState_sync _ _ _ _ e2, registerState_sync _ _ _ _ e1, r1]
      simp
    · rw [getAttr_congr (s := s2.registerState nEkfac true true false)]
      · exact registerState_get _ _ _ _ _ e1
      · rw [registerNormalizePair_attrs, registerState_frame _ _ _ _ _ _ (by decide)]
    · rw [getAttr_congr (s := (s2.registerState nEkfac true true false).registerState nEkfacCounter true false false)]
      · exact registerState_get _ _ _ _ _ e2
      · rw [registerNormalizePair_attrs]

theorem EkLay.step [Semiring K] {L : Lib K} {s s' : LState K} {done : List (Plugin × StatCall K)} (hs : EkLay s done) {q : Plugin} {c : StatCall K}
    (hq : q = .log ∨ q = .correctedEigval) (h : pluginUpdate L q s c = .ok s') : EkLay s' (done ++ [(q, c)]) := by
  rcases hq with rfl | rfl
  · obtain rfl : s = s' := Except.ok.inj h
    have : ekNames (done ++ [(Plugin.log, c)]) = ekNames done := by simp [ekNames]
    unfold EkLay
    rw [this]
    exact hs
  · obtain ⟨s1, vecs, vals, ek, cn, t, cn', ef, eb, t', x, h0, h1, h2, h3, h4, h5, h6, h7, h8, h9, hs'⟩ := correctedEigval_ok L h
    have hn : ekNames (done ++ [(Plugin.correctedEigval, c)]) = ekNames done ++ [c.name] := by simp [ekNames]
    have key : s1.toSync = baseSync ++ [nEkfac, nEkfacCounter] ∧ skelD ek = (ekNames done).foldl sset1 [] ∧ skelD cn = (ekNames done).foldl sset1 [] := by
      rcases hs with ⟨g0, g1, g2, g3, g4⟩ | ⟨ek', cn0, g1, g3, g4, g5, g6, g7⟩
      · obtain ⟨p1, p2, p3⟩ := ekfacPrepare_sync L h0 g1 g2 g3
        obtain rfl := Except.ok.inj (h3.symm.trans p2)
        obtain rfl := Except.ok.inj (h4.symm.trans p3)
        rw [g0]
        exact ⟨by rw [p1, g4], rfl, rfl⟩
      · have hp : s1 = s := by
          unfold ekfacPrepare at h0
          rw [g1] at h0
          simp only [if_true, Except.ok.injEq] at h0
          exact h0.symm
        subst hp
        obtain rfl := Except.ok.inj (h3.symm.trans g3)
        obtain rfl := Except.ok.inj (h4.symm.trans g4)
        exact ⟨g5, g6, g7⟩
    obtain ⟨k1, k2, k3⟩ := key
    right
    refine ⟨Dict.set ek c.name (.leaf (.tensor t')), Dict.set cn' c.name (.leaf (.num (x + (c.data.size 0 : K)))), correctedEigval_has L h, ?_, ?_, ?_, ?_, ?_⟩
    · rw [hs', getAttr_setAttr, if_neg (by decide), getAttr_setAttr, if_pos rfl]
    · rw [hs', getAttr_setAttr, if_pos rfl]
    · rw [hs']; exact k1
    · rw [hn, List.foldl_append, ← k2, skelD_set]; rfl
    · rw [hn, List.foldl_append, ← k3, skelD_set]
      have : cn' = cn ∨ cn' = Dict.set cn c.name (.leaf (.num 0)) := by
        unfold ekfacEntry at h5
        split at h5
        · cases h5; exact .inl rfl
        · simp only at h5
          split at h5
          · cases h5
          · cases h5; exact .inr rfl
      rcases this with rfl | rfl
      · rfl
      · rw [skelD_set]
        exact sset1_idem _ _ (Dict.get?_set_self _ _ _)

theorem EkLay.updates [Semiring K] {L : Lib K} : ∀ {calls done : List (Plugin × StatCall K)} {s s' : LState K}, EkLay s done →
    (∀ pc ∈ calls, pc.1 = .log ∨ pc.1 = .correctedEigval) → Logix.updates L s calls = .ok s' → EkLay s' (done ++ calls)
  | [], done, s, s', hs, _, h => by cases h; simpa using hs
  | (q, c) :: rest, done, s, s', hs, hq, h => by
    unfold Logix.updates at h
    split at h
    · cases h
    · next s1 hs1 =>
      have := EkLay.updates (hs.step (hq _ List.mem_cons_self) hs1) (fun pc hpc => hq pc (List.mem_cons_of_mem _ hpc)) h
      simpa using this

/-! ### What EKFAC logging does not touch -/

theorem ek_updates_frame [Semiring K] {L : Lib K} {n : PyStr} (hn : n ∉ touched .correctedEigval) : ∀ {calls : List (Plugin × StatCall K)} {s s' : LState K},
    (∀ pc ∈ calls, pc.1 = .log ∨ pc.1 = .correctedEigval) → updates L s calls = .ok s' → Dict.get? s'.attrs n = Dict.get? s.attrs n
  | [], s, s', _, h => by cases h; rfl
  | (q, c) :: rest, s, s', hq, h => by
    unfold updates at h
    split at h
    · cases h
    · next s1 hs1 =>
      rw [ek_updates_frame hn (fun pc hpc => hq pc (List.mem_cons_of_mem _ hpc)) h]
      have hq' : q = .log ∨ q = .correctedEigval := hq _ List.mem_cons_self
      rcases hq' with rfl | rfl
      · obtain rfl : s = s1 := Except.ok.inj hs1
        rfl
      · exact (pluginUpdate_frame L hs1).2 n hn

/-- The eigenvectors are those of the covariances. -/
def EigOf (L : Lib K) (s : LState K) : Prop :=
  s.hasAttr nEigvec = true → ∀ m t x, Spec.tensorAt s.attrs nCov [m, t] = some x →
    ∃ w v, L.eigh x = .ok (w, v) ∧ Spec.tensorAt s.attrs nEigvec [m, t] = some v

theorem EigOf.congr [Semiring K] {L : Lib K} {s s' : LState K} (h1 : Dict.get? s'.attrs nCov = Dict.get? s.attrs nCov)
    (h3 : Dict.get? s'.attrs nEigvec = Dict.get? s.attrs nEigvec) (h : EigOf L s) : EigOf L s' := by
  intro hv m t x hx
  rw [tensorAt_congr h1] at hx
  obtain ⟨w, v, a, b⟩ := h (by unfold LState.hasAttr at hv ⊢; rw [← h3]; exact hv) m t x hx
  exact ⟨w, v, a, by rw [tensorAt_congr h3]; exact b⟩

theorem eigOf_update [Field K] {L : Lib K} {ops : List (StateOp K)} {s s' : LState K} {q : Plugin} {c : StatCall K} (hrun : runOps L .init ops = .ok s)
    (hb : Spec.SvdFresh s) (hs : EigOf L s) (hq : q = .log ∨ q = .correctedEigval) (h : pluginUpdate L q s c = .ok s') :
    EigOf L s' := by
  rcases hq with rfl | rfl
  · obtain rfl : s = s' := Except.ok.inj h
    exact hs
  · obtain ⟨s1, vecs, vals, ek, cn, t, cn', ef, eb, t', x, h0, -, -, -, -, -, -, -, -, -, rfl⟩ := correctedEigval_ok L h
    have F : ∀ n, n ≠ nEkfac → n ≠ nEkfacCounter → Dict.get? ((s1.setAttr nEkfac (Dict.set ek c.name (.leaf (.tensor t')))).setAttr nEkfacCounter
        (Dict.set cn' c.name (.leaf (.num (x + (c.data.size 0 : K)))))).attrs n = Dict.get? s1.attrs n := fun n h1 h2 => by
      rw [get?_setAttr, if_neg (Ne.symm h2), get?_setAttr, if_neg (Ne.symm h1)]
    refine EigOf.congr (F _ (by decide) (by decide)) (F _ (by decide) (by decide)) ?_
    unfold ekfacPrepare at h0
    split at h0
    · obtain rfl := Except.ok.inj h0
      exact hs
    · next hv =>
      split at h0
      · cases h0
      · next sv hsv =>
        obtain rfl := Except.ok.inj h0
        have hv' : s.hasAttr nEigvec = false := by simpa using hv
        have hval : s.hasAttr nEigval = false := hb.both.trans hv'
        have hg : ∃ n, s.getCovarianceSvd L = .ok (sv, n) := by
          unfold LState.getCovarianceSvd
          rw [hv', hval]
          simp only [Bool.and_self, Bool.false_eq_true, if_false, hsv]
          exact ⟨_, rfl⟩
        obtain ⟨n, hg⟩ := hg
        have G : ∀ n, nEkfac ≠ n → nEkfacCounter ≠ n → Dict.get? (((sv.registerState nEkfac true true false).registerState nEkfacCounter true false
            false).registerNormalizePair nEkfac nEkfacCounter).attrs n = Dict.get? sv.attrs n := fun n h1 h2 => by
          rw [registerNormalizePair_attrs, registerState_frame _ _ _ _ _ _ h2, registerState_frame _ _ _ _ _ _ h1]
        refine EigOf.congr (G _ (by decide) (by decide)) (G _ (by decide) (by decide)) fun _ m t x hx => ?_
        rw [tensorAt_congr ((covarianceSvd_frame L hsv).2 nCov (by decide) (by decide))] at hx
        obtain ⟨-, w, v, a, -, b⟩ := C42_first_svd_partial L hrun ⟨hv', hval⟩ hg hx
        exact ⟨w, v, a, b⟩

theorem eigOf_updates [Field K] {L : Lib K} (hE : Spec.EighOk L) : ∀ {calls : List (Plugin × StatCall K)} {ops : List (StateOp K)} {s s' : LState K},
    runOps L .init ops = .ok s → Spec.SvdFresh s → EigOf L s → (∀ pc ∈ calls, pc.1 = .log ∨ pc.1 = .correctedEigval) → updates L s calls = .ok s' →
    EigOf L s'
  | [], _, _, _, _, _, hs, _, h => by cases h; exact hs
  | (q, c) :: rest, ops, s, s', hrun, hb, hs, hq, h => by
    unfold updates at h
    split at h
    · cases h
    · next s1 hs1 =>
      have hrun' : runOps L .init (ops ++ [.update q c]) = .ok s1 := runOps_snoc hrun hs1
      exact eigOf_updates hE hrun' (svdFresh_update hrun hE hb (hq _ List.mem_cons_self) hs1).1
        (eigOf_update hrun hb hs (hq _ List.mem_cons_self) hs1) (fun pc hpc => hq pc (List.mem_cons_of_mem _ hpc)) h

end Logix
