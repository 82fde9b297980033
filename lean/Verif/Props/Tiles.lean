/-
C89: saved scores do not depend on how the samples are split into batches.
-/
import Verif.Props.InfluenceAll
import Verif.Props.Labels

namespace Logix
variable {K : Type}

theorem batchRun_view [Field K] {L : Lib K} {sqrt : K → K} {ids : List PyStr} {src : LogArg K} {mode : Mode} {hessian : Hess} {groups : Option (List PyStr)} {damping : Option K}
    {s₀ : LState K} : ∀ {batches : List (List PyStr × LogArg K)} {s s' : LState K} {vs : List (IFResult K)}, SameView L (fun x => x = damping) s₀ s →
      BatchRun L sqrt ids src mode hessian groups damping s batches s' vs → SameView L (fun x => x = damping) s₀ s'
  | [], s, s', vs, hs, h => by rw [h.1]; exact hs
  | b :: bs, s, s', vs, hs, h => by
    obtain ⟨s₁, r, vs', hc, hb, rfl⟩ := h
    exact batchRun_view (hs.trans ((computeInfluence_same hs.symm.left sqrt ids b.1 src b.2 mode false hessian groups damping (.inr rfl)).2 _ _ hc)) hb

/-- What one call against a loader returns: for every batch the scores that a call against it gives. -/
theorem call_tiles [Field K] {L : Lib K} {sqrt : K → K} {o o' : IFObj K} {hist : List (IFResult K)} {ids : List PyStr} {d : GLog K} {s₀ : LState K}
    {batches : List (List PyStr × GLog K)} {mode : Mode} {pre save : Bool} {hessian : Hess} {groups : Option (List PyStr)} {damping : Option K}
    {r : Option (RRec K)} (hh : Spec.History L sqrt o hist) (hv : SameView L (fun x => x = damping) s₀ o.st)
    (h : computeInfluenceAll L sqrt o ids (.dict d) (batches.map fun b => (b.1, .dict b.2)) mode pre save hessian groups damping = .ok (o', r)) (hne : batches ≠ [])
    (hd : Spec.Labelled ids d) (hb : ∀ b ∈ batches, Spec.Labelled b.1 b.2) :
    SameView L (fun x => x = damping) s₀ o'.st ∧ ∃ x, r = some x ∧ (o'.heap.deref x).srcIds = ids ∧ (o'.heap.deref x).tgtIds = batches.flatMap (·.1) ∧
      ∀ k, k = nTotal ∨ k ∈ groups.getD [] → ∃ y, (o'.heap.deref x).influence.get? k = some y ∧ y.dev = .cpu ∧
        ∀ l c post, batches = l ++ c :: post → ∃ s₁ v t, computeInfluence L sqrt s₀ ids (.dict d) c.1 (.dict c.2) mode pre hessian groups damping = .ok (s₁, v) ∧
          v.influence.get? k = some t ∧ ∀ i j, i < ids.length → j < c.1.length → y.el [i, (l.flatMap (·.1)).length + j] = t.el [i, j] := by
  obtain ⟨x, s₁, src', vs, rfl, a1, a2, a3, a4⟩ := all_some hh h (by simpa using hne)
  have hv₁ : SameView L (fun x => x = damping) s₀ s₁ := hv.trans ((pre_same hv.symm.left pre (.dict d) hessian damping (.inr rfl)).2 _ _ a1)
  refine ⟨batchRun_view hv₁ a2, x, rfl, ?_⟩
  have hvs : List.Forall₂ (fun (b : List PyStr × LogArg K) v => ∃ s₂, computeInfluence L sqrt s₀ ids (.dict d) b.1 b.2 mode pre hessian groups damping = .ok (s₂, v))
      (batches.map fun b => (b.1, LogArg.dict b.2)) vs := by
    have := batchRun_at (s₀ := s₁) (fun a b => SameView L (fun x => x = damping) a b) (fun s b s₂ r hs hcc => by
      obtain ⟨b1, -⟩ := computeInfluence_same hs sqrt ids b.1 src' b.2 mode false hessian groups damping (.inr rfl)
      obtain ⟨-, b2⟩ := computeInfluence_same hs.symm.left sqrt ids b.1 src' b.2 mode false hessian groups damping (.inr rfl)
      rcases b1 with ⟨e, -, he⟩ | ⟨s₃, s₄, v, h3, h4, -⟩
      · rw [hcc] at he; cases he
      · rw [hcc] at h4; cases h4
        exact ⟨hs.trans (b2 _ _ hcc), s₃, h3⟩) hv₁.symm.left a2
    refine this.imp fun b v => ?_
    rintro ⟨s₂, hs₂⟩
    rw [← computeInfluence_split a1] at hs₂
    obtain ⟨b1, -⟩ := computeInfluence_same hv sqrt ids b.1 (.dict d) b.2 mode pre hessian groups damping (.inr rfl)
    rcases b1 with ⟨e, -, he⟩ | ⟨s₃, s₄, v, h3, h4, -⟩
    · rw [hs₂] at he; cases he
    · rw [hs₂] at h4; cases h4
      exact ⟨s₃, h3⟩
  have hids : ∀ l l', List.Forall₂ (fun (b : List PyStr × LogArg K) v => ∃ s₁, computeInfluence L sqrt s₀ ids (.dict d) b.1 b.2 mode pre hessian groups damping = .ok (s₁, v)) l l' →
      l'.flatMap (·.along .tgt) = l.flatMap (·.1) := fun l l' h => forall₂_flatMap (fun b v ⟨s₁, hv⟩ => (C48_shape hv).2.1) h
  have hfm : ∀ l : List (List PyStr × GLog K), (l.map fun b => (b.1, LogArg.dict b.2)).flatMap (·.1) = l.flatMap (·.1) := fun l => by rw [List.flatMap_map]
  have htgt : (o'.heap.deref x).tgtIds = batches.flatMap (·.1) := by
    have := a4.ids
    rw [hids _ _ hvs, hfm] at this
    exact this
  have hcase : ∃ b bs, batches = b :: bs := List.exists_cons_of_ne_nil hne
  obtain ⟨b, bs, rfl⟩ := hcase
  have hvs0 := hvs
  cases hvs0 with
  | cons h1 h2 =>
    rename_i v0 vs0
    obtain ⟨s₂, h1⟩ := h1
    have hsrc : (o'.heap.deref x).srcIds = ids := (a4.other _ rfl).trans (C48_shape h1).1
    refine ⟨hsrc, htgt, fun k hk => ?_⟩
    obtain ⟨_, _, _, -, -, -, -, -, -, -, b4⟩ := computeInfluence_ok h1 hd (hb b (by simp))
    obtain ⟨t0, ht0, hcpu, -⟩ := b4 k hk
    have hkey := a4.keys _ rfl k
    rw [ht0] at hkey
    obtain ⟨y, hy, hyd⟩ := hkey
    refine ⟨y, hy, hyd.trans hcpu, fun l c post he => ?_⟩
    rw [he] at hvs
    rw [List.map_append, List.map_cons] at hvs
    obtain ⟨l', v, post', hvs', f1, s₃, hv'⟩ := forall₂_split hvs
    obtain ⟨t, ht, -, hel⟩ := a4.el k y hy l' v post' hvs'
    refine ⟨s₃, v, t, hv', ht, fun i j hi hj => ?_⟩
    obtain ⟨d1, d2, -⟩ := C48_shape hv'
    have := hel i j (by rw [d1]; exact hi) (by rw [d2]; exact hj)
    rw [hids _ _ f1, hfm] at this
    exact this

/-- The loop over the source batches. -/
theorem saveAll_tiles [Field K] {L : Lib K} {sqrt : K → K} {s₀ : LState K}
    {batches : List (List PyStr × GLog K)} {mode : Mode} {pre : Bool} {hessian : Hess} {groups : Option (List PyStr)} {damping : Option K} (hne : batches ≠ [])
    (hb : ∀ b ∈ batches, Spec.Labelled b.1 b.2) : ∀ {srcs : List (List PyStr × GLog K)} {o o' : IFObj K} {hist : List (IFResult K)}, (∀ b ∈ srcs, Spec.Labelled b.1 b.2) →
    Spec.History L sqrt o hist → SameView L (fun x => x = damping) s₀ o.st →
    Spec.saveAll L sqrt (batches.map fun b => (b.1, .dict b.2)) mode pre hessian groups damping o srcs = .ok o' →
    ∃ vs, Spec.History L sqrt o' (hist ++ vs) ∧ List.Forall₂ (fun b (v : IFResult K) => v.srcIds = b.1 ∧ v.tgtIds = batches.flatMap (·.1) ∧
      ∀ k, k = nTotal ∨ k ∈ groups.getD [] → ∃ y, v.influence.get? k = some y ∧ y.dev = .cpu ∧
        ∀ l c post, batches = l ++ c :: post → ∃ s₁ u t, computeInfluence L sqrt s₀ b.1 (.dict b.2) c.1 (.dict c.2) mode pre hessian groups damping = .ok (s₁, u) ∧
          u.influence.get? k = some t ∧ ∀ i j, i < b.1.length → j < c.1.length → y.el [i, (l.flatMap (·.1)).length + j] = t.el [i, j]) srcs vs
  | [], o, o', hist, _, hh, _, h => by
    cases h
    exact ⟨[], by simpa using hh, .nil⟩
  | b :: srcs, o, o', hist, hl, hh, hv, h => by
    rw [Spec.saveAll] at h
    split at h
    · cases h
    · next o₁ r hc =>
      obtain ⟨h1, x, rfl, h2⟩ := call_tiles hh hv hc hne (hl b (by simp)) hb
      obtain ⟨vs, g1, g2⟩ := saveAll_tiles hne hb (fun c hc => hl c (by simp [hc])) (hh.saved hc) h1 h
      exact ⟨_ :: vs, by simpa using g1, .cons h2 g2⟩

theorem tiles_whole [Field K] {L : Lib K} {sqrt : K → K} {o o' : IFObj K} {s₀ s' : LState K} {srcIds tgtIds : List PyStr} {d e : GLog K}
    {srcs batches : List (List PyStr × GLog K)} {mode : Mode} {pre : Bool} {hessian : Hess} {groups : Option (List PyStr)} {damping : Option K} {w : IFResult K}
    (hh : Spec.History L sqrt o []) (hv : SameView L (fun x => x = damping) s₀ o.st)
    (h : Spec.saveAll L sqrt (batches.map fun b => (b.1, .dict b.2)) mode pre hessian groups damping o srcs = .ok o')
    (hw : computeInfluence L sqrt s₀ srcIds (.dict d) tgtIds (.dict e) mode pre hessian groups damping = .ok (s', w))
    (hsne : srcs ≠ []) (hbne : batches ≠ []) (hS : Spec.Batches srcs srcIds d) (hB : Spec.Batches batches tgtIds e)
    (hd : Spec.Labelled srcIds d) (he : Spec.Labelled tgtIds e) (hs : ∀ b ∈ srcs, Spec.Labelled b.1 b.2) (hb : ∀ b ∈ batches, Spec.Labelled b.1 b.2)
    (hks : ∀ b ∈ srcs, Dict.keys b.2 = Dict.keys d) (hkb : ∀ b ∈ batches, Dict.keys b.2 = Dict.keys e)
    (hentry : ∀ b ∈ srcs, ∀ c ∈ batches, ∀ s₁ v, computeInfluence L sqrt s₀ b.1 (.dict b.2) c.1 (.dict c.2) mode pre hessian groups damping = .ok (s₁, v) →
      ∀ i j i' j', i < b.1.length → j < c.1.length → i' < srcIds.length → j' < tgtIds.length → Spec.SameSample b.2 i d i' → Spec.SameSample c.2 j e j' →
        ∀ k, k = nTotal ∨ k ∈ groups.getD [] → ∃ t t', v.influence.get? k = some t ∧ w.influence.get? k = some t' ∧ t.el [i, j] = t'.el [i', j']) :
    Spec.SavedAre o' groups w := by
  obtain ⟨vs, h1, h2⟩ := saveAll_tiles hbne hb hs hh hv h
  rw [List.nil_append] at h1
  obtain ⟨sb, ss, rfl⟩ := List.exists_cons_of_ne_nil hsne
  have hfm : ∀ (l : List (List PyStr × GLog K)) (l' : List (IFResult K)), List.Forall₂ (fun b v => v.srcIds = b.1) l l' → l'.flatMap (·.srcIds) = l.flatMap (·.1) :=
    fun l l' h => forall₂_flatMap (fun b v hv => hv) h
  have hids := hfm _ _ (h2.imp fun _ _ h => h.1)
  obtain ⟨c1, c2, c3⟩ := C48_shape hw
  have h20 := h2
  cases h20 with
  | cons e1 e2 =>
    rename_i v0 vs0
    obtain ⟨f1, f2, f3⟩ := e1
    rcases history_stacked h1 with ⟨hnil, -⟩ | ⟨-, a, ha, hst⟩
    · cases hnil
    have hsrc : (o'.heap.deref a).srcIds = srcIds := hst.ids.trans (hids.trans hS.1.symm)
    have htgt : (o'.heap.deref a).tgtIds = tgtIds := (hst.other _ rfl).trans (f2.trans hB.1.symm)
    refine ⟨a, ha, hsrc.trans c1.symm, htgt.trans c2.symm, fun k hk => ?_⟩
    obtain ⟨y0, hy0, hcpu, -⟩ := f3 k hk
    have hkey := hst.keys _ rfl k
    rw [hy0] at hkey
    obtain ⟨x, hx, hxd⟩ := hkey
    obtain ⟨_, _, _, -, -, -, -, -, -, -, b4⟩ := computeInfluence_ok hw hd he
    obtain ⟨t, ht, htd, hts, -⟩ := b4 k hk
    refine ⟨x, hx, ?_⟩
    rw [ht, Option.some.injEq]
    have hxs : x.shape = [srcIds.length, tgtIds.length] := by rw [hst.good k x hx, hsrc, htgt]
    refine (Tensor.ext_el (hxd.trans (hcpu.trans htd.symm)) (hxs.trans hts.symm) fun idx hidx => ?_).symm
    rw [hxs] at hidx
    obtain ⟨i, j, rfl, hi, hj⟩ := inRange2 hidx
    have hi' := hi
    have hj' := hj
    rw [hS.1] at hi
    rw [hB.1] at hj
    obtain ⟨l, b, post, i₀, hsplit, hi₀, rfl⟩ := flatMap_pos _ hi
    obtain ⟨m, c, rest, j₀, hsplitc, hj₀, rfl⟩ := flatMap_pos _ hj
    rw [hsplit] at h2
    obtain ⟨l', v, post', hvs', g1, g2, g3, g4⟩ := forall₂_split h2
    obtain ⟨y, hy, -, hel⟩ := hst.el k x hx l' v post' hvs'
    have hel := hel i₀ ((m.flatMap (·.1)).length + j₀) (by rw [g2]; exact hi₀) (by rw [g3]; exact hj)
    have hl' : (l'.flatMap fun v => v.along .src) = l.flatMap (·.1) := hfm _ _ (g1.imp fun _ _ h => h.1)
    rw [hl'] at hel
    obtain ⟨y', hy', -, g5⟩ := g4 k hk
    rw [hy] at hy'
    cases hy'
    obtain ⟨s₁, u, q, hu, hq, g6⟩ := g5 m c rest hsplitc
    have hbm : b ∈ sb :: ss := by rw [hsplit]; simp
    have hcm : c ∈ batches := by rw [hsplitc]; simp
    obtain ⟨q', t', z1, z2, z3⟩ := hentry b hbm c hcm s₁ u hu i₀ j₀ _ _ hi₀ hj₀ hi' hj' ⟨hks b hbm, hS.2 l b post hsplit i₀ hi₀⟩ ⟨hkb c hcm, hB.2 m c rest hsplitc j₀ hj₀⟩ k hk
    rw [hq] at z1
    cases z1
    rw [ht] at z2
    cases z2
    rw [← z3, ← g6 i₀ j₀ hi₀ hj₀]
    exact hel

/-- **C89**, mode dot. Batches of source samples are scored, with `save=True`, one after the other against a loader that serves the targets in batches. The saved scores are
those of one call with all sources and all targets. The state was reached by operations of the state, has no fitted eigenvalues, and then served any influence computations
with the same damping. -/
theorem C89_dot [Field K] {L : Lib K} {sqrt : K → K} {o o' : IFObj K} {s₀ s' : LState K} {srcIds tgtIds : List PyStr} {d e : GLog K} {ops : List (StateOp K)}
    {calls : List (Spec.Call K)} {srcs batches : List (List PyStr × GLog K)} {pre : Bool} {hessian : Hess} {groups : Option (List PyStr)} {damping : Option K} {w : IFResult K}
    (hh : Spec.History L sqrt o []) (hrun : runOps L .init ops = .ok s₀) (hek : s₀.hasAttr nEkfac = false) (hc : ∀ c ∈ calls, c.damping = damping)
    (hcalls : Spec.serveAll L sqrt s₀ calls = .ok o.st)
    (h : Spec.saveAll L sqrt (batches.map fun b => (b.1, .dict b.2)) .dot pre hessian groups damping o srcs = .ok o')
    (hw : computeInfluence L sqrt s₀ srcIds (.dict d) tgtIds (.dict e) .dot pre hessian groups damping = .ok (s', w))
    (hsne : srcs ≠ []) (hbne : batches ≠ []) (hS : Spec.Batches srcs srcIds d) (hB : Spec.Batches batches tgtIds e)
    (hd : Spec.Labelled srcIds d) (he : Spec.Labelled tgtIds e) (hs : ∀ b ∈ srcs, Spec.Labelled b.1 b.2) (hb : ∀ b ∈ batches, Spec.Labelled b.1 b.2)
    (hks : ∀ b ∈ srcs, Dict.keys b.2 = Dict.keys d) (hkb : ∀ b ∈ batches, Dict.keys b.2 = Dict.keys e) : Spec.SavedAre o' groups w := by
  have hv := serveAll_same (P := fun x => x = damping) (.run hrun hek) (fun c h => .inr (by rw [hc c h])) hcalls
  exact tiles_whole hh hv h hw hsne hbne hS hB hd he hs hb hks hkb fun b hbm c hcm s₁ v hv i j i' j' hi hj hi' hj' h1 h2 =>
    C48_entry hv hw (hs b hbm) (hb c hcm) hd he hi hj hi' hj' h1 h2

/-- **C89**, every mode, with preconditioning and for logs of the same modules. -/
theorem C89_modes [Field K] {L : Lib K} {sqrt : K → K} {o o' : IFObj K} {s₀ s' : LState K} {srcIds tgtIds : List PyStr} {d e : GLog K} {ops : List (StateOp K)}
    {calls : List (Spec.Call K)} {srcs batches : List (List PyStr × GLog K)} {mode : Mode} {hessian : Hess} {groups : Option (List PyStr)} {damping : Option K} {w : IFResult K}
    (hh : Spec.History L sqrt o []) (hrun : runOps L .init ops = .ok s₀) (hek : s₀.hasAttr nEkfac = false) (hc : ∀ c ∈ calls, c.damping = damping)
    (hcalls : Spec.serveAll L sqrt s₀ calls = .ok o.st)
    (h : Spec.saveAll L sqrt (batches.map fun b => (b.1, .dict b.2)) mode true hessian groups damping o srcs = .ok o')
    (hw : computeInfluence L sqrt s₀ srcIds (.dict d) tgtIds (.dict e) mode true hessian groups damping = .ok (s', w))
    (hsne : srcs ≠ []) (hbne : batches ≠ []) (hS : Spec.Batches srcs srcIds d) (hB : Spec.Batches batches tgtIds e)
    (hd : Spec.Labelled srcIds d) (he : Spec.Labelled tgtIds e) (hs : ∀ b ∈ srcs, Spec.Labelled b.1 b.2) (hb : ∀ b ∈ batches, Spec.Labelled b.1 b.2)
    (hk : Dict.keys d = Dict.keys e) (hks : ∀ b ∈ srcs, Dict.keys b.2 = Dict.keys d) (hkb : ∀ b ∈ batches, Dict.keys b.2 = Dict.keys e) : Spec.SavedAre o' groups w := by
  have hv := serveAll_same (P := fun x => x = damping) (.run hrun hek) (fun c h => .inr (by rw [hc c h])) hcalls
  exact tiles_whole hh hv h hw hsne hbne hS hB hd he hs hb hks hkb fun b hbm c hcm s₁ v hv i j i' j' hi hj hi' hj' h1 h2 =>
    C48_entry_modes_partial hrun hek hv hw (hs b hbm) (hb c hcm) hd he ((hks b hbm).trans (hk.trans (hkb c hcm).symm)) hi hj hi' hj' h1 h2

end Logix
