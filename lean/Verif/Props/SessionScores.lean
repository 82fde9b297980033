/-
C112: scores against the log directory are the influence function of the data of the program.
-/
import Verif.Props.SessionSamples
import Verif.Props.SessionInfluence
import Verif.Props.EndToEnd
import Verif.Spec.SessionScores

set_option linter.unusedSectionVars false

namespace Logix
open Spec Sess
variable {K : Type} [Field K] [LinearOrder K] [IsStrictOrderedRing K]

/-- A sample of a loaded batch is a sample of a saved batch. -/
theorem loaded_same {C : Codec K} {d : DType} {order : List Path} {shape : PyStr → PyStr → List Nat} (hp : LogPlan order shape) {S : List (List PyStr × GLog K)}
    {es : List (PyStr × Nested Arr)} (hS : ∀ (g : Nat) (hg : g < es.length), SampleOf C d order shape S g es[g])
    {ds : Dataset} {b : Nat} {bs : List (List PyStr × List (PyStr × Nested Arr))} (hbs : loadBatches ds b = .ok bs) (hy : Yields order es b bs)
    {l r : List (List PyStr × GLog K)} {x : List PyStr × GLog K} (hl : decoded C bs = l ++ x :: r) {j : Nat} (hj : j < x.1.length) :
    ∃ lS bS rS jS, S = lS ++ bS :: rS ∧ jS < bS.1.length ∧ (l.flatMap (·.1)).length + j = (lS.flatMap (·.1)).length + jS ∧
      ∀ m, [m, LogType.name .grad] ∈ order → ∃ t y, grad x.2 m = some t ∧ grad bS.2 m = some y ∧ t.shape.tail = y.shape.tail ∧
        y.shape = bS.1.length :: shape m (LogType.name .grad) ∧ ∀ idx, inRange y.shape.tail idx = true → row t j idx = row y jS idx := by
  obtain ⟨l', r', y, hbs', rfl, rfl, rfl⟩ : ∃ l' r' y, bs = l' ++ y :: r' ∧ l = decoded C l' ∧ x = (y.1, C.log y.2) ∧ r = decoded C r' := by
    obtain ⟨l', z, h1, h2, h3⟩ := List.map_eq_append_iff.1 hl
    obtain ⟨y, r', h4, h5, h6⟩ := List.map_eq_cons_iff.1 h3
    exact ⟨l', r', y, by rw [h1, h4], h2.symm, h5.symm, h6.symm⟩
  obtain ⟨hk, hget⟩ := get_split hbs'
  have hstart : ((decoded C l').flatMap (·.1)).length = l'.length * b := by
    have : (decoded C l').flatMap (·.1) = l'.flatMap (·.1) := by simp [decoded, List.flatMap_map]
    rw [this]
    exact batch_start hy.size hbs'
  rw [hstart]
  obtain ⟨hlt, -, hrow⟩ := hy.rows l'.length hk j (by rw [hget]; exact hj)
  obtain ⟨lS, bS, rS, jS, s1, hjS, s2, -, hpb, s3⟩ := hS _ hlt
  refine ⟨lS, bS, rS, jS, s1, hjS, s2, fun m hmo => ?_⟩
  obtain ⟨t, a, e1, -, e3, e4⟩ := hrow _ hmo
  rw [hget] at e1
  obtain ⟨x, a', f1, f2, f3, f4⟩ := s3 _ _ hmo
  rw [e3] at f3
  cases f3
  obtain ⟨q1, q2⟩ := loaded_row (hpb.exact _ _ _ hmo f1) e4 f4
  obtain ⟨-, hit, -, -⟩ := loaded_items (C := C) hp hbs hy (x := y) (by rw [hbs']; simp)
  exact ⟨C.tensor t, x, by rw [grad_item, hit, e1]; rfl, by rw [grad_item, f1], q1, f2, q2⟩

/-- The scores against a loader, if there are solutions and any solutions give the form of the inverse Hessian. -/
theorem all_of_solutions {L : Lib K} {sqrt : K → K} {o o' : IFObj K} {hist : List (IFResult K)} {srcIds : List PyStr} {d : GLog K}
    {batches : List (List PyStr × GLog K)} {hessian : Hess} {c : K} {save : Bool} {r : Option (RRec K)} {S : Nat → PyStr → (List Nat → K) → Prop}
    (hh : History L sqrt o hist) (hd : Labelled srcIds d) (hb : ∀ b ∈ batches, Labelled b.1 b.2) (hne : batches ≠ [])
    (hS : ∀ s₁ s₂ p H, precondition L o.st (.dict d) hessian (some c) = .ok (s₂, p) → hessOf L o.st (Dict.keys d) hessian (some c) = .ok (s₁, H) →
      (∀ i, i < srcIds.length → ∃ x : PyStr → List Nat → K, ∀ m ∈ Dict.keys d, S i m (x m)) ∧
      ∀ i m x, m ∈ Dict.keys d → S i m x → ∀ g, grad d m = some g → ∀ f, H.form m g.shape.tail (row g i) f = dot g.shape.tail x f)
    (h : computeInfluenceAll L sqrt o srcIds (.dict d) (batches.map fun b => (b.1, .dict b.2)) .dot true save hessian none (some c) = .ok (o', r)) :
    ∃ x T, r = some x ∧ (o'.heap.deref x).srcIds = srcIds ∧ (o'.heap.deref x).tgtIds = batches.flatMap (·.1) ∧
      (o'.heap.deref x).influence.get? ['t', 'o', 't', 'a', 'l'] = some T ∧ T.shape = [srcIds.length, (batches.flatMap (·.1)).length] ∧
      ∀ i, i < srcIds.length → (∃ x : PyStr → List Nat → K, ∀ m ∈ Dict.keys d, S i m (x m)) ∧
        ∀ x : PyStr → List Nat → K, (∀ m ∈ Dict.keys d, S i m (x m)) →
          ∀ l b post, batches = l ++ b :: post → ∀ j, j < b.1.length → T.el [i, (l.flatMap (·.1)).length + j] = against x b.2 j (Dict.keys d) := by
  obtain ⟨x, s₁, src', vs, rfl, a1, a2, a3, hst⟩ := all_some hh h (by simpa using hne)
  have hvs := batchRun_at (s₀ := s₁) (fun a b => b = a) (fun s b s₂ v hs hv => by
    subst hs
    exact ⟨dot_state hv, s₂, hv⟩) rfl a2
  have hvs' : List.Forall₂ (fun (b : List PyStr × GLog K) v => ∃ s₂, computeInfluence L sqrt o.st srcIds (.dict d) b.1 (.dict b.2) .dot true hessian none (some c) = .ok (s₂, v))
      batches vs := by
    have := (List.forall₂_map_left_iff).1 hvs
    refine this.imp fun b v hv => ?_
    rw [computeInfluence_split a1]
    exact hv
  have hids : ∀ (l : List (List PyStr × GLog K)) l', List.Forall₂ (fun (b : List PyStr × GLog K) v =>
      ∃ s₂, computeInfluence L sqrt o.st srcIds (.dict d) b.1 (.dict b.2) .dot true hessian none (some c) = .ok (s₂, v)) l l' →
      l'.flatMap (·.along .tgt) = l.flatMap (·.1) := fun l l' h => forall₂_flatMap (fun b v ⟨s₁, hv⟩ => (C48_shape hv).2.1) h
  have htgt : (o'.heap.deref x).tgtIds = batches.flatMap (·.1) := by
    have := hst.ids
    rw [hids _ _ hvs'] at this
    exact this
  obtain ⟨b₀, v₀, s₀, hb₀, hv₀, hhead⟩ : ∃ b₀ v₀ s₀, b₀ ∈ batches ∧
      computeInfluence L sqrt o.st srcIds (.dict d) b₀.1 (.dict b₀.2) .dot true hessian none (some c) = .ok (s₀, v₀) ∧ v₀ ∈ vs.head? := by
    cases hvs' with
    | nil => exact absurd rfl hne
    | cons h1 h2 =>
      obtain ⟨s₂, h1⟩ := h1
      exact ⟨_, _, s₂, List.mem_cons_self .., h1, rfl⟩
  have hsrc : (o'.heap.deref x).srcIds = srcIds := (hst.other _ hhead).trans (C48_shape hv₀).1
  obtain ⟨T₀, b1, b2, b3, b4, b5⟩ := influence_of_solutions hd (hb _ hb₀) hS hv₀
  obtain ⟨T, hT, -⟩ : ∃ T, (o'.heap.deref x).influence.get? ['t', 'o', 't', 'a', 'l'] = some T ∧ True := by
    have := hst.keys _ hhead ['t', 'o', 't', 'a', 'l']
    rw [b1] at this
    obtain ⟨T, h1, -⟩ := this
    exact ⟨T, h1, trivial⟩
  refine ⟨x, T, rfl, hsrc, htgt, hT, ?_, fun i hi => ⟨(b5 i hi).1, fun y hy l b post hl j hj => ?_⟩⟩
  · rw [hst.good _ _ hT, hsrc, htgt]
  · rw [hl] at hvs'
    obtain ⟨l', v, post', e1, e2, s₂, e3⟩ := forall₂_split hvs'
    obtain ⟨t, ht, -, hel⟩ := hst.el _ _ hT l' v post' e1
    obtain ⟨d1, d2, -⟩ := C48_shape e3
    have := hel i j (by rw [d1]; exact hi) (by rw [d2]; exact hj)
    rw [hids _ _ e2] at this
    simp only [Axis.move] at this
    rw [this]
    obtain ⟨T₁, c1, -, -, -, c5⟩ := influence_of_solutions hd (hb b (by rw [hl]; simp)) hS e3
    rw [c1] at ht
    obtain rfl : T₁ = t := Option.some.inj ht
    exact (c5 i hi).2 y hy j hj

/-- The loader of any run in the directory, and its batches. -/
theorem loader_of {C : Codec K} {d : DType} {order : List Path} {shape : PyStr → PyStr → List Nat} {fs : FS} {workers : Nat} {ops : List (LogOp K)}
    (hr : LogRun C d order shape fs workers ops) (thr : Int) {f : Front} (hf : f.fs = (storedRun C d order fs workers thr ops).fs) (hf1 : f.dataset = none)
    (hf2 : f.loader = none) {listing : List PyStr} (hl : listing.Perm (Dict.keys f.fs)) {b : Nat} (hpos : 0 < b) :
    ∃ l es ds bs, (f.buildLoader listing b false).2 = .ok l ∧
      l.batches = .ok (bs.map fun b => LogBatch.nested b.1 b.2) ∧ loadBatches ds b = .ok bs ∧ Yields order es b bs ∧
      es.map Prod.fst = (saves ops).flatMap (·.1) ∧ ∀ (g : Nat) (hg : g < es.length), SampleOf C d order shape (saves ops) g es[g] := by
  obtain ⟨ds, h1, h2⟩ := stored_dataset hr.plan hr.files hr.clean hr.workers thr hr.batches hr.ids rfl (listing := listing) (by rw [hf] at hl; exact hl)
  obtain ⟨es, h3, h4, h5, h6⟩ := stored_samples hr.plan hr.batches h2
  obtain ⟨bs, h7, h8⟩ := C14_loader_batches ds order es b hpos h3 h5
  refine ⟨⟨⟨ds, false⟩, b, true⟩, es, ds, bs, ?_, ?_, h7, h8, h4, h6⟩
  · unfold Front.buildLoader Front.buildDataset
    rw [hf2, hf1, hf]
    simp only [show openDataset (storedRun C d order fs workers thr ops).fs listing = .ok ds from h1, if_neg (Nat.ne_of_gt hpos)]
    rfl
  · unfold LogLoader.batches
    simp [h7]

/-- The sample at a position. -/
theorem split_at {α : Type} : ∀ {L : List (List PyStr × α)} {p : Nat}, p < (L.flatMap (·.1)).length →
    ∃ l b r j, L = l ++ b :: r ∧ j < b.1.length ∧ p = (l.flatMap (·.1)).length + j
  | [], p, h => absurd h (Nat.not_lt_zero p)
  | b :: L, p, h => by
    by_cases hp : p < b.1.length
    · exact ⟨[], b, L, p, rfl, hp, by simp⟩
    · rw [List.flatMap_cons, List.length_append] at h
      obtain ⟨l, b', r, j, h1, h2, h3⟩ := split_at (L := L) (p := p - b.1.length) (by omega)
      refine ⟨b :: l, b', r, j, by rw [h1]; rfl, h2, ?_⟩
      rw [List.flatMap_cons, List.length_append]
      omega

/-- A loaded batch has exactly the gradients of the modules, one row per id, on the CPU. -/
theorem loaded_shapes {C : Codec K} {d : DType} {keys : List PyStr} {shape : PyStr → List Nat} (hp : LogPlan (gradOrder keys) fun m _ => shape m)
    {S : List (List PyStr × GLog K)} {es : List (PyStr × Nested Arr)} (hids : es.map Prod.fst = S.flatMap (·.1))
    (hS : ∀ (g : Nat) (hg : g < es.length), SampleOf C d (gradOrder keys) (fun m _ => shape m) S g es[g]) (hdim : ∀ m ∈ keys, shape m ≠ [])
    {ds : Dataset} {b : Nat} {bs : List (List PyStr × List (PyStr × Nested Arr))} (hbs : loadBatches ds b = .ok bs) (hy : Yields (gradOrder keys) es b bs)
    {x : List PyStr × GLog K} (hx : x ∈ decoded C bs) : GradBatch keys shape x := by
  have hlab := (loaded_batches hp hids hS hbs hy).1 x hx
  obtain ⟨l, r, hl⟩ := List.append_of_mem hx
  obtain ⟨y, hyb, rfl⟩ := List.mem_map.1 hx
  obtain ⟨h1, h2, h3, h4⟩ := loaded_items (C := C) hp hbs hy hyb
  have hne : y.1 ≠ [] := by
    obtain ⟨k, hk, rfl⟩ := List.getElem_of_mem hyb
    exact (hy.size k hk).2
  have hord : ∀ {m t}, [m, t] ∈ gradOrder keys → m ∈ keys ∧ t = LogType.name .grad := by
    intro m t h
    obtain ⟨m', hm, he⟩ := List.mem_map.1 h
    cases he
    exact ⟨hm, rfl⟩
  obtain ⟨_, _, _, _, _, _, _, hg⟩ := loaded_same hp hS hbs hy hl (j := 0) (List.length_pos_of_ne_nil hne)
  have hgr : ∀ m ∈ keys, ∃ g, grad (C.log y.2) m = some g ∧ g.shape.tail = shape m := by
    intro m hm
    obtain ⟨t, z, a1, -, a2, a3, -⟩ := hg m (List.mem_map.2 ⟨m, hm, rfl⟩)
    exact ⟨t, a1, by rw [a2, a3]; rfl⟩
  have hkeys : ∀ m, m ∈ keys ↔ m ∈ Dict.keys (C.log y.2) := by
    refine fun m => ⟨fun hm => ?_, fun hm => ?_⟩
    · obtain ⟨g, a1, -⟩ := hgr m hm
      rw [grad_item] at a1
      unfold item at a1
      obtain ⟨sub, a2, -⟩ := Option.bind_eq_some_iff.1 a1
      exact (Dict.get?_isSome_iff _ _).1 (by rw [a2]; rfl)
    · obtain ⟨t, ht⟩ := h4 m hm
      exact (hord ht).1
  refine ⟨hne, h1, hkeys, fun p hpm q hq => ?_, fun m hm => ?_⟩
  · have a1 : Dict.get? (C.log y.2) p.1 = some p.2 := Dict.get?_of_mem _ h1 hpm
    obtain ⟨v, a2⟩ : ∃ v, Dict.get? p.2 q.1 = some v := Option.isSome_iff_exists.1 ((Dict.get?_isSome_iff _ _).2 (List.mem_map_of_mem hq))
    by_contra hno
    have := h3 p.1 q.1 fun h => hno (hord h).2
    unfold item at this
    rw [a1] at this
    rw [show (some p.2).bind (fun sub => Dict.get? sub q.1) = Dict.get? p.2 q.1 from rfl, a2] at this
    cases this
  · obtain ⟨g, a1, a2⟩ := hgr m hm
    obtain ⟨g', b1, b2⟩ := hlab.2 m ((hkeys m).1 hm)
    rw [a1] at b1
    obtain rfl := Option.some.inj b1
    refine ⟨g, a1, ?_, ?_⟩
    · cases hs : g.shape with
      | nil => rw [hs] at a2; exact absurd a2.symm (hdim m hm)
      | cons n sh =>
        rw [hs] at a2
        have : g.size 0 = n := by show g.shape.getD 0 0 = n; rw [hs]; rfl
        rw [← this, b2, ← a2]
        rfl
    · rw [grad_item, h2] at a1
      obtain ⟨u, -, rfl⟩ := Option.map_eq_some_iff.1 a1
      rfl

/-- The scores against the loader of a program, if there are solutions and any solutions give the form of the inverse Hessian. -/
theorem program_scores (E : SEnv K) (dec : DType → List UInt8 → K) (d : DType) (pre : List (SOp K)) (workers : Nat)
    (threshold : Int) (fs : FS) (ctx : List (SOp K)) (ids : List PyStr) (mask : Option (Tensor K)) (hx : Context ctx ids mask) (body : List (SOp K))
    (keys : List PyStr) (mods : PyStr → Nat) (shape : PyStr → List Nat) (dir : StateDir K)
    (hP : StoredProgram E dec d pre workers threshold fs ctx mask body keys mods shape) (hne : (savedBy pre ctx mask body).flatMap (·.1) ≠ [])
    (t : Sess K) (ht : SAct.each (SOp.run E) (ctx ++ body.map (shift (runHistory E pre (Sess.init workers threshold fs)).user.length) ++ [.finalize dir])
      (runHistory E pre (Sess.init workers threshold fs)) = (t, none))
    (listing : List PyStr) (hlist : listing.Perm (Dict.keys t.fs)) (b : Nat) (hb : 0 < b) (f : Front) (hf : f.fs = t.fs) (hf1 : f.dataset = none) (hf2 : f.loader = none) :
    ∃ l bs, (f.buildLoader listing b false).2 = .ok l ∧ l.batches = .ok bs ∧
      (∀ z ∈ bs.map (LogBatch.arg ⟨E.encode, dec⟩), ∃ e, z.2 = .dict e ∧ GradBatch keys shape (z.1, e)) ∧
      ∀ (o o' : IFObj K) (hist : List (IFResult K)) (srcIds : List PyStr) (src : GLog K) (save : Bool) (hessian : Hess) (c : K) (sqrt : K → K) (r : Option (RRec K))
        (S : Nat → PyStr → (List Nat → K) → Prop),
        History E.lib sqrt o hist → Labelled srcIds src → Dict.keys src = keys →
        (∀ s₁ s₂ p H, precondition E.lib o.st (.dict src) hessian (some c) = .ok (s₂, p) → hessOf E.lib o.st (Dict.keys src) hessian (some c) = .ok (s₁, H) →
          (∀ i, i < srcIds.length → ∃ x : PyStr → List Nat → K, ∀ m ∈ Dict.keys src, S i m (x m)) ∧
          ∀ i m x, m ∈ Dict.keys src → S i m x → ∀ g, grad src m = some g → ∀ f, H.form m g.shape.tail (row g i) f = dot g.shape.tail x f) →
        computeInfluenceAll E.lib sqrt o srcIds (.dict src) (bs.map (LogBatch.arg ⟨E.encode, dec⟩)) .dot true save hessian none (some c) = .ok (o', r) →
        ∃ x T, r = some x ∧ (o'.heap.deref x).srcIds = srcIds ∧ (o'.heap.deref x).tgtIds = (savedBy pre ctx mask body).flatMap (·.1) ∧
          (o'.heap.deref x).influence.get? ['t', 'o', 't', 'a', 'l'] = some T ∧
          T.shape = [srcIds.length, ((savedBy pre ctx mask body).flatMap (·.1)).length] ∧
          ∀ i, i < srcIds.length → (∃ x : PyStr → List Nat → K, ∀ m ∈ keys, S i m (x m)) ∧
            ∀ x : PyStr → List Nat → K, (∀ m ∈ keys, S i m (x m)) → ScoredBy E body mods keys shape (savedBy pre ctx mask body) T i x := by
  obtain ⟨t₁, ht₁, -⟩ : ∃ t₁, SAct.each (SOp.run E) (ctx ++ body.map (shift (runHistory E pre (Sess.init workers threshold fs)).user.length))
      (runHistory E pre (Sess.init workers threshold fs)) = (t₁, none) ∧ True := by
    rw [SAct.each_append] at ht
    obtain ⟨u, h1, -⟩ := SAct.seq_none ht
    exact ⟨u, h1, trivial⟩
  have hH := C111_handed E pre workers threshold fs ctx ids mask hx body keys mods hP.logs hP.stats hP.gradients hP.watches t₁ ht₁
  have hR := program_logRun E dec d pre hP.configures workers threshold fs ctx ids mask hx body keys mods hP.logs shape hP.stats hP.gradients hP.watches
    hP.names hP.paths hP.dims hP.size hP.storable hP.ids hP.files hP.clean hP.one t₁ ht₁
  have hfin := history_each E _ _ t ht
  have hT' : Tidy false (ctx ++ body.map (shift (runHistory E pre (Sess.init workers threshold fs)).user.length)) := tidy_append_shift _ hx hP.tidy
  have hd' : E.dtype = some d ∨ (E.dtype = none ∧
      ∀ o ∈ allocs (pre ++ (ctx ++ body.map (shift (runHistory E pre (Sess.init workers threshold fs)).user.length))), o.dtype = d) := by
    rcases hP.dtype with hd | ⟨hd, h⟩
    · exact Or.inl hd
    · refine Or.inr ⟨hd, fun o ho => h o ?_⟩
      have : allocs (ctx ++ body.map (shift (runHistory E pre (Sess.init workers threshold fs)).user.length)) = allocs body := by
        rw [allocs_append', allocs_shift]
        cases hx <;> rfl
      rw [allocs_append', this, ← allocs_append'] at ho
      exact ho
  have hfs := C86_partial E dec d pre _ dir workers threshold fs (fun o h => configures_prepares (hP.configures o h)) hd' hP.stats.1 hP.stats.2.1 hT'
    (fun x h _ => outcomes_each E _ _ t ht x h)
  rw [show runHistory E _ (runHistory E pre (Sess.init workers threshold fs)) = t from hfin] at hfs
  obtain ⟨l, es, ds, bs, h1, h2, h3, hy, h4, h5⟩ := loader_of hR threshold (hf.trans hfs) hf1 hf2 (listing := listing) (by rw [hf]; exact hlist) hb
  obtain ⟨hlab, -⟩ := loaded_batches hR.plan h4 h5 h3 hy
  have hflat : ∀ (a : List (List PyStr × (Nat → List (Nat × Nat)))) (b : List (List PyStr × GLog K)),
      List.Forall₂ (fun u b => b.1 = u.1 ∧ ∀ nm ∈ keys, HoldsGrad (allocs body) (E.kind (mods nm)) (u.2 (mods nm)) (item b.2 nm (LogType.name .grad))) a b →
      b.flatMap (·.1) = a.flatMap (·.1) := by
    intro a b h
    induction h with
    | nil => rfl
    | cons h1 _ ih => rw [List.flatMap_cons, List.flatMap_cons, ih, h1.1]
  refine ⟨l, _, h1, h2, fun z hz => ?_, ?_⟩
  · rw [arg_nested] at hz
    obtain ⟨x, hx, rfl⟩ := List.mem_map.1 hz
    have hpaths : (runHistory E pre (Sess.init workers threshold fs)).paths = gradOrder keys := hP.paths
    rw [hpaths] at hR hy h5
    exact ⟨x.2, rfl, loaded_shapes hR.plan h4 h5 hP.dims h3 hy hx⟩
  rintro o o' hist srcIds src save hessian c sqrt r S hh hsrc rfl hS h
  rw [arg_nested] at h
  have hdec : (decoded ⟨E.encode, dec⟩ bs).flatMap (·.1) = (savedBy pre ctx mask body).flatMap (·.1) := by
    have : (decoded ⟨E.encode, dec⟩ bs).flatMap (·.1) = bs.flatMap (·.1) := by simp [decoded, List.flatMap_map]
    unfold savedBy
    rw [this, ← hflat _ _ hH, ← h4, ← hy.ids]
    rfl
  obtain ⟨x, T, e1, e2, e3, e4, e5, e6⟩ := all_of_solutions hh hsrc hlab (fun e => hne (by rw [← hdec, e]; rfl)) hS h
  rw [hdec] at e3 e5
  refine ⟨x, T, e1, e2, e3, e4, e5, fun i hi => ⟨(e6 i hi).1, fun y hy' => ?_⟩⟩
  intro lu u ru hsplit
  have hu : u ∈ savedBy pre ctx mask body := by rw [hsplit]; simp
  have hH' := hH
  rw [show savedBatches (Saving.after (pre ++ ctx)) (fun _ => ⟨mask, [], [], []⟩) body = _ from hsplit] at hH'
  obtain ⟨a, bu, c', k1, k2, k3, k4⟩ := forall₂_split_left hH'
  have hG : ∀ nm, ∃ G : Tensor K, nm ∈ Dict.keys src → item bu.2 nm (LogType.name .grad) = some G ∧ BatchGrad (allocs body) (E.kind (mods nm)) (u.2 (mods nm)) G := by
    intro nm
    by_cases hm : nm ∈ Dict.keys src
    · rcases k4 nm hm with ⟨h, -⟩ | ⟨G, h6, h7⟩
      · exact absurd h (hP.storable u hu nm hm).some
      · exact ⟨G, fun _ => ⟨h6, h7⟩⟩
    · exact ⟨Tensor.ofFn2 .cpu 0 0 fun _ _ => 0, fun h => absurd h hm⟩
  choose G hG using hG
  refine ⟨G, fun nm hm => (hG nm hm).2, fun j hj => ?_⟩
  have hpos : (lu.flatMap (·.1)).length + j < ((decoded ⟨E.encode, dec⟩ bs).flatMap (·.1)).length := by
    rw [hdec, hsplit, List.flatMap_append, List.flatMap_cons, List.length_append, List.length_append]
    omega
  obtain ⟨l', z, r', j', q1, q2, q3⟩ := split_at hpos
  rw [q3, (e6 i hi).2 y hy' l' z r' q1 j' q2]
  obtain ⟨lS, bS, rS, jS, w1, w2, w3, w4⟩ := loaded_same hR.plan h5 h3 hy q1 q2
  obtain ⟨rfl, rfl⟩ := split_unique (j := jS) (j' := j) (w1.symm.trans k1) (by rw [hflat _ _ k2, q3, w3]) w2 (by rw [k3]; exact hj)
  unfold against
  congr 1
  refine List.map_congr_left fun m hm => ?_
  obtain ⟨t', y', v1, v2, v3, v4, v5⟩ := w4 m (by
    rw [show (runHistory E pre (Sess.init workers threshold fs)).paths = _ from hP.paths]
    exact List.mem_map.2 ⟨m, hm, rfl⟩)
  have : y' = G m := by
    have := (hG m hm).1
    rw [← grad_item, v2] at this
    exact Option.some.inj this
  subst this
  simp only [v1]
  rw [v3, v4]
  rw [v4] at v5
  exact dot_congr (fun _ _ => rfl) fun idx hidx => v5 idx ((mem_indices _ _).1 hidx)

/-- **C112, KFAC.** A new run is configured with gradients to be logged and covariances of `forward` and `backward`, and a program whose logs can be
stored is run, without masks and without exception, to `finalize`. Then a loader of nested batches can be built on the log directory, by the same
or by a new run, in whatever order the directory lists its files and for every batch size. For every source log with the names of the watched modules and every positive
damping, if `compute_influence_all` returns, it returns one score per source id and saved id. The score of source `i` for a saved sample is the inner product of the
per-sample gradient of that sample in the program with the solution of `B x A + c x = g` for the gradient `g` of the source, summed over the modules,
where `A` and `B` are the second moments of the inputs and the output gradients of the module in the program. The system has a solution, and the
score is the same for all solutions. -/
theorem C112_kfac (E : SEnv K) (hE : EighOk E.lib) (hI : InverseOk E.lib) (dec : DType → List UInt8 → K) (d : DType) (pre : List (SOp K)) (workers : Nat)
    (threshold : Int) (fs : FS) (ctx : List (SOp K)) (ids : List PyStr) (hx : Context ctx ids none) (body : List (SOp K)) (keys : List PyStr)
    (mods : PyStr → Nat) (shape : PyStr → List Nat) (dir : StateDir K) (hP : StoredProgram E dec d pre workers threshold fs ctx none body keys mods shape)
    (hmask : ∀ o ∈ body, Unmasked o) (hne : (savedBy pre ctx none body).flatMap (·.1) ≠ []) (hessian : Hess) :
    let s := runHistory E pre (Sess.init workers threshold fs)
    PlainStats s.opt → s.opt.forward.count .covariance = 1 → s.opt.backward.count .covariance = 1 →
    (hessian = .kfac ∨ hessian = .auto ∧ .covariance ∉ s.opt.grad.tail) →
    (∀ nm ∈ keys, inputs (mods nm) body ≠ [] ∧ notes outGrad (mods nm) ⟨none, [], [], []⟩ body ≠ []) →
    ∀ t, SAct.each (SOp.run E) (ctx ++ body.map (shift s.user.length) ++ [.finalize dir]) s = (t, none) →
    ∃ A B : PyStr → Tensor K, (∀ nm ∈ keys, InputMoment E body (mods nm) (A nm) ∧ OutGradMoment E body (mods nm) (B nm)) ∧
      ∀ listing : List PyStr, listing.Perm (Dict.keys t.fs) → ∀ b, 0 < b → ∀ f : Front, f.fs = t.fs → f.dataset = none → f.loader = none →
      ∃ l bs, (f.buildLoader listing b false).2 = .ok l ∧ l.batches = .ok bs ∧
        ∀ (o o' : IFObj K) hist srcIds src save c sqrt r, o.st = t.st → History E.lib sqrt o hist → Labelled srcIds src → Dict.keys src = keys → 0 < c →
          computeInfluenceAll E.lib sqrt o srcIds (.dict src) (bs.map (LogBatch.arg ⟨E.encode, dec⟩)) .dot true save hessian none (some c) = .ok (o', r) →
          ∃ x T, r = some x ∧ (o'.heap.deref x).srcIds = srcIds ∧ (o'.heap.deref x).tgtIds = (savedBy pre ctx none body).flatMap (·.1) ∧
            (o'.heap.deref x).influence.get? ['t', 'o', 't', 'a', 'l'] = some T ∧
            T.shape = [srcIds.length, ((savedBy pre ctx none body).flatMap (·.1)).length] ∧
            ∀ i, i < srcIds.length →
              (∃ x : PyStr → List Nat → K, ∀ m ∈ keys, KfacSystem (entries (A m)) (entries (B m)) c src i m (x m)) ∧
              ∀ x : PyStr → List Nat → K, (∀ m ∈ keys, KfacSystem (entries (A m)) (entries (B m)) c src i m (x m)) →
                ScoredBy E body mods keys shape (savedBy pre ctx none body) T i x := by
  intro s hp hf hb hh hmods t ht
  obtain ⟨A, B, h1, h2⟩ := session_kfac E hE hI pre hP.configures workers threshold fs ctx ids hx body dir keys mods
    (fun o ho => ⟨hmask o ho, hP.logs o ho⟩) hessian hP.stats hp hf hb hh (fun nm h => ⟨hP.watches nm h, hmods nm h⟩) t ht
  refine ⟨A, B, h1, fun listing hlist b hb f hf hf1 hf2 => ?_⟩
  obtain ⟨l, bs, h3, h4, -, h5⟩ := program_scores E dec d pre workers threshold fs ctx ids none hx body keys mods shape dir hP hne t ht listing hlist b hb f hf hf1 hf2
  refine ⟨l, bs, h3, h4, fun o o' hist srcIds src save c sqrt r ho hh hsrc hk hc h => ?_⟩
  refine h5 o o' hist srcIds src save hessian c sqrt r (fun i m x => KfacSystem (entries (A m)) (entries (B m)) c src i m x) hh hsrc hk ?_ h
  rw [ho]
  exact fun s₁ s₂ p H => h2 src hk srcIds hsrc c hc s₁ s₂ p H

/-- **C112, empirical Fisher matrix.** The same with the covariance of the gradients: the system is `C x + c x = g`, where `C` is the second moment of the
per-sample gradients of the module in all batches of the program (saved or not). -/
theorem C112_raw (E : SEnv K) (hE : EighOk E.lib) (hI : InverseOk E.lib) (dec : DType → List UInt8 → K) (d : DType) (pre : List (SOp K)) (workers : Nat)
    (threshold : Int) (fs : FS) (ctx : List (SOp K)) (ids : List PyStr) (hx : Context ctx ids none) (body : List (SOp K)) (keys : List PyStr)
    (mods : PyStr → Nat) (shape : PyStr → List Nat) (dir : StateDir K) (hP : StoredProgram E dec d pre workers threshold fs ctx none body keys mods shape)
    (hmask : ∀ o ∈ body, Unmasked o) (hne : (savedBy pre ctx none body).flatMap (·.1) ≠ []) (hessian : Hess) :
    let s := runHistory E pre (Sess.init workers threshold fs)
    PlainStats s.opt → s.opt.grad.tail.count .covariance = 1 → (hessian = .raw ∨ hessian = .auto) →
    ∀ t, SAct.each (SOp.run E) (ctx ++ body.map (shift s.user.length) ++ [.finalize dir]) s = (t, none) →
    (∀ nm ∈ keys, notes batchGrads (mods nm) ⟨none, [], [], []⟩ body ≠ []) →
    ∃ C : PyStr → Tensor K, (∀ nm ∈ keys, BatchGradMoment E body (mods nm) (C nm)) ∧
      ∀ listing : List PyStr, listing.Perm (Dict.keys t.fs) → ∀ b, 0 < b → ∀ f : Front, f.fs = t.fs → f.dataset = none → f.loader = none →
      ∃ l bs, (f.buildLoader listing b false).2 = .ok l ∧ l.batches = .ok bs ∧
        ∀ (o o' : IFObj K) hist srcIds src save c sqrt r, o.st = t.st → History E.lib sqrt o hist → Labelled srcIds src → Dict.keys src = keys → 0 < c →
          computeInfluenceAll E.lib sqrt o srcIds (.dict src) (bs.map (LogBatch.arg ⟨E.encode, dec⟩)) .dot true save hessian none (some c) = .ok (o', r) →
          ∃ x T, r = some x ∧ (o'.heap.deref x).srcIds = srcIds ∧ (o'.heap.deref x).tgtIds = (savedBy pre ctx none body).flatMap (·.1) ∧
            (o'.heap.deref x).influence.get? ['t', 'o', 't', 'a', 'l'] = some T ∧
            T.shape = [srcIds.length, ((savedBy pre ctx none body).flatMap (·.1)).length] ∧
            ∀ i, i < srcIds.length →
              (∃ x : PyStr → List Nat → K, ∀ m ∈ keys, RawSystem (entries (C m)) c src i m (x m)) ∧
              ∀ x : PyStr → List Nat → K, (∀ m ∈ keys, RawSystem (entries (C m)) c src i m (x m)) →
                ScoredBy E body mods keys shape (savedBy pre ctx none body) T i x := by
  intro s hp hg hh t ht hmods
  obtain ⟨C, h1, h2⟩ := session_raw E hE hI pre hP.configures workers threshold fs ctx ids hx body dir keys mods
    (fun o ho => ⟨hmask o ho, hP.logs o ho⟩) hessian hP.stats hp hP.gradients hg hh (fun nm h => ⟨hP.watches nm h, hmods nm h⟩) t ht
  refine ⟨C, h1, fun listing hlist b hb f hf hf1 hf2 => ?_⟩
  obtain ⟨l, bs, h3, h4, -, h5⟩ := program_scores E dec d pre workers threshold fs ctx ids none hx body keys mods shape dir hP hne t ht listing hlist b hb f hf hf1 hf2
  refine ⟨l, bs, h3, h4, fun o o' hist srcIds src save c sqrt r ho hh hsrc hk hc h => ?_⟩
  refine h5 o o' hist srcIds src save hessian c sqrt r (fun i m x => RawSystem (entries (C m)) c src i m x) hh hsrc hk ?_ h
  rw [ho]
  exact fun s₁ s₂ p H => h2 src hk srcIds hsrc c hc s₁ s₂ p H

end Logix
