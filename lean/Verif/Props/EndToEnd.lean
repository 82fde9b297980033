/-
C75: gradients that are logged, stored and loaded again give the scores of the gradients in memory.
-/
import Verif.Lemmas.Stored
import Verif.Lemmas.Returns
import Verif.Lemmas.Flat

set_option linter.unusedSectionVars false

namespace Logix
open Spec
variable {K : Type}

theorem arg_nested (C : Codec K) (bs : List (List PyStr × List (PyStr × Nested Arr))) :
    (bs.map fun b => LogBatch.nested b.1 b.2).map (LogBatch.arg C) = (decoded C bs).map fun b => (b.1, LogArg.dict b.2) := by
  simp only [decoded, List.map_map]
  rfl

/-- The loader of a run that has stored its logs, and its batches. -/
theorem nested_loader [Zero K] {C : Codec K} {d : DType} {order : List Path} {shape : PyStr → PyStr → List Nat} {fs : FS} {workers : Nat} {ops : List (LogOp K)}
    (hr : LogRun C d order shape fs workers ops) (thr : Int) {listing : List PyStr} (hl : listing.Perm (Dict.keys (storedRun C d order fs workers thr ops).fs))
    {b : Nat} (hpos : 0 < b) : ∃ l es ds bs, ((storedRun C d order fs workers thr ops).buildLoader listing b false).2 = .ok l ∧
      l.batches = .ok (bs.map fun b => LogBatch.nested b.1 b.2) ∧ loadBatches ds b = .ok bs ∧ Yields order es b bs ∧
      es.map Prod.fst = (saves ops).flatMap (·.1) ∧ ∀ (g : Nat) (hg : g < es.length), SampleOf C d order shape (saves ops) g es[g] := by
  obtain ⟨ds, h1, h2⟩ := stored_loader hr.plan hr.files hr.clean hr.workers thr hr.batches hr.ids rfl hl hpos false
  obtain ⟨es, h3, h4, h5, h6⟩ := stored_samples hr.plan hr.batches h2
  obtain ⟨bs, h7, h8⟩ := C14_loader_batches ds order es b hpos h3 h5
  refine ⟨_, es, ds, bs, h1, ?_, h7, h8, h4, h6⟩
  unfold LogLoader.batches
  simp [h7]

/-- Nothing but gradients in a loaded batch, if nothing else was logged. -/
theorem loaded_only {C : Codec K} {order : List Path} {shape : PyStr → PyStr → List Nat} (hp : LogPlan order shape) {es : List (PyStr × Nested Arr)}
    {ds : Dataset} {b : Nat} {bs : List (List PyStr × List (PyStr × Nested Arr))} (hbs : loadBatches ds b = .ok bs) (hy : Yields order es b bs)
    {x : List PyStr × List (PyStr × Nested Arr)} (hx : x ∈ bs) {keys : List PyStr} (ho : ∀ m t, [m, t] ∈ order → m ∈ keys ∧ t = LogType.name .grad) :
    ∀ y ∈ C.log x.2, y.1 ∈ keys ∧ ∀ t ∈ y.2, t.1 = LogType.name .grad := by
  obtain ⟨h1, h2, h3, h4⟩ := loaded_items (C := C) hp hbs hy hx
  intro y hyl
  obtain ⟨t, ht⟩ := h4 y.1 (List.mem_map_of_mem hyl)
  refine ⟨(ho _ _ ht).1, fun q hq => ?_⟩
  by_contra hno
  have hnone := h3 y.1 q.1 (fun h => hno (ho _ _ h).2)
  unfold item at hnone
  rw [Dict.get?_of_mem _ h1 hyl, Option.bind_some] at hnone
  exact (Dict.get?_eq_none_iff _ _).1 hnone (List.mem_map_of_mem hq)

/-- Every batch returns in the same state. -/
theorem dot_run [Field K] {L : Lib K} {sqrt : K → K} {ids : List PyStr} {src : LogArg K} {mode : Mode} {hessian : Hess} {groups : Option (List PyStr)}
    {damping : Option K} {s : LState K} : ∀ {loader : List (List PyStr × LogArg K)},
    (∀ b ∈ loader, ∃ v, computeInfluence L sqrt s ids src b.1 b.2 mode false hessian groups damping = .ok (s, v)) →
    ∃ vs, BatchRun L sqrt ids src mode hessian groups damping s loader s vs
  | [], _ => ⟨[], rfl, rfl⟩
  | b :: loader, h => by
    obtain ⟨v, hv⟩ := h b (by simp)
    obtain ⟨vs, hvs⟩ := dot_run (loader := loader) fun b' hb' => h b' (List.mem_cons_of_mem _ hb')
    exact ⟨v :: vs, s, v, vs, hv, hvs, rfl⟩

theorem some_batch {order : List Path} {es : List (PyStr × Nested Arr)} {b : Nat} {bs : List (List PyStr × List (PyStr × Nested Arr))} (hy : Yields order es b bs)
    {ids : List PyStr} (hids : es.map Prod.fst = ids) (hne : ids ≠ []) : bs ≠ [] := by
  rintro rfl
  have := hy.ids
  rw [hids] at this
  exact hne this.symm

/-- **C75**, nested loading, mode dot. After a run has saved and finalized its logs, for every flush threshold, every order in which the directory
lists its files and every batch size, the loader is built and its batches are read. The influence against it has the ids and the scores, under
every key, of the influence against the same gradients in memory: -/
theorem C75_nested_partial [Field K] {L : Lib K} {sqrt : K → K} {C : Codec K} {d : DType} {order : List Path} {shape : PyStr → PyStr → List Nat} {fs : FS}
    {workers : Nat} {ops : List (LogOp K)} (hr : LogRun C d order shape fs workers ops) (threshold : Int) {listing : List PyStr}
    (hl : listing.Perm (Dict.keys (storedRun C d order fs workers threshold ops).fs)) {b : Nat} (hpos : 0 < b) :
    ∃ l bs, ((storedRun C d order fs workers threshold ops).buildLoader listing b false).2 = .ok l ∧ l.batches = .ok bs ∧
      ∀ {o : IFObj K} {hist : List (IFResult K)} {ids allIds : List PyStr} {src e : GLog K} {pre save : Bool} {hessian : Hess}
        {groups : Option (List PyStr)} {damping : Option K} {s' : LState K} {w : IFResult K},
        History L sqrt o hist → Labelled ids src → InMemory order ops allIds e → allIds ≠ [] →
        computeInfluence L sqrt o.st ids (.dict src) allIds (.dict e) .dot pre hessian groups damping = .ok (s', w) →
        -- if it returns, it returns the same scores
        (∀ o' r, computeInfluenceAll L sqrt o ids (.dict src) (bs.map (LogBatch.arg C)) .dot pre save hessian groups damping = .ok (o', r) →
          ∃ x, r = some x ∧ SameScores groups (o'.heap.deref x) w) ∧
        -- if only gradients were logged, of modules that the source has, and there is nothing to merge with, it does return
        ((∀ m t, [m, t] ∈ order → m ∈ Dict.keys src ∧ t = LogType.name .grad) → (save = false ∨ o.saved = none) →
          ∃ o' r, computeInfluenceAll L sqrt o ids (.dict src) (bs.map (LogBatch.arg C)) .dot pre save hessian groups damping = .ok (o', r)) := by
  obtain ⟨l, es, ds, bs, h1, h2, h3, hy, h4, h5⟩ := nested_loader hr threshold hl hpos
  obtain ⟨hlab, hbat⟩ := loaded_batches hr.plan h4 h5 h3 hy
  refine ⟨l, _, h1, h2, ?_⟩
  intro o hist ids allIds src e pre save hessian groups damping s' w hh hsrc he hne hw
  have hB := hbat allIds e he.rows he.modules
  have hbs : bs ≠ [] := some_batch hy h4 (he.rows.1 ▸ hne)
  rw [arg_nested]
  refine ⟨fun o' r h => ?_, fun ho hs => ?_⟩
  · obtain ⟨x, hx, e1, e2, e3⟩ := C47_dot hh h hw (by simpa [decoded] using hbs) hB hsrc hlab he.labelled
    exact ⟨x, hx, e1, e2, e3⟩
  · obtain ⟨s₁, src', sc, tgt', sc₂, d', a1, -, -, -, -, -, -⟩ := computeInfluence_parts hw
    obtain ⟨p, H, rfl, -, hact⟩ := pre_ok hsrc.nodup a1
    rw [computeInfluence_split a1] at hw
    obtain ⟨vs, hvs⟩ := dot_run (L := L) (sqrt := sqrt) (s := s₁) (ids := ids) (src := .dict p) (mode := .dot) (hessian := hessian) (groups := groups)
      (damping := damping) (loader := (decoded C bs).map fun b => (b.1, LogArg.dict b.2)) (by
        intro b' hb'
        obtain ⟨x, hx, rfl⟩ := List.mem_map.1 hb'
        obtain ⟨y, hyb, rfl⟩ := List.mem_map.1 hx
        obtain ⟨l', r', hsplit⟩ := List.append_of_mem hyb
        have hlen : 0 < y.1.length := by
          obtain ⟨k, hk, rfl⟩ := List.getElem_of_mem hyb
          exact List.length_pos_of_ne_nil (hy.size k hk).2
        refine batch_returns hw (hact.labelled hsrc) (hlab _ hx) ?_ ?_
        · rw [hact.1]
          exact loaded_only hr.plan h3 hy hyb ho
        · intro m h hmh
          obtain ⟨g, h', q1, q2, q3, -⟩ := hB.2 (decoded C l') (y.1, C.log y.2) (decoded C r') (by rw [hsplit]; simp [decoded]) 0 hlen m (grad_mem hmh)
          rw [hmh] at q2
          cases q2
          refine ⟨g, q1, ?_, q3⟩
          intro h0
          obtain ⟨g', g1, g2⟩ := (hlab _ hx).rows m (grad_mem q1)
          rw [q1] at g1
          cases g1
          unfold Tensor.size at g2
          rw [h0] at g2
          exact absurd g2 (Nat.ne_of_lt hlen))
    exact all_returns a1 hvs hs

/-- **C75**, nested loading, every mode: for l2 and cosine the source and the log in memory have the modules in the order in which they were logged,
and the state has no fitted eigenvalues and was reached by operations of the state and then influence computations with the same damping. -/
theorem C75_modes_partial [Field K] {L : Lib K} {sqrt : K → K} {C : Codec K} {d : DType} {order : List Path} {shape : PyStr → PyStr → List Nat} {fs : FS}
    {workers : Nat} {ops : List (LogOp K)} (hr : LogRun C d order shape fs workers ops) (threshold : Int) {listing : List PyStr}
    (hl : listing.Perm (Dict.keys (storedRun C d order fs workers threshold ops).fs)) {b : Nat} (hpos : 0 < b) :
    ∃ l bs, ((storedRun C d order fs workers threshold ops).buildLoader listing b false).2 = .ok l ∧ l.batches = .ok bs ∧
      ∀ {o o' : IFObj K} {hist : List (IFResult K)} {ids allIds : List PyStr} {src e : GLog K} {mode : Mode} {pre save : Bool} {hessian : Hess}
        {groups : Option (List PyStr)} {damping : Option K} {s₀ s' : LState K} {w : IFResult K} {r : Option (RRec K)} {hops : List (StateOp K)}
        {calls : List (Call K)},
        History L sqrt o hist → Labelled ids src → InMemory order ops allIds e → allIds ≠ [] →
        Dict.keys src = topNames order → Dict.keys e = topNames order →
        runOps L .init hops = .ok s₀ → s₀.hasAttr nEkfac = false → (∀ c ∈ calls, c.damping = damping) → serveAll L sqrt s₀ calls = .ok o.st →
        computeInfluence L sqrt o.st ids (.dict src) allIds (.dict e) mode pre hessian groups damping = .ok (s', w) →
        computeInfluenceAll L sqrt o ids (.dict src) (bs.map (LogBatch.arg C)) mode pre save hessian groups damping = .ok (o', r) →
        ∃ x, r = some x ∧ SameScores groups (o'.heap.deref x) w := by
  obtain ⟨l, es, ds, bs, h1, h2, h3, hy, h4, h5⟩ := nested_loader hr threshold hl hpos
  obtain ⟨hlab, hbat⟩ := loaded_batches hr.plan h4 h5 h3 hy
  refine ⟨l, _, h1, h2, ?_⟩
  intro o o' hist ids allIds src e mode pre save hessian groups damping s₀ s' w r hops calls hh hsrc he hne hk hke hrun hek hc hcalls hw h
  rw [arg_nested] at h
  obtain ⟨x, hx, e1, e2, e3⟩ := C47_modes hh hrun hek hc hcalls h hw (by simpa [decoded] using some_batch hy h4 (he.rows.1 ▸ hne))
    (hbat allIds e he.rows he.modules) hsrc hlab he.labelled (hk.trans hke.symm) (by
      intro x hx
      obtain ⟨y, hyb, rfl⟩ := List.mem_map.1 hx
      obtain ⟨k, hkk, rfl⟩ := List.getElem_of_mem hyb
      show Dict.keys (C.log _) = _
      rw [keys_log, hy.names k hkk, hke])
  exact ⟨x, hx, e1, e2, e3⟩

/-! ### flat loading -/

theorem flat_loader [Zero K] {C : Codec K} {d : DType} {order : List Path} {shape : PyStr → PyStr → List Nat} {fs : FS} {workers : Nat} {ops : List (LogOp K)}
    (hr : LogRun C d order shape fs workers ops) (thr : Int) {listing : List PyStr} (hl : listing.Perm (Dict.keys (storedRun C d order fs workers thr ops).fs))
    {b : Nat} (hpos : 0 < b) : ∃ l es bs, ((storedRun C d order fs workers thr ops).buildLoader listing b true).2 = .ok l ∧
      l.batches = .ok (bs.map fun b => LogBatch.flat b.1 b.2) ∧ YieldsFlat order es b bs ∧
      es.map Prod.fst = (saves ops).flatMap (·.1) ∧ ∀ (g : Nat) (hg : g < es.length), SampleOf C d order shape (saves ops) g es[g] := by
  obtain ⟨ds, h1, h2⟩ := stored_loader hr.plan hr.files hr.clean hr.workers thr hr.batches hr.ids rfl hl hpos true
  obtain ⟨es, h3, h4, h5, h6⟩ := stored_samples hr.plan hr.batches h2
  obtain ⟨bs, h7, h8⟩ := C14_loader_batches_flat ds order es b hpos (by
    obtain ⟨m, t, h, -⟩ := hr.plan.some
    intro h0
    rw [h0] at h
    cases h) h3 h5
  refine ⟨_, es, bs, h1, ?_, h8, h4, h6⟩
  unfold LogLoader.batches
  simp [h7]

theorem arg_flat (C : Codec K) (bs : List (List PyStr × Arr)) :
    (bs.map fun b => LogBatch.flat b.1 b.2).map (LogBatch.arg C) = bs.map fun b => (b.1, LogArg.flat (C.tensor b.2)) := by
  simp only [List.map_map]
  rfl

/-- **C75**, flat loading, mode dot, without groups: the same, if the modules of the write order are those under `model_module["path"]` of the state
(the saver takes its write order from there). -/
theorem C75_flat_partial [Field K] {L : Lib K} {sqrt : K → K} {C : Codec K} {d : DType} {mods : List PyStr} {shape : PyStr → PyStr → List Nat} {fs : FS}
    {workers : Nat} {ops : List (LogOp K)} (hr : LogRun C d (gradOrder mods) shape fs workers ops) (threshold : Int) {listing : List PyStr}
    (hl : listing.Perm (Dict.keys (storedRun C d (gradOrder mods) fs workers threshold ops).fs)) {b : Nat} (hpos : 0 < b) :
    ∃ l bs, ((storedRun C d (gradOrder mods) fs workers threshold ops).buildLoader listing b true).2 = .ok l ∧ l.batches = .ok bs ∧
      ∀ {o : IFObj K} {hist : List (IFResult K)} {ids allIds : List PyStr} {src e : GLog K} {pre save : Bool} {hessian : Hess}
        {groups : Option (List PyStr)} {damping : Option K} {s' : LState K} {w : IFResult K},
        History L sqrt o hist → PathIs o.st mods → groups.getD [] = [] → Labelled ids src → InMemory (gradOrder mods) ops allIds e → allIds ≠ [] →
        computeInfluence L sqrt o.st ids (.dict src) allIds (.dict e) .dot pre hessian groups damping = .ok (s', w) →
        (∀ o' r, computeInfluenceAll L sqrt o ids (.dict src) (bs.map (LogBatch.arg C)) .dot pre save hessian groups damping = .ok (o', r) →
          ∃ x, r = some x ∧ SameScores groups (o'.heap.deref x) w) ∧
        ((∀ m ∈ mods, m ∈ Dict.keys src) → ids ≠ [] → (save = false ∨ o.saved = none) →
          ∃ o' r, computeInfluenceAll L sqrt o ids (.dict src) (bs.map (LogBatch.arg C)) .dot pre save hessian groups damping = .ok (o', r)) := by
  obtain ⟨l, es, bs, h1, h2, hy, h4, h5⟩ := flat_loader hr threshold hl hpos
  refine ⟨l, _, h1, h2, ?_⟩
  intro o hist ids allIds src e pre save hessian groups damping s' w hh hpath hg hsrc he hne hw
  have hbs : bs ≠ [] := by
    rintro rfl
    have := hy.ids
    rw [h4, ← he.rows.1] at this
    exact hne this.symm
  have hids : allIds = bs.flatMap (·.1) := by rw [he.rows.1, ← h4, ← hy.ids]; rfl
  rw [arg_flat]
  obtain ⟨s₁, src', sc, tgt', sc₂, d', a1, -, -, -, -, -, -⟩ := computeInfluence_parts hw
  obtain ⟨p, H, rfl, -, hact⟩ := pre_ok hsrc.nodup a1
  rw [computeInfluence_split a1] at hw
  have hp := hact.labelled hsrc
  have hpath₁ : PathIs s₁ mods := by
    obtain ⟨mm, k1, k2⟩ := hpath
    refine ⟨mm, ?_, k2⟩
    cases pre with
    | false => simp only [Bool.false_eq_true, if_false] at a1; cases a1; exact k1
    | true =>
      rw [if_pos rfl] at a1
      unfold LState.getAttr at k1 ⊢
      rw [precondition_paths a1]
      exact k1
  obtain ⟨-, hmod, ⟨dev, hdev⟩, -⟩ := one_device hw hp
  have hpe : ∀ m ∈ Dict.keys p, m ∈ Dict.keys e := fun m hm => by
    obtain ⟨a, h, -, h', -⟩ := hmod m hm
    exact grad_mem h'
  refine ⟨fun o' r h => ?_, fun hms hidne hs => ?_⟩
  · obtain ⟨x, s₁', src', vs, rfl, b1, b2, b3, b4⟩ := all_some hh h (by simpa using hbs)
    rw [a1] at b1
    cases b1
    have hvs := batchRun_at (fun a b => b = a) (fun s b s₂ r hs hc => by
      subst hs
      exact ⟨dot_state hc, s₂, hc⟩) rfl b2
    obtain ⟨c1, c2, c3⟩ := loader_whole hvs b3 b4 hw (by rw [hids, List.flatMap_map])
    refine ⟨x, rfl, c1, c2, fun k hk => ?_⟩
    obtain rfl : k = nTotal := by
      rcases hk with rfl | hk
      · rfl
      · rw [hg] at hk; cases hk
    obtain ⟨y, y1, y2, y3⟩ := total_sum hg hw hp he.labelled
    refine ⟨y, c3 nTotal y y1 ?_ ?_, y1⟩
    · intro b' hb' s₂ v hv
      obtain ⟨z, hz, rfl⟩ := List.mem_map.1 hb'
      obtain ⟨a, u, -, -, -, h6⟩ := flat_call hpath₁ hg hv
      exact ⟨_, h6⟩
    · intro l' b' post hsplit s₂ v t hv ht i j hi hj
      obtain ⟨l₁, l₂, rfl, rfl, hl₂⟩ := List.map_eq_append_iff.1 hsplit
      obtain ⟨z, post, rfl, rfl, rfl⟩ := List.map_eq_cons_iff.1 hl₂
      obtain ⟨a, u, f1, f2, f3, f4⟩ := flat_call hpath₁ hg hv
      rw [f4] at ht
      cases ht
      obtain ⟨n, D, g1, g2, g3, g4⟩ := flattenLog_ok f1
      have hmp : ∀ m ∈ mods, m ∈ Dict.keys p := fun m hm => by
        obtain ⟨g, r, q1, -, -⟩ := g3 m hm
        exact grad_mem q1
      have hpm : ∀ m ∈ Dict.keys p, m ∈ mods := fun m hm => by
        have := he.modules m (hpe m hm)
        obtain ⟨m', q1, q2⟩ := List.mem_map.1 this
        cases q2
        exact q1
      have hnd : mods.Nodup := by
        have := hr.plan.nodup
        unfold gradOrder at this
        exact List.Nodup.of_map _ this
      obtain ⟨hkk, hget⟩ := get_split (l := l₁) (r := post) (x := z) (bs := l₁ ++ z :: post) rfl
      obtain ⟨r1, r2⟩ := flat_batch h5 hy he.rows (fun m hm => hpe m (hmp m hm)) l₁.length hkk
      rw [hget] at r1 r2
      obtain ⟨d1, -, -, d4, d5⟩ := crossDot_ok f2
      have ht' : a.shape.tail = [D] := by rw [g1]; rfl
      rw [ht'] at d1 d5
      have hD : (mods.map fun m => numel (shape m (LogType.name .grad))).sum = D := by
        have e1 : ((C.tensor z.2).onDev a.dev).shape = _ := r1
        rw [e1] at d1
        simpa using d1.symm
      rw [hD] at r2
      have hn : a.size 0 = n := by simp [Tensor.size, g1]
      rw [hn, f3] at d4
      have hnl : n = ids.length := by simpa using (List.cons.inj d4).1.symm
      have hzl : ((C.tensor z.2).onDev a.dev).size 0 = z.1.length := by
        show (C.tensor z.2).shape.getD 0 0 = _
        rw [r1]; rfl
      have hstart : (l₁.flatMap (·.1)).length = l₁.length * b := by
        refine batch_start (bs := l₁ ++ z :: post) (n := es.length) (fun j hj => ?_) rfl
        obtain ⟨z1, z2, -⟩ := hy.size j hj
        exact ⟨z1, z2⟩
      have hj' : j < z.1.length := hj
      show u.el [i, j] = _
      rw [d5 i j (by rw [hn, hnl]; exact hi) (by rw [hzl]; exact hj'), dot_rowList, rowList_onDev, g4 i (by rw [hnl]; exact hi), r2 j hj', inner_flat _ _ _ (by
        intro m hm
        obtain ⟨a, h, k1, k2, -, k4, -⟩ := hmod m (hmp m hm)
        exact ⟨a, h, k1, k2, k4⟩)]
      have hfm : (l₁.map fun b => (b.1, LogArg.flat (C.tensor b.2))).flatMap (·.1) = l₁.flatMap (·.1) := by rw [List.flatMap_map]
      rw [hfm, hstart, y3 i _ hi (by
        rw [hids, List.flatMap_append, List.length_append, List.flatMap_cons, List.length_append, hstart]
        omega)]
      refine List.Perm.sum_eq (List.Perm.map _ ?_)
      exact (List.perm_ext_iff_of_nodup hnd hp.nodup).2 fun m => ⟨hmp m, hpm m⟩
  · have hmp : ∀ m ∈ mods, m ∈ Dict.keys p := fun m hm => by rw [hact.1]; exact hms m hm
    have hmne : mods ≠ [] := by
      obtain ⟨m, t, h, -⟩ := hr.plan.some
      rintro rfl
      cases h
    obtain ⟨a, ha⟩ := flattenLog_returns (p := p) (mods := mods) (n := ids.length) (dev := dev) (by simpa using hidne) hmne (by
      intro m hm
      obtain ⟨a, h, k1, k2, k3, k4, k5⟩ := hmod m (hmp m hm)
      refine ⟨a, a.shape.tail, k1, ?_, hdev _ _ k1⟩
      cases hs : a.shape with
      | nil => exact absurd hs k3
      | cons n r =>
        have : a.size 0 = n := by simp [Tensor.size, hs]
        rw [← k5, this]; rfl)
    obtain ⟨n, D, g1, g2, g3, g4⟩ := flattenLog_ok ha
    obtain ⟨m₀, hm₀⟩ := List.exists_mem_of_ne_nil _ hmne
    have hn : n = ids.length := by
      obtain ⟨g, r, q1, q2, -⟩ := g3 m₀ hm₀
      obtain ⟨g', q3, q4⟩ := hp.rows m₀ (hmp m₀ hm₀)
      rw [q1] at q3
      cases q3
      rw [← q4]
      simp [Tensor.size, q2]
    subst hn
    obtain ⟨vs, hvs⟩ := dot_run (L := L) (sqrt := sqrt) (s := s₁) (ids := ids) (src := .dict p) (mode := .dot) (hessian := hessian) (groups := groups)
      (damping := damping) (loader := bs.map fun b => (b.1, LogArg.flat (C.tensor b.2))) (by
        intro b' hb'
        obtain ⟨z, hz, rfl⟩ := List.mem_map.1 hb'
        obtain ⟨k, hk, rfl⟩ := List.getElem_of_mem hz
        obtain ⟨r1, r2⟩ := flat_batch h5 hy he.rows (fun m hm => hpe m (hmp m hm)) k hk
        have hD : (mods.map fun m => numel (shape m (LogType.name .grad))).sum = D := by
          have hi0 : 0 < ids.length := List.length_pos_of_ne_nil hidne
          have e1 := congrArg List.length (g4 0 hi0)
          have e2 := congrArg List.length (r2 0 (List.length_pos_of_ne_nil (hy.size k hk).2.1))
          simp only [rowList, List.length_map, List.length_range] at e1 e2
          rw [e1, e2]
          unfold flatGrad
          rw [List.length_flatMap, List.length_flatMap]
          congr 1
          apply List.map_congr_left
          intro m hm
          obtain ⟨a, h, k1, k2, -, k4, -⟩ := hmod m (hmp m hm)
          simp only [k1, k2, List.length_map, k4]
        obtain ⟨u, hu, hu1, -⟩ := crossDot_returns (a := a) (b := (C.tensor bs[k].2).onDev a.dev) g1 (by show (C.tensor bs[k].2).shape = _; rw [r1, hD]) rfl
        exact flat_returns hpath₁ hg ha hu hu1)
    exact all_returns a1 hvs hs

/-! ### what a flat loader cannot do -/

/-- Against a flat target, a call with a group besides the total, or in another mode than dot, raises. -/
theorem flat_raises [Field K] {L : Lib K} {sqrt : K → K} {s : LState K} {ids tids : List PyStr} {src : LogArg K} {t : Tensor K} {mode : Mode} {pre : Bool}
    {hessian : Hess} {groups : Option (List PyStr)} {damping : Option K} (h : mode ≠ .dot ∨ ∃ g ∈ groups.getD [], g ≠ nTotal) (s' : LState K) (v : IFResult K) :
    computeInfluence L sqrt s ids src tids (.flat t) mode pre hessian groups damping ≠ .ok (s', v) := by
  intro hv
  obtain ⟨s₁, src', sc, tgt', sc₂, d, -, hraw, hmode, hc, -, -, -⟩ := computeInfluence_parts hv
  have hflat : tgt' = .flat t ∧ ∃ u, addScores u [nTotal] (initScores (groups.getD [])) = .ok sc := by
    unfold rawScores at hraw
    split at hraw
    · next d t' ht =>
      cases ht
      split at hraw
      · cases hraw
      · split at hraw
        · split at hraw
          · cases hraw
          · split at hraw
            · cases hraw
            · next u hu =>
              split at hraw
              · cases hraw
              · next sc' hsc => cases hraw; exact ⟨rfl, u, hsc⟩
        · cases hraw
    · next ht => cases ht
    · cases hraw
  obtain ⟨rfl, u, hu⟩ := hflat
  unfold modeScores at hmode
  split at hmode
  · next hm =>
    cases hmode
    obtain ⟨g, hg, hgt⟩ := h.resolve_left fun h => h hm
    obtain ⟨i1, i2⟩ := initScores_get (K := K) (groups.getD [])
    unfold addScores at hu
    split at hu
    · cases hu
    · split at hu
      · cases hu
      · simp only [addScores] at hu
        cases hu
        obtain ⟨v', hv'⟩ := Option.isSome_iff_exists.1 ((Dict.get?_isSome_iff (initScores (groups.getD []) : Scores K) g).2 ((i2 g).2 (.inr hg)))
        obtain ⟨t', e1, -, -⟩ := (checkScores_ok hc).2 g v' (by rw [Dict.get?_set, if_neg (Ne.symm hgt)]; exact hv')
        rw [i1 g v' hv'] at e1
        cases e1
  · unfold computeSelf at hmode
    cases hmode

/-- **C75** fails for flat loading with groups, and in the modes l2 and cosine: whatever was logged, such a call never returns. -/
theorem C75_flat_raises [Field K] {L : Lib K} {sqrt : K → K} {C : Codec K} {d : DType} {order : List Path} {shape : PyStr → PyStr → List Nat} {fs : FS}
    {workers : Nat} {ops : List (LogOp K)} (hr : LogRun C d order shape fs workers ops) (hne : (saves ops).flatMap (·.1) ≠ []) (threshold : Int)
    {listing : List PyStr} (hl : listing.Perm (Dict.keys (storedRun C d order fs workers threshold ops).fs)) {b : Nat} (hpos : 0 < b) :
    ∃ l bs, ((storedRun C d order fs workers threshold ops).buildLoader listing b true).2 = .ok l ∧ l.batches = .ok bs ∧
      ∀ {o o' : IFObj K} {hist : List (IFResult K)} {ids : List PyStr} {src : LogArg K} {mode : Mode} {pre save : Bool} {hessian : Hess}
        {groups : Option (List PyStr)} {damping : Option K} {r : Option (RRec K)}, History L sqrt o hist →
        (mode ≠ .dot ∨ ∃ g ∈ groups.getD [], g ≠ ['t', 'o', 't', 'a', 'l']) →
        computeInfluenceAll L sqrt o ids src (bs.map (LogBatch.arg C)) mode pre save hessian groups damping ≠ .ok (o', r) := by
  obtain ⟨l, es, bs, h1, h2, hy, h4, -⟩ := flat_loader hr threshold hl hpos
  refine ⟨l, _, h1, h2, ?_⟩
  intro o o' hist ids src mode pre save hessian groups damping r hh hbad h
  rw [arg_flat] at h
  have hbs : bs ≠ [] := by
    rintro rfl
    have := hy.ids
    rw [h4] at this
    exact hne this.symm
  obtain ⟨x, s₁, src', vs, -, -, hrun, -, -⟩ := all_some hh h (by simpa using hbs)
  cases bs with
  | nil => exact hbs rfl
  | cons b' bs =>
    obtain ⟨s₂, v, vs', hv, -, -⟩ := hrun
    exact flat_raises hbad _ _ hv

end Logix
