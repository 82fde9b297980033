/-
C143: the scores against the log directory, in every mode and for every group.
-/
import Verif.Props.SessionDirectory
import Verif.Props.FormulaModes
import Verif.Props.Tiles
import Verif.Spec.LoaderModes

set_option linter.unusedSectionVars false

namespace Logix
open Spec Sess
variable {K : Type} [Field K] [LinearOrder K] [IsStrictOrderedRing K]

/-- Sample `j` of one log and sample `j'` of another have the same gradient in the module. -/
def RowOf (e : GLog K) (j : Nat) (e' : GLog K) (j' : Nat) (m : PyStr) : Prop :=
  ∃ t y, grad e m = some t ∧ grad e' m = some y ∧ t.shape.tail = y.shape.tail ∧ ∀ idx, inRange y.shape.tail idx = true → row t j idx = row y j' idx

theorem RowOf.symm {e e' : GLog K} {j j' : Nat} {m : PyStr} (h : RowOf e j e' j' m) : RowOf e' j' e j m := by
  obtain ⟨t, y, h1, h2, h3, h4⟩ := h
  exact ⟨y, t, h2, h1, h3.symm, fun idx hi => (h4 idx (by rw [← h3]; exact hi)).symm⟩

theorem RowOf.kfacSystem {e e' : GLog K} {j j' : Nat} {m : PyStr} (h : RowOf e j e' j' m) {A B : Nat → Nat → K} {c : K} {x : List Nat → K}
    (hs : KfacSystem A B c e j m x) : KfacSystem A B c e' j' m x := by
  obtain ⟨t, y, h1, h2, h3, h4⟩ := h
  obtain ⟨g, n, p, q, k1, k2, k3⟩ := hs
  rw [h1] at k1; cases k1
  rw [k2] at h3
  obtain ⟨n', hn'⟩ : ∃ n', y.shape = [n', p, q] := by
    cases hy : y.shape with
    | nil => rw [hy] at h3; cases h3
    | cons a l => rw [hy] at h3; exact ⟨a, by rw [show l = [p, q] from h3.symm]⟩
  refine ⟨y, n', p, q, h2, hn', fun a b ha hb => ?_⟩
  rw [k3 a b ha hb]
  have := h4 [a, b] (by rw [hn']; simp [inRange, ha, hb])
  exact this

theorem RowOf.rawSystem {e e' : GLog K} {j j' : Nat} {m : PyStr} (h : RowOf e j e' j' m) {C : Nat → Nat → K} {c : K} {x : List Nat → K}
    (hs : RawSystem C c e j m x) : RawSystem C c e' j' m x := by
  obtain ⟨t, y, h1, h2, h3, h4⟩ := h
  obtain ⟨g, k1, k2⟩ := hs
  rw [h1] at k1; cases k1
  rw [h3] at k2
  refine ⟨y, h2, fun idx hi => ?_⟩
  rw [k2 idx hi]
  exact h4 idx ((mem_indices _ _).1 hi)

theorem against_row {e e' : GLog K} {j j' : Nat} {ms : List PyStr} (h : ∀ m ∈ ms, RowOf e j e' j' m) (x : PyStr → List Nat → K) : against x e j ms = against x e' j' ms := by
  unfold against
  congr 1
  refine List.map_congr_left fun m hm => ?_
  obtain ⟨t, y, h1, h2, h3, h4⟩ := h m hm
  simp only [h1, h2]
  rw [h3]
  exact dot_congr (fun _ _ => rfl) fun idx hidx => h4 idx ((mem_indices _ _).1 hidx)

theorem topNames_gradOrder {keys : List PyStr} (h : keys.Nodup) : topNames (gradOrder keys) = keys := by
  unfold topNames gradOrder
  rw [List.filterMap_map]
  have : keys.filterMap (List.head? ∘ fun m => [m, LogType.name .grad]) = keys := by
    rw [show (List.head? ∘ fun m : PyStr => [m, LogType.name .grad]) = some from rfl]
    exact List.filterMap_some
  rw [this]
  exact firstOcc_of_nodup id keys (by rw [List.map_id]; exact h)

/-- The loader of the logs of a program, and the samples of its batches. -/
theorem program_loaded (E : SEnv K) (dec : DType → List UInt8 → K) (d : DType) (pre : List (SOp K)) (workers : Nat)
    (threshold : Int) (fs : FS) (ctx : List (SOp K)) (ids : List PyStr) (mask : Option (Tensor K)) (hx : Context ctx ids mask) (body : List (SOp K))
    (keys : List PyStr) (mods : PyStr → Nat) (shape : PyStr → List Nat) (dir : StateDir K)
    (hP : StoredProgram E dec d pre workers threshold fs ctx mask body keys mods shape)
    (t : Sess K) (ht : SAct.each (SOp.run E) (ctx ++ body.map (shift (runHistory E pre (Sess.init workers threshold fs)).user.length) ++ [.finalize dir])
      (runHistory E pre (Sess.init workers threshold fs)) = (t, none))
    (listing : List PyStr) (hlist : listing.Perm (Dict.keys t.fs)) (b : Nat) (hb : 0 < b) (f : Front) (hf : f.fs = t.fs) (hf1 : f.dataset = none) (hf2 : f.loader = none) :
    ∃ l bs, ∃ D : List (List PyStr × GLog K), (f.buildLoader listing b false).2 = .ok l ∧ l.batches = .ok bs ∧
      bs.map (LogBatch.arg ⟨E.encode, dec⟩) = D.map (fun b => (b.1, LogArg.dict b.2)) ∧
      (∀ z ∈ D, Labelled z.1 z.2 ∧ Dict.keys z.2 = keys ∧ GradBatch keys shape z) ∧ D.flatMap (·.1) = (savedBy pre ctx mask body).flatMap (·.1) ∧
      ∀ lu u ru, savedBy pre ctx mask body = lu ++ u :: ru → ∃ e : GLog K,
        (∀ nm ∈ keys, ∃ G, grad e nm = some G ∧ BatchGrad (allocs body) (E.kind (mods nm)) (u.2 (mods nm)) G) ∧
        ∀ j, j < u.1.length → ∃ l' z r' j', D = l' ++ z :: r' ∧ j' < z.1.length ∧ (lu.flatMap (·.1)).length + j = (l'.flatMap (·.1)).length + j' ∧
          ∀ m ∈ keys, RowOf z.2 j' e j m := by
  obtain ⟨t₁, ht₁, -⟩ : ∃ t₁, SAct.each (SOp.run E) (ctx ++ body.map (shift (runHistory E pre (Sess.init workers threshold fs)).user.length))
      (runHistory E pre (Sess.init workers threshold fs)) = (t₁, none) ∧ True := by
    rw [SAct.each_append] at ht
    obtain ⟨u, h1, -⟩ := SAct.seq_none ht
    exact ⟨u, h1, trivial⟩
  have hH := C111_handed E pre workers threshold fs ctx ids mask hx body keys mods hP.logs hP.stats hP.gradients hP.watches t₁ ht₁
  have hR := program_logRun E dec d pre hP.configures workers threshold fs ctx ids mask hx body keys mods hP.logs shape hP.stats hP.gradients hP.watches
    hP.names hP.paths hP.dims hP.size hP.storable hP.ids hP.files hP.clean hP.one t₁ ht₁
  have hfin := history_each E _ _ t ht
  have hT' : Tidy false (ctx ++ body.map (shift (runHistory E pre (Sess.init workers threshold fs)).user.length)) := tidy_append_shift _ hx hP.tidy
  have hd' : E.dtype = some d ∨ (E.dtype = none ∧
      ∀ o ∈ allocs (pre ++ (ctx ++ body.map (shift (runHistory E pre (Sess.init workers threshold fs)).user.length))), o.dtype = d) := by
    rcases hP.dtype with hd | ⟨hd, h⟩
    · exact Or.inl hd
    · refine Or.inr ⟨hd, fun o ho => h o ?_⟩
      have : allocs (ctx ++ body.map (shift (runHistory E pre (Sess.init workers threshold fs)).user.length)) = allocs body := by
        rw [allocs_append', allocs_shift]
        cases hx <;> rfl
      rw [allocs_append', this, ← allocs_append'] at ho
      exact ho
  have hfs := C86_partial E dec d pre _ dir workers threshold fs (fun o h => configures_prepares (hP.configures o h)) hd' hP.stats.1 hP.stats.2.1 hT'
    (fun x h _ => outcomes_each E _ _ t ht x h)
  rw [show runHistory E _ (runHistory E pre (Sess.init workers threshold fs)) = t from hfin] at hfs
  obtain ⟨l, es, ds, bs, h1, h2, h3, hy, h4, h5⟩ := loader_of hR threshold (hf.trans hfs) hf1 hf2 (listing := listing) (by rw [hf]; exact hlist) hb
  obtain ⟨hlab, -⟩ := loaded_batches hR.plan h4 h5 h3 hy
  have hflat : ∀ (a : List (List PyStr × (Nat → List (Nat × Nat)))) (b : List (List PyStr × GLog K)),
      List.Forall₂ (fun u b => b.1 = u.1 ∧ ∀ nm ∈ keys, HoldsGrad (allocs body) (E.kind (mods nm)) (u.2 (mods nm)) (item b.2 nm (LogType.name .grad))) a b →
      b.flatMap (·.1) = a.flatMap (·.1) := by
    intro a b h
    induction h with
    | nil => rfl
    | cons h1 _ ih => rw [List.flatMap_cons, List.flatMap_cons, ih, h1.1]
  have hdec : (decoded ⟨E.encode, dec⟩ bs).flatMap (·.1) = (savedBy pre ctx mask body).flatMap (·.1) := by
    have : (decoded ⟨E.encode, dec⟩ bs).flatMap (·.1) = bs.flatMap (·.1) := by simp [decoded, List.flatMap_map]
    unfold savedBy
    rw [this, ← hflat _ _ hH, ← h4, ← hy.ids]
    rfl
  have hpaths : (runHistory E pre (Sess.init workers threshold fs)).paths = gradOrder keys := hP.paths
  refine ⟨l, _, decoded ⟨E.encode, dec⟩ bs, h1, h2, arg_nested _ _, fun z hz => ⟨hlab z hz, ?_, ?_⟩, hdec, fun lu u ru hsplit => ?_⟩
  · rw [hpaths] at hy
    obtain ⟨w, hw, rfl⟩ := List.mem_map.1 hz
    obtain ⟨k, hkk, rfl⟩ := List.getElem_of_mem hw
    show Dict.keys (Codec.log _ _) = _
    rw [keys_log, hy.names k hkk, topNames_gradOrder hP.names]
  · rw [hpaths] at hR hy h5
    exact loaded_shapes hR.plan h4 h5 hP.dims h3 hy hz
  have hu : u ∈ savedBy pre ctx mask body := by rw [hsplit]; simp
  have hH' := hH
  rw [show savedBatches (Saving.after (pre ++ ctx)) (fun _ => ⟨mask, [], [], []⟩) body = _ from hsplit] at hH'
  obtain ⟨a, bu, c', k1, k2, k3, k4⟩ := forall₂_split_left hH'
  refine ⟨bu.2, fun nm hm => ?_, fun j hj => ?_⟩
  · rcases k4 nm hm with ⟨h, -⟩ | ⟨G, h6, h7⟩
    · exact absurd h (hP.storable u hu nm hm).some
    · exact ⟨G, by rw [grad_item]; exact h6, h7⟩
  have hpos : (lu.flatMap (·.1)).length + j < ((decoded ⟨E.encode, dec⟩ bs).flatMap (·.1)).length := by
    rw [hdec, hsplit, List.flatMap_append, List.flatMap_cons, List.length_append, List.length_append]
    omega
  obtain ⟨l', z, r', j', q1, q2, q3⟩ := split_at hpos
  obtain ⟨lS, bS, rS, jS, w1, w2, w3, w4⟩ := loaded_same hR.plan h5 h3 hy q1 q2
  obtain ⟨rfl, rfl⟩ := split_unique (j := jS) (j' := j) (w1.symm.trans k1) (by rw [hflat _ _ k2, q3, w3]) w2 (by rw [k3]; exact hj)
  refine ⟨l', z, r', j', q1, q2, q3, fun m hm => ?_⟩
  obtain ⟨t', y', v1, v2, v3, v4, v5⟩ := w4 m (by rw [hpaths]; exact List.mem_map.2 ⟨m, hm, rfl⟩)
  exact ⟨t', y', v1, v2, v3, v5⟩

/-- The scores against the loader of a program in every mode, if the systems of all logs have solutions and these give the form of the inverse Hessian. -/
theorem program_modes {E : SEnv K} {stats : List (Plugin × StatCall K)} {s₀ : LState K} (hfin : Finalized E.lib stats s₀) {sqrt : K → K} {body : List (SOp K)} {keys : List PyStr}
    {mods : PyStr → Nat} {saved : List (List PyStr × (Nat → List (Nat × Nat)))} (hne : saved.flatMap (·.1) ≠ []) {D : List (List PyStr × GLog K)}
    (hD : ∀ z ∈ D, Labelled z.1 z.2 ∧ Dict.keys z.2 = keys) (hids : D.flatMap (·.1) = saved.flatMap (·.1))
    (hrows : ∀ lu u ru, saved = lu ++ u :: ru → ∃ e : GLog K,
        (∀ nm ∈ keys, ∃ G, grad e nm = some G ∧ BatchGrad (allocs body) (E.kind (mods nm)) (u.2 (mods nm)) G) ∧
        ∀ j, j < u.1.length → ∃ l' z r' j', D = l' ++ z :: r' ∧ j' < z.1.length ∧ (lu.flatMap (·.1)).length + j = (l'.flatMap (·.1)).length + j' ∧
          ∀ m ∈ keys, RowOf z.2 j' e j m)
    {o o' : IFObj K} {hist : List (IFResult K)} {calls : List (Call K)} {srcIds : List PyStr} {src : GLog K} {mode : Mode} {save : Bool} {hessian : Hess}
    {groups : Option (List PyStr)} {c : K} {r : Option (RRec K)} {S : GLog K → Nat → PyStr → (List Nat → K) → Prop}
    (hh : History E.lib sqrt o hist) (hcalls : ∀ x ∈ calls, x.damping = some c) (hserve : serveAll E.lib sqrt s₀ calls = .ok o.st)
    (hsrc : Labelled srcIds src) (hk : Dict.keys src = keys)
    (hg : (groups.getD []).Nodup) (hn : ['t', 'o', 't', 'a', 'l'] ∉ groups.getD [])
    (hS : ∀ (d' : GLog K) ids', Dict.keys d' = keys → Labelled ids' d' → ∀ s₁ s₂ o H, precondition E.lib s₀ (.dict d') hessian (some c) = .ok (s₂, o) →
      hessOf E.lib s₀ (Dict.keys d') hessian (some c) = .ok (s₁, H) →
      (∀ i, i < ids'.length → ∃ x : PyStr → List Nat → K, ∀ m ∈ Dict.keys d', S d' i m (x m)) ∧
      ∀ i m x, m ∈ Dict.keys d' → S d' i m x → ∀ g, grad d' m = some g → ∀ f, H.form m g.shape.tail (row g i) f = dot g.shape.tail x f)
    (hS' : ∀ e e' : GLog K, SameGrads e e' → ∀ i m x, S e i m x ↔ S e' i m x)
    (hrow : ∀ (e e' : GLog K) j j' m x, RowOf e j e' j' m → S e j m x → S e' j' m x)
    (h : computeInfluenceAll E.lib sqrt o srcIds (.dict src) (D.map fun b => (b.1, .dict b.2)) mode true save hessian groups (some c) = .ok (o', r)) :
    ∃ x, r = some x ∧ (o'.heap.deref x).srcIds = srcIds ∧ (o'.heap.deref x).tgtIds = saved.flatMap (·.1) ∧
      ∀ k, k = ['t', 'o', 't', 'a', 'l'] ∨ k ∈ groups.getD [] → ∃ T, (o'.heap.deref x).influence.get? k = some T ∧
        T.shape = [srcIds.length, (saved.flatMap (·.1)).length] ∧ ∀ i, i < srcIds.length → (∃ x : PyStr → List Nat → K, ∀ m ∈ keys, S src i m (x m)) ∧
          ∀ x : PyStr → List Nat → K, (∀ m ∈ keys, S src i m (x m)) → ScoredModes E body mods keys saved mode sqrt k S T i x := by
  have hek : s₀.hasAttr nEkfac = false := finalized_hasAttr hfin (by decide) rfl
  obtain ⟨ops, hrun⟩ : ∃ ops, runOps E.lib .init ops = .ok s₀ := by
    obtain ⟨-, -, s₁, dir, dir', h2, h3⟩ := hfin
    refine ⟨stats.map (fun pc => StateOp.update pc.1 pc.2) ++ [.finalize dir], ?_⟩
    rw [updates_runOps h2]
    simp only [runOps, stepOp, h3]
    rfl
  subst hk
  have hv := serveAll_same (P := fun x => x = some c) (.run hrun hek) (fun c h => .inr (by rw [hcalls c h])) hserve
  have hDne : D ≠ [] := fun e => hne (by rw [← hids, e]; rfl)
  obtain ⟨-, x, hx, e1, e2, e3⟩ := call_tiles hh hv h hDne hsrc (fun z hz => (hD z hz).1)
  refine ⟨x, hx, e1, e2.trans hids, fun k hkk => ?_⟩
  obtain ⟨T, t1, -, t3⟩ := e3 k hkk
  have tile : ∀ l z post, D = l ++ z :: post → ∀ i j, i < srcIds.length → j < z.1.length →
        (∃ x : PyStr → List Nat → K, ∀ m ∈ Dict.keys src, S src i m (x m)) ∧
        (mode ≠ .dot → ∃ y : PyStr → List Nat → K, ∀ m ∈ Dict.keys src, S z.2 j m (y m)) ∧
        ∀ x : PyStr → List Nat → K, (∀ m ∈ Dict.keys src, S src i m (x m)) →
          (mode = .dot → T.el [i, (l.flatMap (·.1)).length + j] = against x z.2 j (members (Dict.keys src) k)) ∧
          ∀ y : PyStr → List Nat → K, (∀ m ∈ Dict.keys src, S z.2 j m (y m)) →
            (mode = .l2 → T.el [i, (l.flatMap (·.1)).length + j] = against x z.2 j (members (Dict.keys src) k) - 1 / 2 * against y z.2 j (members (Dict.keys src) k)) ∧
            (mode = .cosine → T.el [i, (l.flatMap (·.1)).length + j] =
              against x z.2 j (members (Dict.keys src) k) / sqrt (against y z.2 j (members (Dict.keys src) k))) := by
    intro l z post hl i j hi hj
    obtain ⟨s₁, v, t, f1, f2, f3⟩ := t3 l z post hl
    obtain ⟨hz1, hz2⟩ := hD z (by rw [hl]; simp)
    obtain ⟨t', g1, -, g3⟩ := modes_of_solutions hfin hsrc hz1 hz2.symm hg hn hS hS' f1 k hkk
    rw [f2] at g1; cases g1
    rw [f3 i j hi hj]
    exact g3 i j hi hj
  have hshape : T.shape = [srcIds.length, (saved.flatMap (·.1)).length] := by
    obtain ⟨x', _, _, _, hx', -, -, -, a4⟩ := all_some hh h (by simpa using hDne)
    rw [hx] at hx'; cases hx'
    rw [a4.good _ _ t1, e1, e2, hids]
  refine ⟨T, t1, hshape, fun i hi => ⟨?_, fun x hxs => ?_⟩⟩
  · obtain ⟨z, D', rfl⟩ := List.exists_cons_of_ne_nil hDne
    obtain ⟨p, hp⟩ : ∃ p, p < ((z :: D').flatMap (·.1)).length := ⟨0, List.length_pos_of_ne_nil (by rw [hids]; exact hne)⟩
    obtain ⟨l', z', r', j', q1, q2, -⟩ := split_at hp
    exact (tile l' z' r' q1 i j' hi q2).1
  · intro lu u ru hsplit
    obtain ⟨e, he1, he2⟩ := hrows lu u ru hsplit
    refine ⟨e, he1, fun j hj => ?_⟩
    obtain ⟨l', z, r', j', q1, q2, q3, q4⟩ := he2 j hj
    obtain ⟨-, b2, b3⟩ := tile l' z r' q1 i j' hi q2
    obtain ⟨c1, c2⟩ := b3 x hxs
    have hag : ∀ x, against x z.2 j' (members (Dict.keys src) k) = against x e j (members (Dict.keys src) k) := against_row fun m hm => q4 m (mem_members hm)
    rw [q3]
    simp only [hag] at c1 c2
    refine ⟨c1, fun hm => (b2 hm).imp fun y hy m hm => hrow _ _ _ _ _ _ (q4 m hm) (hy m hm), fun y hy => ?_⟩
    obtain ⟨d1, d2⟩ := c2 y fun m hm => hrow _ _ _ _ _ _ (q4 m hm).symm (hy m hm)
    exact ⟨d1, d2⟩

/-- **C143, KFAC.** As C112, in every mode and for every group: the scores of the total and of every group against the loader of a program, for source `i` and a
saved sample `j`, are made of `x`, a solution of `B x A + c x = g` for the gradient of the source, and `y`, a solution for the gradient of the saved sample in the program
(`ScoredModes`). Influence computations with the same damping may have been made before. -/
theorem C143_kfac (E : SEnv K) (hE : EighOk E.lib) (hI : InverseOk E.lib) (dec : DType → List UInt8 → K) (d : DType) (pre : List (SOp K)) (workers : Nat)
    (threshold : Int) (fs : FS) (ctx : List (SOp K)) (ids : List PyStr) (hx : Context ctx ids none) (body : List (SOp K)) (keys : List PyStr)
    (mods : PyStr → Nat) (shape : PyStr → List Nat) (dir : StateDir K) (hP : StoredProgram E dec d pre workers threshold fs ctx none body keys mods shape)
    (hmask : ∀ o ∈ body, Unmasked o) (hne : (savedBy pre ctx none body).flatMap (·.1) ≠ []) (hessian : Hess) (hkeys : keys ≠ []) :
    let s := runHistory E pre (Sess.init workers threshold fs)
    PlainStats s.opt → s.opt.forward.count .covariance = 1 → s.opt.backward.count .covariance = 1 →
    (hessian = .kfac ∨ hessian = .auto ∧ .covariance ∉ s.opt.grad.tail) →
    (∀ nm ∈ keys, inputs (mods nm) body ≠ [] ∧ notes outGrad (mods nm) ⟨none, [], [], []⟩ body ≠ []) →
    ∀ t, SAct.each (SOp.run E) (ctx ++ body.map (shift s.user.length) ++ [.finalize dir]) s = (t, none) →
    ∃ A B : PyStr → Tensor K, (∀ nm ∈ keys, InputMoment E body (mods nm) (A nm) ∧ OutGradMoment E body (mods nm) (B nm)) ∧
      ∀ listing : List PyStr, listing.Perm (Dict.keys t.fs) → ∀ b, 0 < b → ∀ f : Front, f.fs = t.fs → f.dataset = none → f.loader = none →
      ∃ l bs, (f.buildLoader listing b false).2 = .ok l ∧ l.batches = .ok bs ∧
        ∀ (o o' : IFObj K) hist calls srcIds src mode save groups c sqrt r, (∀ x ∈ calls, x.damping = some c) → serveAll E.lib sqrt t.st calls = .ok o.st →
          History E.lib sqrt o hist → Labelled srcIds src → Dict.keys src = keys → (groups.getD []).Nodup → ['t', 'o', 't', 'a', 'l'] ∉ groups.getD [] → 0 < c →
          computeInfluenceAll E.lib sqrt o srcIds (.dict src) (bs.map (LogBatch.arg ⟨E.encode, dec⟩)) mode true save hessian groups (some c) = .ok (o', r) →
          ∃ x, r = some x ∧ (o'.heap.deref x).srcIds = srcIds ∧ (o'.heap.deref x).tgtIds = (savedBy pre ctx none body).flatMap (·.1) ∧
            ∀ k, k = ['t', 'o', 't', 'a', 'l'] ∨ k ∈ groups.getD [] → ∃ T, (o'.heap.deref x).influence.get? k = some T ∧
              T.shape = [srcIds.length, ((savedBy pre ctx none body).flatMap (·.1)).length] ∧ ∀ i, i < srcIds.length →
                (∃ x : PyStr → List Nat → K, ∀ m ∈ keys, KfacSystem (entries (A m)) (entries (B m)) c src i m (x m)) ∧
                ∀ x : PyStr → List Nat → K, (∀ m ∈ keys, KfacSystem (entries (A m)) (entries (B m)) c src i m (x m)) →
                  ScoredModes E body mods keys (savedBy pre ctx none body) mode sqrt k (fun e j m y => KfacSystem (entries (A m)) (entries (B m)) c e j m y) T i x := by
  intro s hp hf hb hh hmods t ht
  obtain ⟨A, B, h1, h2⟩ := session_kfac E hE hI pre hP.configures workers threshold fs ctx ids hx body dir keys mods
    (fun o ho => ⟨hmask o ho, hP.logs o ho⟩) hessian hP.stats hp hf hb hh (fun nm h => ⟨hP.watches nm h, hmods nm h⟩) t ht
  obtain ⟨nm0, hm0⟩ := List.exists_mem_of_ne_nil keys hkeys
  obtain ⟨stats, hfin, -⟩ := session_finalized E pre hP.configures workers threshold fs (mods nm0) nm0 ctx ids hx body
    (fun o h => ⟨hP.logs o h nm0 hm0, hmask o h⟩) dir (hP.watches nm0 hm0) hP.stats hp t ht
  refine ⟨A, B, h1, fun listing hlist b hb f hf hf1 hf2 => ?_⟩
  obtain ⟨l, bs, D, h3, h4, h5, h6, h7, h8⟩ := program_loaded E dec d pre workers threshold fs ctx ids none hx body keys mods shape dir hP t ht listing hlist b hb f hf hf1 hf2
  refine ⟨l, bs, h3, h4, fun o o' hist calls srcIds src mode save groups c sqrt r hcalls hserve hh hsrc hk hg hn hc h => ?_⟩
  rw [h5] at h
  exact program_modes (S := fun e j m y => KfacSystem (entries (A m)) (entries (B m)) c e j m y) hfin hne (fun z hz => ⟨(h6 z hz).1, (h6 z hz).2.1⟩) h7 h8 hh hcalls hserve hsrc hk hg hn
    (fun d' ids' hk' hd' s₁ s₂ o H => h2 d' hk' ids' hd' c hc s₁ s₂ o H) (fun _ _ hs i m x => hs.kfacSystem _ _ c i m x) (fun _ _ _ _ _ _ hr hs => hr.kfacSystem hs) h

/-- **C143, empirical Fisher matrix.** The same with `C x + c x = g`. -/
theorem C143_raw (E : SEnv K) (hE : EighOk E.lib) (hI : InverseOk E.lib) (dec : DType → List UInt8 → K) (d : DType) (pre : List (SOp K)) (workers : Nat)
    (threshold : Int) (fs : FS) (ctx : List (SOp K)) (ids : List PyStr) (hx : Context ctx ids none) (body : List (SOp K)) (keys : List PyStr)
    (mods : PyStr → Nat) (shape : PyStr → List Nat) (dir : StateDir K) (hP : StoredProgram E dec d pre workers threshold fs ctx none body keys mods shape)
    (hmask : ∀ o ∈ body, Unmasked o) (hne : (savedBy pre ctx none body).flatMap (·.1) ≠ []) (hessian : Hess) (hkeys : keys ≠ []) :
    let s := runHistory E pre (Sess.init workers threshold fs)
    PlainStats s.opt → s.opt.grad.tail.count .covariance = 1 → (hessian = .raw ∨ hessian = .auto) →
    ∀ t, SAct.each (SOp.run E) (ctx ++ body.map (shift s.user.length) ++ [.finalize dir]) s = (t, none) →
    (∀ nm ∈ keys, notes batchGrads (mods nm) ⟨none, [], [], []⟩ body ≠ []) →
    ∃ C : PyStr → Tensor K, (∀ nm ∈ keys, BatchGradMoment E body (mods nm) (C nm)) ∧
      ∀ listing : List PyStr, listing.Perm (Dict.keys t.fs) → ∀ b, 0 < b → ∀ f : Front, f.fs = t.fs → f.dataset = none → f.loader = none →
      ∃ l bs, (f.buildLoader listing b false).2 = .ok l ∧ l.batches = .ok bs ∧
        ∀ (o o' : IFObj K) hist calls srcIds src mode save groups c sqrt r, (∀ x ∈ calls, x.damping = some c) → serveAll E.lib sqrt t.st calls = .ok o.st →
          History E.lib sqrt o hist → Labelled srcIds src → Dict.keys src = keys → (groups.getD []).Nodup → ['t', 'o', 't', 'a', 'l'] ∉ groups.getD [] → 0 < c →
          computeInfluenceAll E.lib sqrt o srcIds (.dict src) (bs.map (LogBatch.arg ⟨E.encode, dec⟩)) mode true save hessian groups (some c) = .ok (o', r) →
          ∃ x, r = some x ∧ (o'.heap.deref x).srcIds = srcIds ∧ (o'.heap.deref x).tgtIds = (savedBy pre ctx none body).flatMap (·.1) ∧
            ∀ k, k = ['t', 'o', 't', 'a', 'l'] ∨ k ∈ groups.getD [] → ∃ T, (o'.heap.deref x).influence.get? k = some T ∧
              T.shape = [srcIds.length, ((savedBy pre ctx none body).flatMap (·.1)).length] ∧ ∀ i, i < srcIds.length →
                (∃ x : PyStr → List Nat → K, ∀ m ∈ keys, RawSystem (entries (C m)) c src i m (x m)) ∧
                ∀ x : PyStr → List Nat → K, (∀ m ∈ keys, RawSystem (entries (C m)) c src i m (x m)) →
                  ScoredModes E body mods keys (savedBy pre ctx none body) mode sqrt k (fun e j m y => RawSystem (entries (C m)) c e j m y) T i x := by
  intro s hp hg hh t ht hmods
  obtain ⟨C, h1, h2⟩ := session_raw E hE hI pre hP.configures workers threshold fs ctx ids hx body dir keys mods
    (fun o ho => ⟨hmask o ho, hP.logs o ho⟩) hessian hP.stats hp hP.gradients hg hh (fun nm h => ⟨hP.watches nm h, hmods nm h⟩) t ht
  obtain ⟨nm0, hm0⟩ := List.exists_mem_of_ne_nil keys hkeys
  obtain ⟨stats, hfin, -⟩ := session_finalized E pre hP.configures workers threshold fs (mods nm0) nm0 ctx ids hx body
    (fun o h => ⟨hP.logs o h nm0 hm0, hmask o h⟩) dir (hP.watches nm0 hm0) hP.stats hp t ht
  refine ⟨C, h1, fun listing hlist b hb f hf hf1 hf2 => ?_⟩
  obtain ⟨l, bs, D, h3, h4, h5, h6, h7, h8⟩ := program_loaded E dec d pre workers threshold fs ctx ids none hx body keys mods shape dir hP t ht listing hlist b hb f hf hf1 hf2
  refine ⟨l, bs, h3, h4, fun o o' hist calls srcIds src mode save groups c sqrt r hcalls hserve hh hsrc hk hg hn hc h => ?_⟩
  rw [h5] at h
  exact program_modes (S := fun e j m y => RawSystem (entries (C m)) c e j m y) hfin hne (fun z hz => ⟨(h6 z hz).1, (h6 z hz).2.1⟩) h7 h8 hh hcalls hserve hsrc hk hg hn
    (fun d' ids' hk' hd' s₁ s₂ o H => h2 d' hk' ids' hd' c hc s₁ s₂ o H) (fun _ _ hs i m x => hs.rawSystem _ c i m x) (fun _ _ _ _ _ _ hr hs => hr.rawSystem hs) h

/-- **C143, KFAC**, no call raises: for every program that fits (C124), every source log of the shapes of the modules, in mode dot, or on the CPU in the modes l2 and
cosine, and groups that all have a module, the call returns these scores. -/
theorem C143_returns_kfac (E : SEnv K) (hE : EighOk E.lib) (hI : InverseOk E.lib) (hL : LibTotal E.lib) (dec : DType → List UInt8 → K) (d : DType) (pre : List (SOp K))
    (n : Nat) (th : Int) (fs : FS) (ctx : List (SOp K)) (ids : List PyStr) (hx : Context ctx ids none) (keys : List PyStr) (mods : PyStr → Nat) (lay : Layout)
    (body : List (SOp K)) (hbody : ∀ o ∈ body, Unmasked o) (hP : SavedProgram E dec d pre n fs ctx body keys mods) (dir : StateDir K) (hessian : Hess) :
    let s := runHistory E pre (Sess.init n th fs)
    Configured s keys mods lay → s.opt.grad.head? = some .log → s.opt.forward.count .covariance = 1 → s.opt.backward.count .covariance = 1 →
    (hessian = .kfac ∨ hessian = .auto ∧ .covariance ∉ s.opt.grad.tail) →
    ProgramFits E s.opt keys mods lay [] (Saving.after (pre ++ ctx)) (fun _ => ⟨none, [], [], []⟩) body →
    (∀ nm ∈ keys, inputs (mods nm) body ≠ [] ∧ notes outGrad (mods nm) ⟨none, [], [], []⟩ body ≠ []) →
    ∃ (t : Sess K) (A B : PyStr → Tensor K), SAct.each (SOp.run E) (ctx ++ body.map (shift s.user.length) ++ [.finalize dir]) s = (t, none) ∧
      (∀ nm ∈ keys, InputMoment E body (mods nm) (A nm) ∧ OutGradMoment E body (mods nm) (B nm)) ∧
      ∀ listing : List PyStr, listing.Perm (Dict.keys t.fs) → ∀ b, 0 < b → ∀ f : Front, f.fs = t.fs → f.dataset = none → f.loader = none →
      ∃ l bs, (f.buildLoader listing b false).2 = .ok l ∧ l.batches = .ok bs ∧
        ∀ (o : IFObj K) hist srcIds src dev mode save groups c sqrt, o.st = t.st → History E.lib sqrt o hist → (save = false ∨ o.saved = none) →
          GradLog srcIds src dev lay.rows lay.cols → Dict.keys src = keys → (groups.getD []).Nodup → ['t', 'o', 't', 'a', 'l'] ∉ groups.getD [] → GroupsHit groups keys →
          (mode = .dot ∨ (mode = .l2 ∨ mode = .cosine) ∧ dev = .cpu) → 0 < c →
          ∃ o' x, computeInfluenceAll E.lib sqrt o srcIds (.dict src) (bs.map (LogBatch.arg ⟨E.encode, dec⟩)) mode true save hessian groups (some c) = .ok (o', some x) ∧
            (o'.heap.deref x).srcIds = srcIds ∧ (o'.heap.deref x).tgtIds = (savedBy pre ctx none body).flatMap (·.1) ∧
            ∀ k, k = ['t', 'o', 't', 'a', 'l'] ∨ k ∈ groups.getD [] → ∃ T, (o'.heap.deref x).influence.get? k = some T ∧
              T.shape = [srcIds.length, ((savedBy pre ctx none body).flatMap (·.1)).length] ∧ ∀ i, i < srcIds.length →
                (∃ x : PyStr → List Nat → K, ∀ m ∈ keys, KfacSystem (entries (A m)) (entries (B m)) c src i m (x m)) ∧
                ∀ x : PyStr → List Nat → K, (∀ m ∈ keys, KfacSystem (entries (A m)) (entries (B m)) c src i m (x m)) →
                  ScoredModes E body mods keys (savedBy pre ctx none body) mode sqrt k (fun e j m y => KfacSystem (entries (A m)) (entries (B m)) c e j m y) T i x := by
  intro s hc hgr hf hb hh hp hne
  obtain ⟨v, t, g1, g2, hst⟩ := session_returns E hP.configures n th fs hx dir hc hp (Q := fun _ => True) trivial fun o _ => masks_true o
  have ht : SAct.each (SOp.run E) (ctx ++ body.map (shift s.user.length) ++ [.finalize dir]) s = (t, none) := by
    rw [SAct.each_append, SAct.seq_eq g1]
    show SAct.seq ((SOp.finalize dir).run E) (SAct.each (SOp.run E) []) v = _
    rw [SAct.seq_eq g2]
    rfl
  have hS := storedProgram hP hc hgr hp
  obtain ⟨A, B, h1, h2⟩ := C143_kfac E hE hI dec d pre n th fs ctx ids hx body keys mods _ dir hS hbody hP.some hessian hc.nonempty hc.plain hf hb hh hne t ht
  refine ⟨t, A, B, ht, h1, fun listing hlist b hbp f hf1 hf2 hf3 => ?_⟩
  obtain ⟨l, bs, h3, h4, h5⟩ := h2 listing hlist b hbp f hf1 hf2 hf3
  obtain ⟨l', bs', k3, k4, k5, -⟩ := program_scores E dec d pre n th fs ctx ids none hx body keys mods _ dir hS hP.some t ht listing hlist b hbp f hf1 hf2 hf3
  obtain rfl : l = l' := Except.ok.inj (h3.symm.trans k3)
  obtain rfl : bs = bs' := Except.ok.inj (h4.symm.trans k4)
  refine ⟨l, bs, h3, h4, fun o hist srcIds src dev mode save groups c sqrt ho hH hsv hsrc hk hgn hgt hgh hmode hcp => ?_⟩
  have hlogs : ∀ o ∈ body, Unmasked o ∧ ∀ nm ∈ keys, Logs nm o := fun o h => ⟨hbody o h, fun nm _ => programFits_logs body _ _ _ hp o h nm⟩
  obtain ⟨nm0, hm0⟩ := List.exists_mem_of_ne_nil keys hc.nonempty
  obtain ⟨calls, hfin, hg, -⟩ := session_finalized E pre hP.configures n th fs (mods nm0) nm0 ctx ids hx body
    (fun o h => ⟨(hlogs o h).2 nm0 hm0, (hlogs o h).1⟩) dir (hc.watches nm0 hm0) hc.stats hc.plain t ht
  have hu : UsesKfac t.st keys hessian := usesKfac_of_calls hfin (hh.imp id fun h => ⟨h.1, fun m _ => hg h.2 m⟩)
  have hcov : ∀ m ∈ keys, (tensorAt t.st.attrs nCov [m, LogType.name .forward]).isSome ∧ (tensorAt t.st.attrs nCov [m, LogType.name .backward]).isSome := by
    intro nm hm
    have hbd : ∀ o ∈ body, Logs nm o ∧ Unmasked o := fun o h => ⟨(hlogs o h).2 nm hm, (hlogs o h).1⟩
    obtain ⟨_, _, -, c1⟩ := C105_forward E pre hP.configures n th fs (mods nm) nm ctx ids hx body hbd dir (hc.watches nm hm) hc.stats t ht (hne nm hm).1
    obtain ⟨_, _, -, c2⟩ := C105_backward E pre hP.configures n th fs (mods nm) nm ctx ids hx body hbd dir (hc.watches nm hm) hc.stats (count_one_ne_nil hb) t ht
      (fun h => (hne nm hm).2 (List.map_eq_nil_iff.1 h))
    obtain ⟨A, a1, -⟩ := c1 hf
    obtain ⟨B, b1, -⟩ := c2 hb
    exact ⟨by rw [a1]; rfl, by rw [b1]; rfl⟩
  have hR := session_ready hE hI hL hst g2 hfin hcp (.inl ⟨hu, hcov⟩)
  subst hk
  rw [← ho] at hR
  obtain ⟨o', r, h6⟩ := C115_all_returns (sqrt := sqrt) hR hsrc (loader := bs.map (LogBatch.arg ⟨E.encode, dec⟩)) (fun z hz => by
    obtain ⟨e, e1, e2⟩ := k5 z hz
    exact ⟨e, .cpu, e1, GradBatch.log e2 hc.nonempty, e2.same⟩) true save hsv hgh hmode
  obtain ⟨x, rfl, h7⟩ := h5 o o' hist [] srcIds src mode save groups c sqrt r nofun (by rw [ho]; rfl) hH (GradLog.labelled hsrc) rfl hgn hgt hcp h6
  exact ⟨o', x, h6, h7⟩

/-- **C143, empirical Fisher matrix**, no call raises. -/
theorem C143_returns_raw (E : SEnv K) (hE : EighOk E.lib) (hI : InverseOk E.lib) (hL : LibTotal E.lib) (dec : DType → List UInt8 → K) (d : DType) (pre : List (SOp K))
    (n : Nat) (th : Int) (fs : FS) (ctx : List (SOp K)) (ids : List PyStr) (hx : Context ctx ids none) (keys : List PyStr) (mods : PyStr → Nat) (lay : Layout)
    (body : List (SOp K)) (hbody : ∀ o ∈ body, Unmasked o) (hP : SavedProgram E dec d pre n fs ctx body keys mods) (dir : StateDir K) (hessian : Hess) :
    let s := runHistory E pre (Sess.init n th fs)
    Configured s keys mods lay → s.opt.grad.tail.count .covariance = 1 → (hessian = .raw ∨ hessian = .auto) →
    ProgramFits E s.opt keys mods lay [] (Saving.after (pre ++ ctx)) (fun _ => ⟨none, [], [], []⟩) body →
    (∀ nm ∈ keys, notes batchGrads (mods nm) ⟨none, [], [], []⟩ body ≠ []) →
    ∃ (t : Sess K) (C : PyStr → Tensor K), SAct.each (SOp.run E) (ctx ++ body.map (shift s.user.length) ++ [.finalize dir]) s = (t, none) ∧
      (∀ nm ∈ keys, BatchGradMoment E body (mods nm) (C nm)) ∧
      ∀ listing : List PyStr, listing.Perm (Dict.keys t.fs) → ∀ b, 0 < b → ∀ f : Front, f.fs = t.fs → f.dataset = none → f.loader = none →
      ∃ l bs, (f.buildLoader listing b false).2 = .ok l ∧ l.batches = .ok bs ∧
        ∀ (o : IFObj K) hist srcIds src dev mode save groups c sqrt, o.st = t.st → History E.lib sqrt o hist → (save = false ∨ o.saved = none) →
          GradLog srcIds src dev lay.rows lay.cols → Dict.keys src = keys → (groups.getD []).Nodup → ['t', 'o', 't', 'a', 'l'] ∉ groups.getD [] → GroupsHit groups keys →
          (mode = .dot ∨ (mode = .l2 ∨ mode = .cosine) ∧ dev = .cpu) → 0 < c →
          ∃ o' x, computeInfluenceAll E.lib sqrt o srcIds (.dict src) (bs.map (LogBatch.arg ⟨E.encode, dec⟩)) mode true save hessian groups (some c) = .ok (o', some x) ∧
            (o'.heap.deref x).srcIds = srcIds ∧ (o'.heap.deref x).tgtIds = (savedBy pre ctx none body).flatMap (·.1) ∧
            ∀ k, k = ['t', 'o', 't', 'a', 'l'] ∨ k ∈ groups.getD [] → ∃ T, (o'.heap.deref x).influence.get? k = some T ∧
              T.shape = [srcIds.length, ((savedBy pre ctx none body).flatMap (·.1)).length] ∧ ∀ i, i < srcIds.length →
                (∃ x : PyStr → List Nat → K, ∀ m ∈ keys, RawSystem (entries (C m)) c src i m (x m)) ∧
                ∀ x : PyStr → List Nat → K, (∀ m ∈ keys, RawSystem (entries (C m)) c src i m (x m)) →
                  ScoredModes E body mods keys (savedBy pre ctx none body) mode sqrt k (fun e j m y => RawSystem (entries (C m)) c e j m y) T i x := by
  intro s hc hg hh hp hne
  have hgr : s.opt.grad.head? = some .log := hc.grad.resolve_left fun h => by rw [h] at hg; cases hg
  obtain ⟨v, t, g1, g2, hst⟩ := session_returns E hP.configures n th fs hx dir hc hp (Q := fun _ => True) trivial fun o _ => masks_true o
  have ht : SAct.each (SOp.run E) (ctx ++ body.map (shift s.user.length) ++ [.finalize dir]) s = (t, none) := by
    rw [SAct.each_append, SAct.seq_eq g1]
    show SAct.seq ((SOp.finalize dir).run E) (SAct.each (SOp.run E) []) v = _
    rw [SAct.seq_eq g2]
    rfl
  have hS := storedProgram hP hc hgr hp
  obtain ⟨C, h1, h2⟩ := C143_raw E hE hI dec d pre n th fs ctx ids hx body keys mods _ dir hS hbody hP.some hessian hc.nonempty hc.plain hg hh t ht hne
  refine ⟨t, C, ht, h1, fun listing hlist b hbp f hf1 hf2 hf3 => ?_⟩
  obtain ⟨l, bs, h3, h4, h5⟩ := h2 listing hlist b hbp f hf1 hf2 hf3
  obtain ⟨l', bs', k3, k4, k5, -⟩ := program_scores E dec d pre n th fs ctx ids none hx body keys mods _ dir hS hP.some t ht listing hlist b hbp f hf1 hf2 hf3
  obtain rfl : l = l' := Except.ok.inj (h3.symm.trans k3)
  obtain rfl : bs = bs' := Except.ok.inj (h4.symm.trans k4)
  refine ⟨l, bs, h3, h4, fun o hist srcIds src dev mode save groups c sqrt ho hH hsv hsrc hk hgn hgt hgh hmode hcp => ?_⟩
  have hlogs : ∀ o ∈ body, Unmasked o ∧ ∀ nm ∈ keys, Logs nm o := fun o h => ⟨hbody o h, fun nm _ => programFits_logs body _ _ _ hp o h nm⟩
  have hmods : ∀ nm ∈ keys, Watches s (mods nm) nm ∧ notes batchGrads (mods nm) ⟨none, [], [], []⟩ body ≠ [] := fun nm h => ⟨hc.watches nm h, hne nm h⟩
  obtain ⟨⟨calls, hfin⟩, hu⟩ := session_usesRaw E pre hP.configures n th fs ctx ids hx body dir keys mods hlogs hessian hc.stats hc.plain hgr hg hh hmods t ht hc.nonempty
  have hcov : ∀ m ∈ keys, (tensorAt t.st.attrs nCov [m, LogType.name .grad]).isSome := by
    intro nm hm
    obtain ⟨_, _, -, c1⟩ := C105_grad E pre hP.configures n th fs (mods nm) nm ctx ids none hx body (fun o h => (hlogs o h).2 nm hm) dir (hc.watches nm hm) hc.stats hgr t ht
      (fun h => hne nm hm (List.map_eq_nil_iff.1 h))
    obtain ⟨C, a1, -⟩ := c1 hg
    rw [a1]; rfl
  have hR := session_ready hE hI hL hst g2 hfin hcp (.inr ⟨hu, hcov⟩)
  subst hk
  rw [← ho] at hR
  obtain ⟨o', r, h6⟩ := C115_all_returns (sqrt := sqrt) hR hsrc (loader := bs.map (LogBatch.arg ⟨E.encode, dec⟩)) (fun z hz => by
    obtain ⟨e, e1, e2⟩ := k5 z hz
    exact ⟨e, .cpu, e1, GradBatch.log e2 hc.nonempty, e2.same⟩) true save hsv hgh hmode
  obtain ⟨x, rfl, h7⟩ := h5 o o' hist [] srcIds src mode save groups c sqrt r nofun (by rw [ho]; rfl) hH (GradLog.labelled hsrc) rfl hgn hgt hcp h6
  exact ⟨o', x, h6, h7⟩

end Logix
