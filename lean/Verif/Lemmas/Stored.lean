/-
Batches that are loaded, in terms of the batches that were saved.
-/
import Verif.Lemmas.Codec
import Verif.Props.Frontend
import Verif.Props.Collate
import Verif.Props.InfluenceAll

set_option linter.unusedSectionVars false

namespace Logix
open Spec
variable {K : Type}

/-- The items of a dataset, as samples. -/
theorem Spec.Stores.toHolds {ds : Dataset} {order : List Path} {samples : List (PyStr × View)} (h : Stores ds order samples) :
    ∃ es : List (PyStr × Nested Arr), Holds ds order es ∧ es.length = samples.length ∧
      ∀ (i : Nat) (h₁ : i < es.length) (h₂ : i < samples.length), es[i].1 = samples[i].1 ∧ ∀ p ∈ order, es[i].2.lookup p = samples[i].2 p := by
  let get : Nat → PyStr × Nested Arr := fun i => match ds.getItem i with
    | .ok x => x
    | .error _ => ([], .node [])
  have hget : ∀ (i : Nat) (h₂ : i < samples.length), ds.getItem i = .ok (get i) ∧ (get i).1 = samples[i].1 ∧
      ∀ p, (get i).2.lookup p = if p ∈ order then samples[i].2 p else none := by
    intro i hi
    obtain ⟨nd, h1, h2⟩ := h.nested i hi
    have : get i = (samples[i].1, nd) := by simp only [get, h1]
    rw [this]
    exact ⟨h1, rfl, h2⟩
  have harr : ∀ (i : Nat) (h₂ : i < samples.length), arrays order (get i).2 = order.filterMap samples[i].2 := by
    intro i hi
    unfold arrays
    refine List.filterMap_congr fun p hp => ?_
    rw [(hget i hi).2.2 p, if_pos hp]
  refine ⟨(List.range samples.length).map get, ⟨by simpa using h.len, ?_, ?_, h.keys, ?_⟩, by simp, ?_⟩
  · intro i hi
    have hi' : i < samples.length := by simpa using hi
    obtain ⟨h1, h2, h3⟩ := hget i hi'
    refine ⟨(get i).2, by simpa using h1, fun p => ?_⟩
    simp only [List.getElem_map, List.getElem_range, h3 p]
    split <;> rfl
  · intro i hi
    have hi' : i < samples.length := by simpa using hi
    obtain ⟨a, h1, h2, h3, h4⟩ := h.flat i hi'
    simp only [List.getElem_map, List.getElem_range, harr i hi', (hget i hi').2.1]
    exact ⟨a, h1, h2, h3, h4⟩
  · intro i hi
    exact h.outside i (by simpa using hi)
  · intro i h₁ h₂
    simp only [List.getElem_map, List.getElem_range]
    refine ⟨(hget i h₂).2.1, fun p hp => ?_⟩
    rw [(hget i h₂).2.2 p, if_pos hp]

/-- The sample with number `g` in what is stored: row `j` of the tensors of a saved batch. -/
def SampleOf (C : Codec K) (d : DType) (order : List Path) (shape : PyStr → PyStr → List Nat) (S : List (List PyStr × GLog K)) (g : Nat) (e : PyStr × Nested Arr) : Prop :=
  ∃ l b r j, S = l ++ b :: r ∧ ∃ hj : j < b.1.length, g = (l.flatMap (·.1)).length + j ∧ e.1 = b.1[j] ∧ PlanBatch C d order shape b.1 b.2 ∧
    ∀ m t, [m, t] ∈ order → ∃ x a, item b.2 m t = some x ∧ x.shape = b.1.length :: shape m t ∧ e.2.lookup [m, t] = some a ∧ (C.arr d x).row j = .ok a

theorem mem_saves {ops : List (LogOp K)} {b : List PyStr × GLog K} (h : b ∈ saves ops) : LogOp.save b.1 b.2 ∈ ops := by
  induction ops with
  | nil => cases h
  | cons o ops ih =>
    cases o with
    | save ids log =>
      rcases List.mem_cons.1 h with rfl | h
      · simp
      · exact List.mem_cons_of_mem _ (ih h)
    | finalize => exact List.mem_cons_of_mem _ (ih h)

/-- What a run stores, as samples. -/
theorem stored_samples {C : Codec K} {d : DType} {order : List Path} {shape : PyStr → PyStr → List Nat} (hp : LogPlan order shape) {ops : List (LogOp K)}
    (hb : ∀ b ∈ saves ops, PlanBatch C d order shape b.1 b.2) {ds : Dataset} (h : Stores ds order (history (ops.map (LogOp.saver C d)))) :
    ∃ es : List (PyStr × Nested Arr), Holds ds order es ∧ es.map Prod.fst = (saves ops).flatMap (·.1) ∧ Homogeneous order es ∧
      ∀ (g : Nat) (hg : g < es.length), SampleOf C d order shape (saves ops) g es[g] := by
  obtain ⟨es, h1, h2, h3⟩ := h.toHolds
  have hs : ∀ (g : Nat) (hg : g < es.length), SampleOf C d order shape (saves ops) g es[g] := by
    intro g hg
    obtain ⟨h4, h5⟩ := h3 g hg (h2 ▸ hg)
    obtain ⟨l, b, r, j, e1, hj, e2, e3⟩ := history_get C d ops (h2 ▸ hg)
    rw [e3] at h4 h5
    have hpb := hb b (by rw [e1]; simp)
    refine ⟨l, b, r, j, e1, hj, e2, h4, hpb, fun m t hmt => ?_⟩
    obtain ⟨x, hx, hxs⟩ := hpb.watched m t hmt
    obtain ⟨a, ha⟩ := (row_ok_iff (t := C.arr d x)).2 ⟨b.1.length, shape m t, hxs, hj⟩
    refine ⟨x, a, hx, hxs, ?_, ha⟩
    rw [h5 _ hmt]
    show ((Nested.node (C.arrs d b.2)).lookup [m, t]).bind (fun t => (t.row j).toOption) = some a
    rw [lookup_arrs, hx, Option.map_some, Option.bind_some, ha]
    rfl
  refine ⟨es, h1, ?_, ?_, hs⟩
  · rw [← history_ids C d ops]
    apply List.ext_getElem (by simpa using h2)
    intro i h₁ h₂
    simp only [List.getElem_map]
    exact (h3 i (by simpa using h₁) (by simpa using h₂)).1
  · intro p hpo
    obtain ⟨m, t, rfl⟩ := hp.pairs p hpo
    refine ⟨shape m t, d, fun e he => ?_⟩
    obtain ⟨g, hg, rfl⟩ := List.getElem_of_mem he
    obtain ⟨l, b, r, j, -, -, -, -, -, hall⟩ := hs g hg
    obtain ⟨x, a, -, hxs, ha, hr⟩ := hall m t hpo
    obtain ⟨r1, r2, -⟩ := row_spec hr
    refine ⟨a, ha, ?_, r1⟩
    rw [r2]
    show x.shape.tail = _
    rw [hxs]; rfl

/-- The dataset after saving and finalizing. -/
theorem stored_dataset {C : Codec K} {d : DType} {order : List Path} {shape : PyStr → PyStr → List Nat} (hp : LogPlan order shape) {fs : FS} (hfs : (Dict.keys fs).Nodup)
    (hclean : NoLogs fs) {nw : Nat} (hnw : nw ≤ 1) (thr : Int) {ops : List (LogOp K)} (hb : ∀ b ∈ saves ops, PlanBatch C d order shape b.1 b.2)
    (hids : ((saves ops).flatMap (·.1)).Nodup) {f : Front} (hf : f = runFront order ((ops.map (LogOp.saver C d) ++ [SaverOp.finalize]).map FrontOp.saver) (Front.init fs 0 nw thr))
    {listing : List PyStr} (hl : listing.Perm (Dict.keys f.fs)) :
    ∃ ds, openDataset f.fs listing = .ok ds ∧ Stores ds order (history (ops.map (LogOp.saver C d))) := by
  have hgood : ∀ op ∈ ops.map (LogOp.saver C d), GoodOp order 2 op := by
    intro op hop
    obtain ⟨o, ho, rfl⟩ := List.mem_map.1 hop
    cases o with
    | finalize => trivial
    | save ids log =>
      refine planBatch_good hp (hb (ids, log) ?_)
      clear hb hids hf hop
      induction ops with
      | nil => cases ho
      | cons q ops ih =>
        rcases List.mem_cons.1 ho with rfl | ho'
        · simp [saves]
        · cases q with
          | save ids' log' => exact List.mem_cons_of_mem _ (ih ho')
          | finalize => exact ih ho'
  obtain ⟨fs', s', h1, h2⟩ := C02_no_loss order (plan_goodOrder hp) 2 fs hfs hclean nw hnw thr _ hgood (by rw [history_ids]; exact hids)
  have hdir := directory_session order (ops.map (LogOp.saver C d) ++ [SaverOp.finalize]) fs fs' _ s' (Front.init fs 0 nw thr) rfl rfl h1
  have hrun := run_fs order ((ops.map (LogOp.saver C d) ++ [SaverOp.finalize]).map FrontOp.saver) (Front.init fs 0 nw thr)
  rw [hdir, ← hf] at hrun
  have hff : f.fs = fs' := congrArg Prod.fst hrun
  rw [hff] at hl ⊢
  exact h2 listing hl

/-- The loader of a new run after saving and finalizing. -/
theorem stored_loader {C : Codec K} {d : DType} {order : List Path} {shape : PyStr → PyStr → List Nat} (hp : LogPlan order shape) {fs : FS} (hfs : (Dict.keys fs).Nodup)
    (hclean : NoLogs fs) {nw : Nat} (hnw : nw ≤ 1) (thr : Int) {ops : List (LogOp K)} (hb : ∀ b ∈ saves ops, PlanBatch C d order shape b.1 b.2)
    (hids : ((saves ops).flatMap (·.1)).Nodup) {f : Front} (hf : f = runFront order ((ops.map (LogOp.saver C d) ++ [SaverOp.finalize]).map FrontOp.saver) (Front.init fs 0 nw thr))
    {listing : List PyStr} (hl : listing.Perm (Dict.keys f.fs)) {b : Nat} (hpos : 0 < b) (flatten : Bool) :
    ∃ ds, (f.buildLoader listing b flatten).2 = .ok ⟨⟨ds, flatten⟩, b, !flatten⟩ ∧ Stores ds order (history (ops.map (LogOp.saver C d))) := by
  obtain ⟨ds, h3, h4⟩ := stored_dataset hp hfs hclean hnw thr hb hids hf hl
  have hrun := run_fs order ((ops.map (LogOp.saver C d) ++ [SaverOp.finalize]).map FrontOp.saver) (Front.init fs 0 nw thr)
  rw [← hf] at hrun
  have := (C16_first_partial order ((ops.map (LogOp.saver C d) ++ [SaverOp.finalize]).map FrontOp.saver) (by
    intro o ho
    obtain ⟨op, _, rfl⟩ := List.mem_map.1 ho
    exact id) fs 0 nw thr listing flatten b hpos).2
  rw [← hrun] at this
  dsimp only at this
  rw [h3, ← hf] at this
  exact ⟨ds, this, h4⟩

/-- In a list of batches that are full except for the last, batch `k` begins at `k * b`. -/
theorem batch_start {α : Type} {bs : List (List PyStr × α)} {b n : Nat} (hsize : ∀ j (hj : j < bs.length), bs[j].1.length = min b (n - j * b) ∧ bs[j].1 ≠ []) :
    ∀ {l : List (List PyStr × α)} {x : List PyStr × α} {r : List (List PyStr × α)}, bs = l ++ x :: r → (l.flatMap (·.1)).length = l.length * b := by
  intro l
  induction l using List.reverseRecOn with
  | nil => intro x r _; simp
  | append_singleton l y ih =>
    intro x r h
    have h' : bs = l ++ y :: (x :: r) := by rw [h]; simp
    have e1 := hsize l.length (by rw [h']; simp)
    have e2 := hsize (l.length + 1) (by rw [h']; simp)
    have g1 : bs[l.length]'(by rw [h']; simp) = y := by simp only [h']; simp
    have g2 : bs[l.length + 1]'(by rw [h']; simp) = x := by simp only [h']; simp
    rw [g1] at e1
    rw [g2] at e2
    rw [List.flatMap_append, List.length_append, ih h']
    have hx : x.1.length ≠ 0 := fun h0 => e2.2 (List.length_eq_zero_iff.1 h0)
    rw [e2.1, Nat.add_mul, Nat.one_mul] at hx
    simp only [List.flatMap_cons, List.flatMap_nil, List.append_nil, List.length_append, List.length_singleton, Nat.add_mul, Nat.one_mul, e1.1]
    omega

/-- Splitting a list at an element. -/
theorem get_split {α : Type} {l r : List α} {x : α} {bs : List α} (h : bs = l ++ x :: r) : ∃ hl : l.length < bs.length, bs[l.length] = x := by
  subst h
  exact ⟨by simp, by simp⟩

/-- The loaded batches as the analysis sees them. -/
def decoded (C : Codec K) (bs : List (List PyStr × List (PyStr × Nested Arr))) : List (List PyStr × GLog K) := bs.map fun b => (b.1, C.log b.2)

theorem Spec.grad_item (d : GLog K) (m : PyStr) : grad d m = item d m (LogType.name .grad) := rfl

/-- Row `i` of what is loaded is row `j` of what was saved. -/
theorem loaded_row [Zero K] {C : Codec K} {d : DType} {x : Tensor K} {t a : Arr} {i j : Nat} (hex : ∀ c ∈ x.data, C.dec d (C.enc d c).1 = c)
    (h₁ : t.row i = .ok a) (h₂ : (C.arr d x).row j = .ok a) : (C.tensor t).shape.tail = x.shape.tail ∧
      ∀ idx, inRange x.shape.tail idx = true → row (C.tensor t) i idx = row x j idx := by
  obtain ⟨-, e1, -⟩ := row_spec h₁
  obtain ⟨-, e2, -⟩ := row_spec h₂
  refine ⟨e1.symm.trans e2, fun idx hidx => ?_⟩
  have e2' : a.shape = x.shape.tail := e2
  unfold row
  rw [tensor_row C h₁ (by rw [e2']; exact hidx), ← tensor_row C h₂ (by rw [e2']; exact hidx)]
  obtain ⟨n, h3, h4⟩ := row_shape h₂
  have h3' : x.shape = n :: a.shape := h3
  exact tensor_arr C d x hex (by rw [h3']; simp [inRange, h4, e2', hidx])

/-- The tensors of a loaded batch. -/
theorem loaded_items {C : Codec K} {order : List Path} {shape : PyStr → PyStr → List Nat} (hp : LogPlan order shape) {es : List (PyStr × Nested Arr)}
    {ds : Dataset} {b : Nat} {bs : List (List PyStr × List (PyStr × Nested Arr))} (hbs : loadBatches ds b = .ok bs) (hy : Yields order es b bs)
    {x : List PyStr × List (PyStr × Nested Arr)} (hx : x ∈ bs) :
    (Dict.keys (C.log x.2)).Nodup ∧ (∀ m t, item (C.log x.2) m t = ((Nested.node x.2).lookup [m, t]).map C.tensor) ∧
      (∀ m t, [m, t] ∉ order → item (C.log x.2) m t = none) ∧ ∀ m ∈ Dict.keys (C.log x.2), ∃ t, [m, t] ∈ order := by
  obtain ⟨hwf, hsol⟩ := batch_structure hbs x hx
  obtain ⟨k, hk, rfl⟩ := List.getElem_of_mem hx
  have honly := hy.only k hk
  have hlen : ∀ p a, (Nested.node bs[k].2).lookup p = some a → p ∈ order := by
    intro p a ha
    by_contra hno
    rw [honly p hno] at ha
    cases ha
  have hitem := item_log C hwf hsol (fun p a ha => by
    obtain ⟨m, t, rfl⟩ := hp.pairs p (hlen p a ha)
    rfl)
  refine ⟨?_, hitem, fun m t hmt => by rw [hitem, honly _ hmt]; rfl, ?_⟩
  · rw [keys_log]; exact (WF_node_iff.1 hwf).1
  · intro m hm
    rw [keys_log] at hm
    obtain ⟨v, hv⟩ : ∃ v, Dict.get? bs[k].2 m = some v := by
      cases hv : Dict.get? bs[k].2 m with
      | some v => exact ⟨v, rfl⟩
      | none => exact absurd hm ((Dict.get?_eq_none_iff _ _).1 hv)
    have h1 := (WF_node_iff.1 hwf).2 _ (Dict.mem_of_get? _ hv)
    have h3 := solidList_iff.1 hsol _ (Dict.mem_of_get? _ hv)
    obtain ⟨q, a, hq⟩ := Nested.Solid.hasLeaf _ h1 h3
    have hmem := hlen (m :: q) a (by rw [lookup_node_cons, hv]; exact hq)
    obtain ⟨m', t', he⟩ := hp.pairs _ hmem
    cases he
    exact ⟨_, hmem⟩

/-- What is loaded are the batches of what was saved. -/
theorem loaded_batches [Zero K] {C : Codec K} {d : DType} {order : List Path} {shape : PyStr → PyStr → List Nat} (hp : LogPlan order shape) {S : List (List PyStr × GLog K)}
    {es : List (PyStr × Nested Arr)} (hids : es.map Prod.fst = S.flatMap (·.1)) (hS : ∀ (g : Nat) (hg : g < es.length), SampleOf C d order shape S g es[g])
    {ds : Dataset} {b : Nat} {bs : List (List PyStr × List (PyStr × Nested Arr))} (hbs : loadBatches ds b = .ok bs) (hy : Yields order es b bs) :
    (∀ x ∈ decoded C bs, Labelled x.1 x.2) ∧ (∀ allIds e, Batches S allIds e → (∀ m ∈ Dict.keys e, [m, LogType.name .grad] ∈ order) → Batches (decoded C bs) allIds e) := by
  constructor
  · intro x hx
    obtain ⟨y, hyb, rfl⟩ := List.mem_map.1 hx
    obtain ⟨h1, h2, -, h4⟩ := loaded_items (C := C) hp hbs hy hyb
    refine ⟨h1, fun m hm => ?_⟩
    obtain ⟨t, ht⟩ := h4 m hm
    have hg := hp.grads m t ht
    obtain ⟨k, hk, rfl⟩ := List.getElem_of_mem hyb
    have hpos : 0 < bs[k].1.length := List.length_pos_of_ne_nil (hy.size k hk).2
    obtain ⟨_, _, hrow⟩ := hy.rows k hk 0 hpos
    obtain ⟨u, a, e1, e2, -, -⟩ := hrow _ hg
    refine ⟨C.tensor u, by rw [grad_item, h2, e1]; rfl, ?_⟩
    cases hu : u.shape with
    | nil => rw [hu] at e2; cases e2
    | cons n s =>
      rw [hu] at e2
      simp only [List.head?_cons, Option.some.injEq] at e2
      show u.shape.getD 0 0 = _
      rw [hu, ← e2]; rfl
  · intro allIds e ⟨hB1, hB2⟩ he
    refine ⟨?_, ?_⟩
    · rw [hB1, ← hids, ← hy.ids]
      simp only [decoded, List.flatMap, List.map_map]
      rfl
    · intro l x r hl j hj m hm
      obtain ⟨l', r', y, hbs', rfl, rfl, rfl⟩ : ∃ l' r' y, bs = l' ++ y :: r' ∧ l = decoded C l' ∧ x = (y.1, C.log y.2) ∧ r = decoded C r' := by
        obtain ⟨l', z, h1, h2, h3⟩ := List.map_eq_append_iff.1 hl
        obtain ⟨y, r', h4, h5, h6⟩ := List.map_eq_cons_iff.1 h3
        exact ⟨l', r', y, by rw [h1, h4], h2.symm, h5.symm, h6.symm⟩
      obtain ⟨hk, hget⟩ := get_split hbs'
      have hstart : ((decoded C l').flatMap (·.1)).length = l'.length * b := by
        have : (decoded C l').flatMap (·.1) = l'.flatMap (·.1) := by simp [decoded, List.flatMap_map]
        rw [this]
        exact batch_start hy.size hbs'
      rw [hstart]
      obtain ⟨hlt, -, hrow⟩ := hy.rows l'.length hk j (by rw [hget]; exact hj)
      have hmo := he m hm
      obtain ⟨t, a, e1, -, e3, e4⟩ := hrow _ hmo
      rw [hget] at e1
      obtain ⟨lS, bS, rS, jS, s1, hjS, s2, -, hpb, s3⟩ := hS _ hlt
      obtain ⟨x, a', f1, f2, f3, f4⟩ := s3 _ _ hmo
      rw [e3] at f3
      cases f3
      obtain ⟨g, h, p1, p2, p3, p4⟩ := hB2 lS bS rS s1 jS hjS m hm
      rw [grad_item, f1] at p1
      cases p1
      obtain ⟨q1, q2⟩ := loaded_row (hpb.exact _ _ _ hmo f1) e4 f4
      obtain ⟨-, hit, -, -⟩ := loaded_items (C := C) hp hbs hy (x := y) (by rw [hbs']; simp)
      refine ⟨C.tensor t, h, by rw [grad_item, hit, e1]; rfl, p2, q1.trans p3, fun idx hidx => ?_⟩
      rw [s2, p4 idx hidx]
      refine (q2 idx ?_).symm
      rw [p3]; exact (mem_indices _ _).1 hidx

end Logix
