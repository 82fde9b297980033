/-
Lemmas about results in the heap: allocation, merging, and what they leave alone.
-/
import Verif.Spec.InfluenceAll
import Verif.Props.Repeat

namespace Logix
variable {K : Type}

/-- The addresses of a result are in range. -/
structure RHeap.Has (h : RHeap K) (r : RRec K) : Prop where
  src : r.src < h.lists.length
  tgt : r.tgt < h.lists.length
  ne : r.src ≠ r.tgt
  dict : ∀ i, r.inf = .inr i → i < h.dicts.length

/-- Two results share nothing. -/
structure RRec.Sep (a x : RRec K) : Prop where
  ss : a.src ≠ x.src
  st : a.src ≠ x.tgt
  ts : a.tgt ≠ x.src
  tt : a.tgt ≠ x.tgt
  dict : ∀ i j, a.inf = .inr i → x.inf = .inr j → i ≠ j

theorem RRec.Sep.symm {a x : RRec K} (h : a.Sep x) : x.Sep a :=
  ⟨h.ss.symm, h.ts.symm, h.st.symm, h.tt.symm, fun i j hi hj => (h.dict j i hj hi).symm⟩

theorem RRec.Sep.ids {a x : RRec K} (h : a.Sep x) (axis axis' : Axis) : a.ids axis ≠ x.ids axis' := by
  cases axis <;> cases axis'
  · exact h.ss
  · exact h.st
  · exact h.ts
  · exact h.tt

/-- Nothing of `x` has changed. -/
structure RHeap.Keeps (h h' : RHeap K) (x : RRec K) : Prop where
  has : h'.Has x
  same : h'.deref x = h.deref x

theorem RHeap.Keeps.refl {h : RHeap K} {x : RRec K} (hx : h.Has x) : h.Keeps h x := ⟨hx, rfl⟩

theorem RHeap.Keeps.trans {h h' h'' : RHeap K} {x : RRec K} (a : h.Keeps h' x) (b : h'.Keeps h'' x) : h.Keeps h'' x :=
  ⟨b.has, b.same.trans a.same⟩

theorem alloc_ok (h : RHeap K) (r : IFResult K) : (h.alloc r).1.Has (h.alloc r).2 ∧ (h.alloc r).1.deref (h.alloc r).2 = r ∧
    ∀ x, h.Has x → h.Keeps (h.alloc r).1 x ∧ (h.alloc r).2.Sep x := by
  obtain ⟨a, b, inf⟩ := r
  cases inf with
  | one t =>
    simp only [RHeap.alloc]
    refine ⟨⟨by simp, by simp, by simp, fun i hi => by cases hi⟩, ?_, fun x hx => ⟨⟨⟨?_, ?_, hx.ne, hx.dict⟩, ?_⟩, ?_⟩⟩
    · simp [RHeap.deref, RHeap.list, RHeap.inf]
    · have := hx.src; simp; omega
    · have := hx.tgt; simp; omega
    · have h1 := hx.src; have h2 := hx.tgt
      simp [RHeap.deref, RHeap.list, RHeap.inf, List.getElem?_append_left, h1, h2]
    · have h1 := hx.src; have h2 := hx.tgt
      exact ⟨by simp; omega, by simp; omega, by simp; omega, by simp; omega, fun i j hi => by cases hi⟩
  | groups d =>
    simp only [RHeap.alloc]
    refine ⟨⟨by simp, by simp, by simp, fun i hi => by cases hi; simp⟩, ?_, fun x hx => ⟨⟨⟨?_, ?_, hx.ne, fun i hi => ?_⟩, ?_⟩, ?_⟩⟩
    · simp [RHeap.deref, RHeap.list, RHeap.inf]
    · have := hx.src; simp; omega
    · have := hx.tgt; simp; omega
    · have := hx.dict i hi; simp; omega
    · have h1 := hx.src; have h2 := hx.tgt
      have h3 := hx.dict
      cases hi : x.inf with
      | inl t => simp [RHeap.deref, RHeap.list, RHeap.inf, List.getElem?_append_left, h1, h2, hi]
      | inr i => simp [RHeap.deref, RHeap.list, RHeap.inf, List.getElem?_append_left, h1, h2, hi, h3 i hi]
    · have h1 := hx.src; have h2 := hx.tgt
      refine ⟨by simp; omega, by simp; omega, by simp; omega, by simp; omega, fun i j hi hj => ?_⟩
      cases hi
      have := hx.dict j hj
      omega

/-- The two results put next to each other. -/
def catResult [Zero K] (axis : Axis) (a b : IFResult K) : Py (IFResult K) :=
  match catInfluence axis a.influence b.influence with
  | .error e => .error e
  | .ok i => .ok (match axis with | .src => ⟨a.srcIds ++ b.srcIds, a.tgtIds, i⟩ | .tgt => ⟨a.srcIds, a.tgtIds ++ b.tgtIds, i⟩)

theorem list_set_ne {h : RHeap K} {a b : Nat} {l : List PyStr} (hn : a ≠ b) : ({ h with lists := h.lists.set a l } : RHeap K).list b = h.list b := by
  simp [RHeap.list, List.getElem?_set_ne hn]

theorem list_set_self {h : RHeap K} {a : Nat} {l : List PyStr} (hn : a < h.lists.length) : ({ h with lists := h.lists.set a l } : RHeap K).list a = l := by
  simp [RHeap.list, hn]

theorem merge_ok [Zero K] {h h' : RHeap K} {a r : RRec K} {axis : Axis} {x : Option (RRec K)} (hm : mergeResults h (some a) (some r) axis = .ok (h', x))
    (ha : h.Has a) : ∃ a', x = some a' ∧ a'.src = a.src ∧ a'.tgt = a.tgt ∧ (∀ i, a'.inf = .inr i ↔ a.inf = .inr i) ∧ h'.Has a' ∧
      catResult axis (h.deref a) (h.deref r) = .ok (h'.deref a') ∧ ∀ y, h.Has y → a.Sep y → h.Keeps h' y := by
  unfold mergeResults at hm
  simp only at hm
  generalize hl : h.lists.set (a.ids axis) (h.list (a.ids axis) ++ h.list (r.ids axis)) = ls at hm
  have hlen : ls.length = h.lists.length := by rw [← hl]; simp
  have hlt : a.ids axis < h.lists.length := by cases axis; exacts [ha.src, ha.tgt]
  have hinfa : ({ h with lists := ls } : RHeap K).inf a = h.inf a := rfl
  have hinfr : ({ h with lists := ls } : RHeap K).inf r = h.inf r := rfl
  rw [hinfa, hinfr] at hm
  have keepl : ∀ (ds : List (Dict PyStr (Tensor K))) (b : Nat), a.ids axis ≠ b → (⟨ls, ds⟩ : RHeap K).list b = h.list b := by
    intro ds b hb
    rw [← hl]; exact list_set_ne hb
  have keepa : ∀ (ds : List (Dict PyStr (Tensor K))), (⟨ls, ds⟩ : RHeap K).list (a.ids axis) = h.list (a.ids axis) ++ h.list (r.ids axis) := by
    intro ds
    rw [← hl]; exact list_set_self hlt
  have hcat : ∀ (i : Influence K) (ds : List (Dict PyStr (Tensor K))) (a' : RRec K), a'.src = a.src → a'.tgt = a.tgt → (⟨ls, ds⟩ : RHeap K).inf a' = i →
      catInfluence axis (h.inf a) (h.inf r) = .ok i → catResult axis (h.deref a) (h.deref r) = .ok ((⟨ls, ds⟩ : RHeap K).deref a') := by
    intro i ds a' h1 h2 h3 h4
    unfold catResult
    simp only [RHeap.deref]
    rw [h4, h1, h2, h3]
    cases axis with
    | src =>
      have e1 : (⟨ls, ds⟩ : RHeap K).list a.src = h.list a.src ++ h.list r.src := keepa ds
      rw [e1, keepl ds a.tgt ha.ne]
    | tgt =>
      have e1 : (⟨ls, ds⟩ : RHeap K).list a.tgt = h.list a.tgt ++ h.list r.tgt := keepa ds
      rw [e1, keepl ds a.src ha.ne.symm]
  split at hm
  · cases hm
  · next _ t hc =>
    cases hm
    refine ⟨_, rfl, rfl, rfl, fun i => ?_, ⟨by rw [hlen]; exact ha.src, by rw [hlen]; exact ha.tgt, ha.ne, fun i hi => by cases hi⟩, hcat _ _ _ rfl rfl rfl hc, ?_⟩
    · refine ⟨fun hi => (by cases hi), fun hi => ?_⟩
      unfold RHeap.inf at hc
      rw [hi] at hc
      simp only at hc
      split at hc
      · simp [catInfluence] at hc
      · unfold catInfluence at hc
        simp only at hc
        split at hc <;> cases hc
    · intro y hy hsy
      refine ⟨⟨by rw [hlen]; exact hy.src, by rw [hlen]; exact hy.tgt, hy.ne, hy.dict⟩, ?_⟩
      unfold RHeap.deref
      rw [show (RHeap.mk ls _).list y.src = _ from keepl _ _ (hsy.ids axis .src), show (RHeap.mk ls _).list y.tgt = _ from keepl _ _ (hsy.ids axis .tgt)]
      rfl
  · next d i hc hi =>
    cases hm
    refine ⟨_, rfl, rfl, rfl, fun i => Iff.rfl, ⟨by rw [hlen]; exact ha.src, by rw [hlen]; exact ha.tgt, ha.ne, fun j hj => ?_⟩, hcat _ _ _ rfl rfl ?_ hc, ?_⟩
    · simpa using ha.dict j hj
    · unfold RHeap.inf
      rw [hi]
      have := ha.dict i hi
      simp [this]
    · intro y hy hsy
      refine ⟨⟨by rw [hlen]; exact hy.src, by rw [hlen]; exact hy.tgt, hy.ne, by simpa using hy.dict⟩, ?_⟩
      unfold RHeap.deref
      rw [show (RHeap.mk ls _).list y.src = _ from keepl _ _ (hsy.ids axis .src), show (RHeap.mk ls _).list y.tgt = _ from keepl _ _ (hsy.ids axis .tgt)]
      congr 1
      unfold RHeap.inf
      cases hj : y.inf with
      | inl t => rfl
      | inr j => simp [List.getElem?_set_ne (hsy.dict i j hi hj)]
  · cases hm

/-- The results of the batches, one after the other. -/
def BatchRun [Field K] (L : Lib K) (sqrt : K → K) (ids : List PyStr) (src : LogArg K) (mode : Mode) (hessian : Hess)
    (groups : Option (List PyStr)) (damping : Option K) : LState K → List (List PyStr × LogArg K) → LState K → List (IFResult K) → Prop
  | s, [], s', vs => s' = s ∧ vs = []
  | s, b :: bs, s', vs => ∃ s₁ r vs', computeInfluence L sqrt s ids src b.1 b.2 mode false hessian groups damping = .ok (s₁, r) ∧
      BatchRun L sqrt ids src mode hessian groups damping s₁ bs s' vs' ∧ vs = r :: vs'

/-- All results put next to each other, after those there already. -/
def catAll [Zero K] (axis : Axis) : Option (IFResult K) → List (IFResult K) → Py (Option (IFResult K))
  | a, [] => .ok a
  | none, v :: vs => catAll axis (some v) vs
  | some a, v :: vs =>
    match catResult axis a v with
    | .error e => .error e
    | .ok a => catAll axis (some a) vs

/-- What the loop over the batches builds, and what it leaves alone. -/
theorem batchLoop_ok [Field K] {L : Lib K} {sqrt : K → K} {ids : List PyStr} {src : LogArg K} {mode : Mode} {hessian : Hess}
    {groups : Option (List PyStr)} {damping : Option K} {h₀ : RHeap K} : ∀ {batches : List (List PyStr × LogArg K)} {s s' : LState K} {h h' : RHeap K}
      {all all' : Option (RRec K)}, batchLoop L sqrt ids src mode hessian groups damping batches s h all = .ok (s', h', all') →
      (∀ a, all = some a → h.Has a) → (∀ x, h₀.Has x → h₀.Keeps h x ∧ ∀ a, all = some a → a.Sep x) →
      ∃ vs, BatchRun L sqrt ids src mode hessian groups damping s batches s' vs ∧ catAll .tgt (all.map h.deref) vs = .ok (all'.map h'.deref) ∧
        (∀ a, all' = some a → h'.Has a) ∧ (∀ x, h₀.Has x → h₀.Keeps h' x ∧ ∀ a, all' = some a → a.Sep x)
  | [], s, s', h, h', all, all', hb, ha, hx => by
    cases hb
    exact ⟨[], ⟨rfl, rfl⟩, by cases all <;> rfl, ha, hx⟩
  | (tgtIds, tgt) :: rest, s, s', h, h', all, all', hb, ha, hx => by
    rw [batchLoop] at hb
    split at hb
    · cases hb
    · next s₁ r hc =>
      obtain ⟨a1, a2, a3⟩ := alloc_ok h r
      generalize hal : (h.alloc r).1 = h₁ at *
      generalize hrr : (h.alloc r).2 = rr at *
      split at hb
      · cases hb
      · next h₂ all₂ hm =>
        cases all with
        | none =>
          simp only [mergeResults, Except.ok.injEq, Prod.mk.injEq] at hm
          obtain ⟨rfl, rfl⟩ := hm
          obtain ⟨vs, b1, b2, b3, b4⟩ := batchLoop_ok (h₀ := h₀) hb (fun a ha => by cases ha; exact a1) (fun x hx0 => by
            obtain ⟨k1, k2⟩ := hx x hx0
            exact ⟨k1.trans (a3 x k1.has).1, fun a ha => by cases ha; exact (a3 x k1.has).2⟩)
          refine ⟨r :: vs, ⟨_, _, _, hc, b1, rfl⟩, ?_, b3, b4⟩
          rw [← b2, Option.map_none, Option.map_some, a2]
          rfl
        | some a =>
          have hka := a3 a (ha a rfl)
          obtain ⟨a', rfl, m1, m2, m3, m4, m5, m6⟩ := merge_ok hm hka.1.has
          obtain ⟨vs, b1, b2, b3, b4⟩ := batchLoop_ok (h₀ := h₀) hb (fun x hx => by cases hx; exact m4) (fun x hx0 => by
            obtain ⟨k1, k2⟩ := hx x hx0
            have k3 := k1.trans (a3 x k1.has).1
            have hsx := k2 a rfl
            exact ⟨k3.trans (m6 x k3.has hsx), fun b hb => by
              cases hb
              exact ⟨m1 ▸ hsx.ss, m1 ▸ hsx.st, m2 ▸ hsx.ts, m2 ▸ hsx.tt, fun i j hi hj => hsx.dict i j ((m3 i).1 hi) hj⟩⟩)
          refine ⟨r :: vs, ⟨_, _, _, hc, b1, rfl⟩, ?_, b3, b4⟩
          rw [hka.1.same, a2] at m5
          rw [← b2, Option.map_some, Option.map_some, catAll, m5]

/-- What a call of `compute_influence_all` does to the results there are. -/
theorem all_ok [Field K] {L : Lib K} {sqrt : K → K} {o o' : IFObj K} {ids : List PyStr} {src : LogArg K} {loader : List (List PyStr × LogArg K)}
    {mode : Mode} {pre save : Bool} {hessian : Hess} {groups : Option (List PyStr)} {damping : Option K} {r : Option (RRec K)}
    (h : computeInfluenceAll L sqrt o ids src loader mode pre save hessian groups damping = .ok (o', r)) :
    ∃ s₁ src' h₁ vs, (if pre then precondition L o.st src hessian damping else .ok (o.st, src)) = .ok (s₁, src') ∧
      BatchRun L sqrt ids src' mode hessian groups damping s₁ loader o'.st vs ∧ catAll .tgt none vs = .ok (r.map h₁.deref) ∧
      (∀ x, r = some x → h₁.Has x) ∧ (∀ x, o.heap.Has x → o.heap.Keeps h₁ x ∧ ∀ a, r = some a → a.Sep x) ∧
      (if save then mergeResults h₁ o.saved r .src = .ok (o'.heap, o'.saved) else o'.heap = h₁ ∧ o'.saved = o.saved) := by
  unfold computeInfluenceAll at h
  split at h
  · cases h
  · next s₁ src' hp =>
    split at h
    · cases h
    · next s₂ h₁ all hb =>
      obtain ⟨vs, b1, b2, b3, b4⟩ := batchLoop_ok (h₀ := o.heap) hb (fun a ha => by cases ha) (fun x hx => ⟨.refl hx, fun a ha => by cases ha⟩)
      split at h
      · next hsv =>
        split at h
        · cases h
        · next h₂ sv hm =>
          cases h
          exact ⟨s₁, src', h₁, vs, hp, b1, b2, b3, b4, by rw [if_pos hsv]; exact hm⟩
      · next hsv =>
        cases h
        exact ⟨s₁, src', h₁, vs, hp, b1, b2, b3, b4, by rw [if_neg hsv]; exact ⟨rfl, rfl⟩⟩

/-- The cases of a call: nothing saved; the first results saved; more results saved. -/
theorem all_cases [Field K] {L : Lib K} {sqrt : K → K} {o o' : IFObj K} {ids : List PyStr} {src : LogArg K} {loader : List (List PyStr × LogArg K)}
    {mode : Mode} {pre save : Bool} {hessian : Hess} {groups : Option (List PyStr)} {damping : Option K} {r : Option (RRec K)}
    (h : computeInfluenceAll L sqrt o ids src loader mode pre save hessian groups damping = .ok (o', r))
    (hs : ∀ a, o.saved = some a → o.heap.Has a) :
    (∀ x, r = some x → o'.heap.Has x) ∧ (∀ a, o'.saved = some a → o'.heap.Has a) ∧
    (∀ x, o.heap.Has x → (∀ a, o.saved = some a → a.Sep x) → o.heap.Keeps o'.heap x ∧ (∀ a, o'.saved = some a → a.Sep x)) ∧
    ((save = false ∧ o'.saved = o.saved ∧ (∀ a, o.saved = some a → o.heap.Keeps o'.heap a ∧ ∀ x, r = some x → a.Sep x)) ∨
     (save = true ∧ o.saved = none ∧ o'.saved = r) ∨
     (∃ a x a', save = true ∧ o.saved = some a ∧ r = some x ∧ o'.saved = some a' ∧ a'.Sep x ∧ a'.src = a.src ∧ a'.tgt = a.tgt ∧
       (∀ i, a'.inf = .inr i ↔ a.inf = .inr i) ∧
       catResult .src (o.heap.deref a) (o'.heap.deref x) = .ok (o'.heap.deref a'))) := by
  obtain ⟨s₁, src', h₁, vs, -, -, -, h2, h3, h4⟩ := all_ok h
  cases save with
  | false =>
    simp only [Bool.false_eq_true, if_false] at h4
    obtain ⟨e1, e2⟩ := h4
    rw [e1, e2]
    exact ⟨h2, fun a ha => (h3 a (hs a ha)).1.has, fun x hx hsx => ⟨(h3 x hx).1, hsx⟩,
      .inl ⟨rfl, rfl, fun a ha => ⟨(h3 a (hs a ha)).1, fun x hx => ((h3 a (hs a ha)).2 x hx).symm⟩⟩⟩
  | true =>
    simp only [if_true] at h4
    cases hsv : o.saved with
    | none =>
      rw [hsv] at h4
      simp only [mergeResults, Except.ok.injEq, Prod.mk.injEq] at h4
      obtain ⟨e1, e2⟩ := h4
      rw [← e1, ← e2]
      exact ⟨h2, h2, fun x hx _ => ⟨(h3 x hx).1, (h3 x hx).2⟩, .inr (.inl ⟨rfl, rfl, rfl⟩)⟩
    | some a =>
      rw [hsv] at h4
      cases r with
      | none => cases h4
      | some x =>
        have ka := h3 a (hs a hsv)
        obtain ⟨a', e1, m1, m2, m3, m4, m5, m6⟩ := merge_ok h4 ka.1.has
        rw [e1]
        have hsp : ∀ y, a.Sep y → a'.Sep y := fun y hsx =>
          ⟨m1 ▸ hsx.ss, m1 ▸ hsx.st, m2 ▸ hsx.ts, m2 ▸ hsx.tt, fun i j hi hj => hsx.dict i j ((m3 i).1 hi) hj⟩
        have kx := m6 x (h2 x rfl) (ka.2 x rfl).symm
        refine ⟨fun y hy => by cases hy; exact kx.has, fun b hb => by cases hb; exact m4, fun y hy hsy => ?_, .inr (.inr ⟨a, x, a', rfl, rfl, rfl, rfl, hsp x (ka.2 x rfl).symm, m1, m2, m3, ?_⟩)⟩
        · have ky := h3 y hy
          exact ⟨ky.1.trans (m6 y ky.1.has (hsy a rfl)), fun b hb => by cases hb; exact hsp y (hsy a rfl)⟩
        · rw [← ka.1.same, kx.same]; exact m5

/-- What is saved stays well formed. -/
theorem later_has [Field K] {L : Lib K} {sqrt : K → K} {o o' : IFObj K} (h : Spec.Later L sqrt o o') (hs : ∀ a, o.saved = some a → o.heap.Has a) :
    ∀ a, o'.saved = some a → o'.heap.Has a := by
  induction h with
  | refl => exact hs
  | state s _ ih => exact ih
  | call _ hc ih => exact (all_cases hc ih).2.1

/-- A result that shares nothing with what is saved never changes. -/
theorem later_keeps [Field K] {L : Lib K} {sqrt : K → K} {o o' : IFObj K} (h : Spec.Later L sqrt o o') (hs : ∀ a, o.saved = some a → o.heap.Has a)
    {x : RRec K} (hx : o.heap.Has x) (hsx : ∀ a, o.saved = some a → a.Sep x) : o.heap.Keeps o'.heap x ∧ ∀ a, o'.saved = some a → a.Sep x := by
  induction h with
  | refl => exact ⟨.refl hx, hsx⟩
  | state s _ ih => exact ih
  | call hl hc ih =>
    obtain ⟨k1, k2⟩ := ih
    obtain ⟨k3, k4⟩ := (all_cases hc (later_has hl hs)).2.2.1 x k1.has k2
    exact ⟨k1.trans k3, k4⟩

theorem history_has [Field K] {L : Lib K} {sqrt : K → K} {o : IFObj K} {vs : List (IFResult K)} (h : Spec.History L sqrt o vs) :
    ∀ a, o.saved = some a → o.heap.Has a := by
  induction h with
  | new => intro a ha; cases ha
  | state s _ ih => exact ih
  | unsaved _ hc ih => exact (all_cases hc ih).2.1
  | empty _ hc ih => exact (all_cases hc ih).2.1
  | saved _ hc ih => exact (all_cases hc ih).2.1

/-! ## Values -/

theorem catScores_ok [Zero K] {axis : Axis} {a b x : Tensor K} {n m n' m' : Nat} (h : catScores axis a b = .ok x) (ha : a.shape = [n, m])
    (hb : b.shape = [n', m']) :
    x.dev = a.dev ∧ match axis with
    | .src => m = m' ∧ x.shape = [n + n', m] ∧ (∀ i j, i < n → j < m → x.el [i, j] = a.el [i, j]) ∧ ∀ i j, i < n' → j < m → x.el [n + i, j] = b.el [i, j]
    | .tgt => n = n' ∧ x.shape = [n, m + m'] ∧ (∀ i j, i < n → j < m → x.el [i, j] = a.el [i, j]) ∧ ∀ i j, i < n → j < m' → x.el [i, m + j] = b.el [i, j] := by
  unfold catScores at h
  rw [ha, hb] at h
  cases axis with
  | src =>
    simp only at h
    split at h
    · next hc =>
      cases h
      refine ⟨rfl, hc.1, rfl, fun i j hi hj => ?_, fun i j hi hj => ?_⟩
      · rw [Tensor.el_ofFn2 _ _ _ _ (by omega) hj, if_pos hi]
      · rw [Tensor.el_ofFn2 _ _ _ _ (by omega) hj, if_neg (by omega), Nat.add_sub_cancel_left]
    · cases h
  | tgt =>
    simp only at h
    split at h
    · next hc =>
      cases h
      refine ⟨rfl, hc.1, rfl, fun i j hi hj => ?_, fun i j hi hj => ?_⟩
      · rw [Tensor.el_ofFn2 _ _ _ _ hi (by omega), if_pos hj]
      · rw [Tensor.el_ofFn2 _ _ _ _ hi (by omega), if_neg (by omega), Nat.add_sub_cancel_left]
    · cases h

theorem catGroups_get [Zero K] {axis : Axis} {e : Dict PyStr (Tensor K)} : ∀ {d x : Dict PyStr (Tensor K)}, catGroups axis e d = .ok x → ∀ k,
    match Dict.get? d k with
    | none => Dict.get? x k = none
    | some t => ∃ u y, Dict.get? e k = some u ∧ catScores axis t u = .ok y ∧ Dict.get? x k = some y
  | [], x, h, k => by cases h; rfl
  | (k', t) :: rest, x, h, k => by
    rw [catGroups] at h
    split at h
    · cases h
    · next u hu =>
      split at h
      · cases h
      · next y hy =>
        split at h
        · cases h
        · next d' hd =>
          cases h
          have := catGroups_get hd k
          by_cases hk : k' = k
          · subst hk
            simp only [Dict.get?_cons_self]
            exact ⟨u, y, hu, hy, rfl⟩
          · rw [Dict.get?_cons, if_neg hk, Dict.get?_cons, if_neg hk]
            exact this

theorem catInfluence_get [Zero K] {axis : Axis} {a b c : Influence K} (h : catInfluence axis a b = .ok c) (k : PyStr) :
    match a.get? k with
    | none => c.get? k = none
    | some t => ∃ u y, b.get? k = some u ∧ catScores axis t u = .ok y ∧ c.get? k = some y := by
  unfold catInfluence at h
  split at h
  · next d e =>
    split at h
    · cases h
    · next x hx =>
      cases h
      exact catGroups_get hx k
  · cases h
  · next t u =>
    split at h
    · cases h
    · next x hx =>
      cases h
      simp only [Influence.get?]
      by_cases hk : k = ['t', 'o', 't', 'a', 'l']
      · simp only [if_pos hk]
        exact ⟨u, x, rfl, hx, rfl⟩
      · simp only [if_neg hk]
  · cases h

/-- The ids along an axis. -/
def IFResult.along (r : IFResult K) : Axis → List PyStr
  | .src => r.srcIds
  | .tgt => r.tgtIds

def Axis.other : Axis → Axis
  | .src => .tgt
  | .tgt => .src

/-- An index moved along an axis. -/
def Axis.move (axis : Axis) (off i j : Nat) : List Nat :=
  match axis with
  | .src => [off + i, j]
  | .tgt => [i, off + j]

/-- The scores have one row per source id and one column per target id. -/
def IFResult.Good (r : IFResult K) : Prop := ∀ k t, r.influence.get? k = some t → t.shape = [r.srcIds.length, r.tgtIds.length]

/-- The result is the given ones next to each other. -/
structure Stacked [Zero K] (axis : Axis) (vs : List (IFResult K)) (r : IFResult K) : Prop where
  ids : r.along axis = vs.flatMap (·.along axis)
  other : ∀ v ∈ vs.head?, r.along axis.other = v.along axis.other
  keys : ∀ v ∈ vs.head?, ∀ k, match v.influence.get? k with | none => r.influence.get? k = none | some t => ∃ x, r.influence.get? k = some x ∧ x.dev = t.dev
  el : ∀ k x, r.influence.get? k = some x → ∀ l v post, vs = l ++ v :: post → ∃ t, v.influence.get? k = some t ∧ (v.along axis.other).length = (r.along axis.other).length ∧
    ∀ i j, i < v.srcIds.length → j < v.tgtIds.length → x.el (axis.move (l.flatMap (·.along axis)).length i j) = t.el [i, j]
  good : r.Good

theorem Stacked.one [Zero K] (axis : Axis) {r : IFResult K} (h : r.Good) : Stacked axis [r] r := by
  refine ⟨by simp, fun v hv => by cases hv; rfl, fun v hv k => ?_, fun k x hx l v post he => ?_, h⟩
  · cases hv
    cases hk : r.influence.get? k with
    | none => rfl
    | some t => exact ⟨t, rfl, rfl⟩
  · cases l with
    | nil =>
      cases he
      refine ⟨x, hx, rfl, fun i j _ _ => ?_⟩
      cases axis <;> simp [Axis.move]
    | cons a l => simp at he

theorem Stacked.snoc [Zero K] {axis : Axis} {vs : List (IFResult K)} {a v c : IFResult K} (h : Stacked axis vs a) (hne : vs ≠ []) (hv : v.Good)
    (hc : catResult axis a v = .ok c) : Stacked axis (vs ++ [v]) c := by
  unfold catResult at hc
  split at hc
  · cases hc
  · next inf hi =>
    have hg := catInfluence_get hi
    have hci : c.influence = inf := by cases axis <;> cases hc <;> rfl
    have hca : c.along axis = a.along axis ++ v.along axis := by cases axis <;> cases hc <;> rfl
    have hco : c.along axis.other = a.along axis.other := by cases axis <;> cases hc <;> rfl
    have hhead : (vs ++ [v]).head? = vs.head? := by cases vs with | nil => exact absurd rfl hne | cons _ _ => rfl
    rw [← hci] at hg
    refine ⟨by rw [hca, h.ids]; simp, fun w hw => ?_, fun w hw k => ?_, fun k x hx l w post he => ?_, fun k x hx => ?_⟩
    · rw [hco]; exact h.other w (hhead ▸ hw)
    · have h1 := h.keys w (hhead ▸ hw) k
      have h2 := hg k
      cases hk : w.influence.get? k with
      | none => rw [hk] at h1; simp only at h1; rw [h1] at h2; exact h2
      | some t =>
        rw [hk] at h1
        obtain ⟨x, hx, hd⟩ := h1
        rw [hx] at h2
        obtain ⟨u, y, hu, hy, hz⟩ := h2
        exact ⟨y, hz, (catScores_ok hy (h.good k x hx) (hv k u hu)).1.trans hd⟩
    · have h2 := hg k
      cases hk : a.influence.get? k with
      | none => rw [hk] at h2; simp only at h2; rw [h2] at hx; cases hx
      | some t =>
        rw [hk] at h2
        obtain ⟨u, y, hu, hy, hz⟩ := h2
        rw [hz] at hx
        cases hx
        obtain ⟨-, hcs⟩ := catScores_ok hy (h.good k t hk) (hv k u hu)
        rcases List.eq_nil_or_concat post with rfl | ⟨post, z, rfl⟩
        · have he' := List.append_inj' he rfl
          obtain ⟨rfl, hw⟩ := he'
          cases hw
          rw [← h.ids]
          cases axis with
          | src => exact ⟨u, hu, by rw [hco]; exact hcs.1.symm, fun i j hi hj => hcs.2.2.2 i j hi (by rw [hcs.1]; exact hj)⟩
          | tgt => exact ⟨u, hu, by rw [hco]; exact hcs.1.symm, fun i j hi hj => hcs.2.2.2 i j (by rw [hcs.1]; exact hi) hj⟩
        · have he' : vs ++ [v] = (l ++ w :: post) ++ [z] := by rw [he]; simp
          obtain ⟨rfl, hw⟩ := List.append_inj' he' rfl
          obtain ⟨t', ht', ho, hel⟩ := h.el k t hk l w post rfl
          refine ⟨t', ht', by rw [ho, hco], fun i j hi hj => ?_⟩
          rw [← hel i j hi hj]
          have hlen : (a.along axis).length = (l.flatMap (·.along axis)).length + (w.along axis).length + (post.flatMap (·.along axis)).length := by
            rw [h.ids]; simp; omega
          cases axis with
          | src =>
            simp only [IFResult.along] at hlen ⊢
            simp only [Axis.other, IFResult.along] at ho
            exact hcs.2.2.1 _ _ (by omega) (by omega)
          | tgt =>
            simp only [IFResult.along] at hlen ⊢
            simp only [Axis.other, IFResult.along] at ho
            exact hcs.2.2.1 _ _ (by omega) (by omega)
    · have h2 := hg k
      cases hk : a.influence.get? k with
      | none => rw [hk] at h2; simp only at h2; rw [h2] at hx; cases hx
      | some t =>
        rw [hk] at h2
        obtain ⟨u, y, hu, hy, hz⟩ := h2
        rw [hz] at hx
        cases hx
        obtain ⟨-, hcs⟩ := catScores_ok hy (h.good k t hk) (hv k u hu)
        cases axis with
        | src => cases hc; simpa using hcs.2.1
        | tgt => cases hc; simpa using hcs.2.1

theorem catAll_stacked [Zero K] {axis : Axis} : ∀ {vs done : List (IFResult K)} {a : IFResult K} {r : Option (IFResult K)}, catAll axis (some a) vs = .ok r →
    Stacked axis done a → done ≠ [] → (∀ v ∈ vs, v.Good) → ∃ x, r = some x ∧ Stacked axis (done ++ vs) x
  | [], done, a, r, h, hs, _, _ => by cases h; exact ⟨a, rfl, by simpa using hs⟩
  | v :: vs, done, a, r, h, hs, hne, hv => by
    rw [catAll] at h
    split at h
    · cases h
    · next c hc =>
      obtain ⟨x, hx, hs'⟩ := catAll_stacked h (hs.snoc hne (hv v (by simp)) hc) (by simp) (fun w hw => hv w (List.mem_cons_of_mem _ hw))
      exact ⟨x, hx, by simpa using hs'⟩

theorem catAll_ok [Zero K] {axis : Axis} {vs : List (IFResult K)} {r : Option (IFResult K)} (h : catAll axis none vs = .ok r) (hv : ∀ v ∈ vs, v.Good) :
    (vs = [] ∧ r = none) ∨ (vs ≠ [] ∧ ∃ x, r = some x ∧ Stacked axis vs x) := by
  cases vs with
  | nil => cases h; exact .inl ⟨rfl, rfl⟩
  | cons v vs =>
    refine .inr ⟨by simp, ?_⟩
    exact catAll_stacked h (.one axis (hv v (by simp))) (by simp) (fun w hw => hv w (List.mem_cons_of_mem _ hw))

theorem batchRun_good [Field K] {L : Lib K} {sqrt : K → K} {ids : List PyStr} {src : LogArg K} {mode : Mode} {hessian : Hess}
    {groups : Option (List PyStr)} {damping : Option K} : ∀ {batches : List (List PyStr × LogArg K)} {s s' : LState K} {vs : List (IFResult K)},
      BatchRun L sqrt ids src mode hessian groups damping s batches s' vs → ∀ v ∈ vs, v.Good
  | [], s, s', vs, h, v, hv => by rw [h.2] at hv; cases hv
  | b :: bs, s, s', vs, h, v, hv => by
    obtain ⟨s₁, r, vs', hc, hb, rfl⟩ := h
    rcases List.mem_cons.1 hv with rfl | hv
    · obtain ⟨h1, h2, h3⟩ := C48_shape hc
      intro k t ht
      rw [h1, h2]
      exact h3 k t ht
    · exact batchRun_good hb v hv

/-- A result of `compute_influence_all` is the results of the batches next to each other. -/
theorem all_stacked [Field K] {L : Lib K} {sqrt : K → K} {o o' : IFObj K} {ids : List PyStr} {src : LogArg K} {loader : List (List PyStr × LogArg K)}
    {mode : Mode} {pre save : Bool} {hessian : Hess} {groups : Option (List PyStr)} {damping : Option K} {r : RRec K}
    (h : computeInfluenceAll L sqrt o ids src loader mode pre save hessian groups damping = .ok (o', some r))
    (hs : ∀ a, o.saved = some a → o.heap.Has a) :
    ∃ s₁ src' vs, (if pre then precondition L o.st src hessian damping else .ok (o.st, src)) = .ok (s₁, src') ∧
      BatchRun L sqrt ids src' mode hessian groups damping s₁ loader o'.st vs ∧ vs ≠ [] ∧ Stacked .tgt vs (o'.heap.deref r) := by
  obtain ⟨s₁, src', h₁, vs, a1, a2, a3, a4, a5, a6⟩ := all_ok h
  rcases catAll_ok a3 (batchRun_good a2) with ⟨-, hx⟩ | ⟨hne, x, hx, hst⟩
  · cases hx
  · refine ⟨s₁, src', vs, a1, a2, hne, ?_⟩
    simp only [Option.map_some, Option.some.injEq] at hx
    rw [← hx] at hst
    suffices o'.heap.deref r = h₁.deref r by rw [this]; exact hst
    cases save with
    | false => simp only [Bool.false_eq_true, if_false] at a6; rw [a6.1]
    | true =>
      simp only [if_true] at a6
      cases hsv : o.saved with
      | none => rw [hsv] at a6; simp only [mergeResults, Except.ok.injEq, Prod.mk.injEq] at a6; rw [a6.1]
      | some a =>
        rw [hsv] at a6
        have ka := a5 a (hs a hsv)
        obtain ⟨a', -, -, -, -, -, -, m6⟩ := merge_ok a6 ka.1.has
        exact (m6 r (a4 r rfl) (ka.2 r rfl).symm).same

end Logix
