/-
When calls return: influence against batches, from influence against everything at once.
-/
import Verif.Props.InfluenceAll

set_option linter.unusedSectionVars false

namespace Logix
variable {K : Type}

/-- The form of the scores of a call: a matrix, or one for every group and the total. -/
def Formed (groups : Option (List PyStr)) (n m : Nat) (inf : Influence K) : Prop :=
  match groups with
  | none => ∃ t, inf = .one t ∧ t.shape = [n, m] ∧ t.dev = .cpu
  | some gs => ∃ d, inf = .groups d ∧ Dict.keys d = Dict.keys (initScores gs : Scores K) ∧ ∀ p ∈ d, p.2.shape = [n, m] ∧ p.2.dev = .cpu

theorem checkScores_mem {dims : List Nat} : ∀ {sc : Scores K} {d : Dict PyStr (Tensor K)}, checkScores dims sc = .ok d → ∀ p ∈ d, p.2.shape = dims ∧ p.2.dev = .cpu
  | [], d, h, p, hp => by cases h; cases hp
  | (k, none) :: sc, d, h, p, hp => by cases h
  | (k, some t) :: sc, d, h, p, hp => by
    unfold checkScores at h
    split at h
    · next hs =>
      split at h
      · cases h
      · next d' hd' =>
        cases h
        rcases List.mem_cons.1 hp with rfl | hp
        · exact ⟨hs, rfl⟩
        · exact checkScores_mem hd' p hp
    · cases h

theorem addScores_keys [Semiring K] {u : Tensor K} : ∀ {ks : List PyStr} {d d' : Scores K}, addScores u ks d = .ok d' → Dict.keys d' = Dict.keys d
  | [], d, d', h => by cases h; rfl
  | k :: ks, d, d', h => by
    unfold addScores at h
    split at h
    · cases h
    · next v hv =>
      split at h
      · cases h
      · rw [addScores_keys h, Dict.keys_set_of_mem]
        rw [← Dict.get?_isSome_iff, hv]; rfl

theorem moduleLoop_keys [Semiring K] {groups : Option (List PyStr)} {tgt : GLog K} : ∀ {src : GLog K} {d d' : Scores K}, moduleLoop groups tgt src d = .ok d' →
    Dict.keys d' = Dict.keys d
  | [], d, d', h => by cases h; rfl
  | (m, sub) :: src, d, d', h => by
    unfold moduleLoop at h
    split at h
    · split at h
      · cases h
      · split at h
        · cases h
        · next h1 => rw [moduleLoop_keys h, addScores_keys h1]
    · cases h

theorem applyNorm_keys [Zero K] {f : K → K → K} {norm : Influence K} : ∀ {sc d : Scores K}, applyNorm f norm sc = .ok d → Dict.keys d = Dict.keys sc
  | [], d, h => by cases h; rfl
  | (k, v) :: sc, d, h => by
    unfold applyNorm at h
    split at h
    · cases h
    · split at h
      · cases h
      · split at h
        · cases h
        · next hd => cases h; have := applyNorm_keys hd; simp only [Dict.keys, List.map_cons] at this ⊢; rw [this]

theorem rawScores_keys [Semiring K] {s : LState K} {src tgt tgt' : LogArg K} {groups : Option (List PyStr)} {sc : Scores K}
    (h : rawScores s src tgt groups = .ok (sc, tgt')) : Dict.keys sc = Dict.keys (initScores (groups.getD []) : Scores K) := by
  unfold rawScores at h
  split at h
  · split at h
    · cases h
    · split at h
      · split at h
        · cases h
        · split at h
          · cases h
          · split at h
            · cases h
            · next ha => cases h; exact addScores_keys ha
      · cases h
  · split at h
    · cases h
    · split at h
      · cases h
      · next hm => cases h; exact moduleLoop_keys hm
  · cases h

/-- Every result has this form. -/
theorem computeInfluence_formed [Field K] {L : Lib K} {sqrt : K → K} {s s' : LState K} {srcIds tgtIds : List PyStr} {src tgt : LogArg K} {mode : Mode}
    {pre : Bool} {hessian : Hess} {groups : Option (List PyStr)} {damping : Option K} {r : IFResult K}
    (h : computeInfluence L sqrt s srcIds src tgtIds tgt mode pre hessian groups damping = .ok (s', r)) :
    Formed groups srcIds.length tgtIds.length r.influence := by
  obtain ⟨s₁, src', sc, tgt', sc₂, d, -, hraw, hmode, hc, hf, -, -⟩ := computeInfluence_parts h
  have hk : Dict.keys sc₂ = Dict.keys (initScores (groups.getD []) : Scores K) := by
    rw [← rawScores_keys hraw]
    unfold modeScores at hmode
    split at hmode
    · cases hmode; rfl
    · split at hmode
      · cases hmode
      · split at hmode
        · cases hmode
        · next hn => cases hmode; exact applyNorm_keys hn
  have hm := checkScores_mem hc
  have hkd := (checkScores_ok hc).1
  unfold finishScores at hf
  unfold Formed
  split at hf
  · exact ⟨d, (Except.ok.inj hf).symm, hkd.trans hk, hm⟩
  · split at hf
    · next t ht => exact ⟨t, (Except.ok.inj hf).symm, hm _ (Dict.mem_of_get? _ ht)⟩
    · cases hf

theorem catScores_returns [Zero K] {a b : Tensor K} {n m m' : Nat} (ha : a.shape = [n, m] ∧ a.dev = .cpu) (hb : b.shape = [n, m'] ∧ b.dev = .cpu) :
    ∃ x, catScores .tgt a b = .ok x ∧ x.shape = [n, m + m'] ∧ x.dev = .cpu := by
  unfold catScores
  simp only [ha.1, hb.1, ha.2, hb.2, and_self, if_true]
  exact ⟨_, rfl, rfl, rfl⟩

theorem catGroups_returns [Zero K] {e : Dict PyStr (Tensor K)} {n m m' : Nat} (he : ∀ p ∈ e, p.2.shape = [n, m'] ∧ p.2.dev = .cpu) :
    ∀ d : Dict PyStr (Tensor K), (∀ p ∈ d, p.2.shape = [n, m] ∧ p.2.dev = .cpu) → (∀ k ∈ Dict.keys d, k ∈ Dict.keys e) →
      ∃ x, catGroups .tgt e d = .ok x ∧ Dict.keys x = Dict.keys d ∧ ∀ p ∈ x, p.2.shape = [n, m + m'] ∧ p.2.dev = .cpu
  | [], _, _ => ⟨[], rfl, rfl, fun p hp => by cases hp⟩
  | (k, t) :: d, hd, hk => by
    obtain ⟨x, h1, h2, h3⟩ := catGroups_returns (m := m) he d (fun p hp => hd p (List.mem_cons_of_mem _ hp)) (fun k hk' => hk k (List.mem_cons_of_mem _ hk'))
    obtain ⟨u, hu⟩ := Option.isSome_iff_exists.1 ((Dict.get?_isSome_iff e k).2 (hk k (by simp [Dict.keys])))
    obtain ⟨y, h4, h5⟩ := catScores_returns (hd (k, t) (by simp)) (he _ (Dict.mem_of_get? _ hu))
    refine ⟨(k, y) :: x, ?_, ?_, ?_⟩
    · unfold catGroups
      simp only at h4
      simp only [hu, h4, h1]
    · simp only [Dict.keys, List.map_cons] at h2 ⊢; rw [h2]
    · intro p hp
      rcases List.mem_cons.1 hp with rfl | hp
      · exact h5
      · exact h3 p hp

theorem catInfluence_returns [Zero K] {groups : Option (List PyStr)} {a b : Influence K} {n m m' : Nat} (ha : Formed groups n m a) (hb : Formed groups n m' b) :
    ∃ x, catInfluence .tgt a b = .ok x ∧ Formed groups n (m + m') x := by
  unfold Formed at ha hb
  cases groups with
  | none =>
    obtain ⟨t, rfl, h1⟩ := ha
    obtain ⟨u, rfl, h2⟩ := hb
    obtain ⟨x, h3, h4⟩ := catScores_returns h1 h2
    exact ⟨.one x, by simp only [catInfluence, h3], x, rfl, h4⟩
  | some gs =>
    obtain ⟨t, rfl, h0, h1⟩ := ha
    obtain ⟨u, rfl, h0', h2⟩ := hb
    obtain ⟨x, h3, h4, h5⟩ := catGroups_returns h2 t h1 (fun k hk => by rw [h0', ← h0]; exact hk)
    exact ⟨.groups x, by simp only [catInfluence, h3], x, rfl, h4.trans h0, h5⟩

/-- If every batch has a result, the loop over the batches returns. -/
theorem batchLoop_returns [Field K] {L : Lib K} {sqrt : K → K} {ids : List PyStr} {src : LogArg K} {mode : Mode} {hessian : Hess}
    {groups : Option (List PyStr)} {damping : Option K} : ∀ {batches : List (List PyStr × LogArg K)} {s s' : LState K} {vs : List (IFResult K)} (h : RHeap K) (all : Option (RRec K)),
      BatchRun L sqrt ids src mode hessian groups damping s batches s' vs → (∀ a, all = some a → h.Has a ∧ ∃ m, Formed groups ids.length m (h.inf a)) →
      ∃ h' all', batchLoop L sqrt ids src mode hessian groups damping batches s h all = .ok (s', h', all')
  | [], s, s', vs, h, all, hb, _ => by obtain ⟨rfl, -⟩ := hb; exact ⟨h, all, rfl⟩
  | b :: bs, s, s', vs, h, all, hb, ha => by
    obtain ⟨s₁, r, vs', hc, hb, rfl⟩ := hb
    obtain ⟨a1, a2, a3⟩ := alloc_ok h r
    have hr := computeInfluence_formed hc
    have hmerge : ∃ h₂ all₂, mergeResults (h.alloc r).1 all (some (h.alloc r).2) .tgt = .ok (h₂, all₂) ∧
        ∀ a, all₂ = some a → h₂.Has a ∧ ∃ m, Formed groups ids.length m (h₂.inf a) := by
      generalize (h.alloc r).1 = h₁ at *
      generalize (h.alloc r).2 = rr at *
      have hir : h₁.inf rr = r.influence := congrArg IFResult.influence a2
      cases all with
      | none =>
        refine ⟨h₁, some rr, rfl, fun a ha' => ?_⟩
        cases ha'
        exact ⟨a1, _, hir ▸ hr⟩
      | some a =>
        obtain ⟨hha, m, hfa⟩ := ha a rfl
        have hk := (a3 a hha).1
        have hia : h₁.inf a = h.inf a := congrArg IFResult.influence hk.same
        obtain ⟨x, hx, hxf⟩ := catInfluence_returns hfa hr
        have hret : ∃ h₂ a', mergeResults h₁ (some a) (some rr) .tgt = .ok (h₂, some a') := by
          unfold mergeResults
          simp only
          have e1 : ∀ l, ({ h₁ with lists := l } : RHeap K).inf a = h.inf a := fun l => hia
          have e2 : ∀ l, ({ h₁ with lists := l } : RHeap K).inf rr = r.influence := fun l => hir
          rw [e1, e2, hx]
          cases x with
          | one t => exact ⟨_, _, rfl⟩
          | groups d =>
            cases groups with
            | none => obtain ⟨t, h1, -⟩ := hxf; cases h1
            | some gs =>
              obtain ⟨d', h1, -⟩ := hfa
              unfold RHeap.inf at h1
              cases hi : a.inf with
              | inl t => rw [hi] at h1; cases h1
              | inr i => exact ⟨_, _, rfl⟩
        obtain ⟨h₂, a', hm⟩ := hret
        refine ⟨h₂, some a', hm, fun y hy => ?_⟩
        cases hy
        obtain ⟨a'', h1, -, -, -, h2, h3, -⟩ := merge_ok hm hk.has
        cases h1
        refine ⟨h2, m + b.1.length, ?_⟩
        unfold catResult at h3
        have e1 : (h₁.deref a).influence = h.inf a := hia
        have e2 : (h₁.deref rr).influence = r.influence := hir
        rw [e1, e2, hx] at h3
        simp only [Except.ok.injEq] at h3
        have : x = h₂.inf a' := congrArg IFResult.influence h3
        rw [← this]; exact hxf
    obtain ⟨h₂, all₂, h1, h2⟩ := hmerge
    obtain ⟨h', all', h3⟩ := batchLoop_returns h₂ all₂ hb h2
    refine ⟨h', all', ?_⟩
    obtain ⟨tgtIds, tgt⟩ := b
    rw [batchLoop]
    simp only at hc
    simp only [hc, h1, h3]

/-- If every batch has a result, the call returns. -/
theorem all_returns [Field K] {L : Lib K} {sqrt : K → K} {o : IFObj K} {ids : List PyStr} {src src' : LogArg K} {loader : List (List PyStr × LogArg K)}
    {mode : Mode} {pre save : Bool} {hessian : Hess} {groups : Option (List PyStr)} {damping : Option K} {s₁ s₂ : LState K} {vs : List (IFResult K)}
    (hp : (if pre then precondition L o.st src hessian damping else .ok (o.st, src)) = .ok (s₁, src'))
    (hb : BatchRun L sqrt ids src' mode hessian groups damping s₁ loader s₂ vs) (hs : save = false ∨ o.saved = none) :
    ∃ o' r, computeInfluenceAll L sqrt o ids src loader mode pre save hessian groups damping = .ok (o', r) := by
  obtain ⟨h', all', h1⟩ := batchLoop_returns o.heap none hb (fun a ha => by cases ha)
  unfold computeInfluenceAll
  rw [hp]
  simp only [h1]
  rcases hs with rfl | hs
  · exact ⟨_, _, rfl⟩
  · rw [hs]
    simp only [mergeResults]
    split <;> exact ⟨_, _, rfl⟩

/-! ### a batch, from everything at once -/

/-- The scores of two computations under construction: the same keys, zero at the same places; those of the second are matrices of one size. -/
def Alike (dev : Dev) (dims : List Nat) (d e : Scores K) : Prop :=
  List.Forall₂ (fun x y => x.1 = y.1 ∧ x.2.isSome = y.2.isSome ∧ ∀ t, y.2 = some t → t.shape = dims ∧ t.dev = dev) d e

theorem Alike.get? {dev : Dev} {dims : List Nat} {d e : Scores K} (h : Alike dev dims d e) {k : PyStr} {v : Option (Tensor K)} (hv : Dict.get? d k = some v) :
    ∃ w, Dict.get? e k = some w ∧ v.isSome = w.isSome ∧ ∀ t, w = some t → t.shape = dims ∧ t.dev = dev := by
  induction h with
  | nil => cases hv
  | cons hx hrest ih =>
    rename_i x y l l'
    obtain ⟨a, x⟩ := x
    obtain ⟨b, y⟩ := y
    obtain ⟨h1, h2⟩ := hx
    simp only at h1
    subst h1
    rw [Dict.get?_cons] at hv ⊢
    split at hv
    · next hk => cases hv; rw [if_pos hk]; exact ⟨y, rfl, h2⟩
    · next hk => rw [if_neg hk]; exact ih hv

theorem Alike.set {dev : Dev} {dims : List Nat} {d e : Scores K} (h : Alike dev dims d e) (k : PyStr) (t : Tensor K) {u : Tensor K} (hu : u.shape = dims ∧ u.dev = dev) :
    Alike dev dims (Dict.set d k (some t)) (Dict.set e k (some u)) := by
  induction h with
  | nil => exact .cons ⟨rfl, rfl, fun x hx => by cases hx; exact hu⟩ .nil
  | cons hx hrest ih =>
    rename_i x y l l'
    obtain ⟨a, x⟩ := x
    obtain ⟨b, y⟩ := y
    obtain ⟨h1, h2⟩ := hx
    simp only at h1
    subst h1
    unfold Dict.set
    split
    · exact .cons ⟨rfl, rfl, fun x hx => by cases hx; exact hu⟩ hrest
    · exact .cons ⟨rfl, h2⟩ ih

theorem addScores_alike [Semiring K] {dev : Dev} {dims : List Nat} {u u' : Tensor K} (hu : u'.shape = dims ∧ u'.dev = dev) : ∀ {ks : List PyStr} {d e d' : Scores K},
    Alike dev dims d e → addScores u ks d = .ok d' → ∃ e', addScores u' ks e = .ok e' ∧ Alike dev dims d' e'
  | [], d, e, d', h, ha => by cases ha; exact ⟨e, rfl, h⟩
  | k :: ks, d, e, d', h, ha => by
    unfold addScores at ha
    split at ha
    · cases ha
    · next v hv =>
      split at ha
      · cases ha
      · next t ht =>
        obtain ⟨w, h1, h2, h3⟩ := h.get? hv
        obtain ⟨x, hx, hx'⟩ : ∃ x, scoreOp (· + ·) w u' = .ok x ∧ x.shape = dims ∧ x.dev = dev := by
          unfold scoreOp
          cases w with
          | none => exact ⟨_, rfl, hu⟩
          | some y =>
            obtain ⟨y1, y2⟩ := h3 y rfl
            simp only [Tensor.iop]
            rw [if_pos ⟨by rw [y2, hu.2], by rw [y1, hu.1]; exact bcast_self _⟩]
            exact ⟨_, rfl, y1, y2⟩
        obtain ⟨e', h4, h5⟩ := addScores_alike hu (h.set k t hx') ha
        refine ⟨e', ?_, h5⟩
        unfold addScores
        simp only [h1, hx, h4]

theorem checkScores_alike {dev : Dev} {dims dims' : List Nat} {sc sc' : Scores K} (h : Alike dev dims sc sc') : ∀ {d : Dict PyStr (Tensor K)}, checkScores dims' sc = .ok d →
    ∃ d', checkScores dims sc' = .ok d' := by
  induction h with
  | nil => intro d _; exact ⟨[], rfl⟩
  | cons hx hrest ih =>
    rename_i x y l l'
    intro d hd
    obtain ⟨a, x⟩ := x
    obtain ⟨b, y⟩ := y
    obtain ⟨h1, h2, h3⟩ := hx
    cases x with
    | none => cases hd
    | some x =>
      cases y with
      | none => cases h2
      | some y =>
        unfold checkScores at hd
        split at hd
        · split at hd
          · cases hd
          · next hd' =>
            obtain ⟨d', hd'⟩ := ih hd'
            unfold checkScores
            rw [if_pos (h3 y rfl).1, hd']
            exact ⟨_, rfl⟩
        · cases hd

theorem alike_init (dev : Dev) (dims : List Nat) (gs : List PyStr) : Alike dev dims (initScores gs : Scores K) (initScores gs) := by
  unfold Alike
  rw [List.forall₂_same]
  have : ∀ (gs : List PyStr) (d : Scores K), (∀ x ∈ d, x.2 = none) → ∀ x ∈ gs.foldl (fun d g => Dict.set d g none) d, x.2 = none := by
    intro gs
    induction gs with
    | nil => intro d hd; exact hd
    | cons g gs ih =>
      intro d hd
      refine ih _ fun x hx => ?_
      rcases Dict.mem_set hx with h | h
      · rw [h]
      · exact hd x h
  intro x hx
  have h := this gs [(nTotal, none)] (by simp) x hx
  exact ⟨rfl, rfl, fun t ht => by rw [h] at ht; cases ht⟩

theorem crossDot_returns [Semiring K] {a b : Tensor K} {n m : Nat} {r : List Nat} (ha : a.shape = n :: r) (hb : b.shape = m :: r) (hd : a.dev = b.dev) :
    ∃ u, crossDot a b = .ok u ∧ u.shape = [n, m] ∧ u.dev = a.dev := by
  unfold crossDot
  rw [ha, hb]
  simp only [if_true, hd]
  exact ⟨_, rfl, rfl, rfl⟩

theorem moduleLoop_alike [Semiring K] {groups : Option (List PyStr)} {e b : GLog K} {dev : Dev} {n m : Nat} : ∀ {src : GLog K} {d c d' : Scores K},
    moduleLoop groups e src d = .ok d' → Alike dev [n, m] d c →
    (∀ p ∈ src, ∀ a, Dict.get? p.2 (LogType.name .grad) = some a → a.dev = dev ∧ ∃ r g, a.shape = n :: r ∧ Spec.grad b p.1 = some g ∧ g.shape = m :: r ∧ g.dev = dev) →
    ∃ c', moduleLoop groups b src c = .ok c' ∧ Alike dev [n, m] d' c'
  | [], d, c, d', h, hal, _ => by cases h; exact ⟨c, rfl, hal⟩
  | (k, sub) :: src, d, c, d', h, hal, hb => by
    unfold moduleLoop at h
    split at h
    · next a x ha hx =>
      split at h
      · cases h
      · next u hu =>
        split at h
        · cases h
        · next d₁ hd₁ =>
          obtain ⟨h1, r, g, h2, h3, h4, h5⟩ := hb (k, sub) (by simp) a ha
          obtain ⟨v, hv, hv1, hv2⟩ := crossDot_returns h2 h4 (h1.trans h5.symm)
          obtain ⟨c₁, hc₁, hal₁⟩ := addScores_alike ⟨hv1, hv2.trans h1⟩ hal hd₁
          obtain ⟨c', hc', hal'⟩ := moduleLoop_alike h hal₁ (fun p hp => hb p (List.mem_cons_of_mem _ hp))
          refine ⟨c', ?_, hal'⟩
          have hit : logItem b k (LogType.name .grad) = .ok g := by
            simp only [Spec.grad] at h3
            unfold logItem
            cases hk : Dict.get? b k with
            | none => rw [hk] at h3; cases h3
            | some s =>
              rw [hk] at h3
              simp only [Option.bind_some] at h3
              simp only [h3]
          unfold moduleLoop
          simp only [ha, hit, hv, hc₁, hc']
    · cases h

theorem grad_logOnDev' (e : GLog K) (dev : Dev) (m : PyStr) : Spec.grad (logOnDev e dev) m = (Spec.grad e m).map fun g => g.onDev dev := grad_logOnDev e dev m

/-- An entry of the target log, in the list that `synchronize_device` looks at. -/
theorem grad_entry {e : GLog K} {m : PyStr} {g : Tensor K} (h : Spec.grad e m = some g) : (m, LogType.name .grad) ∈ e.flatMap fun p => p.2.map fun q => (p.1, q.1) := by
  unfold Spec.grad at h
  cases hm : Dict.get? e m with
  | none => rw [hm] at h; cases h
  | some sub =>
    rw [hm] at h
    simp only [Option.bind_some] at h
    rw [List.mem_flatMap]
    exact ⟨(m, sub), Dict.mem_of_get? _ hm, List.mem_map.2 ⟨(_, g), Dict.mem_of_get? _ h, rfl⟩⟩

theorem logItem_grad {d : GLog K} {m : PyStr} {g : Tensor K} (h : Spec.grad d m = some g) : logItem d m (LogType.name .grad) = .ok g := by
  unfold Spec.grad at h
  unfold logItem
  cases hm : Dict.get? d m with
  | none => rw [hm] at h; cases h
  | some sub =>
    rw [hm] at h
    simp only [Option.bind_some] at h
    simp only [h]

theorem computeInfluence_dot [Field K] {L : Lib K} {sqrt : K → K} {s : LState K} {srcIds tgtIds : List PyStr} {src tgt tgt' : LogArg K} {hessian : Hess}
    {groups : Option (List PyStr)} {damping : Option K} {sc : Scores K} {d : Dict PyStr (Tensor K)} {inf : Influence K}
    (h1 : rawScores s src tgt groups = .ok (sc, tgt')) (h2 : checkScores [srcIds.length, tgtIds.length] sc = .ok d) (h3 : finishScores groups d = .ok inf) :
    computeInfluence L sqrt s srcIds src tgtIds tgt .dot false hessian groups damping = .ok (s, ⟨srcIds, tgtIds, inf⟩) := by
  unfold computeInfluence
  simp [h1, modeScores, h2, h3]

theorem Alike.keys {dev : Dev} {dims : List Nat} {d e : Scores K} (h : Alike dev dims d e) : Dict.keys d = Dict.keys e := by
  unfold Dict.keys
  induction h with
  | nil => rfl
  | cons hx _ ih => simp only [List.map_cons, hx.1, ih]

theorem finish_returns {groups : Option (List PyStr)} {d : Dict PyStr (Tensor K)} (h : nTotal ∈ Dict.keys d) : ∃ inf, finishScores groups d = .ok inf := by
  unfold finishScores
  cases groups with
  | some gs => exact ⟨_, rfl⟩
  | none =>
    obtain ⟨t, ht⟩ := Option.isSome_iff_exists.1 ((Dict.get?_isSome_iff d nTotal).2 h)
    simp only [ht]
    exact ⟨_, rfl⟩

/-- In a call that returns, the gradients of the source are on one device. -/
theorem one_device [Field K] {L : Lib K} {sqrt : K → K} {s s₂ : LState K} {ids allIds : List PyStr} {p e : GLog K} {hessian : Hess}
    {groups : Option (List PyStr)} {damping : Option K} {w : IFResult K}
    (hw : computeInfluence L sqrt s ids (.dict p) allIds (.dict e) .dot false hessian groups damping = .ok (s₂, w)) (hp : Spec.Labelled ids p) :
    Dict.keys p ≠ [] ∧ (∀ m ∈ Dict.keys p, ∃ a h, Spec.grad p m = some a ∧ Spec.grad e m = some h ∧ a.shape ≠ [] ∧ a.shape.tail = h.shape.tail ∧ a.size 0 = ids.length) ∧
      (∃ dev, ∀ m a, Spec.grad p m = some a → a.dev = dev) ∧
      ∃ e' sc d, moduleLoop groups e' p (initScores (groups.getD [])) = .ok sc ∧ checkScores [ids.length, allIds.length] sc = .ok d := by
  obtain ⟨s₁, src', sc, tgt', sc₂, d, h1, hraw, hmode, hc, hf, -, -⟩ := computeInfluence_parts hw
  simp only [Bool.false_eq_true, if_false] at h1
  cases h1
  have : sc₂ = sc := by
    unfold modeScores at hmode
    rw [if_pos rfl] at hmode
    cases hmode; rfl
  subst this
  unfold rawScores at hraw
  simp only at hraw
  split at hraw
  · cases hraw
  · next e' he' =>
    split at hraw
    · cases hraw
    · next sc' hm =>
      cases hraw
      obtain ⟨us, u1, u2, u3⟩ := moduleLoop_ok hm
      have hne : Dict.keys p ≠ [] := by
        intro h0
        rw [h0, List.map_eq_nil_iff] at u2
        subst u2
        cases u1
        obtain ⟨t, h1, -⟩ := (checkScores_ok hc).2 nTotal none (by
          cases hg : Dict.get? (initScores (groups.getD []) : Scores K) nTotal with
          | none => exact absurd (((initScores_get (K := K) (groups.getD [])).2 nTotal).2 (.inl rfl)) ((Dict.get?_eq_none_iff _ _).1 hg)
          | some v => rw [(initScores_get (K := K) (groups.getD [])).1 _ _ hg])
        cases h1
      have hmod : ∀ m ∈ Dict.keys p, ∃ a b u, Spec.grad p m = some a ∧ Spec.grad e' m = some b ∧ crossDot a b = .ok u := by
        intro m hm'
        rw [← u2] at hm'
        obtain ⟨x, hx, rfl⟩ := List.mem_map.1 hm'
        obtain ⟨sub, a, b, c1, c2, c3, c4⟩ := u3 x hx
        exact ⟨a, b, x.2, by rw [grad_of_mem hp.nodup c1, c2], c3, c4⟩
      refine ⟨hne, fun m hm' => ?_, ?_, e', _, d, hm, hc⟩
      · obtain ⟨a, b, u, c1, c2, c3⟩ := hmod m hm'
        obtain ⟨d1, -⟩ := crossDot_ok c3
        obtain ⟨g, g1, g2⟩ := hp.rows m hm'
        rw [c1] at g1
        cases g1
        have hb : ∃ h, Spec.grad e m = some h ∧ h.shape = b.shape := by
          rcases syncDevice_ok he' with rfl | ⟨dev, rfl⟩
          · exact ⟨b, c2, rfl⟩
          · rw [grad_logOnDev'] at c2
            cases hg : Spec.grad e m with
            | none => rw [hg] at c2; cases c2
            | some h => rw [hg] at c2; cases c2; exact ⟨h, rfl, rfl⟩
        obtain ⟨h, h1, h2⟩ := hb
        refine ⟨a, h, c1, h1, ?_, by rw [h2]; exact d1, g2⟩
        intro h0
        unfold crossDot at c3
        rw [h0] at c3
        cases c3
      · unfold syncDevice at he'
        split at he'
        · next hnil =>
          obtain ⟨m, hm'⟩ := List.exists_mem_of_ne_nil _ hne
          obtain ⟨a, b, u, c1, c2, c3⟩ := hmod m hm'
          cases he'
          have := grad_entry c2
          rw [hnil] at this
          cases this
        · split at he'
          · cases he'
          · next x hx =>
            cases he'
            refine ⟨x.dev, fun m a ha => ?_⟩
            obtain ⟨a', b, u, c1, c2, c3⟩ := hmod m (grad_mem ha)
            rw [ha] at c1
            cases c1
            have c2' : Spec.grad (logOnDev e x.dev) m = some b := c2
            rw [grad_logOnDev'] at c2'
            cases hg : Spec.grad e m with
            | none => rw [hg] at c2'; cases c2'
            | some h =>
              rw [hg] at c2'
              cases c2'
              exact (crossDot_ok c3).2.1

/-- If the call with all targets returns, so does the call with a batch of them, provided that the batch holds gradients of modules of the source only. -/
theorem batch_returns [Field K] {L : Lib K} {sqrt : K → K} {s s₂ : LState K} {ids allIds bIds : List PyStr} {p e b : GLog K} {hessian : Hess}
    {groups : Option (List PyStr)} {damping : Option K} {w : IFResult K}
    (hw : computeInfluence L sqrt s ids (.dict p) allIds (.dict e) .dot false hessian groups damping = .ok (s₂, w)) (hp : Spec.Labelled ids p)
    (hb : Spec.Labelled bIds b) (honly : ∀ m ∈ b, m.1 ∈ Dict.keys p ∧ ∀ t ∈ m.2, t.1 = LogType.name .grad)
    (hsame : ∀ m h, Spec.grad e m = some h → ∃ g, Spec.grad b m = some g ∧ g.shape ≠ [] ∧ g.shape.tail = h.shape.tail) :
    ∃ v, computeInfluence L sqrt s ids (.dict p) bIds (.dict b) .dot false hessian groups damping = .ok (s, v) := by
  obtain ⟨hne, hmod, ⟨dev, hdev⟩, e', sc, d, hm, hc⟩ := one_device hw hp
  obtain ⟨m₀, hm₀⟩ := List.exists_mem_of_ne_nil _ hne
  obtain ⟨a₀, h₀, -, h1, -, -, -⟩ := hmod m₀ hm₀
  obtain ⟨g₀, h2, -, -⟩ := hsame m₀ h₀ h1
  have hsync : syncDevice p b = .ok (logOnDev b dev) := by
    unfold syncDevice
    have hmem := grad_entry h2
    split
    · next hnil => rw [hnil] at hmem; cases hmem
    · next m t rest heq =>
      have : (m, t) ∈ b.flatMap fun p => p.2.map fun q => (p.1, q.1) := by rw [heq]; simp
      obtain ⟨x, hx, hy⟩ := List.mem_flatMap.1 this
      obtain ⟨q, hq, hz⟩ := List.mem_map.1 hy
      cases hz
      obtain ⟨o1, o2⟩ := honly x hx
      rw [o2 q hq]
      obtain ⟨a, h, k1, -⟩ := hmod _ o1
      rw [logItem_grad k1]
      simp only
      rw [hdev _ _ k1]
      rfl
  obtain ⟨c, hc1, hal⟩ := moduleLoop_alike (b := logOnDev b dev) (dev := dev) (n := ids.length) (m := bIds.length) hm (alike_init dev _ _) (by
    intro x hx a ha
    have hga : Spec.grad p x.1 = some a := by rw [grad_of_mem hp.nodup hx, ha]
    obtain ⟨a', h, k1, k2, k3, k4, k5⟩ := hmod x.1 (grad_mem hga)
    rw [hga] at k1
    cases k1
    obtain ⟨g, g1, g2, g3⟩ := hsame _ h k2
    obtain ⟨g', g4, g5⟩ := hb.rows x.1 (grad_mem g1)
    rw [g1] at g4
    cases g4
    refine ⟨hdev _ _ hga, a.shape.tail, g.onDev dev, ?_, by rw [grad_logOnDev', g1]; rfl, ?_, rfl⟩
    · cases hs : a.shape with
      | nil => exact absurd hs k3
      | cons n r =>
        have : a.size 0 = n := by simp [Tensor.size, hs]
        rw [← k5, this]; rfl
    · show g.shape = _
      cases hs : g.shape with
      | nil => exact absurd hs g2
      | cons n r =>
        have : g.size 0 = n := by simp [Tensor.size, hs]
        rw [← g5, this, k4, ← g3, hs]; rfl)
  obtain ⟨d', hd'⟩ := checkScores_alike hal hc
  obtain ⟨inf, hinf⟩ := finish_returns (groups := groups) (d := d') (by
    rw [(checkScores_ok hd').1, ← hal.keys, moduleLoop_keys hm]
    exact ((initScores_get (K := K) (groups.getD [])).2 nTotal).2 (.inl rfl))
  refine ⟨_, computeInfluence_dot (sc := c) (tgt' := .dict (logOnDev b dev)) ?_ hd' hinf⟩
  unfold rawScores
  simp only [hsync, hc1]

end Logix
