/-
Going through the modules of a model while it is changed.
-/
import Verif.Model.Modules

namespace Logix

/-- The visits below a module, for a list of its children. -/
def visitsKids (kids : Nat → Dict PyStr Nat) (n : Nat) (pre : PyStr) (es : Dict PyStr Nat) (memo : List Nat) : List (PyStr × Nat) × List Nat :=
  es.foldl (fun acc e =>
    let r := visits kids n (childName pre e.1) e.2 acc.2
    (acc.1 ++ r.1, r.2)) ([], memo)

theorem visitsKids_acc (kids : Nat → Dict PyStr Nat) (n : Nat) (pre : PyStr) (es : Dict PyStr Nat) : ∀ (acc : List (PyStr × Nat)) (memo : List Nat),
    es.foldl (fun acc e =>
      let r := visits kids n (childName pre e.1) e.2 acc.2
      (acc.1 ++ r.1, r.2)) (acc, memo) = (acc ++ (visitsKids kids n pre es memo).1, (visitsKids kids n pre es memo).2) := by
  unfold visitsKids
  induction es with
  | nil => intro acc memo; simp
  | cons e es ih =>
    intro acc memo
    rw [List.foldl_cons, List.foldl_cons]
    dsimp only
    rw [ih, ih ([] ++ _)]
    simp

theorem visitsKids_nil (kids : Nat → Dict PyStr Nat) (n : Nat) (pre : PyStr) (memo : List Nat) : visitsKids kids n pre [] memo = ([], memo) := rfl

theorem visitsKids_cons (kids : Nat → Dict PyStr Nat) (n : Nat) (pre : PyStr) (e : PyStr × Nat) (es : Dict PyStr Nat) (memo : List Nat) :
    visitsKids kids n pre (e :: es) memo =
      ((visits kids n (childName pre e.1) e.2 memo).1 ++ (visitsKids kids n pre es (visits kids n (childName pre e.1) e.2 memo).2).1,
        (visitsKids kids n pre es (visits kids n (childName pre e.1) e.2 memo).2).2) := by
  conv_lhs => unfold visitsKids
  rw [List.foldl_cons]
  dsimp only
  rw [visitsKids_acc]
  simp

theorem visits_mem {kids : Nat → Dict PyStr Nat} {n : Nat} {pre : PyStr} {id : Nat} {memo : List Nat} (h : id ∈ memo) :
    visits kids (n + 1) pre id memo = ([], memo) := by
  unfold visits
  rw [if_pos h]

theorem visits_new {kids : Nat → Dict PyStr Nat} {n : Nat} {pre : PyStr} {id : Nat} {memo : List Nat} (h : id ∉ memo) :
    visits kids (n + 1) pre id memo = ((pre, id) :: (visitsKids kids n pre (kids id) (id :: memo)).1, (visitsKids kids n pre (kids id) (id :: memo)).2) := by
  conv_lhs => unfold visits
  rw [if_neg h, visitsKids_acc]
  rfl

section
variable {σ : Type} (kids : σ → Nat → Dict PyStr Nat) (body : PyStr → Nat → σ → Py σ)

/-- One step of the iteration over the children in `walk`. -/
def walkStep (n : Nat) (pre : PyStr) (id len : Nat) (st : σ × List Nat) (k : PyStr) : Py (σ × List Nat) :=
  if (kids st.1 id).length ≠ len then .error .runtimeError else
  match Dict.get? (kids st.1 id) k with
  | none => .error .runtimeError
  | some c => walk kids body n (childName pre k) c st

theorem walk_succ (n : Nat) (pre : PyStr) (id : Nat) (s : σ) (memo : List Nat) :
    walk kids body (n + 1) pre id (s, memo) =
      if id ∈ memo then .ok (s, memo) else
      match body pre id s with
      | .error e => .error e
      | .ok s =>
        match (Dict.keys (kids s id)).foldlM (walkStep kids body n pre id (Dict.keys (kids s id)).length) (s, id :: memo) with
        | .error e => .error e
        | .ok st => if (kids st.1 id).length ≠ (Dict.keys (kids s id)).length then .error .runtimeError else .ok st := by
  conv_lhs => unfold walk
  rfl

variable {K0 : Nat → Dict PyStr Nat} {d : Nat → Nat} {D : Nat → Prop} {Good : σ → Prop} {Loc : PyStr → Nat → Option (Nat × PyStr) → Prop}

/-- What a walk from a place does. -/
def WalkOk (K0 : Nat → Dict PyStr Nat) (D : Nat → Prop) (Good : σ → Prop) (src : Option (Nat × PyStr)) (s : σ) (memo : List Nat)
    (vs : List (PyStr × Nat)) (memo' : List Nat) (res : Py (σ × List Nat)) : Prop :=
  match vs.foldlM (fun s e => body e.1 e.2 s) s with
  | .error e => res = .error e
  | .ok s' => res = .ok (s', memo') ∧ Good s' ∧ (∀ i ∈ memo, i ∈ memo') ∧
      (∀ p, D p → p ∉ memo' → ∀ k, Dict.get? (kids s' p) k = Dict.get? (K0 p) k) ∧
      (∀ p ∈ memo, D p → ∀ k, src ≠ some (p, k) → Dict.get? (kids s' p) k = Dict.get? (kids s p) k)

theorem walk_ok (hn : ∀ p, (Dict.keys (K0 p)).Nodup) (hd : ∀ p k c, Dict.get? (K0 p) k = some c → d c < d p)
    (hloc : ∀ pre p src k c, Loc pre p src → Dict.get? (K0 p) k = some c → Loc (childName pre k) c (some (p, k)))
    (hD : ∀ pre p src, Loc pre p src → D p)
    (hkeys : ∀ s, Good s → ∀ p, D p → Dict.keys (kids s p) = Dict.keys (K0 p))
    (hbody : ∀ pre id src s s', Loc pre id src → Good s → body pre id s = .ok s' →
      Good s' ∧ ∀ p k, D p → src ≠ some (p, k) → Dict.get? (kids s' p) k = Dict.get? (kids s p) k) :
    ∀ n pre id src s memo, Loc pre id src → (∀ p k, src = some (p, k) → p ∈ memo) → d id < n → Good s →
      (∀ p, D p → p ∉ memo → ∀ k, Dict.get? (kids s p) k = Dict.get? (K0 p) k) →
      WalkOk kids body K0 D Good src s memo (visits K0 n pre id memo).1 (visits K0 n pre id memo).2 (walk kids body n pre id (s, memo)) := by
  intro n
  induction n with
  | zero => intro pre id src s memo _ _ h; omega
  | succ n ih =>
    intro pre id src s memo hl hs hdn hg hun
    rw [walk_succ]
    by_cases hm : id ∈ memo
    · rw [if_pos hm, visits_mem hm]
      exact ⟨rfl, hg, fun _ h => h, hun, fun _ _ _ _ _ => rfl⟩
    rw [if_neg hm, visits_new hm]
    unfold WalkOk
    dsimp only
    rw [List.foldlM_cons]
    cases hb : body pre id s with
    | error e => rfl
    | ok s1 =>
      obtain ⟨hg1, hb1⟩ := hbody _ _ _ _ _ hl hg hb
      have hDid := hD _ _ _ hl
      have hsid : ∀ p k, src = some (p, k) → p ≠ id := by
        rintro p k hpk rfl
        subst hpk
        exact hm (hs _ _ rfl)
      have hkid : ∀ k, Dict.get? (kids s1 id) k = Dict.get? (K0 id) k := by
        intro k
        rw [hb1 id k hDid (fun h => hsid _ _ h rfl), hun id hDid hm]
      -- the children
      have inner : ∀ (es : Dict PyStr Nat) (st : σ) (mm : List Nat), (Dict.keys es).Nodup → (∀ e ∈ es, Dict.get? (K0 id) e.1 = some e.2) →
          (∀ e ∈ es, Dict.get? (kids st id) e.1 = some e.2) → Good st → id ∈ mm →
          (∀ p, D p → p ∉ mm → ∀ k, Dict.get? (kids st p) k = Dict.get? (K0 p) k) →
          match (visitsKids K0 n pre es mm).1.foldlM (fun s e => body e.1 e.2 s) st with
          | .error e => (Dict.keys es).foldlM (walkStep kids body n pre id (Dict.keys (K0 id)).length) (st, mm) = .error e
          | .ok s' => (Dict.keys es).foldlM (walkStep kids body n pre id (Dict.keys (K0 id)).length) (st, mm) = .ok (s', (visitsKids K0 n pre es mm).2) ∧
              Good s' ∧ (∀ i ∈ mm, i ∈ (visitsKids K0 n pre es mm).2) ∧
              (∀ p, D p → p ∉ (visitsKids K0 n pre es mm).2 → ∀ k, Dict.get? (kids s' p) k = Dict.get? (K0 p) k) ∧
              (∀ p ∈ mm, D p → p ≠ id → ∀ k, Dict.get? (kids s' p) k = Dict.get? (kids st p) k) := by
        intro es
        induction es with
        | nil =>
          intro st mm _ _ _ hg' _ hun'
          exact ⟨rfl, hg', fun _ h => h, hun', fun _ _ _ _ _ => rfl⟩
        | cons e es ihe =>
          intro st mm hnd h0 hst hg' him hun'
          rw [visitsKids_cons, List.foldlM_append]
          have hk : Dict.keys (e :: es) = e.1 :: Dict.keys es := rfl
          rw [hk, List.foldlM_cons]
          have hstep : walkStep kids body n pre id (Dict.keys (K0 id)).length (st, mm) e.1 = walk kids body n (childName pre e.1) e.2 (st, mm) := by
            unfold walkStep
            have : (kids st id).length = (Dict.keys (K0 id)).length := by
              rw [← hkeys st hg' id hDid]; simp [Dict.keys]
            rw [if_neg (by dsimp only; rw [this]; simp)]
            dsimp only
            rw [hst e List.mem_cons_self]
          rw [hstep]
          have h0e := h0 e List.mem_cons_self
          have hw := ih (childName pre e.1) e.2 (some (id, e.1)) st mm (hloc _ _ _ _ _ hl h0e)
            (by rintro p k hpk; cases hpk; exact him) (by have := hd _ _ _ h0e; omega) hg' hun'
          unfold WalkOk at hw
          cases hf : (visits K0 n (childName pre e.1) e.2 mm).1.foldlM (fun s e => body e.1 e.2 s) st with
          | error er =>
            rw [hf] at hw
            dsimp only at hw
            rw [hw]
            rfl
          | ok s2 =>
            rw [hf] at hw
            dsimp only at hw
            obtain ⟨hw1, hw2, hw3, hw4, hw5⟩ := hw
            rw [hw1]
            rw [hk, List.nodup_cons] at hnd
            have hi := ihe s2 (visits K0 n (childName pre e.1) e.2 mm).2 hnd.2 (fun e' he' => h0 e' (List.mem_cons_of_mem _ he'))
              (fun e' he' => by
                rw [hw5 id him hDid e'.1 (fun h => by
                  have h' : e.1 = e'.1 := congrArg Prod.snd (Option.some.inj h)
                  exact hnd.1 (h' ▸ List.mem_map_of_mem (f := Prod.fst) he'))]
                exact hst e' (List.mem_cons_of_mem _ he')) hw2 (hw3 _ him) hw4
            dsimp only [bind, Except.bind]
            cases hf2 : (visitsKids K0 n pre es (visits K0 n (childName pre e.1) e.2 mm).2).1.foldlM (fun s e => body e.1 e.2 s) s2 with
            | error er =>
              rw [hf2] at hi
              exact hi
            | ok s3 =>
              rw [hf2] at hi
              dsimp only at hi ⊢
              obtain ⟨hi1, hi2, hi3, hi4, hi5⟩ := hi
              refine ⟨hi1, hi2, fun i h => hi3 i (hw3 i h), hi4, fun p hp hDp hpi k => ?_⟩
              rw [hi5 p (hw3 p hp) hDp hpi, hw5 p hp hDp k (fun h => by cases h; exact hpi rfl)]
      have hK : Dict.keys (kids s1 id) = Dict.keys (K0 id) := hkeys s1 hg1 id hDid
      have hin := inner (K0 id) s1 (id :: memo) (hn id) (fun e he => Dict.get?_of_mem _ (hn id) he)
        (fun e he => by rw [hkid]; exact Dict.get?_of_mem _ (hn id) he) hg1 List.mem_cons_self
        (fun p hDp hp k => by
          rw [hb1 p k hDp (fun h => hp (List.mem_cons_of_mem _ (hs _ _ h))), hun p hDp (fun h => hp (List.mem_cons_of_mem _ h))])
      dsimp only [bind, Except.bind]
      rw [hK]
      cases hf : (visitsKids K0 n pre (K0 id) (id :: memo)).1.foldlM (fun s e => body e.1 e.2 s) s1 with
      | error er =>
        rw [hf] at hin
        dsimp only at hin ⊢
        rw [hin]
      | ok s2 =>
        rw [hf] at hin
        dsimp only at hin ⊢
        obtain ⟨h1, h2, h3, h4, h5⟩ := hin
        rw [h1]
        dsimp only
        have : (kids s2 id).length = (Dict.keys (K0 id)).length := by
          rw [← hkeys s2 h2 id hDid]; simp [Dict.keys]
        rw [if_neg (by rw [this]; simp)]
        refine ⟨rfl, h2, fun i h => h3 i (List.mem_cons_of_mem _ h), h4, fun p hp hDp k hk => ?_⟩
        have hpi : p ≠ id := fun h => hm (h ▸ hp)
        rw [h5 p (List.mem_cons_of_mem _ hp) hDp hpi, hb1 p k hDp hk]

end

/-! ### Properties of `visits` -/

section
variable {K0 : Nat → Dict PyStr Nat} {d : Nat → Nat}

/-- Every visit has a property that is passed on from a module to its children. -/
theorem visits_all (P : PyStr → Nat → Prop) (hP : ∀ pre p k c, P pre p → (k, c) ∈ K0 p → P (childName pre k) c) :
    ∀ n pre id memo, P pre id → ∀ e ∈ (visits K0 n pre id memo).1, P e.1 e.2 := by
  intro n
  induction n with
  | zero => intro pre id memo _ e he; simp [visits] at he
  | succ n ih =>
    intro pre id memo hp e he
    by_cases hm : id ∈ memo
    · rw [visits_mem hm] at he; simp at he
    · rw [visits_new hm] at he
      rcases List.mem_cons.1 he with rfl | he
      · exact hp
      · have inner : ∀ (es : Dict PyStr Nat) (mm : List Nat), (∀ e ∈ es, e ∈ K0 id) → ∀ e ∈ (visitsKids K0 n pre es mm).1, P e.1 e.2 := by
          intro es
          induction es with
          | nil => intro mm _ e he; simp [visitsKids] at he
          | cons e' es ihe =>
            intro mm hes e he
            rw [visitsKids_cons] at he
            rcases List.mem_append.1 he with he | he
            · exact ih _ _ _ (hP _ _ _ _ hp (hes e' List.mem_cons_self)) e he
            · exact ihe _ (fun e he => hes e (List.mem_cons_of_mem _ he)) e he
        exact inner _ _ (fun _ h => h) e he

/-- The modules remembered are those before and those visited; no module is visited twice. -/
theorem visits_memo : ∀ n pre id memo, (∀ i, i ∈ (visits K0 n pre id memo).2 ↔ i ∈ memo ∨ i ∈ (visits K0 n pre id memo).1.map Prod.snd) ∧
    ((visits K0 n pre id memo).1.map Prod.snd).Nodup ∧ (∀ e ∈ (visits K0 n pre id memo).1, e.2 ∉ memo) := by
  intro n
  induction n with
  | zero => intro pre id memo; simp [visits]
  | succ n ih =>
    intro pre id memo
    by_cases hm : id ∈ memo
    · rw [visits_mem hm]; simp
    · rw [visits_new hm]
      have inner : ∀ (es : Dict PyStr Nat) (mm : List Nat),
          (∀ i, i ∈ (visitsKids K0 n pre es mm).2 ↔ i ∈ mm ∨ i ∈ (visitsKids K0 n pre es mm).1.map Prod.snd) ∧
          ((visitsKids K0 n pre es mm).1.map Prod.snd).Nodup ∧ (∀ e ∈ (visitsKids K0 n pre es mm).1, e.2 ∉ mm) := by
        intro es
        induction es with
        | nil => intro mm; simp [visitsKids]
        | cons e es ihe =>
          intro mm
          rw [visitsKids_cons]
          obtain ⟨a1, a2, a3⟩ := ih (childName pre e.1) e.2 mm
          obtain ⟨b1, b2, b3⟩ := ihe (visits K0 n (childName pre e.1) e.2 mm).2
          refine ⟨fun i => ?_, ?_, ?_⟩
          · dsimp only
            rw [b1, a1, List.map_append, List.mem_append, or_assoc]
          · dsimp only
            rw [List.map_append, List.nodup_append]
            refine ⟨a2, b2, ?_⟩
            intro a ha b hb hab
            subst hab
            obtain ⟨e', he', rfl⟩ := List.mem_map.1 hb
            exact b3 e' he' ((a1 _).2 (Or.inr ha))
          · intro e' he'
            rcases List.mem_append.1 he' with h | h
            · exact a3 e' h
            · intro hmm
              exact b3 e' h ((a1 _).2 (Or.inl hmm))
      obtain ⟨b1, b2, b3⟩ := inner (K0 id) (id :: memo)
      refine ⟨fun i => ?_, ?_, ?_⟩
      · dsimp only
        rw [b1, List.map_cons, List.mem_cons, List.mem_cons]
        constructor
        · rintro ((h | h) | h) <;> simp [h]
        · rintro (h | h | h) <;> simp [h]
      · dsimp only
        rw [List.map_cons, List.nodup_cons]
        refine ⟨fun h => ?_, b2⟩
        obtain ⟨e', he', h'⟩ := List.mem_map.1 h
        exact b3 e' he' (by rw [h']; exact List.mem_cons_self)
      · intro e' he'
        rcases List.mem_cons.1 he' with rfl | h
        · exact hm
        · exact fun hmm => b3 e' h (List.mem_cons_of_mem _ hmm)

/-- With enough fuel the modules visited are closed under children. -/
theorem visits_closed (hd : ∀ p k c, (k, c) ∈ K0 p → d c < d p) : ∀ n pre id memo, d id < n →
    id ∈ (visits K0 n pre id memo).2 ∧
      ∀ e ∈ (visits K0 n pre id memo).1, ∀ k c, (k, c) ∈ K0 e.2 → c ∈ (visits K0 n pre id memo).2 := by
  intro n
  induction n with
  | zero => intro pre id memo h; omega
  | succ n ih =>
    intro pre id memo hdn
    by_cases hm : id ∈ memo
    · rw [visits_mem hm]; simp [hm]
    · rw [visits_new hm]
      have inner : ∀ (es : Dict PyStr Nat) (mm : List Nat), (∀ e ∈ es, e ∈ K0 id) →
          (∀ i ∈ mm, i ∈ (visitsKids K0 n pre es mm).2) ∧ (∀ e ∈ es, e.2 ∈ (visitsKids K0 n pre es mm).2) ∧
          ∀ e ∈ (visitsKids K0 n pre es mm).1, ∀ k c, (k, c) ∈ K0 e.2 → c ∈ (visitsKids K0 n pre es mm).2 := by
        intro es
        induction es with
        | nil => intro mm _; simp [visitsKids]
        | cons e es ihe =>
          intro mm hes
          rw [visitsKids_cons]
          have hde := hd id e.1 e.2 (hes e List.mem_cons_self)
          obtain ⟨a1, a2⟩ := ih (childName pre e.1) e.2 mm (by omega)
          obtain ⟨c1, c2, c3⟩ := ihe (visits K0 n (childName pre e.1) e.2 mm).2 (fun e he => hes e (List.mem_cons_of_mem _ he))
          have hmm := (visits_memo (K0 := K0) n (childName pre e.1) e.2 mm).1
          refine ⟨fun i hi => c1 i ((hmm i).2 (Or.inl hi)), ?_, ?_⟩
          · intro e' he'
            rcases List.mem_cons.1 he' with rfl | h
            · exact c1 _ a1
            · exact c2 e' h
          · intro e' he' k c hkc
            rcases List.mem_append.1 he' with h | h
            · exact c1 _ (a2 e' h k c hkc)
            · exact c3 e' h k c hkc
      obtain ⟨c1, c2, c3⟩ := inner (K0 id) (id :: memo) (fun _ h => h)
      refine ⟨c1 _ List.mem_cons_self, ?_⟩
      intro e he k c hkc
      rcases List.mem_cons.1 he with rfl | h
      · exact c2 (k, c) hkc
      · exact c3 e h k c hkc

end
end Logix
