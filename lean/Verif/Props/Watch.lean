/-
C67, C68: which modules `watch` tracks and which parameters require gradients afterwards.
-/
import Verif.Lemmas.Modules

namespace Logix
variable {K : Type}

theorem freeze_mods (h : MHeap K) (m : MObj) : (h.freeze m).mods = h.mods := by
  unfold MHeap.freeze
  generalize m.params = l
  induction l generalizing h with
  | nil => rfl
  | cons e l ih => rw [List.foldl_cons, ih]

theorem freeze_params (h : MHeap K) (m : MObj) (i : Nat) :
    (h.freeze m).params[i]? = (h.params[i]?).map fun p => if i ∈ m.params.map Prod.snd then { p with reqGrad := false } else p := by
  unfold MHeap.freeze
  generalize m.params = l
  induction l generalizing h with
  | nil => cases h1 : h.params[i]? <;> simp [h1]
  | cons e l ih =>
    rw [List.foldl_cons, ih]
    dsimp only
    rw [List.getElem?_modify]
    cases h.params[i]? with
    | none => split <;> simp
    | some p =>
      by_cases he : e.2 = i
      · subst he
        simp only [if_true, Option.map_some]
        rw [if_pos (show e.2 ∈ (e :: l).map Prod.snd from List.mem_cons_self)]
        split <;> rfl
      · simp only [he, if_false, Option.map_some, List.map_cons, List.mem_cons, Ne.symm he, false_or]
        rfl

/-- What the loop of `watch` has done. -/
structure Watched (h : MHeap K) (tf nf : Option (List PyStr)) (lora : Bool) (w : WatchSt) (L : List (PyStr × Nat)) (s : MHeap K × WatchSt) : Prop where
  mods : s.1.mods = h.mods
  tf_eq : s.2.typeFilter = w.typeFilter
  nf_eq : s.2.nameFilter = w.nameFilter
  path : s.2.path = w.path
  dims : s.2.dims = w.dims
  hooked : ∀ id, id ∈ s.2.hooked ↔ id ∈ w.hooked ∨ ∃ name, (name, id) ∈ L ∧ Selected h tf nf name id ∧ (lora = true → nB <:+: name)
  names : ∀ id, Dict.get? s.2.names id = none ↔ Dict.get? w.names id = none ∧ ¬ ∃ name, (name, id) ∈ L ∧ Selected h tf nf name id ∧ (lora = true → nB <:+: name)
  fresh : w.names = [] → w.hooked = [] → (L.map Prod.snd).Nodup → s.2.hooked = s.2.names.map Prod.fst ∧ (s.2.names.map Prod.fst).Nodup ∧
    (∀ e ∈ s.2.names, e.1 ∈ L.map Prod.snd) ∧
    ∀ id name, (id, name) ∈ s.2.names ↔ (name, id) ∈ L ∧ Selected h tf nf name id ∧ (lora = true → nB <:+: name)
  params : ∀ i : Nat, s.1.params[i]? = (h.params[i]?).map fun (p : Param K) => { p with reqGrad := s.1.params[i]?.elim p.reqGrad Param.reqGrad }
  grad : ∀ i, RequiresGrad s.1 i ↔ RequiresGrad h i ∧
    ¬ ∃ name id, (name, id) ∈ L ∧ IsLeaf h id ∧ ¬ (Selected h tf nf name id ∧ (lora = true → nB <:+: name)) ∧ OwnsParam h id i

theorem watched_nil (h : MHeap K) (tf nf : Option (List PyStr)) (lora : Bool) (w : WatchSt) : Watched h tf nf lora w [] (h, w) := by
  refine ⟨rfl, rfl, rfl, rfl, rfl, by simp, by simp, fun h1 h2 _ => ?_, fun i => ?_, by simp⟩
  · rw [h1, h2]; simp
  · cases h.params[i]? <;> rfl

theorem watched_step {h : MHeap K} {tf nf : Option (List PyStr)} {lora : Bool} {w : WatchSt} {L : List (PyStr × Nat)} {s : MHeap K × WatchSt}
    (hs : Watched h tf nf lora w L s) (e : PyStr × Nat) (he : e.2 < h.mods.length) : Watched h tf nf lora w (L ++ [e]) (watchStep tf nf lora s e) := by
  obtain ⟨name, id⟩ := e
  dsimp only at he
  obtain ⟨m, hm⟩ : ∃ m, h.mods[id]? = some m := ⟨_, List.getElem?_eq_getElem he⟩
  unfold watchStep
  rw [hs.mods, hm]
  dsimp only
  have hL : ∀ n' i, (n', i) ∈ L ++ [(name, id)] ↔ (n', i) ∈ L ∨ (n' = name ∧ i = id) := by
    intro n' i; rw [List.mem_append, List.mem_singleton, Prod.mk.injEq]
  by_cases hc : moduleCheck m name supportedModules tf nf lora = true
  · rw [if_pos hc]
    have hsel := (moduleCheck_iff hm name tf nf lora).1 hc
    refine ⟨hs.mods, hs.tf_eq, hs.nf_eq, hs.path, hs.dims, fun i => ?_, fun i => ?_, fun h1 h2 h3 => ?_, hs.params, fun i => ?_⟩
    · dsimp only
      rw [List.mem_append, List.mem_singleton, hs.hooked, or_assoc]
      refine or_congr_right ?_
      constructor
      · rintro (⟨n', h1, h2⟩ | rfl)
        · exact ⟨n', (hL _ _).2 (Or.inl h1), h2⟩
        · exact ⟨name, (hL _ _).2 (Or.inr ⟨rfl, rfl⟩), hsel⟩
      · rintro ⟨n', h1, h2⟩
        rcases (hL _ _).1 h1 with h1 | ⟨_, h1⟩
        · exact Or.inl ⟨n', h1, h2⟩
        · exact Or.inr h1
    · dsimp only
      rw [Dict.get?_set]
      by_cases hi : id = i
      · subst hi
        rw [if_pos rfl]
        constructor
        · intro h; cases h
        · rintro ⟨_, h⟩
          exact absurd ⟨name, (hL _ _).2 (Or.inr ⟨rfl, rfl⟩), hsel⟩ h
      · rw [if_neg hi, hs.names]
        refine and_congr_right fun _ => not_congr (exists_congr fun n' => and_congr_left fun _ => ?_)
        rw [hL]
        exact ⟨Or.inl, fun h => h.resolve_right fun h' => hi h'.2.symm⟩
    · rw [List.map_append, List.nodup_append] at h3
      obtain ⟨h4, _, h5⟩ := h3
      obtain ⟨a1, a2, a3, a4⟩ := hs.fresh h1 h2 h4
      have hnk : id ∉ Dict.keys s.2.names := by
        intro hk
        obtain ⟨e, he1, he2⟩ := List.mem_map.1 hk
        exact h5 _ (a3 e he1) id (by simp) he2
      dsimp only
      rw [Dict.set_of_not_mem _ _ _ hnk]
      refine ⟨?_, ?_, ?_, ?_⟩
      · rw [a1, List.map_append]; rfl
      · rw [List.map_append, List.nodup_append]
        refine ⟨a2, by simp, ?_⟩
        intro a ha b hb hab
        simp only [List.map_cons, List.map_nil, List.mem_singleton] at hb
        rw [hab, hb] at ha
        exact hnk ha
      · intro e he
        rw [List.map_append, List.mem_append]
        rcases List.mem_append.1 he with he | he
        · exact Or.inl (a3 e he)
        · rw [List.mem_singleton.1 he]; exact Or.inr (by simp)
      · intro i n'
        rw [List.mem_append, List.mem_singleton, a4, hL, Prod.mk.injEq]
        constructor
        · rintro (⟨b1, b2⟩ | ⟨rfl, rfl⟩)
          · exact ⟨Or.inl b1, b2⟩
          · exact ⟨Or.inr ⟨rfl, rfl⟩, hsel⟩
        · rintro ⟨b1 | ⟨rfl, rfl⟩, b2⟩
          · exact Or.inl ⟨b1, b2⟩
          · exact Or.inr ⟨rfl, rfl⟩
    · dsimp only
      rw [hs.grad]
      refine and_congr_right fun _ => not_congr ?_
      refine exists_congr fun n' => exists_congr fun i' => ?_
      rw [hL]
      constructor
      · rintro ⟨b1, b2⟩; exact ⟨Or.inl b1, b2⟩
      · rintro ⟨b1 | ⟨rfl, rfl⟩, b2, b3, b4⟩
        · exact ⟨b1, b2, b3, b4⟩
        · exact absurd hsel b3
  · rw [if_neg hc]
    have hsel : ¬ (Selected h tf nf name id ∧ (lora = true → nB <:+: name)) := fun h' => hc ((moduleCheck_iff hm name tf nf lora).2 h')
    have hex : ∀ i, (∃ n', (n', i) ∈ L ++ [(name, id)] ∧ Selected h tf nf n' i ∧ (lora = true → nB <:+: n')) ↔
        ∃ n', (n', i) ∈ L ∧ Selected h tf nf n' i ∧ (lora = true → nB <:+: n') := by
      intro i
      refine exists_congr fun n' => and_congr_left fun hs' => ?_
      rw [hL]
      refine ⟨fun h => h.resolve_right ?_, Or.inl⟩
      rintro ⟨rfl, rfl⟩
      exact hsel hs'
    have hfresh : w.names = [] → w.hooked = [] → ((L ++ [(name, id)]).map Prod.snd).Nodup → s.2.hooked = s.2.names.map Prod.fst ∧ (s.2.names.map Prod.fst).Nodup ∧
        (∀ e ∈ s.2.names, e.1 ∈ (L ++ [(name, id)]).map Prod.snd) ∧
        ∀ id' name', (id', name') ∈ s.2.names ↔ (name', id') ∈ L ++ [(name, id)] ∧ Selected h tf nf name' id' ∧ (lora = true → nB <:+: name') := by
      intro h1 h2 h3
      rw [List.map_append, List.nodup_append] at h3
      obtain ⟨a1, a2, a3, a4⟩ := hs.fresh h1 h2 h3.1
      refine ⟨a1, a2, fun e he => ?_, fun i n' => ?_⟩
      · rw [List.map_append, List.mem_append]; exact Or.inl (a3 e he)
      · rw [a4, hL]
        constructor
        · rintro ⟨b1, b2⟩; exact ⟨Or.inl b1, b2⟩
        · rintro ⟨b1 | ⟨rfl, rfl⟩, b2⟩
          · exact ⟨b1, b2⟩
          · exact absurd b2 hsel
    by_cases hleaf : m.children = []
    · rw [if_pos (by rw [hleaf]; rfl)]
      refine ⟨by rw [freeze_mods]; exact hs.mods, hs.tf_eq, hs.nf_eq, hs.path, hs.dims, fun i => ?_, fun i => ?_, hfresh, fun i => ?_, fun i => ?_⟩
      · dsimp only
        rw [hex, hs.hooked]
      · dsimp only
        rw [hex, hs.names]
      · dsimp only
        rw [freeze_params]
        have := hs.params i
        cases h1 : h.params[i]? with
        | none => rw [h1] at this; rw [this]; rfl
        | some p =>
          rw [h1] at this
          rw [this]
          simp only [Option.map_some, Option.elim_some, Option.some.injEq]
          split <;> rfl
      · have key : RequiresGrad (s.1.freeze m) i ↔ RequiresGrad s.1 i ∧ ¬ i ∈ m.params.map Prod.snd := by
          unfold RequiresGrad
          rw [freeze_params]
          constructor
          · rintro ⟨p, hp, hr⟩
            obtain ⟨q, hq, rfl⟩ := Option.map_eq_some_iff.1 hp
            by_cases hk : i ∈ m.params.map Prod.snd
            · rw [if_pos hk] at hr; simp at hr
            · rw [if_neg hk] at hr; exact ⟨⟨q, hq, hr⟩, hk⟩
          · rintro ⟨⟨p, hp, hr⟩, hk⟩
            exact ⟨p, by rw [hp, Option.map_some, if_neg hk], hr⟩
        dsimp only
        rw [key, hs.grad, and_assoc]
        refine and_congr_right fun _ => ?_
        rw [← not_or]
        refine not_congr ?_
        constructor
        · rintro (⟨n', i', b1, b2⟩ | hk)
          · exact ⟨n', i', (hL _ _).2 (Or.inl b1), b2⟩
          · obtain ⟨e, he1, he2⟩ := List.mem_map.1 hk
            exact ⟨name, id, (hL _ _).2 (Or.inr ⟨rfl, rfl⟩), ⟨m, hm, hleaf⟩, hsel, m, e.1, hm, by rw [← he2]; exact he1⟩
        · rintro ⟨n', i', b1, b2, b3, b4⟩
          rcases (hL _ _).1 b1 with b1 | ⟨rfl, rfl⟩
          · exact Or.inl ⟨n', i', b1, b2, b3, b4⟩
          · obtain ⟨m', k, hm', hk⟩ := b4
            rw [hm] at hm'
            cases hm'
            exact Or.inr (List.mem_map_of_mem (f := Prod.snd) hk)
    · rw [if_neg (by rw [List.isEmpty_iff]; exact hleaf)]
      refine ⟨hs.mods, hs.tf_eq, hs.nf_eq, hs.path, hs.dims, fun i => ?_, fun i => ?_, hfresh, hs.params, fun i => ?_⟩
      · rw [hex, hs.hooked]
      · rw [hex, hs.names]
      · rw [hs.grad]
        refine and_congr_right fun _ => not_congr ?_
        refine exists_congr fun n' => exists_congr fun i' => ?_
        rw [hL]
        constructor
        · rintro ⟨b1, b2⟩; exact ⟨Or.inl b1, b2⟩
        · rintro ⟨b1 | ⟨rfl, rfl⟩, ⟨m', hm', b2⟩, b3⟩
          · exact ⟨b1, ⟨m', hm', b2⟩, b3⟩
          · rw [hm] at hm'
            cases hm'
            exact absurd b2 hleaf

theorem watched_fold {h : MHeap K} {tf nf : Option (List PyStr)} {lora : Bool} {w : WatchSt} : ∀ (L' L : List (PyStr × Nat)) (s : MHeap K × WatchSt),
    Watched h tf nf lora w L s → (∀ e ∈ L', e.2 < h.mods.length) → Watched h tf nf lora w (L ++ L') (L'.foldl (watchStep tf nf lora) s)
  | [], L, s, hs, _ => by simpa using hs
  | e :: L', L, s, hs, he => by
    rw [List.foldl_cons, show L ++ e :: L' = (L ++ [e]) ++ L' by simp]
    exact watched_fold L' _ _ (watched_step hs e (he e List.mem_cons_self)) fun e' h' => he e' (List.mem_cons_of_mem _ h')

theorem Reach.lt {h : MHeap K} (hw : WFModel h) {root : Nat} (hr : root < h.mods.length) {ks : List PyStr} {id : Nat} (hp : Reach h root ks id) :
    id < h.mods.length := by
  cases hp with
  | nil => exact hr
  | snoc _ he => exact hw.inside _ _ _ he

theorem namedModules_lt {h : MHeap K} (hw : WFModel h) {root : Nat} (hr : root < h.mods.length) : ∀ e ∈ h.namedModules root, e.2 < h.mods.length := by
  intro e he
  obtain ⟨ks, hp, _⟩ := namedModules_path hw he
  exact hp.lt hw hr

/-- What `watch` leaves behind, whether it raises or not. -/
theorem watch_watched {h : MHeap K} (hw : WFModel h) {root : Nat} (hr : root < h.mods.length) (tf nf : Option (List PyStr)) (w : WatchSt) :
    ∃ s, Watched h (orFilter tf w.typeFilter) (orFilter nf w.nameFilter) (h.isLora root)
        { w with typeFilter := orFilter tf w.typeFilter, nameFilter := orFilter nf w.nameFilter } (h.namedModules root) s ∧
      (watch h root tf nf w).1.1 = s.1 ∧ (watch h root tf nf w).1.2.hooked = s.2.hooked ∧ (watch h root tf nf w).1.2.names = s.2.names ∧
      (watch h root tf nf w).1.2.typeFilter = s.2.typeFilter ∧ (watch h root tf nf w).1.2.nameFilter = s.2.nameFilter ∧
      ((watch h root tf nf w).2 = none → (watch h root tf nf w).1.2.path = s.2.names.map Prod.snd) := by
  have hf := watched_fold (h := h) (tf := orFilter tf w.typeFilter) (nf := orFilter nf w.nameFilter) (lora := h.isLora root)
    (h.namedModules root) [] _ (watched_nil h _ _ _ { w with typeFilter := orFilter tf w.typeFilter, nameFilter := orFilter nf w.nameFilter })
    (namedModules_lt hw hr)
  refine ⟨_, hf, ?_⟩
  unfold watch
  dsimp only
  split
  · exact ⟨rfl, rfl, rfl, rfl, rfl, fun h => by cases h⟩
  · split
    · exact ⟨rfl, rfl, rfl, rfl, rfl, fun h => by cases h⟩
    · exact ⟨rfl, rfl, rfl, rfl, rfl, fun _ => rfl⟩

theorem isLora_hasLora (h : MHeap K) (root : Nat) : h.isLora root = true ↔ HasLora h root := isLora_iff

theorem orFilter_eq (new old : Option (List PyStr)) : orFilter new old = InEffect new old := by
  rcases new with _ | _ | _ <;> simp [orFilter, InEffect]

theorem orFilter_none_right (f : Option (List PyStr)) (test : PyStr → Prop) : Passes (orFilter f none) test ↔ Passes f test := by
  unfold Passes orFilter
  rcases f with _ | _ | ⟨a, l⟩ <;> simp

theorem selected_orFilter (h : MHeap K) (tf nf : Option (List PyStr)) (name : PyStr) (id : Nat) :
    Selected h (orFilter tf none) (orFilter nf none) name id ↔ Selected h tf nf name id := by
  unfold Selected
  simp only [orFilter_none_right]

/-- C67 for the first `watch` of a session (or the first after `clear` if the earlier ones had no filters): exactly the modules the filters describe
are tracked, each once, under their names, and `model_module`, the order used for saving, lists their names. -/
theorem C67_partial {h : MHeap K} (hw : WFModel h) {root : Nat} (hr : root < h.mods.length) (tf nf : Option (List PyStr)) :
    let r := watch h root tf nf .fresh
    (∀ id name, (id, name) ∈ r.1.2.names ↔ ToTrack h root tf nf name id) ∧ (r.1.2.names.map Prod.fst).Nodup ∧
      r.1.2.hooked = r.1.2.names.map Prod.fst ∧ (r.2 = none → r.1.2.path = r.1.2.names.map Prod.snd) := by
  intro r
  obtain ⟨s, hs, h1, h2, h3, _, _, h4⟩ := watch_watched hw hr tf nf .fresh
  obtain ⟨a1, a2, _, a3⟩ := hs.fresh rfl rfl (namedModules_nodup h root)
  refine ⟨fun id name => ?_, by rw [h3]; exact a2, by rw [h2, h3]; exact a1, fun hn => by rw [h4 hn, h3]⟩
  rw [h3, a3]
  unfold ToTrack
  rw [show WatchSt.fresh.typeFilter = none from rfl, show WatchSt.fresh.nameFilter = none from rfl, selected_orFilter, isLora_hasLora]

/-- C67 for every `watch`, whatever was watched before: afterwards a module is tracked exactly if it was tracked before or is selected by the
filters in effect, where a filter that is not given (or empty) is the one given last. -/
theorem C67_any_partial {h : MHeap K} (hw : WFModel h) {root : Nat} (hr : root < h.mods.length) (tf nf : Option (List PyStr)) (w : WatchSt) (id : Nat) :
    id ∈ (watch h root tf nf w).1.2.hooked ↔
      id ∈ w.hooked ∨ ∃ name, ToTrack h root (InEffect tf w.typeFilter) (InEffect nf w.nameFilter) name id := by
  obtain ⟨s, hs, h1, h2, h3, _, _, h4⟩ := watch_watched hw hr tf nf w
  rw [h2, hs.hooked]
  unfold ToTrack
  rw [isLora_hasLora, orFilter_eq, orFilter_eq]

/-- `watch` raises nothing if it tracks something and the modules of supported types have weights. -/
theorem C67_succeeds {h : MHeap K} (hw : WFModel h) {root : Nat} (hr : root < h.mods.length) (tf nf : Option (List PyStr))
    (hwt : ∀ (id : Nat) (m : MObj), h.mods[id]? = some m → (nLinear ∈ m.mro ∨ nConv1d ∈ m.mro ∨ nConv2d ∈ m.mro) → ∃ i, (nWeight, i) ∈ m.params)
    (hsel : ∃ name id, ToTrack h root tf nf name id) : (watch h root tf nf .fresh).2 = none := by
  obtain ⟨n0, i0, h0⟩ := hsel
  obtain ⟨hmem, -, -, -⟩ := C67_partial hw hr tf nf
  have hne := (hmem i0 n0).2 h0
  have hf := watched_fold (h := h) (tf := orFilter tf none) (nf := orFilter nf none) (lora := h.isLora root)
    (h.namedModules root) [] _ (watched_nil h _ _ _ { WatchSt.fresh with typeFilter := orFilter tf none, nameFilter := orFilter nf none })
    (namedModules_lt hw hr)
  have hpar : ∀ id name, ToTrack h root tf nf name id →
      ∃ t, ((h.namedModules root).foldl (watchStep (orFilter tf none) (orFilter nf none) (h.isLora root))
        (h, { WatchSt.fresh with typeFilter := orFilter tf none, nameFilter := orFilter nf none })).1.paramVal id nWeight = some t := by
    rintro id name ⟨_, ⟨m, hm, hc, hs, _, _⟩, _⟩
    obtain ⟨i, hi⟩ := hwt id m hm hs
    have hg : ∃ j, Dict.get? m.params nWeight = some j ∧ j < h.params.length := by
      cases hj : Dict.get? m.params nWeight with
      | none => exact absurd (List.mem_map_of_mem (f := Prod.fst) hi) ((Dict.get?_eq_none_iff _ _).1 hj)
      | some j => exact ⟨j, rfl, hw.params id m _ j hm (Dict.mem_of_get? _ hj)⟩
    obtain ⟨j, hj, hjl⟩ := hg
    unfold MHeap.paramVal MHeap.paramId
    rw [hf.mods, hm]
    dsimp only [Option.bind_some]
    rw [hj]
    dsimp only [Option.bind_some]
    rw [hf.params, List.getElem?_eq_getElem hjl]
    exact ⟨_, rfl⟩
  unfold watch at hne hmem ⊢
  dsimp only at hne hmem ⊢
  rw [show WatchSt.fresh.typeFilter = none from rfl, show WatchSt.fresh.nameFilter = none from rfl] at hne hmem ⊢
  revert hne hmem hpar
  generalize (h.namedModules root).foldl (watchStep (orFilter tf none) (orFilter nf none) (h.isLora root))
        (h, { WatchSt.fresh with typeFilter := orFilter tf none, nameFilter := orFilter nf none }) = s
  intro hmem hne hpar
  have hmap : ∃ ts, (s.2.names.mapM fun e => s.1.paramVal e.1 nWeight) = some ts ∧ ts.length = s.2.names.length := by
    have hall : ∀ e ∈ s.2.names, ∃ t, s.1.paramVal e.1 nWeight = some t := by
      intro e he
      refine hpar e.1 e.2 ((hmem _ _).1 ?_)
      split
      · exact he
      · split <;> exact he
    clear hmem hne hpar
    generalize s.2.names = l at hall ⊢
    induction l with
    | nil => exact ⟨[], rfl, rfl⟩
    | cons e l ih =>
      obtain ⟨t, ht⟩ := hall e List.mem_cons_self
      obtain ⟨ts, h1, h2⟩ := ih fun e he => hall e (List.mem_cons_of_mem _ he)
      exact ⟨t :: ts, by rw [List.mapM_cons, ht, h1]; rfl, by simp [h2]⟩
  obtain ⟨ts, h1, h2⟩ := hmap
  rw [h1] at hne ⊢
  dsimp only at hne ⊢
  have : s.2.names ≠ [] := by
    intro h0
    split at hne <;> simp [h0] at hne
  rw [if_neg]
  rw [List.isEmpty_iff, ← List.length_eq_zero_iff, h2, List.length_eq_zero_iff]
  exact this

/-- C68, exactly: after any `watch` a parameter requires a gradient if it did before and no leaf that the call did not select has it. -/
theorem C68_exact_partial {h : MHeap K} (hw : WFModel h) {root : Nat} (hr : root < h.mods.length) (tf nf : Option (List PyStr)) (w : WatchSt) (i : Nat) :
    RequiresGrad (watch h root tf nf w).1.1 i ↔ RequiresGrad h i ∧
      ¬ ∃ name id, (name, id) ∈ h.namedModules root ∧ IsLeaf h id ∧
        ¬ ToTrack h root (InEffect tf w.typeFilter) (InEffect nf w.nameFilter) name id ∧ OwnsParam h id i := by
  obtain ⟨s, hs, h1, _⟩ := watch_watched hw hr tf nf w
  rw [h1, hs.grad]
  refine and_congr_right fun _ => not_congr (exists_congr fun name => exists_congr fun id => and_congr_right fun hm => and_congr_right fun _ =>
    and_congr_left fun _ => not_congr ?_)
  unfold ToTrack
  rw [isLora_hasLora, orFilter_eq, orFilter_eq]
  exact ⟨fun h => ⟨hm, h⟩, fun h => h.2⟩

/-- C68 for the first `watch` of a session, for models in which no parameter belongs to several leaves: the parameters of tracked modules require
gradients if they did before, those of the other leaves do not. -/
theorem C68_partial {h : MHeap K} (hw : WFModel h) {root : Nat} (hr : root < h.mods.length) (tf nf : Option (List PyStr))
    (hun : ∀ id id' i, IsLeaf h id → IsLeaf h id' → OwnsParam h id i → OwnsParam h id' i → id = id') :
    let r := watch h root tf nf .fresh
    ∀ name id i, (name, id) ∈ h.namedModules root → IsLeaf h id → OwnsParam h id i →
      (id ∈ r.1.2.hooked → (RequiresGrad r.1.1 i ↔ RequiresGrad h i)) ∧ (id ∉ r.1.2.hooked → ¬ RequiresGrad r.1.1 i) := by
  intro r name id i hmem hleaf hown
  have hinj : ∀ n', (n', id) ∈ h.namedModules root → n' = name := by
    intro n' hn'
    have := List.inj_on_of_nodup_map (namedModules_nodup h root) hn' hmem rfl
    exact congrArg Prod.fst this
  have hh := C67_any_partial hw hr tf nf .fresh id
  have hex := C68_exact_partial hw hr tf nf .fresh i
  constructor
  · intro ht
    rw [hex]
    refine ⟨fun h => h.1, fun h' => ⟨h', ?_⟩⟩
    rintro ⟨n', id', b1, b2, b3, b4⟩
    have := hun _ _ i b2 hleaf b4 hown
    subst this
    rcases hh.1 ht with h0 | ⟨n2, h2⟩
    · simp [WatchSt.fresh] at h0
    · rw [hinj n' b1, ← hinj n2 h2.1] at b3
      exact b3 h2
  · intro ht hg
    rw [hex] at hg
    refine hg.2 ⟨name, id, hmem, hleaf, fun h2 => ht (hh.2 (Or.inr ⟨name, h2⟩)), hown⟩

end Logix
