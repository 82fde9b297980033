/-
Modules by name: paths, `named_modules`, `module_check`.
-/
import Verif.Spec.Modules
import Verif.Lemmas.Walk
import Verif.Props.Groups
import Mathlib.Data.Finset.Card

namespace Logix
variable {K : Type}

/-! ### Names -/

theorem splitDot_dotfree : ∀ {k : PyStr}, '.' ∉ k → splitDot k = [k]
  | [], _ => rfl
  | c :: s, h => by
    have hc : c ≠ '.' := fun h' => h (by rw [h']; exact List.mem_cons_self)
    have hs : '.' ∉ s := fun h' => h (List.mem_cons_of_mem _ h')
    unfold splitDot
    rw [if_neg hc, splitDot_dotfree hs]

theorem splitDot_ne_nil : ∀ s : PyStr, splitDot s ≠ []
  | [] => by simp [splitDot]
  | c :: s => by
    unfold splitDot
    split
    · simp
    · split <;> simp

theorem splitDot_append : ∀ (a b : PyStr), splitDot (a ++ '.' :: b) = splitDot a ++ splitDot b
  | [], b => by simp [splitDot]
  | c :: a, b => by
    rw [List.cons_append]
    conv_lhs => unfold splitDot
    conv_rhs => lhs; unfold splitDot
    by_cases hc : c = '.'
    · rw [if_pos hc, if_pos hc, splitDot_append a b, List.cons_append]
    · rw [if_neg hc, if_neg hc, splitDot_append a b]
      cases h : splitDot a with
      | nil => exact absurd h (splitDot_ne_nil a)
      | cons p ps => rfl

theorem dotted_cons (k : PyStr) {ks : List PyStr} (h : ks ≠ []) : dotted (k :: ks) = k ++ '.' :: dotted ks := by
  cases ks with
  | nil => exact absurd rfl h
  | cons k' ks => rfl

theorem dotted_snoc : ∀ {ks : List PyStr} (k : PyStr), ks ≠ [] → dotted (ks ++ [k]) = dotted ks ++ '.' :: k
  | [], _, h => absurd rfl h
  | [a], k, _ => rfl
  | a :: b :: ks, k, _ => by
    rw [List.cons_append, dotted_cons a (by simp), dotted_snoc (ks := b :: ks) k (by simp), dotted_cons a (by simp)]
    simp

theorem dotted_ne_nil : ∀ {ks : List PyStr}, (∀ k ∈ ks, k ≠ []) → ks ≠ [] → dotted ks ≠ []
  | [], _, h => absurd rfl h
  | [a], h, _ => h a List.mem_cons_self
  | a :: b :: ks, h, _ => by
    rw [dotted_cons a (by simp)]
    have := h a List.mem_cons_self
    cases a with
    | nil => exact absurd rfl this
    | cons x y => simp

theorem childName_dotted {ks : List PyStr} (k : PyStr) (h : ∀ k ∈ ks, k ≠ []) : childName (dotted ks) k = dotted (ks ++ [k]) := by
  unfold childName
  by_cases hks : ks = []
  · subst hks; rfl
  · rw [if_neg (dotted_ne_nil h hks), dotted_snoc k hks]

theorem splitDot_dotted : ∀ {ks : List PyStr}, (∀ k ∈ ks, '.' ∉ k) → ks ≠ [] → splitDot (dotted ks) = ks
  | [], _, h => absurd rfl h
  | [a], h, _ => splitDot_dotfree (h a List.mem_cons_self)
  | a :: b :: ks, h, _ => by
    rw [dotted_cons a (by simp), splitDot_append, splitDot_dotfree (h a List.mem_cons_self),
      splitDot_dotted (ks := b :: ks) (fun k hk => h k (List.mem_cons_of_mem _ hk)) (by simp)]
    rfl

/-! ### Entries and paths -/

theorem mem_kids {h : MHeap K} {p : Nat} {k : PyStr} {c : Nat} : (k, c) ∈ h.kids p ↔ Entry h p k c := by
  unfold MHeap.kids Entry
  cases hm : h.mods[p]? with
  | none => simp
  | some m => simp

theorem WFModel.nodup_kids {h : MHeap K} (hw : WFModel h) (p : Nat) : (Dict.keys (h.kids p)).Nodup := by
  unfold MHeap.kids
  cases hm : h.mods[p]? with
  | none => exact List.nodup_nil
  | some m => exact hw.keys p m hm

theorem WFModel.get_kids {h : MHeap K} (hw : WFModel h) {p : Nat} {k : PyStr} {c : Nat} : Dict.get? (h.kids p) k = some c ↔ Entry h p k c := by
  rw [← mem_kids]
  exact ⟨fun h' => Dict.mem_of_get? _ h', fun h' => Dict.get?_of_mem _ (hw.nodup_kids p) h'⟩

theorem Entry.lt {h : MHeap K} {p : Nat} {k : PyStr} {c : Nat} (he : Entry h p k c) : p < h.mods.length := by
  obtain ⟨m, hm, _⟩ := he
  exact (List.getElem?_eq_some_iff.1 hm).1

theorem Reach.names {h : MHeap K} (hw : WFModel h) {root : Nat} {ks : List PyStr} {id : Nat} (hp : Reach h root ks id) :
    ∀ k ∈ ks, k ≠ [] ∧ '.' ∉ k := by
  induction hp with
  | nil => simp
  | snoc _ he ih =>
    intro k hk
    rcases List.mem_append.1 hk with hk | hk
    · exact ih k hk
    · rw [List.mem_singleton.1 hk]
      exact hw.names _ _ _ he

theorem Reach.functional {h : MHeap K} (hw : WFModel h) {root : Nat} {ks : List PyStr} {a b : Nat} (ha : Reach h root ks a) (hb : Reach h root ks b) : a = b := by
  induction ha generalizing b with
  | nil =>
    generalize hks : ([] : List PyStr) = l at hb
    cases hb with
    | nil => rfl
    | snoc => simp at hks
  | @snoc ks p k c hp he ih =>
    generalize hl : ks ++ [k] = l at hb
    cases hb with
    | nil => simp at hl
    | @snoc ks' p' k' _ hp' he' =>
      obtain ⟨h1, h2⟩ := List.append_inj' hl rfl
      subst h1
      cases h2
      have := ih hp'
      subst this
      have h3 := hw.get_kids.2 he
      rw [hw.get_kids.2 he'] at h3
      exact (Option.some.inj h3).symm

theorem Reach.dotted_inj {h : MHeap K} (hw : WFModel h) {root : Nat} {ks ks' : List PyStr} {a b : Nat} (ha : Reach h root ks a) (hb : Reach h root ks' b)
    (he : dotted ks = dotted ks') : ks = ks' := by
  have na := ha.names hw
  have nb := hb.names hw
  by_cases h1 : ks = []
  · by_cases h2 : ks' = []
    · rw [h1, h2]
    · subst h1
      exact absurd he.symm (dotted_ne_nil (fun k hk => (nb k hk).1) h2)
  · by_cases h2 : ks' = []
    · subst h2
      exact absurd he (dotted_ne_nil (fun k hk => (na k hk).1) h1)
    · rw [← splitDot_dotted (fun k hk => (na k hk).2) h1, he, splitDot_dotted (fun k hk => (nb k hk).2) h2]

/-- The number that decreases can be chosen at most the number of modules. -/
theorem WFModel.rank {h : MHeap K} (hw : WFModel h) : ∃ d : Nat → Nat, (∀ i, d i ≤ h.mods.length) ∧ ∀ p k c, Entry h p k c → d c < d p := by
  obtain ⟨d, hd⟩ := hw.acyclic
  refine ⟨fun i => ((Finset.range h.mods.length).filter fun j => d j < d i).card, fun i => ?_, fun p k c he => ?_⟩
  · exact (Finset.card_filter_le _ _).trans (by simp)
  · apply Finset.card_lt_card
    rw [Finset.ssubset_iff_of_subset]
    · exact ⟨c, by simp [hw.inside p k c he, hd p k c he], by simp⟩
    · intro j hj
      simp only [Finset.mem_filter] at hj ⊢
      exact ⟨hj.1, hj.2.trans (hd p k c he)⟩

/-! ### `named_modules` -/

/-- Every pair yielded is a module with the name of a path to it; every module that can be reached is yielded, once. -/
theorem namedModules_path {h : MHeap K} (hw : WFModel h) {root : Nat} {e : PyStr × Nat} (he : e ∈ h.namedModules root) :
    ∃ ks, Reach h root ks e.2 ∧ e.1 = dotted ks := by
  refine visits_all (K0 := h.kids) (fun pre id => ∃ ks, Reach h root ks id ∧ pre = dotted ks) ?_ _ _ _ _ ⟨[], .nil, rfl⟩ e he
  rintro pre p k c ⟨ks, hp, rfl⟩ hk
  exact ⟨ks ++ [k], hp.snoc (mem_kids.1 hk), childName_dotted k (fun k' hk' => (hp.names hw k' hk').1)⟩

theorem namedModules_nodup (h : MHeap K) (root : Nat) : ((h.namedModules root).map Prod.snd).Nodup :=
  (visits_memo (K0 := h.kids) _ _ _ _).2.1

theorem namedModules_complete {h : MHeap K} (hw : WFModel h) {root : Nat} {ks : List PyStr} {id : Nat} (hp : Reach h root ks id) :
    ∃ name, (name, id) ∈ h.namedModules root := by
  obtain ⟨d, hd1, hd2⟩ := hw.rank
  have hm := visits_memo (K0 := h.kids) (h.mods.length + 1) [] root []
  have hc := visits_closed (K0 := h.kids) (d := d) (fun p k c hk => hd2 p k c (mem_kids.1 hk)) (h.mods.length + 1) [] root []
    (by have := hd1 root; omega)
  have key : id ∈ (visits h.kids (h.mods.length + 1) [] root []).2 := by
    induction hp with
    | nil => exact hc.1
    | snoc _ he ih =>
      rcases (hm.1 _).1 ih with h' | h'
      · simp at h'
      · obtain ⟨e, he', rfl⟩ := List.mem_map.1 h'
        exact hc.2 e he' _ _ (mem_kids.2 he)
  rcases (hm.1 _).1 key with h' | h'
  · simp at h'
  · obtain ⟨e, he, rfl⟩ := List.mem_map.1 h'
    exact ⟨e.1, he⟩

/-! ### `module_check` -/

theorem passes_iff (f : Option (List PyStr)) (test : PyStr → Prop) (b : PyStr → Bool) (hb : ∀ x, b x = true ↔ test x) :
    ((f.getD []).isEmpty || (f.getD []).any b) = true ↔ Passes f test := by
  unfold Passes
  rw [Bool.or_eq_true, List.any_eq_true]
  cases f with
  | none => simp
  | some l =>
    simp only [Option.getD_some, Option.some.injEq, List.isEmpty_iff]
    constructor
    · rintro (h | ⟨x, hx, ht⟩) l' rfl hne
      · exact absurd h hne
      · exact ⟨x, hx, (hb x).1 ht⟩
    · intro h
      by_cases hl : l = []
      · exact Or.inl hl
      · obtain ⟨x, hx, ht⟩ := h l rfl hl
        exact Or.inr ⟨x, hx, (hb x).2 ht⟩

theorem moduleCheck_iff {h : MHeap K} {id : Nat} {m : MObj} (hm : h.mods[id]? = some m) (name : PyStr) (tf nf : Option (List PyStr)) (lora : Bool) :
    moduleCheck m name supportedModules tf nf lora = true ↔ Selected h tf nf name id ∧ (lora = true → nB <:+: name) := by
  unfold moduleCheck Selected
  rw [Bool.and_eq_true, Bool.and_eq_true, Bool.and_eq_true, Bool.and_eq_true,
    passes_iff tf (· ∈ m.mro) _ (fun x => by simp), passes_iff nf (· <:+: name) _ (fun x => isSub_iff x name)]
  have hs : (supportedModules.isEmpty || supportedModules.any fun c => decide (c ∈ m.mro)) = true ↔ (nLinear ∈ m.mro ∨ nConv1d ∈ m.mro ∨ nConv2d ∈ m.mro) := by
    simp [supportedModules]
  rw [hs, List.isEmpty_iff]
  constructor
  · rintro ⟨⟨⟨⟨h1, h2⟩, h3⟩, h4⟩, h5⟩
    refine ⟨⟨m, hm, h1, h2, h3, h4⟩, fun hl => ?_⟩
    rw [Bool.or_eq_true] at h5
    rcases h5 with h5 | h5
    · simp [hl] at h5
    · exact (isSub_iff _ _).1 h5
  · rintro ⟨⟨m', hm', h1, h2, h3, h4⟩, h5⟩
    rw [hm] at hm'
    cases hm'
    refine ⟨⟨⟨⟨h1, h2⟩, h3⟩, h4⟩, ?_⟩
    cases lora
    · rfl
    · rw [(isSub_iff _ _).2 (h5 rfl)]
      rfl

theorem isLora_iff {h : MHeap K} {root : Nat} : h.isLora root = true ↔ ∃ e ∈ h.namedModules root, nB <:+: e.1 := by
  unfold MHeap.isLora
  rw [List.any_eq_true]
  exact exists_congr fun e => and_congr_right fun _ => isSub_iff _ _

end Logix
