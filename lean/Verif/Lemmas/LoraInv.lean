/-
What `add_lora` has done to a model.
-/
import Verif.Lemmas.LoraStep

set_option linter.unusedSectionVars false

namespace Logix
variable {K : Type} [Zero K]

theorem foldlM_inv {α σ : Type} (f : σ → α → Py σ) (I : List α → σ → Prop) : ∀ (l L : List α) (s s' : σ), I L s →
    (∀ L' a s s', (L' ++ [a]) <+: (L ++ l) → I L' s → f s a = .ok s' → I (L' ++ [a]) s') → l.foldlM f s = .ok s' → I (L ++ l) s'
  | [], L, s, s', hI, _, h => by
    cases h
    simpa using hI
  | a :: l, L, s, s', hI, hstep, h => by
    rw [List.foldlM_cons] at h
    cases hf : f s a with
    | error e => rw [hf] at h; cases h
    | ok s1 =>
      rw [hf] at h
      have e : L ++ a :: l = (L ++ [a]) ++ l := by simp
      have h1 := hstep L a s s1 (by rw [e]; exact List.prefix_append _ _) hI hf
      rw [e]
      exact foldlM_inv f I l (L ++ [a]) s1 s' h1 (by rw [← e]; exact hstep) h

/-- Parameter `x` is not the weight of a bottleneck that later wrappers may share. -/
def FreeOf (s : LoraSt K) (x : Nat) : Prop := ∀ g b, Dict.get? s.shared g = some b → s.heap.paramId b nWeight ≠ some x

/-- The encoder and the decoder of wrapper `w` have their initial weights and keep them. -/
def Fixed (E : LoraEnv K) (dev : Dev) (s : LoraSt K) (name : PyStr) (l : Layer) (w : Nat) : Prop :=
  ∃ pa pc, ValsAt E dev name l s.heap w pa pc ∧ FreeOf s pa ∧ FreeOf s pc

/-- The attribute `k` of module `p` is a wrapper of `c`. -/
def WrappedAt (E : LoraEnv K) (dev : Dev) (h0 : MHeap K) (s : LoraSt K) (p : Nat) (k : PyStr) (c : Nat) (name : PyStr) : Prop :=
  ∃ w b m psg, Dict.get? (s.heap.kids p) k = some w ∧ h0.mods.length ≤ w ∧ h0.mods[c]? = some m ∧ (nLinear ∈ m.mro ∨ nConv1d ∉ m.mro) ∧
    WrapAt h0.params.length dev E.rank s.heap w c b m.layer ∧ findGroup name E.groups = .ok psg ∧
    (E.sharing = true → Dict.get? s.shared psg = some b) ∧ (E.sharing = false → b + 2 = w ∧ BotAt h0.params.length dev E.rank s.heap b m.layer) ∧
    Fixed E dev s name m.layer w

/-- The entry `(p, k)` is the one by which the loop came to a selected module. -/
def Hit (h0 : MHeap K) (root : Nat) (tf nf : Option (List PyStr)) (L : List (PyStr × Nat)) (p : Nat) (k : PyStr) (c : Nat) (name : PyStr) : Prop :=
  ∃ ks, Reach h0 root ks p ∧ Entry h0 p k c ∧ name = dotted (ks ++ [k]) ∧ (name, c) ∈ L ∧ Selected h0 tf nf name c

structure LInv (E : LoraEnv K) (dev : Dev) (h0 : MHeap K) (root : Nat) (tf nf : Option (List PyStr)) (L : List (PyStr × Nat)) (s : LoraSt K) : Prop where
  good : LGood h0 s
  par : ParExt h0.params.length dev h0 s.heap
  kids : ∀ p k c, Entry h0 p k c → (∃ name, Hit h0 root tf nf L p k c name ∧ WrappedAt E dev h0 s p k c name) ∨
    ((¬ ∃ name, Hit h0 root tf nf L p k c name) ∧ Dict.get? (s.heap.kids p) k = some c)
  noshare : E.sharing = false → s.shared = []
  inj : ∀ g g' b, Dict.get? s.shared g = some b → Dict.get? s.shared g' = some b → g = g'
  first : ∀ g b, Dict.get? s.shared g = some b → ∃ name id m, (name, id) ∈ L ∧ Selected h0 tf nf name id ∧ h0.mods[id]? = some m ∧
    findGroup name E.groups = .ok g ∧ FirstBot h0.params.length dev E.rank s.heap b m

variable {h0 : MHeap K} {root : Nat} {E : LoraEnv K} {dev : Dev} {tf nf : Option (List PyStr)}

theorem LInv.start (hw : WFModel h0) : LInv E dev h0 root tf nf [] ⟨h0, []⟩ := by
  refine ⟨⟨fun i m hm => ⟨m, hm, rfl, rfl, rfl, rfl⟩, fun p k c he _ => hw.get_kids.2 he, le_rfl, fun g b h => by simp at h⟩, .refl _ _ _, ?_,
    fun _ => rfl, fun g g' b h => by simp at h, fun g b h => by simp at h⟩
  intro p k c he
  right
  refine ⟨?_, hw.get_kids.2 he⟩
  rintro ⟨name, ks, _, _, _, h, _⟩
  simp at h

theorem LInv.skip {L : List (PyStr × Nat)} {s : LoraSt K} (hI : LInv E dev h0 root tf nf L s) {e : PyStr × Nat} (hns : ¬ Selected h0 tf nf e.1 e.2) :
    LInv E dev h0 root tf nf (L ++ [e]) s := by
  have hit : ∀ p k c name, Hit h0 root tf nf (L ++ [e]) p k c name ↔ Hit h0 root tf nf L p k c name := by
    intro p k c name
    unfold Hit
    refine exists_congr fun ks => and_congr_right fun _ => and_congr_right fun _ => and_congr_right fun _ => ?_
    rw [List.mem_append, List.mem_singleton]
    constructor
    · rintro ⟨h | h, h'⟩
      · exact ⟨h, h'⟩
      · rw [← h] at hns
        exact absurd h' hns
    · rintro ⟨h, h'⟩; exact ⟨Or.inl h, h'⟩
  refine ⟨hI.good, hI.par, ?_, hI.noshare, hI.inj, ?_⟩
  · intro p k c he
    simp only [hit]
    exact hI.kids p k c he
  · intro g b h
    obtain ⟨name, id, m, h1, h2⟩ := hI.first g b h
    exact ⟨name, id, m, List.mem_append_left _ h1, h2⟩

theorem LInv.step (hw : WFModel h0) {L : List (PyStr × Nat)} {s s' : LoraSt K} (hI : LInv E dev h0 root tf nf L s) {name : PyStr} {id p : Nat} {k : PyStr}
    {m : MObj} {psg : PyStr} {h2 : MHeap K} {w b : Nat} {ks : List PyStr} (hreach : Reach h0 root ks p) (he : Entry h0 p k id)
    (hname : name = dotted (ks ++ [k])) (hsel : Selected h0 tf nf name id) (hst : Step E dev h0 name id p k s s' m psg h2 w b) :
    LInv E dev h0 root tf nf (L ++ [(name, id)]) s' := by
  have hleaf : IsLeaf h0 id := by obtain ⟨m', h1, h2, _⟩ := hsel; exact ⟨m', h1, h2⟩
  obtain ⟨g1, g2, g3⟩ := hst.good hw hI.good he hleaf
  have hpk : s.heap.kids p ≠ [] := by
    obtain ⟨mp, hmp, hk⟩ := he
    obtain ⟨m', hm', _, _, _, e4⟩ := hI.good.old p _ hmp
    rw [kids_of hm']
    intro h
    rw [h] at e4
    have := List.mem_map_of_mem (f := Prod.fst) hk
    rw [show List.map Prod.fst _ = Dict.keys _ from rfl, ← e4] at this
    simp [Dict.keys] at this
  have hpk2 : h2.kids p ≠ [] := by rw [hI.good.kids_grow hst.grow he.lt]; exact hpk
  have hNs : h0.mods.length ≤ s.heap.mods.length := by
    by_contra hlt
    obtain ⟨m', hm', _⟩ := hI.good.old s.heap.mods.length _ (List.getElem?_eq_getElem (by omega))
    have := (List.getElem?_eq_some_iff.1 hm').1
    omega
  have hshared : ∀ g b', Dict.get? s.shared g = some b' → Dict.get? s'.shared g = some b' := by
    intro g b' hb'
    cases hgs : Dict.get? s.shared psg with
    | some b1 => rw [(hst.shared ⟨b1, hgs⟩).1]; exact hb'
    | none =>
      cases hsh : E.sharing with
      | false => rw [(hst.own hgs hsh).1]; exact hb'
      | true =>
        rw [(hst.make hgs hsh).1, Dict.get?_set_ne _ _ (fun h => by rw [h, hb'] at hgs; cases hgs)]
        exact hb'
  have hitL : ∀ p' k' c' n', Hit h0 root tf nf L p' k' c' n' → Hit h0 root tf nf (L ++ [(name, id)]) p' k' c' n' := by
    rintro p' k' c' n' ⟨ks', h1, h2, h3, h4, h5⟩
    exact ⟨ks', h1, h2, h3, List.mem_append_left _ h4, h5⟩
  have hitR : ∀ p' k' c' n', Hit h0 root tf nf (L ++ [(name, id)]) p' k' c' n' → Hit h0 root tf nf L p' k' c' n' ∨ (p' = p ∧ k' = k) := by
    rintro p' k' c' n' ⟨ks', h1, h2, h3, h4, h5⟩
    rcases List.mem_append.1 h4 with h4 | h4
    · exact Or.inl ⟨ks', h1, h2, h3, h4, h5⟩
    · right
      rw [List.mem_singleton, Prod.mk.injEq] at h4
      have := (h1.snoc h2).dotted_inj hw (hreach.snoc he) (by rw [← h3, ← hname, h4.1])
      obtain ⟨e1, e2⟩ := List.append_inj' this rfl
      subst e1
      cases e2
      exact ⟨h1.functional hw hreach, rfl⟩
  have hpar2 : ParExt h0.params.length dev h2 s'.heap := by
    rw [hst.heap]
    intro i q hq
    exact ⟨q, hq, rfl, rfl, fun h => h, fun _ => Or.inl rfl, fun h => h⟩
  have hfree : ∀ x q, s.heap.params[x]? = some q → FreeOf s x → FreeOf s' x := by
    intro x q hx hf g b' hb' hp'
    have hxl := (List.getElem?_eq_some_iff.1 hx).1
    rw [hst.heap, setChild_paramId] at hp'
    have old : Dict.get? s.shared g = some b' → False := by
      intro h
      obtain ⟨⟨p1, y1, _⟩, _⟩ := hI.good.sh g b' h
      obtain ⟨mb, hmb, hgp⟩ := paramId_some y1
      rw [paramId_of (hst.grow.mods hmb), hgp] at hp'
      cases hp'
      exact hf g b' h y1
    cases hgs : Dict.get? s.shared psg with
    | some b1 => rw [(hst.shared ⟨b1, hgs⟩).1] at hb'; exact old hb'
    | none =>
      cases hsh : E.sharing with
      | false => rw [(hst.own hgs hsh).1] at hb'; exact old hb'
      | true =>
        obtain ⟨y1, y2, y3, y4⟩ := hst.make hgs hsh
        rw [y1, Dict.get?_set] at hb'
        split at hb'
        · cases hb'
          exact hst.newbot hgs hsh x hxl hp'
        · exact old hb'
  have hfixed : ∀ n' l' w', h0.mods.length ≤ w' → Fixed E dev s n' l' w' → Fixed E dev s' n' l' w' := by
    rintro n' l' w' hw' ⟨pa, pc, ⟨pca, mw, a, c, i, j, v1, v2, v3, v4, v5, v6, v7, v8⟩, fa, fc⟩
    have hkeep : ∀ x sh f, Holds s.heap x sh f → FreeOf s x → Holds s'.heap x sh f := by
      intro x sh f hx hf
      have := hx.keep hst.keep (by
        rintro ⟨b', hb', hp'⟩
        exact hf _ _ hb' hp')
      rw [hst.heap]
      exact this
    have hid : ∀ a x, s.heap.paramId a nWeight = some x → s'.heap.paramId a nWeight = some x := by
      intro a x hx
      obtain ⟨ma, hma, hgp⟩ := paramId_some hx
      rw [hst.heap, setChild_paramId, paramId_of (hst.grow.mods hma), hgp]
    have hex : ∀ x sh f, Holds s.heap x sh f → ∃ q, s.heap.params[x]? = some q := fun x sh f h => ⟨h.choose, h.choose_spec.1⟩
    obtain ⟨qa, hqa⟩ := hex _ _ _ v7
    obtain ⟨qc, hqc⟩ := hex _ _ _ v8
    refine ⟨pa, pc, ⟨pca, mw, a, c, i, j, v1, ?_, v3, v4, hid a pa v5, hid c pc v6, hkeep _ _ _ v7 fa, hkeep _ _ _ v8 fc⟩, hfree pa qa hqa fa, hfree pc qc hqc fc⟩
    rw [hst.heap]
    exact setChild_other (hst.grow.mods v2) (by have := he.lt; omega)
  have fwd : ∀ w' c' b' l', h0.mods.length ≤ w' → WrapAt h0.params.length dev E.rank s.heap w' c' b' l' →
      WrapAt h0.params.length dev E.rank s'.heap w' c' b' l' := by
    intro w' c' b' l' hw' h
    rw [hst.heap]
    exact (h.grow hst.grow).setChild hpk2 (by have := he.lt; omega) k w
  refine ⟨g1, (hI.par.trans hst.grow.2).trans hpar2, ?_, ?_, ?_, ?_⟩
  · intro p' k' c' he'
    by_cases hpp : p' = p ∧ k' = k
    · obtain ⟨rfl, rfl⟩ := hpp
      have hc : c' = id := by
        have := hw.get_kids.2 he
        rw [hw.get_kids.2 he'] at this
        exact Option.some.inj this
      subst hc
      left
      refine ⟨name, ⟨ks, hreach, he, hname, List.mem_append_right _ (by simp), hsel⟩, w, b, m, psg, g3, by have := hst.fresh.1; omega, hst.obj, hst.conv1d, ?_,
        hst.group, fun hs => ?_, fun hs => ?_, ?_⟩
      · rw [hst.heap]
        exact hst.wrap.setChild hpk2 (by have := hst.fresh.1; have := he.lt; omega) _ _
      · cases hgs : Dict.get? s.shared psg with
        | some b1 =>
          obtain ⟨y1, y2⟩ := hst.shared ⟨b1, hgs⟩
          rw [y1, ← y2, hgs]
        | none => rw [(hst.make hgs hs).1, Dict.get?_set_self]
      · have hgs : Dict.get? s.shared psg = none := by rw [hI.noshare hs]; rfl
        obtain ⟨_, _, y3, y4⟩ := hst.own hgs hs
        refine ⟨y3, ?_⟩
        rw [hst.heap]
        exact y4.setChild hpk2 _ _
      · obtain ⟨pa, pc, v1, v2, ⟨pca, mw, a, c, i, j, u1, u2, u3, u4, u5, u6, u7, u8⟩, v4⟩ := hst.vals
        refine ⟨pa, pc, ⟨pca, mw, a, c, i, j, u1, ?_, u3, u4, ?_, ?_, ?_, ?_⟩, fun g b' hb' => ?_, fun g b' hb' => ?_⟩
        · rw [hst.heap]
          exact setChild_other u2 (by have := hst.fresh.1; have := he.lt; omega)
        · rw [hst.heap, setChild_paramId]; exact u5
        · rw [hst.heap, setChild_paramId]; exact u6
        · rw [hst.heap]; exact u7
        · rw [hst.heap]; exact u8
        · rw [hst.heap, setChild_paramId]; exact (v4 g b' hb').1
        · rw [hst.heap, setChild_paramId]; exact (v4 g b' hb').2
    · have hget := g2 p' k' he'.lt (fun h => hpp (by cases h; exact ⟨rfl, rfl⟩))
      rcases hI.kids p' k' c' he' with ⟨n', h1, w', b', m', psg', z1, z2, z3, z4, z5, z6, z7, z8, z9⟩ | ⟨h1, h2'⟩
      · left
        refine ⟨n', hitL _ _ _ _ h1, w', b', m', psg', by rw [hget, z1], z2, z3, z4, fwd _ _ _ _ z2 z5, z6, fun hs => hshared _ _ (z7 hs), fun hs => ?_, hfixed _ _ _ z2 z9⟩
        obtain ⟨y1, y2⟩ := z8 hs
        refine ⟨y1, ?_⟩
        rw [hst.heap]
        exact (y2.grow hst.grow).setChild hpk2 _ _
      · right
        refine ⟨?_, by rw [hget, h2']⟩
        rintro ⟨n', hn'⟩
        rcases hitR _ _ _ _ hn' with h | h
        · exact h1 ⟨n', h⟩
        · exact hpp h
  · intro hs
    have hgs : Dict.get? s.shared psg = none := by rw [hI.noshare hs]; rfl
    rw [(hst.own hgs hs).1, hI.noshare hs]
  · intro g g' b' hb hb'
    cases hgs : Dict.get? s.shared psg with
    | some b1 =>
      rw [(hst.shared ⟨b1, hgs⟩).1] at hb hb'
      exact hI.inj g g' b' hb hb'
    | none =>
      cases hsh : E.sharing with
      | false =>
        rw [(hst.own hgs hsh).1] at hb hb'
        exact hI.inj g g' b' hb hb'
      | true =>
        obtain ⟨y1, y2, _⟩ := hst.make hgs hsh
        rw [y1, Dict.get?_set] at hb hb'
        by_cases h1 : psg = g <;> by_cases h2 : psg = g'
        · rw [← h1, ← h2]
        · rw [if_pos h1] at hb
          rw [if_neg h2] at hb'
          cases hb
          have := (hI.good.sh g' _ hb').2
          omega
        · rw [if_neg h1] at hb
          rw [if_pos h2] at hb'
          cases hb'
          have := (hI.good.sh g _ hb).2
          omega
        · rw [if_neg h1] at hb
          rw [if_neg h2] at hb'
          exact hI.inj g g' b' hb hb'
  · intro g b' hb'
    have key : Dict.get? s.shared g = some b' → ∃ name' id' m', (name', id') ∈ L ++ [(name, id)] ∧ Selected h0 tf nf name' id' ∧ h0.mods[id']? = some m' ∧
        findGroup name' E.groups = .ok g ∧ FirstBot h0.params.length dev E.rank s'.heap b' m' := by
      intro h
      obtain ⟨n', i', m', x1, x2, x3, x4, x5⟩ := hI.first g b' h
      refine ⟨n', i', m', List.mem_append_left _ x1, x2, x3, x4, ?_⟩
      rw [hst.heap]
      exact (x5.grow hst.grow).setChild hpk2 _ _
    cases hgs : Dict.get? s.shared psg with
    | some b1 =>
      rw [(hst.shared ⟨b1, hgs⟩).1] at hb'
      exact key hb'
    | none =>
      cases hsh : E.sharing with
      | false =>
        rw [(hst.own hgs hsh).1] at hb'
        exact key hb'
      | true =>
        obtain ⟨y1, _, _, y4⟩ := hst.make hgs hsh
        rw [y1, Dict.get?_set] at hb'
        split at hb'
        · next hpg =>
          cases hb'
          subst hpg
          refine ⟨name, id, m, List.mem_append_right _ (by simp), hsel, hst.obj, hst.group, ?_⟩
          rw [hst.heap]
          exact y4.setChild hpk2 _ _
        · exact key hb'

/-- What `add_lora` leaves behind. -/
theorem addLora_inv (hw : WFModel h0) (hroot : ¬ IsLeaf h0 root) (hr : root < h0.mods.length) {h' : MHeap K} (h : addLora E h0 root tf nf = .ok h') :
    ∃ dev s, h0.firstDev root = .ok dev ∧ s.heap = h' ∧ LInv E dev h0 root tf nf (h0.namedModules root) s := by
  unfold addLora at h
  cases hd : h0.firstDev root with
  | error e => rw [hd] at h; cases h
  | ok dev =>
    rw [hd] at h
    dsimp only at h
    rw [addLora_fold hw hroot hr] at h
    cases hf : (h0.namedModules root).foldlM (fun s e => loraStep E dev root tf nf e.1 e.2 s) (⟨h0, []⟩ : LoraSt K) with
    | error e => rw [hf] at h; cases h
    | ok s =>
      rw [hf] at h
      refine ⟨dev, s, rfl, Except.ok.inj h, ?_⟩
      have := foldlM_inv (fun s e => loraStep E dev root tf nf e.1 e.2 s) (LInv E dev h0 root tf nf) (h0.namedModules root) [] _ s (LInv.start hw)
        (by
          intro L e s s' hpre hI hstep
          rw [List.nil_append] at hpre
          have hmem : e ∈ h0.namedModules root := hpre.subset (by simp)
          have hlt := namedModules_lt hw hr e hmem
          obtain ⟨ks, hreach, hname⟩ := namedModules_path hw hmem
          have hloc : ∃ src, LLoc h0 root e.1 e.2 src := by
            generalize hid : e.2 = id at hreach
            cases hreach with
            | nil => exact ⟨none, hname, rfl⟩
            | @snoc ks' p k c h1 h2 => exact ⟨some (p, k), ks', h1, h2, hname⟩
          obtain ⟨src, hloc⟩ := hloc
          rcases loraStep_spec hw hroot hloc hlt hI.good hstep with ⟨h1, rfl⟩ | ⟨hsel, p, k, rfl, m, psg, h2, w, b, hst⟩
          · exact hI.skip h1
          · obtain ⟨ks', h1, h2', h3⟩ := hloc
            exact hI.step hw h1 h2' h3 hsel hst) hf
      simpa using this

end Logix
