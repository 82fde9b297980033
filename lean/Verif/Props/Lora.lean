/-
C65, C66: which modules `add_lora` wraps and which share a bottleneck.
-/
import Verif.Lemmas.LoraInv
import Verif.Lemmas.PcaWeights

set_option linter.unusedSectionVars false

namespace Logix
open Spec
variable {K : Type} [Zero K] {h h' : MHeap K} {root : Nat} {E : LoraEnv K} {tf nf : Option (List PyStr)}

theorem LGood.get_kids (hw : WFModel h) {s : LoraSt K} (hg : LGood h s) {p : Nat} (hp : p < h.mods.length) {k : PyStr} {w : Nat} :
    Dict.get? (s.heap.kids p) k = some w ↔ Entry s.heap p k w := by
  rw [← mem_kids]
  obtain ⟨m', hm', _, _, _, e4⟩ := hg.old p _ (List.getElem?_eq_getElem hp)
  refine ⟨fun h' => Dict.mem_of_get? _ h', fun h' => Dict.get?_of_mem _ ?_ h'⟩
  rw [kids_of hm', e4]
  exact hw.keys p _ (List.getElem?_eq_getElem hp)

theorem WrapAt.isWrapper {P : Nat} {dev : Dev} {R : Nat} {h : MHeap K} {w orig b : Nat} {l : Layer} (hw : WrapAt P dev R h w orig b l) :
    IsWrapper h w orig ∧ Entry h w nB b := by
  cases l with
  | linear =>
    obtain ⟨a, c, h1, _⟩ := hw
    exact ⟨⟨a, b, c, Or.inl h1⟩, _, h1, by simp⟩
  | conv2d =>
    obtain ⟨a, c, h1, _⟩ := hw
    exact ⟨⟨a, b, c, Or.inr h1⟩, _, h1, by simp⟩
  | _ => exact absurd hw id

/-- The module at the wrapper's bottleneck is determined. -/
theorem WrapAt.bottleneck {P : Nat} {dev : Dev} {R : Nat} {h : MHeap K} {w orig b b' : Nat} {l : Layer} (hw : WrapAt P dev R h w orig b l) (hb : Entry h w nB b') :
    b' = b := by
  obtain ⟨m, hm, hk⟩ := hb
  cases l with
  | linear =>
    obtain ⟨a, c, h1, _⟩ := hw
    rw [h1] at hm
    cases hm
    simp [nA, nB, nC, nLin] at hk
    exact hk
  | conv2d =>
    obtain ⟨a, c, h1, _⟩ := hw
    rw [h1] at hm
    cases hm
    simp [nA, nB, nC, nConv] at hk
    exact hk
  | _ => exact absurd hw id

/-- What `add_lora` leaves as it is: all modules keep their classes, layers, parameters and attribute names; all parameters keep their elements and
`requires_grad` (they may be moved to another device). -/
theorem addLora_keeps (hw : WFModel h) (hroot : ¬ IsLeaf h root) (hr : root < h.mods.length) (hadd : addLora E h root tf nf = .ok h') :
    (∀ (i : Nat) (m : MObj), h.mods[i]? = some m → ∃ m', h'.mods[i]? = some m' ∧ m'.mro = m.mro ∧ m'.layer = m.layer ∧ m'.params = m.params ∧
      m'.children.map Prod.fst = m.children.map Prod.fst) ∧
    (∀ (i : Nat) (p : Param K), h.params[i]? = some p → ∃ p', h'.params[i]? = some p' ∧ p'.reqGrad = p.reqGrad ∧ p'.val.shape = p.val.shape ∧
      p'.val.data = p.val.data) := by
  obtain ⟨dev, s, _, rfl, hI⟩ := addLora_inv hw hroot hr hadd
  refine ⟨hI.good.old, fun i p hp => ?_⟩
  obtain ⟨p', h1, h2, h3, _, h5, _⟩ := hI.par i p hp
  refine ⟨p', h1, h2, h3, ?_⟩
  rcases h5 (List.getElem?_eq_some_iff.1 hp).1 with e | e <;> (rw [e]; try rfl)

/-- C65 for every model (acyclic, not itself a single layer), modules with several names included: an attribute is replaced by a wrapper exactly if it is the one
through which `named_modules` comes to a selected module; all other attributes are as before. -/
theorem C65_any_partial (hw : WFModel h) (hroot : ¬ IsLeaf h root) (hr : root < h.mods.length) (hadd : addLora E h root tf nf = .ok h') :
    ∀ p k c, Entry h p k c →
      ((∃ ks, Reach h root ks p ∧ (dotted (ks ++ [k]), c) ∈ h.namedModules root ∧ Selected h tf nf (dotted (ks ++ [k])) c) →
        ∃ w, Entry h' p k w ∧ IsWrapper h' w c ∧ h.mods.length ≤ w) ∧
      ((¬ ∃ ks, Reach h root ks p ∧ (dotted (ks ++ [k]), c) ∈ h.namedModules root ∧ Selected h tf nf (dotted (ks ++ [k])) c) → Entry h' p k c) := by
  obtain ⟨dev, s, _, rfl, hI⟩ := addLora_inv hw hroot hr hadd
  intro p k c he
  rcases hI.kids p k c he with ⟨name, hit, w, b, m, psg, z1, z2, z3, z4, z5, _⟩ | ⟨hnot, hget⟩
  · obtain ⟨ks, h1, _, rfl, h3, h4⟩ := hit
    refine ⟨fun _ => ⟨w, (hI.good.get_kids hw he.lt).1 z1, z5.isWrapper.1, z2⟩, fun hn => absurd ⟨ks, h1, h3, h4⟩ hn⟩
  · refine ⟨?_, fun _ => (hI.good.get_kids hw he.lt).1 hget⟩
    rintro ⟨ks, h1, h2, h3⟩
    exact absurd ⟨_, ks, h1, he, rfl, h2, h3⟩ hnot

/-- C65 for models in which no module has two names: every selected module is replaced by a wrapper that holds it, everything else stays where it was. -/
theorem C65_partial (hw : WFModel h) (hroot : ¬ IsLeaf h root) (hr : root < h.mods.length) (hun : Unshared h root) (hadd : addLora E h root tf nf = .ok h') :
    (∀ ks p k c, Reach h root ks p → Entry h p k c →
      (Selected h tf nf (dotted (ks ++ [k])) c → ∃ w, Entry h' p k w ∧ IsWrapper h' w c ∧ h.mods.length ≤ w) ∧
      (¬ Selected h tf nf (dotted (ks ++ [k])) c → Entry h' p k c)) ∧
    (∀ p k c, (¬ ∃ ks, Reach h root ks p) → Entry h p k c → Entry h' p k c) := by
  have key := C65_any_partial hw hroot hr hadd
  constructor
  · intro ks p k c hreach he
    obtain ⟨k1, k2⟩ := key p k c he
    constructor
    · intro hsel
      obtain ⟨name, hn⟩ := namedModules_complete hw (hreach.snoc he)
      obtain ⟨ks', h1, h2⟩ := namedModules_path hw hn
      have := hun _ _ _ h1 (hreach.snoc he)
      dsimp only at h2
      rw [this] at h2
      rw [h2] at hn
      exact k1 ⟨ks, hreach, hn, hsel⟩
    · intro hns
      refine k2 ?_
      rintro ⟨ks', h1, _, h3⟩
      rw [hun _ _ _ h1 hreach] at h3
      exact hns h3
  · intro p k c hp he
    refine (key p k c he).2 ?_
    rintro ⟨ks, h1, _⟩
    exact hp ⟨ks, h1⟩

/-! ### Groups -/

theorem findGroup_ok {name : PyStr} {groups : Option (List PyStr)} {g : PyStr} (hg : findGroup name groups = .ok g) :
    (groups = none ∧ g = nNoGroup) ∨ ∃ gs, groups = some gs ∧ (gs.filter fun x => isSub x name) = [g] := by
  unfold findGroup at hg
  cases groups with
  | none => left; exact ⟨rfl, (Except.ok.inj hg).symm⟩
  | some gs =>
    right
    refine ⟨gs, rfl, ?_⟩
    dsimp only at hg
    split at hg
    · next g' hf => cases hg; exact hf
    · cases hg

theorem sameGroup_iff {groups : Option (List PyStr)} {n n' g g' : PyStr} (h1 : findGroup n groups = .ok g) (h2 : findGroup n' groups = .ok g') :
    SameGroup groups n n' ↔ g = g' := by
  rcases findGroup_ok h1 with ⟨e1, e2⟩ | ⟨gs, e1, e2⟩
  · rcases findGroup_ok h2 with ⟨_, e4⟩ | ⟨_, e3, _⟩
    · rw [e2, e4]
      refine ⟨fun _ => rfl, fun _ gs hgs => ?_⟩
      rw [e1] at hgs
      cases hgs
    · rw [e1] at e3; cases e3
  · rcases findGroup_ok h2 with ⟨e3, _⟩ | ⟨gs', e3, e4⟩
    · rw [e1] at e3; cases e3
    · rw [e1] at e3
      cases e3
      have m1 : ∀ x, x ∈ gs ∧ x <:+: n ↔ x = g := by
        intro x
        rw [← isSub_iff, ← List.mem_singleton (a := x) (b := g), ← e2, List.mem_filter]
      have m2 : ∀ x, x ∈ gs ∧ x <:+: n' ↔ x = g' := by
        intro x
        rw [← isSub_iff, ← List.mem_singleton (a := x) (b := g'), ← e4, List.mem_filter]
      constructor
      · intro hs
        obtain ⟨x, hx, a, b⟩ := hs gs e1
        rw [← (m1 x).1 ⟨hx, a⟩, ← (m2 x).1 ⟨hx, b⟩]
      · intro hgg gs' hgs'
        rw [e1] at hgs'
        cases hgs'
        have a := (m1 g).2 rfl
        have b := (m2 g').2 rfl
        rw [← hgg] at b
        exact ⟨g, a.1, a.2, b.2⟩

theorem becomes_wrapped (hw : WFModel h) {dev : Dev} {s : LoraSt K} (hI : LInv E dev h root tf nf (h.namedModules root) s) {name : PyStr} {c w : Nat}
    (hn : (name, c) ∈ h.namedModules root) (hsel : Selected h tf nf name c) (hb : Becomes h s.heap root name c w) :
    ∃ b m psg, h.mods.length ≤ w ∧ h.mods[c]? = some m ∧ WrapAt h.params.length dev E.rank s.heap w c b m.layer ∧ findGroup name E.groups = .ok psg ∧
      (E.sharing = true → Dict.get? s.shared psg = some b) ∧ (E.sharing = false → b + 2 = w) := by
  obtain ⟨ks, p, k, h1, h2, rfl, h4⟩ := hb
  rcases hI.kids p k c h2 with ⟨name, hit, w', b, m, psg, z1, z2, z3, z4, z5, z6, z7, z8, _⟩ | ⟨hnot, _⟩
  · obtain ⟨ks', g1, g2, rfl, g3, g4⟩ := hit
    have e1 := List.inj_on_of_nodup_map (namedModules_nodup h root) hn g3 rfl
    rw [(hI.good.get_kids hw h2.lt).2 h4] at z1
    cases z1
    have e2 := congrArg Prod.fst e1
    dsimp only at e2
    rw [e2]
    exact ⟨b, m, psg, z2, z3, z5, z6, z7, fun hs => (z8 hs).1⟩
  · exact absurd ⟨_, ks, h1, h2, rfl, hn, hsel⟩ hnot

/-- C66: with parameter sharing two wrapped modules have the same bottleneck exactly if their names belong to the same sharing group, and every wrapped module
belongs to exactly one group, if there is a list of groups (otherwise `add_lora` raises, `C66_rejects`). -/
theorem C66 (hw : WFModel h) (hroot : ¬ IsLeaf h root) (hr : root < h.mods.length) (hadd : addLora E h root tf nf = .ok h') (hs : E.sharing = true)
    {n n' : PyStr} {c c' w w' b b' : Nat} (hn : (n, c) ∈ h.namedModules root) (hsel : Selected h tf nf n c) (hw1 : Becomes h h' root n c w) (hb : Entry h' w nB b)
    (hn' : (n', c') ∈ h.namedModules root) (hsel' : Selected h tf nf n' c') (hw1' : Becomes h h' root n' c' w') (hb' : Entry h' w' nB b') :
    b = b' ↔ SameGroup E.groups n n' := by
  obtain ⟨dev, s, _, rfl, hI⟩ := addLora_inv hw hroot hr hadd
  obtain ⟨b1, m1, g1, _, _, x3, x4, x5, _⟩ := becomes_wrapped hw hI hn hsel hw1
  obtain ⟨b2, m2, g2, _, _, y3, y4, y5, _⟩ := becomes_wrapped hw hI hn' hsel' hw1'
  rw [x3.bottleneck hb, y3.bottleneck hb', sameGroup_iff x4 y4]
  constructor
  · intro hbb
    have := y5 hs
    rw [← hbb] at this
    exact hI.inj g1 g2 b1 (x5 hs) this
  · intro hgg
    have := y5 hs
    rw [← hgg, x5 hs] at this
    exact Option.some.inj this

/-- A selected module that matches none or several of the sharing groups is rejected. -/
theorem C66_rejects (hw : WFModel h) (hroot : ¬ IsLeaf h root) (hr : root < h.mods.length) {gs : List PyStr} (hgs : E.groups = some gs) {n : PyStr} {c : Nat}
    (hn : (n, c) ∈ h.namedModules root) (hsel : Selected h tf nf n c) (hcount : (gs.filter fun g => decide (g <:+: n)).length ≠ 1) :
    ∃ e, addLora E h root tf nf = .error e := by
  cases hadd : addLora E h root tf nf with
  | error e => exact ⟨e, rfl⟩
  | ok h' =>
    exfalso
    obtain ⟨dev, s, _, rfl, hI⟩ := addLora_inv hw hroot hr hadd
    obtain ⟨ks, h1, h2⟩ := namedModules_path hw hn
    dsimp only at h1 h2
    have hplace : ∃ p k, ∃ ks', Reach h root ks' p ∧ Entry h p k c ∧ n = dotted (ks' ++ [k]) := by
      cases h1 with
      | nil => obtain ⟨m, a1, a2, _⟩ := hsel; exact absurd ⟨m, a1, a2⟩ hroot
      | @snoc ks' p k _ a1 a2 => exact ⟨p, k, ks', a1, a2, h2⟩
    obtain ⟨p, k, ks', a1, a2, rfl⟩ := hplace
    rcases hI.kids p k c a2 with ⟨name, hit, w', b, m, psg, z1, z2, z3, z4, z5, z6, _⟩ | ⟨hnot, _⟩
    · obtain ⟨ks2, g1, g2, rfl, g3, g4⟩ := hit
      have e1 := List.inj_on_of_nodup_map (namedModules_nodup h root) hn g3 rfl
      have e2 := congrArg Prod.fst e1
      dsimp only at e2
      rw [← e2] at z6
      rcases findGroup_ok z6 with ⟨e, _⟩ | ⟨gs', e, e2⟩
      · rw [hgs] at e; cases e
      · rw [hgs] at e
        cases e
        apply hcount
        have : (gs.filter fun g => decide (g <:+: dotted (ks' ++ [k]))) = gs.filter fun x => isSub x (dotted (ks' ++ [k])) := by
          refine List.filter_congr fun x _ => ?_
          rw [Bool.eq_iff_iff, isSub_iff, decide_eq_true_iff]
        rw [this, e2]
        rfl
    · exact hnot ⟨_, ks', a1, a2, rfl, hn, hsel⟩

/-- The check of the groups raises AssertionError. -/
theorem C66_assert {gs : List PyStr} {n : PyStr} (hcount : (gs.filter fun g => decide (g <:+: n)).length ≠ 1) :
    findGroup n (some gs) = .error .assertionError := by
  have : (gs.filter fun g => decide (g <:+: n)) = gs.filter fun x => isSub x n := by
    refine List.filter_congr fun x _ => ?_
    rw [Bool.eq_iff_iff, isSub_iff, decide_eq_true_iff]
  unfold findGroup
  dsimp only
  split
  · next g hf => rw [this, hf] at hcount; simp at hcount
  · rfl

/-- Without parameter sharing no two wrapped modules have the same bottleneck. -/
theorem C66_unshared (hw : WFModel h) (hroot : ¬ IsLeaf h root) (hr : root < h.mods.length) (hadd : addLora E h root tf nf = .ok h') (hs : E.sharing = false)
    {n n' : PyStr} {c c' w w' b b' : Nat} (hn : (n, c) ∈ h.namedModules root) (hsel : Selected h tf nf n c) (hw1 : Becomes h h' root n c w) (hb : Entry h' w nB b)
    (hn' : (n', c') ∈ h.namedModules root) (hsel' : Selected h tf nf n' c') (hw1' : Becomes h h' root n' c' w') (hb' : Entry h' w' nB b')
    (hne : c ≠ c') : b ≠ b' := by
  obtain ⟨dev, s, _, rfl, hI⟩ := addLora_inv hw hroot hr hadd
  obtain ⟨b1, m1, g1, _, _, x3, _, _, x6⟩ := becomes_wrapped hw hI hn hsel hw1
  obtain ⟨b2, m2, g2, _, _, y3, _, _, y6⟩ := becomes_wrapped hw hI hn' hsel' hw1'
  rw [x3.bottleneck hb, y3.bottleneck hb']
  intro hbb
  have hww : w = w' := by rw [← x6 hs, ← y6 hs, hbb]
  subst hww
  apply hne
  obtain ⟨⟨a, b, d, h1⟩, _⟩ := x3.isWrapper
  obtain ⟨⟨a', b', d', h1'⟩, _⟩ := y3.isWrapper
  rcases h1 with h1 | h1 <;> rcases h1' with h2 | h2 <;> rw [h1] at h2 <;> simp at h2 <;> simp [h2]

/-! ### When `add_lora` succeeds -/

theorem foldlM_total {α σ : Type} (f : σ → α → Py σ) (I : σ → Prop) : ∀ (l : List α) (s : σ), I s → (∀ a ∈ l, ∀ s, I s → ∃ s', f s a = .ok s' ∧ I s') →
    ∃ s', l.foldlM f s = .ok s'
  | [], s, _, _ => ⟨s, rfl⟩
  | a :: l, s, hI, hstep => by
    obtain ⟨s1, h1, h2⟩ := hstep a (by simp) s hI
    obtain ⟨s', h3⟩ := foldlM_total f I l s1 h2 (fun b hb => hstep b (by simp [hb]))
    exact ⟨s', by rw [List.foldlM_cons, h1]; exact h3⟩

theorem makeLora_ok {dev : Dev} {h : MHeap K} {name : PyStr} {id : Nat} {l : Layer} {shared : Option Nat} (hl : Wrappable l)
    (hp : ∃ u, E.pcaOf dev name l = .ok u) : ∃ r, makeLora E dev h name id l shared = .ok r := by
  obtain ⟨u, hu⟩ := hp
  rcases hl with ⟨i, o, rfl⟩ | ⟨i, o, g, gr, rfl⟩
  · have hu : E.pcaLinear dev name (min E.rank (min i o)) i o = .ok u := hu
    unfold makeLora makeLoraLinear
    dsimp only
    rw [hu]
    exact ⟨_, rfl⟩
  · have hu : E.pcaConv2d dev name (min E.rank (min i o)) i o g.kernel = .ok u := hu
    unfold makeLora makeLoraConv2d
    dsimp only
    rw [hu]
    exact ⟨_, rfl⟩

/-- `add_lora` succeeds if the model has a parameter and every selected module is a linear layer or a two-dimensional convolution, belongs to exactly one group (if
there is a list of groups), and its covariances can be decomposed (for PCA). -/
theorem addLora_succeeds (hw : WFModel h) (hroot : ¬ IsLeaf h root) (hr : root < h.mods.length) (hpar : ∃ ks id i, Reach h root ks id ∧ OwnsParam h id i)
    (hsel : ∀ name id, (name, id) ∈ h.namedModules root → Selected h tf nf name id → ∃ m, h.mods[id]? = some m ∧ (nLinear ∈ m.mro ∨ nConv1d ∉ m.mro) ∧
      ((∃ i o, m.layer = .linear i o) ∨ ∃ i o g gr, m.layer = .conv2d i o g gr) ∧
      (∀ gs, E.groups = some gs → (gs.filter fun g => decide (g <:+: name)).length = 1) ∧ (∀ P, E.pca = some P → PcaReady P name m.layer ∧ HasKernel m.layer)) :
    ∃ h', addLora E h root tf nf = .ok h' := by
  unfold addLora
  have hdev : ∃ dev, h.firstDev root = .ok dev := by
    obtain ⟨ks, id, i, h1, m, k, hm, hk⟩ := hpar
    obtain ⟨name, hn⟩ := namedModules_complete hw h1
    have hi := hw.params id m k i hm hk
    unfold MHeap.firstDev
    split
    · next hnone =>
      exfalso
      rw [List.head?_eq_none_iff, List.flatMap_eq_nil_iff] at hnone
      have := hnone _ hn
      dsimp only at this
      rw [hm] at this
      have hmem : h.params[i] ∈ m.params.filterMap fun p => h.params[p.2]? :=
        List.mem_filterMap.2 ⟨(k, i), hk, List.getElem?_eq_getElem hi⟩
      rw [show m.params.filterMap (fun p => h.params[p.2]?) = [] from this] at hmem
      simp at hmem
    · exact ⟨_, rfl⟩
  obtain ⟨dev, hdev⟩ := hdev
  rw [hdev]
  dsimp only
  rw [addLora_fold hw hroot hr]
  have hgood : LGood h (⟨h, []⟩ : LoraSt K) :=
    ⟨fun i m hm => ⟨m, hm, rfl, rfl, rfl, rfl⟩, fun p k c he _ => hw.get_kids.2 he, le_rfl, fun g b h => by simp at h⟩
  obtain ⟨s', hs'⟩ := foldlM_total (fun s e => loraStep E dev root tf nf e.1 e.2 s) (LGood h) (h.namedModules root) ⟨h, []⟩ hgood (by
    intro e hmem s hg
    have hlt := namedModules_lt hw hr e hmem
    obtain ⟨ks, hreach, hname⟩ := namedModules_path hw hmem
    have hloc : ∃ src, LLoc h root e.1 e.2 src := by
      generalize hid : e.2 = id at hreach
      cases hreach with
      | nil => exact ⟨none, hname, rfl⟩
      | @snoc ks' p k c h1 h2 => exact ⟨some (p, k), ks', h1, h2, hname⟩
    obtain ⟨src, hloc⟩ := hloc
    have hok : ∃ s', loraStep E dev root tf nf e.1 e.2 s = .ok s' := by
      obtain ⟨m, hm⟩ : ∃ m, h.mods[e.2]? = some m := ⟨_, List.getElem?_eq_getElem hlt⟩
      obtain ⟨m', hm', e1, e2, e3, e4⟩ := hg.old e.2 m hm
      unfold loraStep
      rw [hm']
      dsimp only
      by_cases hc : moduleCheck m' e.1 supportedModules tf nf false = true
      · rw [if_pos hc]
        have hS := (hg.selected hm hm').1 hc
        obtain ⟨m2, y1, y2, y3, y4, y5⟩ := hsel e.1 e.2 hmem hS
        rw [hm] at y1
        cases y1
        rw [e1]
        rw [if_neg (by rintro ⟨a, b⟩; rcases y2 with h | h; exacts [a h, h b])]
        have hgrp : ∃ psg, findGroup e.1 E.groups = .ok psg := by
          cases hgs : E.groups with
          | none => exact ⟨_, rfl⟩
          | some gs =>
            have := y4 gs hgs
            have hfe : (gs.filter fun g => decide (g <:+: e.1)) = gs.filter fun x => isSub x e.1 := by
              refine List.filter_congr fun x _ => ?_
              rw [Bool.eq_iff_iff, isSub_iff, decide_eq_true_iff]
            rw [hfe] at this
            obtain ⟨g, hg'⟩ := List.length_eq_one_iff.1 this
            exact ⟨g, by unfold findGroup; dsimp only; rw [hg']⟩
        obtain ⟨psg, hpsg⟩ := hgrp
        rw [hpsg]
        dsimp only
        obtain ⟨gs, ps, ss, _⟩ := shareFor_spec (E := E) (dev := dev) (m := m') (psg := psg) hg.plen (fun g b h => (hg.sh g b h).1)
        generalize shareFor E dev m' psg s = s1 at gs ps ss ⊢
        obtain ⟨⟨h2, w⟩, hmk⟩ := makeLora_ok (E := E) (dev := dev) (h := s1.heap) (name := e.1) (id := e.2) (shared := Dict.get? s1.shared psg)
          (l := m'.layer) (by rw [e2]; exact y3) (by rw [e2]; exact pcaOf_ready dev y3 y5)
        rw [hmk]
        dsimp only
        obtain ⟨b, x1, _⟩ := makeLora_spec ps ss hmk
        cases src with
        | none =>
          obtain ⟨_, hr0⟩ := hloc
          rw [hr0] at hS
          obtain ⟨m2, hm2, hc2, _⟩ := hS
          exact absurd ⟨m2, hm2, hc2⟩ hroot
        | some pk =>
          obtain ⟨p, k⟩ := pk
          obtain ⟨ks', z1, z2, z3⟩ := hloc
          rw [z3, hg.parentOf hw (gs.trans x1) z1 z2]
          exact ⟨_, rfl⟩
      · rw [if_neg hc]
        exact ⟨_, rfl⟩
    obtain ⟨s', hs'⟩ := hok
    refine ⟨s', hs', ?_⟩
    rcases loraStep_spec hw hroot hloc hlt hg hs' with ⟨_, rfl⟩ | ⟨⟨m, hm, hc, _⟩, p, k, rfl, m', psg, h2, w, b, hst⟩
    · exact hg
    · obtain ⟨ks, h1, h2', _⟩ := hloc
      exact (hst.good hw hg h2' ⟨m, hm, hc⟩).1)
  rw [hs']
  exact ⟨_, rfl⟩

end Logix
