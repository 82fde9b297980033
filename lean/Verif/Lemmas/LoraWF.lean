/-
Which modules and parameters `add_lora` makes does not depend on the weights; the model with LoRA layers is again well-formed.
-/
import Verif.Lemmas.LoraInv
import Verif.Spec.LoraIO

set_option linter.unusedSectionVars false

namespace Logix
variable {K : Type} [Zero K]

theorem shapes_modify (h : MHeap K) (i : Nat) (f : Tensor K → Tensor K) (hf : ∀ t, (f t).shape = t.shape) : (h.mapParam i f).shapes = h.shapes := by
  unfold MHeap.shapes MHeap.mapParam
  dsimp only
  apply List.ext_getElem?
  intro j
  rw [List.getElem?_map, List.getElem?_map, List.getElem?_modify]
  cases h.params[j]? with
  | none => simp
  | some p =>
    by_cases hi : i = j
    · simp [hi, hf]
    · simp [hi]

theorem mapParam_mods (h : MHeap K) (i : Nat) (f : Tensor K → Tensor K) : (h.mapParam i f).mods = h.mods := rfl

theorem zeroWeight_like (h : MHeap K) (b : Nat) : (h.zeroWeight b).mods = h.mods ∧ (h.zeroWeight b).shapes = h.shapes := by
  unfold MHeap.zeroWeight
  split
  · exact ⟨rfl, rfl⟩
  · exact ⟨rfl, shapes_modify _ _ _ fun _ => rfl⟩

theorem toDev_like (h : MHeap K) (id : Nat) (dev : Dev) : (h.toDev id dev).mods = h.mods ∧ (h.toDev id dev).shapes = h.shapes := by
  unfold MHeap.toDev
  generalize ((h.mods[id]?).elim [] MObj.params) = l
  induction l generalizing h with
  | nil => exact ⟨rfl, rfl⟩
  | cons e l ih =>
    rw [List.foldl_cons]
    obtain ⟨b1, b2⟩ := ih (h.mapParam e.2 fun t => t.onDev dev)
    exact ⟨b1, b2.trans (shapes_modify _ _ _ fun _ => rfl)⟩

/-- A linear layer without bias whose weight is the parameter `p`. -/
def linObj (inF outF p : Nat) : MObj := ⟨[nLinear, nModule], .linear inF outF, [], [(nWeight, p)]⟩

/-- A convolution without bias. -/
def convObj (inC outC : Nat) (k s pd : Nat × Nat) (p : Nat) : MObj := ⟨[nConv2d, nModule], .conv2d inC outC ⟨k, s, pd, (1, 1)⟩ 1, [], [(nWeight, p)]⟩

/-- What a wrapper adds to `n` modules and `q` parameters: modules, and the shapes of parameters. -/
def added (R id n q : Nat) (shared : Option Nat) : Layer → List MObj × List (List Nat)
  | .linear i o =>
    let r := min R (min i o)
    match shared with
    | some b => ([linObj i r q, linObj r o (q + 1), ⟨[nLoraLinear, nModule], .loraLinear, [(nA, n), (nB, b), (nC, n + 1), (nLin, id)], []⟩],
        [[r, i], [o, r]])
    | none => ([linObj i r q, linObj r r (q + 1), linObj r o (q + 2),
        ⟨[nLoraLinear, nModule], .loraLinear, [(nA, n), (nB, n + 1), (nC, n + 2), (nLin, id)], []⟩], [[r, i], [r, r], [o, r]])
  | .conv2d i o g _ =>
    let r := min R (min i o)
    match shared with
    | some b => ([convObj i r g.kernel g.stride g.padding q, convObj r o (1, 1) (1, 1) (0, 0) (q + 1),
        ⟨[nLoraConv2d, nModule], .loraConv2d, [(nA, n), (nB, b), (nC, n + 1), (nConv, id)], []⟩], [[r, i, g.kernel.1, g.kernel.2], [o, r, 1, 1]])
    | none => ([convObj i r g.kernel g.stride g.padding q, convObj r r (1, 1) (1, 1) (0, 0) (q + 1), convObj r o (1, 1) (1, 1) (0, 0) (q + 2),
        ⟨[nLoraConv2d, nModule], .loraConv2d, [(nA, n), (nB, n + 1), (nC, n + 2), (nConv, id)], []⟩],
        [[r, i, g.kernel.1, g.kernel.2], [r, r, 1, 1], [o, r, 1, 1]])
  | _ => ([], [])

theorem newLinear_shapes (h : MHeap K) (dev : Dev) (inF outF : Nat) (f : List Nat → K) :
    (h.newLinear dev inF outF f).1.shapes = h.shapes ++ [[outF, inF]] := by
  unfold MHeap.shapes
  rw [(newLinear_vals h dev inF outF f).2.1, List.map_append]
  rfl

theorem newConv2d_shapes (h : MHeap K) (dev : Dev) (inC outC : Nat) (k s p : Nat × Nat) (f : List Nat → K) :
    (h.newConv2d dev inC outC k s p f).1.shapes = h.shapes ++ [[outC, inC, k.1, k.2]] := by
  unfold MHeap.shapes
  rw [(newConv2d_vals h dev inC outC k s p f).2.1, List.map_append]
  rfl

/-- The end of making a wrapper. -/
theorem finish_like {h2 h' : MHeap K} {b id w : Nat} {dev : Dev} {mw : MObj} (hw : (((h2.zeroWeight b).toDev b dev).toDev id dev).newMod mw = (h', w)) :
    h'.mods = h2.mods ++ [mw] ∧ h'.shapes = h2.shapes ∧ w = h2.mods.length := by
  have e1 : (((h2.zeroWeight b).toDev b dev).toDev id dev).mods = h2.mods := by
    rw [(toDev_like _ _ _).1, (toDev_like _ _ _).1, (zeroWeight_like _ _).1]
  have e2 : (((h2.zeroWeight b).toDev b dev).toDev id dev).shapes = h2.shapes := by
    rw [(toDev_like _ _ _).2, (toDev_like _ _ _).2, (zeroWeight_like _ _).2]
  have a1 := congrArg (fun r => r.1.mods) hw
  have a2 := congrArg (fun r => r.1.shapes) hw
  have a3 := congrArg Prod.snd hw
  dsimp only at a1 a2 a3
  refine ⟨?_, ?_, ?_⟩
  · rw [← a1]; unfold MHeap.newMod; dsimp only; rw [e1]
  · rw [← a2]; unfold MHeap.newMod; exact e2
  · rw [← a3]; unfold MHeap.newMod; dsimp only; rw [e1]

theorem makeLora_added {E : LoraEnv K} {dev : Dev} {h h' : MHeap K} {name : PyStr} {id w : Nat} {l : Layer} {shared : Option Nat}
    (hr : makeLora E dev h name id l shared = .ok (h', w)) :
    h'.mods = h.mods ++ (added E.rank id h.mods.length h.params.length shared l).1 ∧
    h'.shapes = h.shapes ++ (added E.rank id h.mods.length h.params.length shared l).2 ∧ w + 1 = h'.mods.length := by
  cases l with
  | linear i o =>
    unfold makeLora at hr
    dsimp only at hr
    unfold makeLoraLinear at hr
    dsimp only at hr
    split at hr
    · cases hr
    · next pca _ =>
      cases shared with
      | some b =>
        obtain ⟨a1, a2, a3⟩ := finish_like (Except.ok.inj hr)
        have x1 : h'.mods = h.mods ++ (added E.rank id h.mods.length h.params.length (some b) (.linear i o)).1 := by
          rw [a1]
          simp [MHeap.newLinear, MHeap.newParam, MHeap.newMod, added, linObj]
        refine ⟨x1, ?_, ?_⟩
        · rw [a2, newLinear_shapes, newLinear_shapes]
          simp [added]
        · rw [a3, a1]; simp
      | none =>
        obtain ⟨a1, a2, a3⟩ := finish_like (Except.ok.inj hr)
        have x1 : h'.mods = h.mods ++ (added E.rank id h.mods.length h.params.length none (.linear i o)).1 := by
          rw [a1]
          simp [MHeap.newLinear, MHeap.newParam, MHeap.newMod, added, linObj]
        refine ⟨x1, ?_, ?_⟩
        · rw [a2, newLinear_shapes, newLinear_shapes, newLinear_shapes]
          simp [added]
        · rw [a3, a1]; simp
  | conv2d i o g gr =>
    unfold makeLora at hr
    dsimp only at hr
    unfold makeLoraConv2d at hr
    dsimp only at hr
    split at hr
    · cases hr
    · next pca _ =>
      cases shared with
      | some b =>
        obtain ⟨a1, a2, a3⟩ := finish_like (Except.ok.inj hr)
        have x1 : h'.mods = h.mods ++ (added E.rank id h.mods.length h.params.length (some b) (.conv2d i o g gr)).1 := by
          rw [a1]
          simp [MHeap.newConv2d, MHeap.newParam, MHeap.newMod, added, convObj]
        refine ⟨x1, ?_, ?_⟩
        · rw [a2, newConv2d_shapes, newConv2d_shapes]
          simp [added]
        · rw [a3, a1]; simp
      | none =>
        obtain ⟨a1, a2, a3⟩ := finish_like (Except.ok.inj hr)
        have x1 : h'.mods = h.mods ++ (added E.rank id h.mods.length h.params.length none (.conv2d i o g gr)).1 := by
          rw [a1]
          simp [MHeap.newConv2d, MHeap.newParam, MHeap.newMod, added, convObj]
        refine ⟨x1, ?_, ?_⟩
        · rw [a2, newConv2d_shapes, newConv2d_shapes, newConv2d_shapes]
          simp [added]
        · rw [a3, a1]; simp
  | loraLinear => cases hr
  | loraConv2d => cases hr
  | user => cases hr

/-- What sharing adds. -/
def sharedAdded (E : LoraEnv K) (m : MObj) (psg : PyStr) (sh : Dict PyStr Nat) (q : Nat) : List MObj × List (List Nat) :=
  if E.sharing ∧ Dict.get? sh psg = none then
    if nLinear ∈ m.mro then ([linObj E.rank E.rank q], [[E.rank, E.rank]]) else ([convObj E.rank E.rank (1, 1) (1, 1) (0, 0) q], [[E.rank, E.rank, 1, 1]])
  else ([], [])

theorem shareFor_added (E : LoraEnv K) (dev : Dev) (m : MObj) (psg : PyStr) (s : LoraSt K) :
    (shareFor E dev m psg s).heap.mods = s.heap.mods ++ (sharedAdded E m psg s.shared s.heap.params.length).1 ∧
    (shareFor E dev m psg s).heap.shapes = s.heap.shapes ++ (sharedAdded E m psg s.shared s.heap.params.length).2 ∧
    (shareFor E dev m psg s).shared = if E.sharing ∧ Dict.get? s.shared psg = none then Dict.set s.shared psg s.heap.mods.length else s.shared := by
  unfold shareFor sharedAdded
  by_cases hc : E.sharing = true ∧ Dict.get? s.shared psg = none
  · rw [if_pos hc, if_pos hc, if_pos hc]
    by_cases hl : nLinear ∈ m.mro
    · rw [if_pos hl, if_pos hl]
      exact ⟨rfl, newLinear_shapes _ _ _ _ _, rfl⟩
    · rw [if_neg hl, if_neg hl]
      exact ⟨rfl, newConv2d_shapes _ _ _ _ _ _ _ _, rfl⟩
  · rw [if_neg hc, if_neg hc, if_neg hc]
    simp

theorem SameModel.length {h1 h2 : MHeap K} (h : SameModel h1 h2) : h1.params.length = h2.params.length := by
  have := congrArg List.length h.2
  simpa [MHeap.shapes] using this

theorem SameModel.kids {h1 h2 : MHeap K} (h : SameModel h1 h2) : h1.kids = h2.kids := by
  funext i
  unfold MHeap.kids
  rw [h.1]

theorem SameModel.getPath {h1 h2 : MHeap K} (h : SameModel h1 h2) : ∀ (ks : List PyStr) (id : Nat), h1.getPath id ks = h2.getPath id ks
  | [], id => rfl
  | k :: ks, id => by
    unfold MHeap.getPath
    rw [h.kids]
    cases Dict.get? (h2.kids id) k with
    | none => rfl
    | some c => exact h.getPath ks c

theorem SameModel.parentOf {h1 h2 : MHeap K} (h : SameModel h1 h2) (root : Nat) (name : PyStr) : h1.parentOf root name = h2.parentOf root name := by
  unfold MHeap.parentOf
  rw [h.getPath]

/-- One step in two runs. -/
theorem loraStep_same {E1 E2 : LoraEnv K} (hR : E1.rank = E2.rank) (hS : E1.sharing = E2.sharing) (hG : E1.groups = E2.groups) {d1 d2 : Dev} {root : Nat}
    {tf nf : Option (List PyStr)} {name : PyStr} {id : Nat} {s1 s2 t1 t2 : LoraSt K} (hh : SameModel s1.heap s2.heap) (hs : s1.shared = s2.shared)
    (h1 : loraStep E1 d1 root tf nf name id s1 = .ok t1) (h2 : loraStep E2 d2 root tf nf name id s2 = .ok t2) :
    SameModel t1.heap t2.heap ∧ t1.shared = t2.shared := by
  unfold loraStep at h1 h2
  rw [hh.1] at h1
  cases hm : s2.heap.mods[id]? with
  | none => rw [hm] at h1; cases h1
  | some m =>
    rw [hm] at h1 h2
    dsimp only at h1 h2
    by_cases hc : moduleCheck m name supportedModules tf nf false = true
    · rw [if_pos hc] at h1 h2
      by_cases hv : nLinear ∉ m.mro ∧ nConv1d ∈ m.mro
      · rw [if_pos hv] at h1; cases h1
      · rw [if_neg hv] at h1 h2
        rw [hG] at h1
        cases hg : findGroup name E2.groups with
        | error e => rw [hg] at h1; cases h1
        | ok psg =>
          rw [hg] at h1 h2
          dsimp only at h1 h2
          obtain ⟨a1, a2, a3⟩ := shareFor_added E1 d1 m psg s1
          obtain ⟨b1, b2, b3⟩ := shareFor_added E2 d2 m psg s2
          have hadd : sharedAdded E1 m psg s1.shared s1.heap.params.length = sharedAdded E2 m psg s2.shared s2.heap.params.length := by
            unfold sharedAdded
            rw [hS, hR, hs, hh.length]
          revert h1 h2
          generalize shareFor E1 d1 m psg s1 = u1 at a1 a2 a3 ⊢
          generalize shareFor E2 d2 m psg s2 = u2 at b1 b2 b3 ⊢
          intro h2 h1
          have hu : SameModel u1.heap u2.heap := ⟨by rw [a1, b1, hadd, hh.1], by rw [a2, b2, hadd, hh.2]⟩
          have hus : u1.shared = u2.shared := by rw [a3, b3, hS, hs, hh.1]
          rw [hus] at h1
          cases k1 : makeLora E1 d1 u1.heap name id m.layer (Dict.get? u2.shared psg) with
          | error e => rw [k1] at h1; cases h1
          | ok r1 =>
            cases k2 : makeLora E2 d2 u2.heap name id m.layer (Dict.get? u2.shared psg) with
            | error e => rw [k2] at h2; cases h2
            | ok r2 =>
              obtain ⟨g1, w1⟩ := r1
              obtain ⟨g2, w2⟩ := r2
              obtain ⟨c1, c2, c3⟩ := makeLora_added k1
              obtain ⟨e1, e2, e3⟩ := makeLora_added k2
              rw [hR, hu.1, hu.length] at c1
              rw [hR, hu.1, hu.length, hu.2] at c2
              have hg' : SameModel g1 g2 := ⟨by rw [c1, e1], by rw [c2, e2]⟩
              have hww : w1 = w2 := by have := congrArg List.length hg'.1; omega
              rw [k1] at h1
              rw [k2] at h2
              dsimp only at h1 h2
              rw [hg'.parentOf] at h1
              cases hp : g2.parentOf root name with
              | error e => rw [hp] at h1; cases h1
              | ok pk =>
                rw [hp] at h1 h2
                dsimp only at h1 h2
                cases h1
                cases h2
                refine ⟨⟨?_, ?_⟩, rfl⟩
                · unfold MHeap.setChild
                  dsimp only
                  rw [hg'.1, hww]
                · exact hg'.2
    · rw [if_neg hc] at h1 h2
      cases h1
      cases h2
      exact ⟨hh, hs⟩

/-- The modules made do not depend on the weights. -/
theorem walk_same {E1 E2 : LoraEnv K} (hR : E1.rank = E2.rank) (hS : E1.sharing = E2.sharing) (hG : E1.groups = E2.groups) {d1 d2 : Dev} {root : Nat}
    {tf nf : Option (List PyStr)} : ∀ (n : Nat) (pre : PyStr) (id : Nat) (memo : List Nat) (s1 s2 : LoraSt K) (t1 t2 : LoraSt K × List Nat),
      SameModel s1.heap s2.heap → s1.shared = s2.shared →
      walk (fun s : LoraSt K => s.heap.kids) (loraStep E1 d1 root tf nf) n pre id (s1, memo) = .ok t1 →
      walk (fun s : LoraSt K => s.heap.kids) (loraStep E2 d2 root tf nf) n pre id (s2, memo) = .ok t2 →
      SameModel t1.1.heap t2.1.heap ∧ t1.1.shared = t2.1.shared ∧ t1.2 = t2.2
  | 0, _, _, _, _, _, _, _, _, _, h, _ => by cases h
  | n + 1, pre, id, memo, s1, s2, t1, t2, hh, hs, h1, h2 => by
    rw [walk_succ] at h1 h2
    by_cases hm : id ∈ memo
    · rw [if_pos hm] at h1 h2
      cases h1
      cases h2
      exact ⟨hh, hs, rfl⟩
    · rw [if_neg hm] at h1 h2
      cases k1 : loraStep E1 d1 root tf nf pre id s1 with
      | error e => rw [k1] at h1; cases h1
      | ok u1 =>
        cases k2 : loraStep E2 d2 root tf nf pre id s2 with
        | error e => rw [k2] at h2; cases h2
        | ok u2 =>
          rw [k1] at h1
          rw [k2] at h2
          dsimp only at h1 h2
          obtain ⟨hu, hus⟩ := loraStep_same hR hS hG hh hs k1 k2
          have key : ∀ (ks : List PyStr) (N : Nat) (x1 x2 y1 y2 : LoraSt K × List Nat), SameModel x1.1.heap x2.1.heap → x1.1.shared = x2.1.shared → x1.2 = x2.2 →
              ks.foldlM (walkStep (fun s : LoraSt K => s.heap.kids) (loraStep E1 d1 root tf nf) n pre id N) x1 = .ok y1 →
              ks.foldlM (walkStep (fun s : LoraSt K => s.heap.kids) (loraStep E2 d2 root tf nf) n pre id N) x2 = .ok y2 →
              SameModel y1.1.heap y2.1.heap ∧ y1.1.shared = y2.1.shared ∧ y1.2 = y2.2 := by
            intro ks N
            induction ks with
            | nil =>
              intro x1 x2 y1 y2 a b c e1 e2
              cases e1
              cases e2
              exact ⟨a, b, c⟩
            | cons k ks ih =>
              intro x1 x2 y1 y2 a b c e1 e2
              rw [List.foldlM_cons] at e1 e2
              cases f1 : walkStep (fun s : LoraSt K => s.heap.kids) (loraStep E1 d1 root tf nf) n pre id N x1 k with
              | error e => rw [f1] at e1; cases e1
              | ok z1 =>
                cases f2 : walkStep (fun s : LoraSt K => s.heap.kids) (loraStep E2 d2 root tf nf) n pre id N x2 k with
                | error e => rw [f2] at e2; cases e2
                | ok z2 =>
                  rw [f1] at e1
                  rw [f2] at e2
                  obtain ⟨x1s, x1m⟩ := x1
                  obtain ⟨x2s, x2m⟩ := x2
                  dsimp only at a b c
                  subst c
                  unfold walkStep at f1 f2
                  dsimp only at f1 f2
                  simp only [a.kids] at f1
                  split at f1
                  · cases f1
                  · next hlen =>
                    rw [if_neg hlen] at f2
                    cases hg : Dict.get? (x2s.heap.kids id) k with
                    | none => rw [hg] at f1; cases f1
                    | some c =>
                      rw [hg] at f1 f2
                      obtain ⟨i1, i2, i3⟩ := walk_same hR hS hG n _ _ _ _ _ _ _ a b f1 f2
                      exact ih _ _ _ _ i1 i2 i3 e1 e2
          rw [hu.kids] at h1
          cases f1 : (Dict.keys (u2.heap.kids id)).foldlM (walkStep (fun s : LoraSt K => s.heap.kids) (loraStep E1 d1 root tf nf) n pre id (Dict.keys (u2.heap.kids id)).length) (u1, id :: memo) with
          | error e => rw [f1] at h1; cases h1
          | ok y1 =>
            cases f2 : (Dict.keys (u2.heap.kids id)).foldlM (walkStep (fun s : LoraSt K => s.heap.kids) (loraStep E2 d2 root tf nf) n pre id (Dict.keys (u2.heap.kids id)).length) (u2, id :: memo) with
            | error e => rw [f2] at h2; cases h2
            | ok y2 =>
              rw [f1] at h1
              rw [f2] at h2
              dsimp only at h1 h2
              split at h1
              · cases h1
              · split at h2
                · cases h2
                · cases h1
                  cases h2
                  exact key _ _ (u1, id :: memo) (u2, id :: memo) _ _ hu hus rfl f1 f2

/-- The modules `add_lora` makes depend only on the model's modules, the shapes, and the rank, the sharing and the groups of the configuration. -/
theorem addLora_same {E1 E2 : LoraEnv K} (hR : E1.rank = E2.rank) (hS : E1.sharing = E2.sharing) (hG : E1.groups = E2.groups) {root : Nat}
    {tf nf : Option (List PyStr)} {h1 h2 h1' h2' : MHeap K} (hh : SameModel h1 h2) (k1 : addLora E1 h1 root tf nf = .ok h1')
    (k2 : addLora E2 h2 root tf nf = .ok h2') : SameModel h1' h2' := by
  unfold addLora at k1 k2
  split at k1
  · cases k1
  · split at k2
    · cases k2
    · rw [hh.1] at k1
      split at k1
      · cases k1
      · next hw1 =>
        split at k2
        · cases k2
        · next hw2 =>
          cases k1
          cases k2
          exact (walk_same hR hS hG _ _ _ _ ⟨h1, []⟩ ⟨h2, []⟩ _ _ hh rfl hw1 hw2).1

/-! ### The model with LoRA layers is well-formed -/

/-- A new module without submodules. -/
def NewLeaf (h0 h : MHeap K) (b : Nat) : Prop := h0.mods.length ≤ b ∧ ∃ m, h.mods[b]? = some m ∧ m.children = []

/-- A module that `add_lora` made. -/
def NewObj (h0 h : MHeap K) (m : MObj) : Prop :=
  (m.children = [] ∧ ∃ j, m.params = [(nWeight, j)] ∧ j < h.params.length) ∨
  (m.params = [] ∧ ∃ a b c kl id, m.children = [(nA, a), (nB, b), (nC, c), (kl, id)] ∧ (kl = nLin ∨ kl = nConv) ∧ NewLeaf h0 h a ∧ NewLeaf h0 h b ∧
    NewLeaf h0 h c ∧ IsLeaf h0 id)

/-- New modules are those that `add_lora` makes. -/
structure LNew (h0 : MHeap K) (s : LoraSt K) : Prop where
  len : h0.mods.length ≤ s.heap.mods.length
  plen : h0.params.length ≤ s.heap.params.length
  new : ∀ i m, h0.mods.length ≤ i → s.heap.mods[i]? = some m → NewObj h0 s.heap m
  sh : ∀ g b, Dict.get? s.shared g = some b → NewLeaf h0 s.heap b

theorem NewLeaf.append {h0 h h' : MHeap K} {b : Nat} (hb : NewLeaf h0 h b) {ms : List MObj} (hm : h'.mods = h.mods ++ ms) : NewLeaf h0 h' b := by
  obtain ⟨h1, m, h2, h3⟩ := hb
  exact ⟨h1, m, by rw [hm, List.getElem?_append_left (List.getElem?_eq_some_iff.1 h2).1, h2], h3⟩

theorem NewObj.append {h0 h h' : MHeap K} {m : MObj} (hb : NewObj h0 h m) {ms : List MObj} (hm : h'.mods = h.mods ++ ms)
    (hp : h.params.length ≤ h'.params.length) : NewObj h0 h' m := by
  rcases hb with ⟨h1, j, h2, h3⟩ | ⟨h1, a, b, c, kl, id, h2, h3, h4, h5, h6, h7⟩
  · exact Or.inl ⟨h1, j, h2, by omega⟩
  · exact Or.inr ⟨h1, a, b, c, kl, id, h2, h3, h4.append hm, h5.append hm, h6.append hm, h7⟩

theorem NewLeaf.setChild {h0 h : MHeap K} {b : Nat} (hb : NewLeaf h0 h b) {p : Nat} (hp : p < h0.mods.length) (k : PyStr) (c : Nat) :
    NewLeaf h0 (h.setChild p k c) b := by
  obtain ⟨h1, m, h2, h3⟩ := hb
  exact ⟨h1, m, setChild_other h2 (by omega), h3⟩

theorem NewObj.setChild {h0 h : MHeap K} {m : MObj} (hb : NewObj h0 h m) {p : Nat} (hp : p < h0.mods.length) (k : PyStr) (c : Nat) :
    NewObj h0 (h.setChild p k c) m := by
  rcases hb with ⟨h1, j, h2, h3⟩ | ⟨h1, a, b, c, kl, id, h2, h3, h4, h5, h6, h7⟩
  · exact Or.inl ⟨h1, j, h2, by rw [setChild_params]; exact h3⟩
  · exact Or.inr ⟨h1, a, b, c, kl, id, h2, h3, h4.setChild hp _ _, h5.setChild hp _ _, h6.setChild hp _ _, h7⟩

/-- Adding modules. -/
theorem new_append {h0 h h' : MHeap K} {ms : List MObj} (hm : h'.mods = h.mods ++ ms) (hp : h.params.length ≤ h'.params.length)
    (hold : ∀ i m, h0.mods.length ≤ i → h.mods[i]? = some m → NewObj h0 h m) (hnew : ∀ m ∈ ms, NewObj h0 h' m) :
    ∀ i m, h0.mods.length ≤ i → h'.mods[i]? = some m → NewObj h0 h' m := by
  intro i m hi hmi
  rw [hm] at hmi
  by_cases hl : i < h.mods.length
  · rw [List.getElem?_append_left hl] at hmi
    exact (hold i m hi hmi).append hm hp
  · rw [List.getElem?_append_right (by omega)] at hmi
    exact hnew m (List.mem_of_getElem? hmi)

theorem length_shapes (h : MHeap K) : h.shapes.length = h.params.length := by simp [MHeap.shapes]

theorem added_new {h0 h h' : MHeap K} {R id : Nat} {shared : Option Nat} {l : Layer} (hlen : h0.mods.length ≤ h.mods.length) (hid : IsLeaf h0 id)
    (hsh : ∀ b, shared = some b → NewLeaf h0 h b) (hm : h'.mods = h.mods ++ (added R id h.mods.length h.params.length shared l).1)
    (hp : h'.shapes = h.shapes ++ (added R id h.mods.length h.params.length shared l).2) :
    ∀ m ∈ (added R id h.mods.length h.params.length shared l).1, NewObj h0 h' m := by
  have hpl := congrArg List.length hp
  rw [List.length_append, length_shapes, length_shapes] at hpl
  have at_ : ∀ j mo, (added R id h.mods.length h.params.length shared l).1[j]? = some mo → mo.children = [] → NewLeaf h0 h' (h.mods.length + j) := by
    intro j mo hj hc
    refine ⟨by omega, mo, ?_, hc⟩
    rw [hm, List.getElem?_append_right (by omega), Nat.add_sub_cancel_left, hj]
  have hs' : ∀ b, shared = some b → NewLeaf h0 h' b := fun b hb => (hsh b hb).append hm
  intro m hmem
  cases l with
  | linear i o =>
    cases shared with
    | some b =>
      simp only [added, List.length_cons, List.length_nil] at hpl at_ hmem
      simp only [List.mem_cons, List.not_mem_nil, or_false] at hmem
      rcases hmem with rfl | rfl | rfl
      · exact Or.inl ⟨rfl, _, rfl, by omega⟩
      · exact Or.inl ⟨rfl, _, rfl, by omega⟩
      · exact Or.inr ⟨rfl, _, _, _, _, _, rfl, Or.inl rfl, at_ 0 _ rfl rfl, hs' b rfl, at_ 1 _ rfl rfl, hid⟩
    | none =>
      simp only [added, List.length_cons, List.length_nil] at hpl at_ hmem
      simp only [List.mem_cons, List.not_mem_nil, or_false] at hmem
      rcases hmem with rfl | rfl | rfl | rfl
      · exact Or.inl ⟨rfl, _, rfl, by omega⟩
      · exact Or.inl ⟨rfl, _, rfl, by omega⟩
      · exact Or.inl ⟨rfl, _, rfl, by omega⟩
      · exact Or.inr ⟨rfl, _, _, _, _, _, rfl, Or.inl rfl, at_ 0 _ rfl rfl, at_ 1 _ rfl rfl, at_ 2 _ rfl rfl, hid⟩
  | conv2d i o g gr =>
    cases shared with
    | some b =>
      simp only [added, List.length_cons, List.length_nil] at hpl at_ hmem
      simp only [List.mem_cons, List.not_mem_nil, or_false] at hmem
      rcases hmem with rfl | rfl | rfl
      · exact Or.inl ⟨rfl, _, rfl, by omega⟩
      · exact Or.inl ⟨rfl, _, rfl, by omega⟩
      · exact Or.inr ⟨rfl, _, _, _, _, _, rfl, Or.inr rfl, at_ 0 _ rfl rfl, hs' b rfl, at_ 1 _ rfl rfl, hid⟩
    | none =>
      simp only [added, List.length_cons, List.length_nil] at hpl at_ hmem
      simp only [List.mem_cons, List.not_mem_nil, or_false] at hmem
      rcases hmem with rfl | rfl | rfl | rfl
      · exact Or.inl ⟨rfl, _, rfl, by omega⟩
      · exact Or.inl ⟨rfl, _, rfl, by omega⟩
      · exact Or.inl ⟨rfl, _, rfl, by omega⟩
      · exact Or.inr ⟨rfl, _, _, _, _, _, rfl, Or.inr rfl, at_ 0 _ rfl rfl, at_ 1 _ rfl rfl, at_ 2 _ rfl rfl, hid⟩
  | loraLinear => simp [added] at hmem
  | loraConv2d => simp [added] at hmem
  | user => simp [added] at hmem

variable {h0 : MHeap K} {root : Nat} {E : LoraEnv K} {dev : Dev} {tf nf : Option (List PyStr)}

theorem LNew.share {s : LoraSt K} (hn : LNew h0 s) (m : MObj) (psg : PyStr) : LNew h0 (shareFor E dev m psg s) := by
  obtain ⟨a1, a2, a3⟩ := shareFor_added E dev m psg s
  revert a1 a2 a3
  generalize shareFor E dev m psg s = u
  intro a1 a2 a3
  have hpl := congrArg List.length a2
  rw [List.length_append, length_shapes, length_shapes] at hpl
  have hml := congrArg List.length a1
  rw [List.length_append] at hml
  have hL := hn.len
  have hP := hn.plen
  refine ⟨by omega, by omega, ?_, ?_⟩
  · refine new_append a1 (by omega) hn.new ?_
    intro mo hmo
    unfold sharedAdded at hmo hpl
    split at hmo
    · next hc =>
      rw [if_pos hc] at hpl
      split at hmo
      · next hl =>
        rw [if_pos hl] at hpl
        simp only [List.length_cons, List.length_nil] at hpl
        rw [List.mem_singleton] at hmo
        subst hmo
        exact Or.inl ⟨rfl, _, rfl, by omega⟩
      · next hl =>
        rw [if_neg hl] at hpl
        simp only [List.length_cons, List.length_nil] at hpl
        rw [List.mem_singleton] at hmo
        subst hmo
        exact Or.inl ⟨rfl, _, rfl, by omega⟩
    · simp at hmo
  · intro g b hb
    rw [a3] at hb
    split at hb
    · next hc =>
      rw [Dict.get?_set] at hb
      split at hb
      · cases hb
        unfold sharedAdded at a1
        rw [if_pos hc] at a1
        refine ⟨hL, ?_⟩
        by_cases hl : nLinear ∈ m.mro
        · rw [if_pos hl] at a1
          exact ⟨linObj E.rank E.rank s.heap.params.length, by rw [a1]; simp, rfl⟩
        · rw [if_neg hl] at a1
          exact ⟨convObj E.rank E.rank (1, 1) (1, 1) (0, 0) s.heap.params.length, by rw [a1]; simp, rfl⟩
      · exact (hn.sh g b hb).append a1
    · exact (hn.sh g b hb).append a1

theorem LNew.step (hw : WFModel h0) (hroot : ¬ IsLeaf h0 root) {name : PyStr} {id : Nat} {src : Option (Nat × PyStr)} {s s' : LoraSt K}
    (hloc : LLoc h0 root name id src) (hidN : id < h0.mods.length) (hg : LGood h0 s) (hn : LNew h0 s) (hr : loraStep E dev root tf nf name id s = .ok s') :
    LNew h0 s' := by
  obtain ⟨m, hm⟩ : ∃ m, h0.mods[id]? = some m := ⟨_, List.getElem?_eq_getElem hidN⟩
  obtain ⟨m', hm', e1, e2, e3, e4⟩ := hg.old id m hm
  unfold loraStep at hr
  rw [hm'] at hr
  dsimp only at hr
  by_cases hc : moduleCheck m' name supportedModules tf nf false = true
  · have hsel := (hg.selected hm hm').1 hc
    rw [if_pos hc] at hr
    cases src with
    | none =>
      obtain ⟨_, rfl⟩ := hloc
      obtain ⟨m2, hm2, hc2, _⟩ := hsel
      exact absurd ⟨m2, hm2, hc2⟩ hroot
    | some pk =>
      obtain ⟨p, k⟩ := pk
      obtain ⟨ks, hreach, hentry, rfl⟩ := hloc
      have hleaf : IsLeaf h0 id := by
        obtain ⟨m2, hm2, hc2, _⟩ := hsel
        exact ⟨m2, hm2, hc2⟩
      split at hr
      · cases hr
      · cases hgr : findGroup (dotted (ks ++ [k])) E.groups with
        | error e => rw [hgr] at hr; cases hr
        | ok psg =>
          rw [hgr] at hr
          dsimp only at hr
          obtain ⟨gs, ps, ss, _⟩ := shareFor_spec (E := E) (dev := dev) (m := m') (psg := psg) hg.plen (fun g b h => (hg.sh g b h).1)
          have hu := hn.share (E := E) (dev := dev) m' psg
          revert hr
          generalize shareFor E dev m' psg s = u at gs ps ss hu ⊢
          intro hr
          cases hmk : makeLora E dev u.heap (dotted (ks ++ [k])) id m'.layer (Dict.get? u.shared psg) with
          | error e => rw [hmk] at hr; cases hr
          | ok r =>
          rw [hmk] at hr
          obtain ⟨h2, w⟩ := r
          obtain ⟨b, x1, _⟩ := makeLora_spec ps ss hmk
          dsimp only at hr
          rw [hg.parentOf hw (gs.trans x1) hreach hentry] at hr
          dsimp only at hr
          cases hr
          obtain ⟨c1, c2, c3⟩ := makeLora_added hmk
          have hpl := congrArg List.length c2
          rw [List.length_append, length_shapes, length_shapes] at hpl
          have hml := congrArg List.length c1
          rw [List.length_append] at hml
          have hL := hu.len
          have hP := hu.plen
          have hadd := added_new hu.len hleaf (fun b hb => hu.sh psg b hb) c1 c2
          have hnew := new_append c1 (by omega) hu.new hadd
          have hpN := hentry.lt
          refine ⟨by dsimp only; rw [setChild_length]; omega, by dsimp only; rw [setChild_params]; omega, ?_, ?_⟩
          · intro i mi hi hmi
            dsimp only at hmi ⊢
            rw [setChild_mods] at hmi
            cases h2i : h2.mods[i]? with
            | none => rw [h2i] at hmi; cases hmi
            | some mo =>
              rw [h2i, Option.map_some, if_neg (by omega)] at hmi
              have hmi := Option.some.inj hmi
              subst hmi
              exact (hnew i _ hi h2i).setChild hpN _ _
          · intro g b hb
            exact ((hu.sh g b hb).append c1).setChild hpN _ _
  · rw [if_neg hc] at hr
    cases hr
    exact hn

/-- What `add_lora` made. -/
theorem addLora_new (hw : WFModel h0) (hroot : ¬ IsLeaf h0 root) (hr : root < h0.mods.length) {h' : MHeap K} (h : addLora E h0 root tf nf = .ok h') :
    ∃ dev s, s.heap = h' ∧ LInv E dev h0 root tf nf (h0.namedModules root) s ∧ LNew h0 s := by
  unfold addLora at h
  cases hd : h0.firstDev root with
  | error e => rw [hd] at h; cases h
  | ok dev =>
    rw [hd] at h
    dsimp only at h
    rw [addLora_fold hw hroot hr] at h
    cases hf : (h0.namedModules root).foldlM (fun s e => loraStep E dev root tf nf e.1 e.2 s) (⟨h0, []⟩ : LoraSt K) with
    | error e => rw [hf] at h; cases h
    | ok s =>
      rw [hf] at h
      refine ⟨dev, s, Except.ok.inj h, ?_⟩
      have := foldlM_inv (fun s e => loraStep E dev root tf nf e.1 e.2 s) (fun L s => LInv E dev h0 root tf nf L s ∧ LNew h0 s) (h0.namedModules root) [] _ s
        ⟨LInv.start hw, le_rfl, le_rfl, fun i m hi hm => by have := (List.getElem?_eq_some_iff.1 hm).1; dsimp only at this; omega, fun g b hb => by simp at hb⟩
        (by
          intro L e s s' hpre hI hstep
          rw [List.nil_append] at hpre
          have hmem : e ∈ h0.namedModules root := hpre.subset (by simp)
          have hlt := namedModules_lt hw hr e hmem
          obtain ⟨ks, hreach, hname⟩ := namedModules_path hw hmem
          have hloc : ∃ src, LLoc h0 root e.1 e.2 src := by
            generalize hid : e.2 = id at hreach
            cases hreach with
            | nil => exact ⟨none, hname, rfl⟩
            | @snoc ks' p k c h1 h2 => exact ⟨some (p, k), ks', h1, h2, hname⟩
          obtain ⟨src, hloc⟩ := hloc
          refine ⟨?_, hI.2.step hw hroot hloc hlt hI.1.good hstep⟩
          rcases loraStep_spec hw hroot hloc hlt hI.1.good hstep with ⟨h1, rfl⟩ | ⟨hsel, p, k, rfl, m, psg, h2, w, b, hst⟩
          · exact hI.1.skip h1
          · obtain ⟨ks', h1, h2', h3⟩ := hloc
            exact hI.1.step hw h1 h2' h3 hsel hst) hf
      simpa using this

theorem keys_mem {d d' : Dict PyStr Nat} (h : Dict.keys d = Dict.keys d') {k : PyStr} {v : Nat} (hm : (k, v) ∈ d) : ∃ v', (k, v') ∈ d' := by
  have : k ∈ Dict.keys d := List.mem_map_of_mem (f := Prod.fst) hm
  rw [h] at this
  obtain ⟨e, he, rfl⟩ := List.mem_map.1 this
  exact ⟨e.2, he⟩

theorem WrapAt.children {P : Nat} {R w c b : Nat} {h : MHeap K} {l : Layer} (hw : WrapAt P dev R h w c b l) :
    ∃ m a b' kl, h.mods[w]? = some m ∧ m.children = [(nA, a), (nB, b), (nC, b'), (kl, c)] ∧ (kl = nLin ∨ kl = nConv) := by
  cases l with
  | linear i o =>
    obtain ⟨x, y, h1, _⟩ := hw
    exact ⟨_, _, _, _, h1, rfl, Or.inl rfl⟩
  | conv2d i o g gr =>
    obtain ⟨x, y, h1, _⟩ := hw
    exact ⟨_, _, _, _, h1, rfl, Or.inr rfl⟩
  | _ => exact absurd hw id

/-- Adding LoRA layers to a well-formed model gives a well-formed model. -/
theorem addLora_wf (hw : WFModel h0) (hp : WFParams h0) (hroot : ¬ IsLeaf h0 root) (hr : root < h0.mods.length) {h' : MHeap K}
    (h : addLora E h0 root tf nf = .ok h') : WFModel h' ∧ WFParams h' ∧ root < h'.mods.length := by
  obtain ⟨dev, s, rfl, hI, hN⟩ := addLora_new hw hroot hr h
  have hL := hN.len
  -- what an old module looks like
  have old : ∀ p m', p < h0.mods.length → s.heap.mods[p]? = some m' → ∃ m, h0.mods[p]? = some m ∧ m'.params = m.params ∧ Dict.keys m'.children = Dict.keys m.children := by
    intro p m' hlt hm'
    obtain ⟨m2, a1, _, _, a4, a5⟩ := hI.good.old p _ (List.getElem?_eq_getElem hlt)
    rw [hm'] at a1
    cases a1
    exact ⟨_, List.getElem?_eq_getElem hlt, a4, a5⟩
  have nA_ : nA ≠ [] ∧ '.' ∉ nA := by decide
  have nB_ : nB ≠ [] ∧ '.' ∉ nB := by decide
  have nC_ : nC ≠ [] ∧ '.' ∉ nC := by decide
  have nL_ : nLin ≠ [] ∧ '.' ∉ nLin := by decide
  have nV_ : nConv ≠ [] ∧ '.' ∉ nConv := by decide
  have leafLt : ∀ b, NewLeaf h0 s.heap b → b < s.heap.mods.length := by
    rintro b ⟨_, m, hm, _⟩
    exact (List.getElem?_eq_some_iff.1 hm).1
  have hkeys : ∀ (p : Nat) (m : MObj), s.heap.mods[p]? = some m → (m.children.map Prod.fst).Nodup := by
    intro p m hm
    by_cases hlt : p < h0.mods.length
    · obtain ⟨m0, a1, _, a3⟩ := old p m hlt hm
      have := hw.keys p m0 a1
      unfold Dict.keys at a3
      rw [a3]
      exact this
    · rcases hN.new p m (by omega) hm with ⟨h1, _⟩ | ⟨_, a, b, c, kl, id, h2, h3, _⟩
      · rw [h1]; exact List.nodup_nil
      · rw [h2]
        rcases h3 with rfl | rfl <;> simp only [List.map_cons, List.map_nil] <;> decide
  -- entries of the new model
  have entry : ∀ p k c, Entry s.heap p k c →
      (∃ c0, Entry h0 p k c0 ∧ (c = c0 ∨ ∃ m a b b' kl, h0.mods.length ≤ c ∧ s.heap.mods[c]? = some m ∧
        m.children = [(nA, a), (nB, b), (nC, b'), (kl, c0)] ∧ (kl = nLin ∨ kl = nConv))) ∨
      (h0.mods.length ≤ p ∧ (k ≠ [] ∧ '.' ∉ k) ∧ ∃ m a b b' kl id, s.heap.mods[p]? = some m ∧ m.children = [(nA, a), (nB, b), (nC, b'), (kl, id)] ∧
        (kl = nLin ∨ kl = nConv) ∧ IsLeaf h0 id ∧ (NewLeaf h0 s.heap c ∨ c = id)) := by
    rintro p k c ⟨m, hm, hk⟩
    by_cases hlt : p < h0.mods.length
    · left
      obtain ⟨m0, a1, _, a3⟩ := old p m hlt hm
      obtain ⟨c0, hc0⟩ := keys_mem a3 hk
      have he0 : Entry h0 p k c0 := ⟨m0, a1, hc0⟩
      refine ⟨c0, he0, ?_⟩
      have hget : Dict.get? (s.heap.kids p) k = some c := by
        rw [kids_of hm]
        exact Dict.get?_of_mem _ (hkeys p m hm) hk
      rcases hI.kids p k c0 he0 with ⟨name, _, w, b, mm, psg, g1, g2, _, _, g5, _⟩ | ⟨_, g1⟩
      · rw [hget] at g1
        cases g1
        obtain ⟨mw, a, b', kl, w1, w2, w3⟩ := g5.children
        exact Or.inr ⟨mw, a, b, b', kl, g2, w1, w2, w3⟩
      · rw [hget] at g1
        exact Or.inl (Option.some.inj g1)
    · right
      rcases hN.new p m (by omega) hm with ⟨h1, _⟩ | ⟨_, a, b, b', kl, id, h2, h3, h4, h5, h6, h7⟩
      · rw [h1] at hk; simp at hk
      · rw [h2] at hk
        simp only [List.mem_cons, List.not_mem_nil, or_false, Prod.mk.injEq] at hk
        refine ⟨by omega, ?_, m, a, b, b', kl, id, hm, h2, h3, h7, ?_⟩
        · rcases hk with ⟨rfl, _⟩ | ⟨rfl, _⟩ | ⟨rfl, _⟩ | ⟨rfl, _⟩
          · exact nA_
          · exact nB_
          · exact nC_
          · rcases h3 with rfl | rfl
            · exact nL_
            · exact nV_
        · rcases hk with ⟨_, rfl⟩ | ⟨_, rfl⟩ | ⟨_, rfl⟩ | ⟨_, rfl⟩
          · exact Or.inl h4
          · exact Or.inl h5
          · exact Or.inl h6
          · exact Or.inr rfl
  refine ⟨⟨hkeys, ?_, ?_, ?_, ?_⟩, ?_, by omega⟩
  · intro p k c he
    rcases entry p k c he with ⟨c0, h1, _⟩ | ⟨_, h1, _⟩
    · exact hw.names p k c0 h1
    · exact h1
  · intro p k c he
    rcases entry p k c he with ⟨c0, h1, rfl | ⟨m, _, _, _, _, _, h2, _⟩⟩ | ⟨_, _, m, a, b, b', kl, id, _, _, _, ⟨m2, h5, _⟩, h6 | rfl⟩
    · have := hw.inside p k c h1; omega
    · exact (List.getElem?_eq_some_iff.1 h2).1
    · exact leafLt c h6
    · have := (List.getElem?_eq_some_iff.1 h5).1; omega
  · obtain ⟨d, hd⟩ := hw.acyclic
    refine ⟨fun i => if i < h0.mods.length then 2 * d i + 2 else
      match s.heap.kids i with
      | [_, _, _, e] => 2 * d e.2 + 3
      | _ => 0, ?_⟩
    intro p k c he
    dsimp only
    rcases entry p k c he with ⟨c0, h1, rfl | ⟨m, a, b, b', kl, h2, h3, h4, _⟩⟩ | ⟨h0', _, m, a, b, b', kl, id, h2, h3, _, ⟨m2, h5, _⟩, h6 | rfl⟩
    · rw [if_pos h1.lt, if_pos (hw.inside p k c h1)]
      have := hd p k c h1
      omega
    · rw [if_pos h1.lt, if_neg (by omega), kids_of h3, h4]
      have := hd p k c0 h1
      dsimp only
      omega
    · rw [if_neg (show ¬ p < h0.mods.length by omega), kids_of h2, h3]
      obtain ⟨g1, mm, g2, g3⟩ := h6
      rw [if_neg (by omega), kids_of g2, g3]
      dsimp only
      omega
    · rw [if_neg (show ¬ p < h0.mods.length by omega), kids_of h2, h3, if_pos (List.getElem?_eq_some_iff.1 h5).1]
      dsimp only
      omega
  · intro p m k i hm hk
    have hP := hN.plen
    by_cases hlt : p < h0.mods.length
    · obtain ⟨m0, a1, a2, _⟩ := old p m hlt hm
      rw [a2] at hk
      have := hw.params p m0 k i a1 hk
      omega
    · rcases hN.new p m (by omega) hm with ⟨_, j, h2, h3⟩ | ⟨h1, _⟩
      · rw [h2, List.mem_singleton] at hk
        cases hk
        exact h3
      · rw [h1] at hk; simp at hk
  · intro p m hm
    by_cases hlt : p < h0.mods.length
    · obtain ⟨m0, a1, a2, _⟩ := old p m hlt hm
      rw [a2]
      exact hp p m0 a1
    · rcases hN.new p m (by omega) hm with ⟨_, j, h2, h3⟩ | ⟨h1, _⟩
      · rw [h2]
        refine ⟨by simp, ?_⟩
        intro k i hk
        rw [List.mem_singleton] at hk
        cases hk
        decide
      · rw [h1]; simp

end Logix
