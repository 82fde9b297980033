/-
One step of `add_lora`, and the whole loop.
-/
import Verif.Lemmas.LoraVals

set_option linter.unusedSectionVars false

namespace Logix
variable {K : Type}

/-! ### Replacing a submodule -/

theorem setChild_mods (h : MHeap K) (p : Nat) (k : PyStr) (c i : Nat) :
    (h.setChild p k c).mods[i]? = (h.mods[i]?).map fun m => if p = i then { m with children := Dict.set m.children k c } else m := by
  unfold MHeap.setChild
  dsimp only
  rw [List.getElem?_modify]
  cases h.mods[i]? with
  | none => rfl
  | some m => by_cases hp : p = i <;> simp [hp]

theorem setChild_kids (h : MHeap K) (p : Nat) (k : PyStr) (c i : Nat) (hp : p < h.mods.length) :
    (h.setChild p k c).kids i = if p = i then Dict.set (h.kids i) k c else h.kids i := by
  unfold MHeap.kids
  rw [setChild_mods]
  by_cases hi : p = i
  · subst hi
    rw [List.getElem?_eq_getElem hp]
    simp
  · cases h.mods[i]? <;> simp [hi]

theorem setChild_params (h : MHeap K) (p : Nat) (k : PyStr) (c : Nat) : (h.setChild p k c).params = h.params := rfl

theorem setChild_length (h : MHeap K) (p : Nat) (k : PyStr) (c : Nat) : (h.setChild p k c).mods.length = h.mods.length := by
  unfold MHeap.setChild; simp

theorem setChild_paramId (h : MHeap K) (p : Nat) (k : PyStr) (c i : Nat) (n : PyStr) : (h.setChild p k c).paramId i n = h.paramId i n := by
  unfold MHeap.paramId
  rw [setChild_mods]
  cases h.mods[i]? with
  | none => rfl
  | some m => by_cases hp : p = i <;> simp [hp]

theorem setChild_other {h : MHeap K} {p : Nat} {k : PyStr} {c i : Nat} {m : MObj} (hm : h.mods[i]? = some m) (hi : p ≠ i) :
    (h.setChild p k c).mods[i]? = some m := by
  rw [setChild_mods, hm, Option.map_some, if_neg hi]

theorem kids_of {h : MHeap K} {i : Nat} {m : MObj} (hm : h.mods[i]? = some m) : h.kids i = m.children := by
  unfold MHeap.kids; rw [hm]; rfl

section
variable [Zero K]

theorem LinAt.setChild {P : Nat} {dev : Dev} {h : MHeap K} {i inF outF : Nat} (hl : LinAt P dev h i inF outF) {p : Nat} (hp : h.kids p ≠ []) (k : PyStr) (c : Nat) :
    LinAt P dev (h.setChild p k c) i inF outF := by
  obtain ⟨q, t, h0, h1, h2⟩ := hl
  refine ⟨q, t, h0, setChild_other h1 ?_, h2⟩
  rintro rfl
  exact hp (kids_of h1)

theorem ConvAt.setChild {P : Nat} {dev : Dev} {h : MHeap K} {i inC outC : Nat} {a b d : Nat × Nat} (hl : ConvAt P dev h i inC outC a b d) {p : Nat}
    (hp : h.kids p ≠ []) (k : PyStr) (c : Nat) : ConvAt P dev (h.setChild p k c) i inC outC a b d := by
  obtain ⟨q, t, h0, h1, h2⟩ := hl
  refine ⟨q, t, h0, setChild_other h1 ?_, h2⟩
  rintro rfl
  exact hp (kids_of h1)

theorem ZeroAt.setChild {h : MHeap K} {i : Nat} (hz : ZeroAt h i) (p : Nat) (k : PyStr) (c : Nat) : ZeroAt (h.setChild p k c) i := by
  obtain ⟨q, t, h1, h2⟩ := hz
  exact ⟨q, t, by rw [setChild_paramId]; exact h1, h2⟩

theorem WrapLin.setChild {P : Nat} {dev : Dev} {h : MHeap K} {w orig b r inF outF : Nat} (hw : WrapLin P dev h w orig b r inF outF) {p : Nat}
    (hp : h.kids p ≠ []) (hpw : p ≠ w) (k : PyStr) (c : Nat) : WrapLin P dev (h.setChild p k c) w orig b r inF outF := by
  obtain ⟨x, y, h1, h2, h3, h4⟩ := hw
  exact ⟨x, y, setChild_other h1 hpw, h2.setChild hp k c, h3.setChild hp k c, h4.setChild p k c⟩

theorem WrapConv.setChild {P : Nat} {dev : Dev} {h : MHeap K} {w orig b r inC outC : Nat} {g : ConvGeom} (hw : WrapConv P dev h w orig b r inC outC g) {p : Nat}
    (hp : h.kids p ≠ []) (hpw : p ≠ w) (k : PyStr) (c : Nat) : WrapConv P dev (h.setChild p k c) w orig b r inC outC g := by
  obtain ⟨x, y, h1, h2, h3, h4⟩ := hw
  exact ⟨x, y, setChild_other h1 hpw, h2.setChild hp k c, h3.setChild hp k c, h4.setChild p k c⟩

theorem SharedOk.setChild {P : Nat} {h : MHeap K} {b : Nat} (hs : SharedOk P h b) (p : Nat) (k : PyStr) (c : Nat) : SharedOk P (h.setChild p k c) b := by
  obtain ⟨q, h1, h2, h3⟩ := hs
  exact ⟨q, by rw [setChild_paramId]; exact h1, h2, h3⟩

/-- The wrapper of a layer. -/
def WrapAt (P : Nat) (dev : Dev) (R : Nat) (h : MHeap K) (w orig b : Nat) : Layer → Prop
  | .linear i o => WrapLin P dev h w orig b (min R (min i o)) i o
  | .conv2d i o g _ => WrapConv P dev h w orig b (min R (min i o)) i o g
  | _ => False

/-- A bottleneck that fits the layer. -/
def BotAt (P : Nat) (dev : Dev) (R : Nat) (h : MHeap K) (b : Nat) : Layer → Prop
  | .linear i o => LinAt P dev h b (min R (min i o)) (min R (min i o))
  | .conv2d i o _ _ => ConvAt P dev h b (min R (min i o)) (min R (min i o)) (1, 1) (1, 1) (0, 0)
  | _ => False

theorem WrapAt.grow {P : Nat} {dev : Dev} {R : Nat} {h h' : MHeap K} (a : Grow P dev h h') {w orig b : Nat} {l : Layer} (hw : WrapAt P dev R h w orig b l) :
    WrapAt P dev R h' w orig b l := by
  cases l with
  | linear => exact WrapLin.grow a hw
  | conv2d => exact WrapConv.grow a hw
  | _ => exact hw

theorem WrapAt.setChild {P : Nat} {dev : Dev} {R : Nat} {h : MHeap K} {w orig b : Nat} {l : Layer} (hw : WrapAt P dev R h w orig b l) {p : Nat}
    (hp : h.kids p ≠ []) (hpw : p ≠ w) (k : PyStr) (c : Nat) : WrapAt P dev R (h.setChild p k c) w orig b l := by
  cases l with
  | linear => exact WrapLin.setChild hw hp hpw k c
  | conv2d => exact WrapConv.setChild hw hp hpw k c
  | _ => exact hw

theorem BotAt.grow {P : Nat} {dev : Dev} {R : Nat} {h h' : MHeap K} (a : Grow P dev h h') {b : Nat} {l : Layer} (hw : BotAt P dev R h b l) : BotAt P dev R h' b l := by
  cases l with
  | linear => exact LinAt.grow a hw
  | conv2d => exact ConvAt.grow a hw
  | _ => exact hw

theorem BotAt.setChild {P : Nat} {dev : Dev} {R : Nat} {h : MHeap K} {b : Nat} {l : Layer} (hw : BotAt P dev R h b l) {p : Nat} (hp : h.kids p ≠ []) (k : PyStr)
    (c : Nat) : BotAt P dev R (h.setChild p k c) b l := by
  cases l with
  | linear => exact LinAt.setChild hw hp k c
  | conv2d => exact ConvAt.setChild hw hp k c
  | _ => exact hw

theorem makeLora_spec {P : Nat} {E : LoraEnv K} {dev : Dev} {h h' : MHeap K} {name : PyStr} {id w : Nat} {l : Layer} {shared : Option Nat}
    (hP : P ≤ h.params.length) (hs : ∀ b, shared = some b → SharedOk P h b) (hr : makeLora E dev h name id l shared = .ok (h', w)) :
    ∃ b, Grow P dev h h' ∧ h.mods.length ≤ w ∧ w < h'.mods.length ∧ P ≤ h'.params.length ∧ WrapAt P dev E.rank h' w id b l ∧
      (∀ b', shared = some b' → b = b') ∧ (shared = none → h.mods.length ≤ b ∧ b + 2 = w ∧ BotAt P dev E.rank h' b l) := by
  cases l with
  | linear inF outF => exact makeLoraLinear_spec hP hs hr
  | conv2d inC outC g gr => exact makeLoraConv2d_spec hP hs hr
  | _ => cases hr

/-- The bottleneck made for a group. -/
def FirstBot (P : Nat) (dev : Dev) (R : Nat) (h : MHeap K) (b : Nat) (m : MObj) : Prop :=
  (nLinear ∈ m.mro → LinAt P dev h b R R) ∧ (nLinear ∉ m.mro → ConvAt P dev h b R R (1, 1) (1, 1) (0, 0))

theorem FirstBot.grow {P : Nat} {dev : Dev} {R : Nat} {h h' : MHeap K} (a : Grow P dev h h') {b : Nat} {m : MObj} (hb : FirstBot P dev R h b m) :
    FirstBot P dev R h' b m := ⟨fun h => (hb.1 h).grow a, fun h => (hb.2 h).grow a⟩

theorem FirstBot.setChild {P : Nat} {dev : Dev} {R : Nat} {h : MHeap K} {b : Nat} {m : MObj} (hb : FirstBot P dev R h b m) {p : Nat} (hp : h.kids p ≠ [])
    (k : PyStr) (c : Nat) : FirstBot P dev R (h.setChild p k c) b m := ⟨fun h => (hb.1 h).setChild hp k c, fun h => (hb.2 h).setChild hp k c⟩

/-! ### The state during the loop -/

/-- What stays true of the modules the model had before. -/
structure LGood (h0 : MHeap K) (s : LoraSt K) : Prop where
  old : ∀ (i : Nat) (m : MObj), h0.mods[i]? = some m → ∃ m', s.heap.mods[i]? = some m' ∧ m'.mro = m.mro ∧ m'.layer = m.layer ∧ m'.params = m.params ∧
    Dict.keys m'.children = Dict.keys m.children
  inner : ∀ p k c, Entry h0 p k c → ¬ IsLeaf h0 c → Dict.get? (s.heap.kids p) k = some c
  plen : h0.params.length ≤ s.heap.params.length
  sh : ∀ g b, Dict.get? s.shared g = some b → SharedOk h0.params.length s.heap b ∧ b < s.heap.mods.length

/-- The place of a module: its name, and the attribute it was reached by. -/
def LLoc (h0 : MHeap K) (root : Nat) (pre : PyStr) (id : Nat) (src : Option (Nat × PyStr)) : Prop :=
  match src with
  | none => pre = [] ∧ id = root
  | some (p, k) => ∃ ks, Reach h0 root ks p ∧ Entry h0 p k id ∧ pre = dotted (ks ++ [k])

theorem Entry.not_leaf {h : MHeap K} {p : Nat} {k : PyStr} {c : Nat} (he : Entry h p k c) : ¬ IsLeaf h p := by
  rintro ⟨m, hm, hc⟩
  obtain ⟨m', hm', hk⟩ := he
  rw [hm] at hm'
  cases hm'
  rw [hc] at hk
  simp at hk

theorem getPath_append (h : MHeap K) : ∀ (ks : List PyStr) (id p : Nat) (k : PyStr), h.getPath id ks = .ok p →
    h.getPath id (ks ++ [k]) = match Dict.get? (h.kids p) k with | none => .error .attributeError | some c => .ok c
  | [], id, p, k, hp => by
    cases hp
    rw [List.nil_append]
    unfold MHeap.getPath
    cases Dict.get? (h.kids id) k with
    | none => rfl
    | some c => rfl
  | a :: ks, id, p, k, hp => by
    rw [List.cons_append]
    unfold MHeap.getPath at hp ⊢
    cases hg : Dict.get? (h.kids id) a with
    | none => rw [hg] at hp; cases hp
    | some c =>
      rw [hg] at hp
      exact getPath_append h ks c p k hp

variable {h0 : MHeap K} {root : Nat}

theorem LGood.kids_grow {P : Nat} {dev : Dev} {s : LoraSt K} (hg : LGood h0 s) {h2 : MHeap K} (hG : Grow P dev s.heap h2) {p : Nat} (hp : p < h0.mods.length) :
    h2.kids p = s.heap.kids p := by
  obtain ⟨m', hm', _⟩ := hg.old p _ (List.getElem?_eq_getElem hp)
  rw [kids_of hm', kids_of (hG.mods hm')]

theorem LGood.getPath {P : Nat} {dev : Dev} {s : LoraSt K} (hg : LGood h0 s) {h2 : MHeap K} (hG : Grow P dev s.heap h2) {ks : List PyStr} {p : Nat}
    (hr : Reach h0 root ks p) (hp : ¬ IsLeaf h0 p) : h2.getPath root ks = .ok p := by
  induction hr with
  | nil => rfl
  | snoc hr' he ih =>
    rw [getPath_append h2 _ _ _ _ (ih he.not_leaf), hg.kids_grow hG he.lt, hg.inner _ _ _ he hp]

theorem LGood.parentOf {P : Nat} {dev : Dev} (hw : WFModel h0) {s : LoraSt K} (hg : LGood h0 s) {h2 : MHeap K} (hG : Grow P dev s.heap h2) {ks : List PyStr}
    {p : Nat} {k : PyStr} {c : Nat} (hr : Reach h0 root ks p) (he : Entry h0 p k c) : h2.parentOf root (dotted (ks ++ [k])) = .ok (p, k) := by
  unfold MHeap.parentOf
  have hn := (hr.snoc he).names hw
  rw [splitDot_dotted (fun k hk => (hn k hk).2) (by simp), List.dropLast_concat, hg.getPath hG hr he.not_leaf]
  simp

theorem LGood.selected {s : LoraSt K} (hg : LGood h0 s) {tf nf : Option (List PyStr)} {name : PyStr} {id : Nat} {m m' : MObj} (hm : h0.mods[id]? = some m)
    (hm' : s.heap.mods[id]? = some m') : moduleCheck m' name supportedModules tf nf false = true ↔ Selected h0 tf nf name id := by
  obtain ⟨m2, h2, e1, _, _, e4⟩ := hg.old id m hm
  rw [hm'] at h2
  cases h2
  have hc : m'.children.isEmpty = m.children.isEmpty := by
    have := congrArg List.length e4
    simp only [Dict.keys, List.length_map] at this
    rw [Bool.eq_iff_iff, List.isEmpty_iff, List.isEmpty_iff, ← List.length_eq_zero_iff, ← List.length_eq_zero_iff, this]
  have : moduleCheck m' name supportedModules tf nf false = moduleCheck m name supportedModules tf nf false := by
    unfold moduleCheck
    rw [hc, e1]
  rw [this, moduleCheck_iff hm]
  simp

/-- What a step does to a selected module. -/
structure Step (E : LoraEnv K) (dev : Dev) (h0 : MHeap K) (name : PyStr) (id p : Nat) (k : PyStr) (s s' : LoraSt K) (m : MObj) (psg : PyStr) (h2 : MHeap K)
    (w b : Nat) : Prop where
  obj : h0.mods[id]? = some m
  conv1d : nLinear ∈ m.mro ∨ nConv1d ∉ m.mro
  group : findGroup name E.groups = .ok psg
  grow : Grow h0.params.length dev s.heap h2
  heap : s'.heap = h2.setChild p k w
  fresh : s.heap.mods.length ≤ w ∧ w < h2.mods.length
  plen : h0.params.length ≤ h2.params.length
  wrap : WrapAt h0.params.length dev E.rank h2 w id b m.layer
  shared : (∃ b', Dict.get? s.shared psg = some b') → s'.shared = s.shared ∧ Dict.get? s.shared psg = some b
  make : Dict.get? s.shared psg = none → E.sharing = true → s'.shared = Dict.set s.shared psg b ∧ s.heap.mods.length ≤ b ∧ b < h2.mods.length ∧
    FirstBot h0.params.length dev E.rank h2 b m
  own : Dict.get? s.shared psg = none → E.sharing = false → s'.shared = s.shared ∧ s.heap.mods.length ≤ b ∧ b + 2 = w ∧
    BotAt h0.params.length dev E.rank h2 b m.layer
  newbot : Dict.get? s.shared psg = none → E.sharing = true → ∀ x, x < s.heap.params.length → h2.paramId b nWeight ≠ some x
  keep : KeepBut (BotParam s.heap (Dict.get? s.shared psg)) s.heap h2
  vals : ∃ pa pc, s.heap.params.length ≤ pa ∧ s.heap.params.length ≤ pc ∧ ValsAt E dev name m.layer h2 w pa pc ∧
    ∀ g b', Dict.get? s'.shared g = some b' → h2.paramId b' nWeight ≠ some pa ∧ h2.paramId b' nWeight ≠ some pc

/-- What sharing does to the weights. -/
theorem shareFor_vals {E : LoraEnv K} {dev : Dev} {m : MObj} {psg : PyStr} {s : LoraSt K}
    (hsh : ∀ g b, Dict.get? s.shared g = some b → ∃ p, s.heap.paramId b nWeight = some p ∧ p < s.heap.params.length) :
    s.heap.mods <+: (shareFor E dev m psg s).heap.mods ∧ s.heap.params <+: (shareFor E dev m psg s).heap.params ∧
    (∀ g b, Dict.get? (shareFor E dev m psg s).shared g = some b →
      ∃ p, (shareFor E dev m psg s).heap.paramId b nWeight = some p ∧ p < (shareFor E dev m psg s).heap.params.length) ∧
    ∀ x, x < s.heap.params.length → BotParam (shareFor E dev m psg s).heap (Dict.get? (shareFor E dev m psg s).shared psg) x →
      BotParam s.heap (Dict.get? s.shared psg) x := by
  by_cases hc : E.sharing = true ∧ Dict.get? s.shared psg = none
  · have key : ∀ (h1 : MHeap K) (mo : MObj) (q : Param K), h1.mods = s.heap.mods ++ [mo] → h1.params = s.heap.params ++ [q] →
        Dict.get? mo.params nWeight = some s.heap.params.length → shareFor E dev m psg s = ⟨h1, Dict.set s.shared psg s.heap.mods.length⟩ →
        s.heap.mods <+: (shareFor E dev m psg s).heap.mods ∧ s.heap.params <+: (shareFor E dev m psg s).heap.params ∧
        (∀ g b, Dict.get? (shareFor E dev m psg s).shared g = some b →
          ∃ p, (shareFor E dev m psg s).heap.paramId b nWeight = some p ∧ p < (shareFor E dev m psg s).heap.params.length) ∧
        ∀ x, x < s.heap.params.length → BotParam (shareFor E dev m psg s).heap (Dict.get? (shareFor E dev m psg s).shared psg) x →
          BotParam s.heap (Dict.get? s.shared psg) x := by
      intro h1 mo q e1 e2 e3 e4
      rw [e4]
      dsimp only
      have hnew : h1.paramId s.heap.mods.length nWeight = some s.heap.params.length := by
        rw [paramId_of (m := mo) (by rw [e1]; simp), e3]
      refine ⟨by rw [e1]; exact List.prefix_append _ _, by rw [e2]; exact List.prefix_append _ _, ?_, ?_⟩
      · intro g b hb
        rw [Dict.get?_set] at hb
        split at hb
        · cases hb
          exact ⟨_, hnew, by rw [e2]; simp⟩
        · obtain ⟨p, hp, hlt⟩ := hsh g b hb
          obtain ⟨mb, hmb, hg⟩ := paramId_some hp
          refine ⟨p, ?_, by rw [e2, List.length_append]; omega⟩
          rw [paramId_of (m := mb), hg]
          rw [e1, List.getElem?_append_left (List.getElem?_eq_some_iff.1 hmb).1, hmb]
      · rintro x hx ⟨b, hb, hp⟩
        rw [Dict.get?_set_self] at hb
        cases hb
        rw [hnew] at hp
        cases hp
        omega
    by_cases hl : nLinear ∈ m.mro
    · exact key _ _ _ (newLinear_vals s.heap dev _ _ _).1 (newLinear_vals s.heap dev _ _ _).2.1 rfl (by unfold shareFor; rw [if_pos hc, if_pos hl]; rfl)
    · exact key _ _ _ (newConv2d_vals s.heap dev _ _ _ _ _ _).1 (newConv2d_vals s.heap dev _ _ _ _ _ _).2.1 rfl
        (by unfold shareFor; rw [if_pos hc, if_neg hl]; rfl)
  · have he : shareFor E dev m psg s = s := by unfold shareFor; rw [if_neg hc]
    rw [he]
    exact ⟨List.prefix_refl _, List.prefix_refl _, hsh, fun _ _ h => h⟩

theorem shareFor_spec {E : LoraEnv K} {dev : Dev} {m : MObj} {psg : PyStr} {s : LoraSt K} {P : Nat} (hP : P ≤ s.heap.params.length)
    (hsh : ∀ g b, Dict.get? s.shared g = some b → SharedOk P s.heap b) :
    Grow P dev s.heap (shareFor E dev m psg s).heap ∧ P ≤ (shareFor E dev m psg s).heap.params.length ∧
    (∀ b, Dict.get? (shareFor E dev m psg s).shared psg = some b → SharedOk P (shareFor E dev m psg s).heap b) ∧
    ((∃ b', Dict.get? s.shared psg = some b') → shareFor E dev m psg s = s) ∧
    (Dict.get? s.shared psg = none → E.sharing = false → shareFor E dev m psg s = s) ∧
    (Dict.get? s.shared psg = none → E.sharing = true → (shareFor E dev m psg s).shared = Dict.set s.shared psg s.heap.mods.length ∧
      s.heap.mods.length < (shareFor E dev m psg s).heap.mods.length ∧ FirstBot P dev E.rank (shareFor E dev m psg s).heap s.heap.mods.length m) := by
  by_cases hc : E.sharing = true ∧ Dict.get? s.shared psg = none
  · by_cases hl : nLinear ∈ m.mro
    · have he : shareFor E dev m psg s = ⟨(s.heap.newLinear dev E.rank E.rank (E.rand s.heap.params.length)).1,
          Dict.set s.shared psg (s.heap.newLinear dev E.rank E.rank (E.rand s.heap.params.length)).2⟩ := by
        unfold shareFor; rw [if_pos hc, if_pos hl]
      obtain ⟨g1, e1, l1, p1, f1⟩ := newLinear_spec (P := P) (dev := dev) hP E.rank E.rank (E.rand s.heap.params.length)
      rw [he]
      dsimp only
      rw [e1]
      refine ⟨g1, p1, ?_, ?_, ?_, ?_⟩
      · intro b hb
        rw [Dict.get?_set_self] at hb
        cases hb
        exact f1.shared
      · rintro ⟨b', hb'⟩; rw [hc.2] at hb'; cases hb'
      · intro _ h; rw [hc.1] at h; cases h
      · intro _ _
        exact ⟨rfl, by omega, fun _ => f1, fun h => absurd hl h⟩
    · have he : shareFor E dev m psg s = ⟨(s.heap.newConv2d dev E.rank E.rank (1, 1) (1, 1) (0, 0) (E.rand s.heap.params.length)).1,
          Dict.set s.shared psg (s.heap.newConv2d dev E.rank E.rank (1, 1) (1, 1) (0, 0) (E.rand s.heap.params.length)).2⟩ := by
        unfold shareFor; rw [if_pos hc, if_neg hl]
      obtain ⟨g1, e1, l1, p1, f1⟩ := newConv2d_spec (P := P) (dev := dev) hP E.rank E.rank (1, 1) (1, 1) (0, 0) (E.rand s.heap.params.length)
      rw [he]
      dsimp only
      rw [e1]
      refine ⟨g1, p1, ?_, ?_, ?_, ?_⟩
      · intro b hb
        rw [Dict.get?_set_self] at hb
        cases hb
        exact f1.shared
      · rintro ⟨b', hb'⟩; rw [hc.2] at hb'; cases hb'
      · intro _ h; rw [hc.1] at h; cases h
      · intro _ _
        exact ⟨rfl, by omega, fun h => absurd h hl, fun _ => f1⟩
  · have he : shareFor E dev m psg s = s := by unfold shareFor; rw [if_neg hc]
    rw [he]
    exact ⟨.refl _ _ _, hP, hsh psg, fun _ => rfl, fun _ _ => rfl, fun h1 h2 => absurd ⟨h2, h1⟩ hc⟩

theorem loraStep_spec (hw : WFModel h0) (hroot : ¬ IsLeaf h0 root) {E : LoraEnv K} {dev : Dev} {tf nf : Option (List PyStr)} {name : PyStr} {id : Nat}
    {src : Option (Nat × PyStr)} {s s' : LoraSt K} (hloc : LLoc h0 root name id src) (hidN : id < h0.mods.length) (hg : LGood h0 s)
    (hr : loraStep E dev root tf nf name id s = .ok s') :
    (¬ Selected h0 tf nf name id ∧ s' = s) ∨
    (Selected h0 tf nf name id ∧ ∃ p k, src = some (p, k) ∧ ∃ m psg h2 w b, Step E dev h0 name id p k s s' m psg h2 w b) := by
  obtain ⟨m, hm⟩ : ∃ m, h0.mods[id]? = some m := ⟨_, List.getElem?_eq_getElem hidN⟩
  obtain ⟨m', hm', e1, e2, e3, e4⟩ := hg.old id m hm
  unfold loraStep at hr
  rw [hm'] at hr
  dsimp only at hr
  by_cases hc : moduleCheck m' name supportedModules tf nf false = true
  · right
    have hsel := (hg.selected hm hm').1 hc
    rw [if_pos hc] at hr
    refine ⟨hsel, ?_⟩
    cases src with
    | none =>
      obtain ⟨_, rfl⟩ := hloc
      obtain ⟨m2, hm2, hc2, _⟩ := hsel
      exact absurd ⟨m2, hm2, hc2⟩ hroot
    | some pk =>
      obtain ⟨p, k⟩ := pk
      obtain ⟨ks, hreach, hentry, rfl⟩ := hloc
      refine ⟨p, k, rfl, m, ?_⟩
      rw [e1] at hr
      split at hr
      · cases hr
      · next hconv =>
        cases hgr : findGroup (dotted (ks ++ [k])) E.groups with
        | error e => rw [hgr] at hr; cases hr
        | ok psg =>
          rw [hgr] at hr
          dsimp only at hr
          obtain ⟨gs, ps, ss, sh1, sh2, sh3⟩ := shareFor_spec (E := E) (dev := dev) (m := m') (psg := psg) hg.plen (fun g b h => (hg.sh g b h).1)
          obtain ⟨va, vb, vc, vd⟩ := shareFor_vals (E := E) (dev := dev) (m := m') (psg := psg) (s := s)
            (fun g b h => by obtain ⟨⟨p, h1, _, h3⟩, _⟩ := hg.sh g b h; exact ⟨p, h1, h3⟩)
          revert hr
          generalize shareFor E dev m' psg s = s1 at gs ps ss sh1 sh2 sh3 va vb vc vd ⊢
          intro hr
          cases hmk : makeLora E dev s1.heap (dotted (ks ++ [k])) id m'.layer (Dict.get? s1.shared psg) with
          | error e => rw [hmk] at hr; cases hr
          | ok r =>
          rw [hmk] at hr
          obtain ⟨h2, w⟩ := r
          obtain ⟨b, x1, x2, x3, x4, x5, x6, x7⟩ := makeLora_spec ps ss hmk
          dsimp only at hr
          rw [hg.parentOf hw (gs.trans x1) hreach hentry] at hr
          dsimp only at hr
          cases hr
          obtain ⟨vk, pa, pc, v1, v2, v3⟩ := makeLora_vals (vc psg) hmk
          rw [e2] at x5 x7 v3
          have hsl := gs.len
          have hvl := vb.length_le
          refine ⟨psg, h2, w, b, hm, ?_, hgr, gs.trans x1, rfl, ⟨by omega, x3⟩, x4, x5, ?_, ?_, ?_, ?_, ?_, pa, pc, by omega, by omega, v3, ?_⟩
          · by_cases h1 : nLinear ∈ m.mro
            · exact Or.inl h1
            · exact Or.inr fun h2 => hconv ⟨h1, h2⟩
          · rintro ⟨b', hb'⟩
            have := sh1 ⟨b', hb'⟩
            subst this
            exact ⟨rfl, by rw [hb', x6 b' hb']⟩
          · intro hn hs
            obtain ⟨y1, y2, y3⟩ := sh3 hn hs
            have hb : b = s.heap.mods.length := x6 _ (by rw [y1, Dict.get?_set_self])
            subst hb
            refine ⟨y1, le_rfl, by have := x1.len; omega, ?_⟩
            have := y3.grow x1
            exact ⟨fun h => this.1 (by rw [e1]; exact h), fun h => this.2 (by rw [e1]; exact h)⟩
          · intro hn hs
            have := sh2 hn hs
            subst this
            exact ⟨rfl, (x7 hn).1, (x7 hn).2.1, (x7 hn).2.2⟩
          · intro hn hs x hx hp
            obtain ⟨y1, y2, y3⟩ := sh3 hn hs
            have hb : b = s.heap.mods.length := x6 _ (by rw [y1, Dict.get?_set_self])
            obtain ⟨p', hp', _⟩ := vc psg b (by rw [y1, Dict.get?_set_self, hb])
            obtain ⟨mb, hmb, hgp⟩ := paramId_some hp'
            rw [paramId_of (x1.mods hmb), hgp] at hp
            cases hp
            obtain ⟨b2, h1, h2⟩ := vd x hx ⟨b, by rw [y1, Dict.get?_set_self, hb], hp'⟩
            rw [hn] at h1
            cases h1
          · intro x q hq hz
            obtain ⟨q1, a1, a2, a3⟩ := keep_append (z := BotParam s.heap (Dict.get? s.shared psg)) vb x q hq hz
            obtain ⟨q2, b1, b2, b3⟩ := vk x q1 a1 fun hb => hz (vd x (List.getElem?_eq_some_iff.1 hq).1 hb)
            exact ⟨q2, b1, b2.trans a2, b3.trans a3⟩
          · intro g b' hb'
            obtain ⟨p', hp', hlt⟩ := vc g b' hb'
            obtain ⟨mb, hmb, hgp⟩ := paramId_some hp'
            have : h2.paramId b' nWeight = some p' := by rw [paramId_of (x1.mods hmb), hgp]
            rw [this]
            constructor
            · intro e; have := Option.some.inj e; omega
            · intro e; have := Option.some.inj e; omega
  · left
    rw [if_neg hc] at hr
    exact ⟨fun h => hc ((hg.selected hm hm').2 h), (Except.ok.inj hr).symm⟩

/-- The changes of a step. -/
theorem Step.good (hw : WFModel h0) {E : LoraEnv K} {dev : Dev} {name : PyStr} {id p : Nat} {k : PyStr} {s s' : LoraSt K} {m : MObj} {psg : PyStr}
    {h2 : MHeap K} {w b : Nat} (hg : LGood h0 s) (hst : Step E dev h0 name id p k s s' m psg h2 w b) (he : Entry h0 p k id) (hleaf : IsLeaf h0 id) :
    LGood h0 s' ∧ (∀ p' k', p' < h0.mods.length → (p', k') ≠ (p, k) → Dict.get? (s'.heap.kids p') k' = Dict.get? (s.heap.kids p') k') ∧
      Dict.get? (s'.heap.kids p) k = some w := by
  have hlenN : ∀ i, i < h0.mods.length → i < s.heap.mods.length := by
    intro i hi
    obtain ⟨m', hm', _⟩ := hg.old i _ (List.getElem?_eq_getElem hi)
    exact (List.getElem?_eq_some_iff.1 hm').1
  have hpN := he.lt
  have hp2 : p < h2.mods.length := by have := hlenN p hpN; have := hst.grow.len; omega
  have hkids : ∀ p' k', p' < h0.mods.length → (p', k') ≠ (p, k) → Dict.get? (s'.heap.kids p') k' = Dict.get? (s.heap.kids p') k' := by
    intro p' k' hp' hne
    rw [hst.heap, setChild_kids _ _ _ _ _ hp2]
    by_cases hpp : p = p'
    · subst hpp
      rw [if_pos rfl, Dict.get?_set_ne _ _ (fun h => hne (by rw [h])), hg.kids_grow hst.grow hp']
    · rw [if_neg hpp, hg.kids_grow hst.grow hp']
  refine ⟨⟨?_, ?_, ?_, ?_⟩, hkids, ?_⟩
  · intro i mi hmi
    obtain ⟨m', hm', e1, e2, e3, e4⟩ := hg.old i mi hmi
    rw [hst.heap, setChild_mods, hst.grow.mods hm', Option.map_some]
    by_cases hpi : p = i
    · subst hpi
      refine ⟨_, rfl, ?_⟩
      rw [if_pos rfl]
      refine ⟨e1, e2, e3, ?_⟩
      dsimp only
      rw [Dict.keys_set_of_mem, e4]
      rw [e4]
      obtain ⟨mp, hmp, hkp⟩ := he
      rw [hmi] at hmp
      cases hmp
      exact List.mem_map_of_mem (f := Prod.fst) hkp
    · rw [if_neg hpi]
      exact ⟨m', rfl, e1, e2, e3, e4⟩
  · intro p' k' c' he' hc'
    rw [hkids p' k' he'.lt ?_]
    · exact hg.inner p' k' c' he' hc'
    · intro h
      cases h
      have := hw.get_kids.2 he
      rw [hw.get_kids.2 he'] at this
      cases this
      exact hc' hleaf
  · rw [hst.heap, setChild_params]; exact hst.plen
  · intro g b' hb'
    rw [hst.heap, setChild_length]
    have key : ∀ g b', Dict.get? s.shared g = some b' → SharedOk h0.params.length (h2.setChild p k w) b' ∧ b' < h2.mods.length := by
      intro g b' h
      obtain ⟨z1, z2⟩ := hg.sh g b' h
      exact ⟨(z1.grow hst.grow).setChild p k w, by have := hst.grow.len; omega⟩
    cases hgs : Dict.get? s.shared psg with
    | some b1 => rw [(hst.shared ⟨b1, hgs⟩).1] at hb'; exact key g b' hb'
    | none =>
      cases hsh : E.sharing with
      | false => rw [(hst.own hgs hsh).1] at hb'; exact key g b' hb'
      | true =>
        obtain ⟨y1, y2, y3, y4⟩ := hst.make hgs hsh
        rw [y1, Dict.get?_set] at hb'
        split at hb'
        · cases hb'
          refine ⟨?_, y3⟩
          by_cases hl : nLinear ∈ m.mro
          · exact ((y4.1 hl).shared).setChild p k w
          · exact ((y4.2 hl).shared).setChild p k w
        · exact key g b' hb'
  · rw [hst.heap, setChild_kids _ _ _ _ _ hp2, if_pos rfl, Dict.get?_set_self]

/-- The loop goes through the modules the model had at the beginning. -/
theorem addLora_fold (hw : WFModel h0) (hroot : ¬ IsLeaf h0 root) (hr : root < h0.mods.length) {E : LoraEnv K} {dev : Dev} {tf nf : Option (List PyStr)} :
    walk (fun s : LoraSt K => s.heap.kids) (loraStep E dev root tf nf) (h0.mods.length + 1) [] root (⟨h0, []⟩, []) =
      match (h0.namedModules root).foldlM (fun s e => loraStep E dev root tf nf e.1 e.2 s) (⟨h0, []⟩ : LoraSt K) with
      | .error e => .error e
      | .ok s => .ok (s, (visits h0.kids (h0.mods.length + 1) [] root []).2) := by
  obtain ⟨d, hd1, hd2⟩ := hw.rank
  have hgood : LGood h0 (⟨h0, []⟩ : LoraSt K) :=
    ⟨fun i m hm => ⟨m, hm, rfl, rfl, rfl, rfl⟩, fun p k c he _ => hw.get_kids.2 he, le_rfl, fun g b h => by simp at h⟩
  have hLN : ∀ pre id src, LLoc h0 root pre id src → id < h0.mods.length := by
    intro pre id src h
    cases src with
    | none => rw [h.2]; exact hr
    | some pk => obtain ⟨ks, _, he, _⟩ := h; exact hw.inside _ _ _ he
  have := walk_ok (σ := LoraSt K) (fun s => s.heap.kids) (loraStep E dev root tf nf) (K0 := h0.kids) (d := d) (D := fun p => p < h0.mods.length)
    (Good := LGood h0) (Loc := LLoc h0 root) hw.nodup_kids (fun p k c h => hd2 p k c (hw.get_kids.1 h))
    (by
      intro pre p src k c hl hk
      have he := hw.get_kids.1 hk
      cases src with
      | none =>
        obtain ⟨rfl, rfl⟩ := hl
        exact ⟨[], .nil, he, rfl⟩
      | some pk =>
        obtain ⟨p', k'⟩ := pk
        obtain ⟨ks, h1, h2, rfl⟩ := hl
        refine ⟨ks ++ [k'], h1.snoc h2, he, ?_⟩
        exact childName_dotted k (fun k hk => ((h1.snoc h2).names hw k hk).1))
    hLN
    (by
      intro s hg p hp
      obtain ⟨m', hm', _, _, _, e4⟩ := hg.old p _ (List.getElem?_eq_getElem hp)
      rw [kids_of hm', e4, kids_of (List.getElem?_eq_getElem hp)])
    (by
      intro pre id src s s' hl hg hb
      rcases loraStep_spec hw hroot hl (hLN _ _ _ hl) hg hb with ⟨_, rfl⟩ | ⟨⟨m, hm, hc, _⟩, p, k, rfl, m', psg, h2, w, b, hst⟩
      · exact ⟨hg, fun _ _ _ _ => rfl⟩
      · obtain ⟨ks, h1, h2', _⟩ := hl
        obtain ⟨g1, g2, _⟩ := hst.good hw hg h2' ⟨m, hm, hc⟩
        exact ⟨g1, fun p' k' hp' hne => g2 p' k' hp' (fun h => hne (by rw [h]))⟩)
    (h0.mods.length + 1) [] root none ⟨h0, []⟩ [] ⟨rfl, rfl⟩ (by intro p k h; cases h) (by have := hd1 root; omega) hgood (fun _ _ _ _ => rfl)
  unfold WalkOk at this
  rw [show (visits h0.kids (h0.mods.length + 1) [] root []).1 = h0.namedModules root from rfl] at this
  cases hf : (h0.namedModules root).foldlM (fun s e => loraStep E dev root tf nf e.1 e.2 s) (⟨h0, []⟩ : LoraSt K) with
  | error e => rw [hf] at this; exact this
  | ok s => rw [hf] at this; exact this.1

end
end Logix
