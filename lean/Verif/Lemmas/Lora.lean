/-
What making a LoRA wrapper does to the modules.
-/
import Verif.Props.Watch

set_option linter.unusedSectionVars false

namespace Logix
variable {K : Type} [Zero K]

/-- Parameters are kept: shapes and `requires_grad` always, the device if it is the given one, zeros stay zeros; the first `P` keep their values and can at most
be moved to the device. -/
def ParExt (P : Nat) (dev : Dev) (h h' : MHeap K) : Prop :=
  ∀ (i : Nat) (p : Param K), h.params[i]? = some p → ∃ p', h'.params[i]? = some p' ∧ p'.reqGrad = p.reqGrad ∧ p'.val.shape = p.val.shape ∧
    (p.val.dev = dev → p'.val.dev = dev) ∧ (i < P → p'.val = p.val ∨ p'.val = p.val.onDev dev) ∧ ((∀ x ∈ p.val.data, x = 0) → ∀ x ∈ p'.val.data, x = 0)

theorem ParExt.refl (P : Nat) (dev : Dev) (h : MHeap K) : ParExt P dev h h := fun _ p hp => ⟨p, hp, rfl, rfl, id, fun _ => Or.inl rfl, id⟩

theorem ParExt.trans {P : Nat} {dev : Dev} {h h' h'' : MHeap K} (a : ParExt P dev h h') (b : ParExt P dev h' h'') : ParExt P dev h h'' := by
  intro i p hp
  obtain ⟨p', a1, a2, a3, a4, a5, a6⟩ := a i p hp
  obtain ⟨p'', b1, b2, b3, b4, b5, b6⟩ := b i p' a1
  refine ⟨p'', b1, b2.trans a2, b3.trans a3, fun h => b4 (a4 h), fun hi => ?_, fun h => b6 (a6 h)⟩
  rcases a5 hi with e | e <;> rcases b5 hi with f | f <;> rw [f, e]
  · exact Or.inl rfl
  · exact Or.inr rfl
  · exact Or.inr rfl
  · exact Or.inr rfl

/-- Modules and parameters are added, nothing else. -/
def Grow (P : Nat) (dev : Dev) (h h' : MHeap K) : Prop := h.mods <+: h'.mods ∧ ParExt P dev h h'

theorem Grow.refl (P : Nat) (dev : Dev) (h : MHeap K) : Grow P dev h h := ⟨List.prefix_refl _, .refl P dev h⟩

theorem Grow.trans {P : Nat} {dev : Dev} {h h' h'' : MHeap K} (a : Grow P dev h h') (b : Grow P dev h' h'') : Grow P dev h h'' :=
  ⟨a.1.trans b.1, a.2.trans b.2⟩

theorem Grow.mods {P : Nat} {dev : Dev} {h h' : MHeap K} (a : Grow P dev h h') {i : Nat} {m : MObj} (hm : h.mods[i]? = some m) : h'.mods[i]? = some m := by
  obtain ⟨t, ht⟩ := a.1
  have hl := (List.getElem?_eq_some_iff.1 hm).1
  rw [← ht, List.getElem?_append_left hl, hm]

theorem Grow.len {P : Nat} {dev : Dev} {h h' : MHeap K} (a : Grow P dev h h') : h.mods.length ≤ h'.mods.length := a.1.length_le

/-- A new linear layer without bias. -/
def LinAt (P : Nat) (dev : Dev) (h : MHeap K) (i inF outF : Nat) : Prop :=
  ∃ p q, P ≤ p ∧ h.mods[i]? = some ⟨[nLinear, nModule], .linear inF outF, [], [(nWeight, p)]⟩ ∧ h.params[p]? = some q ∧ q.val.dev = dev ∧
    q.val.shape = [outF, inF]

/-- A new convolution without bias, dilation and groups. -/
def ConvAt (P : Nat) (dev : Dev) (h : MHeap K) (i inC outC : Nat) (kernel stride padding : Nat × Nat) : Prop :=
  ∃ p q, P ≤ p ∧ h.mods[i]? = some ⟨[nConv2d, nModule], .conv2d inC outC ⟨kernel, stride, padding, (1, 1)⟩ 1, [], [(nWeight, p)]⟩ ∧
    h.params[p]? = some q ∧ q.val.dev = dev ∧ q.val.shape = [outC, inC, kernel.1, kernel.2]

/-- The weight of module `i` is zero. -/
def ZeroAt (h : MHeap K) (i : Nat) : Prop := ∃ p q, h.paramId i nWeight = some p ∧ h.params[p]? = some q ∧ ∀ x ∈ q.val.data, x = 0

theorem paramId_of {h : MHeap K} {i : Nat} {m : MObj} (hm : h.mods[i]? = some m) (k : PyStr) : h.paramId i k = Dict.get? m.params k := by
  unfold MHeap.paramId
  rw [hm]
  rfl

theorem paramId_some {h : MHeap K} {i p : Nat} {k : PyStr} (hp : h.paramId i k = some p) : ∃ m, h.mods[i]? = some m ∧ Dict.get? m.params k = some p := by
  unfold MHeap.paramId at hp
  exact Option.bind_eq_some_iff.1 hp

theorem LinAt.grow {P : Nat} {dev : Dev} {h h' : MHeap K} (a : Grow P dev h h') {i inF outF : Nat} (hl : LinAt P dev h i inF outF) : LinAt P dev h' i inF outF := by
  obtain ⟨p, q, h0, h1, h2, h3, h4⟩ := hl
  obtain ⟨q', b1, _, b3, b4, _⟩ := a.2 p q h2
  exact ⟨p, q', h0, a.mods h1, b1, b4 h3, b3.trans h4⟩

theorem ConvAt.grow {P : Nat} {dev : Dev} {h h' : MHeap K} (a : Grow P dev h h') {i inC outC : Nat} {k s pd : Nat × Nat}
    (hl : ConvAt P dev h i inC outC k s pd) : ConvAt P dev h' i inC outC k s pd := by
  obtain ⟨p, q, h0, h1, h2, h3, h4⟩ := hl
  obtain ⟨q', b1, _, b3, b4, _⟩ := a.2 p q h2
  exact ⟨p, q', h0, a.mods h1, b1, b4 h3, b3.trans h4⟩

theorem ZeroAt.grow {P : Nat} {dev : Dev} {h h' : MHeap K} (a : Grow P dev h h') {i : Nat} (hz : ZeroAt h i) : ZeroAt h' i := by
  obtain ⟨p, q, h1, h2, h3⟩ := hz
  obtain ⟨m, hm, hg⟩ := paramId_some h1
  obtain ⟨q', b1, _, _, _, _, b6⟩ := a.2 p q h2
  exact ⟨p, q', by rw [paramId_of (a.mods hm), hg], b1, b6 h3⟩

theorem newLinear_spec {P : Nat} {dev : Dev} {h : MHeap K} (hP : P ≤ h.params.length) (inF outF : Nat) (w : List Nat → K) :
    Grow P dev h (h.newLinear dev inF outF w).1 ∧ (h.newLinear dev inF outF w).2 = h.mods.length ∧
      (h.newLinear dev inF outF w).1.mods.length = h.mods.length + 1 ∧ P ≤ (h.newLinear dev inF outF w).1.params.length ∧
      LinAt P dev (h.newLinear dev inF outF w).1 h.mods.length inF outF := by
  have he : h.newLinear dev inF outF w = (⟨h.mods ++ [⟨[nLinear, nModule], .linear inF outF, [], [(nWeight, h.params.length)]⟩],
    h.params ++ [⟨Tensor.ofFn dev [outF, inF] w, true⟩]⟩, h.mods.length) := rfl
  rw [he]
  refine ⟨⟨List.prefix_append _ _, fun i p hp => ⟨p, ?_, rfl, rfl, id, fun _ => Or.inl rfl, id⟩⟩, rfl, by simp, by simp; omega,
    h.params.length, ⟨Tensor.ofFn dev [outF, inF] w, true⟩, hP, by simp, by simp, rfl, rfl⟩
  have hl := (List.getElem?_eq_some_iff.1 hp).1
  dsimp only
  rw [List.getElem?_append_left hl, hp]

theorem newConv2d_spec {P : Nat} {dev : Dev} {h : MHeap K} (hP : P ≤ h.params.length) (inC outC : Nat) (k s pd : Nat × Nat) (w : List Nat → K) :
    Grow P dev h (h.newConv2d dev inC outC k s pd w).1 ∧ (h.newConv2d dev inC outC k s pd w).2 = h.mods.length ∧
      (h.newConv2d dev inC outC k s pd w).1.mods.length = h.mods.length + 1 ∧ P ≤ (h.newConv2d dev inC outC k s pd w).1.params.length ∧
      ConvAt P dev (h.newConv2d dev inC outC k s pd w).1 h.mods.length inC outC k s pd := by
  have he : h.newConv2d dev inC outC k s pd w =
    (⟨h.mods ++ [⟨[nConv2d, nModule], .conv2d inC outC ⟨k, s, pd, (1, 1)⟩ 1, [], [(nWeight, h.params.length)]⟩],
    h.params ++ [⟨Tensor.ofFn dev [outC, inC, k.1, k.2] w, true⟩]⟩, h.mods.length) := rfl
  rw [he]
  refine ⟨⟨List.prefix_append _ _, fun i p hp => ⟨p, ?_, rfl, rfl, id, fun _ => Or.inl rfl, id⟩⟩, rfl, by simp, by simp; omega,
    h.params.length, ⟨Tensor.ofFn dev [outC, inC, k.1, k.2] w, true⟩, hP, by simp, by simp, rfl, rfl⟩
  have hl := (List.getElem?_eq_some_iff.1 hp).1
  dsimp only
  rw [List.getElem?_append_left hl, hp]

theorem newMod_spec {P : Nat} {dev : Dev} {h : MHeap K} (m : MObj) :
    Grow P dev h (h.newMod m).1 ∧ (h.newMod m).2 = h.mods.length ∧ (h.newMod m).1.mods.length = h.mods.length + 1 ∧
      (h.newMod m).1.params = h.params ∧ (h.newMod m).1.mods[h.mods.length]? = some m :=
  ⟨⟨List.prefix_append _ _, .refl _ _ _⟩, rfl, by simp [MHeap.newMod], rfl, by simp [MHeap.newMod]⟩

theorem zeroWeight_spec {P : Nat} {dev : Dev} {h : MHeap K} {b p : Nat} (hb : h.paramId b nWeight = some p) (hp : P ≤ p) (hl : p < h.params.length) :
    Grow P dev h (h.zeroWeight b) ∧ (h.zeroWeight b).mods = h.mods ∧ (h.zeroWeight b).params.length = h.params.length ∧ ZeroAt (h.zeroWeight b) b := by
  have he : h.zeroWeight b = h.mapParam p fun t => Tensor.zeros t.dev t.shape := by
    unfold MHeap.zeroWeight; rw [hb]
  have hz : ∀ (d : Dev) (s : List Nat), ∀ x ∈ (Tensor.zeros (K := K) d s).data, x = 0 := by
    intro d s x hx
    unfold Tensor.zeros Tensor.ofFn at hx
    obtain ⟨_, _, rfl⟩ := List.mem_map.1 hx
    rfl
  rw [he]
  unfold MHeap.mapParam
  refine ⟨⟨List.prefix_refl _, ?_⟩, rfl, by simp, ?_⟩
  · intro i q hq
    dsimp only
    rw [List.getElem?_modify, hq]
    by_cases hi : p = i
    · subst hi
      simp only [if_true, Option.map_eq_map, Option.map_some]
      exact ⟨_, rfl, rfl, rfl, id, fun h' => absurd hp (by omega), fun _ => hz _ _⟩
    · simp only [hi, if_false, Option.map_eq_map, Option.map_some]
      exact ⟨_, rfl, rfl, rfl, id, fun _ => Or.inl rfl, id⟩
  · refine ⟨p, { h.params[p] with val := Tensor.zeros h.params[p].val.dev h.params[p].val.shape }, hb, ?_, hz _ _⟩
    dsimp only
    rw [List.getElem?_modify, List.getElem?_eq_getElem hl]
    simp

theorem mapDev_spec {P : Nat} {dev : Dev} (h : MHeap K) (j : Nat) :
    Grow P dev h (h.mapParam j fun t => t.onDev dev) ∧ (h.mapParam j fun t => t.onDev dev).mods = h.mods ∧
      (h.mapParam j fun t => t.onDev dev).params.length = h.params.length := by
  unfold MHeap.mapParam
  refine ⟨⟨List.prefix_refl _, ?_⟩, rfl, by simp⟩
  intro i q hq
  dsimp only
  rw [List.getElem?_modify, hq]
  by_cases hi : j = i
  · subst hi
    simp only [if_true, Option.map_eq_map, Option.map_some]
    exact ⟨_, rfl, rfl, rfl, fun _ => rfl, fun _ => Or.inr rfl, id⟩
  · simp only [hi, if_false, Option.map_eq_map, Option.map_some]
    exact ⟨_, rfl, rfl, rfl, id, fun _ => Or.inl rfl, id⟩

theorem toDev_spec {P : Nat} {dev : Dev} (h : MHeap K) (id : Nat) :
    Grow P dev h (h.toDev id dev) ∧ (h.toDev id dev).mods = h.mods ∧ (h.toDev id dev).params.length = h.params.length := by
  unfold MHeap.toDev
  generalize ((h.mods[id]?).elim [] MObj.params) = l
  induction l generalizing h with
  | nil => exact ⟨.refl _ _ _, rfl, rfl⟩
  | cons e l ih =>
    rw [List.foldl_cons]
    obtain ⟨a1, a2, a3⟩ := mapDev_spec (P := P) (dev := dev) h e.2
    obtain ⟨b1, b2, b3⟩ := ih (h.mapParam e.2 fun t => t.onDev dev)
    exact ⟨a1.trans b1, b2.trans a2, b3.trans a3⟩

/-- The bottleneck of a group that has one already. -/
def SharedOk (P : Nat) (h : MHeap K) (b : Nat) : Prop := ∃ p, h.paramId b nWeight = some p ∧ P ≤ p ∧ p < h.params.length

theorem LinAt.shared {P : Nat} {dev : Dev} {h : MHeap K} {i inF outF : Nat} (hl : LinAt P dev h i inF outF) : SharedOk P h i := by
  obtain ⟨p, q, h0, h1, h2, _⟩ := hl
  exact ⟨p, by rw [paramId_of h1]; rfl, h0, (List.getElem?_eq_some_iff.1 h2).1⟩

theorem ConvAt.shared {P : Nat} {dev : Dev} {h : MHeap K} {i inC outC : Nat} {k s pd : Nat × Nat} (hl : ConvAt P dev h i inC outC k s pd) : SharedOk P h i := by
  obtain ⟨p, q, h0, h1, h2, _⟩ := hl
  exact ⟨p, by rw [paramId_of h1]; rfl, h0, (List.getElem?_eq_some_iff.1 h2).1⟩

theorem SharedOk.grow {P : Nat} {dev : Dev} {h h' : MHeap K} (a : Grow P dev h h') {b : Nat} (hs : SharedOk P h b) : SharedOk P h' b := by
  obtain ⟨p, h1, h2, h3⟩ := hs
  obtain ⟨m, hm, hg⟩ := paramId_some h1
  obtain ⟨q', b1, _⟩ := a.2 p _ (List.getElem?_eq_getElem h3)
  exact ⟨p, by rw [paramId_of (a.mods hm), hg], h2, (List.getElem?_eq_some_iff.1 b1).1⟩

/-- What the wrapper of a linear layer looks like. `r` is the rank. -/
def WrapLin (P : Nat) (dev : Dev) (h : MHeap K) (w orig b r inF outF : Nat) : Prop :=
  ∃ a c, h.mods[w]? = some ⟨[nLoraLinear, nModule], .loraLinear, [(nA, a), (nB, b), (nC, c), (nLin, orig)], []⟩ ∧
    LinAt P dev h a inF r ∧ LinAt P dev h c r outF ∧ ZeroAt h b

/-- What the wrapper of a convolution looks like. -/
def WrapConv (P : Nat) (dev : Dev) (h : MHeap K) (w orig b r inC outC : Nat) (g : ConvGeom) : Prop :=
  ∃ a c, h.mods[w]? = some ⟨[nLoraConv2d, nModule], .loraConv2d, [(nA, a), (nB, b), (nC, c), (nConv, orig)], []⟩ ∧
    ConvAt P dev h a inC r g.kernel g.stride g.padding ∧ ConvAt P dev h c r outC (1, 1) (1, 1) (0, 0) ∧ ZeroAt h b

theorem WrapLin.grow {P : Nat} {dev : Dev} {h h' : MHeap K} (a : Grow P dev h h') {w orig b r inF outF : Nat} (hw : WrapLin P dev h w orig b r inF outF) :
    WrapLin P dev h' w orig b r inF outF := by
  obtain ⟨x, y, h1, h2, h3, h4⟩ := hw
  exact ⟨x, y, a.mods h1, h2.grow a, h3.grow a, h4.grow a⟩

theorem WrapConv.grow {P : Nat} {dev : Dev} {h h' : MHeap K} (a : Grow P dev h h') {w orig b r inC outC : Nat} {g : ConvGeom}
    (hw : WrapConv P dev h w orig b r inC outC g) : WrapConv P dev h' w orig b r inC outC g := by
  obtain ⟨x, y, h1, h2, h3, h4⟩ := hw
  exact ⟨x, y, a.mods h1, h2.grow a, h3.grow a, h4.grow a⟩

theorem makeLoraLinear_spec {P : Nat} {E : LoraEnv K} {dev : Dev} {h h' : MHeap K} {name : PyStr} {id inF outF w : Nat} {shared : Option Nat}
    (hP : P ≤ h.params.length) (hs : ∀ b, shared = some b → SharedOk P h b) (hr : makeLoraLinear E dev h name id inF outF shared = .ok (h', w)) :
    ∃ b, Grow P dev h h' ∧ h.mods.length ≤ w ∧ w < h'.mods.length ∧ P ≤ h'.params.length ∧ WrapLin P dev h' w id b (min E.rank (min inF outF)) inF outF ∧
      (∀ b', shared = some b' → b = b') ∧
      (shared = none → h.mods.length ≤ b ∧ b + 2 = w ∧ LinAt P dev h' b (min E.rank (min inF outF)) (min E.rank (min inF outF))) := by
  unfold makeLoraLinear at hr
  dsimp only at hr
  split at hr
  · cases hr
  · next pca _ =>
    obtain ⟨g1, e1, l1, p1, f1⟩ := newLinear_spec (P := P) (dev := dev) hP inF (min E.rank (min inF outF)) (E.encoder h.params.length pca)
    revert hr
    generalize h.newLinear dev inF (min E.rank (min inF outF)) (E.encoder h.params.length pca) = r1 at g1 e1 l1 p1 f1 ⊢
    obtain ⟨h1, a⟩ := r1
    dsimp only at g1 e1 l1 p1 f1 ⊢
    subst e1
    intro hr
    cases shared with
    | some b =>
      dsimp only at hr
      obtain ⟨g2, e2, l2, p2, f2⟩ := newLinear_spec (P := P) (dev := dev) p1 (min E.rank (min inF outF)) outF (E.decoder h1.params.length pca)
      revert hr
      generalize h1.newLinear dev (min E.rank (min inF outF)) outF (E.decoder h1.params.length pca) = r2 at g2 e2 l2 p2 f2 ⊢
      obtain ⟨h2, c⟩ := r2
      dsimp only at g2 e2 l2 p2 f2 ⊢
      subst e2
      intro hr
      obtain ⟨q, q1, q2, q3⟩ := ((hs b rfl).grow g1).grow g2
      obtain ⟨g3, e3, n3, z3⟩ := zeroWeight_spec (P := P) (dev := dev) q1 q2 q3
      obtain ⟨g4, e4, n4⟩ := toDev_spec (P := P) (dev := dev) (h2.zeroWeight b) b
      obtain ⟨g5, e5, n5⟩ := toDev_spec (P := P) (dev := dev) ((h2.zeroWeight b).toDev b dev) id
      obtain ⟨g6, e6, l6, n6, f6⟩ := newMod_spec (P := P) (dev := dev) (h := ((h2.zeroWeight b).toDev b dev).toDev id dev)
        ⟨[nLoraLinear, nModule], .loraLinear, [(nA, h.mods.length), (nB, b), (nC, h1.mods.length), (nLin, id)], []⟩
      have hr' := Except.ok.inj hr
      rw [hr'] at g6 e6 l6 n6 f6
      dsimp only at g6 e6 l6 n6 f6
      have hlen : (((h2.zeroWeight b).toDev b dev).toDev id dev).mods.length = h.mods.length + 2 := by rw [e5, e4, e3, l2, l1]
      rw [hlen] at e6 l6 f6
      have g36 := ((g3.trans g4).trans g5).trans g6
      refine ⟨b, (g1.trans g2).trans g36, by omega, by omega, by rw [n6, n5, n4, n3]; exact p2, ⟨h.mods.length, h1.mods.length, by rw [e6]; exact f6,
        f1.grow (g2.trans g36), f2.grow g36, ?_⟩, fun b' hb' => Option.some.inj hb', fun h' => by cases h'⟩
      exact z3.grow ((g4.trans g5).trans g6)
    | none =>
      dsimp only at hr
      obtain ⟨gb, eb, lb, pb, fb⟩ := newLinear_spec (P := P) (dev := dev) p1 (min E.rank (min inF outF)) (min E.rank (min inF outF)) (E.rand h1.params.length)
      revert hr
      generalize h1.newLinear dev (min E.rank (min inF outF)) (min E.rank (min inF outF)) (E.rand h1.params.length) = rb at gb eb lb pb fb ⊢
      obtain ⟨hb, b⟩ := rb
      dsimp only at gb eb lb pb fb ⊢
      subst eb
      intro hr
      obtain ⟨g2, e2, l2, p2, f2⟩ := newLinear_spec (P := P) (dev := dev) pb (min E.rank (min inF outF)) outF (E.decoder hb.params.length pca)
      revert hr
      generalize hb.newLinear dev (min E.rank (min inF outF)) outF (E.decoder hb.params.length pca) = r2 at g2 e2 l2 p2 f2 ⊢
      obtain ⟨h2, c⟩ := r2
      dsimp only at g2 e2 l2 p2 f2 ⊢
      subst e2
      intro hr
      obtain ⟨q, q1, q2, q3⟩ := fb.shared.grow g2
      obtain ⟨g3, e3, n3, z3⟩ := zeroWeight_spec (P := P) (dev := dev) q1 q2 q3
      obtain ⟨g4, e4, n4⟩ := toDev_spec (P := P) (dev := dev) (h2.zeroWeight h1.mods.length) h1.mods.length
      obtain ⟨g5, e5, n5⟩ := toDev_spec (P := P) (dev := dev) ((h2.zeroWeight h1.mods.length).toDev h1.mods.length dev) id
      obtain ⟨g6, e6, l6, n6, f6⟩ := newMod_spec (P := P) (dev := dev) (h := ((h2.zeroWeight h1.mods.length).toDev h1.mods.length dev).toDev id dev)
        ⟨[nLoraLinear, nModule], .loraLinear, [(nA, h.mods.length), (nB, h1.mods.length), (nC, hb.mods.length), (nLin, id)], []⟩
      have hr' := Except.ok.inj hr
      rw [hr'] at g6 e6 l6 n6 f6
      dsimp only at g6 e6 l6 n6 f6
      have hlen : (((h2.zeroWeight h1.mods.length).toDev h1.mods.length dev).toDev id dev).mods.length = h.mods.length + 3 := by
        rw [e5, e4, e3, l2, lb, l1]
      rw [hlen] at e6 l6 f6
      have g36 := ((g3.trans g4).trans g5).trans g6
      refine ⟨h1.mods.length, ((g1.trans gb).trans g2).trans g36, by omega, by omega, by rw [n6, n5, n4, n3]; exact p2,
        ⟨h.mods.length, hb.mods.length, by rw [e6]; exact f6, f1.grow ((gb.trans g2).trans g36), f2.grow g36, z3.grow ((g4.trans g5).trans g6)⟩,
        fun b' hb' => (by cases hb'), fun _ => ⟨by omega, by omega, fb.grow (g2.trans g36)⟩⟩

theorem makeLoraConv2d_spec {P : Nat} {E : LoraEnv K} {dev : Dev} {h h' : MHeap K} {name : PyStr} {id inC outC w : Nat} {g : ConvGeom} {shared : Option Nat}
    (hP : P ≤ h.params.length) (hs : ∀ b, shared = some b → SharedOk P h b) (hr : makeLoraConv2d E dev h name id inC outC g shared = .ok (h', w)) :
    ∃ b, Grow P dev h h' ∧ h.mods.length ≤ w ∧ w < h'.mods.length ∧ P ≤ h'.params.length ∧ WrapConv P dev h' w id b (min E.rank (min inC outC)) inC outC g ∧
      (∀ b', shared = some b' → b = b') ∧
      (shared = none → h.mods.length ≤ b ∧ b + 2 = w ∧
        ConvAt P dev h' b (min E.rank (min inC outC)) (min E.rank (min inC outC)) (1, 1) (1, 1) (0, 0)) := by
  unfold makeLoraConv2d at hr
  dsimp only at hr
  split at hr
  · cases hr
  · next pca _ =>
    obtain ⟨g1, e1, l1, p1, f1⟩ := newConv2d_spec (P := P) (dev := dev) hP inC (min E.rank (min inC outC)) g.kernel g.stride g.padding
      (E.encoder h.params.length pca)
    revert hr
    generalize h.newConv2d dev inC (min E.rank (min inC outC)) g.kernel g.stride g.padding
      (E.encoder h.params.length pca) = r1 at g1 e1 l1 p1 f1 ⊢
    obtain ⟨h1, a⟩ := r1
    dsimp only at g1 e1 l1 p1 f1 ⊢
    subst e1
    intro hr
    cases shared with
    | some b =>
      dsimp only at hr
      obtain ⟨g2, e2, l2, p2, f2⟩ := newConv2d_spec (P := P) (dev := dev) p1 (min E.rank (min inC outC)) outC (1, 1) (1, 1) (0, 0) (E.decoder h1.params.length pca)
      revert hr
      generalize h1.newConv2d dev (min E.rank (min inC outC)) outC (1, 1) (1, 1) (0, 0) (E.decoder h1.params.length pca) = r2 at g2 e2 l2 p2 f2 ⊢
      obtain ⟨h2, c⟩ := r2
      dsimp only at g2 e2 l2 p2 f2 ⊢
      subst e2
      intro hr
      obtain ⟨q, q1, q2, q3⟩ := ((hs b rfl).grow g1).grow g2
      obtain ⟨g3, e3, n3, z3⟩ := zeroWeight_spec (P := P) (dev := dev) q1 q2 q3
      obtain ⟨g4, e4, n4⟩ := toDev_spec (P := P) (dev := dev) (h2.zeroWeight b) b
      obtain ⟨g5, e5, n5⟩ := toDev_spec (P := P) (dev := dev) ((h2.zeroWeight b).toDev b dev) id
      obtain ⟨g6, e6, l6, n6, f6⟩ := newMod_spec (P := P) (dev := dev) (h := ((h2.zeroWeight b).toDev b dev).toDev id dev)
        ⟨[nLoraConv2d, nModule], .loraConv2d, [(nA, h.mods.length), (nB, b), (nC, h1.mods.length), (nConv, id)], []⟩
      have hr' := Except.ok.inj hr
      rw [hr'] at g6 e6 l6 n6 f6
      dsimp only at g6 e6 l6 n6 f6
      have hlen : (((h2.zeroWeight b).toDev b dev).toDev id dev).mods.length = h.mods.length + 2 := by rw [e5, e4, e3, l2, l1]
      rw [hlen] at e6 l6 f6
      have g36 := ((g3.trans g4).trans g5).trans g6
      refine ⟨b, (g1.trans g2).trans g36, by omega, by omega, by rw [n6, n5, n4, n3]; exact p2, ⟨h.mods.length, h1.mods.length, by rw [e6]; exact f6,
        f1.grow (g2.trans g36), f2.grow g36, ?_⟩, fun b' hb' => Option.some.inj hb', fun h' => by cases h'⟩
      exact z3.grow ((g4.trans g5).trans g6)
    | none =>
      dsimp only at hr
      obtain ⟨gb, eb, lb, pb, fb⟩ := newConv2d_spec (P := P) (dev := dev) p1 (min E.rank (min inC outC)) (min E.rank (min inC outC)) (1, 1) (1, 1) (0, 0)
        (E.rand h1.params.length)
      revert hr
      generalize h1.newConv2d dev (min E.rank (min inC outC)) (min E.rank (min inC outC)) (1, 1) (1, 1) (0, 0) (E.rand h1.params.length) = rb at gb eb lb pb fb ⊢
      obtain ⟨hb, b⟩ := rb
      dsimp only at gb eb lb pb fb ⊢
      subst eb
      intro hr
      obtain ⟨g2, e2, l2, p2, f2⟩ := newConv2d_spec (P := P) (dev := dev) pb (min E.rank (min inC outC)) outC (1, 1) (1, 1) (0, 0) (E.decoder hb.params.length pca)
      revert hr
      generalize hb.newConv2d dev (min E.rank (min inC outC)) outC (1, 1) (1, 1) (0, 0) (E.decoder hb.params.length pca) = r2 at g2 e2 l2 p2 f2 ⊢
      obtain ⟨h2, c⟩ := r2
      dsimp only at g2 e2 l2 p2 f2 ⊢
      subst e2
      intro hr
      obtain ⟨q, q1, q2, q3⟩ := fb.shared.grow g2
      obtain ⟨g3, e3, n3, z3⟩ := zeroWeight_spec (P := P) (dev := dev) q1 q2 q3
      obtain ⟨g4, e4, n4⟩ := toDev_spec (P := P) (dev := dev) (h2.zeroWeight h1.mods.length) h1.mods.length
      obtain ⟨g5, e5, n5⟩ := toDev_spec (P := P) (dev := dev) ((h2.zeroWeight h1.mods.length).toDev h1.mods.length dev) id
      obtain ⟨g6, e6, l6, n6, f6⟩ := newMod_spec (P := P) (dev := dev) (h := ((h2.zeroWeight h1.mods.length).toDev h1.mods.length dev).toDev id dev)
        ⟨[nLoraConv2d, nModule], .loraConv2d, [(nA, h.mods.length), (nB, h1.mods.length), (nC, hb.mods.length), (nConv, id)], []⟩
      have hr' := Except.ok.inj hr
      rw [hr'] at g6 e6 l6 n6 f6
      dsimp only at g6 e6 l6 n6 f6
      have hlen : (((h2.zeroWeight h1.mods.length).toDev h1.mods.length dev).toDev id dev).mods.length = h.mods.length + 3 := by
        rw [e5, e4, e3, l2, lb, l1]
      rw [hlen] at e6 l6 f6
      have g36 := ((g3.trans g4).trans g5).trans g6
      refine ⟨h1.mods.length, ((g1.trans gb).trans g2).trans g36, by omega, by omega, by rw [n6, n5, n4, n3]; exact p2,
        ⟨h.mods.length, hb.mods.length, by rw [e6]; exact f6, f1.grow ((gb.trans g2).trans g36), f2.grow g36, z3.grow ((g4.trans g5).trans g6)⟩,
        fun b' hb' => (by cases hb'), fun _ => ⟨by omega, by omega, fb.grow (g2.trans g36)⟩⟩

end Logix
