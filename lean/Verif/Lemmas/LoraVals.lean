/-
The values of the weights of LoRA encoders and decoders.
-/
import Verif.Lemmas.Lora
import Verif.Spec.Pca

set_option linter.unusedSectionVars false

namespace Logix
open Spec
variable {K : Type} [Zero K]

/-- Parameters keep shapes and entries, except those in `z`. -/
def KeepBut (z : Nat → Prop) (h h' : MHeap K) : Prop :=
  ∀ (i : Nat) (q : Param K), h.params[i]? = some q → ¬ z i → ∃ q', h'.params[i]? = some q' ∧ q'.val.shape = q.val.shape ∧ q'.val.data = q.val.data

theorem KeepBut.trans {z : Nat → Prop} {h h' h'' : MHeap K} (a : KeepBut z h h') (b : KeepBut z h' h'') : KeepBut z h h'' := by
  intro i q hq hz
  obtain ⟨q', a1, a2, a3⟩ := a i q hq hz
  obtain ⟨q'', b1, b2, b3⟩ := b i q' a1 hz
  exact ⟨q'', b1, b2.trans a2, b3.trans a3⟩

theorem KeepBut.mono {z z' : Nat → Prop} {h h' : MHeap K} (a : KeepBut z h h') (hz : ∀ i, i < h.params.length → z i → z' i) : KeepBut z' h h' :=
  fun i q hq hn => a i q hq fun h => hn (hz i (List.getElem?_eq_some_iff.1 hq).1 h)

theorem keep_append {z : Nat → Prop} {h h' : MHeap K} (hp : h.params <+: h'.params) : KeepBut z h h' := by
  intro i q hq _
  obtain ⟨t, ht⟩ := hp
  exact ⟨q, by rw [← ht, List.getElem?_append_left (List.getElem?_eq_some_iff.1 hq).1, hq], rfl, rfl⟩

theorem keep_zeroWeight (h : MHeap K) (b : Nat) : KeepBut (fun i => h.paramId b nWeight = some i) h (h.zeroWeight b) := by
  intro i q hq hz
  unfold MHeap.zeroWeight
  cases hb : h.paramId b nWeight with
  | none => exact ⟨q, hq, rfl, rfl⟩
  | some p =>
    have hne : p ≠ i := fun e => hz (by rw [hb, e])
    refine ⟨q, ?_, rfl, rfl⟩
    simp only [MHeap.mapParam, List.getElem?_modify, hne, if_false, hq, Option.map_eq_map, Option.map_some]

theorem keep_mapDev (z : Nat → Prop) (h : MHeap K) (j : Nat) (dev : Dev) : KeepBut z h (h.mapParam j fun t => t.onDev dev) := by
  intro i q hq _
  unfold MHeap.mapParam
  dsimp only
  rw [List.getElem?_modify, hq]
  by_cases hi : j = i
  · subst hi
    simp only [if_true, Option.map_eq_map, Option.map_some]
    exact ⟨_, rfl, rfl, rfl⟩
  · simp only [hi, if_false, Option.map_eq_map, Option.map_some]
    exact ⟨_, rfl, rfl, rfl⟩

theorem keep_toDev (z : Nat → Prop) (h : MHeap K) (id : Nat) (dev : Dev) : KeepBut z h (h.toDev id dev) := by
  unfold MHeap.toDev
  generalize ((h.mods[id]?).elim [] MObj.params) = l
  induction l generalizing h with
  | nil => exact fun i q hq _ => ⟨q, hq, rfl, rfl⟩
  | cons e l ih =>
    rw [List.foldl_cons]
    exact (keep_mapDev z h e.2 dev).trans (ih _)

/-- Parameter `i` has the entries `f`. -/
def Holds (h : MHeap K) (i : Nat) (shape : List Nat) (f : List Nat → K) : Prop :=
  ∃ q, h.params[i]? = some q ∧ q.val.shape = shape ∧ q.val.data = (indices shape).map f

theorem Holds.keep {z : Nat → Prop} {h h' : MHeap K} {i : Nat} {shape : List Nat} {f : List Nat → K} (hh : Holds h i shape f) (a : KeepBut z h h') (hz : ¬ z i) :
    Holds h' i shape f := by
  obtain ⟨q, h1, h2, h3⟩ := hh
  obtain ⟨q', a1, a2, a3⟩ := a i q h1 hz
  exact ⟨q', a1, a2.trans h2, a3.trans h3⟩

/-- The weights PCA initialisation gives to the wrapper of a layer. -/
def LoraEnv.pcaOf (E : LoraEnv K) (dev : Dev) (name : PyStr) : Layer → Py (Option (Tensor K × Tensor K))
  | .linear i o => E.pcaLinear dev name (min E.rank (min i o)) i o
  | .conv2d i o g _ => E.pcaConv2d dev name (min E.rank (min i o)) i o g.kernel
  | _ => .ok none

/-- The encoder and the decoder of wrapper `w` have the initial weights, in parameters `pa` and `pc`. -/
structure ValsAt (E : LoraEnv K) (dev : Dev) (name : PyStr) (l : Layer) (h : MHeap K) (w pa pc : Nat) : Prop where
  ex : ∃ pca mw a c i j, E.pcaOf dev name l = .ok pca ∧ h.mods[w]? = some mw ∧ Dict.get? mw.children nA = some a ∧ Dict.get? mw.children nC = some c ∧
    h.paramId a nWeight = some pa ∧ h.paramId c nWeight = some pc ∧ Holds h pa (encShape E.rank l) (E.encoder i pca) ∧
    Holds h pc (decShape E.rank l) (E.decoder j pca)

/-- The parameters that making a wrapper may overwrite. -/
def BotParam (h : MHeap K) (shared : Option Nat) (i : Nat) : Prop := ∃ b, shared = some b ∧ h.paramId b nWeight = some i

theorem newLinear_vals (h : MHeap K) (dev : Dev) (inF outF : Nat) (f : List Nat → K) :
    (h.newLinear dev inF outF f).1.mods = h.mods ++ [⟨[nLinear, nModule], .linear inF outF, [], [(nWeight, h.params.length)]⟩] ∧
      (h.newLinear dev inF outF f).1.params = h.params ++ [⟨Tensor.ofFn dev [outF, inF] f, true⟩] ∧ (h.newLinear dev inF outF f).2 = h.mods.length := ⟨rfl, rfl, rfl⟩

theorem newConv2d_vals (h : MHeap K) (dev : Dev) (inC outC : Nat) (k s p : Nat × Nat) (f : List Nat → K) :
    (h.newConv2d dev inC outC k s p f).1.mods = h.mods ++ [⟨[nConv2d, nModule], .conv2d inC outC ⟨k, s, p, (1, 1)⟩ 1, [], [(nWeight, h.params.length)]⟩] ∧
      (h.newConv2d dev inC outC k s p f).1.params = h.params ++ [⟨Tensor.ofFn dev [outC, inC, k.1, k.2] f, true⟩] ∧
      (h.newConv2d dev inC outC k s p f).2 = h.mods.length := ⟨rfl, rfl, rfl⟩

/-- Adding three layers `a`, `b`, `c` (or `a`, `c`) with one weight each, zeroing `b` and moving `b` and `id`. -/
theorem wrapper_vals {E : LoraEnv K} {dev : Dev} {name : PyStr} {l : Layer} {h h1 hb h2 h' : MHeap K} {id b w i j : Nat} {pca : Option (Tensor K × Tensor K)} {ma mc : MObj}
    {qa qc : Param K} {mw : MObj} {shared : Option Nat}
    (h1m : h1.mods = h.mods ++ [ma]) (h1p : h1.params = h.params ++ [qa]) (hma : Dict.get? ma.params nWeight = some h.params.length)
    (hbm : h1.mods <+: hb.mods) (hbp : h1.params <+: hb.params)
    (h2m : h2.mods = hb.mods ++ [mc]) (h2p : h2.params = hb.params ++ [qc]) (hmc : Dict.get? mc.params nWeight = some hb.params.length)
    (hbb : (shared = some b ∧ ∃ p, h.paramId b nWeight = some p ∧ p < h.params.length) ∨
      (shared = none ∧ ∃ p, hb.paramId b nWeight = some p ∧ h1.params.length ≤ p ∧ p < hb.params.length))
    (hw : ((((h2.zeroWeight b).toDev b dev).toDev id dev).newMod mw) = (h', w)) (hmw1 : Dict.get? mw.children nA = some h.mods.length)
    (hmw2 : Dict.get? mw.children nC = some hb.mods.length) (hpca : E.pcaOf dev name l = .ok pca) (hqa : qa.val.shape = encShape E.rank l)
    (hqa' : qa.val.data = (indices (encShape E.rank l)).map (E.encoder i pca)) (hqc : qc.val.shape = decShape E.rank l)
    (hqc' : qc.val.data = (indices (decShape E.rank l)).map (E.decoder j pca)) :
    KeepBut (BotParam h shared) h h' ∧ ∃ pa pc, h.params.length ≤ pa ∧ h.params.length ≤ pc ∧ ValsAt E dev name l h' w pa pc := by
  obtain ⟨tm, htm⟩ := hbm
  obtain ⟨tp, htp⟩ := hbp
  -- the parameter that is overwritten
  have hbp2 : ∃ p, h2.paramId b nWeight = some p ∧ (p < h.params.length ∨ (h.params.length + 1 ≤ p ∧ p < hb.params.length)) ∧
      (p < h.params.length → BotParam h shared p) := by
    have hl : h1.params.length = h.params.length + 1 := by rw [h1p]; simp
    rcases hbb with ⟨hs, p, hp, hlt⟩ | ⟨hs, p, hp, hge, hlt⟩
    · refine ⟨p, ?_, Or.inl hlt, fun _ => ⟨b, hs, hp⟩⟩
      obtain ⟨m, hm, hg⟩ := paramId_some hp
      have hlm := (List.getElem?_eq_some_iff.1 hm).1
      rw [paramId_of (m := m), hg]
      rw [h2m, ← htm, h1m, List.append_assoc, List.append_assoc, List.getElem?_append_left hlm, hm]
    · refine ⟨p, ?_, Or.inr ⟨by omega, hlt⟩, fun h => by omega⟩
      obtain ⟨m, hm, hg⟩ := paramId_some hp
      have hlm := (List.getElem?_eq_some_iff.1 hm).1
      rw [paramId_of (m := m), hg]
      rw [h2m, List.getElem?_append_left hlm, hm]
  obtain ⟨p, hp, hpr, hpb⟩ := hbp2
  have hblen : h.params.length + 1 ≤ hb.params.length := by rw [← htp, h1p]; simp
  have hmblen : h.mods.length + 1 ≤ hb.mods.length := by rw [← htm, h1m]; simp
  have hkeep : KeepBut (fun i => i = p) h2 h' := by
    have k1 : KeepBut (fun i => i = p) h2 (h2.zeroWeight b) :=
      (keep_zeroWeight h2 b).mono fun i _ hi => by rw [hp] at hi; exact (Option.some.inj hi).symm
    have k4 : KeepBut (fun i => i = p) (((h2.zeroWeight b).toDev b dev).toDev id dev) h' := by
      apply keep_append
      rw [show h' = _ from (congrArg Prod.fst hw).symm]
      exact List.prefix_refl _
    exact ((k1.trans (keep_toDev _ _ b dev)).trans (keep_toDev _ _ id dev)).trans k4
  have hmods : h'.mods = h2.mods ++ [mw] ∧ w = h2.mods.length := by
    have e1 : (((h2.zeroWeight b).toDev b dev).toDev id dev).mods = h2.mods := by
      rw [(toDev_spec (P := 0) (dev := dev) _ id).2.1, (toDev_spec (P := 0) (dev := dev) _ b).2.1]
      unfold MHeap.zeroWeight
      rw [hp]
      rfl
    have e2 := congrArg Prod.fst hw
    have e3 := congrArg Prod.snd hw
    dsimp only at e2 e3
    rw [← e2, ← e3]
    constructor
    · show (((h2.zeroWeight b).toDev b dev).toDev id dev).mods ++ [mw] = _
      rw [e1]
    · show (((h2.zeroWeight b).toDev b dev).toDev id dev).mods.length = _
      rw [e1]
  have hpre : KeepBut (BotParam h shared) h h2 := by
    apply keep_append
    rw [h2p, ← htp, h1p]
    simp
  refine ⟨?_, h.params.length, hb.params.length, le_rfl, by omega, ⟨pca, mw, h.mods.length, hb.mods.length, i, j, hpca, ?_, hmw1, hmw2, ?_, ?_, ?_, ?_⟩⟩
  · intro x q hq hz
    obtain ⟨q1, a1, a2, a3⟩ := hpre x q hq hz
    have hx := (List.getElem?_eq_some_iff.1 hq).1
    have hxp : ¬ x = p := by
      intro e
      subst e
      exact hz (hpb hx)
    obtain ⟨q2, b1, b2, b3⟩ := hkeep x q1 a1 hxp
    exact ⟨q2, b1, b2.trans a2, b3.trans a3⟩
  · rw [hmods.1, hmods.2]; simp
  · rw [paramId_of (m := ma), hma]
    rw [hmods.1, h2m, ← htm, h1m]
    simp
  · rw [paramId_of (m := mc), hmc]
    rw [hmods.1, h2m]
    simp
  · refine Holds.keep (z := fun i => i = p) (h := h2) ⟨qa, ?_, hqa, hqa'⟩ hkeep (by omega)
    rw [h2p, ← htp, h1p]
    simp
  · refine Holds.keep (z := fun i => i = p) (h := h2) ⟨qc, ?_, hqc, hqc'⟩ hkeep (by omega)
    rw [h2p]
    simp

/-- What making a wrapper does to the weights. -/
theorem makeLora_vals {E : LoraEnv K} {dev : Dev} {h h' : MHeap K} {name : PyStr} {id w : Nat} {l : Layer} {shared : Option Nat}
    (hs : ∀ b, shared = some b → ∃ p, h.paramId b nWeight = some p ∧ p < h.params.length) (hr : makeLora E dev h name id l shared = .ok (h', w)) :
    KeepBut (BotParam h shared) h h' ∧ ∃ pa pc, h.params.length ≤ pa ∧ h.params.length ≤ pc ∧ ValsAt E dev name l h' w pa pc := by
  cases l with
  | linear inF outF =>
    change makeLoraLinear E dev h name id inF outF shared = _ at hr
    unfold makeLoraLinear at hr
    dsimp only at hr
    split at hr
    · cases hr
    · next pca hpca =>
      cases shared with
      | some b =>
        dsimp only at hr
        have hr' := Except.ok.inj hr
        obtain ⟨p, hp, hlt⟩ := hs b rfl
        exact wrapper_vals (E := E) (l := .linear inF outF) (hb := (h.newLinear dev inF (min E.rank (min inF outF)) (E.encoder h.params.length pca)).1)
          (i := h.params.length) (j := (h.newLinear dev inF (min E.rank (min inF outF)) (E.encoder h.params.length pca)).1.params.length)
          (newLinear_vals h dev _ _ _).1 (newLinear_vals h dev _ _ _).2.1 rfl (List.prefix_refl _) (List.prefix_refl _)
          (newLinear_vals _ dev _ _ _).1 (newLinear_vals _ dev _ _ _).2.1 rfl (Or.inl ⟨rfl, p, hp, hlt⟩) hr' rfl rfl hpca rfl rfl rfl rfl
      | none =>
        dsimp only at hr
        have hr' := Except.ok.inj hr
        refine wrapper_vals (E := E) (l := .linear inF outF)
          (h1 := (h.newLinear dev inF (min E.rank (min inF outF)) (E.encoder h.params.length pca)).1)
          (newLinear_vals h dev _ _ _).1 (newLinear_vals h dev _ _ _).2.1 rfl ⟨_, (newLinear_vals _ dev _ _ _).1.symm⟩ ⟨_, (newLinear_vals _ dev _ _ _).2.1.symm⟩
          (newLinear_vals _ dev _ _ _).1 (newLinear_vals _ dev _ _ _).2.1 rfl (Or.inr ⟨rfl, ?_⟩) hr' rfl rfl hpca rfl rfl rfl rfl
        refine ⟨_, ?_, le_rfl, ?_⟩
        · rw [paramId_of (m := ⟨[nLinear, nModule], .linear (min E.rank (min inF outF)) (min E.rank (min inF outF)), [], [(nWeight, _)]⟩)]
          · rfl
          · rw [(newLinear_vals _ dev _ _ _).1, (newLinear_vals _ dev _ _ _).2.2]
            simp
        · simp [MHeap.newLinear, MHeap.newParam, MHeap.newMod]
  | conv2d inC outC g gr =>
    change makeLoraConv2d E dev h name id inC outC g shared = _ at hr
    unfold makeLoraConv2d at hr
    dsimp only at hr
    split at hr
    · cases hr
    · next pca hpca =>
      cases shared with
      | some b =>
        dsimp only at hr
        have hr' := Except.ok.inj hr
        obtain ⟨p, hp, hlt⟩ := hs b rfl
        exact wrapper_vals (E := E) (l := .conv2d inC outC g gr)
          (hb := (h.newConv2d dev inC (min E.rank (min inC outC)) g.kernel g.stride g.padding (E.encoder h.params.length pca)).1)
          (i := h.params.length)
          (j := (h.newConv2d dev inC (min E.rank (min inC outC)) g.kernel g.stride g.padding (E.encoder h.params.length pca)).1.params.length)
          (newConv2d_vals h dev _ _ _ _ _ _).1 (newConv2d_vals h dev _ _ _ _ _ _).2.1 rfl (List.prefix_refl _) (List.prefix_refl _)
          (newConv2d_vals _ dev _ _ _ _ _ _).1 (newConv2d_vals _ dev _ _ _ _ _ _).2.1 rfl (Or.inl ⟨rfl, p, hp, hlt⟩) hr' rfl rfl hpca rfl rfl rfl rfl
      | none =>
        dsimp only at hr
        have hr' := Except.ok.inj hr
        refine wrapper_vals (E := E) (l := .conv2d inC outC g gr)
          (h1 := (h.newConv2d dev inC (min E.rank (min inC outC)) g.kernel g.stride g.padding (E.encoder h.params.length pca)).1)
          (newConv2d_vals h dev _ _ _ _ _ _).1 (newConv2d_vals h dev _ _ _ _ _ _).2.1 rfl ⟨_, (newConv2d_vals _ dev _ _ _ _ _ _).1.symm⟩
          ⟨_, (newConv2d_vals _ dev _ _ _ _ _ _).2.1.symm⟩
          (newConv2d_vals _ dev _ _ _ _ _ _).1 (newConv2d_vals _ dev _ _ _ _ _ _).2.1 rfl (Or.inr ⟨rfl, ?_⟩) hr' rfl rfl hpca rfl rfl rfl rfl
        refine ⟨_, ?_, le_rfl, ?_⟩
        · rw [paramId_of (m := ⟨[nConv2d, nModule], .conv2d (min E.rank (min inC outC)) (min E.rank (min inC outC)) ⟨(1, 1), (1, 1), (0, 0), (1, 1)⟩ 1, [],
            [(nWeight, _)]⟩)]
          · rfl
          · rw [(newConv2d_vals _ dev _ _ _ _ _ _).1, (newConv2d_vals _ dev _ _ _ _ _ _).2.2]
            simp
        · simp [MHeap.newConv2d, MHeap.newParam, MHeap.newMod]
  | _ => cases hr

end Logix
