/-
C63: a model computes the same before and after `add_lora`.
-/
import Verif.Lemmas.LoraCall
import Verif.Props.Lora

set_option linter.unusedSectionVars false

namespace Logix
variable {K : Type} [Semiring K]

/-- `MHeap.callN` with the calls of the submodules made explicit. -/
def callBody (code : Code K) (id : Nat) (l : Layer) (wt bias : Option (Tensor K)) (call : PyStr → Tensor K → Py (Tensor K)) (x : Tensor K) : Py (Tensor K) :=
  let lora := fun orig =>
    match call orig x with
    | .error e => .error e
    | .ok result =>
      match call nA x with
      | .error e => .error e
      | .ok y =>
        match call nB y with
        | .error e => .error e
        | .ok y =>
          match call nC y with
          | .error e => .error e
          | .ok y => result.add_ y
  match l with
  | .linear _ _ =>
    match wt with
    | none => .error .attributeError
    | some w => linearForward w bias x
  | .conv2d _ _ g groups =>
    match wt with
    | none => .error .attributeError
    | some w => conv2dForward g groups w bias x
  | .loraLinear => lora nLin
  | .loraConv2d => lora nConv
  | .user => code id call x

/-- Calling a submodule. -/
def callChild (h : MHeap K) (code : Code K) (n : Nat) (m : MObj) (k : PyStr) (y : Tensor K) : Py (Tensor K) :=
  match Dict.get? m.children k with
  | none => .error .attributeError
  | some c => h.callN code n c y

theorem callN_body (h : MHeap K) (code : Code K) (n id : Nat) (m : MObj) (hm : h.mods[id]? = some m) (x : Tensor K) :
    h.callN code (n + 1) id x = callBody code id m.layer (h.paramVal id nWeight) (h.paramVal id nBias) (callChild h code n m) x := by
  rw [MHeap.callN, hm]
  rfl

theorem head?_mem {α : Type} {l : List α} {a : α} (h : l.head? = some a) : a ∈ l := by
  cases l with
  | nil => cases h
  | cons b l => cases h; simp

theorem WFModel.rank_lt {h : MHeap K} (hw : WFModel h) :
    ∃ d : Nat → Nat, (∀ i, i < h.mods.length → d i < h.mods.length) ∧ ∀ p k c, Entry h p k c → d c < d p := by
  obtain ⟨d, hd⟩ := hw.acyclic
  refine ⟨fun i => ((Finset.range h.mods.length).filter fun j => d j < d i).card, fun i hi => ?_, fun p k c he => ?_⟩
  · have : ((Finset.range h.mods.length).filter fun j => d j < d i).card < (Finset.range h.mods.length).card := by
      apply Finset.card_lt_card
      rw [Finset.ssubset_iff_of_subset (Finset.filter_subset _ _)]
      exact ⟨i, by simpa using hi, by simp⟩
    simpa using this
  · apply Finset.card_lt_card
    rw [Finset.ssubset_iff_of_subset]
    · exact ⟨c, by simp [hw.inside p k c he, hd p k c he], by simp⟩
    · intro j hj
      simp only [Finset.mem_filter] at hj ⊢
      exact ⟨hj.1, hj.2.trans (hd p k c he)⟩

variable {h h' : MHeap K} {root : Nat} {E : LoraEnv K} {tf nf : Option (List PyStr)}

theorem firstDev_mem {dev : Dev} (hd : h.firstDev root = .ok dev) : ∃ p ∈ h.params, p.val.dev = dev := by
  unfold MHeap.firstDev at hd
  split at hd
  · cases hd
  · next p hp =>
    cases hd
    have := head?_mem hp
    obtain ⟨e, _, h2⟩ := List.mem_flatMap.1 this
    cases hm : h.mods[e.2]? with
    | none => rw [hm] at h2; simp at h2
    | some m =>
      rw [hm] at h2
      obtain ⟨q, _, hq⟩ := List.mem_filterMap.1 h2
      exact ⟨p, List.mem_of_getElem? hq, rfl⟩

/-- C63 for models with all parameters on one device whose selected layers have weights of the right sizes: after `add_lora` the model computes, for every
input and every code of the containers, what it computed before, and raises where it raised, if no selected convolution is dilated and, with parameter sharing, if
no selected layer is smaller than the rank and the layers of a group are of the same kind. The encoders and decoders are arbitrary (`E.rand`, `E.pca`). -/
theorem C63_partial (code : Code K) (hw : WFModel h) (hroot : ¬ IsLeaf h root) (hr : root < h.mods.length) (hone : OneDevice h)
    (hfits : ∀ name id, (name, id) ∈ h.namedModules root → Selected h tf nf name id → LayerFits h id ∧ NotDilated h id)
    (hshare : E.sharing = true → ∀ name id, (name, id) ∈ h.namedModules root → Selected h tf nf name id → RankFits h E.rank id ∧
      ∀ name' id', (name', id') ∈ h.namedModules root → Selected h tf nf name' id' → SameGroup E.groups name name' → SameKind h id id')
    (hadd : addLora E h root tf nf = .ok h') (x : Tensor K) : h'.call code root x = h.call code root x := by
  obtain ⟨dev, s, hdev, rfl, hI⟩ := addLora_inv hw hroot hr hadd
  have hall : ∀ p ∈ h.params, p.val.dev = dev := by
    obtain ⟨d, hd⟩ := hone
    obtain ⟨p, hp, e⟩ := firstDev_mem hdev
    intro q hq
    rw [hd q hq, ← e, hd p hp]
  -- parameters of old modules are unchanged
  have hpv : ∀ (id : Nat) (k : PyStr), id < h.mods.length → s.heap.paramVal id k = h.paramVal id k := by
    intro id k hid
    obtain ⟨m', hm', _, _, e3, _⟩ := hI.good.old id _ (List.getElem?_eq_getElem hid)
    unfold MHeap.paramVal
    rw [paramId_of hm', paramId_of (List.getElem?_eq_getElem hid), e3]
    cases hg : Dict.get? h.mods[id].params k with
    | none => rfl
    | some i =>
      rw [Option.bind_some, Option.bind_some]
      have hi := hw.params id _ k i (List.getElem?_eq_getElem hid) (Dict.mem_of_get? _ hg)
      obtain ⟨p', p1, _, _, _, p5, _⟩ := hI.par i _ (List.getElem?_eq_getElem hi)
      rw [p1, List.getElem?_eq_getElem hi, Option.map_some, Option.map_some]
      congr 1
      rcases p5 hi with e | e
      · exact e
      · rw [e]
        have := hall _ (List.getElem_mem hi)
        rw [← this]
        rfl
  -- wrappers compute what the layers compute
  have hwrap : ∀ p k c name, Hit h root tf nf (h.namedModules root) p k c name → WrappedAt E dev h s p k c name →
      ∃ w, Dict.get? (s.heap.kids p) k = some w ∧ ∀ n y, s.heap.callN code (n + 2) w y = s.heap.callN code (n + 1) c y := by
    rintro p k c name ⟨ks, _, _, _, hmem, hsel⟩ ⟨w, b, m, psg, z1, z2, z3, z4, z5, z6, z7, z8, _⟩
    refine ⟨w, z1, fun n y => ?_⟩
    obtain ⟨⟨m2, t, f1, f2, f3⟩, hdil⟩ := hfits name c hmem hsel
    rw [z3] at f1
    cases f1
    have hcN := (List.getElem?_eq_some_iff.1 z3).1
    have htd : t.dev = dev := by
      unfold MHeap.paramVal at f2
      cases hb : (h.paramId c nWeight).bind fun i => h.params[i]? with
      | none => rw [hb] at f2; cases f2
      | some q =>
        rw [hb] at f2
        cases f2
        obtain ⟨i, _, hi⟩ := Option.bind_eq_some_iff.1 hb
        exact hall q (List.mem_of_getElem? hi)
    rw [← hpv c nWeight hcN] at f2
    obtain ⟨m', hm', e1, e2, _, _⟩ := hI.good.old c m z3
    have hbot : BotAt h.params.length dev E.rank s.heap b m.layer := by
      cases hs : E.sharing with
      | false => exact (z8 hs).2
      | true =>
        obtain ⟨name', id', m1, g1, g2, g3, g4, g5⟩ := hI.first psg b (z7 hs)
        obtain ⟨hrank, hk⟩ := hshare hs name c hmem hsel
        have hkind := hk name' id' g1 g2 ((sameGroup_iff z6 g4).2 rfl) m m1 z3 g3
        rcases f3 with ⟨hlin, i, o, hl, _⟩ | ⟨hlin, i, o, g, gr, j, hl, _⟩
        · obtain ⟨r1, r2⟩ := hrank m i o z3 (Or.inl hl)
          rw [hl]
          show LinAt _ _ _ _ _ _
          rw [min_eq_left (le_min r1 r2)]
          exact g5.1 (hkind.1 hlin)
        · obtain ⟨r1, r2⟩ := hrank m i o z3 (Or.inr ⟨g, gr, hl⟩)
          rw [hl]
          show ConvAt _ _ _ _ _ _ _ _ _
          rw [min_eq_left (le_min r1 r2)]
          exact g5.2 (fun h => hlin (hkind.2 h))
    rcases f3 with ⟨hlin, i, o, hl, hsh⟩ | ⟨hlin, i, o, g, gr, j, hl, hsh, hj⟩
    · rw [hl] at z5 hbot
      exact WrapLin.call z5 hbot hm' (e2.trans hl) f2 hsh htd code n y
    · rw [hl] at z5 hbot
      exact WrapConv.call z5 hbot hm' (e2.trans hl) f2 hsh hj (hdil m i o g gr z3 hl) htd code n y
  obtain ⟨d, hd1, hd2⟩ := hw.rank_lt
  have main : ∀ n c n' y, c < h.mods.length → d c < n → d c + 1 < n' → s.heap.callN code n' c y = h.callN code n c y := by
    intro n
    induction n with
    | zero => intro c n' y _ hc; omega
    | succ n ih =>
      intro c n' y hcN hc hc'
      obtain ⟨n', rfl⟩ : ∃ j, n' = j + 1 := ⟨n' - 1, by omega⟩
      have hm := List.getElem?_eq_getElem hcN
      obtain ⟨m', hm', _, e2, _, e4⟩ := hI.good.old c _ hm
      rw [callN_body _ _ _ _ _ hm', callN_body _ _ _ _ _ hm, e2, hpv c _ hcN, hpv c _ hcN]
      congr 1
      funext k z
      unfold callChild
      cases hg : Dict.get? h.mods[c].children k with
      | none =>
        have : Dict.get? m'.children k = none := by
          rw [Dict.get?_eq_none_iff] at hg ⊢
          rw [e4]
          exact hg
        rw [this]
      | some c1 =>
        have hc1 : Entry h c k c1 := ⟨_, hm, Dict.mem_of_get? _ hg⟩
        have hlt := hd2 c k c1 hc1
        have hin := hw.inside c k c1 hc1
        have hkids : s.heap.kids c = m'.children := kids_of hm'
        rcases hI.kids c k c1 hc1 with ⟨name, hit, hwr⟩ | ⟨_, hget⟩
        · obtain ⟨w, w1, w2⟩ := hwrap c k c1 name hit hwr
          rw [hkids] at w1
          rw [w1]
          dsimp only
          obtain ⟨n'', rfl⟩ : ∃ j, n' = j + 2 := ⟨n' - 2, by omega⟩
          rw [w2 n'' z]
          have hleaf : IsLeaf h c1 := by
            obtain ⟨_, _, _, _, _, m2, h1, h2, _⟩ := hit
            exact ⟨m2, h1, h2⟩
          -- a layer needs no calls
          have hm1 := List.getElem?_eq_getElem hin
          obtain ⟨m1', hm1', _, f2, _, f4⟩ := hI.good.old c1 _ hm1
          obtain ⟨n0, rfl⟩ : ∃ j, n = j + 1 := ⟨n - 1, by omega⟩
          rw [callN_body _ _ _ _ _ hm1', callN_body _ _ _ _ _ hm1, f2, hpv c1 _ hin, hpv c1 _ hin]
          congr 1
          funext k2 z2
          obtain ⟨m2, h1, h2⟩ := hleaf
          rw [hm1] at h1
          cases h1
          unfold callChild
          have g1 : Dict.get? h.mods[c1].children k2 = none := by rw [h2]; rfl
          have g2 : Dict.get? m1'.children k2 = none := by
            rw [Dict.get?_eq_none_iff, f4, ← Dict.get?_eq_none_iff]
            exact g1
          rw [g1, g2]
        · rw [hkids] at hget
          rw [hget]
          dsimp only
          exact ih c1 n' z hin (by omega) (by omega)
  unfold MHeap.call
  have hlen : h.mods.length ≤ s.heap.mods.length := by
    by_contra hlt
    obtain ⟨m', hm', _⟩ := hI.good.old s.heap.mods.length _ (List.getElem?_eq_getElem (by omega))
    have := (List.getElem?_eq_some_iff.1 hm').1
    omega
  have hdr := hd1 root hr
  exact main _ root _ x hr (by omega) (by omega)

end Logix
