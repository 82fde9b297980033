/-
C133: the session of C106 is that of a bottleneck of rank one; the layer has two inputs and one output.
-/
import Verif.Props.LoraScores
import Verif.Props.LoraLogExample
import Verif.Props.SessionInfluenceExample

namespace Logix.ExLoraLog
open Spec Sess ExSess

/-- The program that uses the layer as `statBody` uses the bottleneck. -/
def statFull : List (SOp Rat) := [.alloc (two 0 1), .alloc (out 6), .alloc (inp (5 / 3)), .alloc (two 1 1), .alloc (out 9), .alloc (inp (7 / 3)),
  .forward 0 0 1, .forward 1 0 1, .forward 0 3 4, .gradAt 4 5, .backward 4 5, .gradAt 1 2, .backward 1 2, .exit,
  .call [i2] none false, .enter, .alloc (out 9), .forward 0 3 6, .gradAt 6 5, .backward 6 5, .end false]

/-- The second moments of the layer: of its inputs, its output gradients, and its gradients. -/
def mIn : Tensor Rat := ⟨.cpu, [2, 2], [2 / 3, 2 / 3, 2 / 3, 1], rfl⟩
def mOut : Tensor Rat := ⟨.cpu, [1, 1], [41 / 9], rfl⟩
def mGrad : Tensor Rat := ⟨.cpu, [2, 2], [49 / 9, 133 / 18, 133 / 18, 193 / 18], rfl⟩

theorem below_two {P : Nat → Nat → Prop} (h : P 0 0 ∧ P 0 1 ∧ P 1 0 ∧ P 1 1) : ∀ i j, i < 2 → j < 2 → P i j
  | 0, 0, _, _ => h.1
  | 0, 1, _, _ => h.2.1
  | 1, 0, _, _ => h.2.2.1
  | 1, 1, _, _ => h.2.2.2
  | _ + 2, _, h, _ => by omega
  | _, _ + 2, _, h => by omega

theorem inMoment : InputMoment EI statFull 0 mIn :=
  ⟨[(two 0 1).val, (two 1 1).val, (two 1 1).val], .cons ⟨_, rfl, rfl⟩ (.cons ⟨_, rfl, rfl⟩ (.cons ⟨_, rfl, rfl⟩ .nil)), 2, rfl, by decide +kernel,
    below_two (by decide +kernel)⟩

theorem outMoment : OutGradMoment EI statFull 0 mOut :=
  ⟨[ten (7 / 3), ten (5 / 3), ten (7 / 3)], .cons ⟨inp (7 / 3), rfl, rfl⟩ (.cons ⟨inp (5 / 3), rfl, rfl⟩ (.cons ⟨inp (7 / 3), rfl, rfl⟩ .nil)), 1, rfl, by decide +kernel, by
    intro i j hi hj
    obtain rfl : i = 0 := by omega
    obtain rfl : j = 0 := by omega
    decide +kernel⟩

def gFirst : Tensor Rat := ⟨.cpu, [1, 1, 2], [7 / 3, 4], rfl⟩
def gA : Tensor Rat := ⟨.cpu, [1, 1, 2], [7 / 3, 7 / 3], rfl⟩
def gB : Tensor Rat := ⟨.cpu, [1, 1, 2], [0, 5 / 3], rfl⟩

theorem first_grad : BatchGrad (allocs statFull) .linear [(3, 5), (0, 2)] gFirst := by
  refine ⟨[gA, gB], .cons ⟨two 1 1, inp (7 / 3), rfl, rfl, by decide +kernel⟩ (.cons ⟨two 0 1, inp (5 / 3), rfl, rfl, by decide +kernel⟩ .nil), ?_⟩
  rcases accum_none [gA, gB] (some gFirst) (by decide +kernel) with ⟨h, -⟩ | ⟨T, h, h'⟩
  · cases h
  · rw [Option.some.inj h]; exact h'

theorem second_grad : BatchGrad (allocs statFull) .linear [(3, 5)] gA :=
  ⟨[gA], .cons ⟨two 1 1, inp (7 / 3), rfl, rfl, by decide +kernel⟩ .nil, by simp, by simp, fun idx => by simp⟩

theorem gradMoment : BatchGradMoment EI statFull 0 mGrad := by
  refine ⟨[gFirst, gA], ?_, 2, rfl, by decide +kernel, below_two (by decide +kernel)⟩
  rw [show (notes batchGrads 0 ⟨none, [], [], []⟩ statFull).map Prod.fst = [[(3, 5), (0, 2)], [(3, 5)]] by decide +kernel]
  exact .cons first_grad (.cons second_grad .nil)

/-- What the bottleneck gets from the encoder. -/
theorem encodes {a b c : Rat} (h : linearForward encoder none (two a b).val = .ok (ten c)) : Encodes 1 (.linear 2 1) encoder (two a b).val (ten c) :=
  ⟨rfl, rfl, ⟨1, [], rfl⟩, h⟩

/-- The gradient `3 g` of the bottleneck. -/
theorem back_any (g : Rat) : IsBackward (linearForward decoder none) [1, 1] .cpu (ten g) (ten (3 * g)) := by
  refine ⟨rfl, rfl, fun v hs hd => ?_⟩
  obtain ⟨y, y1, y2, y3, y4⟩ := linearForward_el (w := decoder) (x := v) (o := 1) (i := 1) (pre := [1]) rfl hs hd
  refine ⟨y, y1, y3, ?_⟩
  have e := y4 [0] 0 rfl (by decide)
  simp only [Finset.sum_range_one] at e
  unfold pairing
  rw [hs, y3]
  show y.el [0, 0] * g + 0 = v.el [0, 0] * (3 * g) + 0
  rw [show y.el [0, 0] = _ from e, show decoder.el [0, 0] = 3 from rfl]
  show v.el [0, 0] * 3 * g + 0 = _
  ring

theorem decodes {g k : Rat} (h : k = 3 * g) : Decodes 1 (.linear 2 1) decoder (ten g) (ten k) := by
  subst h
  exact ⟨rfl, 1, [], rfl, back_any g⟩

theorem wrapped {u : Nat × Nat} {a b c g k : Rat} (h1 : (allocs statFull)[u.1]? = some (two a b)) (h2 : (allocs statFull)[u.2]? = some (inp g))
    (h3 : (allocs statBody)[u.1]? = some (inp c)) (h4 : (allocs statBody)[u.2]? = some (inp k)) (h5 : linearForward encoder none (two a b).val = .ok (ten c)) (h6 : k = 3 * g) :
    WrappedUse 1 (.linear 2 1) encoder decoder 1 (allocs statFull) (allocs statBody) u u := by
  subst h6
  exact ⟨_, _, _, _, h1, h2, h3, h4, rfl, rfl, rfl, rfl, rfl, ⟨[], rfl, rfl⟩, h5, back_any g⟩

theorem square : SquareGrads dInf [na] (fun _ => 1) := by
  intro m hm g hg
  rw [List.mem_singleton.1 hm] at hg
  have : grad dInf na = some ⟨.cpu, [1, 1, 1], [5], rfl⟩ := rfl
  rw [this] at hg
  rw [← Option.some.inj hg]
  rfl

theorem single {P : PyStr → Prop} (h : P na) : ∀ nm ∈ [na], P nm := fun nm hm => by rw [List.mem_singleton.1 hm]; exact h

/-- The hypotheses of C133 are met: KFAC. -/
example : ∃ u r T, computeInfluence EI.lib Rat.sqrt tInf.1.st [['x']] (.dict dInf) [['u'], ['v']] (.dict eInf) .dot true .kfac none (some 1) = .ok (u, r) ∧
      r.influence = .one T ∧ ∀ x : PyStr → List Nat → Rat,
        KfacSystem (congruent 2 (encoderMatrix (.linear 2 1) encoder) (entries mIn)) (congruent 1 (decoderMatrix (.linear 2 1) decoder) (entries mOut)) 1 dInf 0 na (x na) →
        ∀ j, j < 2 → T.el [0, j] = against x eInf j [na] := by
  obtain ⟨u, r, h⟩ := ExInfl.isOk (x := computeInfluence EI.lib Rat.sqrt tInf.1.st [['x']] (.dict dInf) [['u'], ['v']] (.dict eInf) .dot true .kfac none (some 1))
    (by decide +kernel)
  obtain ⟨T, a1, -, -, -, a2⟩ := C133_kfac EI ExInfl.eighOk ExInfl.inverseOk statConf statConf_ok 1 1000 [] _ _ (.with [i1] none false) statBody ⟨[], none⟩ [na]
    (fun _ => 0) statBody_ok .kfac EI statFull (fun _ => 0) (fun _ => 1) (fun _ => .linear 2 1) (fun _ => encoder) (fun _ => decoder) (fun _ => mIn) (fun _ => mOut)
    (fun _ _ => ⟨rfl, rfl⟩)
    (fun _ _ => ⟨inMoment, .cons ⟨two 0 1, inp 2, rfl, rfl, encodes (by decide +kernel)⟩ (.cons ⟨two 1 1, inp 3, rfl, rfl, encodes (by decide +kernel)⟩
      (.cons ⟨two 1 1, inp 3, rfl, rfl, encodes (by decide +kernel)⟩ .nil))⟩)
    (fun _ _ => ⟨outMoment, .cons ⟨inp (7 / 3), inp 7, rfl, rfl, decodes (by decide +kernel)⟩ (.cons ⟨inp (5 / 3), inp 5, rfl, rfl, decodes (by decide +kernel)⟩
      (.cons ⟨inp (7 / 3), inp 7, rfl, rfl, decodes (by decide +kernel)⟩ .nil))⟩)
    conf_ok.1 conf_ok.2.1 conf_ok.2.2.1 conf_ok.2.2.2.1 (.inl rfl) (single ⟨watches_ok, by decide +kernel, by decide +kernel⟩) tInf.1 run_ok
    dInf eInf rfl square _ _ labD labE 1 (by decide +kernel) _ _ _ h
  exact ⟨u, r, T, h, a1, fun x hx j hj => (a2 0 (by decide)).2 x (single hx) j hj⟩

/-- And for the empirical Fisher matrix. -/
example : ∃ u r T, computeInfluence EI.lib Rat.sqrt tInf.1.st [['x']] (.dict dInf) [['u'], ['v']] (.dict eInf) .dot true .auto none (some 1) = .ok (u, r) ∧
      r.influence = .one T ∧ ∀ x : PyStr → List Nat → Rat, RawSystem (projectedMoment 1 (.linear 2 1) encoder decoder mGrad) 1 dInf 0 na (x na) →
        ∀ j, j < 2 → T.el [0, j] = against x eInf j [na] := by
  obtain ⟨u, r, h⟩ := ExInfl.isOk (x := computeInfluence EI.lib Rat.sqrt tInf.1.st [['x']] (.dict dInf) [['u'], ['v']] (.dict eInf) .dot true .auto none (some 1))
    (by decide +kernel)
  have e35 : WrappedUse 1 (.linear 2 1) encoder decoder 1 (allocs statFull) (allocs statBody) (3, 5) (3, 5) :=
    wrapped (a := 1) (b := 1) (c := 3) (g := 7 / 3) (k := 7) rfl rfl rfl rfl (by decide +kernel) (by decide +kernel)
  have e02 : WrappedUse 1 (.linear 2 1) encoder decoder 1 (allocs statFull) (allocs statBody) (0, 2) (0, 2) :=
    wrapped (a := 0) (b := 1) (c := 2) (g := 5 / 3) (k := 5) rfl rfl rfl rfl (by decide +kernel) (by decide +kernel)
  obtain ⟨T, a1, -, -, -, a2⟩ := C133_raw EI ExInfl.eighOk ExInfl.inverseOk statConf statConf_ok 1 1000 [] _ _ (.with [i1] none false) statBody ⟨[], none⟩ [na]
    (fun _ => 0) statBody_ok .auto EI statFull (fun _ => 0) (fun _ => 1) (fun _ => .linear 2 1) (fun _ => encoder) (fun _ => decoder) (fun _ => mGrad)
    (fun _ _ => ⟨rfl, rfl⟩)
    (fun _ _ => ⟨gradMoment, by
      rw [show (notes batchGrads 0 ⟨none, [], [], []⟩ statFull).map Prod.fst = [[(3, 5), (0, 2)], [(3, 5)]] by decide +kernel,
        show (notes batchGrads 0 ⟨none, [], [], []⟩ statBody).map Prod.fst = [[(3, 5), (0, 2)], [(3, 5)]] by decide +kernel]
      exact .cons ⟨1, .cons e35 (.cons e02 .nil)⟩ (.cons ⟨1, .cons e35 .nil⟩ .nil)⟩)
    conf_ok.1 conf_ok.2.1 conf_ok.2.2.2.2.1 conf_ok.2.2.2.2.2 (.inr rfl) (single ⟨watches_ok, by decide +kernel⟩) tInf.1 run_ok
    dInf eInf rfl square _ _ labD labE 1 (by decide +kernel) _ _ _ h
  exact ⟨u, r, T, h, a1, fun x hx j hj => (a2 0 (by decide)).2 x (single hx) j hj⟩

/-- The matrices are those of the session: 22/3, 41 and 701. -/
example : congruent 2 (encoderMatrix (.linear 2 1) encoder) (entries mIn) 0 0 = 22 / 3 ∧
    congruent 1 (decoderMatrix (.linear 2 1) decoder) (entries mOut) 0 0 = 41 ∧ projectedMoment 1 (.linear 2 1) encoder decoder mGrad 0 0 = 701 := by decide +kernel

end Logix.ExLoraLog
