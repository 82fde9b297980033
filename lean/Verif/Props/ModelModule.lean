/-
C108: what the state says about the watched modules.
-/
import Verif.Spec.ModelModule
import Verif.Props.Grad
import Verif.Props.Runs
import Verif.Props.Psd
import Verif.Props.ConvGroups
import Verif.Props.LoraIOExample
import Verif.Lemmas.Registry
import Mathlib.Logic.Relation

set_option linter.unusedSectionVars false

namespace Logix
open Spec
variable {K : Type}

/-- What keeps `model_module` as it is. -/
def Steady (s : LState K) : Prop := Reg s ∧ nModelModule ∉ s.toNormalize.map Prod.fst

theorem steady_init : Steady (LState.init : LState K) := ⟨reg_init, by rw [show (LState.init : LState K).toNormalize = basePairs from rfl]; decide⟩

theorem mapM_some {α β : Type} {f : α → Option β} : ∀ {l : List α} {r : List β}, l.mapM f = some r → List.Forall₂ (fun a b => f a = some b) l r
  | [], r, h => by
    obtain rfl : [] = r := Option.some.inj h
    exact .nil
  | a :: l, r, h => by
    rw [List.mapM_cons] at h
    cases h1 : f a with
    | none => rw [h1] at h; cases h
    | some b =>
      cases h2 : l.mapM f with
      | none => rw [h1, h2] at h; cases h
      | some bs =>
        rw [h1, h2] at h
        obtain rfl : b :: bs = r := Option.some.inj h
        exact .cons h1 (mapM_some h2)

section
variable [Field K]

theorem Steady.step {L : Lib K} {s s' : LState K} {o : StateOp K} (hs : Steady s) (h : stepOp L s o = .ok s') :
    Steady s' ∧ Dict.get? s'.attrs nModelModule = Dict.get? s.attrs nModelModule := by
  have hr := hs.1.step h
  cases o with
  | update p c =>
    obtain ⟨f1, f2⟩ := pluginUpdate_frame L (show pluginUpdate L p s c = .ok s' from h)
    refine ⟨⟨hr, ?_⟩, f2 _ (by cases p <;> decide)⟩
    rcases f1 with f1 | ⟨-, f1⟩
    · rw [f1]; exact hs.2
    · rw [f1, List.map_append, List.mem_append]
      rintro (h' | h')
      · exact hs.2 h'
      · revert h'; decide
  | finalize dir =>
    obtain ⟨⟨a, b⟩, h1, h2⟩ := Except.map_ok h
    subst h2
    have h3 := (finalize_ok h1).1
    have h4 : a.toNormalize = s.toNormalize := (normalizePairs_reg h3).1
    exact ⟨⟨hr, by rw [h4]; exact hs.2⟩, normalizePairs_frame h3 _ hs.2⟩
  | clear =>
    have h : clearNames s s.states = .ok s' := h
    refine ⟨⟨hr, ?_⟩, ?_⟩
    · rw [(clearNames_reg h).1]; exact hs.2
    · rw [clearNames_get h, if_neg]
      rintro ⟨-, h'⟩
      rw [hs.1.keep] at h'
      exact h' (List.mem_singleton.2 rfl)
  | inverse damping =>
    obtain ⟨⟨a, b⟩, h1, h2⟩ := Except.map_ok h
    subst h2
    obtain ⟨f1, f2⟩ := getCovarianceInverse_frame L h1
    exact ⟨⟨hr, by rw [f1]; exact hs.2⟩, f2 _ (by decide)⟩
  | svd =>
    obtain ⟨⟨a, b⟩, h1, h2⟩ := Except.map_ok h
    subst h2
    obtain ⟨f1, f2⟩ := getCovarianceSvd_frame L h1
    exact ⟨⟨hr, by rw [f1]; exact hs.2⟩, f2 _ (by decide) (by decide)⟩

theorem Steady.set {s s' : LState K} {k : PyStr} {v : SVal K} (hs : Steady s) (h : s.setState nModelModule k v = .ok s') :
    Steady s' ∧ ∃ d, s.getAttr nModelModule = .ok d ∧ s'.getAttr nModelModule = .ok (Dict.set d k (.leaf v)) := by
  unfold LState.setState at h
  split at h
  · next hn =>
    split at h
    · cases h
    · next d hd =>
      obtain rfl := Except.ok.inj h
      exact ⟨⟨hs.1.set hn _, hs.2⟩, d, hd, by rw [getAttr_eq, get?_setAttr, if_pos rfl]⟩
  · cases h

theorem Steady.watch {s t : LRun K} {root : Nat} {tf nf : Option (List PyStr)} (hs : Steady s.st) (h : s.watch root tf nf = .ok t) :
    Steady t.st ∧ Describes t.st t.heap t.watched.names := by
  unfold LRun.watch at h
  split at h
  · cases h
  next hh w hw =>
    split at h
    · cases h
    next st1 h1 =>
    split at h
    · cases h
    next st2 h2 =>
    obtain rfl := Except.ok.inj h
    obtain ⟨hs1, d1, -, g1⟩ := hs.set h1
    obtain ⟨hs2, d2, g2, g3⟩ := hs1.set h2
    obtain rfl := Except.ok.inj (g1.symm.trans g2)
    unfold Logix.watch at hw
    dsimp only at hw
    generalize (List.foldl _ _ _ : MHeap K × WatchSt) = fin at hw
    split at hw
    · exact absurd (Prod.mk.inj hw).2 (by simp)
    next ts hts =>
    split at hw
    · exact absurd (Prod.mk.inj hw).2 (by simp)
    obtain ⟨rfl, rfl⟩ := Prod.mk.inj (Prod.mk.inj hw).1
    refine ⟨hs2, _, _, g3, ?_, Dict.get?_set_self _ _ _, ?_⟩
    · refine (Dict.get?_set_ne _ _ (by decide : nPathDim ≠ nPath)).trans ?_
      rw [Dict.get?_set_self, List.map_map]
      rfl
    · rw [List.forall₂_map_right_iff]
      exact (mapM_some hts).imp fun _ _ h => ⟨_, h, rfl⟩

theorem Steady.clearRun {s t : LRun K} (L : Lib K) (hs : Steady s.st) (h : s.clear = .ok t) :
    Steady t.st ∧ Dict.get? t.st.attrs nModelModule = Dict.get? s.st.attrs nModelModule := by
  unfold LRun.clear at h
  split at h
  · cases h
  next st h1 =>
    obtain rfl := Except.ok.inj h
    exact hs.step (L := L) (o := .clear) h1

theorem Steady.finalizeRun {s t : LRun K} (L : Lib K) (hs : Steady s.st) (h : s.finalize = .ok t) :
    Steady t.st ∧ Dict.get? t.st.attrs nModelModule = Dict.get? s.st.attrs nModelModule := by
  unfold LRun.finalize at h
  split at h
  · cases h
  next st dir h1 =>
    obtain rfl := Except.ok.inj h
    refine hs.step (L := L) (o := .finalize (s.dirs s.logDir).state) (s' := st) ?_
    show (s.st.finalize (s.dirs s.logDir).state).map Prod.fst = .ok st
    rw [h1]; rfl

theorem addLayers_st {R : LoraLib K} {s t : LRun K} {root : Nat} {a : LRun.Args} (h : s.addLayers R root a = .ok t) : t.st = s.st := by
  unfold LRun.addLayers at h
  dsimp only at h
  split at h
  · cases h
  split at h
  · cases h
  split at h
  · cases h
  obtain rfl := Except.ok.inj h
  rfl

theorem loadPath_st {s t : LRun K} {root : Nat} {p : Option PyStr} (h : s.loadPath root p = .ok t) : t.st = s.st := by
  unfold LRun.loadPath at h
  split at h
  · cases h; rfl
  split at h
  · cases h
  split at h
  · cases h
  obtain rfl := Except.ok.inj h
  rfl

theorem saveLora_st (s : LRun K) (root : Nat) : (s.saveLora root).st = s.st := by
  unfold LRun.saveLora
  dsimp only
  split <;> rfl

theorem Steady.addLora {R : LoraLib K} {s t : LRun K} {r : Bool} {a : LRun.Args} (L : Lib K) (hs : Steady s.st) (h : LRun.addLora R r s a = .ok t) :
    Steady t.st ∧ (a.watch = false → Dict.get? t.st.attrs nModelModule = Dict.get? s.st.attrs nModelModule) ∧
      (a.watch = true → Describes t.st t.heap t.watched.names) := by
  unfold LRun.addLora at h
  split at h
  · cases h
  next root _ =>
  split at h
  · cases h
  next s1 h1 =>
  split at h
  · cases h
  next s2 h2 =>
  dsimp only at h
  have e : (if r = true then s2.saveLora root else s2).st = s.st := by
    rw [← addLayers_st h1, ← loadPath_st h2]
    split
    · exact saveLora_st _ _
    · rfl
  generalize (if r = true then s2.saveLora root else s2) = s3 at *
  rw [← e] at hs ⊢
  split at h
  · cases h
  next s4 h4 =>
  have key : Steady s4.st ∧ Dict.get? s4.st.attrs nModelModule = Dict.get? s3.st.attrs nModelModule := by
    split at h4
    · exact hs.clearRun L h4
    · obtain rfl := Except.ok.inj h4
      exact ⟨hs, rfl⟩
  split at h
  · next hw => exact ⟨(key.1.watch h).1, fun h' => absurd (hw.symm.trans h') (by decide), fun _ => (key.1.watch h).2⟩
  · next hw =>
    obtain rfl := Except.ok.inj h
    exact ⟨key.1, fun _ => key.2, fun h' => absurd h' hw⟩

theorem Steady.between {L : Lib K} {R : LoraLib K} {s t : LRun K} (hs : Steady s.st) (h : Between L R s t) :
    Steady t.st ∧ Dict.get? t.st.attrs nModelModule = Dict.get? s.st.attrs nModelModule := by
  cases h
  · next o st h => exact hs.step h
  · next h => exact hs.clearRun L h
  · next r a hw h => exact ⟨(hs.addLora L h).1, (hs.addLora L h).2.1 hw⟩
  · next h => exact hs.finalizeRun L h

theorem running_steady {L : Lib K} {R : LoraLib K} {s : LRun K} (h : Running L R s) : Steady s.st := by
  obtain ⟨r, h0, hr⟩ := h
  induction hr with
  | refl => rw [h0]; exact steady_init
  | tail _ h ih =>
    cases h
    · next h => exact (ih.between h).1
    · next root tf nf h => exact (ih.watch h).1
    · next r a h => exact (ih.addLora L h).1

theorem Steady.describes {L : Lib K} {R : LoraLib K} {t u : LRun K} {h : MHeap K} {names : Dict Nat PyStr} (h1 : Steady t.st) (h2 : Describes t.st h names)
    (hu : Relation.ReflTransGen (Between L R) t u) : Describes u.st h names := by
  have : Steady u.st ∧ Dict.get? u.st.attrs nModelModule = Dict.get? t.st.attrs nModelModule := by
    induction hu with
    | refl => exact ⟨h1, rfl⟩
    | tail _ h ih => exact ⟨(ih.1.between h).1, (ih.1.between h).2.trans ih.2⟩
  obtain ⟨mm, ds, e, rest⟩ := h2
  exact ⟨mm, ds, by rw [getAttr_eq, this.2, ← getAttr_eq]; exact e, rest⟩

/-- **C108.** After `watch`, and until modules are watched again, `model_module` lists the tracked modules and the sizes of their weights. -/
theorem C108_paths (L : Lib K) (R : LoraLib K) (s t u : LRun K) (root : Nat) (tf nf : Option (List PyStr)) (hs : Running L R s)
    (h : s.watch root tf nf = .ok t) (hu : Relation.ReflTransGen (Between L R) t u) : Describes u.st t.heap t.watched.names :=
  ((running_steady hs).watch h).1.describes ((running_steady hs).watch h).2 hu

/-- **C108.** The same after `add_lora`, unless it is called with `watch=False`. -/
theorem C108_lora (L : Lib K) (R : LoraLib K) (s t u : LRun K) (rank0 : Bool) (a : LRun.Args) (hs : Running L R s)
    (h : LRun.addLora R rank0 s a = .ok t) (ha : a.watch = true) (hu : Relation.ReflTransGen (Between L R) t u) : Describes u.st t.heap t.watched.names :=
  ((running_steady hs).addLora L h).1.describes (((running_steady hs).addLora L h).2.2 ha) hu

end

/-- **C108** for linear layers: a logged gradient has as many entries as the weight. -/
theorem C108_linear_sizes [CommSemiring K] : LinearSizes K := by
  intro w x y d b h hx hd hdev
  unfold linearForward at h
  split at h
  · next O I D hw hl =>
    split at h
    · next hc =>
      obtain rfl := Except.ok.inj h
      obtain ⟨rfl, -, -⟩ := hc
      match hxs : x.shape, hx with
      | N :: c :: rest, _ =>
        rw [hxs] at hl
        have hsplit : x.shape = N :: ((c :: rest).dropLast ++ [D]) := by
          rw [hxs]
          congr 1
          rw [List.getLast?_cons_cons] at hl
          rw [List.dropLast_append_getLast? D hl]
        obtain ⟨T, h1, h2, -⟩ := C27_linear_gradient x d N O D _ hsplit (by rw [hd]; simp [Tensor.ofFn, hxs]) hdev
        exact ⟨T, h1, by rw [h2, ← hxs, hsplit]; rfl, by rw [h2, hw]; rfl⟩
    · cases h
  · cases h

/-- **C108** for convolutions without groups. -/
theorem C108_conv_sizes_partial [CommSemiring K] : ConvSizes K 1 := by
  intro g w x y d b h hd hdev hpos
  unfold conv2dForward at h
  split at h
  · next O Cg k0 k1 N C hh ww hw hx =>
    dsimp only at h
    split at h
    · next hc =>
      obtain rfl := Except.ok.inj h
      obtain ⟨hk, hC, -, -, -, hH, hW, p0, p1, q0, q1⟩ := hc
      have e1 : g.kernel.1 = k0 := by rw [← hk]
      have e2 : g.kernel.2 = k1 := by rw [← hk]
      rw [Nat.mul_one] at hC
      subst hC
      have hsh : d.shape = [N, O, outSize g.kernel.1 g.stride.1 g.padding.1 g.dilation.1 hh, outSize g.kernel.2 g.stride.2 g.padding.2 g.dilation.2 ww] := hd
      rw [← hd, hsh] at hpos
      have hN : 0 < N := by
        rcases Nat.eq_zero_or_pos N with h | h
        · subst h; simp [numel] at hpos
        · exact h
      have hO : 0 < O := by
        rcases Nat.eq_zero_or_pos O with h | h
        · subst h; simp [numel] at hpos
        · exact h
      obtain ⟨T, h1, h2, -⟩ := convGrad_ok x d N C O hh ww g ⟨by omega, by omega, q0, q1, hH, hW⟩ hN hO hx hsh hdev
      refine ⟨T, ?_, ?_, ?_⟩
      · have : w.size 0 = O := by simp [Tensor.size, hw]
        rw [this]; exact h1
      · rw [h2, hx]; rfl
      · rw [h2, hw, e1, e2]; simp [numel]; ring
    · cases h
  · cases h

namespace ExConv

def w1 : Tensor Rat := ⟨.cpu, [2, 1, 1, 1], [3, 4], rfl⟩
def y1 : Py (Tensor Rat) := conv2dForward g1 2 w1 none x1

/-- **C108, sizes, is false** for convolutions with groups. -/
theorem C108_conv_sizes_refuted : ¬ ∀ groups, ConvSizes Rat groups := by
  intro h
  cases hy : y1 with
  | error e =>
    have : y1.toOption.isSome = true := by decide +kernel
    rw [hy] at this
    exact absurd this (by simp [Except.toOption])
  | ok y =>
    have e : y.shape = d1.shape := by
      have : (y1.toOption.map fun y => y.shape) = some d1.shape := by decide +kernel
      rw [hy] at this
      exact Option.some.inj this
    obtain ⟨T, h1, -, h3⟩ := h 2 g1 w1 x1 y d1 none hy e.symm rfl (by rw [e]; decide)
    have : shape1 = some T.shape := by unfold shape1; rw [show (2 : Nat) = w1.size 0 from rfl, h1]; rfl
    have h4 : some T.shape = some [2, 2, 2] := this.symm.trans (by decide +kernel)
    rw [Option.some.inj h4] at h3
    exact absurd h3 (by decide)

/-- A linear layer with three inputs and two outputs, for two sequences of length one. -/
def wl : Tensor Rat := ⟨.cpu, [2, 3], [1, 2, 3, 4, 5, 6], rfl⟩
def xl : Tensor Rat := ⟨.cpu, [2, 1, 3], [1, 0, 2, 0, 1, 1], rfl⟩
def dl : Tensor Rat := ⟨.cpu, [2, 1, 2], [1, 2, 3, 4], rfl⟩
example : ((linearForward wl none xl).toOption.map fun y => decide (dl.shape = y.shape)) = some true := by decide +kernel
example : ((computePerSampleGradient xl dl .linear).toOption.map fun T => T.shape) = some [2, 2, 3] := by decide +kernel

/-- The same pixels for a convolution without groups. -/
def wc : Tensor Rat := ⟨.cpu, [2, 2, 1, 1], [3, 4, 5, 6], rfl⟩
example : ((conv2dForward g1 1 wc none x1).toOption.map fun y => decide (d1.shape = y.shape ∧ 0 < numel y.shape)) = some true := by decide +kernel

end ExConv

namespace ExLoraIO

/-- The library of the statistics is not used. -/
def statLib : Lib ℚ := ⟨fun _ => .error .runtimeError, fun _ => .error .runtimeError⟩

/-- `add_lora(watch=False)` and `finalize` after the first `watch`. -/
def oneKeep : LRun ℚ := get (LRun.addLora (lib 1) true one { watch := false })
def keepEnd : LRun ℚ := get oneKeep.finalize
theorem ok_oneKeep : LRun.addLora (lib 1) true one { watch := false } = .ok oneKeep := good_get (by decide +kernel)
theorem ok_keepEnd : oneKeep.finalize = .ok keepEnd := good_get (by decide +kernel)

example : Spec.Describes keepEnd.st one.heap one.watched.names :=
  C108_paths statLib (lib 1) _ one keepEnd 0 none none ⟨_, rfl, .refl⟩ ok_one ((Relation.ReflTransGen.single (.addLora _ _ _ _ rfl ok_oneKeep)).tail (.finalize _ _ ok_keepEnd))

example : Spec.Describes oneEnd.st oneLora.heap oneLora.watched.names :=
  C108_lora statLib (lib 1) one oneLora oneEnd true {} ⟨_, rfl, .single (.watch _ _ _ _ _ ok_one)⟩ ok_oneLora rfl (.single (.finalize _ _ ok_oneEnd))

example : one.watched.names.length = 2 ∧ oneLora.watched.names.length = 2 := by decide +kernel

end ExLoraIO
end Logix
