/-
A logging session with tensors that fit together: no step raises.
-/
import Verif.Spec.SessionReturns
import Verif.Lemmas.SessionBook
import Verif.Lemmas.SessionStored
import Verif.Props.Runs
import Verif.Props.Grad
import Verif.Props.Devices

set_option linter.unusedSectionVars false

namespace Logix
open Spec Sess
variable {K : Type}

theorem each_returns {α : Type} {f : α → SAct K} {P : Sess K → Prop} (l : List α) (h : ∀ a ∈ l, ∀ s, P s → ∃ t, f a s = (t, none) ∧ P t) :
    ∀ s, P s → ∃ t, SAct.each f l s = (t, none) ∧ P t := by
  induction l with
  | nil => exact fun s hs => ⟨s, rfl, hs⟩
  | cons a l ih =>
    intro s hs
    obtain ⟨u, h1, h2⟩ := h a (List.mem_cons_self ..) s hs
    obtain ⟨t, h3, h4⟩ := ih (fun b hb => h b (List.mem_cons_of_mem _ hb)) u h2
    exact ⟨t, by rw [show SAct.each f (a :: l) = (f a).seq (SAct.each f l) from rfl, SAct.seq_eq h1]; exact h3, h4⟩

/-! ### The data -/

/-- The widths of the statistics of a layout. -/
def layWidth (lay : Layout) (nm : PyStr) : LogType → Nat
  | .forward => lay.cols nm
  | .backward => lay.rows nm
  | .grad => lay.rows nm * lay.cols nm

/-- Data that the statistics of a layout can take. -/
def FitsLay [Semiring K] (lay : Layout) (mod : Option ModKind) (nm : PyStr) (lt : LogType) (t : Tensor K) : Prop :=
  Loggable t mod lt ∧ width t mod lt = layWidth lay nm lt ∧ t.dev = lay.dev nm

section
variable [Field K] {E : SEnv K} {lay : Layout} {nm : PyStr} {n : Nat} {opt : LogOption} {Q : Option (Tensor K) → Prop}

theorem isInput_fits {x v : Tensor K} {kind : ModKind} (h : IsInput lay nm n x kind) (hc : 0 < lay.cols nm) (hs : v.shape = x.shape) (hd : v.dev = x.dev) :
    FitsLay lay (some kind) nm .forward v := by
  cases kind with
  | linear =>
    obtain ⟨h1, mid, -, h2⟩ := h
    have hl : v.shape.getLastD 0 = lay.cols nm := by
      rw [hs, h2, List.getLastD_eq_getLast?, ← List.cons_append, List.getLast?_append]
      rfl
    exact ⟨⟨nofun, by rw [hl]; exact hc⟩, hl, hd.trans h1⟩
  | conv2d g O =>
    obtain ⟨h1, d1, d2, c, hh, w, h2, h3, h4⟩ := h
    have hc' : 0 < c := by
      rcases Nat.eq_zero_or_pos c with rfl | h
      · simp at h4; omega
      · exact h
    have hk := h3.height
    have hw := h3.width
    have k1 := h3.kernel1
    have k2 := h3.kernel2
    refine ⟨⟨n, c, hh, w, hs.trans h2, hc', h3.kernel1, h3.kernel2, h3.stride1, h3.stride2, ?_, ?_⟩, ?_, hd.trans h1⟩
    · have := Nat.le_mul_of_pos_left (g.kernel.1 - 1) d1
      omega
    · have := Nat.le_mul_of_pos_left (g.kernel.2 - 1) d2
      omega
    · show v.size 1 * _ * _ = _
      rw [show v.size 1 = c by unfold Tensor.size; rw [hs, h2]; rfl]
      exact h4
  | conv1d => exact h.elim
  | other => exact h.elim

theorem isOutGrad_fits {x g : Tensor K} {kind : ModKind} (h : IsOutGrad lay nm n x g kind) (hr : 0 < lay.rows nm) :
    FitsLay lay (some kind) nm .backward g := by
  cases kind with
  | linear =>
    obtain ⟨h1, mid, -, h2⟩ := h
    have hl : g.shape.getLastD 0 = lay.rows nm := by
      rw [h2, List.getLastD_eq_getLast?, ← List.cons_append, List.getLast?_append]
      rfl
    exact ⟨⟨nofun, by rw [hl]; exact hr⟩, hl, h1⟩
  | conv2d geo O =>
    obtain ⟨h1, h2, c, hh, w, -, h3⟩ := h
    refine ⟨⟨n, O, _, _, h3, by rw [h2]; exact hr⟩, ?_, h1⟩
    show g.size 1 = _
    unfold Tensor.size
    rw [h3]
    exact h2
  | conv1d => exact h.elim
  | other => exact h.elim

theorem fits_gradient {v : Tensor K} (hn : 0 < n) (hs : v.shape = [n, lay.rows nm, lay.cols nm]) (hd : v.dev = lay.dev nm) : FitsLay lay none nm .grad v := by
  refine ⟨⟨?_, ?_⟩, ?_, hd⟩
  · unfold Tensor.size; rw [hs]; exact hn
  · rw [hs]; nofun
  · show numel v.shape.tail = _
    rw [hs]
    simp [numel, layWidth]

theorem reshapeInfer_dev {t u : Tensor K} {a b : List Nat} (h : t.reshapeInfer a b = .ok u) : u.dev = t.dev := by
  unfold Tensor.reshapeInfer at h
  split at h
  · cases h
  · exact reshape_dev h

theorem gradient_dev {fwd bwd v : Tensor K} {kind : ModKind} (h : computePerSampleGradient fwd bwd kind = .ok v) : v.dev = bwd.dev := by
  cases kind with
  | linear =>
    change outerSum bwd fwd = .ok v at h
    unfold outerSum at h
    split at h
    · dsimp only at h
      split at h
      · split at h
        · cases h; rfl
        · cases h
      · cases h
    · cases h
  | conv2d g O =>
    unfold computePerSampleGradient at h
    dsimp only at h
    split at h
    · cases h
    · split at h
      · cases h
      · split at h
        · exact (reshapeInfer_dev h).trans rfl
        · cases h
  | conv1d => cases h
  | other => cases h

theorem isOutGrad_gradient {x g : Tensor K} {kind : ModKind} (hi : ∃ n', IsInput lay nm n' x kind) (h : IsOutGrad lay nm n x g kind) (hn : 0 < n)
    (hr : 0 < lay.rows nm) :
    ∃ v, computePerSampleGradient x g kind = .ok v ∧ v.shape = [n, lay.rows nm, lay.cols nm] ∧ v.dev = lay.dev nm := by
  obtain ⟨n', hi⟩ := hi
  cases kind with
  | linear =>
    obtain ⟨h1, mid, h2, h3⟩ := h
    obtain ⟨v, e1, e2, -⟩ := C27_linear_gradient x g n _ _ mid h2 h3 (h1.trans hi.1.symm)
    exact ⟨v, e1, e2, (gradient_dev e1).trans h1⟩
  | conv2d geo O =>
    obtain ⟨h1, h2, c, hh, w, h3, h4⟩ := h
    obtain ⟨h5, -, -, c', hh', w', h6, h7, h8⟩ := hi
    rw [h3] at h6
    simp only [List.cons.injEq, and_true] at h6
    obtain ⟨rfl, rfl, rfl, rfl⟩ := h6
    obtain ⟨v, e1, e2, -⟩ := C28_conv_gradient x g n c O hh w geo h7 hn (by rw [h2]; exact hr) h3 h4 (h1.trans h5.symm)
    exact ⟨v, e1, by rw [e2, h8, h2], (gradient_dev e1).trans h1⟩
  | conv1d => exact h.elim
  | other => exact h.elim

/-! ### The statistics -/

/-- The statistics have received data that fits the layout, as configured, and with masks of some kind. -/
def Stat (E : SEnv K) (lay : Layout) (opt : LogOption) (Q : Option (Tensor K) → Prop) (s : Sess K) : Prop :=
  ∃ calls, updates E.lib .init calls = .ok s.st ∧ Regular (layWidth lay) (fun nm _ => lay.dev nm) E.cpuOffload calls ∧
    ∀ pc ∈ calls, pc.1 ∈ plugs opt pc.2.logType ∧ Q pc.2.mask

theorem Stat.congr {s t : Sess K} (h : Stat E lay opt Q s) (e : t.st = s.st) : Stat E lay opt Q t := by
  unfold Stat at h ⊢
  rw [e]
  exact h

theorem plugins_return {mod : Option ModKind} {ty : LogType} {r : TRef} {o : TObj K} (hl : FitsLay lay mod nm ty o.val) (ps : List Plugin) :
    ∀ s : Sess K, Stat E lay opt Q s → s.obj r = some o → (∀ p ∈ ps, (p = .mean ∨ p = .covariance) ∧ p ∈ plugs opt ty) → Q s.mask →
      ∃ st, SAct.each (Sess.plugin E mod nm ty r) ps s = ({ s with st := st }, none) ∧ Stat E lay opt Q { s with st := st } := by
  induction ps with
  | nil => exact fun s hs _ _ _ => ⟨s.st, rfl, hs⟩
  | cons p ps ih =>
    intro s hs ho hp hm
    obtain ⟨calls, h1, h2, hq⟩ := hs
    obtain ⟨hp1, hp2⟩ := hp p (List.mem_cons_self ..)
    have hreg : Regular (layWidth lay) (fun nm _ => lay.dev nm) E.cpuOffload (calls ++ [(p, ⟨mod, nm, ty, o.val, s.mask, E.cpuOffload⟩)]) := by
      constructor
      all_goals
        intro pc hpc
        rcases List.mem_append.1 hpc with hpc | hpc
      · exact h2.plugin pc hpc
      · rw [List.mem_singleton.1 hpc]; exact .inr hp1
      · exact h2.loggable pc hpc
      · rw [List.mem_singleton.1 hpc]; exact hl.1
      · exact h2.width pc hpc
      · rw [List.mem_singleton.1 hpc]; exact hl.2.1
      · exact h2.dev pc hpc
      · rw [List.mem_singleton.1 hpc]; exact hl.2.2
      · exact h2.offload pc hpc
      · rw [List.mem_singleton.1 hpc]
    obtain ⟨st, h3, -⟩ := ready_updates E.lib hreg ready_init
    have h4 := h3
    rw [updates_append_ok _ _ _ _ _ h1] at h4
    have h5 : pluginUpdate E.lib p s.st ⟨mod, nm, ty, o.val, s.mask, E.cpuOffload⟩ = .ok st := by
      unfold updates at h4
      split at h4
      · cases h4
      · next s1 hs1 => cases h4; exact hs1
    have h6 : Sess.plugin E mod nm ty r p s = ({ s with st := st }, none) := by
      unfold Sess.plugin
      rcases hp1 with rfl | rfl
      · simp only [ho, h5]
      · simp only [ho, h5]
    have ho' : ({ s with st := st } : Sess K).obj r = some o := by
      cases r <;> exact ho
    obtain ⟨st', h7, h8⟩ := ih { s with st := st } ⟨_, h3, hreg, fun pc hpc => (List.mem_append.1 hpc).elim (hq pc) fun h => by
      rw [List.mem_singleton.1 h]; exact ⟨hp2, hm⟩⟩ ho' (fun q hq => hp q (List.mem_cons_of_mem _ hq)) hm
    refine ⟨st', ?_, h8⟩
    rw [show SAct.each (Sess.plugin E mod nm ty r) (p :: ps) = (Sess.plugin E mod nm ty r p).seq (SAct.each (Sess.plugin E mod nm ty r) ps) from rfl,
      SAct.seq_eq h6]
    exact h7

theorem convert_stat {s : Sess K} (h : Stat E lay opt Q s) (r : TRef) : Stat E lay opt Q (s.convert E r).1 := h.congr (convert_st E s r).1

theorem mask_fits {mask : Option (Tensor K)} {x : Tensor K} (h : MaskFits mask x) (hx : x.shape ≠ []) :
    ∃ v, maskActivations mask x = .ok v ∧ v.shape = x.shape ∧ v.dev = x.dev := by
  cases mask with
  | none => exact ⟨x, rfl, rfl, rfl⟩
  | some mk =>
    obtain ⟨h1, h2⟩ := h mk rfl
    have hlen : mk.shape.length + 1 = x.shape.length := by
      rw [h1, List.length_dropLast]
      have : 0 < x.shape.length := List.length_pos_iff.2 hx
      omega
    have hne : mk.shape.length ≠ x.shape.length := by omega
    refine ⟨Tensor.ofFn x.dev x.shape fun idx => x.el idx * mk.el idx.dropLast, ?_, rfl, rfl⟩
    · unfold maskActivations
      simp only
      rw [if_pos hne, if_pos hlen, if_pos (by rw [h1]), if_pos ⟨h1, h2⟩]

theorem forwardHook_returns {s : Sess K} (mod x : Nat) {a : TObj K} (hs : Stat E lay opt Q s) (hx : s.user[x]? = some a) (hi : IsInput lay nm n a.val (E.kind mod))
    (hc : 0 < lay.cols nm) (hm : MaskFits s.mask a.val) (hp : ∀ p ∈ s.opt.forward, p = .mean ∨ p = .covariance) (ho : s.opt = opt) (hQ : Q s.mask) :
    ∃ t, Sess.forwardHook E mod x nm s = (t, none) ∧ Stat E lay opt Q t := by
  have hne : a.val.shape ≠ [] := by
    cases hk : E.kind mod with
    | linear => rw [hk] at hi; obtain ⟨-, mid, -, e⟩ := hi; rw [e]; nofun
    | conv2d g O => rw [hk] at hi; obtain ⟨-, -, -, c, h, w, e, -⟩ := hi; rw [e]; nofun
    | conv1d => rw [hk] at hi; exact hi.elim
    | other => rw [hk] at hi; exact hi.elim
  obtain ⟨v, h1, h2, h3⟩ := mask_fits hm hne
  have hob : s.obj (.user x) = some a := hx
  obtain ⟨s', r, h4⟩ : ∃ s' r, s.masked (.user x) = (s', .ok r) := by
    unfold masked
    rw [hob]
    dsimp only
    rw [h1]
    dsimp only
    split
    · exact ⟨_, _, rfl⟩
    · exact ⟨_, _, rfl⟩
  obtain ⟨a', o', g1, g2, g3, g4⟩ := masked_obj s s' _ r h4
  rw [hob] at g1
  obtain rfl := Option.some.inj g1
  rw [h1] at g3
  have g3 := Except.ok.inj g3
  obtain ⟨o2, c1, c2⟩ := convert_obj E s' r o' g2
  have hq : Quiet s s' := by have := masked_quiet s (.user x); rw [h4] at this; exact this
  have hopt : (s'.convert E r).1.opt = s.opt := (opt_of_quiet (convert_quiet E s' r)).trans (opt_of_quiet hq)
  obtain ⟨st, f1, f2⟩ := plugins_return (E := E) (lay := lay) (mod := some (E.kind mod)) (ty := .forward) (r := (s'.convert E r).2) (o := o2) (nm := nm)
    (isInput_fits hi hc (by rw [c2, ← g3]; exact h2) (by rw [c2, ← g3]; exact h3)) (s'.convert E r).1.opt.forward (s'.convert E r).1
    (convert_stat (hs.congr g4) r) c1 (by rw [hopt]; exact fun p h => ⟨hp p h, by rw [← ho]; exact h⟩) (by
      rw [mask_of_quiet (convert_quiet E s' r), mask_of_quiet hq]; exact hQ)
  refine ⟨_, ?_, f2⟩
  unfold Sess.forwardHook
  rw [h4]
  exact f1

theorem backwardHook_returns {s : Sess K} (mod g : Nat) {o x : TObj K} (hs : Stat E lay opt Q s) (hg : s.user[g]? = some o)
    (hi : IsOutGrad lay nm n x.val o.val (E.kind mod)) (hr : 0 < lay.rows nm) (hp : ∀ p ∈ s.opt.backward, p = .mean ∨ p = .covariance)
    (hso : s.opt = opt) (hQ : Q s.mask) :
    ∃ t, backwardHook E mod g nm s = (t, none) ∧ Stat E lay opt Q t := by
  have ho : s.obj (.user g) = some o := hg
  obtain ⟨o2, c1, c2⟩ := convert_obj E s (.user g) o ho
  have hopt := opt_of_quiet (convert_quiet E s (.user g))
  obtain ⟨st, f1, f2⟩ := plugins_return (E := E) (lay := lay) (mod := some (E.kind mod)) (ty := .backward) (r := (s.convert E (.user g)).2) (o := o2) (nm := nm)
    (by rw [c2]; exact isOutGrad_fits hi hr) (s.convert E (.user g)).1.opt.backward (s.convert E (.user g)).1
    (convert_stat hs _) c1 (by rw [hopt]; exact fun p h => ⟨hp p h, by rw [← hso]; exact h⟩) (by
      rw [mask_of_quiet (convert_quiet E s (.user g))]; exact hQ)
  exact ⟨_, f1, f2⟩

end
end Logix
