/-
C115: influence can be computed after logging, and has the values of C94.
-/
import Verif.Props.Success
import Verif.Props.Formula
import Verif.Props.EkfacDist

set_option linter.unusedSectionVars false

namespace Logix
open Spec
variable {K : Type} [Field K] [LinearOrder K] [IsStrictOrderedRing K]

/-- Shapes and devices of the covariances after a regular history. -/
theorem regular_cov {L : Lib K} {width : PyStr → LogType → Nat} {dev : PyStr → LogType → Dev} {off : Bool} {calls : List (Plugin × StatCall K)}
    {s₀ s : LState K} {dir dir' : StateDir K} (h2 : updates L .init calls = .ok s₀) (h3 : s₀.finalize dir = .ok (s, dir')) (hr : Regular width dev off calls)
    {m : PyStr} {lt : LogType} {x : Tensor K} (hx : tensorAt s.attrs nCov [m, lt.name] = some x) :
    x.shape = [width m lt, width m lt] ∧ x.dev = if off then .cpu else dev m lt := by
  obtain ⟨s₁, g1, g2⟩ := ready_updates L hr ready_init
  obtain rfl := Except.ok.inj (g1.symm.trans h2)
  obtain ⟨d, e, hd, he, C⟩ := g2.cov
  obtain ⟨nz, -⟩ := finalize_ok h3
  obtain ⟨d2, e2, d', hd2, he2, hn, hd'⟩ := normalize_get (st := nCov) (cn := nCovCounter) (.inl g2.norm) nz (by decide)
  obtain rfl := Except.ok.inj (hd.symm.trans hd2)
  obtain rfl := Except.ok.inj (he.symm.trans he2)
  obtain ⟨d3, a1, a2⟩ := item2_of_tensorAt hx
  rw [getAttr_eq.1 hd'] at a1
  obtain rfl := Option.some.inj a1
  rcases C.item2 m lt.name with h0 | ⟨y, c, h1, -⟩
  · rw [(normalizeDict_item2 hn m lt.name).2 h0] at a2
    cases a2
  · obtain ⟨c', -, h4⟩ := (normalizeDict_item2 hn m lt.name).1 y h1
    rw [h4] at a2
    cases a2
    exact C.entry m lt y h1

/-- The devices of the covariances after a regular history. -/
theorem regular_cov_dev {L : Lib K} {width : PyStr → LogType → Nat} {dev : PyStr → LogType → Dev} {off : Bool} {calls : List (Plugin × StatCall K)}
    {s : LState K} (h : Finalized L calls s) (hr : Regular width dev off calls) {m : PyStr} {lt : LogType} {x : Tensor K}
    (hx : tensorAt s.attrs nCov [m, lt.name] = some x) : x.dev = if off then .cpu else dev m lt := by
  obtain ⟨-, -, s₀, dir, dir', h2, h3⟩ := h
  exact (regular_cov h2 h3 hr hx).2

/-- After a regular history and `finalize` the state is ready for influence computations. -/
theorem ready_of_logged {L : Lib K} (hE : EighOk L) (hI : InverseOk L) (hL : LibTotal L) {width : PyStr → LogType → Nat} {dev : PyStr → Dev} {off : Bool}
    {calls : List (Plugin × StatCall K)} {s : LState K} (h : Finalized L calls s) (hr : Regular width (fun m _ => dev m) off calls) {keys : List PyStr}
    {hessian : Hess} (hl : LoggedAll calls keys hessian) {c : K} (hc : 0 < c) {rows cols : PyStr → Nat}
    (hw : ∀ m ∈ keys, width m .backward = rows m ∧ width m .forward = cols m ∧ width m .grad = rows m * cols m) :
    InfReady L s keys hessian c rows cols := by
  have hfit : FitsCov s keys hessian rows cols := by
    rcases hl with ⟨hh, hl⟩ | ⟨hh, hl⟩
    · refine .inl ⟨usesKfac_of_calls h hh, fun m hm => ⟨?_, ?_⟩⟩
      · obtain ⟨A, a1, a2, -⟩ := finalized_cov_width h hr (hl m hm).1
        exact ⟨A, a1, by rw [a2, (hw m hm).2.1]⟩
      · obtain ⟨B, b1, b2, -⟩ := finalized_cov_width h hr (hl m hm).2
        exact ⟨B, b1, by rw [b2, (hw m hm).1]⟩
    · refine .inr ⟨usesRaw_of_calls h hh fun m hm => (hl m hm).1, fun m hm => ?_⟩
      obtain ⟨C, c1, c2, -⟩ := finalized_cov_width h hr (hl m hm)
      exact ⟨C, c1, by rw [c2, (hw m hm).2.2]⟩
  have hP : PosHessian L s keys hessian c := posHessian_of_logged hE hI h hc (by
    rcases hfit with ⟨hu, hf⟩ | ⟨hu, hf⟩
    · refine .inl ⟨hu, fun m hm => ?_⟩
      obtain ⟨⟨A, a1, -⟩, B, b1, -⟩ := hf m hm
      exact ⟨by rw [a1]; rfl, by rw [b1]; rfl⟩
    · refine .inr ⟨hu, fun m hm => ?_⟩
      obtain ⟨C, c1, -⟩ := hf m hm
      rw [c1]; rfl)
  refine ⟨hP, finalized_hasAttr h (by decide) rfl, ⟨fun path x hx => ?_, hL.inverse⟩, ⟨fun m t t' x y hx hy => ?_, fun m t t' x y w w' _ _ hw' => ?_⟩, hfit⟩
  · obtain ⟨n, hn, -⟩ := posHessian_symm hP hx
    exact hL.eigh x n hn
  · rw [regular_cov_dev h hr hx, regular_cov_dev h hr hy]
  · obtain ⟨d, hd, -⟩ := item2_of_tensorAt hw'
    have := finalized_hasAttr h (n := nEigval) (by decide) rfl
    unfold LState.hasAttr at this
    rw [hd] at this
    cases this

/-- **C115.** A new instance logs any regular history with what the Hessian asks for, and is finalized. All of this returns. Then `compute_influence` of
two logs of gradients of the shapes of the modules, with positive damping, returns too, with or without preconditioning and groups, for `dot` on every
device and for `l2` and `cosine` on the CPU; and so do all later calls, as the state stays ready. -/
theorem C115_returns {L : Lib K} (hE : EighOk L) (hI : InverseOk L) (hL : LibTotal L) {sqrt : K → K} {width : PyStr → LogType → Nat} {dev : PyStr → Dev}
    {off : Bool} {calls : List (Plugin × StatCall K)} (hr : Regular width (fun m _ => dev m) off calls)
    (hm : ∀ pc ∈ calls, ∀ m, pc.2.mask = some m → ∀ x ∈ m.data, 0 ≤ x) {ids tids : List PyStr} {d e : GLog K} {hessian : Hess}
    (hl : LoggedAll calls (Dict.keys d) hessian) {c : K} (hc : 0 < c) {rows cols : PyStr → Nat}
    (hw : ∀ m ∈ Dict.keys d, width m .backward = rows m ∧ width m .forward = cols m ∧ width m .grad = rows m * cols m) {dv dv' : Dev}
    (hd : GradLog ids d dv rows cols) (he : GradLog tids e dv' rows cols) (hmods : ∀ m, m ∈ Dict.keys d ↔ m ∈ Dict.keys e) (pre : Bool)
    {groups : Option (List PyStr)} (hg : GroupsHit groups (Dict.keys d)) {mode : Mode} (hmode : mode = .dot ∨ (mode = .l2 ∨ mode = .cosine) ∧ dv = .cpu)
    (dir : StateDir K) :
    ∃ s₀ s dir' u r, updates L .init calls = .ok s₀ ∧ s₀.finalize dir = .ok (s, dir') ∧
      computeInfluence L sqrt s ids (.dict d) tids (.dict e) mode pre hessian groups (some c) = .ok (u, r) ∧ InfReady L u (Dict.keys d) hessian c rows cols := by
  obtain ⟨s₀, s, dir', h1, h2⟩ := C37_plugins_run_partial L hr dir
  have hf : Finalized L calls s := ⟨hr.plugin, hm, s₀, dir, dir', h1, h2⟩
  obtain ⟨u, r, h3, h4⟩ := C115_influence_returns (sqrt := sqrt) (ready_of_logged hE hI hL hf hr hl hc hw) hd he hmods pre hg hmode
  exact ⟨s₀, s, dir', u, r, h1, h2, h3, h4⟩

/-- **C115**, with the values: the whole run returns, and the scores are the influence function of the logged data (C94). -/
theorem C115_scores {L : Lib K} (hE : EighOk L) (hI : InverseOk L) (hL : LibTotal L) {sqrt : K → K} {width : PyStr → LogType → Nat} {dev : PyStr → Dev}
    {off : Bool} {calls : List (Plugin × StatCall K)} (hr : Regular width (fun m _ => dev m) off calls)
    (hm : ∀ pc ∈ calls, ∀ m, pc.2.mask = some m → ∀ x ∈ m.data, 0 ≤ x) {ids tids : List PyStr} {d e : GLog K} {hessian : Hess}
    (hl : LoggedAll calls (Dict.keys d) hessian) {c : K} (hc : 0 < c) {rows cols : PyStr → Nat}
    (hw : ∀ m ∈ Dict.keys d, width m .backward = rows m ∧ width m .forward = cols m ∧ width m .grad = rows m * cols m) {dv dv' : Dev}
    (hd : GradLog ids d dv rows cols) (he : GradLog tids e dv' rows cols) (hmods : ∀ m, m ∈ Dict.keys d ↔ m ∈ Dict.keys e) (dir : StateDir K) :
    ∃ s₀ s dir' u r t, updates L .init calls = .ok s₀ ∧ s₀.finalize dir = .ok (s, dir') ∧
      computeInfluence L sqrt s ids (.dict d) tids (.dict e) .dot true hessian none (some c) = .ok (u, r) ∧
      r.influence = .one t ∧ r.srcIds = ids ∧ r.tgtIds = tids ∧ t.shape = [ids.length, tids.length] ∧ ∀ i, i < ids.length →
        (∃ x : PyStr → List Nat → K, ∀ m ∈ Dict.keys d, Solves calls hessian c d i m (x m)) ∧
        ∀ x : PyStr → List Nat → K, (∀ m ∈ Dict.keys d, Solves calls hessian c d i m (x m)) →
          ∀ j, j < tids.length → t.el [i, j] = against x e j (Dict.keys d) := by
  obtain ⟨s₀, s, dir', u, r, h1, h2, h3, -⟩ := C115_returns hE hI hL (sqrt := sqrt) hr hm hl hc hw hd he hmods true (groups := none) (fun g hg => by cases hg) (.inl rfl) dir
  have hf : Finalized L calls s := ⟨hr.plugin, hm, s₀, dir, dir', h1, h2⟩
  obtain ⟨t, t1, t2, t3, t4, t5⟩ := C94_influence hE hI hf hl hc (GradLog.labelled hd) (GradLog.labelled he) h3
  exact ⟨s₀, s, dir', u, r, t, h1, h2, h3, t1, t2, t3, t4, t5⟩

/-- **C115**, self-influence with the values. -/
theorem C115_self {L : Lib K} (hE : EighOk L) (hI : InverseOk L) (hL : LibTotal L) {width : PyStr → LogType → Nat} {dev : PyStr → Dev}
    {off : Bool} {calls : List (Plugin × StatCall K)} (hr : Regular width (fun m _ => dev m) off calls)
    (hm : ∀ pc ∈ calls, ∀ m, pc.2.mask = some m → ∀ x ∈ m.data, 0 ≤ x) {ids : List PyStr} {d : GLog K} {hessian : Hess}
    (hl : LoggedAll calls (Dict.keys d) hessian) {c : K} (hc : 0 < c) {rows cols : PyStr → Nat}
    (hw : ∀ m ∈ Dict.keys d, width m .backward = rows m ∧ width m .forward = cols m ∧ width m .grad = rows m * cols m) {dv : Dev}
    (hd : GradLog ids d dv rows cols) (dir : StateDir K) :
    ∃ s₀ s dir' u r t, updates L .init calls = .ok s₀ ∧ s₀.finalize dir = .ok (s, dir') ∧
      computeSelf L s ids (.dict d) true hessian none (some c) = .ok (u, r) ∧ r.influence.get? ['t', 'o', 't', 'a', 'l'] = some t ∧ r.srcIds = ids ∧
      t.shape = [ids.length] ∧ ∀ i, i < ids.length → (∃ x : PyStr → List Nat → K, ∀ m ∈ Dict.keys d, Solves calls hessian c d i m (x m)) ∧
        ∀ x : PyStr → List Nat → K, (∀ m ∈ Dict.keys d, Solves calls hessian c d i m (x m)) → t.el [i] = against x d i (Dict.keys d) := by
  obtain ⟨s₀, s, dir', h1, h2⟩ := C37_plugins_run_partial L hr dir
  have hf : Finalized L calls s := ⟨hr.plugin, hm, s₀, dir, dir', h1, h2⟩
  obtain ⟨u, r, h3, -⟩ := C115_self_returns (ready_of_logged hE hI hL hf hr hl hc hw) hd true (groups := none) (fun g hg => by cases hg)
  obtain ⟨t, t1, t2, t3, t4⟩ := C94_self hE hI hf hl hc (GradLog.labelled hd) h3
  exact ⟨s₀, s, dir', u, r, t, h1, h2, h3, t1, t2, t3, t4⟩

end Logix
