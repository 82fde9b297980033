/-
C86: what is stored for a batch is what had been logged when the batch ended.
-/
import Verif.Lemmas.SessionStored
import Verif.Lemmas.Stored

set_option linter.unusedSectionVars false

namespace Logix
open Spec Sess
variable {K : Type}

/-- What holds between the steps of a tidy history: the log consists of LogIX's own tensors, of one element type; so does what the buffer refers to; and
within a batch the two are disjoint. -/
structure SafeInv (E : SEnv K) (d : DType) (within : Bool) (s : Sess K) : Prop where
  fwd : .log ∉ s.opt.forward
  bwd : .log ∉ s.opt.backward
  tail : .log ∉ s.opt.grad.tail
  typed : Typed E d s.user
  log : LogOk d s
  buf : ∀ r, s.Views r → ∃ n, r = .own n ∧ n < s.own.length
  apart : within = true → ∀ r, s.Views r → ¬ s.InLog r

/-- The directory and the saver with the values that its buffer has at this moment. -/
def valueFront [Zero K] (E : SEnv K) (s : Sess K) : Front := ⟨s.fs, s.valueSaver E, none, none⟩

/-- Nothing has happened to what is saved. -/
def Unsaved [Zero K] (E : SEnv K) (d : DType) (b : Bool) (s s' : Sess K) : Prop :=
  SafeInv E d b s' ∧ valueFront E s' = valueFront E s ∧ s'.paths = s.paths

theorem SafeInv.grown [Zero K] {E : SEnv K} {d : DType} {b : Bool} {s s' : Sess K} (h : SafeInv E d b s) (hg : Grown s s') : Unsaved E d b s s' := by
  obtain ⟨hk, l, hl⟩ := hg
  simp only [keepPart, Prod.mk.injEq] at hk
  obtain ⟨k1, k2, k3, k4, k5, k6, k7, k8⟩ := hk
  have hv : ∀ r, s'.Views r ↔ s.Views r := by intro r; unfold Views; rw [k6]
  have hi : ∀ r, s'.InLog r ↔ s.InLog r := by intro r; unfold InLog; rw [k2]
  refine ⟨⟨by rw [k3]; exact h.fwd, by rw [k3]; exact h.bwd, by rw [k3]; exact h.tail, by rw [k1]; exact h.typed, h.log.mono k2 ⟨l, hl⟩, ?_, ?_⟩, ?_, k4⟩
  · intro r hr
    obtain ⟨n, e, hn⟩ := h.buf r ((hv r).1 hr)
    refine ⟨n, e, ?_⟩
    rw [hl, List.length_append]
    omega
  · intro hb r hr
    rw [hi]
    exact h.apart hb r ((hv r).1 hr)
  · unfold valueFront
    rw [k8, value_congr E k5 k6 k7]
    intro r hr
    obtain ⟨n, rfl, hn⟩ := h.buf r hr
    show s'.own[n]? = s.own[n]?
    rw [hl, List.getElem?_append_left hn]

theorem Unsaved.trans [Zero K] {E : SEnv K} {d : DType} {b b' : Bool} {s s' s'' : Sess K} (h : Unsaved E d b s s') (h' : Unsaved E d b' s' s'') :
    Unsaved E d b' s s'' := ⟨h'.1, h'.2.1.trans h.2.1, h'.2.2.trans h.2.2⟩

/-- A new batch empties the log. -/
theorem SafeInv.setBatch [Zero K] {E : SEnv K} {d : DType} {b : Bool} {s : Sess K} (h : SafeInv E d b s) (ids : List PyStr) (mask : Option (Tensor K)) :
    Unsaved E d true s (s.setBatch ids mask) :=
  ⟨⟨h.fwd, h.bwd, h.tail, h.typed, (by rintro r ⟨m, hm, _⟩; cases hm), h.buf, (by rintro _ r _ ⟨m, hm, _⟩; cases hm)⟩, rfl, rfl⟩

theorem SafeInv.gradAt [Field K] {E : SEnv K} {d : DType} {s : Sess K} (h : SafeInv E d true s) (y g : Nat) :
    Unsaved E d true s ((SOp.gradAt y g).run E s).1 := by
  have hq : Quiet s (Sess.gradAt E y g s).1 := gradAt_quiet E y g s
  obtain ⟨h1, h2, h3⟩ := gradAt_ok (d := d) (u := s.user) h.bwd h.fwd E h.typed y g s ⟨rfl, rfl, h.log⟩
  have hk := congrArg (fun t : Sess K => (t.paths, t.saver, t.buffer, t.bufferSize, t.fs)) (show ({ (Sess.gradAt E y g s).1 with user := s.user, own := s.own, log := s.log, st := s.st } : Sess K) = s from hq)
  simp only [Prod.mk.injEq] at hk
  obtain ⟨k1, k2, k3, k4, k5⟩ := hk
  have hv : ∀ r, (Sess.gradAt E y g s).1.Views r ↔ s.Views r := by intro r; unfold Views; rw [k3]
  have hkept : ∀ r, s.Views r → ∃ n o, r = .own n ∧ s.own[n]? = some o ∧ (Sess.gradAt E y g s).1.own[n]? = some o ∧ ¬ (Sess.gradAt E y g s).1.InLog r := by
    intro r hr
    obtain ⟨n, e, hn⟩ := h.buf r hr
    obtain ⟨a, b⟩ := run_kept E n s.own[n] (.gradAt y g) s ⟨List.getElem?_eq_getElem hn, e ▸ h.apart rfl r hr⟩
    exact ⟨n, s.own[n], e, List.getElem?_eq_getElem hn, a, e ▸ b⟩
  refine ⟨⟨?_, ?_, ?_, ?_, h3, ?_, ?_⟩, ?_, k1⟩
  · show .log ∉ (Sess.gradAt E y g s).1.opt.forward
    rw [h2]; exact h.fwd
  · show .log ∉ (Sess.gradAt E y g s).1.opt.backward
    rw [h2]; exact h.bwd
  · show .log ∉ (Sess.gradAt E y g s).1.opt.grad.tail
    rw [h2]; exact h.tail
  · show Typed E d (Sess.gradAt E y g s).1.user
    rw [h1]; exact h.typed
  · intro r hr
    obtain ⟨n, o, e, -, ho, -⟩ := hkept r ((hv r).1 hr)
    exact ⟨n, e, (List.getElem?_eq_some_iff.1 ho).1⟩
  · intro _ r hr
    obtain ⟨n, o, e, -, -, hn⟩ := hkept r ((hv r).1 hr)
    exact hn
  · have hvs : (Sess.gradAt E y g s).1.valueSaver E = s.valueSaver E := by
      refine value_congr E k2 k3 k4 fun r hr => ?_
      obtain ⟨n, o, rfl, h4, h5, -⟩ := hkept r hr
      exact h5.trans h4.symm
    show (⟨(Sess.gradAt E y g s).1.fs, (Sess.gradAt E y g s).1.valueSaver E, none, none⟩ : Front) = _
    rw [hvs, k5]
    rfl

/-- The heap and the configuration are the same, and the buffer refers to nothing new but the log. -/
theorem SafeInv.saving {E : SEnv K} {d : DType} {b : Bool} {s s' : Sess K} (h : SafeInv E d b s) (hso : SaveOnly s s') (hv : ∀ r, s'.Views r → s.Views r ∨ s.InLog r) :
    SafeInv E d false s' := by
  have hk := congrArg (fun t : Sess K => (t.user, t.own, t.log, t.opt)) (show ({ s' with saver := s.saver, buffer := s.buffer, bufferSize := s.bufferSize, fs := s.fs } : Sess K) = s from hso)
  simp only [Prod.mk.injEq] at hk
  obtain ⟨k1, k2, k3, k4⟩ := hk
  refine ⟨by rw [k4]; exact h.fwd, by rw [k4]; exact h.bwd, by rw [k4]; exact h.tail, by rw [k1]; exact h.typed, h.log.mono k3 ⟨[], by rw [k2, List.append_nil]⟩, ?_, nofun⟩
  intro r hr
  rw [k2]
  rcases hv r hr with hr | hr
  · exact h.buf r hr
  · obtain ⟨n, o, e, ho, -⟩ := h.log r hr
    exact ⟨n, e, (List.getElem?_eq_some_iff.1 ho).1⟩

/-- The arrays of the log are those of its tensors. -/
theorem SafeInv.arrs {E : SEnv K} {d : DType} {b : Bool} {s : Sess K} (h : SafeInv E d b s) (dec : DType → List UInt8 → K) :
    s.readLog E = Codec.arrs ⟨E.encode, dec⟩ d (tensors s) := by
  unfold readLog Codec.arrs tensors
  rw [List.map_map]
  apply List.map_congr_left
  intro m hm
  refine Prod.ext rfl (congrArg Nested.node ?_)
  have : ∀ l : List (PyStr × TRef), (∀ t ∈ l, t ∈ m.2) →
      l.map (fun t => (t.1, Nested.leaf (match s.obj t.2 with | some o => toArr E o.dtype o.val | none => ⟨.uint8, [], [0], rfl⟩))) =
      (l.filterMap fun t => (s.obj t.2).map fun o => (t.1, o.val)).map fun t => (t.1, Nested.leaf (Codec.arr ⟨E.encode, dec⟩ d t.2)) := by
    intro l
    induction l with
    | nil => intro _; rfl
    | cons t l ih =>
      intro hl
      obtain ⟨n, o, e, ho, hd⟩ := h.log t.2 ⟨m, hm, t, hl t (by simp), rfl⟩
      have ho' : s.obj t.2 = some o := by rw [e]; exact ho
      rw [List.map_cons, List.filterMap_cons, ho', ih fun t' ht' => hl t' (List.mem_cons_of_mem _ ht')]
      dsimp only [Option.map_some]
      rw [List.map_cons, hd]
      rfl
  exact this m.2 fun t ht => ht

/-- One step: the invariant, and what is handed to the saver. -/
def StepOk [Field K] (E : SEnv K) (dec : DType → List UInt8 → K) (d : DType) (b : Bool) (o : SOp K) (s : Sess K) : Prop :=
  SafeInv E d b (o.run E s).1 ∧ (o.run E s).1.paths = s.paths ∧
    valueFront E (o.run E s).1 = runFront s.paths (((handedBy s o).map (LogOp.saver ⟨E.encode, dec⟩ d)).map FrontOp.saver) (valueFront E s)

theorem Unsaved.step [Field K] {E : SEnv K} {dec : DType → List UInt8 → K} {d : DType} {b : Bool} {o : SOp K} {s : Sess K}
    (h : Unsaved E d b s (o.run E s).1) (hn : handedBy s o = []) : StepOk E dec d b o s := by
  refine ⟨h.1, h.2.2, ?_⟩
  rw [hn, h.2.1]
  rfl

theorem SafeInv.update [Field K] {E : SEnv K} (dec : DType → List UInt8 → K) {d : DType} {b : Bool} {s t : Sess K} (h : SafeInv E d b s) (flag : Bool)
    (hu : Sess.update E flag s = (t, none)) : SafeInv E d false t ∧ t.paths = s.paths ∧ valueFront E t = runFront s.paths
      (((if flag then [LogOp.save (s.dataId.getD []) (tensors s)] else []).map (LogOp.saver ⟨E.encode, dec⟩ d)).map FrontOp.saver) (valueFront E s) := by
  obtain ⟨u, h1, h2⟩ := update_saved E s t flag h.tail hu
  have hgu := h.grown ((Grown.refl s).stOnly h1)
  obtain ⟨e1, e2, e3, e4, e5⟩ := h1.value E
  cases flag with
  | false =>
    have h2' : u = t := by simpa using h2
    rw [← h2']
    obtain ⟨g1, g2, g3⟩ := hgu
    exact ⟨⟨g1.fwd, g1.bwd, g1.tail, g1.typed, g1.log, g1.buf, nofun⟩, g3, g2⟩
  | true =>
    rw [if_pos rfl] at h2
    have hso : SaveOnly u t := by
      have := saveLog_saveOnly E u
      rw [h2] at this
      exact this
    have hvw : ∀ r, t.Views r → u.Views r ∨ u.InLog r := by
      intro r hr
      refine saveLog_views E u r ?_
      rw [h2]
      exact hr
    have hp : t.paths = u.paths := by
      have h' := congrArg Sess.paths (show ({ t with saver := u.saver, buffer := u.buffer, bufferSize := u.bufferSize, fs := u.fs } : Sess K) = u from hso)
      exact h'
    refine ⟨hgu.1.saving hso hvw, hp.trans e4, ?_⟩
    cases hi : u.dataId with
    | none =>
      unfold saveLog at h2
      obtain ⟨v, hv, _⟩ := SAct.seq_none h2
      unfold bufferWrite at hv
      rw [hi] at hv
      cases hv
    | some ids =>
      have h3 := saveLog_spec E u ids hi
      rw [h2, e1, e2, e3, e4, h.arrs dec] at h3
      rw [e5] at hi
      rw [if_pos rfl, hi]
      show _ = FrontOp.run s.paths (valueFront E s) (.saver (.save ids (Codec.arrs ⟨E.encode, dec⟩ d (tensors s))))
      unfold FrontOp.run SaverOp.run
      show _ = (⟨((s.valueSaver E).saveLog s.paths ids _ s.fs).1, ((s.valueSaver E).saveLog s.paths ids _ s.fs).2.1, none, none⟩ : Front)
      rw [← h3]
      rfl

theorem SafeInv.finalize [Field K] {E : SEnv K} (dec : DType → List UInt8 → K) {d : DType} {b : Bool} {s : Sess K} (h : SafeInv E d b s) (dir : StateDir K)
    (hu : ((SOp.finalize dir).run E s).2 = none) : StepOk E dec d b (.finalize dir) s := by
  unfold StepOk
  have hu' : Sess.finalize E dir s = ((Sess.finalize E dir s).1, none) := Prod.ext rfl hu
  unfold Sess.finalize at hu'
  obtain ⟨u, h1, h2⟩ := SAct.seq_none hu'
  have hst : StOnly s u := by
    unfold stateOp at h1
    split at h1
    · have e := congrArg Prod.fst h1
      dsimp only at e
      rw [← e]; rfl
    · simp at h1
  have hgu := h.grown ((Grown.refl s).stOnly hst)
  obtain ⟨e1, e2, e3, e4, e5⟩ := hst.value E
  have hrun : ((SOp.finalize dir).run E s).1 = (withSaver E (fun order fs sv => sv.finalize order fs) u).1 := by
    show (SAct.seq _ _ s).1 = _
    rw [SAct.seq_eq h1]
  have h3 := withSaver_spec E (fun order fs sv => sv.finalize order fs) flushSerialized_buffer u
  rw [hrun]
  have hv : ∀ r, (withSaver E (fun order fs sv => sv.finalize order fs) u).1.Views r → u.Views r := withSaver_views E _ u
  obtain ⟨g, -, -⟩ := hgu
  refine ⟨⟨g.fwd, g.bwd, g.tail, g.typed, g.log, fun r hr => g.buf r (hv r hr), fun hb r hr => g.apart hb r (hv r hr)⟩, e4, ?_⟩
  rw [e1, e2, e4] at h3
  have h4 := congrArg Prod.fst h3
  have h5 : (saved E (withSaver E (fun order fs sv => sv.finalize order fs) u)).2.1 = _ := congrArg (fun x => x.2.1) h3
  show (⟨(saved E (withSaver E _ u)).1, (saved E (withSaver E _ u)).2.1, none, none⟩ : Front) = _
  rw [h4]
  rw [h5]
  rfl

theorem Spec.Tidy.step [Field K] {E : SEnv K} (dec : DType → List UInt8 → K) {d : DType} {b : Bool} {s : Sess K} {o : SOp K} {ops : List (SOp K)}
    (hT : Tidy b (o :: ops)) (h : SafeInv E d b s) (hd : Typed E d (s.user ++ allocs (o :: ops))) (he : Ends o → (o.run E s).2 = none) :
    ∃ b', Tidy b' ops ∧ StepOk E dec d b' o s := by
  cases o with
  | alloc x =>
    refine ⟨b, hT, ?_⟩
    have : Typed E d (s.user ++ [x]) := by
      rcases hd with hd | ⟨hd, hx⟩
      · exact Or.inl hd
      · refine Or.inr ⟨hd, fun y hy => hx y ?_⟩
        rcases List.mem_append.1 hy with hy | hy
        · exact List.mem_append_left _ hy
        · refine List.mem_append_right _ ?_
          rw [List.mem_singleton.1 hy]
          simp [allocs]
    refine Unsaved.step ⟨⟨h.fwd, h.bwd, h.tail, this, h.log, h.buf, h.apart⟩, ?_, rfl⟩ rfl
    have hv : ((SOp.alloc x).run E s).1.valueSaver E = s.valueSaver E := by
      refine value_congr E rfl rfl rfl ?_
      intro r hr
      obtain ⟨n, rfl, -⟩ := h.buf r hr
      rfl
    unfold valueFront
    rw [hv]
    rfl
  | forward m x y => exact ⟨b, hT, (h.grown (forward_grown h.fwd h.bwd E m x y s (.refl s))).step rfl⟩
  | gradAt y g =>
    obtain ⟨rfl, hT⟩ := hT
    exact ⟨true, hT, (h.gradAt y g).step rfl⟩
  | backward y g => exact ⟨b, hT, (h.grown (backward_grown h.fwd h.bwd E y g s (.refl s))).step rfl⟩
  | watchActivation x => exact ⟨b, hT, (h.grown (watchActivation_grown h.fwd h.bwd E x s (.refl s))).step rfl⟩
  | call ids mask sv =>
    refine ⟨true, hT, Unsaved.step ?_ rfl⟩
    have h1 := h.setBatch ids mask
    exact h1.trans (h1.1.grown (s' := ((SOp.call ids mask sv).run E s).1) ((Grown.refl _).congr rfl rfl))
  | enter =>
    refine ⟨b, hT, Unsaved.step ?_ rfl⟩
    exact h.grown (registerAll_grown s.clearHooks ((Grown.refl s).congr rfl rfl))
  | exit =>
    obtain ⟨h1, h2, h3⟩ := h.update dec (s.saveBatch || s.save) (Prod.ext rfl (he .exit))
    exact ⟨false, hT, h1, h2, h3⟩
  | start ids mask =>
    refine ⟨true, hT, Unsaved.step ?_ rfl⟩
    have h1 := h.setBatch ids mask
    exact h1.trans (h1.1.grown (registerAll_grown (s.setBatch ids mask).clearHooks ((Grown.refl _).congr rfl rfl)))
  | «end» flag =>
    obtain ⟨h1, h2, h3⟩ := h.update dec (flag || s.save) (Prod.ext rfl (he (.end flag)))
    exact ⟨false, hT, h1, h2, h3⟩
  | log ids mask =>
    refine ⟨true, hT, Unsaved.step ?_ rfl⟩
    have h1 := h.setBatch ids mask
    exact h1.trans (h1.1.grown ((Grown.refl _).stOnly (update_unsaved E _ h1.1.tail)))
  | save e => exact ⟨b, hT, (h.grown (s' := ((SOp.save e).run E s).1) ((Grown.refl s).congr rfl rfl)).step rfl⟩
  | eval => exact ⟨b, hT, (h.grown (s' := (SOp.eval.run E s).1) ((Grown.refl s).congr rfl rfl)).step rfl⟩
  | setup kw => exact hT.elim
  | watch sel => exact hT.elim
  | analysis x =>
    refine ⟨b, hT, Unsaved.step (h.grown ?_) rfl⟩
    show Grown s (stateOp E x s).1
    unfold stateOp
    split <;> exact (Grown.refl s).congr rfl rfl
  | getLogCopy => exact ⟨b, hT, (h.grown (getLogCopy_grown s)).step rfl⟩
  | finalize dir => exact ⟨b, hT, h.finalize dec dir (he (.finalize dir))⟩
  | clear => exact hT.elim

theorem runFront_append (order : List Path) (a b : List FrontOp) (f : Front) : runFront order (a ++ b) f = runFront order b (runFront order a f) :=
  List.foldl_append

theorem tidy_history [Field K] (E : SEnv K) (dec : DType → List UInt8 → K) (d : DType) (ops : List (SOp K)) : ∀ (b : Bool) (s : Sess K), SafeInv E d b s →
    Tidy b ops → Typed E d (s.user ++ allocs ops) → (∀ x ∈ outcomes E ops s, Ends x.1 → x.2 = none) →
    (runHistory E ops s).paths = s.paths ∧ valueFront E (runHistory E ops s) =
      runFront s.paths (((handed E ops s).map (LogOp.saver ⟨E.encode, dec⟩ d)).map FrontOp.saver) (valueFront E s) := by
  induction ops with
  | nil => exact fun _ _ _ _ _ _ => ⟨rfl, rfl⟩
  | cons o ops ih =>
    intro b s h hT hd he
    obtain ⟨b', hT', h1, h2, h3⟩ := hT.step dec h hd (he (o, (o.run E s).2) (by simp [outcomes]))
    have hu : Typed E d ((o.run E s).1.user ++ allocs ops) := by
      rcases hd with hd | ⟨hd, hx⟩
      · exact Or.inl hd
      · refine Or.inr ⟨hd, fun y hy => ?_⟩
        rcases List.mem_append.1 hy with hy | hy
        · rcases h1.typed with h | ⟨-, h⟩
          · rw [hd] at h; cases h
          · exact h y hy
        · refine hx y (List.mem_append_right _ ?_)
          unfold allocs at hy ⊢
          rw [List.flatMap_cons]
          exact List.mem_append_right _ hy
    obtain ⟨h4, h5⟩ := ih b' _ h1 hT' hu fun x hx => he x (by simp [outcomes, hx])
    refine ⟨h4.trans h2, ?_⟩
    show valueFront E (runHistory E ops (o.run E s).1) = _
    rw [h5, h2, h3, ← runFront_append, show handed E (o :: ops) s = handedBy s o ++ handed E ops (o.run E s).1 from rfl, List.map_append, List.map_append]

/-- After preparing a run nothing has been logged or saved. -/
theorem prepare_history [Field K] (E : SEnv K) (pre : List (SOp K)) (hpre : ∀ o ∈ pre, Prepares o) : ∀ s : Sess K,
    s.own = [] → s.log = [] → s.buffer = [] →
    let s' := runHistory E pre s
    s'.own = [] ∧ s'.log = [] ∧ s'.buffer = [] ∧ s'.bufferSize = s.bufferSize ∧ s'.saver = s.saver ∧ s'.fs = s.fs ∧ s'.user = s.user ++ allocs pre := by
  induction pre with
  | nil => exact fun s h1 h2 h3 => ⟨h1, h2, h3, rfl, rfl, rfl, (List.append_nil _).symm⟩
  | cons o pre ih =>
    intro s h1 h2 h3
    have key : (o.run E s).1.own = [] ∧ (o.run E s).1.log = [] ∧ (o.run E s).1.buffer = [] ∧ (o.run E s).1.bufferSize = s.bufferSize ∧
        (o.run E s).1.saver = s.saver ∧ (o.run E s).1.fs = s.fs ∧ (o.run E s).1.user = s.user ++ allocs [o] := by
      cases hpre o (by simp) with
      | setup kw => exact ⟨h1, h2, h3, rfl, rfl, rfl, (List.append_nil _).symm⟩
      | watch sel =>
        show (Sess.watch sel s).1.own = [] ∧ (Sess.watch sel s).1.log = [] ∧ (Sess.watch sel s).1.buffer = [] ∧ (Sess.watch sel s).1.bufferSize = s.bufferSize ∧
          (Sess.watch sel s).1.saver = s.saver ∧ (Sess.watch sel s).1.fs = s.fs ∧ (Sess.watch sel s).1.user = s.user ++ []
        unfold Sess.watch
        dsimp only
        split <;> exact ⟨h1, h2, h3, rfl, rfl, rfl, (List.append_nil _).symm⟩
      | save b => exact ⟨h1, h2, h3, rfl, rfl, rfl, (List.append_nil _).symm⟩
      | eval => exact ⟨h1, h2, h3, rfl, rfl, rfl, (List.append_nil _).symm⟩
      | alloc x => exact ⟨h1, h2, h3, rfl, rfl, rfl, rfl⟩
      | analysis x =>
        show (stateOp E x s).1.own = [] ∧ (stateOp E x s).1.log = [] ∧ (stateOp E x s).1.buffer = [] ∧ (stateOp E x s).1.bufferSize = s.bufferSize ∧
          (stateOp E x s).1.saver = s.saver ∧ (stateOp E x s).1.fs = s.fs ∧ (stateOp E x s).1.user = s.user ++ []
        unfold stateOp
        split <;> exact ⟨h1, h2, h3, rfl, rfl, rfl, (List.append_nil _).symm⟩
    obtain ⟨k1, k2, k3, k4, k5, k6, k7⟩ := key
    obtain ⟨j1, j2, j3, j4, j5, j6, j7⟩ := ih (fun o' ho' => hpre o' (List.mem_cons_of_mem _ ho')) _ k1 k2 k3
    refine ⟨j1, j2, j3, j4.trans k4, j5.trans k5, j6.trans k6, ?_⟩
    show (runHistory E pre (o.run E s).1).user = _
    rw [j7, k7, List.append_assoc]
    simp [allocs]

theorem tidy_finalize {ops : List (SOp K)} (dir : StateDir K) : ∀ {b : Bool}, Tidy b ops → Tidy b (ops ++ [.finalize dir]) := by
  induction ops with
  | nil => exact fun _ => trivial
  | cons o ops ih =>
    intro b h
    cases o with
    | gradAt y g => exact ⟨h.1, ih h.2⟩
    | setup kw => exact h.elim
    | watch sel => exact h.elim
    | clear => exact h.elim
    | _ => exact ih h

theorem handed_finalize [Field K] (E : SEnv K) (dir : StateDir K) (ops : List (SOp K)) : ∀ s, handed E (ops ++ [.finalize dir]) s = handed E ops s ++ [.finalize] := by
  induction ops with
  | nil => exact fun s => rfl
  | cons o ops ih =>
    intro s
    show handedBy s o ++ handed E (ops ++ [.finalize dir]) _ = _
    rw [ih]
    show _ = (handedBy s o ++ handed E ops _) ++ _
    rw [List.append_assoc]

/-- **C86, partial.** A run is prepared (options, watched modules, data), `log` not being configured for forward or backward. Then batches are run, in
either programming interface, with anything else happening in between (evaluation batches that are not saved, further module calls, copies of the
log, exceptions in the model); gradients arrive only within batches (`Tidy`; missing: they may also arrive after the end of a batch). No end of a
batch and no `finalize` raises, and the run is finalized. Then the directory is that of a saver which got, for every batch that was to be saved,
the ids and the log *as it was when the batch ended*, as arrays of one element type. -/
theorem C86_partial [Field K] (E : SEnv K) (dec : DType → List UInt8 → K) (d : DType) (pre ops : List (SOp K)) (dir : StateDir K) (workers : Nat) (threshold : Int) (fs : FS)
    (hpre : ∀ o ∈ pre, Prepares o) (hd : E.dtype = some d ∨ (E.dtype = none ∧ ∀ o ∈ allocs (pre ++ ops), o.dtype = d)) :
    let s₀ := runHistory E pre (Sess.init workers threshold fs)
    .log ∉ s₀.opt.forward → .log ∉ s₀.opt.backward → Tidy false ops →
    (∀ x ∈ outcomes E (ops ++ [.finalize dir]) s₀, Ends x.1 → x.2 = none) →
    (runHistory E (ops ++ [.finalize dir]) s₀).fs = (storedRun ⟨E.encode, dec⟩ d s₀.paths fs workers threshold (handed E ops s₀)).fs := by
  intro s₀ hf hb hT he
  obtain ⟨h1, h2, h3, h4, h5, h6, h7⟩ := prepare_history E pre hpre (Sess.init workers threshold fs) rfl rfl rfl
  have htail := history_keeps E (grad_tail_step E) pre (Sess.init workers threshold fs) (by simp [Sess.init, LogOption.init])
  have hd' : Typed E d (s₀.user ++ allocs (ops ++ [.finalize dir])) := by
    rcases hd with hd | ⟨hd, hx⟩
    · exact Or.inl hd
    · refine Or.inr ⟨hd, fun o ho => hx o ?_⟩
      have e : s₀.user ++ allocs (ops ++ [.finalize dir]) = allocs (pre ++ ops) := by
        rw [show s₀.user = _ from h7]
        simp [allocs, Sess.init]
      rw [← e]
      exact ho
  have hinv : SafeInv E d false s₀ := by
    refine ⟨hf, hb, htail, ?_, ?_, ?_, nofun⟩
    · rcases hd' with hd | ⟨hd, hx⟩
      · exact Or.inl hd
      · exact Or.inr ⟨hd, fun o ho => hx o (List.mem_append_left _ ho)⟩
    · rintro r ⟨m, hm, -⟩
      rw [show s₀.log = [] from h2] at hm
      cases hm
    · rintro r ⟨m, hm, -⟩
      rw [show s₀.buffer = [] from h3] at hm
      cases hm
  obtain ⟨-, h8⟩ := tidy_history E dec d (ops ++ [.finalize dir]) false s₀ hinv (tidy_finalize dir hT) hd' he
  have hv : valueFront E s₀ = Front.init fs 0 workers threshold := by
    unfold valueFront valueSaver readBuffer Front.init
    rw [show s₀.buffer = [] from h3, show s₀.bufferSize = _ from h4, show s₀.saver = _ from h5, show s₀.fs = _ from h6]
    rfl
  rw [handed_finalize, hv] at h8
  unfold storedRun
  rw [List.map_append] at h8
  exact congrArg Front.fs h8

/-- The batch to which a sample belongs. -/
theorem split_unique {α : Type} : ∀ {l l' r r' : List (List PyStr × α)} {b b' : List PyStr × α} {j j' : Nat}, l ++ b :: r = l' ++ b' :: r' →
    (l.flatMap (·.1)).length + j = (l'.flatMap (·.1)).length + j' → j < b.1.length → j' < b'.1.length → b = b' ∧ j = j'
  | [], [], _, _, _, _, _, _, h, e, _, _ => by
    obtain ⟨rfl, -⟩ := List.cons.inj h
    exact ⟨rfl, by simpa using e⟩
  | [], x :: l', _, _, _, _, _, _, h, e, hj, _ => by
    obtain ⟨rfl, -⟩ := List.cons.inj h
    simp only [List.flatMap_nil, List.length_nil, List.flatMap_cons, List.length_append] at e
    omega
  | x :: l, [], _, _, _, _, _, _, h, e, _, hj => by
    obtain ⟨rfl, -⟩ := List.cons.inj h
    simp only [List.flatMap_nil, List.length_nil, List.flatMap_cons, List.length_append] at e
    omega
  | x :: l, y :: l', _, _, _, _, _, _, h, e, hj, hj' => by
    obtain ⟨rfl, h'⟩ := List.cons.inj h
    simp only [List.flatMap_cons, List.length_append] at e
    exact split_unique (l := l) (l' := l') h' (by omega) hj hj'

/-- **C86, samples (partial).** Under the same conditions, if the batches that were to be saved are as `LogRun` asks (gradients of the watched modules with one
row per id, exact representation, ids all different, at most one worker, an empty log directory), the dataset that is read afterwards, whatever the
order in which the directory lists its files, has one sample per saved id, in order, and sample `j` of a saved batch has the batch's id number `j`
and, for every watched module, row `j` of the gradient that was in the log when the batch ended. -/
theorem C86_samples_partial [Field K] (E : SEnv K) (dec : DType → List UInt8 → K) (d : DType) (pre ops : List (SOp K)) (dir : StateDir K) (workers : Nat) (threshold : Int) (fs : FS)
    (hpre : ∀ o ∈ pre, Prepares o) (hd : E.dtype = some d ∨ (E.dtype = none ∧ ∀ o ∈ allocs (pre ++ ops), o.dtype = d)) (shape : PyStr → PyStr → List Nat) :
    let s₀ := runHistory E pre (Sess.init workers threshold fs)
    .log ∉ s₀.opt.forward → .log ∉ s₀.opt.backward → Tidy false ops →
    (∀ x ∈ outcomes E (ops ++ [.finalize dir]) s₀, Ends x.1 → x.2 = none) →
    LogRun ⟨E.encode, dec⟩ d s₀.paths shape fs workers (handed E ops s₀) →
    ∀ listing : List PyStr, listing.Perm (Dict.keys (runHistory E (ops ++ [.finalize dir]) s₀).fs) →
    ∃ ds, openDataset (runHistory E (ops ++ [.finalize dir]) s₀).fs listing = .ok ds ∧ ds.len = ((saves (handed E ops s₀)).flatMap (·.1)).length ∧
      ∀ l b r, saves (handed E ops s₀) = l ++ b :: r → ∀ (j : Nat) (hj : j < b.1.length),
        ∃ v, ds.getItem ((l.flatMap (·.1)).length + j) = .ok (b.1[j], v) ∧
          ∀ m t, [m, t] ∈ s₀.paths → ∃ x a, item b.2 m t = some x ∧ v.lookup [m, t] = some a ∧ a.dtype = d ∧ a.shape = shape m t ∧
            ∀ idx, inRange (shape m t) idx = true → (Codec.tensor ⟨E.encode, dec⟩ a).el idx = x.el (j :: idx) := by
  intro s₀ hf hb hT he hr listing hl
  have hfs := C86_partial E dec d pre ops dir workers threshold fs hpre hd hf hb hT he
  rw [show (runHistory E (ops ++ [.finalize dir]) s₀).fs = _ from hfs] at hl ⊢
  obtain ⟨ds, h1, h2⟩ := stored_dataset hr.plan hr.files hr.clean hr.workers threshold hr.batches hr.ids rfl hl
  obtain ⟨es, h3, h4, h5, h6⟩ := stored_samples hr.plan hr.batches h2
  refine ⟨ds, h1, ?_, ?_⟩
  · rw [h3.len, ← h4, List.length_map]
  · intro l b r hS j hj
    have hlen : (l.flatMap (·.1)).length + j < es.length := by
      have := congrArg List.length h4
      rw [List.length_map, hS, List.flatMap_append, List.flatMap_cons, List.length_append, List.length_append] at this
      omega
    obtain ⟨l', b', r', j', e1, hj', e2, e3, hpb, e4⟩ := h6 _ hlen
    obtain ⟨rfl, rfl⟩ := split_unique (hS.symm.trans e1) e2 hj hj'
    obtain ⟨v, h7, h8⟩ := h3.nested _ hlen
    rw [e3] at h7
    refine ⟨v, h7, fun m t hmt => ?_⟩
    obtain ⟨x, a, i1, i2, i3, i4⟩ := e4 m t hmt
    obtain ⟨a1, a2, -⟩ := row_spec i4
    have hs : a.shape = shape m t := by
      rw [a2]
      show x.shape.tail = _
      rw [i2]; rfl
    refine ⟨x, a, i1, ?_, a1, hs, fun idx hidx => ?_⟩
    · rw [h8, if_pos hmt, i3]
    · rw [← tensor_row ⟨E.encode, dec⟩ i4 (by rw [hs]; exact hidx)]
      refine tensor_arr _ d x (hpb.exact m t x hmt i1) ?_
      rw [i2]
      simp [inRange, hj, hidx]

end Logix
