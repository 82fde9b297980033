/-
C138: EKFAC from programs.
-/
import Verif.Props.SessionInfluence
import Verif.Props.SessionSaves
import Verif.Props.EkfacScores
import Verif.Spec.SessionEkfac

set_option linter.unusedSectionVars false

namespace Logix
open Spec Sess
variable {K : Type} [Field K] [LinearOrder K] [IsStrictOrderedRing K]

/-- The covariances of a module after the first program, as those of a history of updates. -/
theorem session_first (E : SEnv K) (ops : List (SOp K)) (hops : ∀ o ∈ ops, Configures o) (n : Nat) (th : Int) (fs : FS) (m : Nat) (nm : PyStr)
    (ctx : List (SOp K)) (ids : List PyStr) (hx : Context ctx ids none) (body : List (SOp K)) (hbody : ∀ o ∈ body, Logs nm o ∧ Unmasked o)
    (dir : StateDir K) (hessian : Hess) :
    let s := runHistory E ops (Sess.init n th fs)
    Watches s m nm → OnlyStatistics s.opt → PlainStats s.opt → s.opt.forward.count .covariance = 1 → s.opt.backward.count .covariance = 1 →
    (hessian = .kfac ∨ hessian = .auto ∧ .covariance ∉ s.opt.grad.tail) → inputs m body ≠ [] → notes outGrad m ⟨none, [], [], []⟩ body ≠ [] →
    ∀ t, SAct.each (SOp.run E) (ctx ++ body.map (shift s.user.length) ++ [.finalize dir]) s = (t, none) →
    ∃ calls A B, Finalized E.lib calls t.st ∧ Logged calls nm .forward ∧ Logged calls nm .backward ∧
      (hessian = .kfac ∨ hessian = .auto ∧ callsOf .covariance nm .grad calls = []) ∧
      InputMoment E body m A ∧ OutGradMoment E body m B ∧
      tensorAt t.st.attrs nCov [nm, LogType.name .forward] = some A ∧ tensorAt t.st.attrs nCov [nm, LogType.name .backward] = some B := by
  intro s hw ho hp hf hb hh hin hout t ht
  obtain ⟨xs, v1, -, c1⟩ := C105_forward E ops hops n th fs m nm ctx ids hx body hbody dir hw ho t ht hin
  obtain ⟨gs, v2, -, c2⟩ := C105_backward E ops hops n th fs m nm ctx ids hx body hbody dir hw ho (count_one_ne_nil hb) t ht
    (fun h => hout (List.map_eq_nil_iff.1 h))
  obtain ⟨A, a1, a2⟩ := c1 hf
  obtain ⟨B, b1, b2⟩ := c2 hb
  obtain ⟨u, dir', h1, h2⟩ := each_finalize ht
  obtain ⟨calls, f, b, g, hup, e1, e2, -, r1, r2, -, hq⟩ := session_updates E ops n th fs m nm ctx ids none hx body (fun o h => (hbody o h).1)
    (fun mask => mask = none) (fun o h => (hbody o h).2) rfl hw ho u h1
  rw [show (runHistory E ops (Sess.init n th fs)).st = LState.init from configured_st E ops _ hops] at hup
  refine ⟨calls, A, B, ⟨fun pc hpc => hp _ (plugs_mem (hq pc hpc).1), fun pc hpc mk hmk => ?_, u.st, dir, dir', hup, h2⟩, ⟨?_, fun c hc => ?_⟩,
    ⟨?_, fun c hc => ?_⟩, hh.imp id fun h => ⟨h.1, ?_⟩, ⟨xs, v1, a2⟩, ⟨gs, v2, b2⟩, a1, b1⟩
  · rw [(hq pc hpc).2] at hmk; cases hmk
  · rw [e1, hf, flatMap_once]
    rintro rfl
    rw [List.forall₂_nil_right_iff] at r1
    exact hin (by rw [← notes_inputs, r1]; rfl)
  · exact .inl (hq _ (callsOf_mem hc).1).2
  · rw [e2, hb, flatMap_once]
    rintro rfl
    exact hout (List.forall₂_nil_right_iff.1 (r2 (count_one_ne_nil hb)))
  · exact .inl (hq _ (callsOf_mem hc).1).2
  · rw [List.eq_nil_iff_forall_not_mem]
    intro c hc
    obtain ⟨x1, x2⟩ := callsOf_mem hc
    have := (hq _ x1).1
    simp only [x2] at this
    exact h.2 this

/-- The gradients of a module in the second program, as calls of the plugin. -/
theorem session_second (E : SEnv K) (ops : List (SOp K)) (n : Nat) (th : Int) (fs : FS) (m : Nat) (nm : PyStr)
    (ctx : List (SOp K)) (ids : List PyStr) (mask : Option (Tensor K)) (hx : Context ctx ids mask) (body : List (SOp K)) (hbody : ∀ o ∈ body, Logs nm o)
    (dir : StateDir K) :
    let s := runHistory E ops (Sess.init n th fs)
    Watches s m nm → OnlyEigenvalues s.opt → notes batchGrads m ⟨mask, [], [], []⟩ body ≠ [] →
    ∀ t, SAct.each (SOp.run E) (ctx ++ body.map (shift s.user.length) ++ [.finalize dir]) s = (t, none) →
    ∃ ekcalls u dir', (∀ pc ∈ ekcalls, pc.1 = .log ∨ pc.1 = .correctedEigval) ∧ updates E.lib s.st ekcalls = .ok u ∧ u.finalize dir = .ok (t.st, dir') ∧
      ekfacCalls nm ekcalls ≠ [] ∧ GradsOf E body mask m ((ekfacCalls nm ekcalls).map fun c => c.data) := by
  intro s hw ho hne t ht
  obtain ⟨o1, o2, o3⟩ := ho
  have ho' : OnlyStatistics s.opt := by
    refine ⟨?_, ?_, ?_⟩
    · rw [o1]; exact List.not_mem_nil
    · rw [o2]; exact List.not_mem_nil
    · rw [o3]; decide
  obtain ⟨u, dir', h1, h2⟩ := each_finalize ht
  obtain ⟨calls, f, b, g, hup, -, -, e3, -, -, r3, hq⟩ := session_updates E ops n th fs m nm ctx ids mask hx body hbody
    (fun _ => True) (fun o _ => by cases o <;> trivial) trivial hw ho' u h1
  replace r3 := r3 (show s.opt.grad.head? = _ by rw [o3]; rfl)
  have hgrad : ∀ pc ∈ calls, pc.1 = .correctedEigval ∧ pc.2.logType = .grad := by
    intro pc hpc
    have := (hq pc hpc).1
    cases hlt : pc.2.logType <;> rw [hlt] at this
    · rw [show plugs (runHistory E ops (Sess.init n th fs)).opt .forward = [] from o1] at this; cases this
    · rw [show plugs (runHistory E ops (Sess.init n th fs)).opt .backward = [] from o2] at this; cases this
    · rw [show plugs (runHistory E ops (Sess.init n th fs)).opt .grad = [.correctedEigval] from congrArg List.tail o3] at this
      exact ⟨List.mem_singleton.1 this, rfl⟩
  have hek : ekfacCalls nm calls = g := by
    have e4 := e3 .correctedEigval
    rw [show (runHistory E ops (Sess.init n th fs)).opt.grad = _ from o3] at e4
    rw [show (List.tail [Plugin.log, .correctedEigval]).count .correctedEigval = 1 by decide, flatMap_once] at e4
    rw [← e4]
    unfold ekfacCalls callsOf
    congr 1
    refine List.filter_congr fun pc hpc => ?_
    simp [(hgrad pc hpc).2]
  refine ⟨calls, u.st, dir', fun pc hpc => .inr (hgrad pc hpc).1, hup, h2, ?_, ?_⟩
  · rw [hek]
    rintro rfl
    exact hne (List.forall₂_nil_right_iff.1 r3)
  · rw [hek]
    unfold GradsOf
    clear e3 hek
    generalize notes batchGrads m ⟨mask, [], [], []⟩ body = l at r3
    induction r3 with
    | nil => exact .nil
    | cons hr _ ih =>
      obtain ⟨T, y1, rfl⟩ := hr
      exact .cons y1 ih

theorem fitted_data {h w : Nat} {vb vf : Nat → Nat → K} (cs : List (StatCall K)) (a b : Nat) :
    fitted h w vb vf cs a b = fittedTo (cs.map fun c => c.data) h w vb vf a b := by
  unfold fitted fittedTo samples
  rw [List.flatMap_map, List.map_map]
  rfl

theorem eigenbasis_of {calls : List (Plugin × StatCall K)} {m : PyStr} {lt : LogType} {n : Nat} {S v : Nat → Nat → K}
    (h : ∀ i j, i < n → j < n → S i j = secondMoment calls m lt i j) (hb : Eigenbasis calls m lt n v) : EigenbasisOf S n v := by
  refine ⟨fun a ha => ?_, hb.orthonormal⟩
  obtain ⟨c, hc⟩ := hb.eig a ha
  refine ⟨c, fun i hi => ?_⟩
  rw [← hc i hi]
  exact Finset.sum_congr rfl fun j hj => by rw [← h i j hi (Finset.mem_range.1 hj)]

theorem moment_symm {xs : List (Tensor K)} {kind : Option ModKind} {lt : LogType} {A : Tensor K} (h : IsSecondMoment xs kind lt A) (i j : Nat) :
    entries A i j = entries A j i := by
  obtain ⟨W, h1, -, h2⟩ := h
  unfold entries
  by_cases hij : i < W ∧ j < W
  · rw [h2 i j hij.1 hij.2, h2 j i hij.2 hij.1]
    congr 2
    exact List.map_congr_left fun r _ => mul_comm _ _
  · have z : ∀ i j, ¬ (i < W ∧ j < W) → A.el [i, j] = 0 := fun i j hn => by
      unfold Tensor.el
      rw [h1, if_neg]
      simpa [inRange] using hn
    rw [z i j hij, z j i fun h => hij h.symm]

theorem ekFormTo_eq (cs : List (StatCall K)) {h w : Nat} {vb vf : Nat → Nat → K} (c : K) (g f : List Nat → K) :
    ekForm h w vb vf cs c g f = ekFormTo (cs.map fun c => c.data) h w vb vf c g f := by
  unfold ekForm ekFormTo
  exact Finset.sum_congr rfl fun a _ => Finset.sum_congr rfl fun b _ => by rw [fitted_data]

/-- If no eigenvalue occurs twice, all choices of the bases give the same scores. -/
theorem ekScore_bases {A B : PyStr → Tensor K} {G : PyStr → List (Tensor K)} {d e : GLog K} {hs ws hs' ws' : PyStr → Nat} {vb vf vb' vf' : PyStr → Nat → Nat → K}
    (hA : ∀ m ∈ Dict.keys d, ∀ i j, entries (A m) i j = entries (A m) j i) (hB : ∀ m ∈ Dict.keys d, ∀ i j, entries (B m) i j = entries (B m) j i)
    (h : BasesOf A B d hs ws vb vf) (h' : BasesOf A B d hs' ws' vb' vf')
    (hS : ∀ m ∈ Dict.keys d, SimpleOf (entries (B m)) (hs m) (vb m) ∧ SimpleOf (entries (A m)) (ws m) (vf m)) (c : K) (i j : Nat) :
    ekScore G hs' ws' vb' vf' c d e i j = ekScore G hs ws vb vf c d e i j := by
  have perm : ∀ {S : Nat → Nat → K} {n : Nat} {v v' : Nat → Nat → K}, (∀ i j, S i j = S j i) → EigenbasisOf S n v → EigenbasisOf S n v' → SimpleOf S n v →
      ∃ (σ : Nat → Nat) (ε : Nat → K), (∀ b, b < n → σ b < n) ∧ (∀ b b', b < n → b' < n → σ b = σ b' → b = b') ∧ (∀ b, b < n → ε b * ε b = 1) ∧
        ∀ i b, i < n → b < n → v' i b = ε b * v i (σ b) := by
    intro S n v v' hsym h1 h2 hs
    have c1 : ∀ {v : Nat → Nat → K}, EigenbasisOf S n v → ∀ a, ∃ c, a < n → ∀ i, i < n → ∑ j ∈ Finset.range n, S i j * v j a = c * v i a := by
      intro v h a
      by_cases ha : a < n
      · obtain ⟨c, hc⟩ := h.eig a ha; exact ⟨c, fun _ => hc⟩
      · exact ⟨0, fun h => absurd h ha⟩
    choose l hl using c1 h1
    choose l' hl' using c1 h2
    exact eigenbasis_perm hsym h1.orthonormal h2.orthonormal hl hl' fun a b ha hb e => hs a b (l a) ha hb (hl a ha) (by rw [e]; exact hl b hb)
  unfold ekScore
  congr 1
  refine List.map_congr_left fun m hm => ?_
  obtain ⟨a1, a2⟩ := h.shapes m hm
  obtain ⟨b1, b2⟩ := h'.shapes m hm
  rw [a1] at b1
  rw [a2] at b2
  have ew := (List.cons.inj b1).1
  have eh := (List.cons.inj b2).1
  have hb' := h'.backward m hm
  have hf' := h'.forward m hm
  rw [← eh] at hb'
  rw [← ew] at hf'
  obtain ⟨σ, ε, s1, s2, s3, s4⟩ := perm (hB m hm) (h.backward m hm) hb' (hS m hm).1
  obtain ⟨τ, δ, t1, t2, t3, t4⟩ := perm (hA m hm) (h.forward m hm) hf' (hS m hm).2
  rw [← eh, ← ew]
  split
  · have hG : G m = ((G m).map fun g => (⟨none, [], .grad, g, none, false⟩ : StatCall K)).map fun c => c.data := by
      rw [List.map_map]; exact (List.map_id _).symm
    rw [hG, ← ekFormTo_eq, ← ekFormTo_eq]
    exact ekForm_perm _ _ _ _ s1 s2 s3 s4 t1 t2 t3 t4
  · rfl

/-- What EKFAC needs of the session. -/
theorem session_ekfac (E : SEnv K) (hE : EighOk E.lib) (p : EkPrograms K) (keys : List PyStr) (mods : PyStr → Nat) (hessian : Hess) (t₁ t : Sess K)
    (h1 : p.First E t₁) (hp : p.Fits E keys mods hessian (runHistory E p.conf' t₁)) (h2 : p.Second E (runHistory E p.conf' t₁) t) :
    ∃ (A B : PyStr → Tensor K) (G : PyStr → List (Tensor K)),
      (∀ nm ∈ keys, InputMoment E p.body (mods nm) (A nm) ∧ OutGradMoment E p.body (mods nm) (B nm) ∧ GradsOf E p.body' p.mask' (mods nm) (G nm)) ∧
      ∀ d : GLog K, Dict.keys d = keys → keys.Nodup → ∀ c s₁ s₂ o H,
        precondition E.lib t.st (.dict d) hessian (some c) = .ok (s₂, o) → hessOf E.lib t.st (Dict.keys d) hessian (some c) = .ok (s₁, H) →
        ∃ h w vb vf, BasesOf A B d h w vb vf ∧ (∀ m ∈ keys, ∀ a b, 0 ≤ fittedTo (G m) (h m) (w m) (vb m) (vf m) a b) ∧
          ∀ m ∈ keys, ∀ g, Spec.grad d m = some g → ∀ x f, H.form m g.shape.tail x f = ekFormTo (G m) (h m) (w m) (vb m) (vf m) c x f := by
  have hist : runHistory E p.conf' t₁ = runHistory E (p.conf ++ ((p.ctx ++ p.body.map (shift (p.start E).user.length) ++ [.finalize p.dir]) ++ p.conf'))
      (Sess.init p.workers p.threshold p.fs) := by
    rw [runHistory_append, runHistory_append, show runHistory E p.conf (Sess.init p.workers p.threshold p.fs) = p.start E from rfl, history_each E _ _ _ h1]
  have hst : (runHistory E p.conf' t₁).st = t₁.st := configured_st E _ _ hp.conf'
  have key : ∀ nm, ∃ (A B : Tensor K) (G : List (Tensor K)) (h w : Nat) (eb ef : Tensor K), nm ∈ keys →
      (InputMoment E p.body (mods nm) A ∧ OutGradMoment E p.body (mods nm) B ∧ GradsOf E p.body' p.mask' (mods nm) G) ∧
      EigenbasisOf (entries B) h (fun p a => eb.el [p, a]) ∧ EigenbasisOf (entries A) w (fun q b => ef.el [q, b]) ∧ (A.shape = [w, w] ∧ B.shape = [h, h]) ∧
      ∃ calls ekcalls V, EkParts calls ekcalls t.st nm h w eb ef V ∧ G = (ekfacCalls nm ekcalls).map (fun c => c.data) ∧
        t.st.getCovarianceSvd E.lib = .ok (t.st, nEkfac) ∧ UsesKfac t.st [nm] hessian ∧
        (tensorAt t.st.attrs nCov [nm, LogType.name .forward]).isSome = true := by
    intro nm
    by_cases hm : nm ∈ keys
    · obtain ⟨calls, A, B, f1, f2, f3, f4, f5, f6, f7, f8⟩ := session_first E p.conf hp.conf p.workers p.threshold p.fs (mods nm) nm p.ctx p.ids hp.ctx p.body
        (fun o h => ⟨(hp.body o h).2 nm hm, (hp.body o h).1⟩) p.dir hessian (hp.watched nm hm) hp.only hp.plain hp.forward hp.backward hp.hess
        (hp.called nm hm).1 (hp.called nm hm).2 t₁ h1
      have hw' := hp.watched' nm hm
      have ho' := hp.only'
      have h2' := h2
      unfold EkPrograms.Second at h2'
      rw [hist] at hw' ho' h2'
      obtain ⟨ekcalls, u, dir', e1, e2, e3, e4, e5⟩ := session_second E _ p.workers p.threshold p.fs (mods nm) nm p.ctx' p.ids' p.mask' hp.ctx' p.body'
        (fun o h => hp.body' o h nm hm) p.dir' hw' ho' (hp.called' nm hm) t h2'
      rw [← hist, hst] at e2
      obtain ⟨h, w, eb, ef, V, A', B', k1, k2, k3, k4, k5, k6, k7, k8⟩ := ekfac_parts (hessian := hessian) hE e1 f1 e2 e3 (m := nm)
        ⟨f4.imp id fun h => ⟨h.1, fun m' hm' => by rw [List.mem_singleton.1 hm']; exact h.2⟩, fun m' hm' => by rw [List.mem_singleton.1 hm']; exact ⟨f2, f3, e4⟩⟩
      obtain rfl := Option.some.inj (f7.symm.trans k5)
      obtain rfl := Option.some.inj (f8.symm.trans k6)
      have ent : ∀ {lt : LogType} {X : Tensor K} {n : Nat}, Logged calls nm lt → tensorAt t₁.st.attrs nCov [nm, lt.name] = some X → X.shape = [n, n] →
          ∀ i j, i < n → j < n → entries X i j = secondMoment calls nm lt i j := by
        intro lt X n hl hX hs i j hi hj
        obtain ⟨X', W, y1, y2, y3⟩ := finalized_cov f1 hl
        obtain rfl := Option.some.inj (hX.symm.trans y1)
        rw [hs] at y2
        obtain rfl := (List.cons.inj y2).1
        exact y3 i j hi hj
      exact ⟨A, B, _, h, w, eb, ef, fun _ => ⟨⟨f5, f6, e5⟩, eigenbasis_of (ent f3 f8 k8) k1.bbasis, eigenbasis_of (ent f2 f7 k7) k1.fbasis, ⟨k7, k8⟩,
        calls, ekcalls, V, k1, rfl, k2, k3, k4⟩⟩
    · exact ⟨Tensor.ofFn2 .cpu 0 0 fun _ _ => 0, Tensor.ofFn2 .cpu 0 0 fun _ _ => 0, [], 0, 0, Tensor.ofFn2 .cpu 0 0 fun _ _ => 0, Tensor.ofFn2 .cpu 0 0 fun _ _ => 0,
        fun h => absurd h hm⟩
  choose A B G h w eb ef hk using key
  refine ⟨A, B, G, fun nm hm => (hk nm hm).1, ?_⟩
  rintro d rfl hn c s₁ s₂ o H hpre hH
  have core : ∀ m ∈ Dict.keys d, (∃ g n, Spec.grad d m = some g ∧ g.shape = [n, h m, w m]) ∧
      ∀ x f, H.form m [h m, w m] x f = ekFormTo (G m) (h m) (w m) (fun p a => (eb m).el [p, a]) (fun q b => (ef m).el [q, b]) c x f := by
    intro m hm
    obtain ⟨-, -, -, -, calls, ekcalls, V, P, hG, hsvd, -⟩ := hk m hm
    obtain ⟨k1, k2⟩ := ekfac_core P hsvd
      (usesKfac_each (fun m hm => by obtain ⟨-, -, -, -, _, _, _, -, -, -, hu, -⟩ := hk m hm; exact hu) (List.ne_nil_of_mem hm))
      (fun m hm => by obtain ⟨-, -, -, -, _, _, _, -, -, -, -, hs⟩ := hk m hm; exact hs) hn hpre hH hm
    refine ⟨k1, fun x f => ?_⟩
    rw [k2, hG, ekFormTo_eq]
  refine ⟨h, w, fun m p a => (eb m).el [p, a], fun m q b => (ef m).el [q, b], ⟨fun m hm => (hk m hm).2.1, fun m hm => (hk m hm).2.2.1,
    fun m hm => (hk m hm).2.2.2.1, fun m hm => (core m hm).1⟩, fun m hm a b => ?_, fun m hm g hg x f => ?_⟩
  · obtain ⟨-, -, -, -, calls, ekcalls, V, P, hG, -⟩ := hk m hm
    rw [hG, ← fitted_data]
    exact fitted_nonneg _ a b
  · obtain ⟨⟨g', n, g1, g2⟩, k⟩ := core m hm
    obtain rfl := Option.some.inj (hg.symm.trans g1)
    rw [g2]
    exact k x f

/-- **C138.** A new run is configured with covariances of `forward` and `backward`, batches are logged by any program, without masks and without exception,
and `finalize` is called. The run is configured to fit the eigenvalues, a second program logs batches, and `finalize` is called again. For every log `d` with
the names of the modules, every log `e` and positive damping `c`: there are orthonormal eigenvectors of `A`, the second moment of all inputs of the module in
the first program, and of `B`, that of the gradients of its outputs, such that the score of the first `compute_influence` for source `i` and target `j` is
given by the Hessian that is diagonal in these bases and whose eigenvalues are the averages of the squares of the entries of the gradients of the second
program, plus the damping. If no eigenvalue of `A` and `B` occurs twice, it is the same for all choices of the eigenvectors. -/
theorem C138_ekfac (E : SEnv K) (hE : EighOk E.lib) (p : EkPrograms K) (keys : List PyStr) (mods : PyStr → Nat) (hessian : Hess) (t₁ t : Sess K)
    (h1 : p.First E t₁) (hp : p.Fits E keys mods hessian (runHistory E p.conf' t₁)) (h2 : p.Second E (runHistory E p.conf' t₁) t) :
    ∃ (A B : PyStr → Tensor K) (G : PyStr → List (Tensor K)),
      (∀ nm ∈ keys, InputMoment E p.body (mods nm) (A nm) ∧ OutGradMoment E p.body (mods nm) (B nm) ∧ GradsOf E p.body' p.mask' (mods nm) (G nm)) ∧
      ∀ d e : GLog K, Dict.keys d = keys → ∀ srcIds tgtIds, Labelled srcIds d → Labelled tgtIds e → ∀ c, 0 < c → ∀ sqrt u r,
        computeInfluence E.lib sqrt t.st srcIds (.dict d) tgtIds (.dict e) .dot true hessian none (some c) = .ok (u, r) →
        ∃ T, r.influence = .one T ∧ r.srcIds = srcIds ∧ r.tgtIds = tgtIds ∧ T.shape = [srcIds.length, tgtIds.length] ∧
          (∃ hs ws vb vf, BasesOf A B d hs ws vb vf ∧ (∀ m ∈ keys, ∀ a b, 0 < fittedTo (G m) (hs m) (ws m) (vb m) (vf m) a b + c) ∧
            ∀ i j, i < srcIds.length → j < tgtIds.length → T.el [i, j] = ekScore G hs ws vb vf c d e i j) ∧
          ∀ hs ws vb vf, BasesOf A B d hs ws vb vf → (∀ m ∈ keys, SimpleOf (entries (B m)) (hs m) (vb m) ∧ SimpleOf (entries (A m)) (ws m) (vf m)) →
            ∀ i j, i < srcIds.length → j < tgtIds.length → T.el [i, j] = ekScore G hs ws vb vf c d e i j := by
  obtain ⟨A, B, G, hABG, hmain⟩ := session_ekfac E hE p keys mods hessian t₁ t h1 hp h2
  refine ⟨A, B, G, hABG, ?_⟩
  rintro d e rfl srcIds tgtIds hd he c hc sqrt u r h
  obtain ⟨H', -, s₂, ⟨o, g0⟩, -⟩ := computeInfluence_ok' h hd he
  obtain ⟨H, T, g1, g2, g3, g4, g5, g6, g7⟩ := dot_scores h hd he
  simp only [if_true] at g0
  simp only [PreOf, if_true] at g1
  obtain ⟨v, hv, -⟩ := g1
  obtain ⟨hs, ws, vb, vf, k1, k2, k3⟩ := hmain d rfl hd.nodup c _ _ _ _ g0 hv
  have score : ∀ i j, i < srcIds.length → j < tgtIds.length → T.el [i, j] = ekScore G hs ws vb vf c d e i j := by
    intro i j hi hj
    rw [g7 i j hi hj]
    unfold ekScore
    congr 1
    refine List.map_congr_left fun m hm => ?_
    obtain ⟨g, f, a1, a2, a3⟩ := g6 m hm
    unfold formAt
    simp only [a1, a2]
    exact k3 m hm g a1 _ _
  refine ⟨T, g2, g3, g4, g5, ⟨hs, ws, vb, vf, k1, fun m hm a b => add_pos_of_nonneg_of_pos (k2 m hm a b) hc, score⟩, fun hs' ws' vb' vf' hb hsim i j hi hj => ?_⟩
  rw [score i j hi hj]
  exact ekScore_bases (fun m hm => by obtain ⟨xs, -, hx⟩ := (hABG m hm).1; exact moment_symm hx)
    (fun m hm => by obtain ⟨xs, -, hx⟩ := (hABG m hm).2.1; exact moment_symm hx) hb k1 hsim c i j

/-- **C138**, self-influence: the score of sample `i` is its influence on itself. -/
theorem C138_self (E : SEnv K) (hE : EighOk E.lib) (p : EkPrograms K) (keys : List PyStr) (mods : PyStr → Nat) (hessian : Hess) (t₁ t : Sess K)
    (h1 : p.First E t₁) (hp : p.Fits E keys mods hessian (runHistory E p.conf' t₁)) (h2 : p.Second E (runHistory E p.conf' t₁) t) :
    ∃ (A B : PyStr → Tensor K) (G : PyStr → List (Tensor K)),
      (∀ nm ∈ keys, InputMoment E p.body (mods nm) (A nm) ∧ OutGradMoment E p.body (mods nm) (B nm) ∧ GradsOf E p.body' p.mask' (mods nm) (G nm)) ∧
      ∀ d : GLog K, Dict.keys d = keys → ∀ ids, Labelled ids d → ∀ c, 0 < c → ∀ u r,
        computeSelf E.lib t.st ids (.dict d) true hessian none (some c) = .ok (u, r) →
        ∃ T, r.influence.get? ['t', 'o', 't', 'a', 'l'] = some T ∧ r.srcIds = ids ∧ T.shape = [ids.length] ∧
          (∃ hs ws vb vf, BasesOf A B d hs ws vb vf ∧ (∀ m ∈ keys, ∀ a b, 0 < fittedTo (G m) (hs m) (ws m) (vb m) (vf m) a b + c) ∧
            ∀ i, i < ids.length → T.el [i] = ekScore G hs ws vb vf c d d i i) ∧
          ∀ hs ws vb vf, BasesOf A B d hs ws vb vf → (∀ m ∈ keys, SimpleOf (entries (B m)) (hs m) (vb m) ∧ SimpleOf (entries (A m)) (ws m) (vf m)) →
            ∀ i, i < ids.length → T.el [i] = ekScore G hs ws vb vf c d d i i := by
  obtain ⟨A, B, G, hABG, hmain⟩ := session_ekfac E hE p keys mods hessian t₁ t h1 hp h2
  refine ⟨A, B, G, hABG, ?_⟩
  rintro d rfl ids hd c hc u r h
  obtain ⟨s₂, o, g0⟩ := computeSelf_pre h
  obtain ⟨H, g1, g3, -, g5⟩ := computeSelf_ok h hd
  obtain ⟨T, t1, -, t2, t3, -, t4⟩ := g5 nTotal (.inl rfl)
  simp only [PreOf, if_true] at g1
  obtain ⟨v, hv, -⟩ := g1
  obtain ⟨hs, ws, vb, vf, k1, k2, k3⟩ := hmain d rfl hd.nodup c _ _ _ _ g0 hv
  have score : ∀ i, i < ids.length → T.el [i] = ekScore G hs ws vb vf c d d i i := by
    intro i hi
    rw [t4 i hi]
    unfold ekScore
    congr 1
    refine List.map_congr_left fun m hm => ?_
    obtain ⟨g, a1, -⟩ := hd.rows m hm
    rw [count_none, Nat.cast_one, one_mul]
    unfold formAt
    simp only [a1]
    exact k3 m hm g a1 _ _
  refine ⟨T, t1, g3, t3, ⟨hs, ws, vb, vf, k1, fun m hm a b => add_pos_of_nonneg_of_pos (k2 m hm a b) hc, score⟩, fun hs' ws' vb' vf' hb hsim i hi => ?_⟩
  rw [score i hi]
  exact ekScore_bases (fun m hm => by obtain ⟨xs, -, hx⟩ := (hABG m hm).1; exact moment_symm hx)
    (fun m hm => by obtain ⟨xs, -, hx⟩ := (hABG m hm).2.1; exact moment_symm hx) hb k1 hsim c i i

end Logix
