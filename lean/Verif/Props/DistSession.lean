/-
C128: logging programs in several processes.
-/
import Verif.Lemmas.DistSession
import Verif.Props.SessionReturns

set_option linter.unusedSectionVars false

namespace Logix
open Spec Sess
variable {K : Type}

section
variable [Field K]

/-- The program of one process returns. -/
theorem process_returns (E : SEnv K) {keys : List PyStr} {mods rows cols : PyStr → Nat} {p : Process K} (h : p.Fits E keys mods rows cols) :
    ∃ u, p.Runs E u ∧ Stat E p.lay (p.before E).opt (fun mask => mask = none) u ∧ BufOk p.lay keys u ∧ u.paths = gradOrder keys := by
  obtain ⟨hpre, hx, hun, -, -, hc, hp⟩ := h
  unfold Process.Runs
  unfold Process.before at hc hp ⊢
  obtain ⟨v, h1, h2⟩ := context_returns E hpre p.workers p.threshold p.files hx hc (Q := fun mask => mask = none) rfl
  have hF : FixedConf (runHistory E p.setup (Sess.init p.workers p.threshold p.files)).opt keys p.lay := ⟨hc.stats, hc.plain, hc.grad, hc.nonempty, hc.nodup, hc.pos⟩
  have hins : ∀ nm ∈ keys, _ := fun nm hm =>
    context_opens (U := (runHistory E p.setup (Sess.init p.workers p.threshold p.files)).user ++ allocs p.body) (history_handles E p.setup p.workers p.threshold p.files)
      (history_calls E p.setup p.workers p.threshold p.files) (hc.watches nm hm) (List.prefix_append ..) hx h1
  obtain ⟨nm0, hnm0⟩ := List.exists_mem_of_ne_nil keys hc.nonempty
  obtain ⟨u, h3, h4⟩ := program_returns hF p.body [] _ _ v h2 (fun nm hm => (hins nm hm).1) hp hun (by rw [(hins nm0 hnm0).2.1])
  refine ⟨u, ?_, h4⟩
  rw [SAct.each_append, SAct.seq_eq h1]
  exact h3

/-- The devices of the processes. -/
def procDev (ps : List (Process K)) (i : Nat) (nm : PyStr) (_ : LogType) : Dev := match ps[i]? with
  | some p => p.lay.dev nm
  | none => .cpu

/-- A finished distributed run. -/
structure Ran (E : SEnv K) (rows cols : PyStr → Nat) (dir : StateDir K) (ps : List (Process K)) (us : List (Sess K)) (css : List (List (Plugin × StatCall K)))
    (ts : List (Sess K)) : Prop where
  runs : List.Forall₂ (Process.Runs E) ps us
  hist : List.Forall₂ (fun cs s => updates E.lib .init cs = .ok s) css (us.map Sess.st)
  cluster : Cluster (layWidth ⟨fun _ => .cpu, rows, cols⟩) (procDev ps) E.cpuOffload css
  calls : List.Forall₂ (fun p cs => ∀ pc ∈ cs, pc.1 ∈ plugs (p.before E).opt pc.2.logType ∧ pc.2.mask = none) ps css
  length : ts.length = ps.length
  done : ∀ (i : Nat) (t : Sess K), ts[i]? = some t → ∃ v dir', updates E.lib .init (css.flatten.map (movedTo (procDev ps i))) = .ok v ∧
    v.finalize dir = .ok (t.st, dir')

theorem processes_return (E : SEnv K) {keys : List PyStr} {mods rows cols : PyStr → Nat} : ∀ {ps : List (Process K)}, (∀ p ∈ ps, p.Fits E keys mods rows cols) →
    ∃ us css, List.Forall₂ (Process.Runs E) ps us ∧ List.Forall₂ (fun p u => BufOk p.lay keys u ∧ u.paths = gradOrder keys) ps us ∧
      List.Forall₂ (fun cs s => updates E.lib .init cs = .ok s) css (us.map Sess.st) ∧
      List.Forall₂ (fun p cs => Regular (layWidth ⟨fun _ => .cpu, rows, cols⟩) (fun nm _ => p.lay.dev nm) E.cpuOffload cs ∧
        ∀ pc ∈ cs, pc.1 ∈ plugs (p.before E).opt pc.2.logType ∧ pc.2.mask = none) ps css
  | [], _ => ⟨[], [], .nil, .nil, .nil, .nil⟩
  | p :: ps, h => by
    have hp := h p List.mem_cons_self
    obtain ⟨u, h1, ⟨cs, h2, h3, h4⟩, h5, h6⟩ := process_returns E hp
    obtain ⟨us, css, g1, g2, g3, g4⟩ := processes_return E fun q hq => h q (List.mem_cons_of_mem _ hq)
    refine ⟨u :: us, cs :: css, .cons h1 g1, .cons ⟨h5, h6⟩ g2, .cons h2 g3, .cons ⟨?_, h4⟩ g4⟩
    rw [show layWidth ⟨fun _ => .cpu, rows, cols⟩ = layWidth p.lay by
      funext nm lt
      rw [← hp.rows, ← hp.cols]
      cases lt <;> rfl]
    exact h3

theorem flushes {E : SEnv K} {keys : List PyStr} (hne : keys ≠ []) (hnd : keys.Nodup) : ∀ {ps : List (Process K)} {us : List (Sess K)} {ss : List (LState K)},
    (∀ p ∈ ps, ∀ nm ∈ keys, 0 < p.lay.rows nm ∧ 0 < p.lay.cols nm) →
    List.Forall₂ (fun p u => BufOk p.lay keys u ∧ u.paths = gradOrder keys) ps us → ss.length = us.length →
    ∃ ts : List (Sess K), List.zipWith (fun u s => Sess.flushAll E { u with st := s }) us ss = ts.map (fun t => (t, none)) ∧ ts.map Sess.st = ss
  | [], _, ss, _, .nil, hl => ⟨[], by simp, by simpa using (List.eq_nil_of_length_eq_zero hl).symm⟩
  | p :: ps, _, [], _, .cons _ _, hl => by simp at hl
  | p :: ps, u :: us, s :: ss, hpos, .cons ⟨hb, hp⟩ hr, hl => by
    obtain ⟨ts, h1, h2⟩ := flushes (E := E) hne hnd (fun q hq => hpos q (List.mem_cons_of_mem _ hq)) hr (ss := ss) (by simpa using hl)
    obtain ⟨t, h5, -⟩ := withSaver_returns (E := E) (lay := p.lay) (keys := keys) (s := { u with st := s }) (f := fun order fs sv => sv.finalize order fs)
      (hb.mono (Shapes.refl u) rfl) (by
        rw [show ({ u with st := s } : Sess K).paths = gradOrder keys from hp]
        exact flushSerialized_returns (E := E) (s := { u with st := s }) (hb.mono (Shapes.refl u) rfl) hne hnd (hpos p List.mem_cons_self) u.fs)
    refine ⟨t :: ts, ?_, ?_⟩
    · rw [List.zipWith_cons_cons, h1, List.map_cons]
      congr 1
    · rw [List.map_cons, h2]
      congr 1
      exact (congrArg (fun x : Sess K × Option PyErr => x.1.st) h5).symm

/-- The programs and `finalize` return. -/
theorem dist_returns (E : SEnv K) {keys : List PyStr} {mods rows cols : PyStr → Nat} {ps : List (Process K)} (hps : ∀ p ∈ ps, p.Fits E keys mods rows cols)
    (hstep : InStep E ps) (dir : StateDir K) : ∃ us css ts dir', finalizeSessions E us dir = .ok (ts.map (fun t => (t, none)), dir') ∧ Ran E rows cols dir ps us css ts := by
  obtain ⟨us, css, h1, h2, h3, h4⟩ := processes_return E hps
  have hC : Cluster (layWidth ⟨fun _ => .cpu, rows, cols⟩) (procDev ps) E.cpuOffload css := by
    constructor
    · intro i cs hi
      obtain ⟨p, hp, hr, -⟩ := cluster_pair h4 hi
      have : procDev ps i = fun nm _ => p.lay.dev nm := by
        funext nm lt
        unfold procDev
        rw [hp]
      rw [this]
      exact hr
    · have pair : ∀ cs ∈ css, ∃ p ∈ ps, ∃ u, p.Runs E u ∧ updates E.lib .init cs = .ok u.st := by
        intro cs hcs
        obtain ⟨i, hi⟩ := List.getElem?_of_mem hcs
        have hi' := (List.getElem?_eq_some_iff.1 hi).1
        have l1 := h1.length_eq
        have l3 := h3.length_eq
        have l4 := h4.length_eq
        rw [List.length_map] at l3
        obtain ⟨p, hp, hr⟩ := cluster_pair h1 (List.getElem?_eq_getElem (show i < us.length by omega))
        obtain ⟨cs', hcs', hr'⟩ := cluster_pair h3 (i := i) (b := (us[i]'(by omega)).st) (by rw [List.getElem?_map, List.getElem?_eq_getElem (show i < us.length by omega)]; rfl)
        obtain rfl := Option.some.inj (hi.symm.trans hcs')
        exact ⟨p, List.mem_of_getElem? hp, _, hr, hr'⟩
      intro cs hcs cs' hcs' q hq
      obtain ⟨p, hp, u, r1, r2⟩ := pair cs hcs
      obtain ⟨p', hp', u', r1', r2'⟩ := pair cs' hcs'
      have hs := hstep p hp p' hp' u u' r1 r1'
      simp only [List.mem_cons, List.not_mem_nil, or_false] at hq
      rcases hq with rfl | rfl
      · exact order_of_outline statOf_mean (by decide) r2 r2' (hs nMean (by decide))
      · exact order_of_outline statOf_cov (by decide) r2 r2' (hs nCov (by decide))
  obtain ⟨ss, ss', dir', g1, g2, g3, g4⟩ := C98_same_state E.lib hC dir
  obtain rfl := forall₂_updates_unique h3 g1
  have hl : ss'.length = us.length := by
    have := h3.length_eq
    rw [List.length_map] at this
    omega
  have hflush : ∃ ts : List (Sess K), List.zipWith (fun u s => Sess.flushAll E { u with st := s }) us ss' = ts.map (fun t => (t, none)) ∧ ts.map Sess.st = ss' := by
    cases ps with
    | nil =>
      cases h1
      obtain rfl := List.eq_nil_of_length_eq_zero hl
      exact ⟨[], rfl, rfl⟩
    | cons p ps =>
      have hc := (hps p List.mem_cons_self).configured
      exact flushes hc.nonempty hc.nodup (fun q hq => (hps q hq).configured.pos) h2 hl
  obtain ⟨ts, k1, k2⟩ := hflush
  have hlt : ts.length = ss'.length := by rw [← k2, List.length_map]
  refine ⟨us, css, ts, dir', ?_, h1, h3, hC, h4.imp fun _ _ h => h.2, ?_, fun i t hi => ?_⟩
  · unfold finalizeSessions
    rw [g2]
    dsimp only
    rw [k1]
  · rw [hlt, hl, h1.length_eq]
  · obtain ⟨v, dir₁, a1, a2, -⟩ := g4 i t.st (by rw [← k2, List.getElem?_map, hi]; rfl)
    exact ⟨v, dir₁, a1, a2⟩

/-- Data of all processes, as calls of the plugins. -/
theorem collect {E : SEnv K} {V : Process K → List (Tensor K) → Prop} {P : StatCall K → Prop} {cnt : Process K → Plugin → Nat} {nm : PyStr} {lt : LogType} :
    ∀ {ps : List (Process K)} {us : List (Sess K)}, List.Forall₂ (Process.Runs E) ps us →
    (∀ p ∈ ps, ∀ u, p.Runs E u → ∃ cs, ∃ f : List (StatCall K), updates E.lib .init cs = .ok u.st ∧ V p (f.map fun c => c.data) ∧ (∀ c ∈ f, P c) ∧
      ∀ q, callsOf q nm lt cs = f.flatMap (List.replicate (cnt p q))) →
    ∃ css, ∃ fs : List (List (StatCall K)), List.Forall₂ (fun cs s => updates E.lib .init cs = .ok s) css (us.map Sess.st) ∧
      List.Forall₂ V ps (fs.map fun f => f.map fun c => c.data) ∧ (∀ c ∈ fs.flatten, P c) ∧
      ∀ q, (∀ p ∈ ps, cnt p q = 1) → callsOf q nm lt css.flatten = fs.flatten
  | [], _, .nil, _ => ⟨[], [], .nil, .nil, nofun, fun _ _ => rfl⟩
  | p :: ps, u :: us, .cons h hr, hd => by
    obtain ⟨cs, f, a1, a2, a3, a4⟩ := hd p List.mem_cons_self u h
    obtain ⟨css, fs, b1, b2, b3, b4⟩ := collect hr fun q hq => hd q (List.mem_cons_of_mem _ hq)
    refine ⟨cs :: css, f :: fs, .cons a1 b1, .cons a2 b2, fun c hc => ?_, fun q hq => ?_⟩
    · rw [List.flatten_cons] at hc
      exact (List.mem_append.1 hc).elim (a3 c) (b3 c)
    · rw [List.flatten_cons, callsOf_append, a4, hq p List.mem_cons_self, flatMap_once, b4 q fun p' hp' => hq p' (List.mem_cons_of_mem _ hp'), List.flatten_cons]

/-- The statistics of a quantity in a distributed run. -/
theorem pooled_of {E : SEnv K} {rows cols : PyStr → Nat} {dir : StateDir K} {ps : List (Process K)} {us : List (Sess K)} {css : List (List (Plugin × StatCall K))}
    {ts : List (Sess K)} (h : Ran E rows cols dir ps us css ts) {V : Process K → List (Tensor K) → Prop} {cnt : Process K → Plugin → Nat} {nm : PyStr} {lt : LogType}
    {kind : Option ModKind}
    (hd : ∀ p ∈ ps, ∀ u, p.Runs E u → ∃ cs, ∃ f : List (StatCall K), updates E.lib .init cs = .ok u.st ∧ V p (f.map fun c => c.data) ∧
      (∀ c ∈ f, c.module = kind ∧ c.logType = lt ∧ (c.mask = none ∨ c.logType = .grad)) ∧ ∀ q, callsOf q nm lt cs = f.flatMap (List.replicate (cnt p q)))
    (hne : ∃ p ∈ ps, ¬ V p []) : ∃ xss, List.Forall₂ V ps xss ∧ ∀ t ∈ ts,
      ((∀ p ∈ ps, cnt p .mean = 1) → ∃ T, tensorAt t.st.attrs nMean [nm, lt.name] = some T ∧ IsMean xss.flatten kind lt T) ∧
      ((∀ p ∈ ps, cnt p .covariance = 1) → ∃ T, tensorAt t.st.attrs nCov [nm, lt.name] = some T ∧ IsSecondMoment xss.flatten kind lt T) := by
  obtain ⟨css', fs, a1, a2, a3, a4⟩ := collect h.runs hd
  refine ⟨_, a2, fun t ht => ?_⟩
  obtain ⟨i, hi⟩ := List.getElem?_of_mem ht
  obtain ⟨v, dir', hv, hfin⟩ := h.done i t hi
  have hf0 : fs.flatten ≠ [] := by
    intro h0
    obtain ⟨p, hp, hn⟩ := hne
    obtain ⟨j, hj⟩ := List.getElem?_of_mem hp
    obtain ⟨hj', hj⟩ := List.getElem?_eq_some_iff.1 hj
    have hl := a2.length_eq
    have := (List.forall₂_iff_get.1 a2).2 j hj' (by omega)
    simp only [List.get_eq_getElem, hj, List.getElem_map] at this
    rw [List.flatten_eq_nil_iff.1 h0 _ (List.getElem_mem _)] at this
    exact hn this
  have hflat : (fs.map fun f => f.map fun c : StatCall K => c.data).flatten = fs.flatten.map fun c => c.data := by rw [List.map_flatten]
  rw [hflat]
  generalize fs.flatten = f at a3 a4 hf0
  have hrows : allRows f = (f.map fun c => c.data).flatMap fun a => Spec.rows a kind lt := by
    rw [List.flatMap_map]
    unfold allRows
    apply List.flatMap_congr
    intro c hcm
    obtain ⟨h1, h2, -⟩ := a3 c hcm
    unfold callRows
    rw [h1, h2]
  have hsamples : samples f = ((f.map fun c => c.data).map fun a => a.size 0).sum := by
    rw [List.map_map]
    rfl
  have hwidth : ∀ W, (∀ c ∈ f, callWidth c = W) → ∀ a ∈ f.map (fun c => c.data), width a kind lt = W := by
    intro W h a ha
    obtain ⟨c, hcm, rfl⟩ := List.mem_map.1 ha
    obtain ⟨h1, h2, -⟩ := a3 c hcm
    rw [← h1, ← h2]
    exact h c hcm
  constructor
  · intro hq
    have e := a4 _ hq
    obtain ⟨T, W, b1, b2, b3, b4⟩ := pooled_stat statOf_mean (by decide) (fun v w h => by simpa using h) h.cluster h.hist a1 hv hfin nm lt (by rw [e]; exact hf0)
    rw [e] at b3 b4
    refine ⟨T, b1, W, b2, hwidth W b3, fun j hj => ?_⟩
    rw [b4 [j] (by simp [inRange, hj]), count_samples _ fun c hc => (a3 c hc).2.2, hsamples, hrows]
    rfl
  · intro hq
    have e := a4 _ hq
    obtain ⟨T, W, b1, b2, b3, b4⟩ := pooled_stat statOf_cov (by decide) (fun v w h => by simpa using h) h.cluster h.hist a1 hv hfin nm lt (by rw [e]; exact hf0)
    rw [e] at b3 b4
    refine ⟨T, b1, W, b2, hwidth W b3, fun i j hi hj => ?_⟩
    rw [b4 [i, j] (by simp [inRange, hi, hj]), count_samples _ fun c hc => (a3 c hc).2.2, hsamples, hrows]
    rfl

/-- **C128, nothing raises.** Any number of processes, each configured on its own and with its own devices, run logging programs that fit together, for the same
modules, without masks. If they meet the quantities in the same order, then no operation of any program raises, and `finalize`, run by all of them
together, returns on every process. -/
theorem C128_returns (E : SEnv K) (keys : List PyStr) (mods rows cols : PyStr → Nat) (ps : List (Process K)) (hps : ∀ p ∈ ps, p.Fits E keys mods rows cols)
    (hstep : InStep E ps) (dir : StateDir K) : ∃ (us ts : List (Sess K)) (dir' : StateDir K), List.Forall₂ (Process.Runs E) ps us ∧
      finalizeSessions E us dir = .ok (ts.map (fun t => (t, none)), dir') ∧ ts.length = ps.length := by
  obtain ⟨us, css, ts, dir', h1, h2⟩ := dist_returns E hps hstep dir
  exact ⟨us, ts, dir', h2.runs, h1, h2.length⟩

/-- Writing the buffer does not look at the statistics. -/
theorem flushAll_st (E : SEnv K) (u : Sess K) (st : LState K) : Sess.flushAll E { u with st := st } = ({ (Sess.flushAll E u).1 with st := st }, (Sess.flushAll E u).2) := rfl

theorem zip_flushes {E : SEnv K} {dir : StateDir K} : ∀ {us vs : List (Sess K)} {ss : List (LState K)} {ts : List (Sess K)},
    List.Forall₂ (fun u v => Sess.finalize E dir u = (v, none)) us vs → ts.length = us.length →
    List.zipWith (fun u s => Sess.flushAll E { u with st := s }) us ss = ts.map (fun t => (t, none)) →
    List.Forall₂ (fun v t => t = { v with st := t.st }) vs ts
  | [], _, _, ts, .nil, hl, _ => by obtain rfl := List.eq_nil_of_length_eq_zero hl; exact .nil
  | u :: us, v :: vs, [], t :: ts, _, _, h => nomatch h
  | u :: us, v :: vs, s :: ss, [], _, hl, _ => nomatch hl
  | u :: us, v :: vs, s :: ss, t :: ts, .cons h1 h2, hl, h => by
    rw [List.zipWith_cons_cons, List.map_cons, List.cons.injEq] at h
    refine .cons ?_ (zip_flushes h2 (by simpa using hl) h.2)
    obtain ⟨w, a1, a2⟩ := SAct.seq_none h1
    have hw : ∃ st, w = { u with st := st } := by
      unfold Sess.stateOp at a1
      split at a1
      · exact ⟨_, (congrArg Prod.fst a1).symm⟩
      · exact nomatch congrArg Prod.snd a1
    obtain ⟨st, rfl⟩ := hw
    have a3 : Sess.flushAll E { u with st := st } = (v, none) := a2
    have h0 := h.1
    rw [flushAll_st] at a3 h0
    obtain rfl := (congrArg Prod.fst a3).symm
    obtain rfl := (congrArg Prod.fst h0).symm
    rfl

/-- **C128, files.** Apart from the statistics every process ends as if it had called `finalize` alone: its buffer, its files and everything else are the same. (C111
and C124 say what the files are.) -/
theorem C128_files (E : SEnv K) (keys : List PyStr) (mods rows cols : PyStr → Nat) (ps : List (Process K)) (hps : ∀ p ∈ ps, p.Fits E keys mods rows cols)
    (hstep : InStep E ps) (dir : StateDir K) : ∃ (us ts vs : List (Sess K)) (dir' : StateDir K), List.Forall₂ (Process.Runs E) ps us ∧
      finalizeSessions E us dir = .ok (ts.map (fun t => (t, none)), dir') ∧ List.Forall₂ (fun u v => Sess.finalize E dir u = (v, none)) us vs ∧
      List.Forall₂ (fun v t => t = { v with st := t.st }) vs ts := by
  obtain ⟨us, css, ts, dir', h1, h2⟩ := dist_returns E hps hstep dir
  have hv : ∀ {ps : List (Process K)} {us : List (Sess K)}, (∀ p ∈ ps, p.Fits E keys mods rows cols) → List.Forall₂ (Process.Runs E) ps us →
      ∃ vs, List.Forall₂ (fun u v => Sess.finalize E dir u = (v, none)) us vs := by
    intro ps us hps hr
    induction hr with
    | nil => exact ⟨[], .nil⟩
    | @cons p u ps us h _ ih =>
      obtain ⟨vs, hvs⟩ := ih fun q hq => hps q (List.mem_cons_of_mem _ hq)
      have hp := hps p List.mem_cons_self
      obtain ⟨u', g1, g2, g3, g4⟩ := process_returns E hp
      obtain rfl : u = u' := congrArg Prod.fst (h.symm.trans g1)
      obtain ⟨v, hv⟩ := finalize_returns g2 g3 g4 hp.configured.nonempty hp.configured.nodup hp.configured.pos dir
      exact ⟨v :: vs, .cons hv hvs⟩
  obtain ⟨vs, hvs⟩ := hv hps h2.runs
  refine ⟨us, ts, vs, dir', h2.runs, h1, hvs, ?_⟩
  unfold finalizeSessions at h1
  split at h1
  · cases h1
  · next ss dir₁ hss =>
    exact zip_flushes hvs (h2.length.trans h2.runs.length_eq) (congrArg Prod.fst (Except.ok.inj h1))

theorem fits_logs {E : SEnv K} {keys : List PyStr} {mods rows cols : PyStr → Nat} {p : Process K} (h : p.Fits E keys mods rows cols) (nm : PyStr) :
    ∀ o ∈ p.body, Logs nm o ∧ Unmasked o := fun o ho => ⟨programFits_logs p.body _ _ _ h.fits o ho nm, h.unmasked o ho⟩

theorem ran_forward {E : SEnv K} {keys : List PyStr} {mods rows cols : PyStr → Nat} {dir : StateDir K} {ps : List (Process K)} {us : List (Sess K)}
    {css : List (List (Plugin × StatCall K))} {ts : List (Sess K)} (h : Ran E rows cols dir ps us css ts) (hps : ∀ p ∈ ps, p.Fits E keys mods rows cols)
    {nm : PyStr} (hm : nm ∈ keys) (hne : ∃ p ∈ ps, inputs (mods nm) p.body ≠ []) : ∃ xs, AllInputs (mods nm) ps xs ∧ ∀ t ∈ ts,
      ((∀ p ∈ ps, (p.before E).opt.forward.count .mean = 1) → ∃ T, tensorAt t.st.attrs nMean [nm, LogType.name .forward] = some T ∧
        IsMean xs (some (E.kind (mods nm))) .forward T) ∧
      ((∀ p ∈ ps, (p.before E).opt.forward.count .covariance = 1) → ∃ T, tensorAt t.st.attrs nCov [nm, LogType.name .forward] = some T ∧
        IsSecondMoment xs (some (E.kind (mods nm))) .forward T) := by
  obtain ⟨xss, h1, h2⟩ := pooled_of h (V := fun p xs => Values (allocs p.body) (inputs (mods nm) p.body) xs) (cnt := fun p q => (p.before E).opt.forward.count q)
    (nm := nm) (lt := .forward) (kind := some (E.kind (mods nm)))
    (fun p hp u hu => forward_data E p.setup (hps p hp).configures p.workers p.threshold p.files (mods nm) nm p.ctx p.ids (hps p hp).context p.body
      (fits_logs (hps p hp) nm) ((hps p hp).configured.watches nm hm) (hps p hp).configured.stats u hu)
    (hne.imp fun p hp => ⟨hp.1, fun hv => hp.2 (List.forall₂_nil_right_iff.1 hv)⟩)
  exact ⟨_, ⟨xss, h1, rfl⟩, h2⟩

theorem ran_backward {E : SEnv K} {keys : List PyStr} {mods rows cols : PyStr → Nat} {dir : StateDir K} {ps : List (Process K)} {us : List (Sess K)}
    {css : List (List (Plugin × StatCall K))} {ts : List (Sess K)} (h : Ran E rows cols dir ps us css ts) (hps : ∀ p ∈ ps, p.Fits E keys mods rows cols)
    {nm : PyStr} (hm : nm ∈ keys) (hb : ∀ p ∈ ps, (p.before E).opt.backward ≠ []) (hne : ∃ p ∈ ps, notes outGrad (mods nm) ⟨none, [], [], []⟩ p.body ≠ []) :
    ∃ gs, AllOutGrads (mods nm) ps gs ∧ ∀ t ∈ ts,
      ((∀ p ∈ ps, (p.before E).opt.backward.count .mean = 1) → ∃ T, tensorAt t.st.attrs nMean [nm, LogType.name .backward] = some T ∧
        IsMean gs (some (E.kind (mods nm))) .backward T) ∧
      ((∀ p ∈ ps, (p.before E).opt.backward.count .covariance = 1) → ∃ T, tensorAt t.st.attrs nCov [nm, LogType.name .backward] = some T ∧
        IsSecondMoment gs (some (E.kind (mods nm))) .backward T) := by
  obtain ⟨xss, h1, h2⟩ := pooled_of h (V := fun p xs => Values (allocs p.body) ((notes outGrad (mods nm) ⟨none, [], [], []⟩ p.body).map Prod.fst) xs)
    (cnt := fun p q => (p.before E).opt.backward.count q) (nm := nm) (lt := .backward) (kind := some (E.kind (mods nm)))
    (fun p hp u hu => backward_data E p.setup (hps p hp).configures p.workers p.threshold p.files (mods nm) nm p.ctx p.ids (hps p hp).context p.body
      (fits_logs (hps p hp) nm) ((hps p hp).configured.watches nm hm) (hps p hp).configured.stats (hb p hp) u hu)
    (hne.imp fun p hp => ⟨hp.1, fun hv => hp.2 (List.map_eq_nil_iff.1 (List.forall₂_nil_right_iff.1 hv))⟩)
  exact ⟨_, ⟨xss, h1, rfl⟩, h2⟩

theorem ran_grad {E : SEnv K} {keys : List PyStr} {mods rows cols : PyStr → Nat} {dir : StateDir K} {ps : List (Process K)} {us : List (Sess K)}
    {css : List (List (Plugin × StatCall K))} {ts : List (Sess K)} (h : Ran E rows cols dir ps us css ts) (hps : ∀ p ∈ ps, p.Fits E keys mods rows cols)
    {nm : PyStr} (hm : nm ∈ keys) (hg : ∀ p ∈ ps, (p.before E).opt.grad ≠ []) (hne : ∃ p ∈ ps, notes batchGrads (mods nm) ⟨none, [], [], []⟩ p.body ≠ []) :
    ∃ gs, AllBatchGrads E (mods nm) ps gs ∧ ∀ t ∈ ts,
      ((∀ p ∈ ps, (p.before E).opt.grad.tail.count .mean = 1) → ∃ T, tensorAt t.st.attrs nMean [nm, LogType.name .grad] = some T ∧ IsMean gs none .grad T) ∧
      ((∀ p ∈ ps, (p.before E).opt.grad.tail.count .covariance = 1) → ∃ T, tensorAt t.st.attrs nCov [nm, LogType.name .grad] = some T ∧
        IsSecondMoment gs none .grad T) := by
  obtain ⟨xss, h1, h2⟩ := pooled_of h
    (V := fun p gs => List.Forall₂ (BatchGrad (allocs p.body) (E.kind (mods nm))) ((notes batchGrads (mods nm) ⟨none, [], [], []⟩ p.body).map Prod.fst) gs)
    (cnt := fun p q => (p.before E).opt.grad.tail.count q) (nm := nm) (lt := .grad) (kind := none)
    (fun p hp u hu => grad_data E p.setup (hps p hp).configures p.workers p.threshold p.files (mods nm) nm p.ctx p.ids none (hps p hp).context p.body
      (fun o ho => (fits_logs (hps p hp) nm o ho).1) ((hps p hp).configured.watches nm hm) (hps p hp).configured.stats
      ((hps p hp).configured.grad.resolve_left (hg p hp)) u hu)
    (hne.imp fun p hp => ⟨hp.1, fun hv => hp.2 (List.map_eq_nil_iff.1 (List.forall₂_nil_right_iff.1 hv))⟩)
  exact ⟨_, ⟨xss, h1, rfl⟩, h2⟩

/-- **C128, statistics.** On every process the means and covariances are those of the data of all programs together: of all inputs of a module, of all gradients
of its outputs, and of its per-sample gradients in all batches of all processes. -/
theorem C128_statistics (E : SEnv K) (keys : List PyStr) (mods rows cols : PyStr → Nat) (ps : List (Process K)) (hps : ∀ p ∈ ps, p.Fits E keys mods rows cols)
    (hstep : InStep E ps) (dir : StateDir K) : ∃ (us ts : List (Sess K)) (dir' : StateDir K), List.Forall₂ (Process.Runs E) ps us ∧
      finalizeSessions E us dir = .ok (ts.map (fun t => (t, none)), dir') ∧ ts.length = ps.length ∧ ∀ nm ∈ keys,
      ((∃ p ∈ ps, inputs (mods nm) p.body ≠ []) → ∃ xs, AllInputs (mods nm) ps xs ∧ ∀ t ∈ ts,
        ((∀ p ∈ ps, (p.before E).opt.forward.count .mean = 1) → ∃ T, tensorAt t.st.attrs nMean [nm, LogType.name .forward] = some T ∧
          IsMean xs (some (E.kind (mods nm))) .forward T) ∧
        ((∀ p ∈ ps, (p.before E).opt.forward.count .covariance = 1) → ∃ T, tensorAt t.st.attrs nCov [nm, LogType.name .forward] = some T ∧
          IsSecondMoment xs (some (E.kind (mods nm))) .forward T)) ∧
      ((∀ p ∈ ps, (p.before E).opt.backward ≠ []) → (∃ p ∈ ps, notes outGrad (mods nm) ⟨none, [], [], []⟩ p.body ≠ []) →
        ∃ gs, AllOutGrads (mods nm) ps gs ∧ ∀ t ∈ ts,
        ((∀ p ∈ ps, (p.before E).opt.backward.count .mean = 1) → ∃ T, tensorAt t.st.attrs nMean [nm, LogType.name .backward] = some T ∧
          IsMean gs (some (E.kind (mods nm))) .backward T) ∧
        ((∀ p ∈ ps, (p.before E).opt.backward.count .covariance = 1) → ∃ T, tensorAt t.st.attrs nCov [nm, LogType.name .backward] = some T ∧
          IsSecondMoment gs (some (E.kind (mods nm))) .backward T)) ∧
      ((∀ p ∈ ps, (p.before E).opt.grad ≠ []) → (∃ p ∈ ps, notes batchGrads (mods nm) ⟨none, [], [], []⟩ p.body ≠ []) →
        ∃ gs, AllBatchGrads E (mods nm) ps gs ∧ ∀ t ∈ ts,
        ((∀ p ∈ ps, (p.before E).opt.grad.tail.count .mean = 1) → ∃ T, tensorAt t.st.attrs nMean [nm, LogType.name .grad] = some T ∧ IsMean gs none .grad T) ∧
        ((∀ p ∈ ps, (p.before E).opt.grad.tail.count .covariance = 1) → ∃ T, tensorAt t.st.attrs nCov [nm, LogType.name .grad] = some T ∧
          IsSecondMoment gs none .grad T)) := by
  obtain ⟨us, css, ts, dir', h1, h2⟩ := dist_returns E hps hstep dir
  exact ⟨us, ts, dir', h2.runs, h1, h2.length, fun nm hm => ⟨ran_forward h2 hps hm, ran_backward h2 hps hm, ran_grad h2 hps hm⟩⟩

end

section
variable [Field K] [LinearOrder K] [IsStrictOrderedRing K]

/-- Every process ends in the state of a single process. -/
theorem ran_finalized {E : SEnv K} {rows cols : PyStr → Nat} {dir : StateDir K} {ps : List (Process K)} {us : List (Sess K)}
    {css : List (List (Plugin × StatCall K))} {ts : List (Sess K)} (h : Ran E rows cols dir ps us css ts) {i : Nat} {t : Sess K} (hi : ts[i]? = some t) :
    Finalized E.lib (css.flatten.map (movedTo (procDev ps i))) t.st := by
  obtain ⟨v, dir', h1, h2⟩ := h.done i t hi
  refine ⟨(cluster_moved h.cluster i).plugin, fun pc hpc m hmask => ?_, v, dir, dir', h1, h2⟩
  obtain ⟨pc', h3, rfl⟩ := List.mem_map.1 hpc
  obtain ⟨cs, h4, h5⟩ := List.mem_flatten.1 h3
  obtain ⟨j, hj⟩ := List.getElem?_of_mem h4
  obtain ⟨p, -, hp⟩ := cluster_pair h.calls hj
  have := (hp pc' h5).2
  rw [show (movedTo (procDev ps i) pc').2.mask = pc'.2.mask from rfl, this] at hmask
  cases hmask

/-- What the calls for gradients are, from the configurations. -/
theorem ran_nocov {E : SEnv K} {rows cols : PyStr → Nat} {dir : StateDir K} {ps : List (Process K)} {us : List (Sess K)}
    {css : List (List (Plugin × StatCall K))} {ts : List (Sess K)} (h : Ran E rows cols dir ps us css ts)
    (hg : ∀ p ∈ ps, .covariance ∉ (p.before E).opt.grad.tail) (i : Nat) (m : PyStr) :
    callsOf .covariance m .grad (css.flatten.map (movedTo (procDev ps i))) = [] := by
  rw [callsOf_moved_nil, List.eq_nil_iff_forall_not_mem]
  intro c hc
  obtain ⟨a1, a2⟩ := callsOf_mem hc
  obtain ⟨cs, h4, h5⟩ := List.mem_flatten.1 a1
  obtain ⟨j, hj⟩ := List.getElem?_of_mem h4
  obtain ⟨p, hp, hr⟩ := cluster_pair h.calls hj
  have := (hr _ h5).1
  simp only [a2] at this
  exact hg p (List.mem_of_getElem? hp) this

/-- Gradients with a covariance in the state. -/
theorem usesRaw_of_cov {L : Lib K} {calls : List (Plugin × StatCall K)} {s : LState K} (h : Finalized L calls s) {keys : List PyStr} {hessian : Hess}
    (hh : hessian = .raw ∨ hessian = .auto) (hc : ∀ m ∈ keys, (tensorAt s.attrs nCov [m, LogType.name .grad]).isSome) : UsesRaw s keys hessian := by
  refine usesRaw_of_calls h hh fun m hm h0 => ?_
  obtain ⟨cov, hcov, hi⟩ := finalized_item h
  obtain ⟨x, hx⟩ := Option.isSome_iff_exists.1 (hc m hm)
  obtain ⟨d, a1, a2⟩ := item2_of_tensorAt hx
  rw [getAttr_eq.1 hcov] at a1
  obtain rfl := Option.some.inj a1
  rw [(hi m .grad).1 h0] at a2
  cases a2

/-- The state of every process is ready for influence computations. -/
theorem ran_ready {E : SEnv K} (hE : EighOk E.lib) (hI : InverseOk E.lib) (hL : LibTotal E.lib) {keys : List PyStr} {hessian : Hess} {rows cols : PyStr → Nat}
    {dir : StateDir K} {ps : List (Process K)} {us : List (Sess K)} {css : List (List (Plugin × StatCall K))} {ts : List (Sess K)}
    (h : Ran E rows cols dir ps us css ts) {i : Nat} {t : Sess K} (hi : ts[i]? = some t) {c : K} (hc : 0 < c)
    (hcov : (UsesKfac t.st keys hessian ∧ ∀ m ∈ keys, (tensorAt t.st.attrs nCov [m, LogType.name .forward]).isSome ∧
        (tensorAt t.st.attrs nCov [m, LogType.name .backward]).isSome) ∨
      (UsesRaw t.st keys hessian ∧ ∀ m ∈ keys, (tensorAt t.st.attrs nCov [m, LogType.name .grad]).isSome)) :
    InfReady E.lib t.st keys hessian c rows cols := by
  have hF := ran_finalized h hi
  obtain ⟨v, dir', g1, g3⟩ := h.done i t hi
  have g2 := cluster_moved h.cluster i
  have shape : ∀ m (lt : LogType) x, tensorAt t.st.attrs nCov [m, lt.name] = some x →
      x.shape = [layWidth ⟨fun _ => .cpu, rows, cols⟩ m lt, layWidth ⟨fun _ => .cpu, rows, cols⟩ m lt] ∧
      x.dev = if E.cpuOffload then .cpu else procDev ps i m .forward := fun m lt x hx => regular_cov g1 g3 g2 hx
  have hfit : FitsCov t.st keys hessian rows cols := by
    rcases hcov with ⟨hu, hl⟩ | ⟨hu, hl⟩
    · refine .inl ⟨hu, fun m hm => ?_⟩
      obtain ⟨A, hA⟩ := Option.isSome_iff_exists.1 (hl m hm).1
      obtain ⟨B, hB⟩ := Option.isSome_iff_exists.1 (hl m hm).2
      exact ⟨⟨A, hA, (shape m .forward A hA).1⟩, B, hB, (shape m .backward B hB).1⟩
    · refine .inr ⟨hu, fun m hm => ?_⟩
      obtain ⟨C, hC⟩ := Option.isSome_iff_exists.1 (hl m hm)
      exact ⟨C, hC, (shape m .grad C hC).1⟩
  have hP : PosHessian E.lib t.st keys hessian c := posHessian_of_logged hE hI hF hc hcov
  refine ⟨hP, finalized_hasAttr hF (by decide) rfl, ⟨fun path x hx => ?_, hL.inverse⟩, ⟨fun m lt lt' x y hx hy => ?_, fun m lt lt' x y w w' _ _ hw' => ?_⟩, hfit⟩
  · obtain ⟨n, hn, -⟩ := posHessian_symm hP hx
    exact hL.eigh x n hn
  · rw [(shape m lt x hx).2, (shape m lt' y hy).2]
  · obtain ⟨d, hd, -⟩ := item2_of_tensorAt hw'
    have := finalized_hasAttr hF (n := nEigval) (by decide) rfl
    unfold LState.hasAttr at this
    rw [hd] at this
    cases this

/-- **C128, KFAC.** From the programs of the processes to the scores, without an assumption that anything returns: afterwards `compute_influence` with positive
damping returns on every process, for every pair of logs of the watched modules with gradients of their shapes, and the scores are the influence function
of the data of all programs together. -/
theorem C128_kfac (E : SEnv K) (hE : EighOk E.lib) (hI : InverseOk E.lib) (hL : LibTotal E.lib) (keys : List PyStr) (mods rows cols : PyStr → Nat)
    (ps : List (Process K)) (hps : ∀ p ∈ ps, p.Fits E keys mods rows cols) (hstep : InStep E ps) (dir : StateDir K) (hessian : Hess)
    (hf : ∀ p ∈ ps, (p.before E).opt.forward.count .covariance = 1 ∧ (p.before E).opt.backward.count .covariance = 1)
    (hh : hessian = .kfac ∨ hessian = .auto ∧ ∀ p ∈ ps, .covariance ∉ (p.before E).opt.grad.tail)
    (hne : ∀ nm ∈ keys, (∃ p ∈ ps, inputs (mods nm) p.body ≠ []) ∧ ∃ p ∈ ps, notes outGrad (mods nm) ⟨none, [], [], []⟩ p.body ≠ []) :
    ∃ (us ts : List (Sess K)) (dir' : StateDir K), List.Forall₂ (Process.Runs E) ps us ∧ finalizeSessions E us dir = .ok (ts.map (fun t => (t, none)), dir') ∧ ts.length = ps.length ∧
      ∀ t ∈ ts, ∃ A B : PyStr → Tensor K,
      (∀ nm ∈ keys, (∃ xs, AllInputs (mods nm) ps xs ∧ IsSecondMoment xs (some (E.kind (mods nm))) .forward (A nm)) ∧
        ∃ gs, AllOutGrads (mods nm) ps gs ∧ IsSecondMoment gs (some (E.kind (mods nm))) .backward (B nm)) ∧
      ∀ (d e : GLog K) srcIds tgtIds (dev dev' : Dev), GradLog srcIds d dev rows cols → GradLog tgtIds e dev' rows cols →
        Dict.keys d = keys → (∀ m, m ∈ keys ↔ m ∈ Dict.keys e) → ∀ c, 0 < c → ∀ sqrt,
        ∃ u r T, computeInfluence E.lib sqrt t.st srcIds (.dict d) tgtIds (.dict e) .dot true hessian none (some c) = .ok (u, r) ∧
          r.influence = .one T ∧ r.srcIds = srcIds ∧ r.tgtIds = tgtIds ∧ T.shape = [srcIds.length, tgtIds.length] ∧ ∀ i, i < srcIds.length →
            (∃ x : PyStr → List Nat → K, ∀ m ∈ keys, KfacSystem (entries (A m)) (entries (B m)) c d i m (x m)) ∧
            ∀ x : PyStr → List Nat → K, (∀ m ∈ keys, KfacSystem (entries (A m)) (entries (B m)) c d i m (x m)) →
              ∀ j, j < tgtIds.length → T.el [i, j] = against x e j keys := by
  obtain ⟨us, css, ts, dir', h1, h2⟩ := dist_returns E hps hstep dir
  refine ⟨us, ts, dir', h2.runs, h1, h2.length, fun t ht => ?_⟩
  obtain ⟨i, hi⟩ := List.getElem?_of_mem ht
  have hF := ran_finalized h2 hi
  have key : ∀ nm, ∃ (A B : Tensor K) (w w' : Nat), nm ∈ keys → ((∃ xs, AllInputs (mods nm) ps xs ∧ IsSecondMoment xs (some (E.kind (mods nm))) .forward A) ∧
      ∃ gs, AllOutGrads (mods nm) ps gs ∧ IsSecondMoment gs (some (E.kind (mods nm))) .backward B) ∧
      (tensorAt t.st.attrs nCov [nm, LogType.name .forward] = some A ∧ A.shape = [w, w]) ∧ tensorAt t.st.attrs nCov [nm, LogType.name .backward] = some B ∧
      B.shape = [w', w'] := by
    intro nm
    by_cases hm : nm ∈ keys
    · obtain ⟨xs, a1, a2⟩ := ran_forward h2 hps hm (hne nm hm).1
      obtain ⟨gs, b1, b2⟩ := ran_backward h2 hps hm (fun p hp => count_one_ne_nil (hf p hp).2) (hne nm hm).2
      obtain ⟨A, a3, a4⟩ := (a2 t ht).2 fun p hp => (hf p hp).1
      obtain ⟨B, b3, b4⟩ := (b2 t ht).2 fun p hp => (hf p hp).2
      have a5 := a4
      have b5 := b4
      obtain ⟨w, hw, -⟩ := a5
      obtain ⟨w', hw', -⟩ := b5
      exact ⟨A, B, w, w', fun _ => ⟨⟨⟨xs, a1, a4⟩, gs, b1, b4⟩, ⟨a3, hw⟩, b3, hw'⟩⟩
    · exact ⟨Tensor.ofFn2 .cpu 0 0 fun _ _ => 0, Tensor.ofFn2 .cpu 0 0 fun _ _ => 0, 0, 0, fun h => absurd h hm⟩
  choose A B wA wB hAB using key
  refine ⟨A, B, fun nm hm => (hAB nm hm).1, ?_⟩
  rintro d e srcIds tgtIds dev dev' hd he rfl hke c hcp sqrt
  have hu : UsesKfac t.st (Dict.keys d) hessian := usesKfac_of_calls hF (hh.imp id fun h => ⟨h.1, fun m _ => ran_nocov h2 h.2 i m⟩)
  have hR : InfReady E.lib t.st (Dict.keys d) hessian c rows cols := ran_ready hE hI hL h2 hi hcp
    (.inl ⟨hu, fun m hm => ⟨by rw [(hAB m hm).2.1.1]; rfl, by rw [(hAB m hm).2.2.1]; rfl⟩⟩)
  obtain ⟨u, r, h3, -⟩ := C115_influence_returns (sqrt := sqrt) hR hd he hke true (groups := none) nofun (mode := .dot) (.inl rfl)
  obtain ⟨T, h4⟩ := influence_of_solutions (S := fun i m x => KfacSystem (entries (A m)) (entries (B m)) c d i m x) (GradLog.labelled hd) (GradLog.labelled he)
    (fun s₁ s₂ o H hpre hH => kfac_solutions (a := fun m => entries (A m)) (b := fun m => entries (B m)) hE hI hF hu
      (fun m h => ⟨(hAB m h).2.1.1, (hAB m h).2.1.2, fun _ _ _ _ => rfl⟩) (fun m h => ⟨(hAB m h).2.2.1, (hAB m h).2.2.2, fun _ _ _ _ => rfl⟩)
      hcp (GradLog.labelled hd) hpre hH) h3
  exact ⟨u, r, T, h3, h4⟩

/-- **C128, empirical Fisher.** The same with covariances of `grad`. -/
theorem C128_raw (E : SEnv K) (hE : EighOk E.lib) (hI : InverseOk E.lib) (hL : LibTotal E.lib) (keys : List PyStr) (mods rows cols : PyStr → Nat)
    (ps : List (Process K)) (hps : ∀ p ∈ ps, p.Fits E keys mods rows cols) (hstep : InStep E ps) (dir : StateDir K) (hessian : Hess)
    (hg : ∀ p ∈ ps, (p.before E).opt.grad.tail.count .covariance = 1) (hh : hessian = .raw ∨ hessian = .auto)
    (hne : ∀ nm ∈ keys, ∃ p ∈ ps, notes batchGrads (mods nm) ⟨none, [], [], []⟩ p.body ≠ []) :
    ∃ (us ts : List (Sess K)) (dir' : StateDir K), List.Forall₂ (Process.Runs E) ps us ∧ finalizeSessions E us dir = .ok (ts.map (fun t => (t, none)), dir') ∧ ts.length = ps.length ∧
      ∀ t ∈ ts, ∃ C : PyStr → Tensor K,
      (∀ nm ∈ keys, ∃ gs, AllBatchGrads E (mods nm) ps gs ∧ IsSecondMoment gs none .grad (C nm)) ∧
      ∀ (d e : GLog K) srcIds tgtIds (dev dev' : Dev), GradLog srcIds d dev rows cols → GradLog tgtIds e dev' rows cols →
        Dict.keys d = keys → (∀ m, m ∈ keys ↔ m ∈ Dict.keys e) → ∀ c, 0 < c → ∀ sqrt,
        ∃ u r T, computeInfluence E.lib sqrt t.st srcIds (.dict d) tgtIds (.dict e) .dot true hessian none (some c) = .ok (u, r) ∧
          r.influence = .one T ∧ r.srcIds = srcIds ∧ r.tgtIds = tgtIds ∧ T.shape = [srcIds.length, tgtIds.length] ∧ ∀ i, i < srcIds.length →
            (∃ x : PyStr → List Nat → K, ∀ m ∈ keys, RawSystem (entries (C m)) c d i m (x m)) ∧
            ∀ x : PyStr → List Nat → K, (∀ m ∈ keys, RawSystem (entries (C m)) c d i m (x m)) →
              ∀ j, j < tgtIds.length → T.el [i, j] = against x e j keys := by
  obtain ⟨us, css, ts, dir', h1, h2⟩ := dist_returns E hps hstep dir
  refine ⟨us, ts, dir', h2.runs, h1, h2.length, fun t ht => ?_⟩
  obtain ⟨i, hi⟩ := List.getElem?_of_mem ht
  have hF := ran_finalized h2 hi
  have key : ∀ nm, ∃ (C : Tensor K) (w : Nat), nm ∈ keys → (∃ gs, AllBatchGrads E (mods nm) ps gs ∧ IsSecondMoment gs none .grad C) ∧
      tensorAt t.st.attrs nCov [nm, LogType.name .grad] = some C ∧ C.shape = [w, w] := by
    intro nm
    by_cases hm : nm ∈ keys
    · obtain ⟨gs, a1, a2⟩ := ran_grad h2 hps hm (fun p hp h0 => by have := hg p hp; rw [h0] at this; cases this) (hne nm hm)
      obtain ⟨C, a3, a4⟩ := (a2 t ht).2 hg
      have a5 := a4
      obtain ⟨w, hw, -⟩ := a5
      exact ⟨C, w, fun _ => ⟨⟨gs, a1, a4⟩, a3, hw⟩⟩
    · exact ⟨Tensor.ofFn2 .cpu 0 0 fun _ _ => 0, 0, fun h => absurd h hm⟩
  choose C w hC using key
  refine ⟨C, fun nm hm => (hC nm hm).1, ?_⟩
  rintro d e srcIds tgtIds dev dev' hd he rfl hke c hcp sqrt
  have hu : UsesRaw t.st (Dict.keys d) hessian := usesRaw_of_cov hF hh fun m hm => by rw [(hC m hm).2.1]; rfl
  have hR : InfReady E.lib t.st (Dict.keys d) hessian c rows cols := ran_ready hE hI hL h2 hi hcp (.inr ⟨hu, fun m hm => by rw [(hC m hm).2.1]; rfl⟩)
  obtain ⟨u, r, h3, -⟩ := C115_influence_returns (sqrt := sqrt) hR hd he hke true (groups := none) nofun (mode := .dot) (.inl rfl)
  obtain ⟨T, h4⟩ := influence_of_solutions (S := fun i m x => RawSystem (entries (C m)) c d i m x) (GradLog.labelled hd) (GradLog.labelled he)
    (fun s₁ s₂ o H hpre hH => raw_solutions (S := fun m => entries (C m)) hE hI hF hu (fun m h => ⟨(hC m h).2.1, (hC m h).2.2, fun _ _ _ _ => rfl⟩)
      hcp (GradLog.labelled hd) hpre hH) h3
  exact ⟨u, r, T, h3, h4⟩

end
end Logix
