/-
C111: the samples in the log directory are the per-sample gradients of the program.
-/
import Verif.Props.SessionSaves
import Verif.Lemmas.SessionNames
import Verif.Lemmas.Flat

set_option linter.unusedSectionVars false

namespace Logix
open Spec Sess
variable {K : Type} [Field K]

theorem outcomes_each (E : SEnv K) (ops : List (SOp K)) : ∀ (s t : Sess K), SAct.each (SOp.run E) ops s = (t, none) → ∀ x ∈ outcomes E ops s, x.2 = none := by
  induction ops with
  | nil => exact fun s t _ x hx => nomatch hx
  | cons o ops ih =>
    intro s t h x hx
    obtain ⟨u, h1, h2⟩ := SAct.seq_none h
    rcases List.mem_cons.1 hx with rfl | hx
    · rw [h1]
    · rw [h1] at hx
      exact ih u t h2 x hx

/-- A configured session: no hooks, nothing logged, and the paths to be saved are the gradients of the watched modules. -/
theorem configured_session (E : SEnv K) (ops : List (SOp K)) (hops : ∀ o ∈ ops, Configures o) : ∀ s : Sess K,
    s.fwd = [] → s.tens = [] → s.log = [] → s.paths = s.names.map (fun e => [e.2, LogType.name .grad]) →
    let t := runHistory E ops s
    t.fwd = [] ∧ t.tens = [] ∧ t.log = [] ∧ t.paths = t.names.map (fun e => [e.2, LogType.name .grad]) := by
  induction ops with
  | nil => exact fun s h1 h2 h3 h4 => ⟨h1, h2, h3, h4⟩
  | cons o ops ih =>
    intro s h1 h2 h3 h4
    have next : ∀ u : Sess K, (u.fwd = [] ∧ u.tens = [] ∧ u.log = [] ∧ u.paths = u.names.map (fun e => [e.2, LogType.name .grad])) →
        let t := runHistory E ops u
        t.fwd = [] ∧ t.tens = [] ∧ t.log = [] ∧ t.paths = t.names.map (fun e => [e.2, LogType.name .grad]) :=
      fun u h => ih (fun o ho => hops o (List.mem_cons_of_mem _ ho)) u h.1 h.2.1 h.2.2.1 h.2.2.2
    refine next _ ?_
    have ho := hops o (List.mem_cons_self ..)
    cases o with
    | setup kw => exact ⟨h1, h2, h3, h4⟩
    | save b => exact ⟨h1, h2, h3, h4⟩
    | eval => exact ⟨h1, h2, h3, h4⟩
    | alloc a => exact ⟨h1, h2, h3, h4⟩
    | watch sel =>
      show (Sess.watch sel s).1.fwd = [] ∧ (Sess.watch sel s).1.tens = [] ∧ (Sess.watch sel s).1.log = [] ∧
        (Sess.watch sel s).1.paths = (Sess.watch sel s).1.names.map (fun e => [e.2, LogType.name .grad])
      unfold Sess.watch
      dsimp only
      split
      · next he =>
        refine ⟨h1, h2, h3, ?_⟩
        have hn := List.isEmpty_iff.1 he
        have hs : s.names = [] := by
          have : ∀ (l : List (PyStr × Nat)) (d : Dict Nat PyStr), l.foldl (fun d (e : PyStr × Nat) => Dict.set d e.2 e.1) d = [] → d = [] := by
            intro l
            induction l with
            | nil => exact fun d h => h
            | cons a l ih =>
              intro d h
              have : Dict.set d a.2 a.1 = [] := ih _ h
              cases d with
              | nil => rfl
              | cons b d =>
                have hk := Dict.keys_set (b :: d) a.2 a.1
                rw [this] at hk
                split at hk <;> simp [Dict.keys] at hk
          exact this _ _ hn
        show s.paths = List.map _ (sel.foldl (fun d (e : PyStr × Nat) => Dict.set d e.2 e.1) s.names)
        rw [hn, h4, hs]
      · exact ⟨h1, h2, h3, rfl⟩
    | _ => exact ho.elim

/-- The batches that are handed over have gradients of watched modules only. -/
theorem handed_names (E : SEnv K) {N : List PyStr} {nm : PyStr} (ops : List (SOp K)) : ∀ s : Sess K, NamesInv N s → (∀ o ∈ ops, Logs nm o) →
    ∀ b ∈ saves (handed E ops s), (Dict.keys b.2).Nodup ∧ ∀ e ∈ b.2, e.1 ∈ N ∧ (Dict.keys e.2).Sublist [LogType.name .grad] := by
  induction ops with
  | nil => exact fun s _ _ b hb => nomatch hb
  | cons o ops ih =>
    intro s hs ho b hb
    rw [show handed E (o :: ops) s = handedBy s o ++ handed E ops (o.run E s).1 from rfl, saves_append, List.mem_append] at hb
    rcases hb with hb | hb
    · have hb2 : b.2 = tensors s := by
        have : ∀ (c : Bool) (i : List PyStr), b ∈ saves (if c then [LogOp.save i (tensors s)] else []) → b.2 = tensors s := by
          intro c i h
          cases c with
          | true => rw [List.mem_singleton.1 (show b ∈ [(i, tensors s)] from h)]
          | false => cases h
        cases o with
        | exit => exact this _ _ hb
        | «end» e => exact this _ _ hb
        | _ => cases hb
      rw [hb2]
      refine ⟨?_, fun e he => ?_⟩
      · have : Dict.keys (tensors s) = Dict.keys s.log := by simp [tensors, Dict.keys, Function.comp_def]
        rw [this]
        exact hs.nodup
      · obtain ⟨m, hm, rfl⟩ := List.mem_map.1 he
        obtain ⟨h1, h2⟩ := hs.log m hm
        refine ⟨h1, h2 ▸ ?_⟩
        show (List.map Prod.fst (m.2.filterMap _)).Sublist (List.map Prod.fst m.2)
        generalize m.2 = l
        induction l with
        | nil => exact .slnil
        | cons a l ih =>
          rw [List.filterMap_cons]
          cases s.obj a.2 with
          | none => exact ih.cons _
          | some o => exact ih.cons_cons _
    · exact ih _ (names_step E (ho o (List.mem_cons_self ..)) s hs) (fun o h => ho o (List.mem_cons_of_mem _ h)) b hb

theorem logs_shift {nm : PyStr} {o : SOp K} (k : Nat) (h : Logs nm o) : Logs nm (shift k o) := by
  cases o with
  | watchActivation d =>
    intro e he
    obtain ⟨a, ha, rfl⟩ := List.mem_map.1 he
    exact h a ha
  | _ => exact h

theorem item_mem {log : GLog K} {m t : PyStr} {x : Tensor K} (h : item log m t = some x) : ∃ d, (m, d) ∈ log ∧ t ∈ Dict.keys d := by
  unfold item at h
  obtain ⟨d, h1, h2⟩ := Option.bind_eq_some_iff.1 h
  exact ⟨d, Dict.mem_of_get? _ h1, List.mem_map.2 ⟨_, Dict.mem_of_get? _ h2, rfl⟩⟩

theorem forall₂_mem_right {α β : Type} {R : α → β → Prop} {l : List α} {l' : List β} (h : List.Forall₂ R l l') {b : β} (hb : b ∈ l') : ∃ a ∈ l, R a b := by
  induction h with
  | nil => cases hb
  | cons h1 h2 ih =>
    rcases List.mem_cons.1 hb with rfl | hb
    · exact ⟨_, List.mem_cons_self .., h1⟩
    · obtain ⟨a, ha, hr⟩ := ih hb
      exact ⟨a, List.mem_cons_of_mem _ ha, hr⟩

theorem configures_prepares {o : SOp K} (h : Configures o) : Prepares o := by
  cases o with
  | setup kw => exact .setup _
  | watch sel => exact .watch _
  | save b => exact .save _
  | eval => exact .eval
  | alloc a => exact .alloc _
  | _ => exact h.elim

theorem allocs_append' (a b : List (SOp K)) : allocs (a ++ b) = allocs a ++ allocs b := by simp [allocs]

theorem allocs_shift (k : Nat) (ops : List (SOp K)) : allocs (ops.map (shift k)) = allocs ops := by
  induction ops with
  | nil => rfl
  | cons o ops ih =>
    rw [show o :: ops = [o] ++ ops from rfl, List.map_append, allocs_append', allocs_append', ih]
    congr 1
    cases o <;> rfl

theorem tidy_shift (k : Nat) (ops : List (SOp K)) : ∀ b, Tidy b ops → Tidy b (ops.map (shift k)) := by
  induction ops with
  | nil => exact fun _ _ => trivial
  | cons o ops ih =>
    intro b h
    cases o <;> first | exact ih _ h | exact ⟨h.1, ih _ h.2⟩ | exact h.elim

theorem tidy_append_shift (k : Nat) {ctx body : List (SOp K)} {ids : List PyStr} {mask : Option (Tensor K)} (hx : Context ctx ids mask)
    (h : Tidy false (ctx ++ body)) : Tidy false (ctx ++ body.map (shift k)) := by
  cases hx <;> exact tidy_shift k body _ h

/-- The run that a program makes is a run that can be stored. -/
theorem program_logRun (E : SEnv K) (dec : DType → List UInt8 → K) (d : DType) (pre : List (SOp K)) (hpre : ∀ o ∈ pre, Configures o) (workers : Nat)
    (threshold : Int) (fs : FS) (ctx : List (SOp K)) (ids : List PyStr) (mask : Option (Tensor K)) (hx : Context ctx ids mask) (body : List (SOp K))
    (keys : List PyStr) (mods : PyStr → Nat) (hbody : ∀ o ∈ body, ∀ nm ∈ keys, Logs nm o) (shape : PyStr → List Nat) :
    let s := runHistory E pre (Sess.init workers threshold fs)
    let saved := savedBatches (Saving.after (pre ++ ctx)) (fun _ => ⟨mask, [], [], []⟩) body
    OnlyStatistics s.opt → s.opt.grad.head? = some .log → (∀ nm ∈ keys, Watches s (mods nm) nm) → keys.Nodup → s.paths = gradOrder keys →
    (∀ nm ∈ keys, shape nm ≠ []) → (∃ nm ∈ keys, numel (shape nm) ≠ 0) →
    (∀ u ∈ saved, ∀ nm ∈ keys, Storable ⟨E.encode, dec⟩ d (allocs body) (E.kind (mods nm)) (u.2 (mods nm)) u.1.length (shape nm)) →
    (saved.flatMap (·.1)).Nodup → (Dict.keys fs).Nodup → NoLogs fs → workers ≤ 1 →
    ∀ t, SAct.each (SOp.run E) (ctx ++ body.map (shift s.user.length)) s = (t, none) →
    LogRun ⟨E.encode, dec⟩ d s.paths (fun m _ => shape m) fs workers (handed E (ctx ++ body.map (shift s.user.length)) s) := by
  intro s saved ho hg hw hk hp hdims hsome hst hids hfiles hclean hworkers t ht
  have hH := C111_handed E pre workers threshold fs ctx ids mask hx body keys mods hbody ho hg hw t ht
  obtain ⟨c1, c2, c3, c4⟩ := configured_session E pre hpre (Sess.init workers threshold fs) rfl rfl rfl rfl
  have hN : NamesInv keys s := by
    refine ⟨ho.1, ho.2.1, ho.2.2, fun e he => ?_, ?_, ?_, ?_, ?_⟩
    · have : [e.2, LogType.name .grad] ∈ s.paths := by
        rw [show s.paths = _ from c4]
        exact List.mem_map.2 ⟨e, he, rfl⟩
      rw [hp] at this
      obtain ⟨m, hm, e⟩ := List.mem_map.1 this
      rw [← (List.cons.inj e).1]
      exact hm
    · rw [show s.fwd = [] from c1]; exact fun h hh => nomatch hh
    · rw [show s.tens = [] from c2]; exact fun h hh => nomatch hh
    · rw [show s.log = [] from c3]; exact fun h hh => nomatch hh
    · rw [show s.log = [] from c3]; exact List.nodup_nil
  obtain ⟨n₀, hn₀, hne⟩ := hsome
  have hl : ∀ o ∈ ctx ++ body.map (shift s.user.length), Logs n₀ o := by
    intro o h
    rcases List.mem_append.1 h with h | h
    · cases hx with
      | «with» ids mask save =>
        simp only [List.mem_cons, List.not_mem_nil, or_false] at h
        rcases h with rfl | rfl <;> trivial
      | start ids mask =>
        rw [List.mem_singleton.1 h]; trivial
    · obtain ⟨o, h', rfl⟩ := List.mem_map.1 h
      exact logs_shift _ (hbody o h' n₀ hn₀)
  refine ⟨?_, hfiles, hclean, hworkers, ?_, ?_⟩
  · rw [hp]
    refine ⟨?_, ?_, ?_, ?_, n₀, LogType.name .grad, List.mem_map.2 ⟨n₀, hn₀, rfl⟩, hne⟩
    · exact hk.map fun a b e => (List.cons.inj e).1
    · intro p h
      obtain ⟨m, -, rfl⟩ := List.mem_map.1 h
      exact ⟨m, _, rfl⟩
    · intro m t h
      obtain ⟨m', h, e⟩ := List.mem_map.1 h
      rw [← (List.cons.inj e).1]
      exact List.mem_map.2 ⟨m', h, rfl⟩
    · intro m t h
      obtain ⟨m', h, e⟩ := List.mem_map.1 h
      rw [← (List.cons.inj e).1]
      exact hdims m' h
  · intro b hb
    obtain ⟨h1, h2⟩ := handed_names E _ s hN hl b hb
    obtain ⟨u, hu, h3, h4⟩ := forall₂_mem_right hH hb
    have key : ∀ nm ∈ keys, ∃ T, item b.2 nm (LogType.name .grad) = some T ∧ T.shape = b.1.length :: shape nm ∧
        ∀ c ∈ T.data, dec d (E.encode d c).1 = c := by
      intro nm hm
      have hs := hst u hu nm hm
      rcases h4 nm hm with ⟨h, -⟩ | ⟨T, h5, h6⟩
      · exact absurd h hs.some
      · exact ⟨T, h5, by rw [h3]; exact hs.rows T h6, hs.exact T h6⟩
    refine ⟨h1, fun m hm => (h2 m hm).2.nodup (by simp), ?_, ?_, ?_⟩
    · intro m t x hx
      obtain ⟨d', h5, h6⟩ := item_mem hx
      obtain ⟨h7, h8⟩ := h2 _ h5
      have := List.mem_singleton.1 (h8.subset h6)
      subst this
      obtain ⟨T, h9, h10, -⟩ := key m h7
      rw [hx] at h9
      rw [Option.some.inj h9]
      exact ⟨_, h10⟩
    · intro m t h
      rw [hp] at h
      obtain ⟨m', hm, e⟩ := List.mem_map.1 h
      obtain ⟨rfl, e'⟩ := List.cons.inj (show [m', LogType.name .grad] = [m, t] from e)
      obtain ⟨rfl, -⟩ := List.cons.inj e'
      obtain ⟨T, h9, h10, -⟩ := key m' hm
      exact ⟨T, h9, h10⟩
    · intro m t x h hx
      rw [hp] at h
      obtain ⟨m', hm, e⟩ := List.mem_map.1 h
      obtain ⟨rfl, e'⟩ := List.cons.inj (show [m', LogType.name .grad] = [m, t] from e)
      obtain ⟨rfl, -⟩ := List.cons.inj e'
      obtain ⟨T, h9, -, h10⟩ := key m' hm
      rw [hx] at h9
      rw [Option.some.inj h9]
      exact h10
  · have : (saves (handed E (ctx ++ body.map (shift s.user.length)) s)).flatMap (·.1) = saved.flatMap (·.1) := by
      clear hst hids
      revert hH
      generalize saves (handed E (ctx ++ body.map (shift s.user.length)) s) = l
      show List.Forall₂ _ saved l → _
      generalize saved = l'
      intro h
      induction h with
      | nil => rfl
      | cons h1 _ ih => rw [List.flatMap_cons, List.flatMap_cons, ih, h1.1]
    rw [this]
    exact hids

theorem forall₂_split_left {α β : Type} {R : α → β → Prop} {l : List α} {u : α} {r : List α} {l' : List β} (h : List.Forall₂ R (l ++ u :: r) l') :
    ∃ a b c, l' = a ++ b :: c ∧ List.Forall₂ R l a ∧ R u b := by
  induction l generalizing l' with
  | nil =>
    obtain ⟨b, c, h1, -, rfl⟩ := List.forall₂_cons_left_iff.1 h
    exact ⟨[], b, c, rfl, .nil, h1⟩
  | cons x l ih =>
    obtain ⟨y, c, h1, h2, rfl⟩ := List.forall₂_cons_left_iff.1 h
    obtain ⟨a, b, c, rfl, h3, h4⟩ := ih h2
    exact ⟨y :: a, b, c, rfl, .cons h1 h3, h4⟩

/-- **C111, the log directory.** A session is configured: modules are watched (each once, under a name of its own), gradients are logged, raw inputs
and output gradients are not. A batch context is opened, in either interface, and any program of model runs and further batches goes on from
there (gradients arriving only within batches) until the run is finalized, without exception. In every batch that the program asked to save some
gradient of every watched module has arrived, with one row per id, and its numbers can be stored exactly; the ids are all different. Then the
dataset that is read from the log directory, whatever the order in which the directory lists its files, has one sample per saved id, in order;
sample `j` of a saved batch has the id number `j`, and, for every watched module, row `j` of the sum of the per-sample gradients of the uses of
the module in the batch. -/
theorem C111_samples (E : SEnv K) (dec : DType → List UInt8 → K) (d : DType) (pre : List (SOp K)) (hpre : ∀ o ∈ pre, Configures o) (workers : Nat)
    (threshold : Int) (fs : FS) (ctx : List (SOp K)) (ids : List PyStr) (mask : Option (Tensor K)) (hx : Context ctx ids mask) (body : List (SOp K))
    (keys : List PyStr) (mods : PyStr → Nat) (hbody : ∀ o ∈ body, ∀ nm ∈ keys, Logs nm o) (shape : PyStr → List Nat) (dir : StateDir K)
    (hd : E.dtype = some d ∨ (E.dtype = none ∧ ∀ o ∈ allocs (pre ++ body), o.dtype = d)) :
    let s := runHistory E pre (Sess.init workers threshold fs)
    let saved := savedBatches (Saving.after (pre ++ ctx)) (fun _ => ⟨mask, [], [], []⟩) body
    OnlyStatistics s.opt → s.opt.grad.head? = some .log → (∀ nm ∈ keys, Watches s (mods nm) nm) → keys.Nodup → s.paths = gradOrder keys →
    (∀ nm ∈ keys, shape nm ≠ []) → (∃ nm ∈ keys, numel (shape nm) ≠ 0) → Tidy false (ctx ++ body) →
    (∀ u ∈ saved, ∀ nm ∈ keys, Storable ⟨E.encode, dec⟩ d (allocs body) (E.kind (mods nm)) (u.2 (mods nm)) u.1.length (shape nm)) →
    (saved.flatMap (·.1)).Nodup → (Dict.keys fs).Nodup → NoLogs fs → workers ≤ 1 →
    ∀ t, SAct.each (SOp.run E) (ctx ++ body.map (shift s.user.length) ++ [.finalize dir]) s = (t, none) →
    ∀ listing : List PyStr, listing.Perm (Dict.keys t.fs) →
    ∃ ds, openDataset t.fs listing = .ok ds ∧ ds.len = (saved.flatMap (·.1)).length ∧
      ∀ l u r, saved = l ++ u :: r → ∀ (j : Nat) (hj : j < u.1.length),
        ∃ v, ds.getItem ((l.flatMap (·.1)).length + j) = .ok (u.1[j], v) ∧
          ∀ nm ∈ keys, ∃ T a, BatchGrad (allocs body) (E.kind (mods nm)) (u.2 (mods nm)) T ∧ v.lookup [nm, LogType.name .grad] = some a ∧
            a.dtype = d ∧ a.shape = shape nm ∧
            ∀ idx, inRange (shape nm) idx = true → (Codec.tensor ⟨E.encode, dec⟩ a).el idx = T.el (j :: idx) := by
  intro s saved ho hg hw hk hp hdims hsome hT hst hids hfiles hclean hworkers t ht listing hlist
  obtain ⟨t₁, ht₁, -⟩ : ∃ t₁, SAct.each (SOp.run E) (ctx ++ body.map (shift s.user.length)) s = (t₁, none) ∧ True := by
    rw [SAct.each_append] at ht
    obtain ⟨u, h1, -⟩ := SAct.seq_none ht
    exact ⟨u, h1, trivial⟩
  have hH := C111_handed E pre workers threshold fs ctx ids mask hx body keys mods hbody ho hg hw t₁ ht₁
  have hR := program_logRun E dec d pre hpre workers threshold fs ctx ids mask hx body keys mods hbody shape ho hg hw hk hp hdims hsome hst hids hfiles hclean
    hworkers t₁ ht₁
  have hfin := history_each E _ s t ht
  have hT' : Tidy false (ctx ++ body.map (shift s.user.length)) := tidy_append_shift _ hx hT
  have hd' : E.dtype = some d ∨ (E.dtype = none ∧ ∀ o ∈ allocs (pre ++ (ctx ++ body.map (shift s.user.length))), o.dtype = d) := by
    rcases hd with hd | ⟨hd, h⟩
    · exact Or.inl hd
    · refine Or.inr ⟨hd, fun o ho => h o ?_⟩
      have : allocs (ctx ++ body.map (shift s.user.length)) = allocs body := by
        rw [allocs_append', allocs_shift]
        cases hx <;> rfl
      rw [allocs_append', this, ← allocs_append'] at ho
      exact ho
  obtain ⟨ds, h1, h2, h3⟩ := C86_samples_partial E dec d pre _ dir workers threshold fs (fun o h => configures_prepares (hpre o h)) hd' (fun m _ => shape m) ho.1 ho.2.1 hT'
    (fun x h _ => outcomes_each E _ s t ht x h) hR listing (by rw [show runHistory E _ (runHistory E pre (Sess.init workers threshold fs)) = t from hfin]; exact hlist)
  rw [show runHistory E _ (runHistory E pre (Sess.init workers threshold fs)) = t from hfin] at h1
  have hflat : ∀ (a : List (List PyStr × (Nat → List (Nat × Nat)))) (b : List (List PyStr × GLog K)),
      List.Forall₂ (fun u b => b.1 = u.1 ∧ ∀ nm ∈ keys, HoldsGrad (allocs body) (E.kind (mods nm)) (u.2 (mods nm)) (item b.2 nm (LogType.name .grad))) a b →
      (b.flatMap (·.1)).length = (a.flatMap (·.1)).length := by
    intro a b h
    induction h with
    | nil => rfl
    | cons h1 _ ih => rw [List.flatMap_cons, List.flatMap_cons, List.length_append, List.length_append, ih, h1.1]
  refine ⟨ds, h1, h2.trans (hflat _ _ hH), ?_⟩
  intro l u r hS j hj
  have hu : u ∈ saved := by rw [hS]; simp
  have hH' := hH
  rw [show savedBatches (Saving.after (pre ++ ctx)) (fun _ => ⟨mask, [], [], []⟩) body = _ from hS] at hH'
  obtain ⟨a, b, c, e1, e2, e3, e4⟩ := forall₂_split_left hH'
  obtain ⟨v, h4, h5⟩ := h3 a b c e1 j (by rw [e3]; exact hj)
  rw [hflat _ _ e2] at h4
  refine ⟨v, ?_, fun nm hm => ?_⟩
  · simpa only [e3] using h4
  · obtain ⟨x, y, i1, i2, i3, i4, i5⟩ := h5 nm (LogType.name .grad) (by
      rw [show (runHistory E pre (Sess.init workers threshold fs)).paths = _ from hp]
      exact List.mem_map.2 ⟨nm, hm, rfl⟩)
    rcases e4 nm hm with ⟨h, -⟩ | ⟨T, h6, h7⟩
    · exact absurd h (hst u hu nm hm).some
    · rw [i1] at h6
      obtain rfl := Option.some.inj h6
      exact ⟨x, y, h7, i2, i3, i4, i5⟩

/-- The gradient of a batch is determined, up to the device, by the program. -/
theorem batchGrad_unique {tensors : List (TObj K)} {kind : ModKind} {arrived : List (Nat × Nat)} {T T' : Tensor K}
    (h : BatchGrad tensors kind arrived T) (h' : BatchGrad tensors kind arrived T') : T.shape = T'.shape ∧ T.data = T'.data := by
  obtain ⟨vs, h1, h2, h3, h4⟩ := h
  obtain ⟨vs', h1', h2', h3', h4'⟩ := h'
  have e : vs = vs' := by
    clear h2 h3 h4 h2' h3' h4'
    induction h1 generalizing vs' with
    | nil => exact (List.forall₂_nil_left_iff.1 h1').symm
    | cons a _ ih =>
      obtain ⟨v, c, b, hc, rfl⟩ := List.forall₂_cons_left_iff.1 h1'
      obtain ⟨x, g, a1, a2, a3⟩ := a
      obtain ⟨x', g', b1, b2, b3⟩ := b
      rw [a1] at b1; rw [a2] at b2
      obtain rfl := Option.some.inj b1
      obtain rfl := Option.some.inj b2
      rw [a3] at b3
      rw [ih _ hc, Except.ok.inj b3]
  subst e
  obtain ⟨v, hv⟩ := List.exists_mem_of_ne_nil _ h2
  have hs : T.shape = T'.shape := (h3 v hv).symm.trans (h3' v hv)
  refine ⟨hs, ?_⟩
  rw [data_el T, data_el T', hs]
  exact List.map_congr_left fun idx _ => (h4 idx).trans (h4' idx).symm

/-- To see that a gradient can be stored, it is enough to look at it once. -/
theorem storable_of {C : Codec K} {d : DType} {tensors : List (TObj K)} {kind : ModKind} {arrived : List (Nat × Nat)} {n : Nat} {shape : List Nat}
    {T : Tensor K} (h : BatchGrad tensors kind arrived T) (hs : T.shape = n :: shape) (hc : ∀ c ∈ T.data, C.dec d (C.enc d c).1 = c) :
    Storable C d tensors kind arrived n shape := by
  refine ⟨?_, fun T' h' => (batchGrad_unique h' h).1.trans hs, fun T' h' => by rw [(batchGrad_unique h' h).2]; exact hc⟩
  rintro rfl
  obtain ⟨vs, h1, h2, -⟩ := h
  exact h2 (List.forall₂_nil_left_iff.1 h1)

end Logix
